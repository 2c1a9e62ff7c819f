import Verif.Model.Storage
import Mathlib.Analysis.Real.Sqrt
/-
The statistical tests of /repo/mlmc/tool/stats_tests.py.  The distribution functions of `scipy.stats` are arguments; numbers are reals.
-/
namespace MLMC.Stat

/-- `np.mean`. Used by `np.var` in /repo/mlmc/tool/stats_tests.py:29 and by the t-test of line 16. -/
noncomputable def mean (xs : List ℝ) : ℝ := xs.sum / xs.length

/-- `np.var` (division by the number of samples), /repo/mlmc/tool/stats_tests.py:29. -/
noncomputable def var (xs : List ℝ) : ℝ := (xs.map fun x => (x - mean xs) ^ 2).sum / xs.length

/-- `p_val` of `chi2_test`, /repo/mlmc/tool/stats_tests.py:28-32; `cdf df` is the distribution function of the χ² distribution.  `var_0` is not zero
and there are samples. -/
noncomputable def chi2P (cdf : Nat → ℝ → ℝ) (var0 : ℝ) (xs : List ℝ) : ℝ :=
  2 * min (cdf (xs.length - 1) (var xs * xs.length / var0)) (1 - cdf (xs.length - 1) (var xs * xs.length / var0))

open Classical in
/-- `chi2_test`, /repo/mlmc/tool/stats_tests.py:20-34. -/
noncomputable def chi2Test (cdf : Nat → ℝ → ℝ) (var0 : ℝ) (xs : List ℝ) (maxP : ℝ) : Except PyErr Unit :=
  if chi2P cdf var0 xs > maxP then .ok () else .error .assertionError

/-- The p-value of `st.ttest_1samp`, /repo/mlmc/tool/stats_tests.py:16: `2 sf(|T|)` with Student's distribution; `sf df` is its survival function.  Equal samples
give an infinite `T` (p-value 0), or no number if they are equal to `mu_0` (`none`). -/
noncomputable def tP (sf : Nat → ℝ → ℝ) (mu0 : ℝ) (xs : List ℝ) : Option ℝ :=
  open Classical in
  if var xs = 0 then (if mean xs = mu0 then none else some 0)
  else some (2 * sf (xs.length - 1) |(mean xs - mu0) / Real.sqrt (var xs / (xs.length - 1 : ℝ))|)

open Classical in
/-- `t_test`, /repo/mlmc/tool/stats_tests.py:5-17. -/
noncomputable def tTest (sf : Nat → ℝ → ℝ) (mu0 : ℝ) (xs : List ℝ) (maxP : ℝ) : Except PyErr Unit :=
  match tP sf mu0 xs with
  | some p => if p < maxP then .ok () else .error .assertionError
  | none => .error .assertionError

/-- The statistic of `st.f_oneway`, /repo/mlmc/tool/stats_tests.py:44: the variance between the groups over the one within them.  (Groups of at least two values, not all groups constant;
otherwise SciPy returns no number or infinity.) -/
noncomputable def fStatistic (groups : List (List ℝ)) : ℝ :=
  ((groups.map fun g => g.length * (mean g - mean groups.flatten) ^ 2).sum / (groups.length - 1 : ℝ)) /
    ((groups.map fun g => (g.map fun x => (x - mean g) ^ 2).sum).sum / (groups.flatten.length - groups.length : ℝ))

open Classical in
/-- `anova`, /repo/mlmc/tool/stats_tests.py:37-54; `sf a b` is the survival function of Fisher's distribution, which gives the p-value of line 44. -/
noncomputable def anova (sf : Nat → Nat → ℝ → ℝ) (groups : List (List ℝ)) : Bool :=
  if sf (groups.length - 1) (groups.flatten.length - groups.length) (fStatistic groups) > 5 / 100 then true else false

end MLMC.Stat
