import Verif.Model.Storage
import Mathlib.Analysis.SpecialFunctions.Gamma.Basic
import Mathlib.Analysis.Real.Sqrt
import Mathlib.MeasureTheory.Integral.IntervalIntegral.Basic
/-
Variances of the logarithms of estimated variances: `Estimate._variance_of_variance`, /repo/mlmc/estimator.py:136-169.  Floating point numbers are real numbers and `integrate.quad` is
the integral; an undefined number is `none`.
-/
namespace MLMC.VarVar

/-- `st.chi2.pdf(y, df=df)`, /repo/mlmc/estimator.py:158. -/
noncomputable def chiPdf (df y : ℝ) : ℝ := if 0 ≤ y then (1 / 2) ^ (df / 2) / Real.Gamma (df / 2) * y ^ (df / 2 - 1) * Real.exp (-(1 / 2 * y)) else 0

/-- `log_chi_pdf`, /repo/mlmc/estimator.py:157-158. -/
noncomputable def logChiPdf (df x : ℝ) : ℝ := Real.exp x * df * chiPdf df (Real.exp x * df)

/-- `compute_moment`, /repo/mlmc/estimator.py:160-163. -/
noncomputable def computeMoment (df : ℝ) (m : Nat) : ℝ := ∫ x in (-100 * √(2 / df))..(100 * √(2 / df)), x ^ m * logChiPdf df x

/-- One round of the loop, /repo/mlmc/estimator.py:154-167: no samples give the square root of a negative number, one sample divides by zero (`ZeroDivisionError`). -/
noncomputable def ofLevel : Nat → Except PyErr (Option ℝ)
  | 0 => .ok none
  | 1 => .error .other
  | n + 2 => .ok (some (computeMoment (n + 1 : ℕ) 2 - computeMoment (n + 1 : ℕ) 1 ^ 2))

/-- `np.sum(np.abs(np.array(ns) - np.array(n_samples))) == 0`, /repo/mlmc/estimator.py:149: arrays of length one are broadcast, other different lengths raise `ValueError`. -/
def sameNumbers (ns n : List Nat) : Except PyErr Bool :=
  if ns.length = n.length then .ok (ns == n)
  else if ns.length = 1 then .ok (n.all (· == ns.headD 0))
  else if n.length = 1 then .ok (ns.all (· == n.headD 0))
  else .error .valueError

/-- `_variance_of_variance(n_samples)`, /repo/mlmc/estimator.py:145-169.  `n` is the list object (lists are objects, which the caller may change later; `heap` gives the present contents);
`saved` is the attribute `_saved_var_var`, which keeps the object and the values.  Returns the values and the attribute. -/
noncomputable def call (heap : Nat → List Nat) (n : Nat) (saved : Option (Nat × List (Option ℝ))) : Except PyErr (List (Option ℝ) × Option (Nat × List (Option ℝ))) :=
  match saved with
  | none => ((heap n).mapM ofLevel).map fun vs => (vs, some (n, vs))
  | some (ns, vals) => (sameNumbers (heap ns) (heap n)).bind fun b =>
    if b then .ok (vals, saved) else ((heap n).mapM ofLevel).map fun vs => (vs, some (n, vs))

/-- Calls one after another, each with the contents of the lists at that time, /repo/mlmc/estimator.py:65, 111; an exception leaves the attribute as it is. -/
noncomputable def calls : List ((Nat → List Nat) × Nat) → Option (Nat × List (Option ℝ)) → List (Except PyErr (List (Option ℝ)))
  | [], _ => []
  | (heap, n) :: rest, saved => match call heap n saved with
    | .ok r => .ok r.1 :: calls rest r.2
    | .error e => .error e :: calls rest saved

end MLMC.VarVar
