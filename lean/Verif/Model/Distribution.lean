import Verif.Model.Storage
import Mathlib.MeasureTheory.Integral.IntervalIntegral.Basic
import Mathlib.Analysis.SpecialFunctions.Log.Basic
/-
Approximated distributions: /repo/mlmc/tool/simple_distribution.py, /repo/mlmc/tool/distribution.py.
Modelled: the distribution function, the density and its normalization.  The optimization of the multipliers is not modelled: it may return any multipliers.
-/
namespace MLMC.Dist
section
variable {K : Type} [Zero K] [One K] [Add K] [LE K] [DecidableLE K]

/-- The loop of `cdf`, /repo/mlmc/tool/simple_distribution.py:115-124, /repo/mlmc/tool/distribution.py:203-212.  `quad a b` is `fixed_quad(self.density, a, b, n=10)[0]`. -/
def cdfLoop (quad : K → K → K) (lo hi : K) : List K → K → K → List K
  | [], _, _ => []
  | v :: vs, lastX, lastY =>
    if v ≤ lo then 0 :: cdfLoop quad lo hi vs lastX 0
    else if hi ≤ v then 1 :: cdfLoop quad lo hi vs lastX 1
    else (lastY + quad lastX v) :: cdfLoop quad lo hi vs v (lastY + quad lastX v)

/-- `cdf`, /repo/mlmc/tool/simple_distribution.py:108-125, /repo/mlmc/tool/distribution.py:196-213.  The result of `np.sort(values)` is thrown away. -/
def cdf (quad : K → K → K) (lo hi : K) (values : List K) : List K := cdfLoop quad lo hi values lo 0
end

section
open MeasureTheory
variable {n : Nat}

/-- `power` in `SimpleDistribution.density` before clipping, /repo/mlmc/tool/simple_distribution.py:102-103. -/
noncomputable def power (moms : Fin (n + 1) → ℝ → ℝ) (errs mult : Fin (n + 1) → ℝ) (x : ℝ) : ℝ := -∑ i, moms i x * mult i / errs i

/-- `SimpleDistribution.density`, /repo/mlmc/tool/simple_distribution.py:96-105. -/
noncomputable def density (moms : Fin (n + 1) → ℝ → ℝ) (errs mult : Fin (n + 1) → ℝ) (x : ℝ) : ℝ := Real.exp (min (max (power moms errs mult x) (-200)) 200)

/-- `_calculate_exact_moment(multipliers, m=0)`, /repo/mlmc/tool/simple_distribution.py:157-174, with exact integration. -/
noncomputable def moment0 (moms : Fin (n + 1) → ℝ → ℝ) (errs mult : Fin (n + 1) → ℝ) (a b : ℝ) : ℝ := ∫ x in a..b, density moms errs mult x * moms 0 x

/-- "Fix normalization" of `estimate_density_minimize`, /repo/mlmc/tool/simple_distribution.py:81-86. -/
noncomputable def fixNormalization (moms : Fin (n + 1) → ℝ → ℝ) (errs mult : Fin (n + 1) → ℝ) (a b : ℝ) : Fin (n + 1) → ℝ :=
  Function.update mult 0 (mult 0 - Real.log (moment0 moms errs mult a b))

/-- `Distribution.density`, /repo/mlmc/tool/distribution.py:184-194. -/
noncomputable def density' (moms : Fin (n + 1) → ℝ → ℝ) (errs mult : Fin (n + 1) → ℝ) (x : ℝ) : ℝ := Real.exp (power moms errs mult x)

/-- "Fix normalization" of `Distribution.estimate_density_minimize`, /repo/mlmc/tool/distribution.py:149-151, 255-264, with exact integration. -/
noncomputable def fixNormalization' (moms : Fin (n + 1) → ℝ → ℝ) (errs mult : Fin (n + 1) → ℝ) (a b : ℝ) : Fin (n + 1) → ℝ :=
  fun i => mult i / moment0 moms errs mult a b
end
end MLMC.Dist
