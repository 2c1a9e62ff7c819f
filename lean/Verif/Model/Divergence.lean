import Mathlib.Analysis.SpecialFunctions.Log.Basic
import Mathlib.Analysis.Real.Sqrt
/-
Distances between densities: /repo/mlmc/tool/simple_distribution.py:443-464, /repo/mlmc/tool/distribution.py:441-455.
Densities are real functions of reals; `none` stands for a floating point value that is no number (NaN or infinite).  `quad f a b` is the first
result of `scipy.integrate.quad(f, a, b)`, an argument.
-/
namespace MLMC.Dist

/-- The constant `1e-300` of /repo/mlmc/tool/simple_distribution.py:454. -/
noncomputable def eps300 : ℝ := 10 ^ (-300 : ℤ)

/-- The constant `1e300` of /repo/mlmc/tool/distribution.py:448. -/
noncomputable def big300 : ℝ := 10 ^ 300

/-- `integrand` of `KL_divergence` for the values `p`, `q` of the densities, /repo/mlmc/tool/simple_distribution.py:450-456.  `0 * log(0)` is NaN, so is the
logarithm of a negative number. -/
noncomputable def klIntegrand (p q : ℝ) : Option ℝ :=
  let q := max q eps300
  if p ≤ 0 then none else some (p * Real.log (p / q) - p + q)

/-- `max(value, 1e-10)`, where a NaN in the first place stays.  /repo/mlmc/tool/simple_distribution.py:459, /repo/mlmc/tool/distribution.py:450. -/
noncomputable def floorValue (v : Option ℝ) : Option ℝ := v.map fun v => max v (1e-10)

/-- `KL_divergence`, /repo/mlmc/tool/simple_distribution.py:443-459. -/
noncomputable def klDivergence (quad : (ℝ → Option ℝ) → ℝ → ℝ → Option ℝ) (prior posterior : ℝ → ℝ) (a b : ℝ) : Option ℝ :=
  floorValue (quad (fun x => klIntegrand (prior x) (posterior x)) a b)

/-- `integrand` of the older `KL_divergence`, /repo/mlmc/tool/distribution.py:448: a zero of the posterior gives an infinite logarithm (NaN if the prior is
zero as well), a zero of the prior alone the value 0, different signs NaN. -/
noncomputable def klIntegrand' (p q : ℝ) : Option ℝ :=
  if q = 0 ∨ p / q < 0 then none else if p = 0 then some 0 else some (p * max (Real.log (p / q)) (-big300))

/-- `KL_divergence`, /repo/mlmc/tool/distribution.py:441-450. -/
noncomputable def klDivergence' (quad : (ℝ → Option ℝ) → ℝ → ℝ → Option ℝ) (prior posterior : ℝ → ℝ) (a b : ℝ) : Option ℝ :=
  floorValue (quad (fun x => klIntegrand' (prior x) (posterior x)) a b)

/-- `L2_distance`, /repo/mlmc/tool/simple_distribution.py:462-464, /repo/mlmc/tool/distribution.py:453-455: the square root is taken of the value and of the
error estimate, the first is returned; the root of a negative number is NaN. -/
noncomputable def l2Distance (quad : (ℝ → Option ℝ) → ℝ → ℝ → Option ℝ) (prior posterior : ℝ → ℝ) (a b : ℝ) : Option ℝ :=
  (quad (fun x => some ((posterior x - prior x) ^ 2)) a b).bind fun v => if v < 0 then none else some (Real.sqrt v)

end MLMC.Dist
