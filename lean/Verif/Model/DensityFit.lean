import Mathlib.Analysis.SpecialFunctions.Exp
import Mathlib.Analysis.SpecialFunctions.Log.Basic
/-
The minimized functional of the density approximation, its gradient and its second derivatives: /repo/mlmc/tool/simple_distribution.py:236-327, /repo/mlmc/tool/distribution.py:325-419.
Numbers are reals.  The quadrature (points and weights) is an argument: `_update_quadrature` replaces it only when the multipliers moved far enough, and between two replacements every function below sees the same one.
-/
namespace MLMC.Fit
variable {n Q : Nat}

/-- What the three functions read.  `mom q i` is `_quad_moments[q, i]`, `ends s i` is `_end_point_diff[s, i]`, `coef` is `_penalty_coef` (0 at /repo/mlmc/tool/simple_distribution.py:48, 10 at /repo/mlmc/tool/distribution.py:47), `stab` and `last` are `_stab_penalty` and `_last_solved_multipliers` (/repo/mlmc/tool/distribution.py:235-236; `last` is read below `lastSize`, the number of multipliers of the previous stage, only; `SimpleDistribution` has no such term: `stab = 0`). -/
structure Data (n Q : Nat) where
  weights : Fin Q → ℝ
  mom : Fin Q → Fin (n + 1) → ℝ
  means : Fin (n + 1) → ℝ
  errs : Fin (n + 1) → ℝ
  ends : Fin 2 → Fin (n + 1) → ℝ
  coef : ℝ
  stab : ℝ
  lastSize : Nat
  last : Fin (n + 1) → ℝ

/-- `power` before clipping, /repo/mlmc/tool/simple_distribution.py:255, /repo/mlmc/tool/distribution.py:348. -/
noncomputable def power (d : Data n Q) (m : Fin (n + 1) → ℝ) (q : Fin Q) : ℝ := -∑ i, d.mom q i * (m i / d.errs i)

/-- `_density_in_quads`, /repo/mlmc/tool/simple_distribution.py:254-257 (also /repo/mlmc/tool/distribution.py:348-350). -/
noncomputable def dens (d : Data n Q) (m : Fin (n + 1) → ℝ) (q : Fin Q) : ℝ := Real.exp (min (max (power d m q) (-200)) 200)

/-- `sum` of the functional, /repo/mlmc/tool/simple_distribution.py:268. -/
noncomputable def lin (d : Data n Q) (m : Fin (n + 1) → ℝ) : ℝ := ∑ i, d.means i * m i / d.errs i

/-- `end_diff[s]`, /repo/mlmc/tool/simple_distribution.py:270. -/
noncomputable def endDiff (d : Data n Q) (m : Fin (n + 1) → ℝ) (s : Fin 2) : ℝ := ∑ i, d.ends s i * m i

/-- `penalty` of the functional, /repo/mlmc/tool/simple_distribution.py:271. -/
noncomputable def penalty (d : Data n Q) (m : Fin (n + 1) → ℝ) : ℝ := ∑ s, max (endDiff d m s) 0 ^ 2

/-- `sum + integral`, /repo/mlmc/tool/simple_distribution.py:267-268, 272. -/
noncomputable def base (d : Data n Q) (m : Fin (n + 1) → ℝ) : ℝ := lin d m + ∑ q, dens d m q * d.weights q

/-- `_calculate_functional`, /repo/mlmc/tool/simple_distribution.py:259-275 (`stab = 0`) and /repo/mlmc/tool/distribution.py:340-360. -/
noncomputable def functional (d : Data n Q) (m : Fin (n + 1) → ℝ) : ℝ :=
  base d m + |base d m| * d.coef * penalty d m + 1 / 2 * d.stab * ∑ i : Fin (n + 1), if i.val < d.lastSize then (d.last i - m i) ^ 2 else 0

/-- `integral[i]` of the gradient for the density `ρ` in the quadrature points, /repo/mlmc/tool/simple_distribution.py:284-285. -/
noncomputable def integral (d : Data n Q) (ρ : Fin Q → ℝ) (i : Fin (n + 1)) : ℝ := (∑ q, d.mom q i * ρ q * d.weights q) / d.errs i

/-- The gradient for the density `ρ` in the quadrature points, /repo/mlmc/tool/simple_distribution.py:284-291, /repo/mlmc/tool/distribution.py:372-381. -/
noncomputable def gradientOf (d : Data n Q) (ρ : Fin Q → ℝ) (m : Fin (n + 1) → ℝ) (i : Fin (n + 1)) : ℝ :=
  d.means i / d.errs i - integral d ρ i + |lin d m + integral d ρ 0 * d.errs 0| * d.coef * (2 * ∑ s, max (endDiff d m s) 0 * d.ends s i)
    + if i.val < d.lastSize then d.stab * (m i - d.last i) else 0

/-- `SimpleDistribution._calculate_gradient`, /repo/mlmc/tool/simple_distribution.py:277-291. -/
noncomputable def gradient (d : Data n Q) (m : Fin (n + 1) → ℝ) : Fin (n + 1) → ℝ := gradientOf d (dens d m) m

/-- `Distribution._calculate_gradient`, /repo/mlmc/tool/distribution.py:363-381: the exponent is not clipped here (line 370 is a comment). -/
noncomputable def gradient' (d : Data n Q) (m : Fin (n + 1) → ℝ) : Fin (n + 1) → ℝ := gradientOf d (fun q => Real.exp (power d m q)) m

/-- The matrix before the penalty, /repo/mlmc/tool/simple_distribution.py:299-302 (/repo/mlmc/tool/distribution.py:389-402 fills both triangles with the same numbers). -/
noncomputable def jac0 (d : Data n Q) (m : Fin (n + 1) → ℝ) (i j : Fin (n + 1)) : ℝ :=
  ∑ q, d.mom q i / d.errs i * (dens d m q * d.weights q) * (d.mom q j / d.errs j)

/-- `_calculate_jacobian_matrix`, /repo/mlmc/tool/simple_distribution.py:293-327 (`stab = 0`) and /repo/mlmc/tool/distribution.py:383-419; line 412 adds the stabilization to the whole diagonal. -/
noncomputable def jacobian (d : Data n Q) (m : Fin (n + 1) → ℝ) (i j : Fin (n + 1)) : ℝ :=
  jac0 d m i j
    + (∑ s, if 0 < endDiff d m s then |lin d m + jac0 d m 0 0 * d.errs 0 ^ 2| * d.coef * (2 * (d.ends s i * d.ends s j)) else 0)
    + if i = j then d.stab else 0

/-- The multipliers `SimpleDistribution._initialize_params` starts from, /repo/mlmc/tool/simple_distribution.py:142-144. -/
noncomputable def initialMultipliers (a b : ℝ) (i : Fin (n + 1)) : ℝ := if i = 0 then -Real.log (1 / (b - a)) else 0

/-- The multipliers `Distribution._initialize_params` starts from, /repo/mlmc/tool/distribution.py:226-227. -/
noncomputable def initialMultipliers' (a b err0 : ℝ) (i : Fin (n + 1)) : ℝ := if i = 0 then -Real.log (1 / (b - a)) * err0 else 0
end MLMC.Fit
