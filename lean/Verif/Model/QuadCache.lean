import Verif.Model.DensityFit
/-
When the quadrature of a density fit is renewed: `_update_quadrature`, /repo/mlmc/tool/simple_distribution.py:199-240, /repo/mlmc/tool/distribution.py:282-323.
Numbers are reals.
-/
namespace MLMC.Fit
variable {n : Nat}

/-- Points and weights of a quadrature with the moments in its points, /repo/mlmc/tool/simple_distribution.py:227-231: `_quad_weights`, `_quad_moments`. -/
structure Quad (n : Nat) where
  Q : Nat
  weights : Fin Q → ℝ
  mom : Fin Q → Fin (n + 1) → ℝ

/-- What the object remembers: `_last_multipliers`, `_last_gradient` and the quadrature, /repo/mlmc/tool/simple_distribution.py:227-238. -/
structure QState (n : Nat) where
  last : Fin (n + 1) → ℝ
  grad : Fin (n + 1) → ℝ
  quad : Quad n

/-- `np.linalg.norm` of a vector, /repo/mlmc/tool/simple_distribution.py:205-206. -/
noncomputable def vnorm (v : Fin (n + 1) → ℝ) : ℝ := √(∑ i, v i ^ 2)

/-- `np.dot` of two vectors, /repo/mlmc/tool/simple_distribution.py:211. -/
noncomputable def vdot (u v : Fin (n + 1) → ℝ) : ℝ := ∑ i, u i * v i

/-- The exponent in a point of the quadrature before clipping, /repo/mlmc/tool/simple_distribution.py:233. -/
noncomputable def Quad.power (q : Quad n) (errs m : Fin (n + 1) → ℝ) (k : Fin q.Q) : ℝ := -∑ i, q.mom k i * (m i / errs i)

/-- The density in a point of the quadrature, /repo/mlmc/tool/simple_distribution.py:233-235, 254-257. -/
noncomputable def Quad.dens (q : Quad n) (errs m : Fin (n + 1) → ℝ) (k : Fin q.Q) : ℝ := Real.exp (min (max (q.power errs m k) (-200)) 200)

/-- `integral` of the gradient, /repo/mlmc/tool/simple_distribution.py:235-236. -/
noncomputable def Quad.grad (q : Quad n) (errs m : Fin (n + 1) → ℝ) (i : Fin (n + 1)) : ℝ := (∑ k, q.mom k i * q.dens errs m k * q.weights k) / errs i

/-- `_update_quadrature(multipliers, force=True)`, /repo/mlmc/tool/simple_distribution.py:215-238.  `build`: the intervals found by `scipy.integrate.quad` for these multipliers with a Gauss rule on
each of them. -/
noncomputable def renew (build : (Fin (n + 1) → ℝ) → Quad n) (errs m : Fin (n + 1) → ℝ) : QState n := ⟨m, (build m).grad errs m, build m⟩

open Classical in
/-- `_update_quadrature(multipliers)`, /repo/mlmc/tool/simple_distribution.py:199-240, /repo/mlmc/tool/distribution.py:282-323; `tol` is `_quad_tolerance`. -/
noncomputable def update (build : (Fin (n + 1) → ℝ) → Quad n) (errs : Fin (n + 1) → ℝ) (tol : ℝ) (s : QState n) (m : Fin (n + 1) → ℝ) : QState n :=
  if vnorm s.grad * vnorm (m - s.last) < tol then s
  else if |vdot s.grad (m - s.last)| < tol then s
  else renew build errs m

/-- The evaluations of the functional, its gradient and its second derivatives during a fit: each of them begins with `_update_quadrature`,
/repo/mlmc/tool/simple_distribution.py:151-152, 265, 282, 297. -/
noncomputable def evaluations (build : (Fin (n + 1) → ℝ) → Quad n) (errs : Fin (n + 1) → ℝ) (tol : ℝ) (start : Fin (n + 1) → ℝ) (ms : List (Fin (n + 1) → ℝ)) : QState n :=
  ms.foldl (update build errs tol) (renew build errs start)

/-- `integral` of the functional, /repo/mlmc/tool/simple_distribution.py:266-267. -/
noncomputable def Quad.total (q : Quad n) (errs m : Fin (n + 1) → ℝ) : ℝ := ∑ k, q.dens errs m k * q.weights k

end MLMC.Fit
