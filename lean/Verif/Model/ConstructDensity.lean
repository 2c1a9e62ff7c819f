import Verif.Model.Estimator
import Verif.Model.Moments
import Verif.Model.Orthogonal
import Verif.Model.DensityFit
/-
`Estimate.construct_density`, /repo/mlmc/estimator.py:304-331: from stored samples through estimated covariances and orthogonal moments to a density.  Numbers are reals, NaN is `none`.
`np.linalg.eigh`, `scipy.linalg.rq`, the optimizer and the adaptive quadrature are arguments.
-/
namespace MLMC.Dens
open Mom

/-- `eval_all(x)` for one value, which may be NaN: a row of moments.  /repo/mlmc/moments.py:90-93, 255-258.  A call that raises gives an empty row here; none does for objects with moments. -/
noncomputable def row : Obj → Option ℝ → List (Option ℝ)
  | o, some x => match o.evalAll x o.size with
    | .ok r => r
    | .error _ => []
  | .base m, none => (List.range m.size).map fun i => if m.family = .fourier ∧ i = 0 then some 1 else none
  | .trans o _ _ A, none => Obj.combine A (row o none)

/-- A moments object as a family of functions of quantities, /repo/mlmc/quantity/quantity_estimate.py:102-110, 130-138. -/
noncomputable def fn (o : Obj) : MomentFn (Option ℝ) := ⟨o.size, fun i v => (row o v).getD i none⟩

/-- The estimated covariances as a matrix; `none` if there is a NaN, for which `eigh` raises.  /repo/mlmc/estimator.py:311-312, /repo/mlmc/tool/simple_distribution.py:768. -/
noncomputable def matrixOf (n : Nat) (means : List (Option ℝ)) : Option (Matrix (Fin (n + 1)) (Fin (n + 1)) ℝ) := by
  classical exact if none ∈ means then none else some (Matrix.of fun i j => (means.getD (i.val * (n + 1) + j.val) none).getD 0)

/-- `np.linalg.eigh` and `scipy.linalg.rq`, /repo/mlmc/tool/simple_distribution.py:768, 814. -/
structure Lib where
  eigh : ∀ n, Matrix (Fin (n + 1)) (Fin (n + 1)) ℝ → (Fin (n + 1) → ℝ) × Matrix (Fin (n + 1)) (Fin (n + 1)) ℝ
  rq : ∀ n m, Matrix (Fin (n + 1)) (Fin m) ℝ → Matrix (Fin (n + 1)) (Fin m) ℝ × Matrix (Fin m) (Fin m) ℝ

/-- What `construct_density` has when it begins to fit: covariances of the moment functions, the threshold, the orthogonal moments and their estimated means.  /repo/mlmc/estimator.py:311-327. -/
structure Setup where
  n : Nat
  cov : Matrix (Fin (n + 1)) (Fin (n + 1)) ℝ
  th : Fin (n + 1)
  L : Matrix (Fin (Ortho.kept th)) (Fin (n + 1)) ℝ
  means : List (Option ℝ)

/-- The orthogonal moments, /repo/mlmc/tool/simple_distribution.py:821. -/
def Setup.obj (s : Setup) (o : Obj) : Obj := .trans o (Ortho.kept s.th) (s.n + 1) s.L

/-- `construct_density` up to the fit, /repo/mlmc/estimator.py:308-327, with `construct_ortogonal_moments` (/repo/mlmc/tool/simple_distribution.py:756-841).  `oid`: number of the quantities made here.  Only for scalar
quantities (`NotImplementedError`); line 324 takes the minimum over all moments but the first one, a ValueError if there is none. -/
noncomputable def setup (lib : Lib) (q : Quantity (Option ℝ)) (o : Obj) (oid : Nat) (tol : ℝ) (nLevels : Nat) (chunks : List (Nat × (Nat → Except PyErr (Arr (Option ℝ))))) : Except PyErr Setup :=
  match q.qtype with
  | .scalar =>
    match (⟨q, some (fn o)⟩ : Estimator ℝ).estimateCovariance oid none nLevels chunks with
    | .error e => .error e
    | .ok c =>
      match o.size with
      | 0 => .error .valueError
      | n + 1 =>
        match matrixOf n c.1 with
        | none => .error .valueError
        | some cov =>
          let ev := (lib.eigh n (Ortho.centered cov)).1
          let V := (lib.eigh n (Ortho.centered cov)).2
          let th := Ortho.threshold ev tol
          let L := Ortho.transform (lib.rq n (Ortho.kept th) (Ortho.icovSqrtT cov ev V th)).1 (by unfold Ortho.kept; omega)
          match (⟨q, some (fn (.trans o (Ortho.kept th) (n + 1) L))⟩ : Estimator ℝ).estimateMoments oid none nLevels chunks with
          | .error e => .error e
          | .ok m => if Ortho.kept th ≤ 1 then .error .valueError else .ok ⟨n, cov, th, L, m.1⟩
  | _ => .error .other

/-- Points and weights of the quadrature in use, /repo/mlmc/tool/simple_distribution.py:223-230. -/
structure Rule (Q : Nat) where
  points : Fin Q → ℝ
  weights : Fin Q → ℝ

/-- A number of a row of moments.  /repo/mlmc/tool/simple_distribution.py:154-155. -/
noncomputable def value (o : Obj) (i : Nat) (x : ℝ) : ℝ := ((row o (some x)).getD i none).getD 0

/-- What the fit works with, /repo/mlmc/estimator.py:323-328, /repo/mlmc/tool/simple_distribution.py:34-48, 127-152, 223-231: the standard deviations are ones, the penalty has the coefficient 0. -/
noncomputable def Setup.data (s : Setup) (o : Obj) {Q : Nat} (rule : Rule Q) (ends : Fin 2 → Fin (s.n - s.th.val + 1) → ℝ) : Fit.Data (s.n - s.th.val) Q where
  weights := rule.weights
  mom := fun k i => value (s.obj o) i.val (rule.points k)
  means := fun i => (s.means.getD i.val none).getD 0
  errs := fun _ => 1
  ends := ends
  coef := 0
  stab := 0
  lastSize := 0
  last := fun _ => 0

/-- `density` for multipliers `m`, /repo/mlmc/tool/simple_distribution.py:96-105 (the standard deviations are ones). -/
noncomputable def Setup.density (s : Setup) (o : Obj) (m : Fin (s.n - s.th.val + 1) → ℝ) (x : ℝ) : ℝ :=
  Real.exp (min (max (-∑ i : Fin (s.n - s.th.val + 1), value (s.obj o) i.val x * m i) (-200)) 200)

/-- The multipliers after "Fix normalization" with the value `moment0` of `_calculate_exact_moment(m=0)`; `none`: the logarithm is no number.  /repo/mlmc/tool/simple_distribution.py:81-86. -/
noncomputable def finish {k : Nat} (m : Fin (k + 1) → ℝ) (moment0 : ℝ) : Option (Fin (k + 1) → ℝ) :=
  if moment0 ≤ 0 then none else some fun i => if i = 0 then m 0 - Real.log moment0 else m i

/-- The integrand of `_calculate_exact_moment(m=0)`, /repo/mlmc/tool/simple_distribution.py:165-169. -/
noncomputable def Setup.integrand0 (s : Setup) (o : Obj) (m : Fin (s.n - s.th.val + 1) → ℝ) (x : ℝ) : ℝ := s.density o m x * value (s.obj o) 0 x
end MLMC.Dens
