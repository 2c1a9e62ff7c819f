import Mathlib.Data.Matrix.Mul
import Mathlib.Data.Real.Sqrt
import Mathlib.LinearAlgebra.Matrix.Notation
/-
Moments orthogonal with respect to an estimated covariance matrix: `construct_ortogonal_moments`, /repo/mlmc/tool/simple_distribution.py:756-841.
Numbers are reals.  `np.linalg.eigh` and `scipy.linalg.rq` are specified by what they promise: any eigenvalue decomposition in increasing order, any factorization with a trapezoidal and an orthogonal factor.
-/
namespace MLMC.Ortho
open Matrix
variable {n : Nat}

/-- `M`, /repo/mlmc/tool/simple_distribution.py:764-765. -/
def centering (cov : Matrix (Fin (n + 1)) (Fin (n + 1)) ℝ) : Matrix (Fin (n + 1)) (Fin (n + 1)) ℝ :=
  Matrix.of fun i j => if j = 0 then -cov i 0 else if i = j then 1 else 0

/-- `cov_center`, /repo/mlmc/tool/simple_distribution.py:766. -/
def centered (cov : Matrix (Fin (n + 1)) (Fin (n + 1)) ℝ) : Matrix (Fin (n + 1)) (Fin (n + 1)) ℝ := centering cov * cov * (centering cov)ᵀ

/-- What `np.linalg.eigh` returns, /repo/mlmc/tool/simple_distribution.py:768-769. -/
structure IsEigh (C : Matrix (Fin (n + 1)) (Fin (n + 1)) ℝ) (ev : Fin (n + 1) → ℝ) (V : Matrix (Fin (n + 1)) (Fin (n + 1)) ℝ) : Prop where
  increasing : Monotone ev
  orthogonal : Vᵀ * V = 1
  decomposes : C = V * Matrix.diagonal ev * Vᵀ

/-- `np.argmax(eval > tol)`, /repo/mlmc/tool/simple_distribution.py:785: the first such index, 0 if there is none.  The branch for `tol = None` (781-782) is in Model/Slope. -/
noncomputable def threshold (ev : Fin (n + 1) → ℝ) (tol : ℝ) : Fin (n + 1) := by
  classical exact ((List.finRange (n + 1)).find? fun i => decide (tol < ev i)).getD 0

/-- The number of kept eigenvalues, /repo/mlmc/tool/simple_distribution.py:805-806. -/
def kept (th : Fin (n + 1)) : Nat := n + 1 - th.val

/-- The original index of the column `j` after cutting and flipping, /repo/mlmc/tool/simple_distribution.py:805-810. -/
def column (th : Fin (n + 1)) (j : Fin (kept th)) : Fin (n + 1) := ⟨n - j.val, by omega⟩

/-- `icov_sqrt_t`, /repo/mlmc/tool/simple_distribution.py:813. -/
noncomputable def icovSqrtT (cov : Matrix (Fin (n + 1)) (Fin (n + 1)) ℝ) (ev : Fin (n + 1) → ℝ) (V : Matrix (Fin (n + 1)) (Fin (n + 1)) ℝ) (th : Fin (n + 1)) : Matrix (Fin (n + 1)) (Fin (kept th)) ℝ :=
  Matrix.of fun i j => ((centering cov)ᵀ * V) i (column th j) * (1 / √(ev (column th j)))

/-- What `scipy.linalg.rq(A, mode='full')` returns, /repo/mlmc/tool/simple_distribution.py:814. -/
structure IsRQ {m : Nat} (A R : Matrix (Fin (n + 1)) (Fin m) ℝ) (Q : Matrix (Fin m) (Fin m) ℝ) : Prop where
  factors : A = R * Q
  orthogonal : Qᵀ * Q = 1
  trapezoidal : ∀ i j, j.val + (n + 1) < i.val + m → R i j = 0

/-- `L_mn`, /repo/mlmc/tool/simple_distribution.py:816-818. -/
noncomputable def transform {m : Nat} (R : Matrix (Fin (n + 1)) (Fin m) ℝ) (hm : 0 < m) : Matrix (Fin m) (Fin (n + 1)) ℝ := by
  classical exact if Rᵀ ⟨0, hm⟩ 0 < 0 then -Rᵀ else Rᵀ

/-- `construct_ortogonal_moments(moments, cov, tol)` may return the transformation `L`, with the threshold `th`. /repo/mlmc/tool/simple_distribution.py:756-841. -/
def Constructs (cov : Matrix (Fin (n + 1)) (Fin (n + 1)) ℝ) (th : Fin (n + 1)) (L : Matrix (Fin (kept th)) (Fin (n + 1)) ℝ) : Prop :=
  ∃ ev V R Q, IsEigh (centered cov) ev V ∧ (∀ i, th ≤ i → 0 < ev i) ∧ IsRQ (icovSqrtT cov ev V th) R Q ∧ L = transform R (by unfold kept; omega)

/-- The same with the threshold determined by `tol`, /repo/mlmc/tool/simple_distribution.py:783-785. -/
def ConstructsTol (cov : Matrix (Fin (n + 1)) (Fin (n + 1)) ℝ) (tol : ℝ) (th : Fin (n + 1)) (L : Matrix (Fin (kept th)) (Fin (n + 1)) ℝ) : Prop :=
  ∃ ev V R Q, IsEigh (centered cov) ev V ∧ th = threshold ev tol ∧ IsRQ (icovSqrtT cov ev V th) R Q ∧ L = transform R (by unfold kept; omega)
end MLMC.Ortho
