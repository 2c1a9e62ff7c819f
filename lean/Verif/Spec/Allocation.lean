import Verif.Model.Allocation
/-
Notions of the statements about sample allocation.
-/
namespace MLMC.Alloc
variable {L M : Nat}

/-- The optimal number of samples of level `l` for moment `m` (Lagrange multiplier formula). -/
noncomputable def optimal (target : ℝ) (V : Fin L → Fin M → ℝ) (C : Fin L → ℝ) (l : Fin L) (m : Fin M) : ℝ :=
  Real.sqrt (V l m / C l) * (∑ k, Real.sqrt (V k m * C k)) / target

/-- The bound of the number of samples. -/
noncomputable def cap (target : ℝ) (V : Fin L → Fin M → ℝ) (l : Fin L) (m : Fin M) : ℝ := V l m * L / target

/-- Predicted variance of the estimate of moment `m` with `n l` samples on level `l`. -/
noncomputable def predicted (V : Fin L → Fin M → ℝ) (n : Fin L → ℝ) (m : Fin M) : ℝ := ∑ l, V l m / n l

/-- `z` is an integer nearest to `x`, the even one if there are two. -/
def IsRounded (x : ℝ) (z : ℤ) : Prop := |(z : ℝ) - x| ≤ 1 / 2 ∧ (|(z : ℝ) - x| = 1 / 2 → Even z)

/-- Numbers of samples `N` (not necessarily whole) that meet the target variance for moment `m`. -/
def Meets (target : ℝ) (V : Fin L → Fin M → ℝ) (N : Fin L → ℝ) (m : Fin M) : Prop := (∀ l, 0 < N l) ∧ predicted V N m ≤ target

/-- The work of `N l` samples on each level. -/
noncomputable def work (C : Fin L → ℝ) (N : Fin L → ℝ) : ℝ := ∑ l, C l * N l

end MLMC.Alloc
