import Verif.Model.Slope
import Mathlib.Algebra.BigOperators.Group.Finset.Basic
/-
Notions of the statements about the automatic threshold.
-/
namespace MLMC.Slope
open Finset

/-- Sum of squared errors of the line `s * x + c` at the points `(a, y₀), (a + 1, y₁), …`. -/
noncomputable def sqErr (a : Nat) (Y : List ℝ) (s c : ℝ) : ℝ := ∑ i ∈ range Y.length, (Y.getD i 0 - (s * ((a : ℝ) + i) + c)) ^ 2

/-- `np.polyfit` finds a line with the least sum of squared errors and returns that sum.  Required of at least three points at consecutive integers. -/
def IsPolyfit (pf : Polyfit) : Prop := ∀ (a : Nat) (X : List ℤ) (Y : List ℝ), 3 ≤ Y.length → X.length = Y.length → (∀ i, i < X.length → X.getD i 0 = (a : ℤ) + i) →
  (pf X Y).2.2 = sqErr a Y (pf X Y).1 (pf X Y).2.1 ∧ ∀ s c, (pf X Y).2.2 ≤ sqErr a Y s c

/-- The quality of a window `a:b` of the values with the line `s * x + c`: squared error over the squared length. -/
noncomputable def quality (values : List ℝ) (a b : Nat) (s c : ℝ) : ℝ := sqErr a (slice values a b) s c / ((b : ℝ) - a) ^ 2
end MLMC.Slope
