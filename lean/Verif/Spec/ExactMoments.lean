import Verif.Spec.Divergence
import Mathlib.Algebra.Polynomial.Degree.Operations
/-! # Integration by intervals (C97) -/
namespace MLMC.Dist
open MeasureTheory

/-- The intervals result from repeatedly cutting the interval from `a` to `b`, in any order. -/
inductive Cut : ℝ → ℝ → List (ℝ × ℝ) → Prop
  | whole (a b : ℝ) : a ≤ b → Cut a b [(a, b)]
  | join {a b c : ℝ} {l m : List (ℝ × ℝ)} : Cut a b l → Cut b c m → Cut a c (l ++ m)
  | order {a b : ℝ} {l m : List (ℝ × ℝ)} : Cut a b l → l.Perm m → Cut a b m

/-- A rule for the interval from -1 to 1 with positive weights that is exact for polynomials up to degree `d` (`leggauss(n)` is, for `d = 2n - 1`). -/
structure GaussRule (rule : List (ℝ × ℝ)) (d : Nat) : Prop where
  pos : ∀ n ∈ rule, 0 < n.2
  exact : ∀ p : Polynomial ℝ, p.natDegree ≤ d → (rule.map fun n => n.2 * p.eval n.1).sum = ∫ x in (-1 : ℝ)..1, p.eval x

/-- All quadratic forms of the matrix are nonnegative. -/
def Semidefinite (size : Nat) (c : Nat → Nat → ℝ) : Prop := ∀ w : Nat → ℝ, 0 ≤ ∑ i ∈ Finset.range size, ∑ j ∈ Finset.range size, w i * c i j * w j

end MLMC.Dist
