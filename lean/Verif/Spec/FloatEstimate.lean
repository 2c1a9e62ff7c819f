import Verif.Model.FloatEstimate
import Verif.Spec.Estimate
import Mathlib.Algebra.Order.Field.Basic
/-
Notions used in the statements about estimates in floating-point arithmetic.
-/
namespace MLMC.Fl
variable {F : Type}

/-- The positions a tree adds. -/
def Tree.leaves : Tree → List Nat
  | .leaf i => [i]
  | .node a b => a.leaves ++ b.leaves

/-- Every operation has a relative error of at most `u` (the standard model of floating-point arithmetic), sums add each entry once. -/
structure Arith.Valid [Field F] [LinearOrder F] (A : Arith F) (u : F) : Prop where
  nonneg : 0 ≤ u
  rnd : ∀ x, |A.rnd x - x| ≤ u * |x|
  order : ∀ n, 0 < n → (A.order n).leaves.Perm (List.range n)

/-- The samples of a level without NaN. -/
def used (chunks : List (Nat × List (Sample (Option F)))) (l : Nat) : List (Sample (Option F)) := (levelData chunks l).filter fun s => !hasNan s

/-- The exact differences (values on level 0) of component `i` of these samples. -/
def diffs [Field F] (chunks : List (Nat × List (Sample (Option F)))) (l i : Nat) : List F :=
  (used chunks l).map fun s => ((s.getD 0 []).getD i none).getD 0 - if l = 0 then 0 else ((s.getD 1 []).getD i none).getD 0

/-- The bound of relative errors after `k` operations. -/
def gamma [Field F] (u : F) (k : Nat) : F := (1 + u) ^ k - 1

/-- Mean of the absolute values. -/
def absMean [Field F] [LinearOrder F] (xs : List F) : F := average (xs.map fun x => |x|)

/-- Sum of squares over `n - 1`. -/
def secondMoment [Field F] (xs : List F) : F := (xs.map fun x => x ^ 2).sum / (xs.length - 1)

end MLMC.Fl
