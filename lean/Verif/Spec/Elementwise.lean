import Verif.Spec.Quantity
/-! What an operation means for the values of one sample. -/
namespace MLMC
variable {K : Type}

/-- `f` applied to components with the same position; a single number is used for all positions. -/
def elementwise (f : K → K → K) : List K → List K → List K
  | [x], w => w.map (f x)
  | v, [y] => v.map fun x => f x y
  | v, w => List.zipWith f v w

/-- Sizes for which an elementwise operation makes sense. -/
def Fits (m n : Nat) : Prop := m = n ∨ m = 1 ∨ n = 1

/-- A list of numbers reduced to one of them from left to right, e.g. their sum or their maximum. -/
def reduceList (f : K → K → K) : List K → List K
  | [] => []
  | x :: xs => [xs.foldl f x]
end MLMC
