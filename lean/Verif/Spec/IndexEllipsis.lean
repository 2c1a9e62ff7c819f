import Verif.Spec.Index
import Verif.Model.IndexEllipsis
/-! # What an index with integers, slices of any step and `...` selects (C150) -/
namespace MLMC

/-- Where a slice starts: from the front (`sliceFirst`) for a positive step; for a negative step from the last index by default, at most
from there, and negative values count from the end. -/
def sliceStart (d : Nat) (step : Int) (a : Option Int) : Int :=
  if 0 < step then sliceFirst d a else match a with
    | none => d - 1
    | some z => if z < 0 then z + d else min z (d - 1)

/-- The index `i` is not yet the end of the slice: before the stop (default the end of the axis) for a positive step, after the stop
(default: no stop) for a negative one; negative values count from the end. -/
def BeforeStop (d : Nat) (step : Int) (b : Option Int) (i : Int) : Prop :=
  if 0 < step then i < sliceLast d b else match b with
    | none => True
    | some z => (if z < 0 then z + d else z) < i

/-- `l` is `np.arange(d)[item]`: the index named by an integer (counted from the end if negative), or the indices from the start of the
slice on in steps before its stop, in ascending order for a positive step and in descending order for a negative one. -/
def Picked (d : Nat) : KeyItem → List Nat → Prop
  | .int z, l => ∃ i < d, ((i : Int) = z ∨ (i : Int) = z + d) ∧ l = [i]
  | .slice a b s, l => s.getD 1 ≠ 0 ∧
      (∀ i, i ∈ l ↔ i < d ∧ (∃ n : Nat, (i : Int) = sliceStart d (s.getD 1) a + n * s.getD 1) ∧ BeforeStop d (s.getD 1) b i) ∧
      l.Pairwise fun i j => if 0 < s.getD 1 then i < j else j < i
  | .ellipsis, _ => False

/-- The indices picked on each axis of `shape` by the items in brackets; axes without an item are picked whole. -/
def PickedAll : List Nat → List KeyItem → List (List Nat) → Prop
  | d :: shape, it :: items, l :: ls => Picked d it l ∧ PickedAll shape items ls
  | d :: shape, [], l :: ls => l = List.range d ∧ PickedAll shape [] ls
  | [], [], [] => True
  | _, _, _ => False

/-- All multi-indices with entries from the given lists, the last one changing first. -/
def product : List (List Nat) → List (List Nat)
  | [] => [[]]
  | l :: ls => l.flatMap fun i => (product ls).map (i :: ·)

/-- Lengths of the axes that remain: integers remove their axis. -/
def keptAxes : List KeyItem → List (List Nat) → List Nat
  | .int _ :: items, _ :: ls => keptAxes items ls
  | _ :: items, l :: ls => l.length :: keptAxes items ls
  | _, ls => ls.map (·.length)

/-- Not more items than axes, integers within their axes, no step 0. -/
def KeyInRange : List Nat → List KeyItem → Prop
  | d :: shape, .int z :: items => -d ≤ z ∧ z < d ∧ KeyInRange shape items
  | _ :: shape, .slice _ _ s :: items => s.getD 1 ≠ 0 ∧ KeyInRange shape items
  | _, [] => True
  | _, _ => False

end MLMC
