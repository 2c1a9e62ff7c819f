import Verif.Spec.Format
import Verif.Model.Quantity
/-! # What an index in brackets selects (C41) -/
namespace MLMC

/-- First index of a slice of an axis of length `d`: 0 by default, negative values count from the end. -/
def sliceFirst (d : Nat) : Option Int → Int
  | none => 0
  | some z => if z < 0 then max (z + d) 0 else z

/-- The end of a slice: the end of the axis by default, negative values count from it. -/
def sliceLast (d : Nat) : Option Int → Int
  | none => d
  | some z => if z < 0 then z + d else z

/-- `np.arange(d)[item]` contains `i`: an integer counts from the start or, if negative, from the end; a slice takes the indices from its
start (default 0) before its stop (default the end) in steps, where negative bounds count from the end. -/
def Selects (d : Nat) : IdxItem → Nat → Prop
  | .int z, i => if 0 ≤ z then (i : Int) = z else (i : Int) = z + d
  | .slice a b s, i => ∃ n : Nat, (i : Int) = sliceFirst d a + n * max s 1 ∧ (i : Int) < sliceLast d b

/-- The multi-index is selected by the items in brackets; axes without an item are selected whole. -/
def Matches : List Nat → List IdxItem → List Nat → Prop
  | d :: shape, it :: items, i :: ix => Selects d it i ∧ Matches shape items ix
  | _, [], _ => True
  | _, _, _ => False

/-- Integers in brackets are within the axis, and there are not more items than axes. -/
def IndexInRange : List Nat → List IdxItem → Prop
  | d :: shape, .int z :: items => -d ≤ z ∧ z < d ∧ IndexInRange shape items
  | _ :: shape, .slice _ _ _ :: items => IndexInRange shape items
  | _, [] => True
  | [], _ :: _ => False

end MLMC
