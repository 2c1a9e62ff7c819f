import Verif.Model.MomentArrays
/-
Notions used in the statements about moment functions of arrays.
-/
namespace MLMC.Mom
open MLMC.Const

/-- An index into an array of the given shape. -/
def Within (shape ix : List Nat) : Prop := List.Forall₂ (· < ·) ix shape

namespace Obj

/-- The family at the bottom of a chain of transformations. -/
def family : Obj → Family
  | base m => m.family
  | trans o _ _ _ => o.family

/-- What the constructors guarantee: positive sizes (a matrix without rows is left out) and matching matrices. -/
def WellMade : Obj → Prop
  | base m => 0 < m.size
  | trans o n m _ => o.WellMade ∧ m = o.size ∧ 0 < n

/-- The number of functions that are evaluated when `size` are requested. -/
def width : Obj → Nat → Nat
  | base _, size => size
  | trans _ n _ _, size => min size n

end Obj

/-- `z` holds, for every value of `a`, the values of the functions of `o` at this value along a new last axis; NaN for NaN. -/
def ValueByValue (o : Obj) (size : Nat) (a z : ND (Option ℝ)) : Prop :=
  z.shape = a.shape ++ [o.width size] ∧ ∀ ix, Within a.shape ix →
    (∀ x, a.get ix = some x → ∃ row, o.evalAll x size = .ok row ∧ row.length = o.width size ∧ ∀ i < o.width size, z.get (ix ++ [i]) = row.getD i none) ∧
    (a.get ix = none → o.family ≠ .fourier → ∀ i < o.width size, z.get (ix ++ [i]) = none)

/-- The functions of `o` as the quantities see them: number and value at a float. -/
noncomputable def Obj.asFn (o : Obj) : MomentFn (Option ℝ) :=
  ⟨o.size, fun i v => v.bind fun x => ((o.evalAll x o.size).toOption.getD []).getD i none⟩

end MLMC.Mom
