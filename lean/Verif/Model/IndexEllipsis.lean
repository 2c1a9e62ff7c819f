import Verif.Model.Estimate
/-
Brackets of array quantities with every kind of basic NumPy index: integers, slices with steps of either sign and `...`.
/repo/mlmc/quantity/quantity_types.py:32-58, 103-134 and /repo/mlmc/quantity/quantity.py:366-380.

Here the chunk is indexed as NumPy does it, as an array with the axes of the shape followed by the axes of samples and of fine and
coarse parts; `Quantity.getitem` of `Verif.Model.Quantity` picks rows instead.
-/
namespace MLMC
variable {K : Type}

/-- An item of a NumPy index: an integer, `start:stop:step` or `...` (as in the documented `length_result[:2, ...]`,
/repo/docs/source/examples_quantity.rst).  `np.newaxis` and index arrays are not modelled.
Used in /repo/mlmc/quantity/quantity_types.py:110, 134. -/
inductive KeyItem
  | int (i : Int)
  | slice (start stop step : Option Int)
  | ellipsis
  deriving DecidableEq, Repr

namespace KeyItem

/-- The item `:` that `...` stands for and that is added for missing items; NumPy semantics of the indexing in
/repo/mlmc/quantity/quantity_types.py:110, 134. -/
def whole : KeyItem := .slice none none none

end KeyItem

/-- A bound of a slice cut to `lo..hi` after negative values were counted from the end (`slice.indices`), used by the indexing in
/repo/mlmc/quantity/quantity_types.py:110, 134. -/
def cutBound (d : Nat) (lo hi i : Int) : Int :=
  let j := if i < 0 then i + d else i
  if j < lo then lo else if hi < j then hi else j

/-- `range(start, stop, step)` for a step that is not zero, used by the indexing in
/repo/mlmc/quantity/quantity_types.py:110, 134. -/
def pyRange (start stop step : Int) : List Int :=
  if 0 < step then (List.range ((stop - start + step - 1) / step).toNat).map fun k : Nat => start + k * step
  else (List.range ((start - stop - step - 1) / (-step)).toNat).map fun k : Nat => start + k * step

/-- Indices an item selects on an axis of length `d`; `IndexError` for an integer outside, `ValueError` for step 0.  (`...` is
replaced before; its value here is never used.)  NumPy semantics of the indexing in /repo/mlmc/quantity/quantity_types.py:110, 134. -/
def KeyItem.indices (d : Nat) : KeyItem → Except PyErr (List Nat)
  | .int i => (normIndex d i).map fun j => [j]
  | .ellipsis => .ok []
  | .slice a b s =>
    let step := s.getD 1
    if step = 0 then .error .valueError else
    if 0 < step then
      .ok ((pyRange ((a.map (cutBound d 0 d)).getD 0) ((b.map (cutBound d 0 d)).getD d) step).map Int.toNat)
    else
      .ok ((pyRange ((a.map (cutBound d (-1) (d - 1))).getD (d - 1)) ((b.map (cutBound d (-1) (d - 1))).getD (-1)) step).map Int.toNat)

/-- The tuple with one item for each of `nd` axes: `...` and missing items at the end become `:`; `IndexError` for two `...` or too
many items.  NumPy semantics of the indexing in /repo/mlmc/quantity/quantity_types.py:110, 134. -/
def expandKey (nd : Nat) (key : List KeyItem) : Except PyErr (List KeyItem) :=
  let pre := key.takeWhile (· ≠ .ellipsis)
  let post := (key.dropWhile (· ≠ .ellipsis)).drop 1
  if .ellipsis ∈ post then .error .indexError else
  if nd < pre.length + post.length then .error .indexError else
  .ok (pre ++ List.replicate (nd - (pre.length + post.length)) .whole ++ post)

/-- The new shape and the row-major positions of the selected entries, for one item for each axis.
NumPy semantics of the indexing in /repo/mlmc/quantity/quantity_types.py:110, 134. -/
def selectAxes : List Nat → List KeyItem → Except PyErr (List Nat × List Nat)
  | d :: shape, it :: items => (it.indices d).bind fun is => (selectAxes shape items).map fun r =>
      ((match it with | .int _ => r.1 | _ => is.length :: r.1), is.flatMap fun i => r.2.map (i * shape.prod + ·))
  | [], [] => .ok ([], [0])
  | _, _ => .error .indexError

/-- `np.empty(shape)[key]`, /repo/mlmc/quantity/quantity_types.py:110, 134. -/
def npGet (shape : List Nat) (key : List KeyItem) : Except PyErr (List Nat × List Nat) :=
  (expandKey shape.length key).bind (selectAxes shape)

/-- `keep_dims`: the lengths of the three axes, /repo/mlmc/quantity/quantity_types.py:32-49. -/
def keepDims (shape : List Nat) : Except PyErr (Nat × Nat × Nat) :=
  match shape.reverse with
  | p :: n :: front => .ok (front.prod, n, p)
  | _ => .error .valueError

/-- Entry of an array `[M, N, P]` at a row-major position: the reshape of /repo/mlmc/quantity/quantity_types.py:133 and of line 46
keep it. -/
def Arr.atFlat [Inhabited K] (a : Arr K) (f : Nat) : K :=
  (a.rows.getD (f / (a.n * a.p)) fun _ _ => default) (f / a.p % a.n) (f % a.p)

/-- The array `[M, N, P]` with the given entries in row-major order, /repo/mlmc/quantity/quantity_types.py:41-48. -/
def Arr.ofFlat [Inhabited K] (m n p : Nat) (v : List K) : Arr K :=
  ⟨n, p, (List.range m).map fun i j k => v.getD ((i * n + j) * p + k) default⟩

/-- `ArrayType._make_getitem_op`, /repo/mlmc/quantity/quantity_types.py:124-134: the reshape needs as many components as the shape has
entries.  (For a chunk without samples NumPy does not notice a wrong number of components; here it is an error as well.) -/
def chunkGet [Inhabited K] (shape : List Nat) (key : List KeyItem) (a : Arr K) : Except PyErr (Arr K) :=
  if a.rows.length ≠ shape.prod then .error .valueError else
  (npGet (shape ++ [a.n, a.p]) key).bind fun r => (keepDims r.1).map fun s => .ofFlat s.1 s.2.1 s.2.2 (r.2.map a.atFlat)

/-- `ArrayType.get_key`, /repo/mlmc/quantity/quantity_types.py:103-122: the new type. -/
def arrayKey (shape : List Nat) (inner : QType) (key : List KeyItem) : Except PyErr QType :=
  (npGet shape key).map fun r => if r.1 = [1] ∨ r.1 = [] then inner else .array r.1 inner

/-- `__getitem__` of a quantity of array type, /repo/mlmc/quantity/quantity.py:366-380. (Other types: `Quantity.getitem`.) -/
def Quantity.index [Inhabited K] (oid : Nat) (q : Quantity K) (key : List KeyItem) : Except PyErr (Quantity K) :=
  match q.qtype with
  | .array shape inner => (arrayKey shape inner key).bind fun t => mk oid t (unArr (chunkGet shape key)) [q]
  | _ => .error .other

end MLMC
