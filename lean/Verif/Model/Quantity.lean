import Verif.Model.ResultFormat
import Mathlib.Algebra.BigOperators.Group.List.Basic
import Mathlib.Data.List.Sort
import Mathlib.Algebra.Field.Basic
/-
Quantities: /repo/mlmc/quantity/quantity_types.py, /repo/mlmc/quantity/quantity.py and the quantity-valued functions of
/repo/mlmc/quantity/quantity_estimate.py.

Sample values are elements of an arbitrary type `K` (NaN is one of them where it matters).
-/
namespace MLMC

/-! ## Arrays `[M, N, P]` -/

/-- A NumPy array of shape `[M, N, P]`: `M = rows.length` components, `n` samples, `p` parts (1 on level 0, otherwise fine and
coarse).  Only entries with sample index below `n` and part index below `p` mean anything.
The chunks passed between quantities, /repo/mlmc/quantity/quantity.py:126-135, 686-692. -/
structure Arr (K : Type) where
  n : Nat
  p : Nat
  rows : List (Nat → Nat → K)

/-- Result of evaluating a quantity: an array, or the one-dimensional array of booleans of a condition
(/repo/mlmc/quantity/quantity.py:126-135, 245-257). -/
inductive QVal (K : Type)
  | arr (a : Arr K)
  | mask (b : List Bool)

/-! ## Quantity types -/

/-- Python objects used as keys of dictionaries, fields and time series
(/repo/mlmc/quantity/quantity_types.py:153-159, 190-197, 235-246). -/
inductive PartKey
  | str (s : List Char)
  | num (x : ℚ)
  | point (x y z : ℚ)
  deriving DecidableEq, Repr

/-- An item of a NumPy index, used in /repo/mlmc/quantity/quantity_types.py:110 and 134: an integer (may be negative) or
`start:stop:step`. -/
inductive IdxItem
  | int (i : Int)
  | slice (start stop : Option Int) (step : Nat)
  deriving DecidableEq, Repr

/-- `QType`s, /repo/mlmc/quantity/quantity_types.py:9-246.  `ScalarType(float)` and `BoolType()` are the only leaf types made by
the library.  A dictionary type keeps its (distinct) keys in order, /repo/mlmc/quantity/quantity_types.py:202; a field type keeps
the keys and the type of the first entry, lines 183-184.  The identity of type objects is not modelled. -/
inductive QType
  | scalar
  | bool
  | array (shape : List Nat) (inner : QType)
  | times (ts : List ℚ) (inner : QType)
  | field (keys : List PartKey) (inner : QType)
  | dict (items : List (PartKey × QType))

namespace QType

mutual
/-- `size`, /repo/mlmc/quantity/quantity_types.py:73-76, 100-101, 150-151, 187-188, 217-218. -/
def size : QType → Nat
  | .scalar => 1
  | .bool => 1
  | .array shape q => shape.prod * q.size
  | .times ts q => ts.length * q.size
  | .field keys q => keys.length * q.size
  | .dict items => sizeItems items
/-- The sum in /repo/mlmc/quantity/quantity_types.py:218. -/
def sizeItems : List (PartKey × QType) → Nat
  | [] => 0
  | (_, q) :: items => q.size + sizeItems items
end

mutual
/-- `replace_scalar`, /repo/mlmc/quantity/quantity_types.py:21-30, 78-84, 223-233. -/
def replaceScalar : QType → QType → QType
  | .scalar, s => s
  | .bool, s => s
  | .array shape q, s => .array shape (q.replaceScalar s)
  | .times ts q, s => .times ts (q.replaceScalar s)
  | .field keys q, s => .field keys (q.replaceScalar s)
  | .dict items, s => .dict (replaceItems items s)
/-- The loop in /repo/mlmc/quantity/quantity_types.py:230-232. -/
def replaceItems : List (PartKey × QType) → QType → List (PartKey × QType)
  | [], _ => []
  | (k, q) :: items, s => (k, q.replaceScalar s) :: replaceItems items s
end

/-- Whether `base_qtype()` is a `BoolType`, /repo/mlmc/quantity/quantity_types.py:18-19, 68-71, 214-215. -/
def baseBool : QType → Bool
  | .scalar => false
  | .bool => true
  | .array _ q => q.baseBool
  | .times _ q => q.baseBool
  | .field _ q => q.baseBool
  | .dict [] => false
  | .dict ((_, q) :: _) => q.baseBool

/-- `dict(args)`: a repeated key keeps its first position and gets the last value.  Used in
/repo/mlmc/quantity/quantity_types.py:183, 202. -/
def pyDict {α : Type} (args : List (PartKey × α)) : List (PartKey × α) := args.foldl (fun d x => Dict.set d x.1 x.2) []

/-- `DictType.__init__`, /repo/mlmc/quantity/quantity_types.py:201-212: a `BoolType` is a `ScalarType`, so only a first entry
with boolean base restricts the others. -/
def mkDict (args : List (PartKey × QType)) : Except PyErr QType :=
  match pyDict args with
  | [] => .error .indexError
  | (k, q) :: items => if q.baseBool && !(items.all fun x => x.2.baseBool) then .error .typeError else .ok (.dict ((k, q) :: items))

/-- `FieldType.__init__`, /repo/mlmc/quantity/quantity_types.py:178-185. -/
def mkField (args : List (PartKey × QType)) : Except PyErr QType :=
  match args with
  | [] => .error .indexError
  | (_, q) :: _ => if args.all (fun x => x.2.size == q.size) then .ok (.field ((pyDict args).map (·.1)) q) else .error .assertionError

end QType

/-! ## NumPy indexing -/

/-- An integer index of an axis of length `d`; `IndexError` outside.  NumPy semantics of the indexing in
/repo/mlmc/quantity/quantity_types.py:110, 134. -/
def normIndex (d : Nat) (i : Int) : Except PyErr Nat :=
  if 0 ≤ i ∧ i < d then .ok i.toNat else if i < 0 ∧ -d ≤ i then .ok (i + d).toNat else .error .indexError

/-- Bound of a slice with positive step: negative values count from the end, then the value is cut to `0..d`.
NumPy semantics of the indexing in /repo/mlmc/quantity/quantity_types.py:110, 134. -/
def sliceBound (d : Nat) (i : Int) : Nat := if i < 0 then (i + d).toNat else min i.toNat d

/-- Indices selected by a slice with positive step (steps 0 and below are not modelled; step 0 here stands for 1),
/repo/mlmc/quantity/quantity_types.py:110, 134. -/
def sliceIndices (d : Nat) (start stop : Option Int) (step : Nat) : List Nat :=
  let lo := match start with | none => 0 | some i => sliceBound d i
  let hi := match stop with | none => d | some i => sliceBound d i
  (List.range d).filter fun i => lo ≤ i && i < hi && (i - lo) % (max step 1) == 0

/-- `np.empty(shape)[key]` for a tuple of integers and slices: the new shape and the row-major positions of the selected
entries; missing items select the whole axis, too many are an `IndexError`.  /repo/mlmc/quantity/quantity_types.py:110, 134. -/
def npIndex : List Nat → List IdxItem → Except PyErr (List Nat × List Nat)
  | shape, [] => .ok (shape, List.range shape.prod)
  | [], _ :: _ => .error .indexError
  | d :: shape, it :: key => do
    let (sh, idx) ← npIndex shape key
    match it with
    | .int i =>
      let i ← normIndex d i
      .ok (sh, idx.map (i * shape.prod + ·))
    | .slice a b s =>
      let is := sliceIndices d a b s
      .ok (is.length :: sh, is.flatMap fun i => idx.map (i * shape.prod + ·))

/-- A key in brackets: a key of a dictionary, field or time series, or an index of an array. `tuple = false` is a single index
`q[i]`, `tuple = true` is `q[i, j]` (`q[i,]` has one item).  /repo/mlmc/quantity/quantity.py:366-380. -/
inductive Brackets
  | key (k : PartKey)
  | idx (tuple : Bool) (items : List IdxItem)

/-- `get_key`: the new type and the first component.  /repo/mlmc/quantity/quantity_types.py:103-122, 153-159, 190-197, 235-246.
`list.index` raises `ValueError` (not the `KeyError` the code expects); the missing key of a dictionary ends in an
`UnboundLocalError`; scalars have no `get_key`. -/
def QType.getKey : QType → Brackets → Except PyErr (QType × Nat)
  | .array shape q, .idx _ items => do
    let (sh, _) ← npIndex shape items
    let sh := if sh = [1] then [] else sh
    .ok (if sh = [] then q else .array sh q, 0)
  | .times ts q, .key (.num t) => if t ∈ ts then .ok (q, ts.idxOf t * q.size) else .error .valueError
  | .field keys q, .key k => if k ∈ keys then .ok (q, keys.idxOf k * q.size) else .error .valueError
  | .dict items, .key k => match Dict.get? items k with
    | some q => .ok (q, QType.sizeItems (items.takeWhile fun x => x.1 ≠ k))
    | none => .error .unboundLocal
  | .times _ _, _ => .error .valueError
  | .field _ _, _ => .error .valueError
  | .dict _, _ => .error .unboundLocal
  | .array _ _, _ => .error .indexError
  | .scalar, _ => .error .attributeError
  | .bool, _ => .error .attributeError

/-! ## Operations on evaluated chunks -/

variable {K : Type}

/-- Common length of two broadcast axes: NumPy broadcasting in the operations /repo/mlmc/quantity/quantity.py:225-243, 245-257. -/
def bdim (a b : Nat) : Except PyErr Nat :=
  if a = b then .ok a else if a = 1 then .ok b else if b = 1 then .ok a else .error .valueError

namespace Arr
variable [Inhabited K]

/-- Entry of an array broadcast to larger axes (/repo/mlmc/quantity/quantity.py:225-243, 245-257). -/
def bget (a : Arr K) (i j k : Nat) : K :=
  (a.rows.getD (if a.rows.length = 1 then 0 else i) fun _ _ => default) (if a.n = 1 then 0 else j) (if a.p = 1 then 0 else k)

/-- A binary NumPy operation with broadcasting, /repo/mlmc/quantity/quantity.py:225-243, 430-431. -/
def zip (f : K → K → K) (a b : Arr K) : Except PyErr (Arr K) := do
  let m ← bdim a.rows.length b.rows.length
  let n ← bdim a.n b.n
  let p ← bdim a.p b.p
  .ok ⟨n, p, (List.range m).map fun i j k => f (a.bget i j k) (b.bget i j k)⟩

/-- A unary element-wise operation, /repo/mlmc/quantity/quantity.py:430-431. -/
def map (f : K → K) (a : Arr K) : Arr K := ⟨a.n, a.p, a.rows.map fun r j k => f (r j k)⟩

/-- A reduction over the components with `axis=0, keepdims=True`, e.g. `np.max(q, axis=0, keepdims=True)`,
/repo/mlmc/quantity/quantity.py:430-431. -/
def reduce (f : K → K → K) (a : Arr K) : Except PyErr (Arr K) :=
  match a.rows with
  | [] => .error .valueError
  | r :: rs => .ok ⟨a.n, a.p, [fun j k => rs.foldl (fun x r => f x (r j k)) (r j k)]⟩

/-- Rows at the given positions, /repo/mlmc/quantity/quantity_types.py:133-134. -/
def pick (a : Arr K) (idx : List Nat) : Arr K := ⟨a.n, a.p, idx.map fun i => a.rows.getD i fun _ _ => default⟩

/-- `np.concatenate(chunks, axis=0)`, /repo/mlmc/quantity/quantity.py:398-400. -/
def concat : List (Arr K) → Except PyErr (Arr K)
  | [] => .error .valueError
  | a :: as => if as.all (fun b => b.n == a.n && b.p == a.p) then .ok ⟨a.n, a.p, (a :: as).flatMap (·.rows)⟩ else .error .valueError

/-- `x[..., mask, :]`, /repo/mlmc/quantity/quantity.py:169: `IndexError` unless the mask has one entry for each sample. -/
def compress (a : Arr K) (mask : List Bool) : Except PyErr (Arr K) :=
  if mask.length = a.n then
    let idx := (List.range a.n).filter fun j => mask.getD j false
    .ok ⟨idx.length, a.p, a.rows.map fun r j k => r (idx.getD j 0) k⟩
  else .error .indexError

/-- `_process_mask`, /repo/mlmc/quantity/quantity.py:245-257: for each sample whether all components and parts satisfy it. -/
def processMask (r : K → K → Bool) (a b : Arr K) : Except PyErr (List Bool) := do
  let m ← bdim a.rows.length b.rows.length
  let n ← bdim a.n b.n
  let p ← bdim a.p b.p
  .ok ((List.range n).map fun j => (List.range p).all fun k => (List.range m).all fun i => r (a.bget i j k) (b.bget i j k))

end Arr

/-- Operations of quantities on arrays; a condition's boolean array is accepted only where conditions are expected (other uses,
e.g. adding masks, are not modelled and count as errors).  One argument: /repo/mlmc/quantity/quantity.py:366-380, 430-431. -/
def unArr (f : Arr K → Except PyErr (Arr K)) : List (QVal K) → Except PyErr (QVal K)
  | [.arr a] => (f a).map .arr
  | _ => .error .typeError

/-- An operation of two arrays, /repo/mlmc/quantity/quantity.py:225-243, 430-431. -/
def binArr (f : Arr K → Arr K → Except PyErr (Arr K)) : List (QVal K) → Except PyErr (QVal K)
  | [.arr a, .arr b] => (f a b).map .arr
  | _ => .error .typeError

/-- A comparison of two arrays, /repo/mlmc/quantity/quantity.py:259-270. -/
def cmpArr (f : Arr K → Arr K → Except PyErr (List Bool)) : List (QVal K) → Except PyErr (QVal K)
  | [.arr a, .arr b] => (f a b).map .mask
  | _ => .error .typeError

/-- A logical ufunc of two conditions; one-dimensional arrays of different length do not broadcast (length 1 does).
/repo/mlmc/quantity/quantity.py:162-166, 430-431. -/
def logicArr (f : Bool → Bool → Bool) : List (QVal K) → Except PyErr (QVal K)
  | [.mask a, .mask b] => do
    let n ← bdim a.length b.length
    .ok (.mask ((List.range n).map fun j =>
      f (a.getD (if a.length = 1 then 0 else j) false) (b.getD (if b.length = 1 then 0 else j) false)))
  | _ => .error .typeError

/-- The operation of `select`, /repo/mlmc/quantity/quantity.py:168-169: NumPy refuses arrays of numbers as indices (`IndexError`). -/
def selectArr [Inhabited K] : List (QVal K) → Except PyErr (QVal K)
  | [.arr a, .mask m] => (a.compress m).map .arr
  | [_, _] => .error .indexError
  | _ => .error .typeError

/-- The arguments of `op_concatenate`, /repo/mlmc/quantity/quantity.py:398-400. -/
def arrsOf : List (QVal K) → Except PyErr (List (Arr K))
  | [] => .ok []
  | .arr a :: vs => (arrsOf vs).map (a :: ·)
  | .mask _ :: _ => .error .typeError

/-- `op_concatenate`, /repo/mlmc/quantity/quantity.py:398-400. -/
def concatArr [Inhabited K] (vs : List (QVal K)) : Except PyErr (QVal K) := do
  let as ← arrsOf vs
  (Arr.concat as).map .arr

/-! ## Quantity objects -/

/-- A quantity object: `QuantityStorage` (/repo/mlmc/quantity/quantity.py:654-695), `QuantityConst` (515-565) or `Quantity`
(35-53).  `oid` is Python's `id(self)`; `selected` says that `select` has replaced the selection id by `id(self)` (line 171).
Constants are scalars and one-dimensional arrays, stored with shape `[M, 1, 1]` (line 539). -/
inductive Quantity (K : Type)
  | storage (oid : Nat) (qtype : QType)
  | const (oid : Nat) (qtype : QType) (value : List K)
  | node (oid : Nat) (qtype : QType) (selected : Bool) (op : List (QVal K) → Except PyErr (QVal K)) (inputs : List (Quantity K))

/-- A selection id: `id` of a `QuantityStorage`, `id` of the result of `select`, or `id(None)`.
/repo/mlmc/quantity/quantity.py:98-108, 171. -/
inductive SelId
  | store (oid : Nat)
  | select (oid : Nat)
  | noStore
  deriving DecidableEq, Repr

namespace Quantity

/-- The attribute `qtype`, /repo/mlmc/quantity/quantity.py:44, 521, 661. -/
def qtype : Quantity K → QType
  | .storage _ t => t
  | .const _ t _ => t
  | .node _ t _ _ _ => t

/-- `id(self)`, used in /repo/mlmc/quantity/quantity.py:123, 171. -/
def oid : Quantity K → Nat
  | .storage o _ => o
  | .const o _ _ => o
  | .node o _ _ _ _ => o

/-- `isinstance(q, QuantityConst)`, /repo/mlmc/quantity/quantity.py:215-219. -/
def isConst : Quantity K → Bool
  | .const _ _ _ => true
  | _ => false

/-- `size`, /repo/mlmc/quantity/quantity.py:110-115. -/
def size (q : Quantity K) : Nat := q.qtype.size

mutual
/-- `samples` without the cache, /repo/mlmc/quantity/quantity.py:126-135, 558-565, 686-692.  `env` gives for each
`QuantityStorage` object what `sample_pairs_level` returns for the chunk. -/
def samples (env : Nat → Except PyErr (Arr K)) : Quantity K → Except PyErr (QVal K)
  | .storage o _ => (env o).map .arr
  | .const _ _ v => .ok (.arr ⟨1, 1, v.map fun x _ _ => x⟩)
  | .node _ _ _ op ins => (samplesList env ins).bind op
/-- The list comprehension in /repo/mlmc/quantity/quantity.py:133-134. -/
def samplesList (env : Nat → Except PyErr (Arr K)) : List (Quantity K) → Except PyErr (List (QVal K))
  | [] => .ok []
  | q :: qs => do
    let v ← samples env q
    let vs ← samplesList env qs
    .ok (v :: vs)
end

mutual
/-- `get_quantity_storage`, /repo/mlmc/quantity/quantity.py:55-67, 680-681. -/
def storageOf : Quantity K → Option Nat
  | .storage o _ => some o
  | .const _ _ _ => none
  | .node _ _ _ _ ins => firstStorage ins
/-- The loop in /repo/mlmc/quantity/quantity.py:62-66. -/
def firstStorage : List (Quantity K) → Option Nat
  | [] => none
  | q :: qs => (storageOf q).or (firstStorage qs)
end

mutual
/-- `selection_id()`, /repo/mlmc/quantity/quantity.py:98-108, 541-546, 673-678.  The stored `_selection_id` of a quantity that is
not a selection is the first one of its inputs (lines 69-81); without any, the storage is `None` too. -/
def selId : Quantity K → Option SelId
  | .storage o _ => some (.store o)
  | .const _ _ _ => none
  | .node o _ true _ _ => some (.select o)
  | .node _ _ false _ ins => some ((firstSel ins).getD .noStore)
/-- The loop in /repo/mlmc/quantity/quantity.py:75-81 for inputs that pass it. -/
def firstSel : List (Quantity K) → Option SelId
  | [] => none
  | q :: qs => (selId q).or (firstSel qs)
end

/-- The loop of `set_selection_id`, /repo/mlmc/quantity/quantity.py:69-81. -/
def setSelection : Option SelId → List (Quantity K) → Except PyErr (Option SelId)
  | sel, [] => .ok sel
  | none, q :: qs => setSelection q.selId qs
  | some s, q :: qs => if q.selId ≠ none ∧ q.selId ≠ some s then .error .other else setSelection (some s) qs

/-- `Quantity.__init__`, /repo/mlmc/quantity/quantity.py:36-53, with `_check_selection_ids` (83-96). -/
def mk (oid : Nat) (qtype : QType) (op : List (QVal K) → Except PyErr (QVal K)) (inputs : List (Quantity K)) :
    Except PyErr (Quantity K) := do
  let _ ← setSelection none inputs
  let q : Quantity K := .node oid qtype false op inputs
  if q.storageOf ≠ none ∧ ¬ inputs.all (fun i => i.selId == none || i.selId == q.selId) then .error .assertionError else
  .ok q

/-- `create_quantity`, /repo/mlmc/quantity/quantity.py:207-223: the type is that of the first quantity that is not a constant.
Two constants would give a constant with a five-dimensional value; this case is not modelled (an error here). -/
def create (oid : Nat) (op : List (QVal K) → Except PyErr (QVal K)) (qs : List (Quantity K)) : Except PyErr (Quantity K) :=
  match qs.find? (fun q => !q.isConst) with
  | some q => mk oid q.qtype op qs
  | none => .error .other

variable [Inhabited K]

/-- `q + r`, `q - r`, `q * r`, `q / r`, `q % r` and the reflected forms, /repo/mlmc/quantity/quantity.py:177-205, 225-243. -/
def arith (oid : Nat) (f : K → K → K) (a b : Quantity K) : Except PyErr (Quantity K) := create oid (binArr (Arr.zip f)) [a, b]

/-- `_mask_quantity` and the comparison operators, /repo/mlmc/quantity/quantity.py:259-305.  (The `TypeError` cannot occur: a
`BoolType` is a `ScalarType`.) -/
def compare (oid : Nat) (r : K → K → Bool) (a b : Quantity K) : Except PyErr (Quantity K) :=
  mk oid (a.qtype.replaceScalar .bool) (cmpArr (Arr.processMask r)) [a, b]

/-- Number of components found by `_result_qtype`, /repo/mlmc/quantity/quantity.py:459-479: `result.shape[0]`. -/
def firstAxis : QVal K → Nat
  | .arr a => a.rows.length
  | .mask b => b.length

/-- `_method`: NumPy functions of quantities, /repo/mlmc/quantity/quantity.py:418-436, 459-479, 403-416.  `env0`: the first chunk of
the storages.  -/
def ufunc (env0 : Nat → Except PyErr (Arr K)) (oid : Nat) (op : List (QVal K) → Except PyErr (QVal K)) (qs : List (Quantity K)) :
    Except PyErr (Quantity K) := do
  let vs ← samplesList env0 qs
  let v ← op vs
  let base := if qs.all (·.qtype.baseBool) then QType.bool else .scalar
  mk oid (.array [firstAxis v] base) op qs

/-- `select`, /repo/mlmc/quantity/quantity.py:149-172; `oids`: identities of the intermediate conjunctions and of the result. -/
def select (env0 : Nat → Except PyErr (Arr K)) (oids : Nat → Nat) (q : Quantity K) (c : Quantity K) (cs : List (Quantity K)) :
    Except PyErr (Quantity K) := do
  if ¬ (c :: cs).all (·.qtype.baseBool) then .error .other else
  let m ← (cs.zipIdx).foldlM (fun m x => ufunc env0 (oids (x.2 + 1)) (logicArr (· && ·)) [m, x.1]) c
  let s ← mk (oids 0) q.qtype selectArr [q, m]
  match s with
  | .node o t _ op ins => .ok (.node o t true op ins)
  | s => .ok s

/-- `__getitem__`, /repo/mlmc/quantity/quantity.py:366-380 with `_make_getitem_op`, /repo/mlmc/quantity/quantity_types.py:51-58,
124-134.  The reshape of an array type needs as many components as its shape has entries.  (For a chunk without samples NumPy
does not notice a wrong number of components; here it is an error as well.) -/
def getitem (oid : Nat) (q : Quantity K) (b : Brackets) : Except PyErr (Quantity K) := do
  let (t, start) ← q.qtype.getKey b
  match q.qtype, b with
  | .array shape _, .idx _ items =>
    mk oid t (unArr fun a => if a.rows.length = shape.prod then (npIndex shape items).map fun r => a.pick r.2 else .error .valueError) [q]
  | _, _ => mk oid t (unArr fun a => .ok ⟨a.n, a.p, (a.rows.drop start).take t.size⟩) [q]

/-- `QArray`, /repo/mlmc/quantity/quantity.py:481-486, 389-401, 506-512.  `shape`: of the nested list of quantities, `qs` its
flattened entries.  Types are compared for equality of structure; the code compares identity and refuses more. -/
def qArray (sameType : QType → QType → Bool) (oid : Nat) (shape : List Nat) (qs : List (Quantity K)) : Except PyErr (Quantity K) :=
  match qs with
  | [] => .error .indexError
  | q :: _ => if ¬ qs.all (fun r => sameType q.qtype r.qtype) then .error .valueError else
    mk oid (.array shape q.qtype) concatArr qs

/-- `QDict`, /repo/mlmc/quantity/quantity.py:488-491. -/
def qDict (oid : Nat) (kqs : List (PartKey × Quantity K)) : Except PyErr (Quantity K) := do
  let t ← QType.mkDict (kqs.map fun x => (x.1, x.2.qtype))
  mk oid t concatArr (kqs.map (·.2))

/-- `QTimeSeries`, /repo/mlmc/quantity/quantity.py:493-497. -/
def qTimeSeries (sameType : QType → QType → Bool) (oid : Nat) (tqs : List (ℚ × Quantity K)) : Except PyErr (Quantity K) :=
  match tqs with
  | [] => .error .indexError
  | (_, q) :: _ => if ¬ tqs.all (fun r => sameType q.qtype r.2.qtype) then .error .valueError else
    mk oid (.times (tqs.map (·.1)) q.qtype) concatArr (tqs.map (·.2))

/-- `QField`, /repo/mlmc/quantity/quantity.py:500-504. -/
def qField (sameType : QType → QType → Bool) (oid : Nat) (kqs : List (PartKey × Quantity K)) : Except PyErr (Quantity K) :=
  match kqs with
  | [] => .error .indexError
  | (_, q) :: _ => do
    if ¬ kqs.all (fun r => sameType q.qtype r.2.qtype) then .error .valueError else
    let t ← QType.mkField (kqs.map fun x => (x.1, x.2.qtype))
    mk oid t concatArr (kqs.map (·.2))

end Quantity

/-- Keys of locations, /repo/mlmc/quantity/quantity.py:25-26. -/
def Loc.toKey : Loc → PartKey
  | .name s => .str s
  | .point x y z => .point x y z

/-- The type of one quantity of a result format, /repo/mlmc/quantity/quantity.py:24-29. -/
def specType (s : QSpec) : Except PyErr QType := do
  let f ← QType.mkField (s.locations.map fun l => (l.toKey, .array s.shape .scalar))
  .ok (.times s.times f)

/-- `make_root_quantity`, /repo/mlmc/quantity/quantity.py:14-32; `oid` is the identity of the new `QuantityStorage`. -/
def makeRoot (oid : Nat) (fmt : List QSpec) : Except PyErr (Quantity K) := do
  let items ← fmt.mapM fun s => (specType s).map fun t => (PartKey.str s.name, t)
  let t ← QType.mkDict items
  .ok (.storage oid t)

/-! ## Moments and covariances -/

/-- A family of moment functions as seen by quantities: number of functions and their values at a point
(`eval_all`, /repo/mlmc/moments.py:75-88). -/
structure MomentFn (K : Type) where
  size : Nat
  ev : Nat → K → K

namespace Quantity
variable [Inhabited K]

/-- `moment`, /repo/mlmc/quantity/quantity_estimate.py:83-93. -/
def moment (oid : Nat) (fn : MomentFn K) (i : Nat) (q : Quantity K) : Except PyErr (Quantity K) :=
  mk oid q.qtype (unArr fun a => .ok (a.map (fn.ev i))) [q]

/-- `moments`, /repo/mlmc/quantity/quantity_estimate.py:96-119. -/
def moments (oid : Nat) (fn : MomentFn K) (bottom : Bool) (q : Quantity K) : Except PyErr (Quantity K) :=
  mk oid (if bottom then q.qtype.replaceScalar (.array [fn.size] .scalar) else .array [fn.size] q.qtype)
    (unArr fun a => .ok ⟨a.n, a.p,
      if bottom then a.rows.flatMap fun r => (List.range fn.size).map fun i j k => fn.ev i (r j k)
      else (List.range fn.size).flatMap fun i => a.rows.map fun r j k => fn.ev i (r j k)⟩) [q]

/-- `covariance`, /repo/mlmc/quantity/quantity_estimate.py:122-156: products of moments, separately for each part. -/
def covariance [Mul K] (oid : Nat) (fn : MomentFn K) (bottom : Bool) (q : Quantity K) : Except PyErr (Quantity K) :=
  mk oid (if bottom then q.qtype.replaceScalar (.array [fn.size, fn.size] .scalar) else .array [fn.size, fn.size] q.qtype)
    (unArr fun a => .ok ⟨a.n, a.p,
      let cov (i i' : Nat) (r : Nat → Nat → K) : Nat → Nat → K := fun j k => fn.ev i (r j k) * fn.ev i' (r j k)
      if bottom then a.rows.flatMap fun r => (List.range fn.size).flatMap fun i => (List.range fn.size).map fun i' => cov i i' r
      else (List.range fn.size).flatMap fun i => (List.range fn.size).flatMap fun i' => a.rows.map fun r => cov i i' r⟩) [q]

/-- Times with their position, sorted stably: `interp1d` sorts its nodes (`assume_sorted=False`).
/repo/mlmc/quantity/quantity_types.py:172. -/
def sortedTimes (ts : List ℚ) : List (ℚ × Nat) := ts.zipIdx.insertionSort fun a b => a.1 ≤ b.1

/-- The nodes between which `interp1d` interpolates at `v`: `searchsorted` (number of nodes below `v`) cut to `1 .. T-1`.
scipy's linear interpolation as called in /repo/mlmc/quantity/quantity_types.py:172-173. -/
def bracket (xs : List (ℚ × Nat)) (v : ℚ) : Nat := min (max ((xs.filter fun x => x.1 < v).length) 1) (xs.length - 1)

/-- `interp1d(times, y, axis=0)(v)` for arrays `y[T, m, N, P]` as called in
/repo/mlmc/quantity/quantity_types.py:169-173: values outside the range raise.  `lerp x0 x1 v y0 y1` is the linear formula.
Series with fewer than two times are not modelled (an error here); the pieces of `np.split` must have equal shapes. -/
def interpArr (lerp : ℚ → ℚ → ℚ → K → K → K) (ts : List ℚ) (sz : Nat) (v : ℚ) (a : Arr K) : Except PyErr (Arr K) :=
  let xs := sortedTimes ts
  if a.rows.length ≠ ts.length * sz ∨ ts.length < 2 then .error .valueError else
  if (∀ x ∈ ts, v < x) ∨ (∀ x ∈ ts, x < v) then .error .valueError else
  let hi := bracket xs v
  let lo := hi - 1
  let row (c : Nat) (r : Nat) : Nat → Nat → K := a.rows.getD ((xs.getD c (0, 0)).2 * sz + r) fun _ _ => default
  .ok ⟨a.n, a.p, (List.range sz).map fun r j k =>
    lerp (xs.getD lo (0, 0)).1 (xs.getD hi (0, 0)).1 v (row lo r j k) (row hi r j k)⟩

/-- `time_interpolation`, /repo/mlmc/quantity/quantity_types.py:161-174, reached through `Quantity.__getattr__`
(/repo/mlmc/quantity/quantity.py:382-387), which looks it up in the type. -/
def timeInterpolation (lerp : ℚ → ℚ → ℚ → K → K → K) (oid : Nat) (q : Quantity K) (v : ℚ) : Except PyErr (Quantity K) :=
  match q.qtype with
  | .times ts t => mk oid t (unArr (interpArr lerp ts t.size v)) [q]
  | _ => .error .attributeError

end Quantity

/-- The formula of `interp1d` (`scipy`, `kind='linear'`): slope times distance plus left value;
/repo/mlmc/quantity/quantity_types.py:172-173. -/
def linearBetween {F : Type} [Field F] (x0 x1 v : ℚ) (y0 y1 : F) : F := (y1 - y0) / ((x1 - x0 : ℚ) : F) * ((v - x0 : ℚ) : F) + y0

end MLMC
