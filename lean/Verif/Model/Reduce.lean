import Verif.Model.Estimate
/-
Reductions of quantities with NumPy functions: `np.sum(q, axis, keepdims)`, `np.max(q, …)`.  NumPy passes them to `ufunc.reduce`, which calls
`Quantity.__array_ufunc__`, /repo/mlmc/quantity/quantity.py:174-175, 418-436, 459-479.
-/
namespace MLMC
variable {K : Type} [Inhabited K]

/-- The function that is reduced: `np.add` has the value 0 on nothing, `np.maximum` and `np.minimum` raise.  Used in /repo/mlmc/quantity/quantity.py:430-431. -/
structure RedFn (K : Type) where
  f : K → K → K
  unit : Option K

/-- Values reduced to one, /repo/mlmc/quantity/quantity.py:430-431. -/
def RedFn.run (r : RedFn K) : List K → Except PyErr K
  | [] => match r.unit with
    | some e => .ok e
    | none => .error .valueError
  | x :: xs => .ok (xs.foldl r.f x)

/-- The axis of an array `[M, N, P]`; `axis` may be negative, other numbers raise `AxisError`, which is a `ValueError`.  Used in /repo/mlmc/quantity/quantity.py:430-431. -/
def axisOf (axis : Int) : Except PyErr Nat :=
  if axis = 0 ∨ axis = -3 then .ok 0 else if axis = 1 ∨ axis = -2 then .ok 1 else if axis = 2 ∨ axis = -1 then .ok 2 else .error .valueError

/-- `ufunc.reduce(chunk, axis=axis, keepdims=True)`, /repo/mlmc/quantity/quantity.py:430-431.  `axis = none` is `None`: over all axes.  Simplification: a reduction along an axis is evaluated only
for existing entries of the other two axes and an error of one entry is an error of the call (for a function without a value on nothing NumPy raises also if there is no such entry). -/
def Arr.reduceAxis (r : RedFn K) (axis : Option Int) (a : Arr K) : Except PyErr (Arr K) :=
  match axis with
  | none => (r.run (a.rows.flatMap fun x => (List.range a.n).flatMap fun j => (List.range a.p).map fun k => x j k)).map fun y => ⟨1, 1, [fun _ _ => y]⟩
  | some i => (axisOf i).bind fun i =>
    if i = 0 then
      if a.rows = [] ∧ r.unit = none then .error .valueError
      else .ok ⟨a.n, a.p, [fun j k => ((r.run (a.rows.map fun x => x j k)).toOption).getD default]⟩
    else if i = 1 then
      if a.n = 0 ∧ r.unit = none then .error .valueError
      else .ok ⟨1, a.p, a.rows.map fun x _ k => ((r.run ((List.range a.n).map fun j => x j k)).toOption).getD default⟩
    else
      if a.p = 0 ∧ r.unit = none then .error .valueError
      else .ok ⟨a.n, 1, a.rows.map fun x j _ => ((r.run ((List.range a.p).map fun k => x j k)).toOption).getD default⟩

/-- The first number of the shape of `ufunc.reduce(chunk, axis=axis, keepdims=keep)`, /repo/mlmc/quantity/quantity.py:478: `none` if there is none (a single number). -/
def firstLength (axis : Option Nat) (keep : Bool) (a b : Arr K) : Option Nat :=
  if keep then some b.rows.length else match axis with
    | none => none
    | some 0 => some a.n
    | some _ => some a.rows.length

/-- `np.sum(q, axis=axis, keepdims=keep)` and similar functions of a quantity, /repo/mlmc/quantity/quantity.py:174-175, 418-436, 459-479.  A result without axes has no `shape[0]` (`IndexError`).
Without `keepdims` the evaluated chunks have two axes; `mask_nan_samples`, which every estimate begins with (/repo/mlmc/quantity/quantity_estimate.py:13), raises `AxisError` for them.  Here the evaluation itself raises. -/
def Quantity.reduction (env0 : Nat → Except PyErr (Arr K)) (oid : Nat) (r : RedFn K) (axis : Option Int) (keep : Bool) (q : Quantity K) : Except PyErr (Quantity K) :=
  (q.samples env0).bind fun v => match v with
  | .mask _ => .error .other
  | .arr a => (a.reduceAxis r axis).bind fun b =>
    match firstLength (axis.map fun i => ((axisOf i).toOption).getD 0) keep a b with
    | none => .error .indexError
    | some d => mk oid (.array [d] (if q.qtype.baseBool then .bool else .scalar))
        (unArr fun x => if keep then x.reduceAxis r axis else (x.reduceAxis r axis).bind fun _ => .error .valueError) [q]

end MLMC
