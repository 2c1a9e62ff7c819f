import Verif.Model.Quantity
/-
Constants in expressions with quantities: /repo/mlmc/quantity/quantity.py:207-257, 438-456, 515-539, with NumPy arrays of any number of axes.
-/
namespace MLMC.Const
variable {K : Type}

/-- A NumPy array with any number of axes; only entries at indices below the shape mean anything.  The values handled in /repo/mlmc/quantity/quantity.py:225-257, 531-539. -/
structure ND (K : Type) where
  shape : List Nat
  get : List Nat → K

/-- What may stand beside a quantity in an expression, by the tests in /repo/mlmc/quantity/quantity.py:445-455. -/
inductive PyVal (K : Type)
  /-- `int`, `float`, and `bool`, which is a subclass of `int` (also `np.float64`, a subclass of `float`). -/
  | number (x : K)
  /-- Other NumPy numbers: `np.int64`, `np.float32`, ... -/
  | npNumber (x : K)
  /-- A (nested) list or an array. -/
  | array (a : ND K)
  /-- Anything else. -/
  | other

/-- `value[:, np.newaxis, np.newaxis]`, /repo/mlmc/quantity/quantity.py:539; an `IndexError` for an array without axes. -/
def newAxes (a : ND K) : Except PyErr (ND K) :=
  match a.shape with
  | [] => .error .indexError
  | m :: s => .ok ⟨m :: 1 :: 1 :: s, fun ix => a.get (ix.take 1 ++ ix.drop 3)⟩

/-- `Quantity.wrap` of something that is not a quantity, with `QuantityConst.__init__` and `_process_value`, /repo/mlmc/quantity/quantity.py:438-456, 516-539: type and value. -/
def wrap : PyVal K → Except PyErr (QType × ND K)
  | .number x => (newAxes ⟨[1], fun _ => x⟩).map fun v => (.scalar, v)
  | .array a => (newAxes a).map fun v => (.array a.shape .scalar, v)
  | .npNumber _ => .error .valueError
  | .other => .error .valueError

/-- Common shape of two arrays, last axis first: NumPy broadcasting, /repo/mlmc/quantity/quantity.py:225-243. -/
def bshapeRev : List Nat → List Nat → Except PyErr (List Nat)
  | [], t => .ok t
  | s, [] => .ok s
  | a :: s, b :: t => do
    let d ← bdim a b
    let r ← bshapeRev s t
    .ok (d :: r)

/-- Index into an array broadcast to a larger shape: axes are matched from the last one, /repo/mlmc/quantity/quantity.py:225-243. -/
def bindex (shape ix : List Nat) : List Nat := (List.zipWith (fun d i => if d = 1 then 0 else i) shape.reverse ix.reverse).reverse

/-- `x + y` and the other operations on arrays, /repo/mlmc/quantity/quantity.py:225-243. -/
def ND.zip {L : Type} (f : K → K → L) (x y : ND K) : Except PyErr (ND L) := do
  let s ← bshapeRev x.shape.reverse y.shape.reverse
  .ok ⟨s.reverse, fun ix => f (x.get (bindex x.shape ix)) (y.get (bindex y.shape ix))⟩

/-- All indices of an array, /repo/mlmc/quantity/quantity.py:257. -/
def indices : List Nat → List (List Nat)
  | [] => [[]]
  | d :: s => (List.range d).flatMap fun i => (indices s).map (i :: ·)

/-- `_process_mask`, /repo/mlmc/quantity/quantity.py:245-257: `all` over all axes but the last two, then over the last one; fewer than two axes are an error of `all(axis=1)`. -/
def maskND (r : K → K → Bool) (x y : ND K) : Except PyErr (List Bool) := do
  let z ← ND.zip r x y
  match z.shape.reverse with
  | p :: n :: s => .ok ((List.range n).map fun j => (List.range p).all fun k => (indices s.reverse).all fun ix => z.get (ix ++ [j, k]))
  | _ => .error .other

/-- A chunk `[M, N, P]` of samples as an array, /repo/mlmc/quantity/quantity.py:126-135. -/
def ofArr [Inhabited K] (a : Arr K) : ND K :=
  ⟨[a.rows.length, a.n, a.p], fun ix => (a.rows.getD (ix.getD 0 0) fun _ _ => default) (ix.getD 1 0) (ix.getD 2 0)⟩

/-- `create_quantity` of two constants, /repo/mlmc/quantity/quantity.py:221-222: the value of the new constant, processed again by its constructor. -/
def constOp (f : K → K → K) (x y : ND K) : Except PyErr (ND K) := (ND.zip f x y).bind newAxes

end MLMC.Const
