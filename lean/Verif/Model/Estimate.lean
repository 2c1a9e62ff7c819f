import Verif.Model.Quantity
/-
Estimation of means: /repo/mlmc/quantity/quantity_estimate.py:6-80 and `QuantityMean`, /repo/mlmc/quantity/quantity.py:568-651.

A float is `Option F`: `none` is NaN.  Arithmetic is exact.
-/
namespace MLMC
variable {F : Type}

/-- Products of floats, NaN if one factor is; used in `np.einsum`, /repo/mlmc/quantity/quantity_estimate.py:134, 140. -/
instance [Mul F] : Mul (Option F) := ⟨fun a b => a.bind fun x => b.map (x * ·)⟩

/-- Sum of floats (`np.sum` and the sum in /repo/mlmc/quantity/quantity.py:592-593): NaN if one of them is. -/
def floatSum [Add F] [Zero F] (l : List (Option F)) : Option F := l.foldr (fun a s => a.bind fun x => s.map (x + ·)) (some 0)

/-- Whether sample `j` of a chunk contains a NaN in any component, fine or coarse: `mask`,
/repo/mlmc/quantity/quantity_estimate.py:13. -/
def Arr.nanAt (a : Arr (Option F)) (j : Nat) : Bool := a.rows.any fun r => (List.range a.p).any fun k => (r j k).isNone

/-- `mask_nan_samples`, /repo/mlmc/quantity/quantity_estimate.py:6-14. -/
def maskNan (a : Arr (Option F)) : Arr (Option F) × Nat :=
  let idx := (List.range a.n).filter fun j => !a.nanAt j
  (⟨idx.length, a.p, a.rows.map fun r j k => r (idx.getD j 0) k⟩, ((List.range a.n).filter fun j => a.nanAt j).length)

/-- The variables of the loop of `estimate_mean`, /repo/mlmc/quantity/quantity_estimate.py:33-41: lists over levels (here functions of
the level), `started` is `sums is not None`; sums are also indexed by the component. -/
structure MeanAcc (F : Type) where
  n : Nat → Nat
  rm : Nat → Nat
  started : Bool
  sums : Nat → Nat → F
  sqs : Nat → Nat → F

/-- Values before the loop, /repo/mlmc/quantity/quantity_estimate.py:33-41, 56-57. -/
def MeanAcc.init [Zero F] : MeanAcc F := ⟨fun _ => 0, fun _ => 0, false, fun _ _ => 0, fun _ _ => 0⟩

/-- `chunk_diff` for sample `j` of row `r`; no NaN is left at this point.  /repo/mlmc/quantity/quantity_estimate.py:59-62. -/
def chunkDiff [Zero F] [Sub F] (level : Nat) (r : Nat → Nat → Option F) (j : Nat) : F :=
  if level = 0 then (r j 0).getD 0 else (r j 0).getD 0 - (r j 1).getD 0

/-- One round of the loop, /repo/mlmc/quantity/quantity_estimate.py:43-65. -/
def meanStep [Field F] (size nLevels : Nat) (acc : MeanAcc F) (level : Nat) (samples : QVal (Option F)) : Except PyErr (MeanAcc F) :=
  match samples with
  | .mask _ => .error .other
  | .arr a =>
    if nLevels ≤ level then .error .indexError else
    let c := (maskNan a).1
    let acc := { acc with
      n := fun l => if l = level then acc.n l + c.n else acc.n l
      rm := fun l => if l = level then acc.rm l + (maskNan a).2 else acc.rm l }
    if c.n = 0 then .ok acc else
    if c.rows.length ≠ size then .error .assertionError else
    if c.p < (if level = 0 then 1 else 2) then .error .indexError else
    let diff (i j : Nat) : F := chunkDiff level (c.rows.getD i fun _ _ => none) j
    .ok { acc with
      started := true
      sums := fun l i => if l = level then acc.sums l i + ((List.range c.n).map fun j => diff i j).sum else acc.sums l i
      sqs := fun l i => if l = level then acc.sqs l i + ((List.range c.n).map fun j => diff i j ^ 2).sum else acc.sqs l i }

/-- The loop over the chunks of the storage, /repo/mlmc/quantity/quantity_estimate.py:43-65.  A chunk is its level and what the
storages return for it. -/
def meanLoop [Field F] (q : Quantity (Option F)) (nLevels : Nat) : MeanAcc F → List (Nat × (Nat → Except PyErr (Arr (Option F)))) →
    Except PyErr (MeanAcc F)
  | acc, [] => .ok acc
  | acc, c :: cs => do
    let s ← q.samples c.2
    let acc ← meanStep q.size nLevels acc c.1 s
    meanLoop q nLevels acc cs

/-- `QuantityMean`, /repo/mlmc/quantity/quantity.py:568-588; means and variances of the levels as flat vectors.  In `lMeans` `none`
is NaN, in `lVars` `none` is infinity. -/
structure QuantityMean (F : Type) where
  qtype : QType
  lMeans : List (List (Option F))
  lVars : List (List (Option F))
  nSamples : List Nat
  nRm : List Nat

/-- `l_means` of one level, /repo/mlmc/quantity/quantity_estimate.py:73: `0/0` is NaN. -/
def levelMean [Field F] (s : F) (n : Nat) : Option F := if n = 0 then none else some (s / n)

/-- `l_vars` of one level, /repo/mlmc/quantity/quantity_estimate.py:74-77. -/
def levelVar [Field F] (s sp : F) (n : Nat) : Option F := if n > 1 then some ((sp - s ^ 2 / n) / (n - 1)) else none

/-- `estimate_mean`, /repo/mlmc/quantity/quantity_estimate.py:22-80.  (The cache is cleared first, so that all evaluations
read the storage.)  `nLevels` is `np.max(level_ids) + 1`. -/
def estimateMean [Field F] (q : Quantity (Option F)) (nLevels : Nat) (chunks : List (Nat × (Nat → Except PyErr (Arr (Option F))))) :
    Except PyErr (QuantityMean F) := do
  if q.storageOf = none then .error .attributeError else
  let acc ← meanLoop q nLevels .init chunks
  if !acc.started then .error .other else
  .ok ⟨q.qtype, (List.range nLevels).map fun l => (List.range q.size).map fun i => levelMean (acc.sums l i) (acc.n l),
    (List.range nLevels).map fun l => (List.range q.size).map fun i => levelVar (acc.sums l i) (acc.sqs l i) (acc.n l),
    (List.range nLevels).map acc.n, (List.range nLevels).map acc.rm⟩

namespace QuantityMean
variable [Field F]

/-- `mean` as a flat vector, /repo/mlmc/quantity/quantity.py:592, 595-599 (the reshape of lines 623-630 keeps the order). -/
def mean (e : QuantityMean F) : List (Option F) :=
  (List.range e.qtype.size).map fun i => floatSum (e.lMeans.map fun v => v.getD i none)

/-- `var` as a flat vector, /repo/mlmc/quantity/quantity.py:593, 601-605; infinite if a level variance is. -/
def var (e : QuantityMean F) : List (Option F) :=
  (List.range e.qtype.size).map fun i => floatSum ((e.lVars.zip e.nSamples).map fun x => (x.1.getD i none).map (· / (x.2 : F)))

/-- The entries `[:, key]` of one level vector, /repo/mlmc/quantity/quantity.py:639-646 with the reshape
/repo/mlmc/quantity/quantity_types.py:136-140.  For an array type a single index or slice takes blocks of the first axis; a tuple is
a list of positions of the first axis (NumPy's advanced indexing). -/
def take (t : QType) (b : Brackets) (v : List (Option F)) : Except PyErr (List (Option F)) :=
  match t, b with
  | .array shape _, .idx false [it] => do
    let (_, idx) ← npIndex shape [it]
    let m := v.length / shape.prod
    .ok (idx.flatMap fun i => (v.drop (i * m)).take m)
  | .array [] _, .idx _ _ => .error .indexError
  | .array (d :: shape) _, .idx _ items => do
    let pos ← items.mapM fun it => match it with
      | .int i => normIndex d i
      | .slice _ _ _ => .error .indexError
    let m := v.length / (d :: shape).prod
    .ok (pos.flatMap fun i => (v.drop (i * (shape.prod * m))).take (shape.prod * m))
  | t, b => do
    let (t', start) ← t.getKey b
    .ok ((v.drop start).take t'.size)

/-- `__getitem__`, /repo/mlmc/quantity/quantity.py:632-651. -/
def getitem (e : QuantityMean F) (b : Brackets) : Except PyErr (QuantityMean F) := do
  let (t, _) ← e.qtype.getKey b
  let ms ← e.lMeans.mapM (take e.qtype b)
  let vs ← e.lVars.mapM (take e.qtype b)
  .ok ⟨t, ms, vs, e.nSamples, e.nRm⟩

end QuantityMean

end MLMC
