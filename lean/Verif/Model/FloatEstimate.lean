import Verif.Model.Estimate
import Mathlib.Data.Int.Log
import Mathlib.Algebra.Order.Floor.Ring
import Mathlib.Data.Rat.Floor
/-
`estimate_mean` in floating-point arithmetic: /repo/mlmc/quantity/quantity_estimate.py:22-80 and
/repo/mlmc/quantity/quantity.py:592-605, with the rounding of every operation.

The values of the quantity on the stored samples are given (rounding in the evaluation of the quantity is left out), numbers of samples
are converted to floats exactly, and there is no overflow or underflow.  NaN is `none`.
-/
namespace MLMC.Fl
variable {F : Type}

/-- In which order `np.sum` adds the entries of an array: a binary tree with the positions of the entries as leaves.
/repo/mlmc/quantity/quantity_estimate.py:64-65. -/
inductive Tree
  | leaf (i : Nat)
  | node (a b : Tree)

/-- The arithmetic of the machine: the rounding of an exact result, and the order in which arrays of each length are added.
/repo/mlmc/quantity/quantity_estimate.py:59-77. -/
structure Arith (F : Type) where
  rnd : F → F
  order : Nat → Tree

/-- Sum in the order of the tree, rounded at each addition.  /repo/mlmc/quantity/quantity_estimate.py:64-65. -/
def Tree.sum [Add F] (rnd : F → F) (x : Nat → F) : Tree → F
  | .leaf i => x i
  | .node a b => rnd (a.sum rnd x + b.sum rnd x)

/-- `np.sum` of a vector.  /repo/mlmc/quantity/quantity_estimate.py:64-65. -/
def Arith.sum [Add F] [Zero F] (A : Arith F) (xs : List F) : F := (A.order xs.length).sum A.rnd fun i => xs.getD i 0

/-- `chunk_diff` of component `i` of a sample without NaN.  /repo/mlmc/quantity/quantity_estimate.py:59-62. -/
def Arith.diff [Zero F] [Sub F] (A : Arith F) (level i : Nat) (s : List (List (Option F))) : F :=
  let fine := ((s.getD 0 []).getD i none).getD 0
  let coarse := ((s.getD 1 []).getD i none).getD 0
  if level = 0 then fine else A.rnd (fine - coarse)

/-- One round of the loop over the chunks.  The assertion on the number of components is left out.
/repo/mlmc/quantity/quantity_estimate.py:43-65. -/
def Arith.step [Field F] (A : Arith F) (nLevels : Nat) (acc : MeanAcc F) (level : Nat) (chunk : List (List (List (Option F)))) :
    Except PyErr (MeanAcc F) :=
  if nLevels ≤ level then .error .indexError else
  let isNan (s : List (List (Option F))) : Bool := s.any fun part => part.any fun x => x.isNone
  let used := chunk.filter fun s => !isNan s
  let acc := { acc with
    n := fun l => if l = level then acc.n l + used.length else acc.n l
    rm := fun l => if l = level then acc.rm l + (chunk.filter isNan).length else acc.rm l }
  if used.length = 0 then .ok acc else
  .ok { acc with
    started := true
    sums := fun l i => if l = level then A.rnd (acc.sums l i + A.sum (used.map (A.diff level i))) else acc.sums l i
    sqs := fun l i => if l = level then A.rnd (acc.sqs l i + A.sum (used.map fun s => A.rnd (A.diff level i s * A.diff level i s)))
      else acc.sqs l i }

/-- The loop over the chunks.  /repo/mlmc/quantity/quantity_estimate.py:43-65. -/
def Arith.loop [Field F] (A : Arith F) (nLevels : Nat) : MeanAcc F → List (Nat × List (List (List (Option F)))) → Except PyErr (MeanAcc F)
  | acc, [] => .ok acc
  | acc, c :: cs => match A.step nLevels acc c.1 c.2 with
    | .error e => .error e
    | .ok acc => A.loop nLevels acc cs

/-- `l_means` of one level.  /repo/mlmc/quantity/quantity_estimate.py:73. -/
def Arith.levelMean [Field F] (A : Arith F) (s : F) (n : Nat) : Option F := if n = 0 then none else some (A.rnd (s / n))

/-- `l_vars` of one level; `none` is infinity.  /repo/mlmc/quantity/quantity_estimate.py:74-77. -/
def Arith.levelVar [Field F] (A : Arith F) (s sp : F) (n : Nat) : Option F :=
  if n > 1 then some (A.rnd (A.rnd (sp - A.rnd (A.rnd (s * s) / n)) / (n - 1))) else none

/-- `estimate_mean` for a quantity of type `t` whose values on the chunks of the levels are given.
/repo/mlmc/quantity/quantity_estimate.py:22-80. -/
def Arith.estimate [Field F] (A : Arith F) (t : QType) (nLevels : Nat) (chunks : List (Nat × List (List (List (Option F))))) :
    Except PyErr (QuantityMean F) :=
  match A.loop nLevels .init chunks with
  | .error e => .error e
  | .ok acc =>
    if !acc.started then .error .other else
    .ok ⟨t, (List.range nLevels).map fun l => (List.range t.size).map fun i => A.levelMean (acc.sums l i) (acc.n l),
      (List.range nLevels).map fun l => (List.range t.size).map fun i => A.levelVar (acc.sums l i) (acc.sqs l i) (acc.n l),
      (List.range nLevels).map acc.n, (List.range nLevels).map acc.rm⟩

/-- Component `i` of `mean` for an estimate whose levels all have samples.  /repo/mlmc/quantity/quantity.py:592, 595-599. -/
def Arith.mean [Field F] (A : Arith F) (e : QuantityMean F) (i : Nat) : F := A.sum (e.lMeans.map fun v => (v.getD i none).getD 0)

/-- Component `i` of `var` for an estimate whose levels all have two samples.  /repo/mlmc/quantity/quantity.py:593, 601-605. -/
def Arith.var [Field F] (A : Arith F) (e : QuantityMean F) (i : Nat) : F :=
  A.sum ((e.lVars.zip e.nSamples).map fun x => A.rnd ((x.1.getD i none).getD 0 / (x.2 : F)))

/-- Powers of two with integer exponent, part of the rounding of the numbers in /repo/mlmc/quantity/quantity_estimate.py:56-77. -/
def two (e : ℤ) : ℚ := if 0 ≤ e then 2 ^ e.toNat else 1 / 2 ^ (-e).toNat

/-- The nearest integer, ties to even, part of the rounding of the numbers in /repo/mlmc/quantity/quantity_estimate.py:56-77. -/
def nearest (q : ℚ) : ℤ :=
  if Int.fract q < 1/2 then ⌊q⌋ else if 1/2 < Int.fract q then ⌊q⌋ + 1 else if ⌊q⌋ % 2 = 0 then ⌊q⌋ else ⌊q⌋ + 1

/-- Rounding to 53 binary digits, ties to even: the arithmetic of `np.float64` (unlimited exponents).  NumPy's arrays in
/repo/mlmc/quantity/quantity_estimate.py:56-57 are of this type. -/
def double (x : ℚ) : ℚ :=
  if x = 0 then 0 else
  let e := Int.log 2 |x| - 52
  if 0 < x then nearest (x * two (-e)) * two e else -(nearest (-x * two (-e)) * two e)

/-- Adding one entry after the other.  /repo/mlmc/quantity/quantity_estimate.py:64-65. -/
def oneByOne : Nat → Tree
  | 0 => .leaf 0
  | 1 => .leaf 0
  | n + 2 => .node (oneByOne (n + 1)) (.leaf (n + 1))

/-- Numbers of type `np.float64`, short arrays added from the left (NumPy does so below eight entries).
/repo/mlmc/quantity/quantity_estimate.py:64-65. -/
def float64 : Arith ℚ := ⟨double, oneByOne⟩

end MLMC.Fl
