import Verif.Model.Storage
import Mathlib.Algebra.Order.Floor.Ring
import Mathlib.Algebra.Field.Defs
import Mathlib.Algebra.BigOperators.Group.List.Basic
import Mathlib.Data.Nat.Sqrt
/-
Plots: /repo/mlmc/plot/plots.py.

What is modelled are the data handed to matplotlib: points, bars, lines, labels and names of files.  Colors, sizes of figures and the drawing itself are
left out.  Numbers are elements of an ordered field; where numpy would give infinities or NaN (division by zero) the theorems have hypotheses.
-/
namespace MLMC.Plot
variable {F : Type}

section Subset
variable [Field F] [LinearOrder F] [FloorRing F]

/-- `np.round(x).astype(int)`: the nearest integer, halves go to the even one. /repo/mlmc/plot/plots.py:53. -/
def npRound (x : F) : ℤ :=
  let d := x - (⌊x⌋ : F)
  if d < 1 / 2 then ⌊x⌋ else if 1 / 2 < d then ⌊x⌋ + 1 else if ⌊x⌋ % 2 = 0 then ⌊x⌋ else ⌊x⌋ + 1

/-- The loop `subset[i] = max(subset[i], subset[i-1] + 1)`; `prev` is the entry before the list. /repo/mlmc/plot/plots.py:55-56. -/
def raiseFrom (prev : ℤ) : List ℤ → List ℤ
  | [] => []
  | x :: xs => max x (prev + 1) :: raiseFrom (max x (prev + 1)) xs

/-- Lines 54-56: the first entry stays. /repo/mlmc/plot/plots.py:54-56. -/
def makeUnique : List ℤ → List ℤ
  | [] => []
  | x :: xs => x :: raiseFrom x xs

/-- `moments_subset(n_moments, moments)`.  `geo lo hi k` is `np.geomspace(lo, hi, k)`; it raises ValueError if an end is zero (one moment) or
the number of points is negative.  `n_moments = 0` is treated as `1` (no moments exist in both cases). /repo/mlmc/plot/plots.py:40-57. -/
def momentsSubset (geo : F → F → Nat → List F) (nMoments : Nat) : Option ℤ → Except PyErr (List ℤ)
  | none => .ok ((List.range (nMoments - 1)).map fun i : Nat => (i : ℤ) + 1)
  | some k =>
    if k < 0 ∨ nMoments ≤ 1 then .error .valueError
    else .ok (makeUnique ((geo 1 ((nMoments - 1 : Nat) : F) k.toNat).map npRound))

end Subset

/-- `row[subset]` for one row of a table with nonnegative indices: an index past the end raises IndexError. Negative indices do not occur (the
subset starts with 1 and increases). /repo/mlmc/plot/plots.py:433, 452, 525. -/
def takeCols (subset : List ℤ) (row : List F) : Except PyErr (List F) :=
  subset.mapM fun i => match row[i.toNat]? with
    | some x => .ok x
    | none => .error .indexError

/-- `_show_and_save(fig, file, title)`: the name of the file the figure is saved to; `none` if it is shown only. Texts are lists of characters,
`file[-3:]` are the last three characters. /repo/mlmc/plot/plots.py:60-71. -/
def savedTo (title : List Char) : Option (List Char) → Option (List Char)
  | none => none
  | some file =>
    let file := if file = [] then title else file
    some (if file.drop (file.length - 3) ≠ ['p', 'd', 'f'] then file ++ ['.', 'p', 'd', 'f'] else file)

section Breakdown
variable [Field F] [LinearOrder F]

/-- One call of `ax.bar`: the bars of one level. /repo/mlmc/plot/plots.py:460-461. -/
structure Bars (F : Type) where
  level : Nat
  xs : List F
  heights : List F
  bottoms : List F
  /-- lower and upper lengths of the error bars -/
  err : Option (List F × List F)
  deriving DecidableEq

/-- A text beside the bars: level, number of samples, the point its arrow shows to. /repo/mlmc/plot/plots.py:462-470. -/
structure Note (F : Type) where
  level : Nat
  nSamples : F
  at_ : F × F
  deriving DecidableEq

/-- `VarianceBreakdown`: its attributes and what was drawn. /repo/mlmc/plot/plots.py:401-413. -/
structure Breakdown (F : Type) where
  subsetType : Option ℤ
  nMoments : Option Nat := none
  subset : List ℤ := []
  xShift : F
  xList : List (List F) := []
  xLabels : List String := []
  bars : List (Bars F) := []
  notes : List (Note F) := []

/-- `VarianceBreakdown(moments)`. /repo/mlmc/plot/plots.py:401-413. -/
def Breakdown.new (subsetType : Option ℤ) : Breakdown F := { subsetType := subsetType, xShift := 0 }

/-- `np.mean` of a list. /repo/mlmc/plot/plots.py:448, 453. -/
def mean (xs : List F) : F := xs.sum / (xs.length : F)

/-- `np.concatenate(([np.mean(vars)], vars)) / n`. /repo/mlmc/plot/plots.py:448-449, 453-454. -/
def withMean (n : F) (vars : List F) : List F := (mean vars :: vars).map (· / n)

/-- The loop over levels from the finest to the coarsest: `rows` are the shown variances of levels with numbers of samples and reference variances,
finest first, `sumY` the height reached. /repo/mlmc/plot/plots.py:446-472. -/
def stack (width : F) (xs : List F) : List (Nat × List F × F × Option (List F)) → List F → List (Bars F × Note F)
  | [], _ => []
  | (il, vars, n, ref) :: rest, sumY =>
    let Y := withMean n vars
    let err := ref.map fun r =>
      let diff := List.zipWith (· - ·) (withMean n r) Y
      (diff.map fun d => - min d 0, diff.map fun d => max d 0)
    ({ level := il, xs := xs, heights := Y, bottoms := sumY, err := err },
      { level := il, nSamples := n, at_ := (xs.headD 0 - width / 2, Y.headD 0 / 2 + sumY.headD 0) })
      :: stack width xs rest (List.zipWith (· + ·) sumY Y)

/-- The moments shown are chosen by the first call; later tables must have as many moments. /repo/mlmc/plot/plots.py:427-431. -/
def Breakdown.choose (sub : Nat → Option ℤ → Except PyErr (List ℤ)) (b : Breakdown F) (cols : Nat) : Except PyErr (Breakdown F) :=
  match b.nMoments with
  | none => (sub cols b.subsetType).map fun s => { b with nMoments := some cols, subset := s }
  | some n => if n = cols then .ok b else .error .assertionError

/-- The shown columns of the reference variances of the levels. /repo/mlmc/plot/plots.py:451-452. -/
def refRows (subset : List ℤ) (levels : Nat) : Option (List (List F)) → Except PyErr (List (Option (List F)))
  | none => .ok ((List.range levels).map fun _ => none)
  | some r => (List.range levels).mapM fun il => match r[il]? with
    | some row => (takeCols subset row).map some
    | none => .error .indexError

/-- Lines 436-472: the bars of all levels. /repo/mlmc/plot/plots.py:436-472. -/
def Breakdown.draw (b : Breakdown F) (shown : List (List F)) (nSamples : List F) (refs : List (Option (List F))) : Breakdown F :=
  let width : F := 1 / 10
  let xs := (List.range (b.subset.length + 1)).map fun i : Nat => b.xShift + width * (11 / 10) * (i : F)
  let rows := (List.range shown.length).zip (shown.zip (nSamples.zip refs))
  let drawn := stack width xs rows.reverse (List.replicate (b.subset.length + 1) 0)
  { b with
    xShift := xs.getLastD 0 + 3 * width, xList := b.xList ++ [xs],
    xLabels := b.xLabels ++ ("avg" :: b.subset.map fun m => toString m),
    bars := b.bars ++ drawn.map (·.1), notes := b.notes ++ drawn.map (·.2) }

/-- `add_variances(level_vars, n_samples, ref_level_vars)`; `cols` is the number of columns of the table `level_vars`, `sub n t` is
`moments_subset(n, t)`.  What an exception leaves in the object is not modelled (it is raised before anything is drawn, except for missing rows of the
reference variances). /repo/mlmc/plot/plots.py:415-472. -/
def Breakdown.add (sub : Nat → Option ℤ → Except PyErr (List ℤ)) (b : Breakdown F) (cols : Nat) (levelVars : List (List F)) (nSamples : List F)
    (ref : Option (List (List F))) : Except PyErr (Breakdown F) :=
  if nSamples.length ≠ levelVars.length then .error .assertionError else
  (b.choose sub cols).bind fun b =>
    if b.subset.any fun i => cols ≤ i.toNat then .error .indexError else
    (levelVars.mapM (takeCols b.subset)).bind fun shown =>
      (refRows b.subset levelVars.length ref).map fun refs => b.draw shown nSamples refs

end Breakdown
end MLMC.Plot
