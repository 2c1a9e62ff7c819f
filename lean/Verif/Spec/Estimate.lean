import Verif.Model.Estimate
import Verif.Spec.Quantity
/-
Notions used in the statements about estimates: which samples of a level count, their differences, textbook mean and variance.
-/
namespace MLMC
variable {F : Type}

/-- The batch of samples of a level: one part on level 0, fine and coarse part above. -/
def batchOf {K : Type} (W level : Nat) (data : List (Sample K)) : Batch K := ⟨W, if level = 0 then 1 else 2, data⟩

/-- Chunks of stored samples as seen by `estimate_mean`: the storage object `sid` returns the samples of the chunk. -/
def asChunks (sid W : Nat) (chunks : List (Nat × List (Sample (Option F)))) : List (Nat × (Nat → Except PyErr (Arr (Option F)))) :=
  chunks.map fun c => (c.1, fun o => if o = sid then .ok (batchOf W c.1 c.2).toArr else .error .other)

/-- All samples of a level, in the order of the chunks. -/
def levelData {K : Type} (chunks : List (Nat × List (Sample K))) (l : Nat) : List (Sample K) :=
  (chunks.filter fun c => c.1 = l).flatMap (·.2)

/-- Chunks hold samples of the right shape. -/
def ChunksWF {K : Type} (W : Nat) (chunks : List (Nat × List (Sample K))) : Prop := ∀ c ∈ chunks, (batchOf W c.1 c.2).WF

/-- A sample contains a NaN. -/
def hasNan (s : Sample (Option F)) : Bool := s.any fun part => part.any fun x => x.isNone

/-- The value of a sample that enters the estimate: fine on level 0, fine minus coarse above. -/
def levelDiff [Zero F] [Sub F] (level : Nat) (s : Sample (Option F)) : List F :=
  if level = 0 then (s.getD 0 []).map (·.getD 0) else List.zipWith (fun x y => x.getD 0 - y.getD 0) (s.getD 0 []) (s.getD 1 [])

/-- Values of `q` on the samples of a level. -/
def levelValues (q : Quantity (Option F)) (sid W : Nat) (data : List (Sample (Option F))) : List (Sample (Option F)) :=
  data.filterMap (q.perSample sid W)

/-- Values without NaN. -/
def usedValues (q : Quantity (Option F)) (sid W : Nat) (data : List (Sample (Option F))) : List (Sample (Option F)) :=
  (levelValues q sid W data).filter fun s => !hasNan s

/-- Component `i` of the differences of the used samples. -/
def usedDiffs [Zero F] [Sub F] (q : Quantity (Option F)) (sid W level i : Nat) (data : List (Sample (Option F))) : List F :=
  (usedValues q sid W data).map fun s => (levelDiff level s).getD i 0

/-- Arithmetic mean. -/
def average [Field F] (xs : List F) : F := xs.sum / xs.length

/-- Unbiased sample variance. -/
def sampleVar [Field F] (xs : List F) : F := (xs.map fun x => (x - average xs) ^ 2).sum / (xs.length - 1)

/-- What an estimate of `q` from `nLevels` levels of samples must be. -/
structure IsEstimate [Field F] (q : Quantity (Option F)) (sid W nLevels : Nat) (data : Nat → List (Sample (Option F))) (e : QuantityMean F) : Prop where
  qtype : e.qtype = q.qtype
  /-- Number of used samples. -/
  used : e.nSamples = (List.range nLevels).map fun l => (usedValues q sid W (data l)).length
  /-- Number of samples dropped because of a NaN. -/
  dropped : e.nRm = (List.range nLevels).map fun l => ((levelValues q sid W (data l)).filter hasNan).length
  /-- Level means; NaN for levels without used samples. -/
  means : e.lMeans = (List.range nLevels).map fun l => (List.range q.size).map fun i =>
    if usedValues q sid W (data l) = [] then none else some (average (usedDiffs q sid W l i (data l)))
  /-- Level variances; infinite for levels with fewer than two used samples. -/
  vars : e.lVars = (List.range nLevels).map fun l => (List.range q.size).map fun i =>
    if (usedValues q sid W (data l)).length ≤ 1 then none else some (sampleVar (usedDiffs q sid W l i (data l)))

end MLMC
