import Verif.Model.Tag
import Verif.Model.Dict
import Mathlib.Algebra.Order.Field.Rat
import Mathlib.Data.List.Dedup
/-
Sample storages: `SampleStorageHDF` (/repo/mlmc/sample_storage_hdf.py with /repo/mlmc/tool/hdf5.py) and
`Memory` (/repo/mlmc/sample_storage.py).

`V` is the type of a stored result, the pair (fine, coarse) of result vectors; the storages do not inspect it.
-/
namespace MLMC

/-- Python exceptions that the modelled code raises. Raised e.g. in /repo/mlmc/sample_storage_hdf.py:95-98, /repo/mlmc/quantity/quantity.py:62-96. -/
inductive PyErr
  | indexError | keyError | valueError | typeError | attributeError | assertionError | unboundLocal | other
  deriving DecidableEq, Repr

/-- Error messages of samples, /repo/mlmc/sampling_pool.py:123-124. -/
abbrev Msg := List Char

/-- Content of one HDF group `/Levels/<N>` (/repo/mlmc/tool/hdf5.py:14-45, 186-342).
`collected_values` is created by the first `append_successful` (lines 303-320) so it may be absent;
`failed` is deleted and re-created by `clear_failed_dataset` (418-428) so it may be absent after a crash.
Simplification: fixed-width `S100`/`S1000` fields are not truncated; the datasets made by
`_make_groups_datasets` (225-242) exist from the start. -/
structure LevelGroup (V : Type) where
  scheduled : List SampleId := []
  collectedIds : List SampleId := []
  collectedValues : Option (List V) := none
  failed : Option (List (SampleId × Msg)) := some []
  nOps : Option (ℚ × ℚ) := none
  deriving DecidableEq

/-- The level groups of a file in level order.  /repo/mlmc/sample_storage_hdf.py:27-34, 70-73. -/
abbrev HdfLevels (V : Type) := List (LevelGroup V)

/-- One atomic write to the HDF file (one `with h5py.File(...)` block). /repo/mlmc/tool/hdf5.py:293-342, 418-450. -/
inductive FileOp (V : Type)
  /-- `append_scheduled` → `_append_dataset(scheduled)`, /repo/mlmc/tool/hdf5.py:293-301, 330-342. -/
  | addScheduled (level : Nat) (ids : List SampleId)
  /-- first write of `append_successful`, /repo/mlmc/tool/hdf5.py:309. -/
  | addIds (level : Nat) (ids : List SampleId)
  /-- second write of `append_successful`: create `collected_values` if missing, /repo/mlmc/tool/hdf5.py:315-317. -/
  | mkValues (level : Nat)
  /-- third write of `append_successful`, /repo/mlmc/tool/hdf5.py:319-320. -/
  | addValues (level : Nat) (vals : List V)
  /-- `append_failed`, /repo/mlmc/tool/hdf5.py:322-328. -/
  | addFailed (level : Nat) (fs : List (SampleId × Msg))
  /-- first half of `clear_failed_dataset`, /repo/mlmc/tool/hdf5.py:424-425. -/
  | delFailed (level : Nat)
  /-- second half of `clear_failed_dataset`, /repo/mlmc/tool/hdf5.py:427-428. -/
  | mkFailed (level : Nat)
  /-- the `n_ops_estimate` setter, /repo/mlmc/tool/hdf5.py:440-450. -/
  | setNOps (level : Nat) (v : ℚ × ℚ)
  deriving DecidableEq

/-- Effect of one write.  A write to a level without group is an `IndexError` in Python before anything is
changed; it is a no-op here, and the theorems only use levels that exist.
Appending to a missing `failed` dataset is a `KeyError`: no-op as well. /repo/mlmc/tool/hdf5.py:293-342, 418-450. -/
def FileOp.apply {V : Type} : FileOp V → HdfLevels V → HdfLevels V
  | .addScheduled l ids, g => g.modify l fun x => { x with scheduled := x.scheduled ++ ids }
  | .addIds l ids, g => g.modify l fun x => { x with collectedIds := x.collectedIds ++ ids }
  | .mkValues l, g => g.modify l fun x =>
      { x with collectedValues := match x.collectedValues with | none => some [] | some v => some v }
  | .addValues l vals, g => g.modify l fun x => { x with collectedValues := x.collectedValues.map (· ++ vals) }
  | .addFailed l fs, g => g.modify l fun x => { x with failed := x.failed.map (· ++ fs) }
  | .delFailed l, g => g.modify l fun x => { x with failed := none }
  | .mkFailed l, g => g.modify l fun x => { x with failed := match x.failed with | none => some [] | some v => some v }
  | .setNOps l v, g => g.modify l fun x => { x with nOps := some v }

/-- A sequence of writes. /repo/mlmc/tool/hdf5.py:293-342, 418-450. -/
def applyOps {V : Type} (ops : List (FileOp V)) (g : HdfLevels V) : HdfLevels V :=
  ops.foldl (fun g o => o.apply g) g

/-- `SampleStorageHDF.save_scheduled_samples` (/repo/mlmc/sample_storage_hdf.py:135-142) with
`LevelGroup.append_scheduled` skipping an empty list (/repo/mlmc/tool/hdf5.py:300). -/
def saveScheduledOps {V : Type} (level : Nat) (ids : List SampleId) : List (FileOp V) :=
  if ids.length > 0 then [.addScheduled level ids] else []

/-- `LevelGroup.append_successful`, /repo/mlmc/tool/hdf5.py:303-320, as its three writes. -/
def appendSuccessfulOps {V : Type} (level : Nat) (samples : List (SampleId × V)) : List (FileOp V) :=
  [.addIds level (samples.map (·.1)), .mkValues level, .addValues level (samples.map (·.2))]

/-- `SampleStorageHDF._save_succesful`, /repo/mlmc/sample_storage_hdf.py:125-128. -/
def saveSuccessfulOps {V : Type} (succ : Dict Nat (List (SampleId × V))) : List (FileOp V) :=
  succ.flatMap fun (level, samples) => if samples.length > 0 then appendSuccessfulOps level samples else []

/-- `SampleStorageHDF._save_failed`, /repo/mlmc/sample_storage_hdf.py:130-133. -/
def saveFailedOps {V : Type} (failed : Dict Nat (List (SampleId × Msg))) : List (FileOp V) :=
  failed.flatMap fun (level, samples) => if samples.length > 0 then [.addFailed level samples] else []

/-- `SampleStorageHDF.save_samples`, /repo/mlmc/sample_storage_hdf.py:115-123. -/
def saveSamplesOps {V : Type} (succ : Dict Nat (List (SampleId × V))) (failed : Dict Nat (List (SampleId × Msg))) :
    List (FileOp V) :=
  saveSuccessfulOps succ ++ saveFailedOps failed

/-- `SampleStorageHDF.clear_failed`, /repo/mlmc/sample_storage_hdf.py:219-221: delete and re-create the dataset of each
level that has one; a missing dataset is not created (/repo/mlmc/tool/hdf5.py:424). -/
def clearFailedOps {V : Type} (g : HdfLevels V) : List (FileOp V) :=
  (List.range g.length).flatMap fun l => if (g[l]?.bind (·.failed)).isSome then [.delFailed l, .mkFailed l] else []

/-- One iteration of `SampleStorageHDF.save_n_ops`, /repo/mlmc/sample_storage_hdf.py:229-237. -/
def saveNOpsStep {V : Type} (g : HdfLevels V) (e : Nat × (ℚ × ℚ)) : HdfLevels V :=
  let (level, (time, n)) := e
  g.modify level fun x =>
    let saved := x.nOps.getD (0, 0)
    if n > 0 then { x with nOps := some (saved.1 + time, saved.2 + n) } else { x with nOps := some saved }

/-- `SampleStorageHDF.save_n_ops`, /repo/mlmc/sample_storage_hdf.py:223-237.  Simplification: atomic. -/
def saveNOps {V : Type} (g : HdfLevels V) (nOps : List (Nat × (ℚ × ℚ))) : HdfLevels V :=
  nOps.foldl saveNOpsStep g

/-- `SampleStorageHDF.get_n_ops`, /repo/mlmc/sample_storage_hdf.py:239-250: `None[1]` is a `TypeError`. -/
def getNOps {V : Type} (g : HdfLevels V) : Except PyErr (List ℚ) :=
  g.mapM fun x => match x.nOps with
    | none => .error .typeError
    | some (t, n) => .ok (if n > 0 then t / n else 0)

/-- `LevelGroup.get_finished_ids`, /repo/mlmc/tool/hdf5.py:390-398: collected ids then failed ids. -/
def LevelGroup.finishedIds {V : Type} (x : LevelGroup V) : Except PyErr (List SampleId) :=
  match x.failed with
  | none => .error .keyError
  | some f => .ok (x.collectedIds ++ f.map (·.1))

/-- `LevelGroup.get_unfinished_ids`, /repo/mlmc/tool/hdf5.py:400-406: `list(set(scheduled) - set(finished))`.
The order of a Python set is unspecified; here it is the order of last occurrence in the scheduled list. -/
def LevelGroup.unfinishedIds {V : Type} (x : LevelGroup V) : Except PyErr (List SampleId) := do
  let fin ← x.finishedIds
  return (x.scheduled.dedup).filter (fun i => decide (i ∉ fin))

/-- `LevelGroup.get_failed_ids`, /repo/mlmc/tool/hdf5.py:408-416. -/
def LevelGroup.failedIds {V : Type} (x : LevelGroup V) : Except PyErr (List SampleId) :=
  match x.failed with
  | none => .error .keyError
  | some f => .ok (f.map (·.1))

/-- `SampleStorageHDF.n_finished`, /repo/mlmc/sample_storage_hdf.py:186-195. -/
def hdfNFinished {V : Type} (g : HdfLevels V) : Except PyErr (List Nat) :=
  g.mapM fun x => do return (← x.finishedIds).length

/-- `SampleStorageHDF.unfinished_ids`, /repo/mlmc/sample_storage_hdf.py:197-207. -/
def hdfUnfinishedIds {V : Type} (g : HdfLevels V) : Except PyErr (List SampleId) := do
  return (← g.mapM LevelGroup.unfinishedIds).flatten

/-- `SampleStorageHDF.failed_samples`, /repo/mlmc/sample_storage_hdf.py:209-217: level ↦ failed ids. -/
def hdfFailedSamples {V : Type} (g : HdfLevels V) : Except PyErr (List (List SampleId)) :=
  g.mapM LevelGroup.failedIds

/-- `SampleStorageHDF.load_scheduled_samples`, /repo/mlmc/sample_storage_hdf.py:78-86 (level ↦ ids, in level order). -/
def hdfLoadScheduled {V : Type} (g : HdfLevels V) : List (List SampleId) := g.map (·.scheduled)

/-- `LevelGroup.collected_n_items` and `SampleStorageHDF.get_n_collected`
(/repo/mlmc/tool/hdf5.py:378-388, /repo/mlmc/sample_storage_hdf.py:258-266).  Without `collected_values` the code
*returns* an `AttributeError` object instead of a number: `none`. -/
def hdfNCollected {V : Type} (g : HdfLevels V) : List (Option Nat) :=
  g.map fun x => x.collectedValues.map List.length

/-- A `slice(start, stop, 1)` of a level, `ChunkSpec` of /repo/mlmc/quantity/quantity_spec.py:24-28. -/
structure Chunk where
  chunkId : Nat
  start : Nat
  stop : Nat
  levelId : Nat
  deriving DecidableEq, Repr

/-- `dataset.iter_chunks()` for a one-dimensional dataset of `n` items stored in HDF chunks of `c` items:
consecutive slices `[0,c) [c,2c) …`, the last one cut at `n`.  Called in /repo/mlmc/tool/hdf5.py:362.
`fuel` bounds the number of chunks (`n` is enough for `c > 0`). -/
def iterChunks (c : Nat) (level : Nat) : (fuel : Nat) → (chunkId start n : Nat) → List Chunk
  | 0, _, _, _ => []
  | fuel + 1, k, start, n =>
    if start < n then
      ⟨k, start, min (start + c) n, level⟩ :: iterChunks c level fuel (k + 1) (start + c) n
    else []

/-- `LevelGroup.chunks`, /repo/mlmc/tool/hdf5.py:353-363. `c` is the (positive) HDF chunk length chosen by h5py. -/
def LevelGroup.chunks {V : Type} (x : LevelGroup V) (c : Nat) (level : Nat) (nSamples : Option Nat) :
    Except PyErr (List Chunk) :=
  match x.collectedValues with
  | none => .error .attributeError
  | some vals => match nSamples with
    | some n => .ok [⟨0, 0, n, level⟩]
    | none => .ok (iterChunks c level vals.length 0 0 vals.length)

/-- `LevelGroup.collected`, /repo/mlmc/tool/hdf5.py:365-376: `dataset[slice]` (a slice end is cut at the length). -/
def LevelGroup.collected {V : Type} (x : LevelGroup V) (ch : Chunk) : Option (List V) :=
  x.collectedValues.map fun vals => (vals.drop ch.start).take (ch.stop - ch.start)

end MLMC
