import Verif.Model.Storage
/-
In-memory storage, class `Memory` of /repo/mlmc/sample_storage.py:135-338.
-/
namespace MLMC

/-- Attributes of `Memory`, /repo/mlmc/sample_storage.py:140-149 (result format and level parameters are in
`Verif.Model.ResultFormat`). -/
structure MemStore (V : Type) where
  failed : Dict Nat (List (SampleId × Msg)) := []
  results : Dict Nat (List V) := []
  successfulIds : Dict Nat (List SampleId) := []
  scheduled : Dict Nat (List SampleId) := []
  nOps : Dict Nat ℚ := []
  nFinished : Dict Nat Nat := []
  deriving DecidableEq

namespace MemStore
variable {V : Type}

/-- One iteration of `Memory._save_successful`, /repo/mlmc/sample_storage.py:170-189.  For an empty batch NumPy raises
`IndexError` at line 172 (`res[:, 1]` of a one-dimensional array). -/
def saveSuccessful1 (m : MemStore V) (e : Nat × List (SampleId × V)) : Except PyErr (MemStore V) :=
  let (level, res) := e
  if res = [] then .error .indexError else
  .ok { m with
    successfulIds := Dict.upd m.successfulIds level [] (· ++ res.map (·.1))
    nFinished := Dict.upd m.nFinished level 0 (· + res.length)
    results := Dict.upd m.results level [] (· ++ res.map (·.2)) }

/-- One iteration of `Memory._save_failed`, /repo/mlmc/sample_storage.py:197-203: when the level has no entry in
`_n_finished` the entry is set to 0, otherwise the batch length is added. -/
def saveFailed1 (m : MemStore V) (e : Nat × List (SampleId × Msg)) : MemStore V :=
  let (level, res) := e
  { m with
    failed := Dict.upd m.failed level [] (· ++ res)
    nFinished := match Dict.get? m.nFinished level with
      | none => Dict.set m.nFinished level 0
      | some n => Dict.set m.nFinished level (n + res.length) }

/-- `Memory.save_samples`, /repo/mlmc/sample_storage.py:151-158. -/
def saveSamples (m : MemStore V) (succ : Dict Nat (List (SampleId × V))) (failed : Dict Nat (List (SampleId × Msg))) :
    Except PyErr (MemStore V) := do
  let m1 ← succ.foldlM saveSuccessful1 m
  return failed.foldl saveFailed1 m1

/-- `Memory.save_scheduled_samples`, /repo/mlmc/sample_storage.py:230-237. -/
def saveScheduled (m : MemStore V) (level : Nat) (ids : List SampleId) : MemStore V :=
  { m with scheduled := Dict.upd m.scheduled level [] (· ++ ids) }

/-- `Memory.n_finished`, /repo/mlmc/sample_storage.py:213-222: an array reaching up to the largest level seen; entries
of levels never seen are uninitialised memory (`np.empty`), here `none`.  `max()` of nothing is a `ValueError`. -/
def nFinishedArr (m : MemStore V) : Except PyErr (List (Option Nat)) :=
  match m.nFinished with
  | [] => .error .valueError
  | d => .ok ((List.range ((Dict.keys d).foldl max 0 + 1)).map fun l => Dict.get? d l)

/-- `Memory._level_chunks`, /repo/mlmc/sample_storage.py:258-259 (`KeyError` for an unknown level).  The slice stops at
the number of available samples. -/
def levelChunks (m : MemStore V) (level : Nat) (nSamples : Option Nat) : Except PyErr (List Chunk) :=
  match Dict.get? m.results level with
  | none => .error .keyError
  | some r => .ok [⟨0, 0, (match nSamples with | none => r | some n => r.take n).length, level⟩]

/-- The slicing part of `Memory.sample_pairs_level`, /repo/mlmc/sample_storage.py:267-272. -/
def collected (m : MemStore V) (ch : Chunk) : Except PyErr (List V) :=
  match Dict.get? m.results ch.levelId with
  | none => .error .keyError
  | some r => .ok ((r.drop ch.start).take (ch.stop - ch.start))

/-- `Memory.get_level_ids`, /repo/mlmc/sample_storage.py:317-318. -/
def levelIds (m : MemStore V) : List Nat := Dict.keys m.results

/-- `Memory.sample_pairs` before the transposition, /repo/mlmc/sample_storage.py:245-256: a list with one slot for each
level that has results, filled by level id; a level id outside is an `IndexError`. -/
def samplePairs (m : MemStore V) : Except PyErr (List (List V)) :=
  let n := m.results.length
  if (levelIds m).all (· < n) then
    .ok ((List.range n).map fun l => (Dict.get? m.results l).getD [])
  else .error .indexError

/-- `Memory.get_n_collected`, /repo/mlmc/sample_storage.py:320-328. -/
def nCollected (m : MemStore V) : Except PyErr (List Nat) :=
  let n := m.results.length
  if (levelIds m).all (· < n) then
    .ok ((List.range n).map fun l => ((Dict.get? m.results l).getD []).length)
  else .error .indexError

/-- `Memory.save_n_ops`, /repo/mlmc/sample_storage.py:287-298. -/
def saveNOps (m : MemStore V) (nOps : List (Nat × (ℚ × ℚ))) : MemStore V :=
  nOps.foldl (fun (m : MemStore V) (e : Nat × (ℚ × ℚ)) => { m with nOps := Dict.upd m.nOps e.1 0 fun (t : ℚ) => if e.2.2 ≠ 0 then t + e.2.1 / e.2.2 else t }) m

/-- `Memory.get_n_ops`, /repo/mlmc/sample_storage.py:300-308: `np.max` of a `dict_keys` object is that object itself, so
the list has as many entries as there are reported levels, and a level above that is an `IndexError`. -/
def getNOps (m : MemStore V) : Except PyErr (List ℚ) :=
  let n := m.nOps.length
  if (Dict.keys m.nOps).all (· < n) then .ok ((List.range n).map fun l => (Dict.get? m.nOps l).getD 0)
  else .error .indexError

/-- `Memory.unfinished_ids`, /repo/mlmc/sample_storage.py:310-315. -/
def unfinishedIds (_ : MemStore V) : List SampleId := []

end MemStore

/-- Arrangement of a slice of stored pairs as array `[M, N, 2]` (level 0: `[M, N, 1]`),
/repo/mlmc/sample_storage.py:282-285 and /repo/mlmc/sample_storage_hdf.py:180-184.  `M` is the vector length fixed by
the first stored pair (dtype at /repo/mlmc/sample_storage.py:174, /repo/mlmc/tool/hdf5.py:312). -/
def chunkArray {K : Type} [Zero K] (level M : Nat) (vals : List (List K × List K)) : List (List (List K)) :=
  (List.range M).map fun m => vals.map fun v =>
    if level = 0 then [v.1.getD m 0] else [v.1.getD m 0, v.2.getD m 0]

/-- Vector length of the first stored pair. /repo/mlmc/sample_storage.py:174, /repo/mlmc/tool/hdf5.py:312. -/
def vecLen {K : Type} (vals : List (List K × List K)) : Nat := match vals with | [] => 0 | v :: _ => v.1.length

/-- `SampleStorageHDF.sample_pairs_level`, /repo/mlmc/sample_storage_hdf.py:169-184: without stored values
`None[:, :1, :]` resp. `None.transpose` fails. -/
def hdfPairsLevel {K : Type} [Zero K] (g : HdfLevels (List K × List K)) (ch : Chunk) :
    Except PyErr (List (List (List K))) :=
  match g[ch.levelId]? with
  | none => .error .indexError
  | some x => match x.collectedValues, x.collected ch with
    | some vals, some sl => .ok (chunkArray ch.levelId (vecLen vals) sl)
    | _, _ => .error .typeError

/-- `Memory.sample_pairs_level`, /repo/mlmc/sample_storage.py:261-285.  (The reshape of lines 277-280 concerns scalar
results that are not vectors; not modelled.) -/
def memPairsLevel {K : Type} [Zero K] (m : MemStore (List K × List K)) (ch : Chunk) :
    Except PyErr (List (List (List K))) :=
  match Dict.get? m.results ch.levelId, m.collected ch with
  | some vals, .ok sl => .ok (chunkArray ch.levelId (vecLen vals) sl)
  | _, .error e => .error e
  | none, _ => .error .keyError

/-- `SampleStorageHDF.sample_pairs` before the transposition, /repo/mlmc/sample_storage_hdf.py:147-167: without level
groups it raises; `get_n_collected` of a level without values is not an `int`, so `chunks` fails its assertion
(/repo/mlmc/sample_storage.py:65). -/
def hdfSamplePairs {V : Type} (g : HdfLevels V) : Except PyErr (List (List V)) :=
  if g = [] then .error .other else
  g.mapM fun x => match x.collectedValues with
    | none => .error .assertionError
    | some vals => .ok ((vals.drop 0).take (vals.length - 0))

end MLMC
