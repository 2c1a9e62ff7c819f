import Verif.Model.Memory
import Verif.Spec.History
/-
Both storages driven by a history of calls.
-/
namespace MLMC
variable {V : Type}

/-- The HDF storage executing one call (functions of `Verif.Model.Storage`). /repo/mlmc/sample_storage_hdf.py:115-142, 219-237. -/
def hdfStep (g : HdfLevels V) : StoreOp V → HdfLevels V
  | .scheduled l ids => applyOps (saveScheduledOps l ids) g
  | .samples s f => applyOps (saveSamplesOps s f) g
  | .nOps e => saveNOps g e
  | .clearFailed => applyOps (clearFailedOps g) g

/-- A history of calls, /repo/mlmc/sample_storage_hdf.py:115-142, 219-237. -/
def hdfRun (g : HdfLevels V) (ops : List (StoreOp V)) : HdfLevels V := ops.foldl hdfStep g

/-- A new HDF storage with `n` levels (`save_global_data`, /repo/mlmc/sample_storage_hdf.py:58-76). -/
def hdfFresh (V : Type) (n : Nat) : HdfLevels V := List.replicate n {}

/-- The memory storage executing one call; `Memory` has no `clear_failed` (`AttributeError`). /repo/mlmc/sample_storage.py:151-203, 230-237, 287-298. -/
def memStep (m : MemStore V) : StoreOp V → Except PyErr (MemStore V)
  | .scheduled l ids => .ok (m.saveScheduled l ids)
  | .samples s f => m.saveSamples s f
  | .nOps e => .ok (m.saveNOps e)
  | .clearFailed => .error .attributeError

/-- A history of calls up to the first exception, /repo/mlmc/sample_storage.py:151-203, 230-237, 287-298. -/
def memRun (m : MemStore V) (ops : List (StoreOp V)) : Except PyErr (MemStore V) := ops.foldlM memStep m

/-- A call or a call interrupted by a crash after `k` writes; reopening the file does not change it
(/repo/mlmc/sample_storage_hdf.py:29-34 with `load_from_file`). -/
def crashStep (g : HdfLevels V) : CrashOp V → HdfLevels V
  | .call op => hdfStep g op
  | .crash (.scheduled l ids) k => applyOps ((saveScheduledOps l ids).take k) g
  | .crash (.samples s f) k => applyOps ((saveSamplesOps s f).take k) g
  | .crash (.nOps e) k => saveNOps g (e.take k)
  | .crash .clearFailed k => applyOps ((clearFailedOps g).take k) g

/-- A history with crashes, /repo/mlmc/sample_storage_hdf.py:16-34, 115-142, 219-237. -/
def crashRun (g : HdfLevels V) (ops : List (CrashOp V)) : HdfLevels V := ops.foldl crashStep g

end MLMC
