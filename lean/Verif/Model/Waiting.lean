import Verif.Model.Polling
import Verif.Model.Memory
/-
The waiting loop of `Sampler.set_scheduled_and_wait`, /repo/mlmc/sampler.py:231-252.
-/
namespace MLMC

/-- The condition of the loop, /repo/mlmc/sampler.py:248: whether a level in `greater` has fewer finished samples than `coef` times the number
of scheduled ones.  NumPy indexing: `IndexError` for a level missing in the array. -/
def mustWait (fin : List ℚ) (coef : ℚ) (sched : List ℚ) : List Nat → Except PyErr Bool
  | [] => .ok false
  | i :: is => match fin[i]?, sched[i]? with
    | some f, some s => (mustWait fin coef sched is).map fun b => decide (f < coef * s) || b
    | _, _ => .error .indexError

/-- The loop, /repo/mlmc/sampler.py:244-252, for at most `rounds` evaluations of its condition (`none`: still waiting).  `nFin` is
`n_finished` of the storage, `store` is `_store_samples`, the environment is that of `askPool`. -/
def waitLoop {V S : Type} (store : S → PoolAnswer V → S) (nFin : S → Except PyErr (List ℚ)) (coef : ℚ) (sched : List ℚ) (greater : List Nat)
    (timeout : Option ℚ) : Nat → List (PoolAnswer V × ℚ) → S → Option (Except PyErr S × List (PoolAnswer V × ℚ))
  | 0, _, _ => none
  | rounds + 1, env, g => match (nFin g).bind fun fin => mustWait fin coef sched greater with
    | .error e => some (.error e, env)
    | .ok false => some (.ok g, env)
    | .ok true => match askPool store timeout env g with
      | none => none
      | some (_, g', env') => waitLoop store nFin coef sched greater timeout rounds env' g'

/-- `n_finished` of the HDF storage as the array of line 245, /repo/mlmc/sampler.py:54-60, /repo/mlmc/sample_storage_hdf.py:186-195. -/
def hdfFinishedArray {V : Type} (g : HdfLevels V) : Except PyErr (List ℚ) := (hdfNFinished g).map fun l => l.map fun n : Nat => (n : ℚ)

/-- `n_finished` of the memory storage, /repo/mlmc/sample_storage.py:213-222; `junk` is the value of uninitialised entries. -/
def memFinishedArray {V : Type} (junk : ℚ) (m : Except PyErr (MemStore V)) : Except PyErr (List ℚ) :=
  m.bind fun m => m.nFinishedArr.map fun l => l.map fun n => (n.map fun k : Nat => (k : ℚ)).getD junk

/-- `_store_samples` for the memory storage, /repo/mlmc/sampler.py:184-193 (numbers of operations are left out). -/
def memStoreSamples {V : Type} (m : Except PyErr (MemStore V)) (a : PoolAnswer V) : Except PyErr (MemStore V) :=
  m.bind fun m => m.saveSamples a.succ a.failed

end MLMC
