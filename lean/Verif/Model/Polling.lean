import Verif.Model.Storage
/-
`Sampler.ask_sampling_pool_for_samples` and `Sampler._store_samples`, /repo/mlmc/sampler.py:160-193.
-/
namespace MLMC

/-- What `SamplingPool.get_finished()` returns: successful, failed, number of running samples, n_ops
(/repo/mlmc/sampler.py:175). -/
structure PoolAnswer (V : Type) where
  succ : Dict Nat (List (SampleId × V))
  failed : Dict Nat (List (SampleId × Msg))
  nRunning : ℤ
  nOps : List (Nat × (ℚ × ℚ))

/-- The loop of /repo/mlmc/sampler.py:174-182.  The environment is the list of future pool answers, each with the time
that `time.perf_counter() - t0` shows after it; `store` is `_store_samples` (184-193) of whatever storage is used.
`none`: the loop is still waiting when the given answers are used up. -/
def pollLoop {V S : Type} (store : S → PoolAnswer V → S) (timeout : ℚ) :
    List (PoolAnswer V × ℚ) → S → Option (ℤ × S × List (PoolAnswer V × ℚ))
  | [], _ => none
  | (a, elapsed) :: rest, g =>
    let g' := store g a
    if 0 < timeout ∧ timeout < elapsed then some (a.nRunning, g', rest)
    else if a.nRunning > 0 then pollLoop store timeout rest g'
    else some (a.nRunning, g', rest)

/-- `ask_sampling_pool_for_samples(timeout)`, /repo/mlmc/sampler.py:160-182: returned number, storage afterwards,
unconsumed environment. -/
def askPool {V S : Type} (store : S → PoolAnswer V → S) (timeout : Option ℚ) (env : List (PoolAnswer V × ℚ)) (g : S) :
    Option (ℤ × S × List (PoolAnswer V × ℚ)) :=
  match timeout with
  | none => pollLoop store 0 env g
  | some t => if t ≤ 0 then some (1, g, env) else pollLoop store t env g

/-- `_store_samples` for the HDF storage, /repo/mlmc/sampler.py:184-193. -/
def storeSamples {V : Type} (g : HdfLevels V) (a : PoolAnswer V) : HdfLevels V :=
  saveNOps (applyOps (saveSamplesOps a.succ a.failed) g) a.nOps

end MLMC
