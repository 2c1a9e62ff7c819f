import Verif.Model.Program
/-
A whole program on the storage in memory (`Memory`, /repo/mlmc/sample_storage.py:135-338) with a `OneProcessPool`, and the estimation from that storage: the
calls are those of `Verif.Model.Program`.
-/
namespace MLMC

variable {Cfg K C : Type}

/-- State of a program: attributes of the sampler (/repo/mlmc/sampler.py:24-41), storage and pool.  `pending` is the local list of `schedule_samples`, `handed` the number of
samples handed to the pool. -/
structure MemProg (K C : Type) where
  target : List ℚ
  nSched : List Nat
  pending : List SampleId := []
  handed : Nat := 0
  mem : MemStore (ResPart K × ResPart K) := {}
  pool : Pool K C

/-- A new program on a new storage, /repo/mlmc/sampler.py:16-45: no samples are loaded, so that the numbers of scheduled samples are zeros. -/
def MemProg.start (env : ProgEnv Cfg K C) (debug hasDir : Bool) (dirs : Dirs C) : MemProg K C :=
  { target := List.replicate env.sims.length 0, nSched := List.replicate env.sims.length 0, pool := Pool.create debug hasDir dirs }

/-- One action of the loops of `schedule_samples`, /repo/mlmc/sampler.py:135-150. -/
def MemProg.act (env : ProgEnv Cfg K C) (p : MemProg K C) : SchedAct → Except PyErr (MemProg K C)
  | .begin _ => .ok { p with pending := [] }
  | .hand l => match p.nSched[l]?, env.sims[l]? with
    | some k, some sim =>
      let r := p.pool.schedule env.md5 sim (sampleTag l k) (env.dur p.handed)
      match r.2 with
      | some e => .error e
      | none => .ok { p with
          pending := p.pending ++ [sampleTag l k]
          nSched := p.nSched.set l (k + 1)
          handed := p.handed + 1
          pool := r.1 }
    | _, _ => .error .indexError
  | .save l => .ok { p with mem := p.mem.saveScheduled l p.pending }

/-- Actions up to the first exception. /repo/mlmc/sampler.py:135-150. -/
def MemProg.acts (env : ProgEnv Cfg K C) : List SchedAct → MemProg K C → Except PyErr (MemProg K C)
  | [], p => .ok p
  | a :: as, p => (p.act env a).bind fun q => MemProg.acts env as q

/-- One round of the loop of `ask_sampling_pool_for_samples`, /repo/mlmc/sampler.py:175-177, 184-193. -/
def MemProg.collect (p : MemProg K C) : Except PyErr (ℤ × MemProg K C) :=
  let r := p.pool.getFinished
  (p.mem.saveSamples r.1.succ r.1.failed).map fun m => (r.1.nRunning, { p with mem := m.saveNOps r.1.nOps, pool := r.2 })

/-- The loop /repo/mlmc/sampler.py:172-180, as in `Prog.wait`. -/
def MemProg.wait (timeout : ℚ) : List ℚ → MemProg K C → Option (Except PyErr (MemProg K C))
  | [], _ => none
  | t :: ts, p => match p.collect with
    | .error e => some (.error e)
    | .ok r => if 0 < timeout ∧ timeout < t then some (.ok r.2) else if r.1 > 0 then MemProg.wait timeout ts r.2 else some (.ok r.2)

/-- `ask_sampling_pool_for_samples`, /repo/mlmc/sampler.py:160-182. -/
def MemProg.ask (timeout : Option ℚ) (clock : List ℚ) (p : MemProg K C) : Option (Except PyErr (MemProg K C)) :=
  match timeout with
  | none => p.wait 0 clock
  | some t => if t ≤ 0 then some (.ok p) else p.wait t clock

/-- `schedule_samples` after the asking, /repo/mlmc/sampler.py:133-150. -/
def MemProg.scheduleSamples (env : ProgEnv Cfg K C) (p : MemProg K C) : Except PyErr (MemProg K C) :=
  if p.target.length = p.nSched.length then p.acts env (schedActs 0 (List.zipWith planCount p.target p.nSched)) else .error .valueError

/-- A call, which returns or raises; `none` if it does not return.  `renew_failed_samples` asks the storage for its failed samples (/repo/mlmc/sampler.py:275), a method that
`Memory` does not have. /repo/mlmc/sampler.py:92-182, 254-286. -/
def MemProg.step (env : ProgEnv Cfg K C) (p : MemProg K C) : ProgOp → Option (Except PyErr (MemProg K C))
  | .setInitial v => some (.ok { p with target := v })
  | .setTarget v => some (if v.length ≤ p.target.length then .ok { p with target := setLevelTarget p.target v } else .error .indexError)
  | .ask timeout clock => p.ask timeout clock
  | .schedule timeout clock => (p.ask timeout clock).map fun r => r.bind fun q => q.scheduleSamples env
  | .renew => some (.error .attributeError)

/-- The program up to its end; `none` if a call does not return or raises. /repo/mlmc/sampler.py:92-286. -/
def MemProg.run (env : ProgEnv Cfg K C) : List ProgOp → MemProg K C → Option (MemProg K C)
  | [], p => some p
  | o :: os, p => match p.step env o with
    | some (.ok q) => MemProg.run env os q
    | _ => none

/-! ### Estimation from the storage -/

/-- The stored numbers: the results are arrays of floats, /repo/mlmc/sample_storage.py:174-176. -/
def memNumbers (m : MemStore (ResPart K × ResPart K)) : MemStore (List K × List K) :=
  { failed := m.failed, successfulIds := m.successfulIds, scheduled := m.scheduled, nOps := m.nOps, nFinished := m.nFinished
    results := m.results.map fun e => (e.1, e.2.map fun v => (v.1.content, v.2.content)) }

/-- `QuantityStorage.samples` on this storage, /repo/mlmc/quantity/quantity.py:686-692, as an array. -/
def memChunkArr [Zero K] [Inhabited K] (m : MemStore (List K × List K)) (ch : Chunk) : Except PyErr (Arr K) :=
  (memPairsLevel m ch).map fun rows =>
    arrOfLists (match m.collected ch with | .ok vs => vs.length | .error _ => 0) (if ch.levelId = 0 then 1 else 2) rows

/-- `estimate_mean` of a quantity on the storage object `sid`, /repo/mlmc/quantity/quantity_estimate.py:22-80, with `SampleStorage.chunks` (/repo/mlmc/sample_storage.py:58-69) over
the levels that have results; their largest number, `np.max(level_ids)`, gives the number of levels. -/
def estimateFromMemory {F : Type} [Field F] (m : MemStore (List (Option F) × List (Option F))) (sid : Nat) (q : Quantity (Option F)) : Except PyErr (QuantityMean F) :=
  if m.levelIds = [] then .error .valueError else
  (m.levelIds.mapM fun l => m.levelChunks l none).bind fun chs =>
    estimateMean q (m.levelIds.foldl max 0 + 1)
      (chs.flatten.map fun ch => (ch.levelId, fun o => if o = sid then @memChunkArr _ ⟨some 0⟩ _ m ch else .error .other))

end MLMC
