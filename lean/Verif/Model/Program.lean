import Verif.Model.Pool
import Verif.Model.Sampler
import Verif.Model.Memory
import Verif.Model.Estimate
/-
A whole program: `Sampler` (/repo/mlmc/sampler.py) on an HDF storage with a `OneProcessPool`, and the estimation from its storage
afterwards.  The parts are the models in `Sampler`, `Storage`, `Pool`, `Polling` and `Estimate`; here they are connected the way the
methods of `Sampler` call each other.
-/
namespace MLMC

variable {Cfg K C : Type}

/-- State of a program: sampler with storage, and pool (/repo/mlmc/sampler.py:16-45). -/
structure Prog (K C : Type) where
  sys : Sys (ResPart K × ResPart K)
  pool : Pool K C

/-- What does not change: md5, the level simulations of the sampler, and the duration of the simulation that is run as
number `i` of the program (any durations). /repo/mlmc/sampler.py:62-80, /repo/mlmc/sampling_pool.py:75-126. -/
structure ProgEnv (Cfg K C : Type) where
  md5 : SampleId → List UInt8
  sims : List (PoolSim Cfg K C)
  dur : Nat → ℚ

/-- A new program on a new storage with one level per simulation. /repo/mlmc/sampler.py:16-49. -/
def Prog.start (env : ProgEnv Cfg K C) (debug hasDir : Bool) (dirs : Dirs C) : Prog K C :=
  ⟨Sys.fresh _ env.sims.length, Pool.create debug hasDir dirs⟩

/-- One action of the loops of `schedule_samples` with the call of the pool, /repo/mlmc/sampler.py:135-150.  An exception of the
pool leaves the method before the sample is counted. -/
def Prog.act (env : ProgEnv Cfg K C) (p : Prog K C) (a : SchedAct) : Prog K C × Option PyErr :=
  match a with
  | .hand l => match p.sys.nSched[l]?, env.sims[l]? with
    | some k, some sim =>
      let r := p.pool.schedule env.md5 sim (sampleTag l k) (env.dur (p.sys.handed.length + p.sys.renewed.length))
      match r.2 with
      | some e => (⟨p.sys, r.1⟩, some e)
      | none => (⟨(SchedAct.hand l).apply p.sys, r.1⟩, none)
    | _, _ => (p, some .indexError)
  | a => (⟨a.apply p.sys, p.pool⟩, none)

/-- Actions up to the first exception. /repo/mlmc/sampler.py:135-150. -/
def Prog.acts (env : ProgEnv Cfg K C) : List SchedAct → Prog K C → Prog K C × Option PyErr
  | [], p => (p, none)
  | a :: as, p => match p.act env a with
    | (p', none) => Prog.acts env as p'
    | (p', some e) => (p', some e)

/-- One round of the loop of `ask_sampling_pool_for_samples`, /repo/mlmc/sampler.py:175-177. -/
def Prog.collect (p : Prog K C) : ℤ × Prog K C :=
  let r := p.pool.getFinished
  (r.1.nRunning, ⟨{ p.sys with store := storeSamples p.sys.store r.1 }, r.2⟩)

/-- The loop /repo/mlmc/sampler.py:172-180; `clock` are the readings of `time.perf_counter() - t0` after each round.  `none`: the
loop is still running after these rounds. -/
def Prog.wait (timeout : ℚ) : List ℚ → Prog K C → Option (Prog K C)
  | [], _ => none
  | t :: ts, p =>
    let r := p.collect
    if 0 < timeout ∧ timeout < t then some r.2 else if r.1 > 0 then Prog.wait timeout ts r.2 else some r.2

/-- `ask_sampling_pool_for_samples`, /repo/mlmc/sampler.py:160-182. -/
def Prog.ask (timeout : Option ℚ) (clock : List ℚ) (p : Prog K C) : Option (Prog K C) :=
  match timeout with
  | none => p.wait 0 clock
  | some t => if t ≤ 0 then some p else p.wait t clock

/-- Scheduling the failed samples again, loop of /repo/mlmc/sampler.py:277-284. -/
def Prog.renewLoop (env : ProgEnv Cfg K C) : List (Nat × SampleId) → Prog K C → Prog K C × Option PyErr
  | [], p => (p, none)
  | (l, id) :: rest, p => match env.sims[l]? with
    | none => (p, some .indexError)
    | some sim =>
      let r := p.pool.schedule env.md5 sim id (env.dur (p.sys.handed.length + p.sys.renewed.length))
      match r.2 with
      | some e => (⟨p.sys, r.1⟩, some e)
      | none => Prog.renewLoop env rest ⟨{ p.sys with renewed := p.sys.renewed ++ [(l, id)] }, r.1⟩

/-- `renew_failed_samples`, /repo/mlmc/sampler.py:270-286. -/
def Prog.renew (env : ProgEnv Cfg K C) (p : Prog K C) : Prog K C × Option PyErr :=
  match hdfFailedSamples p.sys.store with
  | .error e => (p, some e)
  | .ok failed => match p.renewLoop env (failed.zipIdx.flatMap fun (ids, l) => ids.map fun i => (l, i)) with
    | (q, some e) => (q, some e)
    | (q, none) => (⟨{ q.sys with store := applyOps (clearFailedOps q.sys.store) q.sys.store }, q.pool⟩, none)

/-- Calls of the program.  (`process_adding_samples`, /repo/mlmc/sampler.py:195-250, is the sequence `ask`, `setTarget`, `schedule`,
`ask`, …, `ask`; `determine_level_n_samples` and the like only compute vectors.) -/
inductive ProgOp
  /-- `set_initial_n_samples` with the expanded vector, /repo/mlmc/sampler.py:81-112. -/
  | setInitial (v : List ℚ)
  /-- `set_level_target_n_samples`, /repo/mlmc/sampler.py:254-261. -/
  | setTarget (v : List ℚ)
  /-- `ask_sampling_pool_for_samples(timeout)`. -/
  | ask (timeout : Option ℚ) (clock : List ℚ)
  /-- `schedule_samples(timeout)`, /repo/mlmc/sampler.py:122-150. -/
  | schedule (timeout : Option ℚ) (clock : List ℚ)
  /-- `renew_failed_samples()`. -/
  | renew

/-- `schedule_samples`, /repo/mlmc/sampler.py:122-150. -/
def Prog.scheduleSamples (env : ProgEnv Cfg K C) (p : Prog K C) : Prog K C × Option PyErr :=
  if p.sys.target.length = p.sys.nSched.length then p.acts env (schedActs 0 p.sys.plan) else (p, some .valueError)

/-- A call, which returns or raises; `none` if it does not return. /repo/mlmc/sampler.py:92-182, 254-286. -/
def Prog.step (env : ProgEnv Cfg K C) (p : Prog K C) : ProgOp → Option (Prog K C × Option PyErr)
  | .setInitial v => some (⟨{ p.sys with target := v }, p.pool⟩, none)
  | .setTarget v => some (⟨{ p.sys with target := setLevelTarget p.sys.target v }, p.pool⟩, if v.length ≤ p.sys.target.length then none else some .indexError)
  | .ask timeout clock => (p.ask timeout clock).map fun q => (q, none)
  | .schedule timeout clock => (p.ask timeout clock).map fun q => q.scheduleSamples env
  | .renew => some (p.renew env)

/-- The program up to its end; `none` if a call does not return or raises. /repo/mlmc/sampler.py:92-286. -/
def Prog.run (env : ProgEnv Cfg K C) : List ProgOp → Prog K C → Option (Prog K C)
  | [], p => some p
  | o :: os, p => match p.step env o with
    | some (q, none) => Prog.run env os q
    | _ => none

/-! ### Estimation from the storage of the program -/

/-- The stored form of a result: HDF keeps the numbers (/repo/mlmc/tool/hdf5.py:309-320). -/
def ResPart.content : ResPart K → List K
  | .array v => v
  | .plain v => v

/-- The level groups with the stored numbers. /repo/mlmc/tool/hdf5.py:309-320. -/
def storedNumbers (g : HdfLevels (ResPart K × ResPart K)) : HdfLevels (List K × List K) :=
  g.map fun x => ⟨x.scheduled, x.collectedIds, x.collectedValues.map fun vs => vs.map fun v => (v.1.content, v.2.content), x.failed, x.nOps⟩

/-- An array `[M, N, P]` given by nested lists. /repo/mlmc/sample_storage_hdf.py:180-184. -/
def arrOfLists [Inhabited K] (n p : Nat) (rows : List (List (List K))) : Arr K :=
  ⟨n, p, rows.map fun r j k => (r.getD j []).getD k default⟩

/-- `QuantityStorage.samples` on an HDF storage, /repo/mlmc/quantity/quantity.py:686-692, as an array. -/
def hdfChunkArr [Zero K] [Inhabited K] (g : HdfLevels (List K × List K)) (ch : Chunk) : Except PyErr (Arr K) :=
  (hdfPairsLevel g ch).map fun rows =>
    arrOfLists (((g[ch.levelId]?).bind fun x => x.collected ch).getD []).length (if ch.levelId = 0 then 1 else 2) rows

/-- `SampleStorage.chunks()`, /repo/mlmc/sample_storage.py:58-69, for the HDF storage: the chunks of all levels; `c` is the HDF chunk
length of each level. -/
def hdfAllChunks {V : Type} (g : HdfLevels V) (c : Nat → Nat) : Except PyErr (List Chunk) :=
  (g.zipIdx.mapM fun (e : LevelGroup V × Nat) => e.1.chunks (c e.2) e.2 none).map List.flatten

/-- `estimate_mean` of a quantity on the storage object `sid`, /repo/mlmc/quantity/quantity_estimate.py:22-80.  (A level without
stored values raises while the chunks are listed; in the code the chunks of the levels before it have been evaluated then.  The filler
`some 0` is for vectors shorter than the first, which a file cannot hold.) -/
def estimateFromStorage {F : Type} [Field F] (g : HdfLevels (List (Option F) × List (Option F))) (c : Nat → Nat) (sid : Nat)
    (q : Quantity (Option F)) : Except PyErr (QuantityMean F) :=
  (hdfAllChunks g c).bind fun chs =>
    estimateMean q g.length (chs.map fun ch => (ch.levelId, fun o => if o = sid then @hdfChunkArr _ ⟨some 0⟩ _ g ch else .error .other))

end MLMC
