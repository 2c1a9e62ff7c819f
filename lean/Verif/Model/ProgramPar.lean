import Verif.Model.Parallel
import Verif.Model.PbsJob
import Verif.Model.Program
/-
A whole program with a parallel pool: `Sampler` (/repo/mlmc/sampler.py) on an HDF storage with a `ProcessPool` or `ThreadPool`
(/repo/mlmc/sampling_pool.py:297-337) whose workers and result handler run while the program does.  The pool is the model in `Parallel`;
sample directories are left out (see `Pool`), the totals of running times reported by the pool are arguments.
-/
namespace MLMC

variable {Cfg K C : Type}

/-- An element of a queue with the level of the queue: a sample with its results, or with an error message. /repo/mlmc/sampling_pool.py:244, 252. -/
structure ParItem (K : Type) where
  level : Nat
  id : SampleId
  res : Except Msg (ResPart K × ResPart K)

/-- The queue the element is put into. /repo/mlmc/sampling_pool.py:244, 252. -/
def ParItem.key (x : ParItem K) : QKey :=
  match x.res with
  | .ok _ => (false, x.level)
  | .error _ => (true, x.level)

/-- What the callback puts into a queue after a worker returned, /repo/mlmc/sampling_pool.py:87-126, 230-252. -/
def parItem (md5 : SampleId → List UInt8) (sim : PoolSim Cfg K C) (id : SampleId) : ParItem K :=
  let r := calculateSample md5 sim id none 0
  ⟨sim.level, r.id, match r.err, r.res with
    | [], some v => .ok v
    | e, _ => .error e⟩

/-- A task of the workers: what it will deliver; `none`: the worker function raises because a common file cannot be copied
(/repo/mlmc/sampling_pool.py:96, 151-163). /repo/mlmc/sampling_pool.py:315-323. -/
def parTask (md5 : SampleId → List UInt8) (sim : PoolSim Cfg K C) (id : SampleId) : Option (ParItem K) :=
  if sim.workspace ∧ ¬ sim.filesOk then none else some (parItem md5 sim id)

/-- State of a program: sampler with storage, queues and main thread of the pool, tasks given to the workers and not delivered.
/repo/mlmc/sampler.py:16-45, /repo/mlmc/sampling_pool.py:297-337. -/
structure ParProg (K : Type) where
  sys : Sys (ResPart K × ResPart K)
  pool : Par (ParItem K) := {}
  tasks : List (Option (ParItem K)) := []

/-- What does not change: md5 and the level simulations of the sampler. /repo/mlmc/sampler.py:62-80. -/
structure ParEnv (Cfg K C : Type) where
  md5 : SampleId → List UInt8
  sims : List (PoolSim Cfg K C)

/-- A new program on a new storage. /repo/mlmc/sampler.py:16-49. -/
def ParProg.start (env : ParEnv Cfg K C) : ParProg K := { sys := Sys.fresh _ env.sims.length }

/-- A worker finishes task `i` of the list and the handler thread calls the callback. /repo/mlmc/sampling_pool.py:305-323. -/
def ParProg.finish (p : ParProg K) (i : Nat) : ParProg K :=
  match p.tasks[i]? with
  | none => p
  | some none => { p with tasks := p.tasks.eraseIdx i, pool := p.pool.step .workerError }
  | some (some x) => { p with tasks := p.tasks.eraseIdx i, pool := p.pool.step (.put x.key x) }

/-- Several tasks finish. /repo/mlmc/sampling_pool.py:305-323. -/
def ParProg.finishAll (p : ParProg K) (is : List Nat) : ParProg K := is.foldl ParProg.finish p

/-- `schedule_sample`, /repo/mlmc/sampling_pool.py:315-323. -/
def ParProg.submit (p : ParProg K) (t : Option (ParItem K)) : ParProg K :=
  { p with pool := p.pool.step .schedule, tasks := p.tasks ++ [t] }

/-- The main thread is outside `get_finished`. /repo/mlmc/sampling_pool.py:272-279. -/
def MainPc.isIdle {T : Type} : MainPc T → Bool
  | .idle => true
  | _ => false

/-- The steps of one `get_finished`, /repo/mlmc/sampling_pool.py:272-294; each element of the list are the tasks that finish before the next
step of the main thread.  `none`: it has not returned after these steps (or before them). -/
def ParProg.getSteps : List (List Nat) → ParProg K → Option (ParProg K)
  | [], _ => none
  | is :: rest, p =>
    let q := p.finishAll is
    let q := { q with pool := q.pool.step .main }
    if q.pool.pc.isIdle then (if rest = [] then some q else none) else ParProg.getSteps rest q

/-- One round of the loop of `ask_sampling_pool_for_samples`: tasks finishing before the steps of `get_finished`, the totals of running times it
reports, and the reading of `time.perf_counter() - t0` after it. /repo/mlmc/sampler.py:172-180. -/
structure ParRound where
  steps : List (List Nat)
  times : List (Nat × (ℚ × ℚ)) := []
  time : ℚ := 0

/-- Successful samples among the elements. /repo/mlmc/sampling_pool.py:276. -/
def itemSucc (xs : List (ParItem K)) : List (Nat × SampleId × (ResPart K × ResPart K)) :=
  xs.filterMap fun x => match x.res with | .ok v => some (x.level, x.id, v) | .error _ => none

/-- Failed samples among the elements. /repo/mlmc/sampling_pool.py:277. -/
def itemFailed (xs : List (ParItem K)) : List (Nat × SampleId × Msg) :=
  xs.filterMap fun x => match x.res with | .ok _ => none | .error e => some (x.level, x.id, e)

/-- `get_finished` and storing its answer, /repo/mlmc/sampler.py:175-177: running number and state afterwards. -/
def ParProg.collect (r : ParRound) (p : ParProg K) : Option (ℤ × ParProg K) :=
  (p.getSteps r.steps).map fun q =>
    let xs := q.pool.returned.drop p.pool.returned.length
    let a : PoolAnswer (ResPart K × ResPart K) := ⟨groupByLevel (itemSucc xs), groupByLevel (itemFailed xs), q.pool.running, r.times⟩
    (a.nRunning, { q with sys := { q.sys with store := storeSamples q.sys.store a } })

/-- The loop /repo/mlmc/sampler.py:172-180.  `none`: the loop is still running after these rounds. -/
def ParProg.wait (timeout : ℚ) : List ParRound → ParProg K → Option (ParProg K)
  | [], _ => none
  | r :: rs, p => match p.collect r with
    | none => none
    | some (n, q) => if 0 < timeout ∧ timeout < r.time then some q else if n > 0 then ParProg.wait timeout rs q else some q

/-- `ask_sampling_pool_for_samples`, /repo/mlmc/sampler.py:160-182. -/
def ParProg.ask (timeout : Option ℚ) (rounds : List ParRound) (p : ParProg K) : Option (ParProg K) :=
  match timeout with
  | none => p.wait 0 rounds
  | some t => if t ≤ 0 then some p else p.wait t rounds

/-- One action of the loops of `schedule_samples` with the call of the pool, /repo/mlmc/sampler.py:135-150; `is`: tasks finishing before it. -/
def ParProg.act (env : ParEnv Cfg K C) (is : List Nat) (p : ParProg K) (a : SchedAct) : Option (ParProg K) :=
  match a with
  | .hand l => match p.sys.nSched[l]?, env.sims[l]? with
    | some k, some sim =>
      let q := (p.finishAll is).submit (parTask env.md5 sim (sampleTag l k))
      some { q with sys := (SchedAct.hand l).apply q.sys }
    | _, _ => none
  | a => some { p with sys := a.apply p.sys }

/-- The actions of `schedule_samples`. /repo/mlmc/sampler.py:135-150. -/
def ParProg.acts (env : ParEnv Cfg K C) (fin : Nat → List Nat) : Nat → List SchedAct → ParProg K → Option (ParProg K)
  | _, [], p => some p
  | i, a :: as, p => (p.act env (fin i) a).bind fun q => ParProg.acts env fin (i + 1) as q

/-- `schedule_samples` after its polling, /repo/mlmc/sampler.py:133-150. -/
def ParProg.scheduleSamples (env : ParEnv Cfg K C) (fin : Nat → List Nat) (p : ParProg K) : Option (ParProg K) :=
  if p.sys.target.length = p.sys.nSched.length then p.acts env fin 0 (schedActs 0 p.sys.plan) else none

/-- Scheduling the failed samples again, loop of /repo/mlmc/sampler.py:277-284. -/
def ParProg.renewLoop (env : ParEnv Cfg K C) (fin : Nat → List Nat) : Nat → List (Nat × SampleId) → ParProg K → Option (ParProg K)
  | _, [], p => some p
  | i, (l, id) :: rest, p => match env.sims[l]? with
    | none => none
    | some sim =>
      let q := (p.finishAll (fin i)).submit (parTask env.md5 sim id)
      ParProg.renewLoop env fin (i + 1) rest { q with sys := { q.sys with renewed := q.sys.renewed ++ [(l, id)] } }

/-- `renew_failed_samples`, /repo/mlmc/sampler.py:270-286. -/
def ParProg.renew (env : ParEnv Cfg K C) (fin : Nat → List Nat) (p : ParProg K) : Option (ParProg K) :=
  match hdfFailedSamples p.sys.store with
  | .error _ => none
  | .ok failed => (p.renewLoop env fin 0 (failed.zipIdx.flatMap fun (ids, l) => ids.map fun i => (l, i))).map fun q =>
    { q with sys := { q.sys with store := applyOps (clearFailedOps q.sys.store) q.sys.store } }

/-- Calls of the program, with what the workers do meanwhile. /repo/mlmc/sampler.py:92-182, 254-286. -/
inductive ParOp
  | setInitial (v : List ℚ)
  | setTarget (v : List ℚ)
  | ask (timeout : Option ℚ) (rounds : List ParRound)
  | schedule (timeout : Option ℚ) (rounds : List ParRound) (fin : Nat → List Nat)
  | renew (fin : Nat → List Nat)
  /-- the program does something else while the workers run -/
  | pause (is : List Nat)

/-- A call; `none`: it raises, or has not returned after the given rounds. /repo/mlmc/sampler.py:92-182, 254-286. -/
def ParProg.step (env : ParEnv Cfg K C) (p : ParProg K) : ParOp → Option (ParProg K)
  | .setInitial v => some { p with sys := { p.sys with target := v } }
  | .setTarget v => if v.length ≤ p.sys.target.length then some { p with sys := { p.sys with target := setLevelTarget p.sys.target v } } else none
  | .ask timeout rounds => p.ask timeout rounds
  | .schedule timeout rounds fin => (p.ask timeout rounds).bind fun q => q.scheduleSamples env fin
  | .renew fin => p.renew env fin
  | .pause is => some (p.finishAll is)

/-- The program; `none`: a call raises or has not returned. /repo/mlmc/sampler.py:92-286. -/
def ParProg.run (env : ParEnv Cfg K C) : List ParOp → ParProg K → Option (ParProg K)
  | [], p => some p
  | o :: os, p => (p.step env o).bind fun q => ParProg.run env os q

end MLMC
