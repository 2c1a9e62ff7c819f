import Verif.Model.PbsSim
import Verif.Model.Program
/-
A whole program with PBS: `Sampler` (/repo/mlmc/sampler.py) on an HDF storage with a `SamplingPoolPBS`
(/repo/mlmc/sampling_pool_pbs.py) whose jobs run while the program does.  The parts are the models in `Sampler`, `Storage`, `Pbs`
and `PbsJob`; here they are connected the way the methods of `Sampler` call each other.
-/
namespace MLMC

variable {Cfg K C : Type}

/-- A pair of results. /repo/mlmc/sampling_pool.py:75-126. -/
abbrev PairRes (K : Type) := ResPart K × ResPart K

/-- State of a program: sampler with storage, and pool with its directory (/repo/mlmc/sampler.py:16-45).  `hist` is history, not
state: the calls of the pool so far and the appends of the jobs between them. -/
structure PbsProg (Cfg K C : Type) where
  sys : Sys (PairRes K)
  world : PbsWorld (PoolSim Cfg K C) (PairRes K)
  hist : List (PbsOp (PoolSim Cfg K C) (PairRes K)) := []

/-- What does not change: md5, the level simulations of the sampler and their `task_size`.
/repo/mlmc/sampler.py:62-80, /repo/mlmc/sampling_pool_pbs.py:180. -/
structure PbsEnv (Cfg K C : Type) where
  md5 : SampleId → List UInt8
  sims : List (PoolSim Cfg K C)
  size : Nat → ℚ

/-- A new program on a new storage and an empty directory. /repo/mlmc/sampler.py:16-49, /repo/mlmc/sampling_pool_pbs.py:60-92. -/
def PbsProg.start (env : PbsEnv Cfg K C) : PbsProg Cfg K C :=
  { sys := Sys.fresh _ env.sims.length, world := PbsWorld.create false [] {} }

/-- A step of the pool or of a job. /repo/mlmc/sampling_pool_pbs.py:169-278, /repo/mlmc/tool/pbs_job.py:132-218. -/
def PbsProg.pool (env : PbsEnv Cfg K C) (p : PbsProg Cfg K C) (o : PbsOp (PoolSim Cfg K C) (PairRes K)) :
    PbsProg Cfg K C × PbsOut (PairRes K) :=
  let r := p.world.step (computeSeed env.md5) o
  ({ p with world := r.1, hist := p.hist ++ [o] }, r.2)

/-- Appends that running jobs make while the program is between two of its steps. /repo/mlmc/tool/pbs_job.py:132-218. -/
def PbsProg.jobs (env : PbsEnv Cfg K C) (js : List (Nat × JobAppend (PairRes K))) (p : PbsProg Cfg K C) : PbsProg Cfg K C :=
  js.foldl (fun p j => (p.pool env (.job j.1 j.2)).1) p

/-- One round of the loop of `ask_sampling_pool_for_samples`: what the jobs did before it, the answers of `qsub` and `qstat`, and the
reading of `time.perf_counter() - t0` after it. /repo/mlmc/sampler.py:172-180. -/
structure PbsRound (K : Type) where
  jobs : List (Nat × JobAppend (PairRes K)) := []
  qsub : QsubAns
  qstat : QstatAns
  time : ℚ := 0

/-- `get_finished` and storing its answer, /repo/mlmc/sampler.py:175-177; `none`: an exception. -/
def PbsProg.collect (env : PbsEnv Cfg K C) (r : PbsRound K) (p : PbsProg Cfg K C) : Option (ℤ × PbsProg Cfg K C) :=
  let x := (p.jobs env r.jobs).pool env (.get r.qsub r.qstat)
  match x.2.answer with
  | none => none
  | some a => some (a.nRunning, { x.1 with sys := { x.1.sys with store := storeSamples x.1.sys.store a } })

/-- The loop /repo/mlmc/sampler.py:172-180.  `none`: an exception, or the loop is still running after these rounds. -/
def PbsProg.wait (env : PbsEnv Cfg K C) (timeout : ℚ) : List (PbsRound K) → PbsProg Cfg K C → Option (PbsProg Cfg K C)
  | [], _ => none
  | r :: rs, p => match p.collect env r with
    | none => none
    | some (n, q) => if 0 < timeout ∧ timeout < r.time then some q else if n > 0 then PbsProg.wait env timeout rs q else some q

/-- `ask_sampling_pool_for_samples`, /repo/mlmc/sampler.py:160-182. -/
def PbsProg.ask (env : PbsEnv Cfg K C) (timeout : Option ℚ) (rounds : List (PbsRound K)) (p : PbsProg Cfg K C) : Option (PbsProg Cfg K C) :=
  match timeout with
  | none => p.wait env 0 rounds
  | some t => if t ≤ 0 then some p else p.wait env t rounds

/-- One action of the loops of `schedule_samples` with the call of the pool, /repo/mlmc/sampler.py:135-150; an exception of the pool
(the eleventh failure of `qsub` in a row) leaves the method: `none`. -/
def PbsProg.act (env : PbsEnv Cfg K C) (js : List (Nat × JobAppend (PairRes K))) (q : QsubAns) (p : PbsProg Cfg K C) (a : SchedAct) :
    Option (PbsProg Cfg K C) :=
  match a with
  | .hand l => match p.sys.nSched[l]?, env.sims[l]? with
    | some k, some sim =>
      let x := (p.jobs env js).pool env (.schedule (sampleTag l k) l (env.size l) sim q)
      match x.2.err with
      | some _ => none
      | none => some { x.1 with sys := (SchedAct.hand l).apply x.1.sys }
    | _, _ => none
  | a => some { p with sys := a.apply p.sys }

/-- The actions of `schedule_samples`; `env` of every call of the pool: appends of the jobs before it and the answer of `qsub` (used if a
package is submitted). /repo/mlmc/sampler.py:135-150. -/
def PbsProg.acts (env : PbsEnv Cfg K C) (cmds : Nat → List (Nat × JobAppend (PairRes K)) × QsubAns) :
    Nat → List SchedAct → PbsProg Cfg K C → Option (PbsProg Cfg K C)
  | _, [], p => some p
  | i, a :: as, p => match p.act env (cmds i).1 (cmds i).2 a with
    | none => none
    | some q => PbsProg.acts env cmds (i + 1) as q

/-- `schedule_samples` after its polling, /repo/mlmc/sampler.py:133-150. -/
def PbsProg.scheduleSamples (env : PbsEnv Cfg K C) (cmds : Nat → List (Nat × JobAppend (PairRes K)) × QsubAns) (p : PbsProg Cfg K C) :
    Option (PbsProg Cfg K C) :=
  if p.sys.target.length = p.sys.nSched.length then p.acts env cmds 0 (schedActs 0 p.sys.plan) else none

/-- Calls of the program, with what the environment does meanwhile.  /repo/mlmc/sampler.py:92-182, 254-261.
(`process_adding_samples` is a sequence of these calls; `renew_failed_samples` is not included.) -/
inductive PbsProgOp (K : Type)
  | setInitial (v : List ℚ)
  | setTarget (v : List ℚ)
  | ask (timeout : Option ℚ) (rounds : List (PbsRound K))
  | schedule (timeout : Option ℚ) (rounds : List (PbsRound K)) (cmds : Nat → List (Nat × JobAppend (PairRes K)) × QsubAns)
  /-- the program does something else while the jobs run -/
  | pause (js : List (Nat × JobAppend (PairRes K)))

/-- A call; `none`: it raises, or has not returned after the given rounds. /repo/mlmc/sampler.py:92-182, 254-261. -/
def PbsProg.step (env : PbsEnv Cfg K C) (p : PbsProg Cfg K C) : PbsProgOp K → Option (PbsProg Cfg K C)
  | .setInitial v => some { p with sys := { p.sys with target := v } }
  | .setTarget v => if v.length ≤ p.sys.target.length then some { p with sys := { p.sys with target := setLevelTarget p.sys.target v } } else none
  | .ask timeout rounds => p.ask env timeout rounds
  | .schedule timeout rounds cmds => (p.ask env timeout rounds).bind fun q => q.scheduleSamples env cmds
  | .pause js => some (p.jobs env js)

/-- The program; `none`: a call raises or has not returned. /repo/mlmc/sampler.py:92-261. -/
def PbsProg.run (env : PbsEnv Cfg K C) : List (PbsProgOp K) → PbsProg Cfg K C → Option (PbsProg Cfg K C)
  | [], p => some p
  | o :: os, p => (p.step env o).bind fun q => PbsProg.run env os q

end MLMC
