import Verif.Model.PbsRestart
import Verif.Model.PbsRenew
/-
Any number of programs with PBS, one after another on the same HDF file and the same directory: each ends, is killed or dies of an
exception somewhere, jobs may go on running, and the next one is started.  Programs may call `renew_failed_samples`.
/repo/mlmc/sampler.py:16-182, 270-286, /repo/mlmc/sampling_pool_pbs.py:60-105.
-/
namespace MLMC
variable {Cfg K C : Type}

/-- The failed samples in the order in which `renew_failed_samples` hands them over: level and identifier. /repo/mlmc/sampler.py:274-281. -/
def renewList (failed : List (List SampleId)) : List (Nat × SampleId) := failed.zipIdx.flatMap fun (ids, l) => ids.map fun i => (l, i)

/-- How a program ends: by a kill; by an exception in (or a kill at the end of) `get_finished` after some rounds; by an exception of the
pool (the eleventh failure of `qsub` in a row) for the next sample after `done` actions of the loop of `schedule_samples`; by a kill in
`renew_failed_samples` after it handed over `done` samples; there by an exception of the pool for the next sample.  Kills inside
`clear_failed` are left out (see C20 and C21). /repo/mlmc/sampler.py:122-182, 270-286, /repo/mlmc/sampling_pool_pbs.py:236-243, 271-278. -/
inductive PbsEnd (K : Type)
  | killed (kl : PbsKill K)
  | inGet (rounds : List (PbsRound K)) (r : PbsRound K)
  | inHand (cmds : Nat → List (Nat × JobAppend (PairRes K)) × QsubAns) (done : Nat)
  | inRenew (cmds : Nat → List (Nat × JobAppend (PairRes K)) × QsubAns) (done : Nat)
  | inRenewHand (cmds : Nat → List (Nat × JobAppend (PairRes K)) × QsubAns) (done : Nat)

/-- `renew_failed_samples` after it handed over `done` samples; `none`: an exception came first. /repo/mlmc/sampler.py:274-281. -/
def PbsProg.renewing (env : PbsEnv Cfg K C) (p : PbsProg Cfg K C) (cmds : Nat → List (Nat × JobAppend (PairRes K)) × QsubAns) (done : Nat) :
    Option (PbsProg Cfg K C) :=
  match hdfFailedSamples p.sys.store with
  | .error _ => none
  | .ok failed => p.renewLoop env cmds 0 ((renewList failed).take done)

/-- The state it leaves; `none`: it does not get there. /repo/mlmc/sampler.py:122-182, 270-286. -/
def PbsProg.ending (env : PbsEnv Cfg K C) (p : PbsProg Cfg K C) : PbsEnd K → Option (PbsProg Cfg K C)
  | .killed kl => p.kill env kl
  | .inGet rounds r => (p.rounds env rounds).map fun q => ((q.jobs env r.jobs).pool env (.get r.qsub r.qstat)).1
  | .inHand cmds done =>
    (p.kill env (.inSchedule cmds done)).bind fun q =>
      match (schedActs 0 p.sys.plan)[done]? with
      | some (.hand l) => match q.sys.nSched[l]?, env.sims[l]? with
        | some k, some sim => some ((q.jobs env (cmds done).1).pool env (.schedule (sampleTag l k) l (env.size l) sim (cmds done).2)).1
        | _, _ => none
      | _ => none
  | .inRenew cmds done => p.renewing env cmds done
  | .inRenewHand cmds done => (p.renewing env cmds done).bind fun q =>
      match hdfFailedSamples p.sys.store with
      | .error _ => none
      | .ok failed => match (renewList failed)[done]? with
        | none => none
        | some e => (env.sims[e.1]?).map fun sim => ((q.jobs env (cmds done).1).pool env (.schedule e.2 e.1 (env.size e.1) sim (cmds done).2)).1

/-- The next program: a new pool on the directory (with or without `debug`) that gets these identifiers as unfinished, and a new sampler
on the file.  `js`: appends of jobs in the meantime. /repo/mlmc/sampler.py:16-49, 152-158, /repo/mlmc/sampling_pool_pbs.py:60-105, 420-424. -/
def PbsProg.next (env : PbsEnv Cfg K C) (js : List (Nat × JobAppend (PairRes K))) (debug : Bool) (listing : List Nat) (ids : List SampleId)
    (p : PbsProg Cfg K C) : PbsProg Cfg K C :=
  let q := p.jobs env js
  (((⟨Sys.construct q.sys.store [] [], q.world, q.hist⟩ : PbsProg Cfg K C).pool env (.restart debug listing)).1.pool env (.permanent ids)).1

/-- A call of the program (`renew`: of `renew_failed_samples`), or its end and the start of the next one. /repo/mlmc/sampler.py:16-182, 270-286. -/
inductive PbsEvent (K : Type)
  | call (o : PbsProgOp K)
  | renew (cmds : Nat → List (Nat × JobAppend (PairRes K)) × QsubAns)
  | restart (e : PbsEnd K) (js : List (Nat × JobAppend (PairRes K))) (debug : Bool) (listing : List Nat) (ids : List SampleId)

/-- /repo/mlmc/sampler.py:16-182. -/
def PbsProg.event (env : PbsEnv Cfg K C) (p : PbsProg Cfg K C) : PbsEvent K → Option (PbsProg Cfg K C)
  | .call o => p.step env o
  | .renew cmds => p.renew env cmds
  | .restart e js debug listing ids => (p.ending env e).map fun q => q.next env js debug listing ids

/-- All programs; `none`: a call raises or has not returned, or a program does not get to the point where it should end.
/repo/mlmc/sampler.py:16-182. -/
def PbsProg.events (env : PbsEnv Cfg K C) : List (PbsEvent K) → PbsProg Cfg K C → Option (PbsProg Cfg K C)
  | [], p => some p
  | e :: es, p => (p.event env e).bind fun q => PbsProg.events env es q

end MLMC
