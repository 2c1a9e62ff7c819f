import Verif.Model.ProgramPbs
/-
A whole program with PBS that also calls `Sampler.renew_failed_samples` (/repo/mlmc/sampler.py:270-286): the samples listed as failed, among them
those lost with a job that died, are handed to the pool again under their old identifiers and come into new jobs.
-/
namespace MLMC

variable {Cfg K C : Type}

/-- Scheduling the failed samples again, the loop /repo/mlmc/sampler.py:277-284.  Before every call of the pool jobs may append to their files;
an exception of the pool (the eleventh failure of `qsub` in a row) leaves the method: `none`. -/
def PbsProg.renewLoop (env : PbsEnv Cfg K C) (cmds : Nat → List (Nat × JobAppend (PairRes K)) × QsubAns) :
    Nat → List (Nat × SampleId) → PbsProg Cfg K C → Option (PbsProg Cfg K C)
  | _, [], p => some p
  | i, (l, id) :: rest, p => match env.sims[l]? with
    | none => none
    | some sim =>
      let x := (p.jobs env (cmds i).1).pool env (.schedule id l (env.size l) sim (cmds i).2)
      match x.2.err with
      | some _ => none
      | none => PbsProg.renewLoop env cmds (i + 1) rest { x.1 with sys := { x.1.sys with renewed := x.1.sys.renewed ++ [(l, id)] } }

/-- `renew_failed_samples`, /repo/mlmc/sampler.py:270-286. -/
def PbsProg.renew (env : PbsEnv Cfg K C) (cmds : Nat → List (Nat × JobAppend (PairRes K)) × QsubAns) (p : PbsProg Cfg K C) :
    Option (PbsProg Cfg K C) :=
  match hdfFailedSamples p.sys.store with
  | .error _ => none
  | .ok failed => (p.renewLoop env cmds 0 (failed.zipIdx.flatMap fun (ids, l) => ids.map fun i => (l, i))).map fun q =>
    { q with sys := { q.sys with store := applyOps (clearFailedOps q.sys.store) q.sys.store } }

/-- Calls of the program, with what the environment does meanwhile. /repo/mlmc/sampler.py:92-182, 254-286. -/
inductive PbsRenewOp (K : Type)
  | call (o : PbsProgOp K)
  | renew (cmds : Nat → List (Nat × JobAppend (PairRes K)) × QsubAns)

/-- A call; `none`: it raises, or has not returned after the given rounds. /repo/mlmc/sampler.py:92-182, 254-286. -/
def PbsProg.stepR (env : PbsEnv Cfg K C) (p : PbsProg Cfg K C) : PbsRenewOp K → Option (PbsProg Cfg K C)
  | .call o => p.step env o
  | .renew cmds => p.renew env cmds

/-- The program; `none`: a call raises or has not returned. /repo/mlmc/sampler.py:92-286. -/
def PbsProg.runR (env : PbsEnv Cfg K C) : List (PbsRenewOp K) → PbsProg Cfg K C → Option (PbsProg Cfg K C)
  | [], p => some p
  | o :: os, p => (p.stepR env o).bind fun q => PbsProg.runR env os q

end MLMC
