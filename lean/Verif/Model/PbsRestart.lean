import Verif.Model.ProgramPbs
/-
A program with PBS is killed and started again on the same HDF file and the same directory: a new `Sampler`
(/repo/mlmc/sampler.py:16-49) on the reopened storage and a new `SamplingPoolPBS` with `debug=True`
(/repo/mlmc/sampling_pool_pbs.py:60-92), which gets the unfinished identifiers (/repo/mlmc/sampler.py:152-158).
A kill while samples are being written to the file is left out (see C20).
-/
namespace MLMC
variable {Cfg K C : Type}

/-- Where a program is killed: between two calls; in `schedule_samples` (after its polling) after a number of elementary actions of its
loop; in `ask_sampling_pool_for_samples` after some rounds; there after `get_finished` returned and before anything of its answer was
stored.  /repo/mlmc/sampler.py:122-182. -/
inductive PbsKill (K : Type)
  | between
  | inSchedule (cmds : Nat → List (Nat × JobAppend (PairRes K)) × QsubAns) (done : Nat)
  | inAsk (rounds : List (PbsRound K))
  | unstored (rounds : List (PbsRound K)) (r : PbsRound K)

/-- Rounds of the loop /repo/mlmc/sampler.py:172-180, whatever their running counts. -/
def PbsProg.rounds (env : PbsEnv Cfg K C) : List (PbsRound K) → PbsProg Cfg K C → Option (PbsProg Cfg K C)
  | [], p => some p
  | r :: rs, p => match p.collect env r with
    | none => none
    | some (_, q) => PbsProg.rounds env rs q

/-- The state at the moment of the kill; `none`: an exception came first. /repo/mlmc/sampler.py:122-182. -/
def PbsProg.kill (env : PbsEnv Cfg K C) (p : PbsProg Cfg K C) : PbsKill K → Option (PbsProg Cfg K C)
  | .between => some p
  | .inSchedule cmds done =>
    if p.sys.target.length = p.sys.nSched.length then p.acts env cmds 0 ((schedActs 0 p.sys.plan).take done) else none
  | .inAsk rounds => p.rounds env rounds
  | .unstored rounds r => (p.rounds env rounds).bind fun q =>
    let x := (q.jobs env r.jobs).pool env (.get r.qsub r.qstat)
    match x.2.answer with
    | none => none
    | some _ => some x.1

/-- The new program on what is left: the file and the directory.  `listing`: the listing of job scripts the new pool gets; `ids`: the
unfinished identifiers of the file in the order in which Python iterates the set of them.
/repo/mlmc/sampler.py:16-49, 152-158, /repo/mlmc/sampling_pool_pbs.py:60-105, 420-424. -/
def PbsProg.restart (env : PbsEnv Cfg K C) (listing : List Nat) (ids : List SampleId) (p : PbsProg Cfg K C) : PbsProg Cfg K C :=
  (((⟨Sys.construct p.sys.store [] [], p.world, p.hist⟩ : PbsProg Cfg K C).pool env (.restart true listing)).1.pool env (.permanent ids)).1

end MLMC
