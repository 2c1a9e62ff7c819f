import Verif.Spec.PbsRecover
/-
Specification of storing each sample once over several programs with PBS.
-/
namespace MLMC
variable {Cfg K C : Type}

/-- PBS identifiers `qsub` has given in these steps. -/
def pbsIdsIn (env : PbsEnv Cfg K C) (h : List (PbsOp (PoolSim Cfg K C) (PairRes K))) : List Nat :=
  (submissions ((PbsWorld.create false [] {}).run (computeSeed env.md5) h).2).map (·.pbsId)

/-- The sample of a recorded success. -/
def JobAppend.succId {R : Type} : JobAppend R → Option SampleId
  | .succ _ id _ => some id
  | _ => none

/-- The sample of a recorded success or failure. -/
def JobAppend.recordId {R : Type} : JobAppend R → Option SampleId
  | .succ _ id _ => some id
  | .failed _ id _ => some id
  | _ => none

/-- What is assumed of PBS, of the directory and of its user: `qsub` either fails or succeeds entirely and gives no identifier twice;
`qstat` reports jobs it is asked for; the directory is never emptied and job numbers are not used again; no job records a sample twice. -/
structure CleanPbs (env : PbsEnv Cfg K C) (h : List (PbsOp (PoolSim Cfg K C) (PairRes K))) : Prop where
  plain : PlainQsub h
  ids : (pbsIdsIn env h).Nodup
  asked : AskedOnly (computeSeed env.md5) h
  kept : ∀ listing, PbsOp.restart false listing ∉ h
  numbers : ∀ before listing rest, h = before ++ .restart true listing :: rest → ∀ pk ∈ packagesIn env before, pk.1 < getJobCount listing
  once : ∀ j, ((appendsOf j h).filterMap JobAppend.recordId).Nodup

/-- No job is read while it is half recorded: whenever the pool is asked, and looks for samples of earlier programs (`u`), then a job
that one of them was last written to has recorded no success of them, or successes of all of them that were last written to it, and of no
others. -/
def WholeJobs (env : PbsEnv Cfg K C) (h : List (PbsOp (PoolSim Cfg K C) (PairRes K))) : Prop :=
  ∀ before q qa rest, h = before ++ .get q qa :: rest → ∀ u, u = (worldAfter env before).pool.unfinished →
    ∀ id ∈ u, ∀ id' ∈ u, ∀ j l v, lastJobIn env before id' = some j → SuccIn before j l id v →
      lastJobIn env before id = some j ∧ ∃ l' v', SuccIn before j l' id' v'

/-- Each new program gives its pool unfinished samples of the file. -/
def GivesUnfinished (env : PbsEnv Cfg K C) (es : List (PbsEvent K)) : Prop :=
  ∀ es1 e js debug listing ids es2, es = es1 ++ .restart e js debug listing ids :: es2 →
    ∀ p p1 : PbsProg Cfg K C, (PbsProg.start env).events env es1 = some p → p.ending env e = some p1 →
      ∃ u, hdfUnfinishedIds p1.sys.store = .ok u ∧ ∀ id ∈ ids, id ∈ u

end MLMC
