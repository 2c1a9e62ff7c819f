import Verif.Model.Pbs
import Verif.Spec.History
/-
Specification of the PBS pool: what was handed over, accepted, written and delivered, read off a history.
-/
namespace MLMC
variable {S R : Type}

/-- Samples handed to the pool by `schedule_sample`, in order, as (level, identifier, seed). -/
def handed (seedOf : SampleId → Nat) (ops : List (PbsOp S R)) : List Trip :=
  ops.filterMap fun | .schedule id l _ _ _ => some (l, id, seedOf id) | _ => none

/-- Jobs accepted by `qsub`, in order. -/
def submissions (outs : List (PbsOut R)) : List Submitted := outs.flatMap (·.submitted)

/-- Outcomes of the submission attempts, in order. -/
def attempts (outs : List (PbsOut R)) : List Bool := outs.filterMap (·.qsub)

/-- Answers of `get_finished`, in order. -/
def answers (outs : List (PbsOut R)) : List (PoolAnswer R) := outs.filterMap (·.answer)

/-- Packages written to disk (job number, samples), in order, whether or not `qsub` accepted them. -/
def packages (outs : List (PbsOut R)) : List (Nat × List Trip) := outs.flatMap (·.packed)

/-- The job of the last package that contains the sample. -/
def lastJobWith (ps : List (Nat × List Trip)) (id : SampleId) : Option Nat :=
  (ps.reverse.find? fun p => id ∈ p.2.map (·.2.1)).map (·.1)

/-- Number of failures since the last success. -/
def failuresInARow (h : List Bool) : Nat := (h.reverse.takeWhile fun b => b = false).length

/-- `qsub` either fails or succeeds entirely. -/
def QsubAns.plain : QsubAns → Prop
  | .okNoFile _ => False
  | _ => True

def PbsOp.qsubAns? : PbsOp S R → Option QsubAns
  | .schedule _ _ _ _ q => some q
  | .execute q => some q
  | .get q _ => some q
  | _ => none

/-- No restart in the history. -/
def NoRestart (ops : List (PbsOp S R)) : Prop := ∀ d l, .restart d l ∉ ops

/-- Every answer of `qsub` in the history is plain. -/
def PlainQsub (ops : List (PbsOp S R)) : Prop := ∀ o ∈ ops, ∀ q ∈ o.qsubAns?, q.plain

/-- Appends made by job `j`, in order. -/
def appendsOf (j : Nat) (ops : List (PbsOp S R)) : List (JobAppend R) :=
  ops.filterMap fun | .job i a => if i = j then some a else none | _ => none

/-- Successful records of level `l` among the appends. -/
def writtenSucc (as : List (JobAppend R)) (l : Nat) : List (SampleId × R) :=
  as.filterMap fun | .succ k id r => if k = l then some (id, r) else none | _ => none

/-- Failed records of level `l` among the appends. -/
def writtenFailed (as : List (JobAppend R)) (l : Nat) : List (SampleId × Msg) :=
  as.filterMap fun | .failed k id m => if k = l then some (id, m) else none | _ => none

/-- Time records of level `l` among the appends: elapsed time and number of samples. -/
def writtenTimes (as : List (JobAppend R)) (l : Nat) : List (ℚ × Nat) :=
  as.flatMap fun | .times rs => rs.filterMap (fun r => if r.1 = l then some r.2 else none) | _ => []

/-- All sample records among the appends, in order: level, identifier, outcome. -/
def writtenRecords (as : List (JobAppend R)) : List (Nat × SampleId × Except Msg R) :=
  as.filterMap fun | .succ k id r => some (k, id, .ok r) | .failed k id m => some (k, id, .error m) | .times _ => none

/-- Identifiers scheduled for level `l`. -/
def idsAt (ts : List Trip) (l : Nat) : List SampleId := ts.filterMap fun t => if t.1 = l then some t.2.1 else none

/-- PBS identifiers reported as finished by an answer of `qstat`. -/
def QstatAns.finished : QstatAns → List Nat
  | .fail => []
  | .ok fin => fin

/-- `qstat` is called with the identifiers the pool has stored (`_pbs_ids`) and reports jobs among them only.  The model lets it report any
jobs; what is proved for all histories needs no such assumption, counterexamples should satisfy it. -/
def AskedOnly (seedOf : SampleId → Nat) (ops : List (PbsOp S R)) : Prop :=
  ∀ before q fin rest, ops = before ++ .get q (.ok fin) :: rest →
    ∀ pid ∈ fin, pid ∈ ((((PbsWorld.create false [] ({} : PbsDisk S R)).run seedOf before).1).execute q).1.pool.pbsIds

/-- Identifiers reported as finished in a `get_finished` call that returned. -/
def reportedBy : PbsOp S R × PbsOut R → List Nat
  | (.get _ a, out) => if out.answer.isSome then a.finished else []
  | _ => []

/-- Jobs accepted and not reported as finished since, in order of acceptance. -/
def outstanding (evs : List (PbsOp S R × PbsOut R)) : List Submitted :=
  evs.foldl (fun out e => (out ++ e.2.submitted).filter fun s => s.pbsId ∉ reportedBy e) []

/-- The events of a history. -/
def eventsOf (seedOf : SampleId → Nat) (w : PbsWorld S R) (ops : List (PbsOp S R)) : List (PbsOp S R × PbsOut R) :=
  ops.zip (w.run seedOf ops).2

/-- The last time record of level `l` among the appends (zero if there is none). -/
def lastTime (as : List (JobAppend R)) (l : Nat) : ℚ := match (writtenTimes as l).getLast? with
  | none => 0
  | some t => t.1

/-- The number of samples in the last time record of level `l` among the appends. -/
def lastCount (as : List (JobAppend R)) (l : Nat) : ℚ := match (writtenTimes as l).getLast? with
  | none => 0
  | some t => t.2

/-- The records missing in a job's result files. -/
def missingIds (ts : List Trip) (as : List (JobAppend R)) (l : Nat) : List SampleId :=
  (idsAt ts l).filter fun id => (l, id) ∉ (writtenRecords as).map fun r => (r.1, r.2.1)

/-- Identifiers of level `l` delivered in answers, successful and failed. -/
def deliveredAt (as : List (PoolAnswer R)) (l : Nat) : List SampleId :=
  as.flatMap fun a => (atLevel a.succ l).map (·.1) ++ (atLevel a.failed l).map (·.1)

/-- Every accepted job has, so far, made the first appends of a run of its scheduled samples (it may have died or still be
running), whatever the simulations return. -/
def JobsRun (ops : List (PbsOp S R)) (subs : List Submitted) : Prop :=
  ∀ s ∈ subs, ∃ (sim : Nat → Option S) (compute : S → SampleId → Nat → Except Msg R) (clock : Nat → ℚ × ℚ),
    appendsOf s.job ops <+: jobAppends sim compute clock s.samples

/-- No call of `have_permanent_samples` in the history. -/
def NoPermanent (ops : List (PbsOp S R)) : Prop := ∀ ids, .permanent ids ∉ ops

end MLMC
