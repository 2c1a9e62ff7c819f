import Verif.Model.Pbs
/-
`SamplingPoolPBS` when a job is killed while it appends to one of its result files (/repo/mlmc/tool/pbs_job.py:263-271), for example at the end of
its walltime.  The record at the end of the file is incomplete and `yaml.load` of the file raises, or the unpacking of its records does
(/repo/mlmc/tool/pbs_job.py:301-318).  A truncated text that happens to be a complete YAML document with records of three entries is
read as a file whose last record has another result (`None`, or a part of it): a step `.job` of `PbsOp`, whose results are arbitrary.
-/
namespace MLMC

variable {S R : Type}

/-- The pool, its directory, and the jobs with a result file that cannot be read. /repo/mlmc/sampling_pool_pbs.py:60-92. -/
structure TornWorld (S R : Type) where
  world : PbsWorld S R := {}
  torn : List Nat := []

/-- `read_results`, /repo/mlmc/tool/pbs_job.py:285-336. -/
def readTorn (torn : List Nat) (d : PbsDisk S R) (j : Nat) : Except PbsErr (JobResults R) :=
  if j ∈ torn then .error .yaml else readResults d j

/-- The loop over finished jobs, /repo/mlmc/sampling_pool_pbs.py:346-370. -/
def collectFinishedT (torn : List Nat) : List Nat → PbsDisk S R → Acc R → PbsDisk S R × Except PbsErr (Acc R)
  | [], d, a => (d, .ok a)
  | pid :: ps, d, a =>
    match d.jobOfPbs pid with
    | none => collectFinishedT torn ps d a
    | some j =>
      match readTorn torn d j with
      | .error e => (d, .error e)
      | .ok r =>
        collectFinishedT torn ps { d with pbsFiles := d.pbsFiles.filter fun e => e ≠ (j, pid) }
          ⟨extendBy a.succ r.succ, extendBy a.failed r.failed, addTimes a.times r.times⟩

/-- `_collect_unfinished`, /repo/mlmc/sampling_pool_pbs.py:378-418 (see `collectUnfinished`). -/
def collectUnfinishedT (torn : List Nat) (wanted : List SampleId) (d : PbsDisk S R) :
    List SampleId → List SampleId → Acc R → Except PbsErr (Acc R)
  | [], _, a => .ok a
  | id :: ids, already, a =>
    if id ∈ already then collectUnfinishedT torn wanted d ids already a else
    match jobOfSample d id with
    | .error e => .error e
    | .ok j =>
      match readTorn torn d j with
      | .error e => .error e
      | .ok r =>
        if a.failed.any fun e => e.2.any fun x => x.1 ∈ wanted then .error .hangs
        else if a.times ≠ [] then .error .typeError
        else collectUnfinishedT torn wanted d ids (already ++ wantedIds wanted r.succ)
          { a with succ := appendWanted wanted a.succ r.succ }

/-- `_get_result_files`, /repo/mlmc/sampling_pool_pbs.py:322-376. -/
def PbsWorld.getResultFilesT (torn : List Nat) (w : PbsWorld S R) (finished unfinished : List Nat) : PbsWorld S R × PbsOut R :=
  match nRunningOf w.disk unfinished with
  | .error e => (w, { err := some e })
  | .ok n =>
    match collectFinishedT torn finished w.disk {} with
    | (d, .error e) => ({ w with disk := d }, { err := some e })
    | (d, .ok a) =>
      if w.pool.unfinished = [] then ({ w with disk := d }, { answer := some ⟨a.succ, a.failed, n, a.times⟩ })
      else match collectUnfinishedT torn w.pool.unfinished d w.pool.unfinished [] a with
        | .error e => ({ w with disk := d }, { err := some e })
        | .ok a => ({ pool := { w.pool with unfinished := [] }, disk := d }, { answer := some ⟨a.succ, a.failed, n, a.times⟩ })

/-- `get_finished`, /repo/mlmc/sampling_pool_pbs.py:271-278. -/
def PbsWorld.getFinishedT (torn : List Nat) (w : PbsWorld S R) (q : QsubAns) (a : QstatAns) : PbsWorld S R × PbsOut R :=
  let (w1, o1) := w.execute q
  match o1.err with
  | some e => (w1, { o1 with err := some e })
  | none =>
    match w1.pool.qstat a with
    | (p, .error e) => ({ w1 with pool := p }, { o1 with err := some e })
    | (p, .ok (fin, unf)) =>
      let (w2, o2) := { w1 with pool := p }.getResultFilesT torn fin unf
      (w2, { o2 with packed := o1.packed, qsub := o1.qsub, submitted := o1.submitted })

/-- Calls of the main program and steps of the environment; `tear`: a job is killed while it appends a record.
/repo/mlmc/sampling_pool_pbs.py:60-92, 169-184, 198, 271, 420-424, /repo/mlmc/tool/pbs_job.py:132-218, 263-271. -/
inductive TornOp (S R : Type)
  | op (o : PbsOp S R)
  | tear (j : Nat)

/-- One step; a pool made without `debug` removes the directory with its files. /repo/mlmc/sampling_pool_pbs.py:60-92, 169-184, 198-278, 420-424. -/
def TornWorld.step (seedOf : SampleId → Nat) (t : TornWorld S R) : TornOp S R → TornWorld S R × PbsOut R
  | .tear j => ({ t with torn := t.torn ++ [j] }, {})
  | .op (.get q a) => ({ t with world := (t.world.getFinishedT t.torn q a).1 }, (t.world.getFinishedT t.torn q a).2)
  | .op (.restart debug listing) => (⟨PbsWorld.create debug listing t.world.disk, if debug then t.torn else []⟩, {})
  | .op o => ({ t with world := (t.world.step seedOf o).1 }, (t.world.step seedOf o).2)

/-- A sequence of steps; a caller that goes on after exceptions. /repo/mlmc/sampling_pool_pbs.py:60-424. -/
def TornWorld.run (seedOf : SampleId → Nat) (t : TornWorld S R) : List (TornOp S R) → TornWorld S R × List (PbsOut R)
  | [] => (t, [])
  | o :: ops =>
    let (t1, out) := t.step seedOf o
    let (t2, outs) := t1.run seedOf ops
    (t2, out :: outs)

end MLMC
