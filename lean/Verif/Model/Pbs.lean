import Verif.Model.PbsJob
/-
`SamplingPoolPBS` (/repo/mlmc/sampling_pool_pbs.py).
`S`: level simulations, `R`: pairs of results.
-/
namespace MLMC

/-- `SamplingPoolPBS.__init__`, /repo/mlmc/sampling_pool_pbs.py:66-92.  Simplifications: `pbs_common_setting` has been
called (otherwise the first submission raises); `unfinished` lists the elements of a Python set in its iteration order. -/
structure PbsPool where
  debug : Bool := false
  scheduled : List Trip := []
  nInJob : Nat := 0
  weight : ℚ := 0
  pbsIds : List Nat := []
  unfinished : List SampleId := []
  jobCount : Nat := 0
  qsubFailed : Nat := 0
  qstatFailed : Nat := 0
  deriving DecidableEq

/-- The pool with the directory it works in. /repo/mlmc/sampling_pool_pbs.py:60-92. -/
structure PbsWorld (S R : Type) where
  pool : PbsPool := {}
  disk : PbsDisk S R := {}

/-- What the command `qsub` does: fails; accepts the job under a PBS identifier; accepts it, but the file
`JobID_PbsID` cannot be written afterwards. /repo/mlmc/sampling_pool_pbs.py:198-245. -/
inductive QsubAns
  | fail
  | ok (pbsId : Nat)
  | okNoFile (pbsId : Nat)

/-- What `qstat -x` does: fails, or lists jobs, of which these are finished
(`re.findall(r"(\d+)\..*\d+ F", output)`, /repo/mlmc/sampling_pool_pbs.py:286-299).  The command is given `_pbs_ids`, so these are among them
(`AskedOnly` in the specification); the model allows any list. -/
inductive QstatAns
  | fail
  | ok (finished : List Nat)

/-- A job accepted by `qsub`: its number, PBS identifier and the samples in its scheduled file. /repo/mlmc/sampling_pool_pbs.py:198-245. -/
structure Submitted where
  job : Nat
  pbsId : Nat
  samples : List Trip
  deriving DecidableEq

/-- Observable outcome of a call: the package written to disk (job number and samples), whether `qsub` was run and succeeded,
accepted submission, returned answer, exception. /repo/mlmc/sampling_pool_pbs.py:169-279. -/
structure PbsOut (R : Type) where
  packed : List (Nat × List Trip) := []
  qsub : Option Bool := none
  submitted : List Submitted := []
  answer : Option (PoolAnswer R) := none
  err : Option PbsErr := none

variable {S R : Type}

/-- `_get_job_count`, /repo/mlmc/sampling_pool_pbs.py:94-105: one more than the number in the last entry of the directory
listing, in whatever order `glob` lists the scripts. -/
def getJobCount (listing : List Nat) : Nat :=
  match listing.getLast? with
  | none => 0
  | some j => j + 1

/-- A new pool object on an existing working directory, /repo/mlmc/sampling_pool_pbs.py:60-92 with
/repo/mlmc/sampling_pool.py:42-51: without `debug` the output directory (jobs included) is removed first. -/
def PbsWorld.create (debug : Bool) (listing : List Nat) (d : PbsDisk S R) : PbsWorld S R :=
  if debug then { pool := { debug := true, jobCount := getJobCount listing }, disk := d }
  else { pool := {}, disk := {} }

/-- `execute`, /repo/mlmc/sampling_pool_pbs.py:198-245. -/
def PbsWorld.execute (w : PbsWorld S R) (q : QsubAns) : PbsWorld S R × PbsOut R :=
  if w.pool.scheduled = [] then (w, {}) else
  let j := w.pool.jobCount
  let ts := w.pool.scheduled
  let d := { w.disk with
    jobOf := saveJobOf w.disk.jobOf j ts
    scheduled := Dict.set w.disk.scheduled j ts
    scripts := if j ∈ w.disk.scripts then w.disk.scripts else w.disk.scripts ++ [j] }
  match q with
  | .fail =>
    let n := w.pool.qsubFailed + 1
    ({ pool := { w.pool with qsubFailed := n }, disk := d }, { packed := [(j, ts)], qsub := some false, err := if n > 10 then some .qsub else none })
  | .ok pid =>
    let p := { w.pool with scheduled := [], nInJob := 0, weight := 0, pbsIds := w.pool.pbsIds ++ [pid] }
    ({ pool := { p with jobCount := j + 1, qsubFailed := 0 },
       disk := { d with pbsFiles := if (j, pid) ∈ d.pbsFiles then d.pbsFiles else d.pbsFiles ++ [(j, pid)] } },
     { packed := [(j, ts)], qsub := some true, submitted := [⟨j, pid, ts⟩] })
  | .okNoFile pid =>
    ({ pool := { w.pool with qsubFailed := 1, jobCount := j + 1, pbsIds := w.pool.pbsIds ++ [pid] }, disk := d },
     { packed := [(j, ts)], qsub := some true, submitted := [⟨j, pid, ts⟩] })

/-- `schedule_sample`, /repo/mlmc/sampling_pool_pbs.py:169-196.  `seed`: `compute_seed(sample_id)`; `size`: `task_size`. -/
def PbsWorld.schedule (w : PbsWorld S R) (id : SampleId) (seed level : Nat) (size : ℚ) (sim : S) (q : QsubAns) :
    PbsWorld S R × PbsOut R :=
  let sims := if (Dict.get? w.disk.sims level).isSome then w.disk.sims else Dict.set w.disk.sims level sim
  let d := { w.disk with sims := sims }
  let p : PbsPool := { w.pool with
    scheduled := w.pool.scheduled ++ [(level, id, seed)]
    nInJob := w.pool.nInJob + 1
    weight := w.pool.weight + size }
  let w : PbsWorld S R := ⟨p, d⟩
  if p.weight > 1 ∨ p.nInJob > 1000 then w.execute q else (w, {})

/-- The loop of `_qstat_pbs_job` over `self._pbs_ids`, /repo/mlmc/sampling_pool_pbs.py:308-318: elements are removed from the
list while it is iterated, so the element after a removed one is not looked at and stays.  First component: unfinished jobs,
second: `_pbs_ids` afterwards.  (The identifiers in the list are different, so `remove` deletes the current element.) -/
def qstatScan (finished : List Nat) : List Nat → List Nat × List Nat
  | [] => ([], [])
  | p :: rest =>
    if p ∉ finished then
      let (u, k) := qstatScan finished rest
      (p :: u, p :: k)
    else
      match rest with
      | [] => ([], [])
      | x :: rest' =>
        let (u, k) := qstatScan finished rest'
        (u, x :: k)

/-- `_qstat_pbs_job`, /repo/mlmc/sampling_pool_pbs.py:280-320: pool afterwards, finished and unfinished jobs. -/
def PbsPool.qstat (p : PbsPool) (a : QstatAns) : PbsPool × Except PbsErr (List Nat × List Nat) :=
  if p.pbsIds = [] then (p, .ok ([], [])) else
  match a with
  | .fail =>
    let n := p.qstatFailed + 1
    if n > 10 then ({ p with qstatFailed := n }, .error .qstat)
    else ({ p with qstatFailed := n }, .ok ([], p.pbsIds))
  | .ok fin =>
    let (u, k) := qstatScan fin p.pbsIds
    ({ p with qstatFailed := 0, pbsIds := k }, .ok (fin, u))

/-- `glob.glob("*_{}".format(pbs_id))` and the number in the first file name found.  Simplification: if several files
belong to one PBS identifier the first in the list is taken. /repo/mlmc/sampling_pool_pbs.py:337-340, 347-353. -/
def PbsDisk.jobOfPbs (d : PbsDisk S R) (pid : Nat) : Option Nat := (d.pbsFiles.find? fun e => e.2 = pid).map (·.1)

/-- The running count, /repo/mlmc/sampling_pool_pbs.py:334-341. -/
def nRunningOf (d : PbsDisk S R) : List Nat → Except PbsErr Nat
  | [] => .ok 0
  | pid :: ps =>
    match d.jobOfPbs pid with
    | none => nRunningOf d ps
    | some j => do
      let n ← jobNRunning d j
      let m ← nRunningOf d ps
      return n + m

/-- Accumulated dictionaries of `_get_result_files`. /repo/mlmc/sampling_pool_pbs.py:343-345. -/
structure Acc (R : Type) where
  succ : Dict Nat (List (SampleId × R)) := []
  failed : Dict Nat (List (SampleId × Msg)) := []
  times : Dict Nat (ℚ × ℚ) := []

/-- `setdefault(level_id, []).extend(results)` for every level. /repo/mlmc/sampling_pool_pbs.py:358-361. -/
def extendBy {α : Type} (d e : Dict Nat (List α)) : Dict Nat (List α) :=
  e.foldl (fun d x => Dict.upd d x.1 [] (· ++ x.2)) d

/-- Adding the last time record of every level, /repo/mlmc/sampling_pool_pbs.py:362-367. -/
def addTimes (d : Dict Nat (ℚ × ℚ)) (e : Dict Nat (List (ℚ × Nat))) : Dict Nat (ℚ × ℚ) :=
  e.foldl (fun d x => match x.2.getLast? with
    | none => d
    | some t => Dict.upd d x.1 (0, 0) fun y => (y.1 + t.1, y.2 + t.2)) d

/-- The loop over finished jobs, /repo/mlmc/sampling_pool_pbs.py:346-370. -/
def collectFinished : List Nat → PbsDisk S R → Acc R → PbsDisk S R × Except PbsErr (Acc R)
  | [], d, a => (d, .ok a)
  | pid :: ps, d, a =>
    match d.jobOfPbs pid with
    | none => collectFinished ps d a
    | some j =>
      match readResults d j with
      | .error e => (d, .error e)
      | .ok r =>
        collectFinished ps { d with pbsFiles := d.pbsFiles.filter fun e => e ≠ (j, pid) }
          ⟨extendBy a.succ r.succ, extendBy a.failed r.failed, addTimes a.times r.times⟩

/-- `successful.items()` restricted to wanted samples and appended, /repo/mlmc/sampling_pool_pbs.py:395-399. -/
def appendWanted (wanted : List SampleId) (d : Dict Nat (List (SampleId × R))) (e : Dict Nat (List (SampleId × R))) :
    Dict Nat (List (SampleId × R)) :=
  e.foldl (fun d x => x.2.foldl (fun d r => if r.1 ∈ wanted then Dict.upd d x.1 [] (· ++ [r]) else d) d) d

/-- Identifiers added to `already_collected` by the loop over `successful`. /repo/mlmc/sampling_pool_pbs.py:395-398. -/
def wantedIds (wanted : List SampleId) (e : Dict Nat (List (SampleId × R))) : List SampleId :=
  (e.flatMap fun x => x.2.map (·.1)).filter (· ∈ wanted)

/-- `_collect_unfinished`, /repo/mlmc/sampling_pool_pbs.py:378-418, over the remaining identifiers.
The loops of lines 401-411 run over the accumulated `failed_results` and `times` (not over what was just read): the first
appends to the list it is iterating as soon as one wanted identifier is in it, so it never ends; the second subscripts a
number if there is any entry. -/
def collectUnfinished (wanted : List SampleId) (d : PbsDisk S R) :
    List SampleId → List SampleId → Acc R → Except PbsErr (Acc R)
  | [], _, a => .ok a
  | id :: ids, already, a =>
    if id ∈ already then collectUnfinished wanted d ids already a else
    match jobOfSample d id with
    | .error e => .error e
    | .ok j =>
      match readResults d j with
      | .error e => .error e
      | .ok r =>
        if a.failed.any fun e => e.2.any fun x => x.1 ∈ wanted then .error .hangs
        else if a.times ≠ [] then .error .typeError
        else collectUnfinished wanted d ids (already ++ wantedIds wanted r.succ)
          { a with succ := appendWanted wanted a.succ r.succ }

/-- `_get_result_files`, /repo/mlmc/sampling_pool_pbs.py:322-376. -/
def PbsWorld.getResultFiles (w : PbsWorld S R) (finished unfinished : List Nat) : PbsWorld S R × PbsOut R :=
  match nRunningOf w.disk unfinished with
  | .error e => (w, { err := some e })
  | .ok n =>
    match collectFinished finished w.disk {} with
    | (d, .error e) => ({ w with disk := d }, { err := some e })
    | (d, .ok a) =>
      if w.pool.unfinished = [] then ({ w with disk := d }, { answer := some ⟨a.succ, a.failed, n, a.times⟩ })
      else match collectUnfinished w.pool.unfinished d w.pool.unfinished [] a with
        | .error e => ({ w with disk := d }, { err := some e })
        | .ok a => ({ pool := { w.pool with unfinished := [] }, disk := d }, { answer := some ⟨a.succ, a.failed, n, a.times⟩ })

/-- `get_finished`, /repo/mlmc/sampling_pool_pbs.py:271-278. -/
def PbsWorld.getFinished (w : PbsWorld S R) (q : QsubAns) (a : QstatAns) : PbsWorld S R × PbsOut R :=
  let (w1, o1) := w.execute q
  match o1.err with
  | some e => (w1, { o1 with err := some e })
  | none =>
    match w1.pool.qstat a with
    | (p, .error e) => ({ w1 with pool := p }, { o1 with err := some e })
    | (p, .ok (fin, unf)) =>
      let (w2, o2) := { w1 with pool := p }.getResultFiles fin unf
      (w2, { o2 with packed := o1.packed, qsub := o1.qsub, submitted := o1.submitted })

/-- Calls of the main program, with the answers of the commands they may run, and the steps of the environment:
an append of a running job process, and the death of the main program followed by the construction of a new pool. /repo/mlmc/sampling_pool_pbs.py:60-92, 169-184, 198, 271, 420-424, /repo/mlmc/tool/pbs_job.py:132-218. -/
inductive PbsOp (S R : Type)
  | schedule (id : SampleId) (level : Nat) (size : ℚ) (sim : S) (q : QsubAns)
  | execute (q : QsubAns)
  | get (q : QsubAns) (a : QstatAns)
  | permanent (ids : List SampleId)
  | job (j : Nat) (a : JobAppend R)
  | restart (debug : Bool) (listing : List Nat)

/-- One step. /repo/mlmc/sampling_pool_pbs.py:60-92, 169-184, 198-278, 420-424. -/
def PbsWorld.step (seedOf : SampleId → Nat) (w : PbsWorld S R) : PbsOp S R → PbsWorld S R × PbsOut R
  | .schedule id l size sim q => w.schedule id (seedOf id) l size sim q
  | .execute q => w.execute q
  | .get q a => w.getFinished q a
  | .permanent ids => ({ w with pool := { w.pool with unfinished := ids.dedup } }, {})
  | .job j a => ({ w with disk := a.apply j w.disk }, {})
  | .restart debug listing => (PbsWorld.create debug listing w.disk, {})

/-- A sequence of steps; a caller that goes on after exceptions. /repo/mlmc/sampling_pool_pbs.py:60-424. -/
def PbsWorld.run (seedOf : SampleId → Nat) (w : PbsWorld S R) : List (PbsOp S R) → PbsWorld S R × List (PbsOut R)
  | [] => (w, [])
  | o :: ops =>
    let (w1, out) := w.step seedOf o
    let (w2, outs) := w1.run seedOf ops
    (w2, out :: outs)

end MLMC
