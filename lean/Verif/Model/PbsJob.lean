import Verif.Model.Pool
import Mathlib.Data.List.Sort
/-
PBS job files and the job process: `PbsJob` (/repo/mlmc/tool/pbs_job.py).
`R`: a pair of results, `S`: serialised level simulations.
Simplifications: YAML, JSON and pickle files hold the values that were written into them (appended YAML lists read back as one
list); a job is known by its number, the file names use `"{:04d}".format(number)`, see `jobName`.
-/
namespace MLMC

/-- File name prefix of a job, /repo/mlmc/sampling_pool_pbs.py:204, 253. -/
def jobName (j : Nat) : List Char := zpad 4 j

/-- A scheduled sample (level, sample id, seed), /repo/mlmc/sampling_pool_pbs.py:179. -/
abbrev Trip := Nat × SampleId × Nat

/-- Content of the output directory that belongs to PBS jobs: serialised level simulations
(/repo/mlmc/sampling_pool_pbs.py:186-196), `sample_id_job_id.json` (`none`: no such file), `*_scheduled.yaml`, `*_job.sh`,
`JobID_PbsID` files and the three result files of every job (/repo/mlmc/tool/pbs_job.py:15-29). -/
structure PbsDisk (S R : Type) where
  sims : Dict Nat S := []
  jobOf : Option (Dict SampleId Nat) := none
  scheduled : Dict Nat (List Trip) := []
  scripts : List Nat := []
  pbsFiles : List (Nat × Nat) := []
  succ : Dict Nat (List (Nat × SampleId × R)) := []
  failed : Dict Nat (List (Nat × SampleId × Msg)) := []
  times : Dict Nat (List (Nat × ℚ × Nat)) := []

/-- Exceptions that leave the pool; `hangs`: the call never returns; `yaml`: a result file cannot be parsed (only in `Model/PbsTorn.lean`). /repo/mlmc/sampling_pool_pbs.py:198-245, 301-305, 378-418. -/
inductive PbsErr
  | qsub | qstat | fileNotFound | keyError | typeError | hangs | yaml
  deriving DecidableEq, Repr

/-- One append to a result file, /repo/mlmc/tool/pbs_job.py:203-218, 263-271. -/
inductive JobAppend (R : Type)
  | succ (level : Nat) (id : SampleId) (res : R)
  | failed (level : Nat) (id : SampleId) (err : Msg)
  | times (records : List (Nat × ℚ × Nat))
  deriving DecidableEq

variable {S R : Type}

/-- The record of one computed sample, /repo/mlmc/tool/pbs_job.py:174-185. -/
def JobAppend.ofOutcome (level : Nat) (id : SampleId) : Except Msg R → JobAppend R
  | .ok r => .succ level id r
  | .error m => .failed level id m

/-- Effect of an append made by job `j`. /repo/mlmc/tool/pbs_job.py:203-218, 263-271. -/
def JobAppend.apply (j : Nat) (d : PbsDisk S R) : JobAppend R → PbsDisk S R
  | .succ l id r => { d with succ := Dict.upd d.succ j [] (· ++ [(l, id, r)]) }
  | .failed l id m => { d with failed := Dict.upd d.failed j [] (· ++ [(l, id, m)]) }
  | .times rs => { d with times := Dict.upd d.times j [] (· ++ rs) }

/-- `_get_level_id_sample_id_seed`, /repo/mlmc/tool/pbs_job.py:121-130: stable sort by level. -/
def sortByLevel (ts : List Trip) : List Trip := ts.insertionSort fun a b => a.1 ≤ b.1

/-- The loop of `calculate_samples`, /repo/mlmc/tool/pbs_job.py:148-197, as the list of its file appends.
`sim level`: reading the serialised level simulation (`none`: no such file, the job dies); `compute s id seed`: result and error
message of `SamplingPool.calculate_sample`; `clock n`: the two differences `time.time() - start_time` evaluated for the
`n`-th sample (at a change of level, and after the sample); `cur`, `cnt`, `n`: current level, samples of it, samples done.
Sample directories are not modelled here (see `Dirs`), nor the exception that `move_successful_rm` raises for identifiers
without a number at the end (the job dies, which is one of the crash points). -/
def jobLoop (sim : Nat → Option S) (compute : S → SampleId → Nat → Except Msg R) (clock : Nat → ℚ × ℚ) :
    List Trip → Nat → Nat → Nat → List (JobAppend R)
  | [], _, _, _ => []
  | (l, id, seed) :: ts, cur, cnt, n =>
    match sim l with
    | none => []
    | some s =>
      let change := cur ≠ l
      let before := if change then [(cur, (clock n).1, cnt)] else []
      let cnt' := (if change then 0 else cnt) + 1
      .ofOutcome l id (compute s id seed) ::
      .times (before ++ [(l, (clock n).2, cnt')]) :: jobLoop sim compute clock ts l cnt' (n + 1)

/-- `calculate_samples` of a job with scheduled file content `ts`: all its appends.  (The final `_save_to_file`, line 197,
has nothing left to write.) /repo/mlmc/tool/pbs_job.py:132-201. -/
def jobAppends (sim : Nat → Option S) (compute : S → SampleId → Nat → Except Msg R) (clock : Nat → ℚ × ℚ) (ts : List Trip) :
    List (JobAppend R) :=
  jobLoop sim compute clock (sortByLevel ts) 0 0 0

/-- The disk after the first `n` appends of job `j` (the job died there, or is still running, or is done). /repo/mlmc/tool/pbs_job.py:132-218. -/
def runJob (j : Nat) (as : List (JobAppend R)) (n : Nat) (d : PbsDisk S R) : PbsDisk S R :=
  (as.take n).foldl (JobAppend.apply j) d

/-- Grouping of records by level, e.g. /repo/mlmc/tool/pbs_job.py:303-304. -/
def groupByLevel {α : Type} (rs : List (Nat × α)) : Dict Nat (List α) :=
  rs.foldl (fun d r => Dict.upd d r.1 [] (· ++ [r.2])) []

/-- The text "job failed". /repo/mlmc/tool/pbs_job.py:323-327. -/
def jobFailed : Msg := ['j', 'o', 'b', ' ', 'f', 'a', 'i', 'l', 'e', 'd']

/-- The last loop of `read_results`, /repo/mlmc/tool/pbs_job.py:323-327. -/
def addMissing (succ : Dict Nat (List (SampleId × R))) (failed : Dict Nat (List (SampleId × Msg))) :
    List Trip → Dict Nat (List (SampleId × Msg))
  | [] => failed
  | (l, id, _) :: ts =>
    let sids := ((Dict.get? succ l).getD []).map (·.1)
    let fids := ((Dict.get? failed l).getD []).map (·.1)
    addMissing succ (if id ∉ fids ∧ id ∉ sids then Dict.upd failed l [] (· ++ [(id, jobFailed)]) else failed) ts

/-- What `read_results` returns: successful, failed, times. /repo/mlmc/tool/pbs_job.py:336. -/
structure JobResults (R : Type) where
  succ : Dict Nat (List (SampleId × R)) := []
  failed : Dict Nat (List (SampleId × Msg)) := []
  times : Dict Nat (List (ℚ × Nat)) := []

/-- `read_results`, /repo/mlmc/tool/pbs_job.py:285-336.  Absent result files count as empty; an absent scheduled file raises. -/
def readResults (d : PbsDisk S R) (j : Nat) : Except PbsErr (JobResults R) :=
  let succ := groupByLevel ((Dict.get? d.succ j).getD [])
  let failed := groupByLevel ((Dict.get? d.failed j).getD [])
  let times := groupByLevel ((Dict.get? d.times j).getD [])
  match Dict.get? d.scheduled j with
  | none => .error .fileNotFound
  | some ts => .ok ⟨succ, addMissing succ failed ts, times⟩

/-- `save_sample_id_job_id`, /repo/mlmc/tool/pbs_job.py:230-248. -/
def saveJobOf (m : Option (Dict SampleId Nat)) (j : Nat) (ts : List Trip) : Option (Dict SampleId Nat) :=
  some (ts.foldl (fun d t => Dict.set d t.2.1 j) (m.getD []))

/-- `job_id_from_sample_id`, /repo/mlmc/tool/pbs_job.py:250-261. -/
def jobOfSample (d : PbsDisk S R) (id : SampleId) : Except PbsErr Nat :=
  match d.jobOf with
  | none => .error .fileNotFound
  | some m => match Dict.get? m id with
    | none => .error .keyError
    | some j => .ok j

/-- `get_job_n_running`, /repo/mlmc/tool/pbs_job.py:374-384. -/
def jobNRunning (d : PbsDisk S R) (j : Nat) : Except PbsErr Nat :=
  match Dict.get? d.scheduled j with
  | none => .error .fileNotFound
  | some ts => .ok ts.length

end MLMC
