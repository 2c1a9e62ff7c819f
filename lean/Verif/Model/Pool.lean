import Verif.Model.ResultFormat
import Verif.Model.Polling
/-
Sampling pools in one process: `SamplingPool`, `OneProcessPool` (/repo/mlmc/sampling_pool.py:16-294).
`K`: scalars of result vectors, `Cfg`: simulation configurations, `C`: contents of a sample directory.
-/
namespace MLMC

/-- One of the two results returned by a simulation: a NumPy array (its flattened content) or any other Python object
(here: a list of scalars). /repo/mlmc/sampling_pool.py:104-116. -/
inductive ResPart (K : Type)
  | array (v : List K)
  | plain (v : List K)
  deriving DecidableEq

/-- What `level_sim._calculate(config, seed)` does: raise, return something that cannot be indexed, or return a pair. /repo/mlmc/sampling_pool.py:96-126. -/
inductive SimOut (K : Type)
  | raised (msg : Msg)
  | notPair (msg : Msg)
  | pair (fine coarse : ResPart K)

/-- `LevelSimulation` (/repo/mlmc/level_simulation.py:7-34): `calculate` is `_calculate`, a function of configuration and seed;
`files` what it leaves in its working directory; `filesOk` whether all `common_files` can be copied. -/
structure PoolSim (Cfg K C : Type) where
  level : Nat
  cfg : Cfg
  workspace : Bool
  filesOk : Bool
  calculate : Cfg → Nat → SimOut K
  files : Cfg → Nat → C
  fmt : List QSpec

/-- `SamplingPool.compute_seed`, /repo/mlmc/sampling_pool.py:75-84: first four bytes of the MD5 digest of the identifier as
a little-endian number.  `md5` is a parameter of the model. -/
def computeSeed (md5 : SampleId → List UInt8) (id : SampleId) : Nat :=
  match md5 id with
  | a :: b :: c :: d :: _ => a.toNat + 256 * (b.toNat + 256 * (c.toNat + 256 * d.toNat))
  | _ => 0

/-- `traceback.format_exception`, /repo/mlmc/sampling_pool.py:123-124: a text starting with "Traceback", so never
the empty string.  Simplification: only the first letter of that heading is kept in front of the exception's own text. -/
def traceback (msg : Msg) : Msg := 'T' :: msg

/-- "Unexpected result format ...", /repo/mlmc/sampling_pool.py:118-120 (text abbreviated). -/
def unexpectedFormat : Msg := ['U', 'n', 'e', 'x', 'p', 'e', 'c', 't', 'e', 'd']

/-- Return value of `calculate_sample`: result, error message, running time. /repo/mlmc/sampling_pool.py:126. -/
structure Calc (K : Type) where
  id : SampleId
  res : Option (ResPart K × ResPart K)
  err : Msg
  time : ℚ

/-- The result format check, /repo/mlmc/sampling_pool.py:110-120. -/
def formatCheck {K : Type} (fmt : List QSpec) : ResPart K → ResPart K → Bool
  | .array a, .array b => a.length == b.length && b.length == formatSize fmt
  | _, _ => true

/-- `SamplingPool.calculate_sample` after the files are in place, /repo/mlmc/sampling_pool.py:96-126.
`dur` is the measured duration of the simulation; `seed`: the optional argument. -/
def calculateSample {Cfg K C : Type} (md5 : SampleId → List UInt8) (sim : PoolSim Cfg K C) (id : SampleId)
    (seed : Option Nat) (dur : ℚ) : Calc K :=
  match sim.calculate sim.cfg (seed.getD (computeSeed md5 id)) with
  | .raised msg => ⟨id, none, traceback msg, 0⟩
  | .notPair msg => ⟨id, none, traceback msg, dur⟩
  | .pair f c =>
    if formatCheck sim.fmt f c then ⟨id, some (f, c), [], dur⟩
    else ⟨id, some (f, c), traceback unexpectedFormat, dur⟩

/-- Sample directories: in the output directory itself, under `failed` and under `several_successful`. /repo/mlmc/sampling_pool.py:21-22, 37-39. -/
structure Dirs (C : Type) where
  output : Dict SampleId C := []
  failed : Dict SampleId C := []
  several : Dict SampleId C := []
  deriving DecidableEq

/-- Deleting an entry. Models `shutil.rmtree` of /repo/mlmc/sampling_pool.py:204. -/
def Dict.erase {κ α : Type} [DecidableEq κ] (d : Dict κ α) (k : κ) : Dict κ α := d.filter fun e => e.1 ≠ k

/-- Python `int(s)` of a string of decimal digits.  Simplification: signs, blanks and underscores count as errors. /repo/mlmc/sampling_pool.py:167. -/
def pyIntOfStr (s : List Char) : Option Nat :=
  if s ≠ [] ∧ s.all Char.isDigit then some (Nat.ofDigitChars 10 s 0) else none

/-- Python `s[-7:]`. /repo/mlmc/sampling_pool.py:167. -/
def lastSeven (s : List Char) : List Char := s.drop (s.length - 7)

/-- `OneProcessPool` (/repo/mlmc/sampling_pool.py:207-217).  `hasDir`: a `work_dir` was given. -/
structure Pool (K C : Type) where
  debug : Bool := false
  hasDir : Bool := true
  queues : Dict Nat (List (SampleId × (ResPart K × ResPart K))) := []
  failedQ : Dict Nat (List (SampleId × Msg)) := []
  nRunning : ℤ := 0
  times : Dict Nat (ℚ × ℚ) := []
  dirs : Dirs C := {}

variable {Cfg K C : Type}

/-- `SamplingPool.__init__` on existing directories, /repo/mlmc/sampling_pool.py:26-51: the output directory with everything
in it is removed unless `debug`. -/
def Pool.create (debug hasDir : Bool) (dirs : Dirs C) : Pool K C :=
  { debug := debug, hasDir := hasDir, dirs := if hasDir ∧ ¬ debug then {} else dirs }

/-- `move_dir` with `dest = several_successful`, /repo/mlmc/sampling_pool.py:176-191: nothing without a destination. -/
def Dirs.keepSuccessful (hasDir : Bool) (id : SampleId) (d : Dirs C) : Dirs C :=
  match hasDir, Dict.get? d.output id with
  | true, some c => { d with several := Dict.set d.several id c }
  | _, _ => d

/-- `move_dir` with `dest = failed` (a path relative to the output directory). /repo/mlmc/sampling_pool.py:171-191. -/
def Dirs.keepFailed (id : SampleId) (d : Dirs C) : Dirs C :=
  match Dict.get? d.output id with
  | some c => { d with failed := Dict.set d.failed id c }
  | none => d

/-- `remove_sample_dir`, /repo/mlmc/sampling_pool.py:193-204. -/
def Dirs.remove (id : SampleId) (d : Dirs C) : Dirs C := { d with output := Dict.erase d.output id }

/-- `move_successful_rm`, /repo/mlmc/sampling_pool.py:165-169: `ValueError` if the last seven characters are no number. -/
def Dirs.moveSuccessfulRm (hasDir workspace : Bool) (id : SampleId) (d : Dirs C) : Dirs C × Option PyErr :=
  match pyIntOfStr (lastSeven id) with
  | none => (d, some .valueError)
  | some n =>
    let d1 := if n < 5 ∧ workspace then d.keepSuccessful hasDir id else d
    (if workspace then d1.remove id else d1, none)

/-- `_save_running_time`, /repo/mlmc/sampling_pool.py:254-267. -/
def saveRunningTime (times : Dict Nat (ℚ × ℚ)) (level : Nat) (t : ℚ) : Dict Nat (ℚ × ℚ) :=
  Dict.upd times level (0, 0) fun x => if t ≠ 0 then (x.1 + t, x.2 + 1) else x

/-- `_process_result`, /repo/mlmc/sampling_pool.py:230-252. -/
def Pool.processResult (p : Pool K C) (sim : PoolSim Cfg K C) (r : Calc K) : Pool K C × Option PyErr :=
  let p := { p with times := saveRunningTime p.times sim.level r.time }
  match r.err, r.res with
  | [], some res =>
    let p := { p with queues := Dict.upd p.queues sim.level [] (· ++ [(r.id, res)]) }
    if p.debug then (p, none)
    else
      let (d, e) := p.dirs.moveSuccessfulRm p.hasDir sim.workspace r.id
      ({ p with dirs := d }, e)
  | [], none => (p, some .typeError)
  | err, _ =>
    let d := if sim.workspace then (p.dirs.keepFailed r.id).remove r.id else p.dirs
    ({ p with dirs := d, failedQ := Dict.upd p.failedQ sim.level [] (· ++ [(r.id, err)]) }, none)

/-- `OneProcessPool.schedule_sample`, /repo/mlmc/sampling_pool.py:219-228.  `handle_sim_files` (150-163) runs outside the
`try`, so a common file that cannot be copied raises out of the call. -/
def Pool.schedule (md5 : SampleId → List UInt8) (p : Pool K C) (sim : PoolSim Cfg K C) (id : SampleId) (dur : ℚ) :
    Pool K C × Option PyErr :=
  let p := { p with nRunning := p.nRunning + 1 }
  if sim.workspace ∧ ¬ sim.filesOk then (p, some .other) else
  let d := if sim.workspace then
      { p.dirs with output := Dict.set p.dirs.output id (sim.files sim.cfg (computeSeed md5 id)) } else p.dirs
  { p with dirs := d }.processResult sim (calculateSample md5 sim id none dur)

/-- `_queues_to_list`, /repo/mlmc/sampling_pool.py:281-294, when nothing else runs: the non-empty queues, emptied. -/
def queuesToList {α : Type} (q : Dict Nat (List α)) : Dict Nat (List α) × Dict Nat (List α) × Nat :=
  let res := q.filter fun e => !e.2.isEmpty
  (res, q.map fun e => (e.1, []), (res.map fun e => e.2.length).sum)

/-- `get_finished`, /repo/mlmc/sampling_pool.py:272-279. -/
def Pool.getFinished (p : Pool K C) : PoolAnswer (ResPart K × ResPart K) × Pool K C :=
  let (s, q, n) := queuesToList p.queues
  let (f, fq, m) := queuesToList p.failedQ
  let p := { p with queues := q, failedQ := fq, nRunning := p.nRunning - n - m }
  (⟨s, f, p.nRunning, p.times⟩, p)

/-- Calls on a pool. /repo/mlmc/sampling_pool.py:219, 272. -/
inductive PoolOp (Cfg K C : Type)
  | schedule (id : SampleId) (sim : PoolSim Cfg K C) (dur : ℚ)
  | get

/-- The pool executing calls (a caller that goes on after an exception): final state and the answers of `get_finished`. /repo/mlmc/sampling_pool.py:219-294. -/
def Pool.run (md5 : SampleId → List UInt8) (p : Pool K C) :
    List (PoolOp Cfg K C) → Pool K C × List (PoolAnswer (ResPart K × ResPart K))
  | [] => (p, [])
  | .schedule id sim dur :: ops => (p.schedule md5 sim id dur).1.run md5 ops
  | .get :: ops =>
    let (a, p1) := p.getFinished
    let (p2, as) := p1.run md5 ops
    (p2, a :: as)

end MLMC
