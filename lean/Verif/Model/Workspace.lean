import Verif.Model.Dict
import Verif.Model.Quantity
/-
Directories of samples and the current directory of processes: `handle_sim_files`, the simulation running in the current directory and the removal of the directory afterwards
(/repo/mlmc/sampling_pool.py:86-204), for pools whose workers are processes or threads.
-/
namespace MLMC.Work

/-- Names of files and directories.  /repo/mlmc/sampling_pool.py:129-148. -/
abbrev Name := List Char

/-- Absolute paths as lists of names.  /repo/mlmc/sampling_pool.py:33. -/
abbrev Path := List Name

/-- What a directory contains: the contents of its files.  /repo/mlmc/sampling_pool.py:141-148. -/
abbrev Content (C : Type) := Name → Option C

/-- Directories by path with their numbers (a directory made anew has a new number) and contents by number.  /repo/mlmc/sampling_pool.py:129-138, 193-204. -/
structure FS (C : Type) where
  next : Nat
  dirs : Dict Path Nat
  files : Nat → Content C

/-- A current directory: its path and number.  It remains set when the directory is removed.  /repo/mlmc/sampling_pool.py:163. -/
structure Loc where
  path : Path
  no : Nat
  deriving DecidableEq

/-- The directory still exists.  /repo/mlmc/sampling_pool.py:204. -/
def Loc.alive {C : Type} (fs : FS C) (l : Loc) : Bool := Dict.get? fs.dirs l.path == some l.no

/-- An entry of `common_files`, /repo/mlmc/level_simulation.py:15: an absolute path, or a file in the current directory.  Simplification: relative paths with directories are left out. -/
inductive Common
  | abs (dir : Path) (name : Name)
  | rel (name : Name)

/-- Name of the copy.  /repo/mlmc/sampling_pool.py:148. -/
def Common.name : Common → Name
  | .abs _ n => n
  | .rel n => n

/-- The content that `shutil.copy` reads, `none`: FileNotFoundError.  /repo/mlmc/sampling_pool.py:148. -/
def Common.read {C : Type} (fs : FS C) (cwd : Loc) : Common → Option C
  | .abs d n => (Dict.get? fs.dirs d).bind fun k => fs.files k n
  | .rel n => if cwd.alive fs then fs.files cwd.no n else none

/-- How a simulation ends.  /repo/mlmc/sampling_pool.py:104-126. -/
inductive Outcome (R : Type)
  | done (r : R)
  | raised
  deriving DecidableEq

/-- A simulation as its dealings with the current directory: it returns, raises, or acts on the current directory (writes, renames, runs an external program there, lists and reads) and goes on according to what it sees.
/repo/mlmc/tool/flow_mc.py:223-319, /repo/mlmc/sim/synth_simulation.py:248-296 (`os.getcwd()` at each action). -/
inductive Prog (C R : Type)
  | ret (r : R)
  | raise
  | act (f : Content C → Content C) (k : Content C → Prog C R)

/-- A sample handed to the pool: identifier, `common_files` of its level, the simulation with configuration and seed, and the process that computes it.  /repo/mlmc/sampling_pool.py:314-324. -/
structure Job (C R : Type) where
  id : Name
  common : List Common
  prog : Prog C R
  proc : Nat

/-- How far a sample is.  `copying` has the number of its directory and the files still to copy.  /repo/mlmc/sampling_pool.py:101-126, 150-163. -/
inductive Phase (C R : Type)
  | waiting
  | copying (dir : Nat) (rest : List Common)
  | running (p : Prog C R)
  | finished (o : Outcome R)
  | copyFailed

/-- Files, current directories of the processes and phases of the samples.  /repo/mlmc/sampling_pool.py:86-204. -/
structure World (C R : Type) where
  fs : FS C
  cwd : Nat → Loc
  phase : Nat → Phase C R

variable {C R : Type}

/-- Function update.  /repo/mlmc/sampling_pool.py:163. -/
def upd {α β : Type} [DecidableEq α] (f : α → β) (a : α) (b : β) : α → β := fun x => if x = a then b else f x

/-- `change_to_sample_directory`, /repo/mlmc/sampling_pool.py:129-138: made unless it exists; its number. -/
def FS.mkdir (fs : FS C) (p : Path) : FS C × Nat :=
  match Dict.get? fs.dirs p with
  | some k => (fs, k)
  | none => ({ next := fs.next + 1, dirs := Dict.set fs.dirs p fs.next, files := upd fs.files fs.next fun _ => none }, fs.next)

/-- `shutil.rmtree` of a directory, /repo/mlmc/sampling_pool.py:193-204. -/
def FS.rmdir (fs : FS C) (p : Path) : FS C := { fs with dirs := fs.dirs.filter fun e => e.1 ≠ p }

/-- Directory of a sample, /repo/mlmc/sampling_pool.py:135. -/
def sampleDir (out : Path) (j : Job C R) : Path := out ++ [j.id]

/-- The next action of a sample: making its directory, copying one file, entering the directory, one action of the simulation.  An action of a simulation in a removed directory raises (`os.getcwd()`).
/repo/mlmc/sampling_pool.py:86-163. -/
def step (out : Path) (jobs : Nat → Job C R) (w : World C R) (i : Nat) : World C R :=
  let j := jobs i
  match w.phase i with
  | .waiting =>
    let (fs, k) := w.fs.mkdir (sampleDir out j)
    { w with fs := fs, phase := upd w.phase i (.copying k j.common) }
  | .copying k (c :: rest) =>
    match c.read w.fs (w.cwd j.proc) with
    | none => { w with phase := upd w.phase i .copyFailed }
    | some x => { w with fs := { w.fs with files := upd w.fs.files k (upd (w.fs.files k) c.name (some x)) }, phase := upd w.phase i (.copying k rest) }
  | .copying k [] => { w with cwd := upd w.cwd j.proc ⟨sampleDir out j, k⟩, phase := upd w.phase i (.running j.prog) }
  | .running (.ret r) => { w with phase := upd w.phase i (.finished (.done r)) }
  | .running .raise => { w with phase := upd w.phase i (.finished .raised) }
  | .running (.act f k) =>
    let l := w.cwd j.proc
    if l.alive w.fs then
      { w with fs := { w.fs with files := upd w.fs.files l.no (f (w.fs.files l.no)) }, phase := upd w.phase i (.running (k (w.fs.files l.no))) }
    else { w with phase := upd w.phase i (.finished .raised) }
  | .finished _ => w
  | .copyFailed => w

/-- `move_successful_rm`, `move_failed_rm` without debug: the directory of the sample is removed at last.  The copies kept in other directories are modelled in Model/Pool.  /repo/mlmc/sampling_pool.py:165-204. -/
def collect (out : Path) (jobs : Nat → Job C R) (w : World C R) (i : Nat) : World C R := { w with fs := w.fs.rmdir (sampleDir out (jobs i)) }

/-- What happens: a sample does its next action, or a finished sample is collected.  /repo/mlmc/sampling_pool.py:219-252, 314-324. -/
inductive Ev
  | step (i : Nat)
  | collect (i : Nat)

/-- The events one after another.  /repo/mlmc/sampling_pool.py:86-204. -/
def run (out : Path) (jobs : Nat → Job C R) (w : World C R) : List Ev → World C R
  | [] => w
  | .step i :: evs => run out jobs (step out jobs w i) evs
  | .collect i :: evs => run out jobs (collect out jobs w i) evs

/-- In the middle of a sample.  /repo/mlmc/sampling_pool.py:101-126. -/
def Phase.busy : Phase C R → Prop
  | .copying _ _ => True
  | .running _ => True
  | _ => False

/-- Workers of `OneProcessPool` and `ProcessPool`: a process begins a sample only when it has none (/repo/mlmc/sampling_pool.py:219-228, 297-324).  In `ThreadPool` (327-338) all samples have one process, which
has several samples at a time: then every event is possible. -/
inductive Possible (threads : Bool) (out : Path) (jobs : Nat → Job C R) : World C R → List Ev → Prop
  | nil (w) : Possible threads out jobs w []
  | step (w i evs) : (threads = false → ∀ j, j ≠ i → (jobs j).proc = (jobs i).proc → ¬ (w.phase j).busy) → Possible threads out jobs (step out jobs w i) evs → Possible threads out jobs w (.step i :: evs)
  | collect (w i evs) : (∃ o, w.phase i = .finished o) → Possible threads out jobs (collect out jobs w i) evs → Possible threads out jobs w (.collect i :: evs)

/-- The output directory of a pool made without `work_dir`: the current directory at the first sample with a workspace, `none`: FileNotFoundError.  /repo/mlmc/sampling_pool.py:222-223, 318-319. -/
def defaultOut (fs : FS C) (cwd : Loc) : Option Path := if cwd.alive fs then some cwd.path else none
end MLMC.Work
