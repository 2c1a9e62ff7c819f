import Verif.Model.HdfObject
import Verif.Model.Workspace
/-
Which file a `SampleStorageHDF` works with: every method opens `file_name` anew (/repo/mlmc/tool/hdf5.py:53, 76, 89, 99, 115, 141, 161, 170, 178, 217, 257, 337),
so a relative path is looked up in the directory that is current at that moment.  `SamplingPoolPBS.get_finished` changes the current directory
(/repo/mlmc/sampling_pool_pbs.py:332), and so does a sample with a workspace (/repo/mlmc/sampling_pool.py:163), whose directory may be removed afterwards.
-/
namespace MLMC.Place
open MLMC.Work (Path Name)
variable {V : Type}

/-- The argument `file_path`, /repo/mlmc/sample_storage_hdf.py:16-26: absolute, or a name in the current directory.  Simplification: relative paths
with directories are left out. -/
inductive FilePath
  | abs (dir : Path) (name : Name)
  | rel (name : Name)
  deriving DecidableEq

/-- The files, and the current directory of the process (`none`: it was removed).  /repo/mlmc/sampling_pool.py:163, 204. -/
structure Disk (V : Type) where
  cwd : Option Path
  files : Dict (Path × Name) (HdfFile V)

/-- The file that a path means now.  /repo/mlmc/tool/hdf5.py:337. -/
def FilePath.now (cwd : Option Path) : FilePath → Option (Path × Name)
  | .abs d n => some (d, n)
  | .rel n => cwd.map fun d => (d, n)

/-- The level a write belongs to.  /repo/mlmc/tool/hdf5.py:338. -/
def levelOf : FileOp V → Nat
  | .addScheduled l _ => l
  | .addIds l _ => l
  | .mkValues l => l
  | .addValues l _ => l
  | .addFailed l _ => l
  | .delFailed l => l
  | .mkFailed l => l
  | .setNOps l _ => l

/-- What a write does to the group of its level (as `FileOp.apply`).  /repo/mlmc/tool/hdf5.py:293-342, 418-450. -/
def onLevel : FileOp V → LevelGroup V → LevelGroup V
  | .addScheduled _ ids, x => { x with scheduled := x.scheduled ++ ids }
  | .addIds _ ids, x => { x with collectedIds := x.collectedIds ++ ids }
  | .mkValues _, x => { x with collectedValues := match x.collectedValues with | none => some [] | some v => some v }
  | .addValues _ vals, x => { x with collectedValues := x.collectedValues.map (· ++ vals) }
  | .addFailed _ fs, x => { x with failed := x.failed.map (· ++ fs) }
  | .delFailed _, x => { x with failed := none }
  | .mkFailed _, x => { x with failed := match x.failed with | none => some [] | some v => some v }
  | .setNOps _ v, x => { x with nOps := some v }

/-- A write to a level of an open file: `KeyError` if the file has no such group.  /repo/mlmc/tool/hdf5.py:256-265, 330-342. -/
def writeLevel (op : FileOp V) (f : HdfFile V) : Except PyErr (HdfFile V) :=
  match levelAt f (levelOf op) with
  | .error e => .error e
  | .ok x => .ok { f with levels := f.levels.set (levelOf op) (some (onLevel op x)) }

/-- `with h5py.File(self.file_name, 'a') as hdf_file: ...`: a missing file is created, and stays even if the block raises; in a removed directory nothing
can be created (`OSError`).  /repo/mlmc/tool/hdf5.py:337-342. -/
def openA (p : FilePath) (block : HdfFile V → Except PyErr (HdfFile V)) (w : Disk V) : Disk V × Option PyErr :=
  match p.now w.cwd with
  | none => (w, some .other)
  | some k =>
    let f := (Dict.get? w.files k).getD {}
    match block f with
    | .ok f' => ({ w with files := Dict.set w.files k f' }, none)
    | .error e => ({ w with files := Dict.set w.files k f }, some e)

/-- Writes one after another, up to the first exception.  /repo/mlmc/sample_storage_hdf.py:115-142. -/
def writes (p : FilePath) : List (FileOp V) → Disk V → Disk V × Option PyErr
  | [], w => (w, none)
  | op :: ops, w =>
    let r := openA p (writeLevel op) w
    match r.2 with
    | some e => (r.1, some e)
    | none => writes p ops r.1

/-- `os.path.exists(file_path)` and opening, /repo/mlmc/sample_storage_hdf.py:22-34: the new object. -/
def openStorage (p : FilePath) (w : Disk V) : Except PyErr HdfObj :=
  (hdfOpen ((p.now w.cwd).bind (Dict.get? w.files))).map (·.1)

/-- What happens in the process of the program: `save_scheduled_samples` or `save_samples` of the storage, a change of the current directory, the removal of
the current directory.  /repo/mlmc/sample_storage_hdf.py:115-142, /repo/mlmc/sampling_pool_pbs.py:332, /repo/mlmc/sampling_pool.py:163, 204. -/
inductive Ev (V : Type)
  | scheduled (level : Nat) (ids : List SampleId)
  | samples (succ : Dict Nat (List (SampleId × V))) (failed : Dict Nat (List (SampleId × Msg)))
  | chdir (d : Path)
  | cwdRemoved

/-- /repo/mlmc/sample_storage_hdf.py:115-142, /repo/mlmc/sampling_pool_pbs.py:332, /repo/mlmc/sampling_pool.py:163, 204. -/
def step (p : FilePath) (w : Disk V) : Ev V → Disk V × Option PyErr
  | .scheduled l ids => writes p (saveScheduledOps l ids) w
  | .samples s f => writes p (saveSamplesOps s f) w
  | .chdir d => ({ w with cwd := some d }, none)
  | .cwdRemoved => ({ w with cwd := none }, none)

/-- Events one after another; an exception ends the program.  /repo/mlmc/sampler.py:122-190. -/
def run (p : FilePath) : List (Ev V) → Disk V → Disk V × Option PyErr
  | [], w => (w, none)
  | e :: es, w =>
    let r := step p w e
    match r.2 with
    | some x => (r.1, some x)
    | none => run p es r.1

/-- The storage part of `schedule_samples` with a `SamplingPoolPBS` for one level, /repo/mlmc/sampler.py:122-150: the answer of the pool, for which the current
directory was changed to `jobs`, is stored, then the identifiers of the scheduled samples. -/
def schedulePbs (jobs : Path) (succ : Dict Nat (List (SampleId × V))) (failed : Dict Nat (List (SampleId × Msg))) (l : Nat) (ids : List SampleId) : List (Ev V) :=
  [.chdir jobs, .samples succ failed, .scheduled l ids]

/-- The storage part of `schedule_samples` with a `OneProcessPool` for one level whose simulation needs a workspace, /repo/mlmc/sampler.py:122-150,
/repo/mlmc/sampling_pool.py:150-204, 227-252: the samples are computed in their directories, which are removed, then the identifiers are stored. -/
def scheduleWorkspace (out : Path) (l : Nat) (ids : List SampleId) : List (Ev V) :=
  (ids.flatMap fun id => [Ev.chdir (out ++ [id]), .cwdRemoved]) ++ [.scheduled l ids]

end MLMC.Place
