import Verif.Model.Program
/-
Several programs one after another on one HDF file: each opens the file the previous one left, creates a new `Sampler` and a new
`OneProcessPool` (/repo/mlmc/sampler.py:16-49, /repo/mlmc/sampling_pool.py:181-230), makes its calls and ends, or is killed in the loop of
`schedule_samples`.  `_check_failed_samples` (/repo/mlmc/sampler.py:152-158) gets nothing from a `OneProcessPool`
(/repo/mlmc/sampling_pool.py:269-270).  A kill while samples are being written is left out (see C20).
-/
namespace MLMC
variable {Cfg K C : Type}

/-- One program: its pool, its calls, and, if it is killed inside a further `schedule_samples` after the polling, the number of
elementary actions of the loop it has done. /repo/mlmc/sampler.py:122-150. -/
structure Session (C : Type) where
  debug : Bool := false
  hasDir : Bool := false
  dirs : Dirs C := {}
  ops : List ProgOp
  killed : Option Nat := none

/-- The new program on the file. The history (`handed`, `renewed`) starts again. /repo/mlmc/sampler.py:16-49. -/
def Prog.reopen (store : HdfLevels (ResPart K × ResPart K)) (s : Session C) : Prog K C :=
  ⟨Sys.construct store [] [], Pool.create s.debug s.hasDir s.dirs⟩

/-- Killed in the loop of `schedule_samples`. /repo/mlmc/sampler.py:135-150. -/
def Prog.kill (env : ProgEnv Cfg K C) (p : Prog K C) (j : Nat) : Prog K C :=
  if p.sys.target.length = p.sys.nSched.length then (p.acts env ((schedActs 0 p.sys.plan).take j)).1 else p

/-- What the program leaves in the file; `none` if a call raises or does not return. /repo/mlmc/sampler.py:16-286. -/
def Session.run (env : ProgEnv Cfg K C) (s : Session C) (store : HdfLevels (ResPart K × ResPart K)) : Option (HdfLevels (ResPart K × ResPart K)) :=
  ((Prog.reopen store s).run env s.ops).map fun p => match s.killed with
    | none => p.sys.store
    | some j => (p.kill env j).sys.store

/-- The file after all programs. /repo/mlmc/sampler.py:16-286. -/
def runSessions (env : ProgEnv Cfg K C) : List (Session C) → HdfLevels (ResPart K × ResPart K) → Option (HdfLevels (ResPart K × ResPart K))
  | [], g => some g
  | s :: ss, g => (s.run env g).bind (runSessions env ss)

end MLMC
