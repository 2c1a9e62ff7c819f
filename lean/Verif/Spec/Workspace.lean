import Verif.Model.Workspace
/-
Notions for the statements about directories of samples.
-/
namespace MLMC.Work
variable {C R : Type}

/-- A simulation alone in a directory with the given content: how it ends. -/
def alone : Prog C R → Content C → Outcome R
  | .ret r, _ => .done r
  | .raise, _ => .raised
  | .act f k, d => alone (k d) (f d)

/-- The content a sample directory should have at the start: the copies of the common files, as they are at the beginning. -/
def startContent (fs : FS C) (l : List Common) : Content C := fun n => (l.reverse.find? fun c => c.name = n).bind fun c => c.read fs ⟨[], 0⟩

/-- All common files have absolute paths and exist. -/
def CommonOk (fs : FS C) (l : List Common) : Prop := ∀ c ∈ l, ∃ d n x, c = .abs d n ∧ c.read fs ⟨[], 0⟩ = some x

/-- A file system: directories have different numbers, smaller than the next one. -/
structure FS.Ok (fs : FS C) : Prop where
  fresh : ∀ p k, Dict.get? fs.dirs p = some k → k < fs.next
  inj : ∀ p q k, Dict.get? fs.dirs p = some k → Dict.get? fs.dirs q = some k → p = q

/-- At the beginning: identifiers differ, sample directories do not exist, common files are in other directories with absolute paths and exist, no sample was begun. -/
structure Start (out : Path) (jobs : Nat → Job C R) (w : World C R) : Prop where
  fs : w.fs.Ok
  ids : ∀ i j, (jobs i).id = (jobs j).id → i = j
  new : ∀ i, Dict.get? w.fs.dirs (sampleDir out (jobs i)) = none
  common : ∀ i, CommonOk w.fs (jobs i).common
  waiting : ∀ i, w.phase i = .waiting
end MLMC.Work
