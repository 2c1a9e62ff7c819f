import Verif.Spec.Program
import Verif.Model.ProgramRestart
/-
Specification of several programs one after another on one file: how many samples each asks for on a level.
-/
namespace MLMC
variable {Cfg K C : Type}

/-- Number of samples of level `l` after the calls of a program that finds `c` there. -/
def levelCount (l : Nat) (ops : List ProgOp) (c : Nat) : Nat := (ops.foldl (Want.step l) ⟨0, c⟩).count

/-- The numbers of samples of level `l` before and after a program: what its calls ask for; if it was killed in one more `schedule_samples`,
then on each level all the samples of that call, or none of them. -/
def Session.Counts (l : Nat) (s : Session C) (c c' : Nat) : Prop :=
  c' = levelCount l s.ops c ∨ (s.killed.isSome ∧ c' = levelCount l (s.ops ++ [.schedule (some 0) []]) c)

def SessionCounts (l : Nat) : List (Session C) → Nat → Nat → Prop
  | [], c, c' => c' = c
  | s :: ss, c, c' => ∃ m, s.Counts l c m ∧ SessionCounts l ss m c'

/-- Number of samples of level `l` after programs none of which is killed. -/
def wantedOverall (l : Nat) (ss : List (Session C)) : Nat := ss.foldl (fun c s => levelCount l s.ops c) 0

/-- Programs with proper calls. -/
def Session.Proper (n : Nat) (s : Session C) : Prop := ∀ o ∈ s.ops, o.Proper n

/-- The last call waits for all samples and the program is not killed. -/
def Session.Waits (s : Session C) : Prop := s.killed = none ∧ ∃ ops t, s.ops = ops ++ [.ask none [t]]

end MLMC
