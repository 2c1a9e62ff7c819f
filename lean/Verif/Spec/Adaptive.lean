import Verif.Model.Adaptive
import Mathlib.Algebra.Order.BigOperators.Group.Finset
/-! Specification notions for the loop that adds samples. -/
namespace MLMC

/-- Clocks that read at least once in every question. -/
def AddClocks.Proper (cl : AddClocks) : Prop := cl.first ≠ [] ∧ cl.sched ≠ [] ∧ ∃ c rest, cl.waits = c :: rest ∧ c ≠ []

/-- How far the numbers of samples are below `B`. -/
def gap (L : Nat) (B w : Nat → Nat) : Nat := ∑ l ∈ Finset.range L, (B l - w l)

end MLMC
