import Verif.Model.Quantity
import Mathlib.Data.Real.Basic
/-! Specification notions for the documented program. -/
namespace MLMC

/-- All values of the moment functions are at most `b`. -/
def MomentFn.Bounded (fn : MomentFn (Option ℝ)) (b : ℝ) : Prop := ∀ i v x, fn.ev i v = some x → |x| ≤ b

/-- The zeroth moment is one (or NaN). -/
def MomentFn.One (fn : MomentFn (Option ℝ)) : Prop := ∀ v x, fn.ev 0 v = some x → x = 1

end MLMC
