import Mathlib.Analysis.SpecialFunctions.Exp
import Mathlib.Algebra.BigOperators.Group.Finset.Basic
/-! Notions used in the statements about the staged density fit. -/
namespace MLMC.Staged

/-- The density with multipliers `m`: `exp(-Σ φ_i(x) m_i / σ_i)` over the moments that have a multiplier. -/
noncomputable def dens (phi : Nat → ℝ → ℝ) (sigma : Nat → ℝ) (m : List ℝ) (x : ℝ) : ℝ :=
  Real.exp (-∑ i ∈ Finset.range m.length, phi i x * m.getD i 0 / sigma i)

end MLMC.Staged
