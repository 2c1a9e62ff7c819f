import Verif.Spec.Statistics
/-
Notions of the statements about exponentially unlikely errors.
-/
namespace MLMC
open MeasureTheory ProbabilityTheory

/-- The differences `D l k` of the `N l` samples of each of the levels `l < L` are random numbers, all drawn independently; on level `l` they have the mean `mu l` and lie between `a l` and `b l`
with probability one. -/
structure BoundedDraws {Ω : Type} [MeasurableSpace Ω] (P : Measure Ω) (L : Nat) (N : Nat → Nat) (D : Nat → Nat → Ω → ℝ) (mu a b : Nat → ℝ) : Prop where
  random : ∀ l < L, ∀ k < N l, AEMeasurable (D l k) P
  range : ∀ l < L, ∀ k < N l, ∀ᵐ ω ∂P, a l ≤ D l k ω ∧ D l k ω ≤ b l
  mean : ∀ l < L, ∀ k < N l, ∫ ω, D l k ω ∂P = mu l
  indep : iIndepFun (fun p : Σ l : Fin L, Fin (N l) => D p.1 p.2) P

end MLMC
