import Mathlib.Probability.Moments.Variance
import Verif.Spec.Estimate
/-
Notions used in the statements about estimates from random samples.
-/
namespace MLMC
open MeasureTheory ProbabilityTheory

/-- The differences `D l k` of the `N l` samples of each of the levels `l < L` are random numbers with finite variance, drawn independently;
on level `l` they have the mean `mu l` and the variance `var l`. -/
structure RandomDraws {Ω : Type} [MeasurableSpace Ω] (P : Measure Ω) (L : Nat) (N : Nat → Nat) (D : Nat → Nat → Ω → ℝ) (mu var : Nat → ℝ) :
    Prop where
  finite : ∀ l < L, ∀ k < N l, MemLp (D l k) 2 P
  mean : ∀ l < L, ∀ k < N l, ∫ ω, D l k ω ∂P = mu l
  variance : ∀ l < L, ∀ k < N l, Var[D l k; P] = var l
  indep : ∀ l < L, ∀ k < N l, ∀ l' < L, ∀ k' < N l', (l, k) ≠ (l', k') → IndepFun (D l k) (D l' k') P

/-- Whatever the outcome `ω`, the estimation reads chunks of samples of `L` levels on which component `i` of the quantity has, on level
`l`, exactly the differences `D l 0 ω, …, D l (N l - 1) ω`, and returns `e ω`. -/
structure EstimatesFrom {Ω : Type} (q : Quantity (Option ℝ)) (sid W L i : Nat) (N : Nat → Nat) (D : Nat → Nat → Ω → ℝ)
    (chunks : Ω → List (Nat × List (Sample (Option ℝ)))) (e : Ω → QuantityMean ℝ) : Prop where
  wf : ∀ ω, ChunksWF W (chunks ω)
  level : ∀ ω, ∀ c ∈ chunks ω, c.1 < L
  diffs : ∀ ω, ∀ l < L, usedDiffs q sid W l i (levelData (chunks ω) l) = (List.range (N l)).map fun k => D l k ω
  result : ∀ ω, estimateMean q L (asChunks sid W (chunks ω)) = .ok (e ω)

end MLMC
