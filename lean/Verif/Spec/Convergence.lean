import Mathlib.Probability.Moments.Variance
import Mathlib.Probability.IdentDistrib
import Verif.Spec.Estimate
/-
Notions used in the statements about estimates from more and more random samples.
-/
namespace MLMC
open MeasureTheory ProbabilityTheory

/-- On each of the levels `l < L` the differences `D l 0, D l 1, …` of the samples are independent random numbers with the same distribution, with the mean
`mu l` and the finite variance `var l`; different levels are independent too. -/
structure LevelDraws {Ω : Type} [MeasurableSpace Ω] (P : Measure Ω) (L : Nat) (D : Nat → Nat → Ω → ℝ) (mu var : Nat → ℝ) : Prop where
  indep : iIndepFun (fun p : Fin L × ℕ => D p.1 p.2) P
  ident : ∀ l < L, ∀ k, IdentDistrib (D l k) (D l 0) P P
  finite : ∀ l < L, MemLp (D l 0) 2 P
  mean : ∀ l < L, ∫ ω, D l 0 ω ∂P = mu l
  variance : ∀ l < L, Var[D l 0; P] = var l

/-- The estimation reads chunks of samples of `L` levels on which component `i` of the quantity has, on level `l`, exactly the differences `d l 0, …, d l (n l - 1)`, and returns `e`. -/
structure EstimateOf (q : Quantity (Option ℝ)) (sid W L i : Nat) (n : Nat → Nat) (d : Nat → Nat → ℝ) (e : QuantityMean ℝ) : Prop where
  reads : ∃ chunks : List (Nat × List (Sample (Option ℝ))), ChunksWF W chunks ∧ (∀ c ∈ chunks, c.1 < L) ∧
    (∀ l < L, usedDiffs q sid W l i (levelData chunks l) = (List.range (n l)).map fun k => d l k) ∧
    estimateMean q L (asChunks sid W chunks) = .ok e

end MLMC
