import Mathlib.Analysis.SpecialFunctions.Pow.Real
import Mathlib.Algebra.BigOperators.Fin
import Mathlib.Probability.Moments.Variance
/-
Notions used in the statements about covariances of random fields.
-/
namespace MLMC

/-- A matrix that can be a covariance matrix: symmetric, and no linear combination has a negative variance. -/
structure IsCovariance {ι : Type} [Fintype ι] (A : ι → ι → ℝ) : Prop where
  symm : ∀ i j, A i j = A j i
  nonneg : ∀ c : ι → ℝ, 0 ≤ ∑ i, ∑ j, c i * c j * A i j

/-- `C = U diag(ev) Vᵀ` is a singular value decomposition of an `n × n` matrix: columns of `U` and of `V` orthonormal, singular values not
negative and decreasing. -/
structure IsSvd (n : Nat) (C U V : Nat → Nat → ℝ) (ev : Nat → ℝ) : Prop where
  left : ∀ k < n, ∀ k' < n, ∑ i ∈ Finset.range n, U i k * U i k' = if k = k' then 1 else 0
  right : ∀ k < n, ∀ k' < n, ∑ i ∈ Finset.range n, V i k * V i k' = if k = k' then 1 else 0
  product : ∀ i < n, ∀ j < n, C i j = ∑ k ∈ Finset.range n, U i k * ev k * V j k
  nonneg : ∀ k < n, 0 ≤ ev k
  decreasing : ∀ k k', k ≤ k' → k' < n → ev k' ≤ ev k

open MeasureTheory ProbabilityTheory in
/-- `m` uncorrelated random numbers with mean 0 and variance 1, as `np.random.normal(0, 1, m)` draws them. -/
structure IsNoise {Ω : Type} [MeasurableSpace Ω] (P : Measure Ω) (m : Nat) (Z : Nat → Ω → ℝ) : Prop where
  finite : ∀ k < m, MemLp (Z k) 2 P
  mean : ∀ k < m, ∫ ω, Z k ω ∂P = 0
  variance : ∀ k < m, Var[Z k; P] = 1
  uncorrelated : ∀ k < m, ∀ k' < m, k ≠ k' → cov[Z k, Z k'; P] = 0

end MLMC
