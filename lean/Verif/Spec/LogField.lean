import Mathlib.Probability.Distributions.Gaussian.Real
import Mathlib.Probability.Independence.Basic
/-
What a lognormal field is.
-/
namespace MLMC
open MeasureTheory ProbabilityTheory

/-- Independent standard normal numbers. -/
structure IsNormalNoise {Ω : Type} [MeasurableSpace Ω] (P : Measure Ω) (Z : Nat → Ω → ℝ) : Prop where
  measurable : ∀ k, Measurable (Z k)
  law : ∀ k, P.map (Z k) = gaussianReal 0 1
  indep : iIndepFun Z P

/-- The values in `n` points are those of a lognormal field: they are positive, the mean in a point is `exp (mu + sigma²/2)`, and the covariance of two points
is the product of their means times `exp c - 1`, where `c` is the covariance of the logarithms. -/
structure Lognormal {Ω : Type} [MeasurableSpace Ω] (P : Measure Ω) (n : Nat) (mu sigma : Nat → ℝ) (corr : Nat → Nat → ℝ) (field : Nat → Ω → ℝ) : Prop where
  positive : ∀ i < n, ∀ ω, 0 < field i ω
  finite : ∀ i < n, ∀ j < n, Integrable (fun ω => field i ω * field j ω) P
  mean : ∀ i < n, ∫ ω, field i ω ∂P = Real.exp (mu i + sigma i ^ 2 / 2)
  covariance : ∀ i < n, ∀ j < n, ∫ ω, (field i ω - ∫ ω, field i ω ∂P) * (field j ω - ∫ ω, field j ω ∂P) ∂P =
    Real.exp (mu i + sigma i ^ 2 / 2) * Real.exp (mu j + sigma j ^ 2 / 2) * (Real.exp (sigma i * sigma j * corr i j) - 1)

end MLMC
