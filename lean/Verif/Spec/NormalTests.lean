import Mathlib.Probability.Distributions.Gamma
import Mathlib.Probability.Distributions.Gaussian.Real
import Mathlib.Probability.Independence.Basic
import Mathlib.MeasureTheory.Measure.Prod
import Mathlib.Probability.CDF
/-! Distributions of the statistics of normal samples, for the statements of C109 and C129. -/
namespace MLMC.Stat
open MeasureTheory ProbabilityTheory

/-- The χ² distribution with `k` degrees of freedom: density `y^(k/2-1) e^(-y/2) / (2^(k/2) Γ(k/2))` for `y ≥ 0`. -/
noncomputable def chiSq (k : ℕ) : Measure ℝ := gammaMeasure (k / 2) (1 / 2)

/-- Student's distribution: of `z / √(y/k)` for a standard normal `z` and an independent `y` with the χ² distribution. -/
noncomputable def student (k : ℕ) : Measure ℝ := ((gaussianReal 0 1).prod (chiSq k)).map fun p => p.1 / √(p.2 / k)

/-- Fisher's distribution: of `(x/a) / (y/b)` for independent numbers with χ² distributions. -/
noncomputable def fisher (a b : ℕ) : Measure ℝ := ((chiSq a).prod (chiSq b)).map fun p => (p.1 / a) / (p.2 / b)

variable {Ω ι : Type} [MeasurableSpace Ω]

/-- Independent normal numbers with mean `mu` and variance `v`. -/
structure Normal (P : Measure Ω) (mu : ℝ) (v : NNReal) (Y : ι → Ω → ℝ) : Prop where
  meas : ∀ i, Measurable (Y i)
  indep : iIndepFun Y P
  law : ∀ i, P.map (Y i) = gaussianReal mu v

/-- The logarithm of the estimated variance of the samples relative to the variance `v` of their distribution. -/
noncomputable def logVar {Ω : Type} {n : Nat} (v : NNReal) (Y : Fin n → Ω → ℝ) (w : Ω) : ℝ := Real.log ((∑ i, (Y i w - (∑ j, Y j w) / n) ^ 2) / (n - 1) / v)

end MLMC.Stat
