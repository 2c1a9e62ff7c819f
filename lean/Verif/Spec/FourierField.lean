import Mathlib.Probability.Moments.Variance
import Mathlib.Probability.Moments.Covariance
import Mathlib.Probability.Independence.Basic
import Verif.Model.FourierField
/-
Notions used in the statements about Fourier fields.
-/
namespace MLMC.RF.Fourier
open MeasureTheory ProbabilityTheory

/-- Uniform distribution of `random_sample`. -/
noncomputable def unit : Measure ℝ := volume.restrict (Set.Ico 0 1)

/-- The random numbers of one call: normal numbers uncorrelated with mean 0 and variance 1, independent of the numbers for the modes; the latter can be measured.  Nothing is
assumed about different modes. -/
structure IsDraw {Ω : Type} [MeasurableSpace Ω] (P : Measure Ω) (modeNo : Nat) (r : Ω → Draws) : Prop where
  finite : ∀ i < 2, ∀ m < modeNo, MemLp (fun ω => (r ω).z i m) 2 P
  mean : ∀ i < 2, ∀ m < modeNo, ∫ ω, (r ω).z i m ∂P = 0
  variance : ∀ i < 2, ∀ m < modeNo, Var[fun ω => (r ω).z i m; P] = 1
  uncorrelated : ∀ i < 2, ∀ m < modeNo, ∀ i' < 2, ∀ m' < modeNo, (i, m) ≠ (i', m') → cov[fun ω => (r ω).z i m, fun ω => (r ω).z i' m'; P] = 0
  independent : IndepFun (fun ω => (r ω).z) (fun ω => ((r ω).ang, (r ω).num)) P
  measurable : Measurable fun ω => ((r ω).ang, (r ω).num)

/-- The field returned for the points has mean `mu` and covariance `C`. -/
structure HasLaw {Ω : Type} [MeasurableSpace Ω] (P : Measure Ω) (n : Nat) (mu : Nat → ℝ) (C : Nat → Nat → ℝ) (field : Nat → Ω → ℝ) : Prop where
  finite : ∀ i < n, MemLp (field i) 2 P
  mean : ∀ i < n, ∫ ω, field i ω ∂P = mu i
  covariance : ∀ i < n, ∀ j < n, cov[field i, field j; P] = C i j

end MLMC.RF.Fourier
