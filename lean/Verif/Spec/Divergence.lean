import Mathlib.MeasureTheory.Integral.IntervalIntegral.Basic
import Mathlib.Analysis.SpecialFunctions.Log.Basic
/-! # Numerical integration and distances of densities (C96) -/
namespace MLMC.Dist
open MeasureTheory

/-- Sum of weighted values; no number if one of the values is none. -/
noncomputable def weightedSum (f : ℝ → Option ℝ) : List (ℝ × ℝ) → Option ℝ
  | [] => some 0
  | (x, w) :: l => (f x).bind fun v => (weightedSum f l).map (w * v + ·)

/-- What is known of `scipy.integrate.quad` on an interval: the value is a weighted sum of values of the function at points of the interval (chosen
depending on the function) with positive weights; the middle of the interval is one of them (rules of Gauss and Kronrod with an odd number of points). -/
structure QuadRule (quad : (ℝ → Option ℝ) → ℝ → ℝ → Option ℝ) : Prop where
  rule : ∀ f a b, a < b → ∃ nodes : List (ℝ × ℝ), (∀ n ∈ nodes, a ≤ n.1 ∧ n.1 ≤ b ∧ 0 < n.2) ∧ quad f a b = weightedSum f nodes
  middle : ∀ f a b, a < b → f ((a + b) / 2) = none → quad f a b = none

/-- Integration without an error: the integral of every function with values (no NaN) that is continuous on the interval. -/
def Exact (quad : (ℝ → Option ℝ) → ℝ → ℝ → Option ℝ) : Prop :=
  ∀ (f : ℝ → Option ℝ) (g : ℝ → ℝ) (a b : ℝ), a < b → ContinuousOn g (Set.Icc a b) → (∀ x ∈ Set.Icc a b, f x = some (g x)) →
    quad f a b = some (∫ x in a..b, g x)

/-- A continuous positive density on the interval. -/
structure PosDensity (p : ℝ → ℝ) (a b : ℝ) : Prop where
  cont : ContinuousOn p (Set.Icc a b)
  pos : ∀ x ∈ Set.Icc a b, 0 < p x
  mass : ∫ x in a..b, p x = 1

end MLMC.Dist
