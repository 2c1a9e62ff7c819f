import Mathlib.Analysis.SpecialFunctions.Trigonometric.Basic
import Mathlib.Analysis.SpecialFunctions.Log.Basic
import Verif.Model.RandomField
/-
The field given by random Fourier modes: `FourierSpatialCorrelatedField`, /repo/mlmc/random/correlated_field.py:556-754.  Floating point numbers are real
numbers.  Random numbers are arguments: standard normal numbers `normal(size=n)`, and numbers from `[0, 1)` as returned by `random_sample`;
`uniform(a, b)` is `a + (b - a) * random_sample()`, `normal(0, s)` is `s` times a standard normal number.
-/
namespace MLMC.RF.Fourier

/-- `len_scale`, /repo/mlmc/random/correlated_field.py:568. -/
noncomputable def lenScale (corrLength : ℝ) : ℝ := corrLength * 2 * Real.pi

/-- One column of `_sample_sphere`, /repo/mlmc/random/correlated_field.py:583-607; `ang` is from `random_sample`.  Only called in the plane, so that the other
dimensions are left out. -/
noncomputable def sphere (ang : ℝ) : Fin 2 → ℝ := ![Real.cos (0 + (2 * Real.pi - 0) * ang), Real.sin (0 + (2 * Real.pi - 0) * ang)]

/-- One mode of `gau`, /repo/mlmc/random/correlated_field.py:609-630.  On a line `num` is standard normal, in the plane it is from `random_sample`.
`NotImplementedError` and an unset `k` are `other`. -/
noncomputable def gau (corrLength : ℝ) : (dim : Nat) → (ang num : ℝ) → Except PyErr (Fin dim → ℝ)
  | 1, _, num => .ok fun _ => Real.pi / 2 / (lenScale corrLength * Real.sqrt (Real.pi / 4)) ^ 2 * num
  | 2, ang, num => .ok fun a => Real.sqrt Real.pi / (lenScale corrLength * Real.sqrt (Real.pi / 4)) * Real.sqrt (-Real.log num) * sphere ang a
  | _, _, _ => .error .other

/-- One mode of `exp`, /repo/mlmc/random/correlated_field.py:632-653.  On a line `rng.rng` raises `AttributeError`. -/
noncomputable def exp (corrLength : ℝ) : (dim : Nat) → (ang num : ℝ) → Except PyErr (Fin dim → ℝ)
  | 1, _, _ => .error .attributeError
  | 2, ang, num => .ok fun a => Real.sqrt (1 / num ^ 2 - 1) / lenScale corrLength * sphere ang a
  | _, _, _ => .error .other

/-- The mode used by `random_field`, /repo/mlmc/random/correlated_field.py:698-701: every exponent but 2 gives the spectrum of `exp`. -/
noncomputable def mode (corrExponent corrLength : ℝ) (dim : Nat) (ang num : ℝ) : Except PyErr (Fin dim → ℝ) :=
  if corrExponent = 2 then gau corrLength dim ang num else exp corrLength dim ang num

/-- The random numbers of one call of `sample`: two rows of normal numbers, and for each mode two numbers.  /repo/mlmc/random/correlated_field.py:571-581, 596-601, 618-623, 640-646, 673-674.
Simplification: the streams, seeded with one of 65535 numbers each, are arbitrary. -/
structure Draws where
  z : Nat → Nat → ℝ
  ang : Nat → ℝ
  num : Nat → ℝ

/-- What mode number `m` with frequency `k` adds at the point `x`, /repo/mlmc/random/correlated_field.py:724-736. -/
noncomputable def contribution {dim : Nat} (z : Nat → Nat → ℝ) (k : Nat → Fin dim → ℝ) (x : Fin dim → ℝ) (m : Nat) : ℝ :=
  z 0 m * Real.cos (2 * Real.pi * ∑ a, k m a * x a) + z 1 m * Real.sin (2 * Real.pi * ∑ a, k m a * x a)

/-- `random_field` at one point, /repo/mlmc/random/correlated_field.py:702-745, with enough memory.
Simplification: for a single point the code returns a scalar, here a list of one number. -/
noncomputable def randomField {dim : Nat} (modeNo : Nat) (z : Nat → Nat → ℝ) (k : Nat → Fin dim → ℝ) (x : Fin dim → ℝ) : ℝ :=
  Real.sqrt (1 / modeNo) * (sumModes ((List.range modeNo).map (contribution z k x)) (fun _ _ => false) 1 0 1 0).getD 0

/-- `sample` of a field without logarithm, /repo/mlmc/random/correlated_field.py:347-363, 676-754. -/
noncomputable def sample (corrExponent corrLength : ℝ) {dim : Nat} (modeNo : Nat) (mu sigma : Arr ℝ) (points : List (Fin dim → ℝ)) (r : Draws) :
    Except PyErr (List ℝ) := do
  let ks ← (List.range modeNo).mapM fun m => mode corrExponent corrLength dim (r.ang m) (r.num m)
  Spatial.scale sigma mu (points.map (randomField modeNo r.z fun m => ks.getD m 0))

end MLMC.RF.Fourier
