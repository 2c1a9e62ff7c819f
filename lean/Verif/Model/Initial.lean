import Mathlib.Analysis.SpecialFunctions.Log.Base
import Mathlib.Algebra.Order.Floor.Ring
/-
Initial numbers of samples, /repo/mlmc/sampler.py:82-112.
-/
namespace MLMC

/-- `np.round` to integers: nearest integer, ties to even. /repo/mlmc/sampler.py:90. -/
noncomputable def npRound (x : ℝ) : ℤ :=
  if x - ⌊x⌋ < 1/2 then ⌊x⌋ else if 1/2 < x - ⌊x⌋ then ⌊x⌋ + 1 else if Even ⌊x⌋ then ⌊x⌋ else ⌊x⌋ + 1

/-- `np.linspace(a, b, n)[i]`; with `n = 1` the only point is `a`. /repo/mlmc/sampler.py:90. -/
noncomputable def linspace (a b : ℝ) (n i : Nat) : ℝ :=
  if n = 1 then a else a + i * ((b - a) / (n - 1))

/-- `Sampler.sample_range(n0, nL)` for `L` levels, /repo/mlmc/sampler.py:82-90.  Only for positive `n0`, `nL`
(NumPy gives `-inf`/`nan` logarithms otherwise). -/
noncomputable def sampleRange (L : Nat) (n0 nL : ℝ) : List ℤ :=
  (List.range L).map fun i => npRound ((2 : ℝ) ^ linspace (Real.logb 2 n0) (Real.logb 2 nL) L i)

/-- `Sampler.set_initial_n_samples`, /repo/mlmc/sampler.py:92-112: the vector stored as target.  A scalar argument is a
one-element list (`np.atleast_1d`). -/
noncomputable def initialTarget (L : Nat) (nSamples : Option (List ℤ)) : List ℤ :=
  let n := nSamples.getD [100, 10]
  let n := match n with | [a] => [a, 10] | n => n
  match n with
  | [n0, nL] => sampleRange L n0 nL
  | n => n

end MLMC
