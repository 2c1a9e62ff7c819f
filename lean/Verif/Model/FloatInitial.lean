import Verif.Model.Allocation
/-
Initial numbers of samples in floating-point arithmetic: /repo/mlmc/sampler.py:82-112 and /repo/mlmc/estimator.py:429-450, with the rounding of every operation, for positive numbers.
-/
namespace MLMC.Alloc

/-- The functions of the machine: rounding of an exact result, `np.log2` and `np.exp2`.  /repo/mlmc/sampler.py:90. -/
structure Machine where
  rnd : ℝ → ℝ
  log2 : ℝ → ℝ
  exp2 : ℝ → ℝ

/-- `np.linspace(a, b, n)[i]` as NumPy computes it: difference, step, multiple of the step, start added; the last point of more than one is `b`.  /repo/mlmc/sampler.py:90, /repo/mlmc/estimator.py:448. -/
noncomputable def flLinspace (M : Machine) (a b : ℝ) (n i : Nat) : ℝ :=
  if n = 1 then M.rnd (0 + a) else
  if i + 1 = n then b else M.rnd (M.rnd (i * M.rnd (M.rnd (b - a) / (n - 1))) + a)

/-- `Sampler.sample_range(n0, nL)` for `L` levels, /repo/mlmc/sampler.py:82-90; /repo/mlmc/estimator.py:447-448 is the same. -/
noncomputable def flSampleRange (M : Machine) (L : Nat) (n0 nL : Nat) : List ℤ :=
  (List.range L).map fun i => npRound (M.exp2 (flLinspace M (M.log2 n0) (M.log2 nL) L i))

/-- `Sampler.set_initial_n_samples` (/repo/mlmc/sampler.py:92-112) with `last = 10` and `determine_n_samples` (/repo/mlmc/estimator.py:429-450) with `last = 3`: the vector of numbers of samples. -/
noncomputable def flNumbers (M : Machine) (last L : Nat) (nSamples : Option (List Nat)) : List ℤ :=
  match nSamples with
  | none => flSampleRange M L 100 last
  | some [n] => flSampleRange M L n last
  | some [n0, nL] => flSampleRange M L n0 nL
  | some ns => ns.map fun n => (n : ℤ)

end MLMC.Alloc
