import Mathlib.Analysis.Real.Sqrt
import Mathlib.Analysis.SpecialFunctions.Pow.Real
import Mathlib.Analysis.SpecialFunctions.Log.Base
import Mathlib.Data.Fintype.BigOperators
import Verif.Model.Storage
/-
Planning of samples and levels: /repo/mlmc/estimator.py:366-450.  Floating point numbers are real numbers, integers are unlimited.
-/
namespace MLMC.Alloc

/-- `np.round`: to the nearest integer, halves to the even one.  Used in /repo/mlmc/estimator.py:380, 448. -/
noncomputable def npRound (x : ℝ) : ℤ :=
  if Int.fract x < 1 / 2 then ⌊x⌋ else if 1 / 2 < Int.fract x then ⌊x⌋ + 1 else if Even ⌊x⌋ then ⌊x⌋ else ⌊x⌋ + 1

variable {L M : Nat}

/-- `total`: sum over levels of `sqrt(var * n_ops)`, /repo/mlmc/estimator.py:378-379.  For variances that are not negative: `np.sqrt` of a negative number is NaN, which is modelled in
Verif/Model/FloatAllocation.lean. -/
noncomputable def total (vars : Fin L → Fin M → ℝ) (nOps : Fin L → ℝ) (m : Fin M) : ℝ := ∑ k, Real.sqrt (vars k m * nOps k)

/-- `n_samples_estimate`, /repo/mlmc/estimator.py:378-380. -/
noncomputable def estimate (target : ℝ) (vars : Fin L → Fin M → ℝ) (nOps : Fin L → ℝ) (l : Fin L) (m : Fin M) : ℤ :=
  npRound (Real.sqrt (vars l m * nOps l) / nOps l * total vars nOps m / target)

/-- `n_samples_estimate_safe`, /repo/mlmc/estimator.py:382-383. -/
noncomputable def estimateSafe (target : ℝ) (vars : Fin L → Fin M → ℝ) (nOps : Fin L → ℝ) (nLevels : Nat) (l : Fin L) (m : Fin M) : ℝ :=
  max (min (estimate target vars nOps l m : ℝ) (vars l m * nLevels / target)) 2

/-- `estimate_n_samples_for_target_variance`, /repo/mlmc/estimator.py:366-385, for at least one moment (`np.max` of nothing raises).
`vars` has the shape levels × moments; the conversion to integers cuts the fraction. -/
noncomputable def nSamples (target : ℝ) (vars : Fin L → Fin (M + 1) → ℝ) (nOps : Fin L → ℝ) (nLevels : Nat) (l : Fin L) : Nat :=
  ⌊Finset.univ.sup' Finset.univ_nonempty fun m => estimateSafe target vars nOps nLevels l m⌋₊

/-- `determine_level_parameters` (/repo/mlmc/estimator.py:409-426) and `calc_level_params` (388-398), which have the same body.  Each
entry is a list with one step. -/
noncomputable def levelParameters (nLevels : Nat) (coarsest finest : ℝ) : Except PyErr (List (List ℝ)) :=
  if coarsest > finest then
    .ok ((List.range nLevels).map fun i : Nat =>
      let p : ℝ := if nLevels = 1 then 1 else (i : ℝ) / ((nLevels : ℝ) - 1)
      [coarsest ^ (1 - p) * finest ^ p])
  else .error .assertionError

/-- Numbers of samples decreasing geometrically from `n0` to `nL`, /repo/mlmc/estimator.py:445-448, for positive `n0`, `nL` (`np.log2(0)` is
not modelled).  `np.linspace(a, b, n)[i] = a + i * (b - a) / (n - 1)`; for `n = 1` it is `a`. -/
noncomputable def geometric (nLevels n0 nL : Nat) : List Int :=
  (List.range nLevels).map fun i : Nat =>
    npRound ((2 : ℝ) ^ (Real.logb 2 n0 + (if nLevels = 1 then 0 else (i : ℝ) / ((nLevels : ℝ) - 1)) * (Real.logb 2 nL - Real.logb 2 n0)))

/-- `determine_n_samples`, /repo/mlmc/estimator.py:429-450; a single number is the list with one entry (`np.atleast_1d`). -/
noncomputable def determineNSamples (nLevels : Nat) (nSamples : Option (List Nat)) : List Int :=
  match nSamples with
  | none => geometric nLevels 100 3
  | some [n] => geometric nLevels n 3
  | some [n0, nL] => geometric nLevels n0 nL
  | some ns => ns.map fun n => (n : Int)

/-- `determine_sample_vec`, /repo/mlmc/estimator.py:401-406. -/
def determineSampleVec (collected : List Nat) (nLevels : Nat) (sampleVec : Option (List Nat)) : List Nat :=
  (sampleVec.getD collected).take nLevels

end MLMC.Alloc
