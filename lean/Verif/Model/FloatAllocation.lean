import Verif.Model.Allocation
import Verif.Model.FloatEstimate
/-
`estimate_n_samples_for_target_variance` in floating-point arithmetic: /repo/mlmc/estimator.py:366-385, with the rounding of every operation, NaN and the conversions to 64-bit integers.

NaN is `none`.  Costs and the target are positive numbers; there is no overflow or underflow of floats.  Integers made from floats are converted back to floats exactly.
-/
namespace MLMC.Alloc
variable {L M : Nat}

/-- `astype(int)` of a float without fraction: NaN and numbers beyond 64-bit integers become the smallest 64-bit integer (x86-64; other processors differ).
/repo/mlmc/estimator.py:380, 385. -/
def toInt64 : Option ℤ → ℤ
  | some z => if -2 ^ 63 ≤ z ∧ z < 2 ^ 63 then z else -2 ^ 63
  | none => -2 ^ 63

/-- `sqrt_var_n`, /repo/mlmc/estimator.py:378: `np.sqrt` of a negative number is NaN. -/
noncomputable def flWork (A : Fl.Arith ℝ) (vars : Fin L → Fin M → Option ℝ) (nOps : Fin L → ℝ) (m : Fin M) (k : Fin L) : Option ℝ :=
  (vars k m).bind fun v => if A.rnd (v * nOps k) < 0 then none else some (A.rnd (Real.sqrt (A.rnd (v * nOps k))))

/-- `total`, /repo/mlmc/estimator.py:379: NaN if one of the summands is. -/
noncomputable def flTotal (A : Fl.Arith ℝ) (vars : Fin L → Fin M → Option ℝ) (nOps : Fin L → ℝ) (m : Fin M) : Option ℝ :=
  if ∀ k, (flWork A vars nOps m k).isSome then some (A.sum (List.ofFn fun k => (flWork A vars nOps m k).getD 0)) else none

/-- The argument of `np.round`, /repo/mlmc/estimator.py:380. -/
noncomputable def flOptimum (A : Fl.Arith ℝ) (target : ℝ) (vars : Fin L → Fin M → Option ℝ) (nOps : Fin L → ℝ) (l : Fin L) (m : Fin M) : Option ℝ :=
  (flWork A vars nOps m l).bind fun s => (flTotal A vars nOps m).map fun t => A.rnd (A.rnd (A.rnd (s / nOps l) * t) / target)

/-- `n_samples_estimate`, /repo/mlmc/estimator.py:380. -/
noncomputable def flEstimate (A : Fl.Arith ℝ) (target : ℝ) (vars : Fin L → Fin M → Option ℝ) (nOps : Fin L → ℝ) (l : Fin L) (m : Fin M) : ℤ :=
  toInt64 ((flOptimum A target vars nOps l m).map npRound)

/-- `n_samples_estimate_safe`, /repo/mlmc/estimator.py:382-383: `np.minimum` and `np.maximum` keep NaN. -/
noncomputable def flSafe (A : Fl.Arith ℝ) (target : ℝ) (vars : Fin L → Fin M → Option ℝ) (nOps : Fin L → ℝ) (nLevels : Nat) (l : Fin L) (m : Fin M) : Option ℝ :=
  (vars l m).map fun v => max (min (flEstimate A target vars nOps l m : ℝ) (A.rnd (A.rnd (v * nLevels) / target))) 2

/-- `estimate_n_samples_for_target_variance`, /repo/mlmc/estimator.py:366-385, for at least one moment: `np.max` keeps NaN, `astype(int)` cuts the fraction (numbers here are at least 2). -/
noncomputable def flSamples (A : Fl.Arith ℝ) (target : ℝ) (vars : Fin L → Fin (M + 1) → Option ℝ) (nOps : Fin L → ℝ) (nLevels : Nat) (l : Fin L) : ℤ :=
  toInt64 (if ∀ m, (flSafe A target vars nOps nLevels l m).isSome then
    some ⌊Finset.univ.sup' Finset.univ_nonempty fun m => (flSafe A target vars nOps nLevels l m).getD 0⌋ else none)

end MLMC.Alloc
