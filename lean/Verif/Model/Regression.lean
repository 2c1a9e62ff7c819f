import Mathlib.Analysis.SpecialFunctions.Log.Basic
import Mathlib.Data.Fintype.BigOperators
import Mathlib.Algebra.BigOperators.Fin
import Mathlib.Data.Fin.VecNotation
import Verif.Model.Storage
/-
Regression of level variances: /repo/mlmc/estimator.py:55-137.  Floating point numbers are real numbers.
-/
namespace MLMC.Reg
open Classical

/-- `np.allclose(x, 0)` with the default tolerances, /repo/mlmc/estimator.py:92, 107. -/
def AllClose {ι : Type} (x : ι → ℝ) : Prop := ∀ i, |x i| ≤ 1 / 10 ^ 8

/-- A row of `X`: `1, log h, log(h)**2`, /repo/mlmc/estimator.py:119-124. -/
noncomputable def row (h : ℝ) : Fin 3 → ℝ := ![1, Real.log h, Real.log h ^ 2]

/-- A function like the first result of `np.linalg.lstsq`, /repo/mlmc/estimator.py:129. -/
abbrev LstSq := (n : Nat) → (Fin n → Fin 3 → ℝ) → (Fin n → ℝ) → Fin 3 → ℝ

/-- `_moment_variance_regression`, /repo/mlmc/estimator.py:95-134, for `n + 1` levels; `nCreated` is `_n_created_samples`.  The weights `W` are
ones (line 113), yet line 111 computes the variances of variances, which divides by zero (line 160) for a level with one sample, given as a
Python integer.  The logarithm of a variance or step that is not positive is not a finite number; `np.linalg.lstsq` then raises or
returns NaN: an error here. -/
noncomputable def moment {n : Nat} (lstsq : LstSq) (nCreated : Fin (n + 1) → Nat) (steps raw : Fin (n + 1) → ℝ) : Except PyErr (Fin (n + 1) → ℝ) :=
  if n + 1 < 3 ∨ AllClose raw then .ok raw else
  if ∃ l, nCreated l = 1 then .error .other else
  if ∃ l : Fin n, raw l.succ ≤ 0 ∨ steps l.succ ≤ 0 then .error .other else
  let params := lstsq n (fun l => row (steps l.succ)) fun l => Real.log (raw l.succ)
  .ok (Fin.cons (raw 0) fun l => Real.exp (∑ j, row (steps l.succ) j * params j))

/-- `_all_moments_variance_regression`, /repo/mlmc/estimator.py:87-93: all columns but the first one, which has to be zero. -/
noncomputable def all {n M : Nat} (lstsq : LstSq) (nCreated : Fin (n + 1) → Nat) (steps : Fin (n + 1) → ℝ) (raw : Fin (n + 1) → Fin (M + 1) → ℝ) :
    Except PyErr (Fin (n + 1) → Fin (M + 1) → ℝ) :=
  let col (m : Fin (M + 1)) := moment lstsq nCreated steps fun l => raw l m
  if ∃ m, m ≠ 0 ∧ (col m).isOk = false then .error .other else
  if AllClose (fun l => raw l 0) then
    .ok fun l m => if m = 0 then raw l 0 else match col m with
      | .ok v => v l
      | .error _ => 0
  else .error .assertionError

end MLMC.Reg
