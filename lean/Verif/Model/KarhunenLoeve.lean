import Mathlib.Analysis.SpecialFunctions.Gamma.Basic
import Mathlib.Algebra.BigOperators.Fin
import Verif.Model.RandomField
/-
The correlation matrix of a random field and its decomposition: /repo/mlmc/random/correlated_field.py:270-305, 390-488.  Floating point numbers are
real numbers.
-/
namespace MLMC.RF

/-- The tensor for a scalar correlation length, /repo/mlmc/random/correlated_field.py:299-302; the test of the length raises. -/
noncomputable def isotropicTensor (d : Nat) (corrLength : ℝ) : Except PyErr (Fin d → Fin d → ℝ) :=
  if corrLength > 2 ^ (-52 : ℤ) then .ok fun a b => if a = b then 1 / corrLength ^ 2 else 0 else .error .assertionError

/-- One entry of the matrix filled by `cov_matrix`, /repo/mlmc/random/correlated_field.py:404-411: row of the point `p`, column of the point `q`. -/
noncomputable def correlation {d : Nat} (K : Fin d → Fin d → ℝ) (alpha : ℝ) (p q : Fin d → ℝ) : ℝ :=
  Real.exp (-((∑ b, (∑ a, (q a - p a) * K a b) * (q b - p b)) ^ (alpha / 2)))

/-- `_eigen_value_estimate`, /repo/mlmc/random/correlated_field.py:414-428.  `gamma`: the correlation length over the diameter of the points. -/
noncomputable def eigenEstimate (sigmaMax gamma alpha : ℝ) (d m : Nat) : ℝ :=
  sigmaMax ^ 2 * (1 / gamma) ^ ((m : ℝ) ^ (1 / (d : ℝ)) + alpha) / Real.Gamma (0.5 * (m : ℝ) ^ (1 / (d : ℝ)))

/-- What `np.linalg.svd` and `randomized_svd` return: left singular vectors in the columns of `U`, singular values `ev` (the right factor is not
used).  /repo/mlmc/random/correlated_field.py:455, 477.  Simplification: `randomized_svd` with `m` components returns the first `m` columns and values of
the exact decomposition. -/
structure Svd where
  U : Nat → Nat → ℝ
  ev : Nat → ℝ

/-- The `while` loop of `svd_dcmp`, /repo/mlmc/random/correlated_field.py:473-479.  `last`: number of terms of the last decomposition, `none` before the
first one.  `int(np.ceil(1.5 * m))` is `(3 * m + 1) / 2`.  The number of rounds is bounded by `fuel`; `m` grows, so that `maxTerms + 1` rounds are enough. -/
noncomputable def klLoop (ev : Nat → ℝ) (precision : ℝ) (maxTerms : Nat) : Nat → ℝ → Nat → Option Nat → Option Nat
  | 0, _, _, last => last
  | fuel + 1, threshold, m, last =>
    if threshold ≥ precision ∧ m ≤ maxTerms then
      klLoop ev precision maxTerms fuel (ev (m - 1) / ev 0) ((3 * m + 1) / 2) (some m)
    else last

/-- `range[1]`, /repo/mlmc/random/correlated_field.py:460: the upper end of the range of terms; `none` is `np.inf`. -/
def klUpper (n : Nat) : Option Nat → Nat
  | none => n
  | some h => min n h

/-- The number of terms chosen by `svd_dcmp`, /repo/mlmc/random/correlated_field.py:454-482, for `n` points and `n_terms_range = (lo, hi)`; `hi = none` is
`np.inf`.  The misspelled `sp.optmize` raises `AttributeError`; using `ev` before the first decomposition raises `UnboundLocalError`. -/
noncomputable def klTerms (ev est : Nat → ℝ) (precision : ℝ) (n lo : Nat) (hi : Option Nat) : Except PyErr Nat :=
  if lo ≥ n then .ok n else
  let r0 := max 1 lo
  let r1 := klUpper n hi
  let start : Except PyErr Nat :=
    if precision < est r0 then .ok r0 else if precision > est r1 then .ok r1 else .error .attributeError
  match start with
  | .error e => .error e
  | .ok m =>
    match klLoop ev precision r1 (r1 + 1) (2 * precision) (max m r0) none with
    | none => .error .other
    | some m => .ok (min m r1)

/-- The factor for `m` terms, /repo/mlmc/random/correlated_field.py:485-486. -/
noncomputable def klFactor (S : Svd) (n m : Nat) : List (List ℝ) :=
  (List.range n).map fun i => (List.range m).map fun k => S.U i k * Real.sqrt (S.ev k)

/-- `svd_dcmp` after the covariance matrix was set up, /repo/mlmc/random/correlated_field.py:454-488, with the routine `svd`. -/
noncomputable def klDcmp (svd : List (List ℝ) → Svd) (est : Nat → ℝ) (precision : ℝ) (lo : Nat) (hi : Option Nat) (C : List (List ℝ)) :
    Except PyErr (List (List ℝ)) :=
  match klTerms (svd C).ev est precision C.length lo hi with
  | .error e => .error e
  | .ok m => .ok (klFactor (svd C) C.length m)

/-- The numerics of a field without logarithm, /repo/mlmc/random/correlated_field.py:277-316, 347-363, 390-498. -/
noncomputable def klNumerics {d : Nat} (K : Fin d → Fin d → ℝ) (alpha : ℝ) (svd : List (List ℝ) → Svd) (est : Nat → ℝ) (precision : ℝ) (lo : Nat)
    (hi : Option Nat) : Numerics ℝ (Fin d → ℝ) :=
  ⟨correlation K alpha, klDcmp svd est precision lo hi, Real.exp, false⟩

end MLMC.RF
