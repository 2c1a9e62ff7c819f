import Verif.Model.KarhunenLoeve
/-
Fields made with `log=True`: /repo/mlmc/random/correlated_field.py:270-287, 347-363.
-/
namespace MLMC.RF

/-- The numerics of a field made with `log=True`, /repo/mlmc/random/correlated_field.py:287, 361-363: all as without it, and the exponential of the field is returned. -/
noncomputable def klLog {d : Nat} (K : Fin d → Fin d → ℝ) (alpha : ℝ) (svd : List (List ℝ) → Svd) (est : Nat → ℝ) (precision : ℝ) (lo : Nat) (hi : Option Nat) :
    Numerics ℝ (Fin d → ℝ) :=
  { klNumerics K alpha svd est precision lo hi with log := true }

end MLMC.RF
