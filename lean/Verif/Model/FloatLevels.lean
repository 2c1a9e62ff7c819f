import Verif.Model.Allocation
/-
`determine_level_parameters` in floating-point arithmetic: /repo/mlmc/estimator.py:409-426 (and `calc_level_params`, 388-398, with the same body), with the rounding of every operation, for positive steps.
-/
namespace MLMC.Alloc

/-- The functions of the machine: rounding of an exact result and the power of floats.  /repo/mlmc/estimator.py:424. -/
structure PowMachine where
  rnd : ℝ → ℝ
  pow : ℝ → ℝ → ℝ

/-- `level_param`, /repo/mlmc/estimator.py:420-423. -/
noncomputable def flLevelParam (M : PowMachine) (nLevels i : Nat) : ℝ := if nLevels = 1 then 1 else M.rnd ((i : ℝ) / ((nLevels : ℝ) - 1))

/-- `step_range[0] ** (1 - level_param) * step_range[1] ** level_param`, /repo/mlmc/estimator.py:424. -/
noncomputable def flStep (M : PowMachine) (coarsest finest p : ℝ) : ℝ := M.rnd (M.pow coarsest (M.rnd (1 - p)) * M.pow finest p)

/-- `determine_level_parameters`, /repo/mlmc/estimator.py:409-426; `calc_level_params`, 388-398. -/
noncomputable def flLevelParameters (M : PowMachine) (nLevels : Nat) (coarsest finest : ℝ) : Except PyErr (List (List ℝ)) :=
  if coarsest > finest then .ok ((List.range nLevels).map fun i : Nat => [flStep M coarsest finest (flLevelParam M nLevels i)])
  else .error .assertionError

end MLMC.Alloc
