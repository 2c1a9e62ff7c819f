import Verif.Model.FlowSim
/-
Where the random numbers of a `FlowSim` sample come from: /repo/mlmc/tool/flow_mc.py:16-52, 232-258 with /repo/mlmc/random/correlated_field.py:82-94, 454-498, 503-510, 571-581, 673-674.
-/
namespace MLMC.Flow
open Gm
variable {K : Type} [Field K] [LinearOrder K] {G E : Type}

/-- The random field that `create_corr_field` makes for a value of `model`, /repo/mlmc/tool/flow_mc.py:21-51: all names other than `'fourier'` and `'svd'` give a field of GSTools. -/
inductive FieldKind
  | fourier
  | svd
  | gstools
  deriving DecidableEq

/-- The choice by the name, /repo/mlmc/tool/flow_mc.py:21-48. -/
def fieldKind (model : String) : FieldKind := if model = "fourier" then .fourier else if model = "svd" then .svd else .gstools

/-- Numerical routines.  `G` are the states of the global generator `np.random`, `E` what the operating system gives to a generator created without a seed.
`start`: `np.random.seed`, /repo/mlmc/tool/flow_mc.py:254.
`exact`: the factor of the correlation matrix by `np.linalg.svd`, /repo/mlmc/random/correlated_field.py:455-456, 485-486.
`approx`: the factor by `randomized_svd(…, random_state=None)`, which draws from the global generator, 473-486 (failures of the decomposition are not modelled here).
`normals`: `np.random.normal(0, 1, n)`, 497.
`fourier`: a field whose generators are `RandomState(RandomState(None).randint(…))`, 571-581, 673-674.
`gstools`: a field of `gstools.SRF(model, mode_no)`, which has no seed, 510, 524-545.
`scale`: mean, standard deviation and logarithm, 347-363, 551-553. -/
structure Routines (G E K : Type) where
  start : Nat → G
  exact : List (List K) → List (List K)
  approx : G → List (List K) → List (List K)
  normals : G → Nat → List K
  fourier : E → List (List K) → List K
  gstools : E → List (List K) → List K
  scale : List K → List K

/-- What surrounds the call of `calculate`: the state in which earlier computations of the process have left the global generator, and what the operating system will give to new
generators. /repo/mlmc/tool/flow_mc.py:232-258. -/
structure World (G E : Type) where
  rng : G
  entropy : E

/-- The factor computed by `Field.set_points`, /repo/mlmc/random/correlated_field.py:90-92, 454-456: `n_terms_range=(10, 100)`.  It is called by `make_fields`, before the
generator is set, /repo/mlmc/tool/flow_mc.py:251, 254. -/
def factorOf (R : Routines G E K) (w : World G E) (pts : List (List K)) : List (List K) :=
  if pts.length ≤ 10 then R.exact pts else R.approx w.rng pts

/-- `_cov_l_factor.dot(uncorelated)`, /repo/mlmc/random/correlated_field.py:497-498; `n_approx_terms` is the number of columns. -/
def applyFactor (F : List (List K)) (normals : Nat → List K) : List K :=
  F.map fun row => (List.zipWith (· * ·) row (normals (F.headD []).length)).sum

/-- The values of the random field in the points of both meshes, /repo/mlmc/tool/flow_mc.py:233, 251-258. -/
def fieldValues (kind : FieldKind) (R : Routines G E K) (w : World G E) (seed : Nat) (pts : List (List K)) : List K :=
  match kind with
  | .svd => R.scale (applyFactor (factorOf R w pts) (R.normals (R.start seed)))
  | .fourier => R.scale (R.fourier w.entropy pts)
  | .gstools => R.scale (R.gstools w.entropy pts)

/-- `FlowSim.calculate(config, seed)` in a world, /repo/mlmc/tool/flow_mc.py:224-277; `model` is the entry of `config['fields_params']`. -/
def calculateSeed (R : Routines G E K) (model : String) (solveFine solveCoarse : Solver K) (used : Option (List String)) (coarseStep : K) (fineMesh coarseMesh : Mesh K)
    (d : Dir K) (w : World G E) (seed : Nat) : Except PyErr (List K × List K) :=
  calculate solveFine solveCoarse (fun _ _ pts => fieldValues (fieldKind model) R w seed pts) used coarseStep fineMesh coarseMesh d

end MLMC.Flow
