import Mathlib.Algebra.Order.Floor.Ring
import Mathlib.Algebra.Order.Field.Rat
import Mathlib.Data.Rat.Floor
import Verif.Model.Storage
/-
The simulations of the tutorial: /repo/examples/shooting/simulation_shooting_1D.py and simulation_shooting_2D.py.
Numbers are elements of an ordered field; NaN is `none`.
-/
namespace MLMC.Shoot
variable {K : Type} [Field K] [LinearOrder K] [FloorRing K]

/-- The configuration given by the user. /repo/examples/shooting/shooting_1D.py:71-78. -/
structure Config (K : Type) where
  startX : K
  startY : K
  velX : K
  velY : K
  /-- `area_borders` -/
  left : K
  right : K
  bottom : K
  top : K
  maxTime : K
  complexity : K

/-- The entries that `level_instance` adds. /repo/examples/shooting/simulation_shooting_1D.py:49-58. -/
structure LevelCfg (K : Type) where
  fineStep : K
  coarseStep : K
  nFine : Nat
  nCoarse : Nat

/-- `int(config["complexity"] / step)` for positive numbers. /repo/examples/shooting/simulation_shooting_1D.py:54, 56. -/
def nElements (c : Config K) (step : K) : Nat := ⌊c.complexity / step⌋.toNat

/-- The entries set by `level_instance`, /repo/examples/shooting/simulation_shooting_1D.py:49-58, /repo/examples/shooting/simulation_shooting_2D.py:45-55. -/
def levelEntries (c : Config K) (fine coarse : K) : LevelCfg K :=
  ⟨fine, coarse, nElements c fine, if coarse > 0 then nElements c coarse else 0⟩

/-- The levels of a `Sampler` with a `ShootingSimulation1D`: every call of `level_instance` copies the configuration (line 48). `prev` is the step before, 0 at the start.
/repo/examples/shooting/simulation_shooting_1D.py:40-61, /repo/mlmc/sampler.py:62-80. -/
def levels1D (c : Config K) : K → List K → List (LevelCfg K)
  | _, [] => []
  | prev, h :: hs => levelEntries c h prev :: levels1D c h hs

/-- `level_instance` of `ShootingSimulation2D` for all steps: the entries are written into the one dictionary of the object, and every level keeps a reference to it.  The result is the dictionary
afterwards. /repo/examples/shooting/simulation_shooting_2D.py:38-58, /repo/mlmc/sampler.py:62-80. -/
def shared2D (c : Config K) : Option (LevelCfg K) → K → List K → Option (LevelCfg K)
  | cell, _, [] => cell
  | _, prev, h :: hs => shared2D c (some (levelEntries c h prev)) h hs

/-- The configurations that the levels of a `Sampler` with a `ShootingSimulation2D` see when samples are run: all of them the same dictionary.
/repo/examples/shooting/simulation_shooting_2D.py:57. -/
def levels2D (c : Config K) (steps : List K) : List (LevelCfg K) := match shared2D c none 0 steps with
  | some x => steps.map fun _ => x
  | none => []

/-- `np.linspace(0, b, n)`. /repo/examples/shooting/simulation_shooting_1D.py:126-129. -/
def linspace0 (b : K) (n : Nat) : List K := (List.range n).map fun i : Nat => if n = 1 then 0 else (i : K) * (b / ((n : K) - 1))

/-- `create_points`: the points of the fine and then of the coarse elements. /repo/examples/shooting/simulation_shooting_1D.py:118-131. -/
def createPoints (c : Config K) (l : LevelCfg K) : Except PyErr (List K) :=
  if l.nFine > l.nCoarse then .ok (linspace0 (c.velX * c.maxTime) l.nFine ++ linspace0 (c.velX * c.maxTime) l.nCoarse) else .error .assertionError

/-- The loop of `_run_sample` from step `i` on; `none` if the area is left. /repo/examples/shooting/simulation_shooting_1D.py:92-115. -/
def loop (c : Config K) (dt : K) : Nat → K × K → K × K → List (K × K) → Option (K × K)
  | _, X, _, [] => some X
  | i, X, V, f :: fs =>
    let X' := (X.1 + dt * V.1, X.2 + dt * V.2)
    let V' := (V.1 + dt * f.1, V.2 + dt * f.2)
    if X'.1 > c.right ∨ X'.1 < c.left ∨ X'.2 > c.top ∨ X'.2 < c.bottom then none
    else if dt * ((i : K) + 1) ≥ c.maxTime then some X'
    else loop c dt (i + 1) X' V' fs

/-- `_run_sample` in one dimension: the same force acts in both directions, the result is the second coordinate (0 without elements).
/repo/examples/shooting/simulation_shooting_1D.py:78-116. -/
def run1D (c : Config K) (f : List K) : Option K :=
  if f = [] then some 0 else (loop c (c.maxTime / (f.length : K)) 0 (c.startX, c.startY) (c.velX, c.velY) (f.map fun x => (x, x))).map (·.2)

/-- `_run_sample` in two dimensions, /repo/examples/shooting/simulation_shooting_2D.py:87-124. -/
def run2D (c : Config K) (f : List (K × K)) : Option (K × K) :=
  loop c (c.maxTime / (f.length : K)) 0 (c.startX, c.startY) (c.velX, c.velY) f

/-- `ShootingSimulation1D.calculate`, /repo/examples/shooting/simulation_shooting_1D.py:63-76, 133-144.  `field` is the sample of the random field as a function of the list of points; the seed is
not used by the code. -/
def calculate1D (c : Config K) (l : LevelCfg K) (field : List K → List K) : Except PyErr (Option K × Option K) :=
  (createPoints c l).map fun pts =>
    let s := field pts
    (run1D c (s.take l.nFine), run1D c (if l.coarseStep ≠ 0 then s.drop l.nFine else []))

/-- `ShootingSimulation2D.calculate`, /repo/examples/shooting/simulation_shooting_2D.py:61-84: both runs get the fine sample. -/
def calculate2D (c : Config K) (l : LevelCfg K) (fieldX fieldY : List K → List K) : Except PyErr (Option (K × K) × Option (K × K)) :=
  (createPoints c l).map fun pts =>
    let fine := List.zip ((fieldX pts).take l.nFine) ((fieldY pts).take l.nFine)
    (run2D c fine, run2D c fine)

end MLMC.Shoot
