import Mathlib.Analysis.SpecialFunctions.Pow.Real
import Verif.Model.Storage
/-
Random fields and value maps: /repo/mlmc/random/correlated_field.py.
-/
namespace MLMC.RF

/-! ## Value maps; floating point numbers are real numbers -/

/-- `kozeny_carman`, /repo/mlmc/random/correlated_field.py:12-31, for one element of the arrays. -/
noncomputable def kozenyCarman (porosity m factor viscosity : ℝ) : Except PyErr ℝ :=
  if viscosity > 1e-10 then
    let p := max (min porosity (1 - 1e-10)) 1e-10
    .ok (max (factor * p ^ (2 + m) / (1 - p) ^ 2 / viscosity) 1e-15)
  else .error .assertionError

/-- `positive_to_range`, /repo/mlmc/random/correlated_field.py:34-41. -/
noncomputable def positiveToRange (e a b : ℝ) : ℝ := b * (1 - (b - a) / (b + (b - a) * e))

/-! ## The field given by a decomposition of the covariance matrix -/

variable {K P : Type}

/-- A scalar or an array: `mu` and `sigma`. /repo/mlmc/random/correlated_field.py:310-313, 320-342. -/
inductive Arr (K : Type)
  | scalar (v : K)
  | array (l : List K)

/-- An entry, scalars are broadcast, /repo/mlmc/random/correlated_field.py:320-342. -/
def Arr.get : Arr K → Nat → Option K
  | .scalar v, _ => some v
  | .array l, i => l[i]?

/-- The tests of shapes in /repo/mlmc/random/correlated_field.py:320-342. -/
def Arr.fits (n : Nat) : Arr K → Prop
  | .scalar _ => True
  | .array l => l.length = n

/-- These tests can be decided, /repo/mlmc/random/correlated_field.py:320-342. -/
instance (n : Nat) (a : Arr K) : Decidable (a.fits n) := match a with
  | .scalar _ => inferInstanceAs (Decidable True)
  | .array l => inferInstanceAs (Decidable (l.length = n))

/-- State of a `SpatialCorrelatedField`, /repo/mlmc/random/correlated_field.py:308-313, 371-384. -/
structure Spatial (K P : Type) where
  points : Option (List P) := none
  mu : Arr K
  sigma : Arr K
  covMat : Option (List (List K)) := none
  lFactor : Option (List (List K)) := none

/-- What is fixed by the constructor and the numerical libraries: the correlation of two points, and the decomposition (the factor has one row for each
row of the matrix; it may fail).  `log`: whether the exponential of the field is returned. /repo/mlmc/random/correlated_field.py:270-305, 390-488. -/
structure Numerics (K P : Type) where
  corr : P → P → K
  dcmp : List (List K) → Except PyErr (List (List K))
  exp : K → K
  log : Bool

namespace Spatial

/-- `set_points`, /repo/mlmc/random/correlated_field.py:320-342; `_set_points`, which would drop the matrices (386-388), is not called.  The test of the
array `sigma` looks at the argument, which is `None` when the attribute set before is kept. -/
def setPoints (s : Spatial K P) (points : List P) (mu sigma : Option (Arr K)) : Except PyErr Unit × Spatial K P :=
  let s := { s with points := some points, mu := mu.getD s.mu }
  if ¬ s.mu.fits points.length then (.error .assertionError, s) else
  let s := { s with sigma := sigma.getD s.sigma }
  match s.sigma, sigma with
  | .scalar _, _ => (.ok (), s)
  | .array _, none => (.error .attributeError, s)
  | .array _, some (.array l) => (if l.length = points.length then .ok () else .error .assertionError, s)
  | .array _, some (.scalar _) => (.error .assertionError, s)

/-- `cov_matrix`, /repo/mlmc/random/correlated_field.py:390-412; the smallest coordinate of no points (397) raises `ValueError`. -/
def covMatrix (N : Numerics K P) (s : Spatial K P) : Except PyErr Unit × Spatial K P :=
  match s.points with
  | none => (.error .assertionError, s)
  | some [] => (.error .valueError, s)
  | some pts => (.ok (), { s with covMat := some (pts.map fun p => pts.map (N.corr p)) })

/-- `svd_dcmp`, /repo/mlmc/random/correlated_field.py:430-488. -/
def svdDcmp (N : Numerics K P) (s : Spatial K P) : Except PyErr Unit × Spatial K P :=
  let r := match s.covMat with | none => covMatrix N s | some _ => (.ok (), s)
  match r with
  | (.error e, s) => (.error e, s)
  | (.ok (), s) =>
    match N.dcmp (s.covMat.getD []) with
    | .error e => (.error e, s)
    | .ok f => (.ok (), { s with lFactor := some f, covMat := none })

variable [Add K] [Mul K] [Zero K]

/-- `_cov_l_factor.dot(uncorrelated)`, /repo/mlmc/random/correlated_field.py:498. -/
def dot (rows : List (List K)) (xs : List K) : List K := rows.map fun r => (r.zipWith (· * ·) xs).foldr (· + ·) 0

/-- `sigma * field + mu`, elementwise (/repo/mlmc/random/correlated_field.py:359); different lengths raise. -/
def scale (sigma mu : Arr K) (field : List K) : Except PyErr (List K) :=
  if sigma.fits field.length ∧ mu.fits field.length then
    .ok ((List.range field.length).map fun i => (sigma.get i).getD 0 * field.getD i 0 + (mu.get i).getD 0)
  else .error .valueError

/-- `sample` and `_sample`, /repo/mlmc/random/correlated_field.py:347-363, 490-498.  `noise`: the normal numbers that are drawn.
Simplification: broadcasting of arrays with one entry is not modelled. -/
def sample (N : Numerics K P) (s : Spatial K P) (noise : List K) : Except PyErr (List K) × Spatial K P :=
  let r := match s.lFactor with | none => svdDcmp N s | some _ => (.ok (), s)
  match r with
  | (.error e, s) => (.error e, s)
  | (.ok (), s) => ((scale s.sigma s.mu (dot (s.lFactor.getD []) noise)).map fun f => if N.log then f.map N.exp else f, s)

end Spatial

/-- What a user can do with a field. /repo/mlmc/random/correlated_field.py:320-369, 371-501. -/
inductive Op (K P : Type)
  | setPoints (points : List P) (mu sigma : Option (Arr K))
  | covMatrix
  | svdDcmp
  | sample (noise : List K)

variable [Add K] [Mul K] [Zero K]

/-- One call; a call that raises leaves the object as it is at that point.  Second component: the value of `sample`. /repo/mlmc/random/correlated_field.py:320-369, 371-501. -/
def step (N : Numerics K P) (s : Spatial K P) : Op K P → Spatial K P × Option (Except PyErr (List K))
  | .setPoints p mu sigma => ((s.setPoints p mu sigma).2, none)
  | .covMatrix => ((s.covMatrix N).2, none)
  | .svdDcmp => ((s.svdDcmp N).2, none)
  | .sample noise => ((s.sample N noise).2, some (s.sample N noise).1)

/-- A sequence of calls, /repo/mlmc/random/correlated_field.py:320-369, 371-501. -/
def run (N : Numerics K P) (s : Spatial K P) (ops : List (Op K P)) : Spatial K P := ops.foldl (fun s o => (step N s o).1) s

/-- `Field.set_points` for such a field, /repo/mlmc/random/correlated_field.py:88-92. -/
def placeOps (points : List P) : List (Op K P) := [.setPoints points none none, .svdDcmp]

/-! ## Summing Fourier modes -/

/-- One attempt of the summation with `chunkNo` chunks, /repo/mlmc/random/correlated_field.py:715-735.  `fails j`: whether chunk number `j` raises `MemoryError`.
The sum so far is kept when it does.  Third component: whether the attempt succeeded. -/
def attempt (modes : List K) (chunkLen : Nat) (fails : Nat → Bool) : Nat → Nat → K → K × Bool
  | 0, _, acc => (acc, true)
  | n + 1, j, acc =>
    if fails j then (acc, false)
    else attempt modes chunkLen fails n (j + 1) (acc + (((modes.drop (j * chunkLen)).take chunkLen).foldr (· + ·) 0))

/-- The `while` loop, /repo/mlmc/random/correlated_field.py:713-742: attempts with more and more chunks until one succeeds.  `oom a j`: whether chunk `j` of attempt `a`
runs out of memory.  `modes`: the contributions of the modes at one point.  The list of attempts is bounded by `fuel`; `none`: still failing. -/
def sumModes (modes : List K) (oom : Nat → Nat → Bool) : Nat → Nat → Nat → K → Option K
  | 0, _, _, _ => none
  | fuel + 1, a, chunkNo, acc =>
    match attempt modes ((modes.length + chunkNo - 1) / chunkNo) (oom a) chunkNo 0 acc with
    | (s, true) => some s
    | (s, false) => sumModes modes oom fuel (a + 1) (chunkNo + 2 ^ a) s

end MLMC.RF
