import Verif.Model.Storage
/-
Random fields of the library GSTools: `GSToolsSpatialCorrelatedField`, /repo/mlmc/random/correlated_field.py:501-553, with `set_points` of its base class, 320-343.
The library is an argument: `srf model modeNo seed points` are the values of `gstools.SRF(model, seed=seed, mode_no=mode_no)` at the points.  The SRF object keeps its seed: evaluating it
again (without a seed, as the code does) gives the same realization.  Values are flat lists; means and standard deviations are numbers.
-/
namespace MLMC.Gs
variable {K : Type} [Add K] [Mul K] {M S : Type}

/-- The attributes of the object, /repo/mlmc/random/correlated_field.py:508-514, 316-322; `seed` is the one of the object `srf`. -/
structure Fld (K M S : Type) where
  model : M
  modeNo : Nat
  seed : S
  mu : K
  sigma : K
  dim : Nat
  log : Bool
  points : Option (List (List K)) := none

/-- `__init__`, /repo/mlmc/random/correlated_field.py:503-514: the SRF gets its seed from the operating system (`entropy`), `srf.mean` is zero. -/
def Fld.new [Zero K] (model : M) (modeNo dim : Nat) (log : Bool) (sigma : K) (entropy : S) : Fld K M S := ⟨model, modeNo, entropy, 0, sigma, dim, log, none⟩

/-- What a user calls, /repo/mlmc/random/correlated_field.py:320, 516, 547. -/
inductive Op (K S : Type)
  | setPoints (points : List (List K)) (mu sigma : Option K)
  | changeSrf (seed : S)
  | sample

/-- `set_points`, /repo/mlmc/random/correlated_field.py:327-343: points of another dimension fail (assertion); an empty array has no second axis (IndexError). -/
def Fld.setPoints (f : Fld K M S) (points : List (List K)) (mu sigma : Option K) : Except PyErr (Fld K M S) :=
  if points = [] then .error .indexError
  else if points.all (fun p => p.length = f.dim) then .ok { f with points := some points, mu := mu.getD f.mu, sigma := sigma.getD f.sigma }
  else .error .assertionError

/-- `random_field`, /repo/mlmc/random/correlated_field.py:524-545: the columns of the points are unpacked for one, two or three dimensions. -/
def Fld.randomField (srf : M → Nat → S → List (List K) → List K) (f : Fld K M S) : Except PyErr (List K) :=
  match f.points with
  | none => .error .other
  | some pts => if f.dim = 1 ∨ f.dim = 2 ∨ f.dim = 3 then .ok (srf f.model f.modeNo f.seed pts) else .error .valueError

/-- `sample`, /repo/mlmc/random/correlated_field.py:547-553. -/
def Fld.sample (exp : K → K) (srf : M → Nat → S → List (List K) → List K) (f : Fld K M S) : Except PyErr (List K) :=
  (f.randomField srf).map fun v => v.map fun x => if f.log then exp (f.sigma * x + f.mu) else f.sigma * x + f.mu

/-- A sequence of calls; the returned samples and the object afterwards.  An exception ends the program. /repo/mlmc/random/correlated_field.py:320-343, 516-553. -/
def run (exp : K → K) (srf : M → Nat → S → List (List K) → List K) : List (Op K S) → Fld K M S → Except PyErr (List (List K) × Fld K M S)
  | [], f => .ok ([], f)
  | .setPoints p mu sigma :: ops, f => (f.setPoints p mu sigma).bind fun f => run exp srf ops f
  | .changeSrf s :: ops, f => run exp srf ops { f with seed := s }
  | .sample :: ops, f => (f.sample exp srf).bind fun v => (run exp srf ops f).map fun r => (v :: r.1, r.2)

end MLMC.Gs
