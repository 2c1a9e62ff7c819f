import Verif.Model.Estimate
import Mathlib.Data.List.Sort
import Mathlib.Algebra.Order.Floor.Semiring
/-
`Estimate.estimate_domain`: /repo/mlmc/estimator.py:275-302.
-/
namespace MLMC
variable {F : Type}

/-- `np.percentile(xs, 100 * t)` with the default linear interpolation, used in /repo/mlmc/estimator.py:299; a `t` outside [0, 1] is refused, no
values raise an `IndexError`. -/
def percentile [Field F] [LinearOrder F] [FloorSemiring F] (xs : List F) (t : F) : Except PyErr F :=
  if t < 0 ∨ 1 < t then .error .valueError else if xs = [] then .error .indexError else
  let s := xs.insertionSort (· ≤ ·)
  let v : F := t * ((xs.length - 1 : Nat) : F)
  let i := ⌊v⌋₊
  .ok (s.getD i 0 + (s.getD (min (i + 1) (xs.length - 1)) 0 - s.getD i 0) * (v - (i : F)))

/-- The values whose percentiles are taken: the fine part of all components of the evaluated chunk without NaN,
/repo/mlmc/estimator.py:294-298.  (NumPy lists them component by component; the percentiles sort them anyway.) -/
def domainValues (a : Arr (Option F)) : Except PyErr (List F) :=
  if a.p = 0 then .error .indexError else
  .ok (((List.range a.n).flatMap fun j => a.rows.map fun r => r j 0).filterMap id)

/-- One pass of the loop, /repo/mlmc/estimator.py:293-299.  `env` describes the chunk that is read. -/
def domainRange [Field F] [LinearOrder F] [FloorSemiring F] (q : Quantity (Option F)) (t : F) (env : Nat → Except PyErr (Arr (Option F))) :
    Except PyErr (F × F) := do
  match ← q.samples env with
  | .mask _ => .error .indexError
  | .arr a =>
    let xs ← domainValues a
    let lo ← percentile xs t
    let hi ← percentile xs (1 - t)
    .ok (lo, hi)

/-- `Estimate.estimate_domain`, /repo/mlmc/estimator.py:275-302.  `levels`: the number of collected samples of each level; `firstChunk n`: the first chunk
of `sample_storage.chunks(n_samples=n)`.  The default quantile is 0.01.  Without levels `ranges[:, 0]` raises an `IndexError`. -/
def estimateDomain [Field F] [LinearOrder F] [FloorSemiring F] (q : Quantity (Option F)) (t : Option F) (levels : List Nat)
    (firstChunk : Nat → Nat → Except PyErr (Arr (Option F))) : Except PyErr (F × F) := do
  let ranges ← levels.mapM fun n => domainRange q (t.getD (1 / 100)) (firstChunk n)
  match ranges with
  | [] => .error .indexError
  | r :: rs => .ok ((rs.map (·.1)).foldl min r.1, (rs.map (·.2)).foldl max r.2)

end MLMC
