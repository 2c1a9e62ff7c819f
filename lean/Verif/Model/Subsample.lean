import Verif.Model.Estimate
/-
Random subsamples: /repo/mlmc/quantity/quantity.py:307-364, and the bootstrap of /repo/mlmc/estimator.py:172-193.

Random numbers are arguments: the positions drawn by `RNG.choice` for a chunk, whose number was drawn by
`scipy.stats.hypergeom(...).rvs`.
-/
namespace MLMC
variable {K : Type}

/-- `SubsampleParams` of one level, /repo/mlmc/quantity/quantity.py:331-343 (`total_n` is never used). -/
structure SubParams where
  origK : Nat
  origN : Nat
  k : Nat
  n : Nat
  deriving DecidableEq, Repr

/-- `SubsampleParams.__init__`, /repo/mlmc/quantity/quantity.py:332-343. -/
def SubParams.init (numSubsample numCollected : Nat) : SubParams := ⟨numSubsample, numCollected, numSubsample, numCollected⟩

/-- `adjust_value`: evaluating the parameters for a chunk resets them, /repo/mlmc/quantity/quantity.py:351-361. -/
def SubParams.adjust (p : SubParams) : SubParams := ⟨p.origK, p.origN, p.origK, p.origN⟩

/-- Possible values of `scipy.stats.hypergeom(n, k, N).rvs`: the number of special items among `N` drawn from `n` items of which `k` are
special.  /repo/mlmc/quantity/quantity.py:319. -/
def hyperSupport (n k N s : Nat) : Prop := N + k ≤ n + s ∧ s ≤ k ∧ s ≤ N

/-- What the random generators may return for a chunk of `N` samples: `RNG.choice(chunk, size=size, axis=1)` draws `size` positions, each
one independently of the others (`replace=True` by default).  /repo/mlmc/quantity/quantity.py:319-320. -/
def DrawOk (p : SubParams) (N : Nat) (idx : List Nat) : Prop := hyperSupport p.n p.k N idx.length ∧ ∀ i ∈ idx, i < N

/-- `pick_samples`, /repo/mlmc/quantity/quantity.py:307-323, for drawn positions `idx`.  SciPy refuses (`ValueError`) an empty population, more
special items or more draws than items. -/
def pickSamples (a : Arr K) (p : SubParams) (idx : List Nat) : Except PyErr (Arr K × SubParams) :=
  if p.n = 0 ∨ p.n < p.k ∨ p.n < a.n then .error .valueError else
  .ok (⟨idx.length, a.p, a.rows.map fun r j i => r (idx.getD j 0) i⟩, ⟨p.origK, p.origN, p.k - idx.length, p.n - a.n⟩)

/-- Evaluation of the subsampled quantity on the chunks of one level in turn: the parameters are an input quantity, evaluated for each chunk
(its cache key contains the chunk number).  /repo/mlmc/quantity/quantity.py:133-135, 351-364.  `draws`: positions drawn for each
chunk. -/
def subsampleLevel : SubParams → List (Arr K × List Nat) → Except PyErr (List (Arr K))
  | _, [] => .ok []
  | p, (a, idx) :: cs => (pickSamples a p.adjust idx).bind fun r => (subsampleLevel r.2 cs).map (r.1 :: ·)

/-- The operation of the quantity made by `subsample`, /repo/mlmc/quantity/quantity.py:362-364, as a function of the evaluated input; `draw` gives
the parameters of the level and the drawn positions. -/
def subsampleOp (draw : Arr K → SubParams × List Nat) : List (QVal K) → Except PyErr (QVal K)
  | [.arr a] => (pickSamples a (draw a).1.adjust (draw a).2).map fun r => .arr r.1
  | _ => .error .other

namespace Quantity
variable [Inhabited K]

/-- `subsample`, /repo/mlmc/quantity/quantity.py:325-364: the base type becomes `BoolType`.  The second input (the parameters, a
constant) is left out. -/
def subsample (oid : Nat) (draw : Arr K → SubParams × List Nat) (q : Quantity K) : Quantity K :=
  .node oid (q.qtype.replaceScalar .bool) false (subsampleOp draw) [q]

end Quantity

/-- One round of the loop of `est_bootstrap`, /repo/mlmc/estimator.py:186-188: select by a subsample, moments (`f` on arrays), estimate.
`chunks`: levels and contents of the storages. -/
def bootstrapRound {F : Type} [Field F] (env0 : Nat → Except PyErr (Arr (Option F))) (oids : Nat → Nat) (q : Quantity (Option F))
    (draw : Arr (Option F) → SubParams × List Nat) (momType : QType) (moments : List (QVal (Option F)) → Except PyErr (QVal (Option F)))
    (nLevels : Nat) (chunks : List (Nat × (Nat → Except PyErr (Arr (Option F))))) : Except PyErr (QuantityMean F) :=
  (Quantity.select env0 oids q (Quantity.subsample (oids 1) draw q) []).bind fun s =>
  (Quantity.mk (oids 2) momType moments [s]).bind fun m => estimateMean m nLevels chunks

end MLMC
