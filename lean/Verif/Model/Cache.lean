import Verif.Model.Estimate
import Verif.Model.Storage
/-
The cache of evaluated quantities: /repo/mlmc/quantity/quantity.py:117-135, 558-565 and
/repo/mlmc/quantity/quantity_estimate.py:17-19.

`cached(custom_key_maker=…)` of the package `memoization` is an unbounded dictionary: a call returns the stored value of its key, and
otherwise runs the function and stores what it returned; nothing is stored when the function raises.  `Quantity.samples` and
`QuantityConst.samples` have separate dictionaries, `QuantityStorage.samples` has none.
-/
namespace MLMC
variable {K : Type}

/-- A cache key without the object, /repo/mlmc/quantity/quantity.py:121-124.  (Chunks made by the library always have a slice.) -/
abbrev ChunkKey := Nat × Nat × Int

/-- `get_cache_key`, /repo/mlmc/quantity/quantity.py:117-124: level, chunk number and length of the slice. -/
def Chunk.cacheKey (c : Chunk) : ChunkKey := (c.levelId, c.chunkId, (c.stop : Int) - c.start)

/-- The dictionaries of the decorators in /repo/mlmc/quantity/quantity.py:126 (`nodes`) and 558 (`consts`), keyed by `get_cache_key`,
whose last part is `id(self)`. -/
structure QCache (K : Type) where
  nodes : Dict (ChunkKey × Nat) (QVal K)
  consts : Dict (ChunkKey × Nat) (QVal K)

/-- The caches of a new process, /repo/mlmc/quantity/quantity.py:126, 558. -/
def QCache.new : QCache K := ⟨[], []⟩

/-- `cache_clear`, /repo/mlmc/quantity/quantity_estimate.py:17-19. -/
def QCache.clear (_m : QCache K) : QCache K := ⟨[], []⟩

/-- What the `QuantityStorage` objects return for a chunk at some time: `sample_pairs_level`, /repo/mlmc/quantity/quantity.py:686-692. -/
abbrev StoreData (K : Type) := Chunk → Nat → Except PyErr (Arr K)

/-- Store a value that a function returned; an exception is not stored.  /repo/mlmc/quantity/quantity.py:126, 558. -/
def cacheStore (d : Dict (ChunkKey × Nat) (QVal K)) (k : ChunkKey × Nat) : Except PyErr (QVal K) → Dict (ChunkKey × Nat) (QVal K)
  | .ok v => d.set k v
  | .error _ => d

namespace Quantity

mutual
/-- `samples` with the cache, /repo/mlmc/quantity/quantity.py:126-135, 558-565, 686-692: the returned value (or exception) and the
cache afterwards. -/
def cachedSamples (data : StoreData K) (c : Chunk) : Quantity K → QCache K → Except PyErr (QVal K) × QCache K
  | .storage o _, m => ((data c o).map .arr, m)
  | .const o _ v, m => match m.consts.get? (c.cacheKey, o) with
    | some r => (.ok r, m)
    | none => (.ok (.arr ⟨1, 1, v.map fun x _ _ => x⟩),
        ⟨m.nodes, cacheStore m.consts (c.cacheKey, o) (.ok (.arr ⟨1, 1, v.map fun x _ _ => x⟩))⟩)
  | .node o _ _ op ins, m => match m.nodes.get? (c.cacheKey, o) with
    | some r => (.ok r, m)
    | none =>
      let vs := cachedList data c ins m
      (vs.1.bind op, ⟨cacheStore vs.2.nodes (c.cacheKey, o) (vs.1.bind op), vs.2.consts⟩)
/-- The list comprehension in /repo/mlmc/quantity/quantity.py:133-134. -/
def cachedList (data : StoreData K) (c : Chunk) : List (Quantity K) → QCache K → Except PyErr (List (QVal K)) × QCache K
  | [], m => (.ok [], m)
  | q :: qs, m =>
    let v := cachedSamples data c q m
    match v.1 with
    | .error e => (.error e, v.2)
    | .ok x =>
      let vs := cachedList data c qs v.2
      (vs.1.map (x :: ·), vs.2)
end

end Quantity

/-- What happens to the cache over time: an evaluation `q.samples(chunk)` while the storages hold `data`, or `cache_clear()`.
/repo/mlmc/quantity/quantity.py:126, /repo/mlmc/quantity/quantity_estimate.py:17-19. -/
inductive CacheEv (K : Type)
  | eval (data : StoreData K) (c : Chunk) (q : Quantity K)
  | clear

/-- The values returned by the evaluations of a history, /repo/mlmc/quantity/quantity.py:126-135. -/
def runCached : List (CacheEv K) → QCache K → List (Except PyErr (QVal K))
  | [], _ => []
  | .clear :: h, m => runCached h m.clear
  | .eval data c q :: h, m => (q.cachedSamples data c m).1 :: runCached h (q.cachedSamples data c m).2

/-- The loop of `estimate_mean` with the cache, /repo/mlmc/quantity/quantity_estimate.py:43-65. -/
def meanLoopCached {F : Type} [Field F] (q : Quantity (Option F)) (nLevels : Nat) (data : StoreData (Option F)) :
    MeanAcc F → List Chunk → QCache (Option F) → Except PyErr (MeanAcc F)
  | acc, [], _ => .ok acc
  | acc, c :: cs, m =>
    let v := q.cachedSamples data c m
    v.1.bind fun s => (meanStep q.size nLevels acc c.levelId s).bind fun acc => meanLoopCached q nLevels data acc cs v.2

/-- `estimate_mean` with the cache, /repo/mlmc/quantity/quantity_estimate.py:22-80; `m` is the cache at the call, cleared first
(line 31). -/
def estimateMeanCached {F : Type} [Field F] (q : Quantity (Option F)) (nLevels : Nat) (data : StoreData (Option F)) (chunks : List Chunk)
    (m : QCache (Option F)) : Except PyErr (QuantityMean F) :=
  if q.storageOf = none then .error .attributeError else
  (meanLoopCached q nLevels data .init chunks m.clear).bind fun acc =>
  if !acc.started then .error .other else
  .ok ⟨q.qtype, (List.range nLevels).map fun l => (List.range q.size).map fun i => levelMean (acc.sums l i) (acc.n l),
    (List.range nLevels).map fun l => (List.range q.size).map fun i => levelVar (acc.sums l i) (acc.sqs l i) (acc.n l),
    (List.range nLevels).map acc.n, (List.range nLevels).map acc.rm⟩

end MLMC
