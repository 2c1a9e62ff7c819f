import Verif.Model.Cache
/-
Notions for statements about the cache of evaluated quantities.
-/
namespace MLMC
variable {K : Type}

namespace Quantity
mutual
/-- The quantity object itself and all quantity objects it is computed from, directly or indirectly. -/
def parts : Quantity K → List (Quantity K)
  | .storage o t => [.storage o t]
  | .const o t v => [.const o t v]
  | .node o t s op ins => .node o t s op ins :: partsList ins
/-- The objects of a list of quantities. -/
def partsList : List (Quantity K) → List (Quantity K)
  | [] => []
  | q :: qs => parts q ++ partsList qs
end
end Quantity

/-- An evaluation: what the storages held, the chunk, the quantity. -/
structure Evaluation (K : Type) where
  data : StoreData K
  chunk : Chunk
  q : Quantity K

/-- The evaluations of a history. -/
def evaluations : List (CacheEv K) → List (Evaluation K)
  | [] => []
  | .clear :: h => evaluations h
  | .eval d c q :: h => ⟨d, c, q⟩ :: evaluations h

/-- What evaluation without a cache returns. -/
def Evaluation.plain (e : Evaluation K) : Except PyErr (QVal K) := e.q.samples (e.data e.chunk)

/-- No object identity is shared by two different objects of the two evaluations (as for objects alive at the same time), and if their
chunks have the same level, number and length, then the storages returned the same data. -/
def Compatible (a b : Evaluation K) : Prop :=
  (∀ s ∈ a.q.parts, ∀ t ∈ b.q.parts, s.oid = t.oid → s = t) ∧
  (a.chunk.levelId = b.chunk.levelId → a.chunk.chunkId = b.chunk.chunkId →
    (a.chunk.stop : Int) - a.chunk.start = (b.chunk.stop : Int) - b.chunk.start → a.data a.chunk = b.data b.chunk)

/-- Evaluations with no `cache_clear` between them are compatible (each also with itself). -/
def Settled (h : List (CacheEv K)) : Prop :=
  ∀ pre seg post, h = pre ++ seg ++ post → CacheEv.clear ∉ seg → ∀ a ∈ evaluations seg, ∀ b ∈ evaluations seg, Compatible a b

end MLMC
