import Verif.Proofs.Cache
import Mathlib.Data.List.Nodup
/-
C42: evaluation of quantities with the cache.
-/
namespace MLMC
variable {K : Type}

/-- **C42** (partial): in every history of evaluations, changes of the stored samples and `cache_clear`, evaluations return what they
would return without the cache, provided that evaluations with no `cache_clear` between them involve no two objects with the same
identity and that chunks of the same level, number and length hold the same samples.  Missing: histories that reuse the identity
of a deleted object or in which the samples of a chunk change, for which it is false (below). -/
theorem C42_history_partial (h : List (CacheEv K)) (hs : Settled h) : runCached h .new = (evaluations h).map Evaluation.plain :=
  runCached_plain h _ hs fun a _ => sound_new a

/-- **C42** for estimates of means: whatever happened before (`m` is any state of the cache), `estimate_mean` returns what it would
return without a cache.  All objects the quantity is computed from are alive during the call, so different ones have different
identities; the chunks of a storage have different numbers on each level. -/
theorem C42_estimates {F : Type} [Field F] (q : Quantity (Option F)) (nLevels : Nat) (data : StoreData (Option F)) (chunks : List Chunk)
    (m : QCache (Option F)) (hq : ∀ s ∈ q.parts, ∀ t ∈ q.parts, s.oid = t.oid → s = t)
    (hc : (chunks.map fun c => (c.levelId, c.chunkId)).Nodup) :
    estimateMeanCached q nLevels data chunks m = estimateMean q nLevels (chunks.map fun c => (c.levelId, data c)) := by
  rw [estimateMeanCached, estimateMean]
  by_cases hst : q.storageOf = none
  · rw [if_pos hst, if_pos hst]
  rw [if_neg hst, if_neg hst, meanLoop_plain q nLevels data chunks .init m.clear ?_ fun a _ => sound_clear m a]
  · rfl
  intro a ha b hb
  obtain ⟨c, hcm, rfl⟩ := List.mem_map.mp ha
  obtain ⟨d, hdm, rfl⟩ := List.mem_map.mp hb
  refine ⟨hq, fun h1 h2 _ => ?_⟩
  have : c = d := List.inj_on_of_nodup_map hc hcm hdm (by simp only at h1 h2 ⊢; rw [h1, h2])
  rw [this]

/-- The chunks of a level have increasing numbers. -/
theorem iterChunks_numbers (c l : Nat) : ∀ (fuel k start n : Nat), ∀ x ∈ iterChunks c l fuel k start n, x.levelId = l ∧ k ≤ x.chunkId
  | 0, _, _, _, x, hx => by simp [iterChunks] at hx
  | fuel + 1, k, start, n, x, hx => by
    rw [iterChunks] at hx
    split at hx
    · rcases List.mem_cons.mp hx with rfl | hx
      · exact ⟨rfl, le_refl _⟩
      · have := iterChunks_numbers c l fuel (k + 1) (start + c) n x hx; exact ⟨this.1, by omega⟩
    · simp at hx

theorem iterChunks_numbers_nodup (c l : Nat) : ∀ (fuel k start n : Nat),
    ((iterChunks c l fuel k start n).map fun c => (c.levelId, c.chunkId)).Nodup
  | 0, _, _, _ => by simp [iterChunks]
  | fuel + 1, k, start, n => by
    rw [iterChunks]
    split
    · rw [List.map_cons, List.nodup_cons]
      refine ⟨fun h => ?_, iterChunks_numbers_nodup c l fuel (k + 1) (start + c) n⟩
      obtain ⟨x, hx, he⟩ := List.mem_map.mp h
      have := (iterChunks_numbers c l fuel (k + 1) (start + c) n x hx).2
      simp only [Prod.mk.injEq] at he
      omega
    · simp

/-- The chunks of all levels of an HDF storage have different numbers on each level, so `C42_estimates` applies to them: level `l`
has `n l` collected samples in HDF chunks of `c l` samples. -/
theorem C42_hdf_chunks_distinct (c n : Nat → Nat) (L : Nat) :
    (((List.range L).flatMap fun l => iterChunks (c l) l (n l) 0 0 (n l)).map fun c => (c.levelId, c.chunkId)).Nodup := by
  induction L with
  | zero => simp
  | succ L ih =>
    rw [List.range_succ, List.flatMap_append, List.map_append, List.nodup_append]
    refine ⟨ih, by simpa using iterChunks_numbers_nodup (c L) L (n L) 0 0 (n L), ?_⟩
    rintro a ha b hb rfl
    obtain ⟨x, hx, rfl⟩ := List.mem_map.mp ha
    obtain ⟨y, hy, he⟩ := List.mem_map.mp hb
    obtain ⟨l, hl, hx⟩ := List.mem_flatMap.mp hx
    simp only [List.flatMap_cons, List.flatMap_nil, List.append_nil] at hy
    have h1 := (iterChunks_numbers _ _ _ _ _ _ x hx).1
    have h2 := (iterChunks_numbers _ _ _ _ _ _ y hy).1
    have := List.mem_range.mp hl
    simp only [Prod.mk.injEq] at he
    omega

/-! ### Concrete quantities -/

/-- The first value of the first component. -/
def firstValue : Except PyErr (QVal ℚ) → Option ℚ
  | .ok (.arr a) => (a.rows.map fun r => r 0 0).head?
  | _ => none

/-- The number of samples. -/
def valueCount : Except PyErr (QVal ℚ) → Option Nat
  | .ok (.arr a) => some a.n
  | _ => none

/-- A root quantity whose storage holds the samples `xs`: a slice is cut at the number of samples. -/
def cxData (xs : List ℚ) : StoreData ℚ := fun c _ =>
  .ok ⟨((xs.drop c.start).take (c.stop - c.start)).length, 1, [fun j _ => ((xs.drop c.start).take (c.stop - c.start)).getD j 0]⟩

/-- Root quantity. -/
def cxRoot : Quantity ℚ := .storage 1 .scalar
/-- `q + 10`, an object with identity 5. -/
def cxAdd : Quantity ℚ := .node 5 .scalar false (binArr (Arr.zip (· + ·))) [cxRoot, .const 6 .scalar [10]]
/-- `q * 10`, created after the deletion of the first one and given the same identity. -/
def cxMul : Quantity ℚ := .node 5 .scalar false (binArr (Arr.zip (· * ·))) [cxRoot, .const 7 .scalar [10]]
/-- All samples of level 0. -/
def cxChunk (n : Nat) : Chunk := ⟨0, 0, n, 0⟩

/-- **C42** is false when Python gives the identity of a deleted quantity to a new one: after evaluating `q + 10` (value 13 for the
sample 3) and deleting it, evaluating `q * 10` on the same chunk returns the cached 13 instead of 30. -/
theorem C42_counterexample_identity :
    let h : List (CacheEv ℚ) := [.eval (cxData [3]) (cxChunk 1) cxAdd, .eval (cxData [3]) (cxChunk 1) cxMul]
    (runCached h .new).map firstValue = [some 13, some 13] ∧ (evaluations h).map (firstValue ∘ Evaluation.plain) = [some 13, some 30] := by
  decide +kernel

/-- **C42** is false when samples are added to a chunk: a request for five samples is evaluated while two are stored, then three
more samples are collected; asking again for five samples returns the two old ones. -/
theorem C42_counterexample_growth :
    let h : List (CacheEv ℚ) := [.eval (cxData [3, 4]) (cxChunk 5) cxAdd, .eval (cxData [3, 4, 5, 6, 7]) (cxChunk 5) cxAdd]
    (runCached h .new).map valueCount = [some 2, some 2] ∧ (evaluations h).map (valueCount ∘ Evaluation.plain) = [some 2, some 5] := by
  decide +kernel

/-- A settled history: the same quantity twice, storage growth seen through a new chunk, a cleared cache. -/
def cxHistory : List (CacheEv ℚ) :=
  [.eval (cxData [3, 4]) (cxChunk 2) cxAdd, .eval (cxData [3, 4, 5]) (cxChunk 3) cxAdd, .clear, .eval (cxData [3, 4, 5]) (cxChunk 3) cxMul]

example : (runCached cxHistory .new).map firstValue = [some 13, some 13, some 30] := by decide +kernel

theorem mem_evaluations_append (a b : List (CacheEv K)) : evaluations (a ++ b) = evaluations a ++ evaluations b := by
  induction a with
  | nil => rfl
  | cons e a ih => cases e <;> simp [evaluations, ih]

/-- The hypothesis of `C42_history_partial` holds for the first two evaluations: the same quantity before and after a third sample
was collected. -/
example : Settled (cxHistory.take 2) := by
  intro pre seg post h _ a ha b hb
  have hsub : ∀ x ∈ evaluations seg, x ∈ evaluations (cxHistory.take 2) := fun x hx => by
    rw [h, mem_evaluations_append, mem_evaluations_append]; simp [hx]
  have ha := hsub a ha
  have hb := hsub b hb
  simp only [cxHistory, List.take, evaluations, List.mem_cons, List.not_mem_nil, or_false] at ha hb
  rcases ha with rfl | rfl <;> rcases hb with rfl | rfl <;>
    exact ⟨by simp [cxAdd, cxRoot, Quantity.parts, Quantity.partsList, Quantity.oid], by simp [cxChunk]⟩

/-- The hypothesis of `C42_estimates` holds for the quantities above. -/
example : ∀ s ∈ cxAdd.parts, ∀ t ∈ cxAdd.parts, s.oid = t.oid → s = t := by
  simp [cxAdd, cxRoot, Quantity.parts, Quantity.partsList, Quantity.oid]

end MLMC
