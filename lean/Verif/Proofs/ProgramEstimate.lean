import Verif.Model.Program
import Verif.Spec.Estimate
import Verif.Props.Estimate
import Verif.Props.Storage
/-! Helper lemmas: the estimate on an HDF storage. -/
namespace MLMC

theorem chunkArr_eq {K : Type} [Zero K] [Inhabited K] (g : HdfLevels (List K × List K)) (ch : Chunk) (x : LevelGroup (List K × List K))
    (vals : List (List K × List K)) (W : Nat) (hx : g[ch.levelId]? = some x) (hv : x.collectedValues = some vals)
    (hw : ∀ v ∈ vals, v.1.length = W ∧ v.2.length = W) (hne : vals ≠ []) :
    hdfChunkArr g ch = .ok (levelBatch ch.levelId W ((vals.drop ch.start).take (ch.stop - ch.start))).toArr := by
  have hvec : vecLen vals = W := by
    cases vals with
    | nil => exact absurd rfl hne
    | cons v vs => exact (hw v (by simp)).1
  have hcol : x.collected ch = some ((vals.drop ch.start).take (ch.stop - ch.start)) := by simp [LevelGroup.collected, hv]
  have hsl : ∀ v ∈ (vals.drop ch.start).take (ch.stop - ch.start), v.1.length = W ∧ v.2.length = W :=
    fun v h => hw v (List.mem_of_mem_drop (List.mem_of_mem_take h))
  simp only [hdfChunkArr, hdfPairsLevel, hx, hv, hcol, hvec, Option.bind_some, Option.getD_some]
  generalize hs : (vals.drop ch.start).take (ch.stop - ch.start) = sl at hsl ⊢
  show Except.ok _ = _
  congr 1
  simp only [arrOfLists, Batch.toArr, levelBatch, chunkArray, List.length_map, List.map_map]
  congr 1
  apply List.map_congr_left
  intro i hi
  rw [List.mem_range] at hi
  funext j k
  simp only [Function.comp]
  by_cases hj : j < sl.length
  · have h := hsl _ (List.getElem_mem hj)
    have h1 : i < sl[j].1.length := by omega
    have h2 : i < sl[j].2.length := by omega
    by_cases hl : ch.levelId = 0
    · rcases k with _ | k <;> simp [hj, hl, h1]
    · rcases k with _ | _ | k <;> simp [hj, hl, h1, h2]
  · simp [List.getElem?_eq_none (Nat.le_of_not_lt hj)]

/-- The stored pairs of a level. -/
def valsAt {V : Type} (g : HdfLevels V) (l : Nat) : List V := ((g[l]?).bind (·.collectedValues)).getD []

theorem allChunks_eq {V : Type} (g : HdfLevels V) (c : Nat → Nat) (h : ∀ x ∈ g, ∃ v, x.collectedValues = some v) :
    hdfAllChunks g c = .ok ((List.range g.length).flatMap fun l => iterChunks (c l) l (valsAt g l).length 0 0 (valsAt g l).length) := by
  unfold hdfAllChunks
  rw [mapM_ok_range _ _ (fun l => iterChunks (c l) l (valsAt g l).length 0 0 (valsAt g l).length)]
  · simp [Except.map, List.flatMap_def]
  · intro l y hy
    obtain ⟨x, l'⟩ := y
    have hl := (List.getElem?_eq_some_iff.1 hy).1
    rw [List.length_zipIdx] at hl
    rw [List.getElem?_zipIdx, List.getElem?_eq_getElem hl] at hy
    simp only [Option.map_some, Option.some.injEq, Prod.mk.injEq, Nat.zero_add] at hy
    obtain ⟨e1, e2⟩ := hy
    subst e1; subst e2
    obtain ⟨v, hv⟩ := h _ (List.getElem_mem hl)
    simp [LevelGroup.chunks, hv, valsAt, hl]

/-- Values `v` of level `l` as samples. -/
def asSamples {K : Type} (l : Nat) (vals : List (List K × List K)) : List (Sample K) :=
  vals.map fun v => if l = 0 then [v.1] else [v.1, v.2]

theorem isEstimate_congr {F : Type} [Field F] {q : Quantity (Option F)} {sid W n : Nat} {d d' : Nat → List (Sample (Option F))} {e : QuantityMean F}
    (hd : ∀ l, l < n → d l = d' l) (h : IsEstimate q sid W n d e) : IsEstimate q sid W n d' e := by
  have key : ∀ {α : Type} (f : Nat → List (Sample (Option F)) → α), ((List.range n).map fun l => f l (d l)) = (List.range n).map fun l => f l (d' l) := by
    intro α f
    exact List.map_congr_left fun l hl => by rw [hd l (List.mem_range.1 hl)]
  exact ⟨h.qtype, h.used.trans (key fun _ x => (usedValues q sid W x).length), h.dropped.trans (key fun _ x => ((levelValues q sid W x).filter hasNan).length),
    h.means.trans (key fun l x => (List.range q.size).map fun i => if usedValues q sid W x = [] then none else some (average (usedDiffs q sid W l i x))),
    h.vars.trans (key fun l x => (List.range q.size).map fun i => if (usedValues q sid W x).length ≤ 1 then none else some (sampleVar (usedDiffs q sid W l i x)))⟩

/-- `estimate_mean` on an HDF storage with results of length `W` on every level. -/
theorem estimateFromStorage_eq {F : Type} [Field F] (g : HdfLevels (List (Option F) × List (Option F))) (c : Nat → Nat) (hc : ∀ l, 0 < c l) (sid W : Nat)
    (q : Quantity (Option F)) (h : ∀ x ∈ g, ∃ v, x.collectedValues = some v ∧ ∀ e ∈ v, e.1.length = W ∧ e.2.length = W) :
    ∃ chunks : List (Nat × List (Sample (Option F))), ChunksWF W chunks ∧ (∀ ch ∈ chunks, ch.1 < g.length) ∧
      (∀ l, l < g.length → levelData chunks l = asSamples l (valsAt g l)) ∧
      estimateFromStorage g c sid q = estimateMean q g.length (asChunks sid W chunks) := by
  set D : Chunk → Nat × List (Sample (Option F)) := fun ch =>
    (ch.levelId, asSamples ch.levelId (((valsAt g ch.levelId).drop ch.start).take (ch.stop - ch.start))) with hD
  have hval : ∀ l, l < g.length → ∃ x, g[l]? = some x ∧ x.collectedValues = some (valsAt g l) ∧ ∀ e ∈ valsAt g l, e.1.length = W ∧ e.2.length = W := by
    intro l hl
    obtain ⟨v, hv, hw⟩ := h _ (List.getElem_mem hl)
    have : valsAt g l = v := by simp [valsAt, hl, hv]
    exact ⟨g[l], List.getElem?_eq_getElem hl, by rw [this]; exact hv, by rw [this]; exact hw⟩
  have hall := allChunks_eq g c fun x hx => by obtain ⟨v, hv, _⟩ := h x hx; exact ⟨v, hv⟩
  set chs := (List.range g.length).flatMap fun l => iterChunks (c l) l (valsAt g l).length 0 0 (valsAt g l).length with hchs
  have hmem : ∀ ch ∈ chs, ch.levelId < g.length ∧ valsAt g ch.levelId ≠ [] := by
    intro ch hch
    obtain ⟨l, hl, hm⟩ := List.mem_flatMap.1 hch
    have := iterChunks_bounds (c l) l (hc l) _ _ _ _ ch hm
    have hlev : ch.levelId = l := by omega
    refine ⟨by rw [hlev]; exact List.mem_range.1 hl, ?_⟩
    rw [hlev]
    intro e; rw [e] at this; simp at this; omega
  refine ⟨chs.map D, ?_, ?_, ?_, ?_⟩
  · intro e he
    obtain ⟨ch, hch, rfl⟩ := List.mem_map.1 he
    obtain ⟨x, _, _, hw⟩ := hval _ (hmem ch hch).1
    exact levelBatch_wf ch.levelId W _ fun v hv => hw v (List.mem_of_mem_drop (List.mem_of_mem_take hv))
  · intro e he
    obtain ⟨ch, hch, rfl⟩ := List.mem_map.1 he
    exact (hmem ch hch).1
  · intro l hl
    have h1 : ∀ m, m ≤ g.length → levelData (((List.range m).flatMap fun l => iterChunks (c l) l (valsAt g l).length 0 0 (valsAt g l).length).map D) l =
        if l < m then asSamples l (valsAt g l) else [] := by
      intro m
      induction m with
      | zero => intro _; rfl
      | succ m ih =>
        intro hm
        rw [List.range_succ, List.flatMap_append, List.map_append]
        have hsplit : ∀ a b : List (Nat × List (Sample (Option F))), levelData (a ++ b) l = levelData a l ++ levelData b l := by
          intro a b; simp [levelData]
        rw [hsplit, ih (by omega)]
        simp only [List.flatMap_cons, List.flatMap_nil, List.append_nil]
        have hlast : levelData ((iterChunks (c m) m (valsAt g m).length 0 0 (valsAt g m).length).map D) l = if m = l then asSamples l (valsAt g l) else [] := by
          have hb := iterChunks_bounds (c m) m (hc m) (valsAt g m).length (valsAt g m).length 0 0
          have hj := iterChunks_join (c m) m (hc m) (valsAt g m) (valsAt g m).length 0 0 (by omega)
          generalize iterChunks (c m) m (valsAt g m).length 0 0 (valsAt g m).length = L at hb hj
          by_cases e : m = l
          · subst e
            rw [if_pos rfl]
            have : levelData (L.map D) m = asSamples m (L.flatMap fun ch => ((valsAt g m).drop ch.start).take (ch.stop - ch.start)) := by
              clear hj
              induction L with
              | nil => rfl
              | cons ch L ih' =>
                have hlev := (hb ch (by simp)).2.2.2.2.1
                have := ih' fun c' hc' => hb c' (by simp [hc'])
                rw [List.map_cons, show levelData (D ch :: L.map D) m = levelData [D ch] m ++ levelData (L.map D) m from by
                  simp [levelData, List.filter_cons]; split <;> simp, this, List.flatMap_cons]
                simp [levelData, hD, hlev, asSamples]
            rw [this, hj, List.drop_zero]
          · rw [if_neg e]
            unfold levelData
            rw [List.filter_eq_nil_iff.2]
            · rfl
            · intro a ha
              obtain ⟨ch, hch, rfl⟩ := List.mem_map.1 ha
              have hlev := (hb ch hch).2.2.2.2.1
              simp [hD, hlev, e]
        rw [hlast]
        by_cases h2 : l < m
        · have : m ≠ l := by omega
          simp [h2, this, Nat.lt_succ_of_lt h2]
        · by_cases h3 : m = l
          · simp [h3]
          · have : ¬ l < m + 1 := by omega
            simp [h2, h3, this]
    rw [h1 _ le_rfl, if_pos hl]
  · unfold estimateFromStorage
    rw [hall]
    show estimateMean q g.length _ = _
    congr 1
    unfold asChunks
    rw [List.map_map]
    apply List.map_congr_left
    intro ch hch
    obtain ⟨x, hx, hv, hw⟩ := hval _ (hmem ch hch).1
    simp only [Function.comp, hD, Prod.mk.injEq, true_and]
    funext o
    split
    · exact @chunkArr_eq _ ⟨some 0⟩ _ g ch x _ W hx hv hw (hmem ch hch).2
    · rfl

end MLMC
