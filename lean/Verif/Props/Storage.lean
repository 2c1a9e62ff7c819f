import Verif.Proofs.StorageLemmas
import Mathlib.Tactic.Linarith
/-!
Properties C15–C18 and C25 of the storages (English text in /verif/properties.jsonl).
`savedSucc ops l`, `savedFailed ops l`, `savedSched ops l` (Verif/Spec/History.lean) are what the history `ops` of
storage calls passed for level `l`.
-/
namespace MLMC
variable {V : Type}

/-! ## C15 Stored sample pairs are read back exactly -/

theorem chunkArray_entry {K : Type} [Zero K] (l M : Nat) (ps : List (SampleId × (List K × List K)))
    (hM : ∀ p ∈ ps, p.2.1.length = M ∧ p.2.2.length = M) :
    (chunkArray l M (ps.map (·.2))).length = M ∧
    ∀ m, m < M → ∃ row, (chunkArray l M (ps.map (·.2)))[m]? = some row ∧ row.length = ps.length ∧
      ∀ (i : Nat) (p : SampleId × (List K × List K)), ps[i]? = some p → ∃ x y, p.2.1[m]? = some x ∧ p.2.2[m]? = some y ∧
        row[i]? = some (if l = 0 then [x] else [x, y]) := by
  refine ⟨by simp [chunkArray], ?_⟩
  intro m hm
  refine ⟨(ps.map (·.2)).map fun v => if l = 0 then [v.1.getD m 0] else [v.1.getD m 0, v.2.getD m 0], ?_, by simp, ?_⟩
  · simp [chunkArray, List.getElem?_map, List.getElem?_range hm]
  · intro i p hp
    obtain ⟨h1, h2⟩ := hM p (List.mem_of_getElem? hp)
    refine ⟨p.2.1[m], p.2.2[m], List.getElem?_eq_getElem _, List.getElem?_eq_getElem _, ?_⟩
    simp [List.getElem?_map, hp, List.getD_eq_getElem?_getD, List.getElem?_eq_getElem (show m < p.2.1.length by omega),
      List.getElem?_eq_getElem (show m < p.2.2.length by omega)]

/-- C15 for the HDF storage: after any history on a new storage with `n` levels, reading level `l` (all samples) gives
an array whose row `m` has one entry per saved sample, in saving order, with the fine and (except on level 0) coarse
value number `m` of that sample. -/
theorem C15_hdf_pairs_read_back {K : Type} [Zero K] (n l M : Nat) (hl : l < n)
    (ops : List (StoreOp (List K × List K)))
    (hM : ∀ p ∈ savedSucc ops l, p.2.1.length = M ∧ p.2.2.length = M) (hne : savedSucc ops l ≠ []) :
    ∃ a, hdfPairsLevel (hdfRun (hdfFresh _ n) ops) ⟨0, 0, (savedSucc ops l).length, l⟩ = .ok a ∧ a.length = M ∧
      ∀ m, m < M → ∃ row, a[m]? = some row ∧ row.length = (savedSucc ops l).length ∧
        ∀ (i : Nat) (p : SampleId × (List K × List K)), (savedSucc ops l)[i]? = some p → ∃ x y, p.2.1[m]? = some x ∧ p.2.2[m]? = some y ∧
          row[i]? = some (if l = 0 then [x] else [x, y]) := by
  obtain ⟨y, hy, _, _, hv, _⟩ := hdf_fresh_spec n l hl ops
  rw [if_neg hne] at hv
  have hlen : vecLen ((savedSucc ops l).map (·.2)) = M := by
    cases hs : savedSucc ops l with
    | nil => exact absurd hs hne
    | cons p ps => simpa [vecLen] using (hM p (by simp [hs])).1
  refine ⟨chunkArray l M ((savedSucc ops l).map (·.2)), ?_, chunkArray_entry l M _ hM⟩
  simp only [hdfPairsLevel, hy, hv, LevelGroup.collected, Option.map_some, hlen, List.drop_zero, Nat.sub_zero]
  rw [List.take_of_length_le (by simp)]

/-- C15 for the memory storage. -/
theorem C15_memory_pairs_read_back {K : Type} [Zero K] (l M : Nat) (ops : List (StoreOp (List K × List K)))
    (mem : MemStore (List K × List K)) (hrun : memRun {} ops = .ok mem)
    (hM : ∀ p ∈ savedSucc ops l, p.2.1.length = M ∧ p.2.2.length = M) (hne : savedSucc ops l ≠ []) :
    ∃ a, memPairsLevel mem ⟨0, 0, (savedSucc ops l).length, l⟩ = .ok a ∧ a.length = M ∧
      ∀ m, m < M → ∃ row, a[m]? = some row ∧ row.length = (savedSucc ops l).length ∧
        ∀ (i : Nat) (p : SampleId × (List K × List K)), (savedSucc ops l)[i]? = some p → ∃ x y, p.2.1[m]? = some x ∧ p.2.2[m]? = some y ∧
          row[i]? = some (if l = 0 then [x] else [x, y]) := by
  have h := (memRun_spec l ops mem hrun).results
  rw [if_neg hne] at h
  have hlen : vecLen ((savedSucc ops l).map (·.2)) = M := by
    cases hs : savedSucc ops l with
    | nil => exact absurd hs hne
    | cons p ps => simpa [vecLen] using (hM p (by simp [hs])).1
  refine ⟨chunkArray l M ((savedSucc ops l).map (·.2)), ?_, chunkArray_entry l M _ hM⟩
  simp only [memPairsLevel, h, MemStore.collected, hlen, List.drop_zero, Nat.sub_zero]
  rw [List.take_of_length_le (by simp)]

/-- C15: `sample_pairs()` of the HDF storage gives the saved values of all levels when every level has some, and raises
otherwise. -/
theorem C15_hdf_sample_pairs (n : Nat) (hn : 0 < n) (ops : List (StoreOp V)) :
    ((∀ l, l < n → savedSucc ops l ≠ []) →
      hdfSamplePairs (hdfRun (hdfFresh V n) ops) = .ok ((List.range n).map fun l => (savedSucc ops l).map (·.2))) ∧
    ((∃ l, l < n ∧ savedSucc ops l = []) → hdfSamplePairs (hdfRun (hdfFresh V n) ops) = .error .assertionError) := by
  have hlen : (hdfRun (hdfFresh V n) ops).length = n := by rw [hdfRun_length]; simp [hdfFresh]
  have hnil : hdfRun (hdfFresh V n) ops ≠ [] := by intro h; rw [h] at hlen; simp at hlen; omega
  constructor
  · intro hall
    simp only [hdfSamplePairs, hnil, if_false]
    rw [mapM_ok_range _ _ (fun l => (savedSucc ops l).map (·.2)), hlen]
    intro l y hy
    have hl : l < n := by
      rcases Nat.lt_or_ge l n with h | h
      · exact h
      · rw [List.getElem?_eq_none (by omega)] at hy; simp at hy
    obtain ⟨y', hy', _, _, hv, _⟩ := hdf_fresh_spec n l hl ops
    rw [hy] at hy'; cases hy'
    rw [if_neg (hall l hl)] at hv
    rw [hv]
    simp only [List.drop_zero, Nat.sub_zero]
    rw [List.take_of_length_le (by simp)]
  · rintro ⟨l, hl, he⟩
    simp only [hdfSamplePairs, hnil, if_false]
    apply mapM_error_of
    · obtain ⟨y', hy', _, _, hv, _⟩ := hdf_fresh_spec n l hl ops
      rw [if_pos he] at hv
      exact ⟨y', List.mem_of_getElem? hy', by rw [hv]⟩
    · intro y _ e' h
      cases hc : y.collectedValues <;> rw [hc] at h <;> cases h
      rfl

/-- C15: `sample_pairs()` of the memory storage when exactly the levels `0 … n-1` have samples. -/
theorem C15_memory_sample_pairs (n : Nat) (ops : List (StoreOp V)) (mem : MemStore V) (hrun : memRun {} ops = .ok mem)
    (hall : ∀ l, savedSucc ops l ≠ [] ↔ l < n) :
    mem.samplePairs = .ok ((List.range n).map fun l => (savedSucc ops l).map (·.2)) := by
  have hk : ∀ l, l ∈ Dict.keys mem.results ↔ l < n := by
    intro l
    rw [← Dict.get?_isSome_iff, (memRun_spec l ops mem hrun).results, ← hall l]
    split <;> simp_all
  have hlen : mem.results.length = n := by
    have h1 : (Dict.keys mem.results).Perm (List.range n) :=
      (List.perm_ext_iff_of_nodup (memRun_keys ops mem hrun) List.nodup_range).2 (by simp [hk])
    have := h1.length_eq
    simpa [Dict.keys] using this
  have hall' : (MemStore.levelIds mem).all (fun x => decide (x < n)) = true := by
    rw [List.all_eq_true]
    intro x hx
    simpa using (hk x).1 hx
  simp only [MemStore.samplePairs, hlen, hall', if_true]
  congr 1
  apply List.map_congr_left
  intro l hl
  rw [(memRun_spec l ops mem hrun).results]
  split
  · rename_i h; simp [h]
  · rfl

/-- Non-vacuity of C15: two batches on level 1 and one on level 0, with failures in between. -/
example : let ops : List (StoreOp (List ℚ × List ℚ)) :=
      [.scheduled 0 [['a']], .samples [(1, [(['x'], ([1, 2], [3, 4]))]), (0, [(['a'], ([9], [0]))])] [(1, [(['f'], ['e'])])],
       .samples [(1, [(['y'], ([5, 6], [7, 8]))])] []]
    hdfPairsLevel (hdfRun (hdfFresh _ 2) ops) ⟨0, 0, 2, 1⟩ = .ok [[[1, 3], [5, 7]], [[2, 4], [6, 8]]] ∧
    hdfPairsLevel (hdfRun (hdfFresh _ 2) ops) ⟨0, 0, 1, 0⟩ = .ok [[[9]]] ∧
    (memRun {} ops).bind (fun m => memPairsLevel m ⟨0, 0, 2, 1⟩) = .ok [[[1, 3], [5, 7]], [[2, 4], [6, 8]]] := by
  decide +kernel

/-! ## C16 Finished counts equal successful plus failed -/

/-- C16 for the HDF storage. -/
theorem C16_hdf_finished_counts (n : Nat) (ops : List (StoreOp V)) :
    hdfNFinished (hdfRun (hdfFresh V n) ops) =
      .ok ((List.range n).map fun l => (savedSucc ops l).length + (savedFailed ops l).length) := by
  have hlen : (hdfRun (hdfFresh V n) ops).length = n := by rw [hdfRun_length]; simp [hdfFresh]
  simp only [hdfNFinished]
  rw [mapM_ok_range _ _ (fun l => (savedSucc ops l).length + (savedFailed ops l).length), hlen]
  intro l y hy
  have hl : l < n := by
    rcases Nat.lt_or_ge l n with h | h
    · exact h
    · rw [List.getElem?_eq_none (by omega)] at hy; simp at hy
  obtain ⟨y', hy', _, hi, _, hf⟩ := hdf_fresh_spec n l hl ops
  rw [hy] at hy'; cases hy'
  simp only [LevelGroup.finishedIds, hf, hi]
  simp [bind, Except.bind, pure, Except.pure]

/-- Number of finished samples of level `l` known to the memory storage. -/
def memFinishedAt (m : MemStore V) (l : Nat) : Option Nat :=
  match m.nFinishedArr with
  | .ok a => (a[l]?).join
  | .error _ => none

/-- The memory storage violates C16: a level whose first saved batch contains only failed samples is counted as 0. -/
theorem C16_memory_counterexample :
    let ops : List (StoreOp Unit) := [.samples [] [(0, [(['a'], ['e']), (['b'], ['e'])])]]
    (savedSucc ops 0).length + (savedFailed ops 0).length = 2 ∧
      ∃ m, memRun {} ops = .ok m ∧ memFinishedAt m 0 = some 0 := by
  refine ⟨rfl, _, rfl, by decide +kernel⟩

theorem foldl_max_ge (l : List Nat) : ∀ a, a ≤ l.foldl max a ∧ ∀ x ∈ l, x ≤ l.foldl max a := by
  induction l with
  | nil => intro a; simp
  | cons y l ih =>
    intro a
    obtain ⟨h1, h2⟩ := ih (max a y)
    refine ⟨by simp only [List.foldl_cons]; omega, ?_⟩
    intro x hx
    simp only [List.foldl_cons]
    rcases List.mem_cons.1 hx with rfl | hx
    · omega
    · exact h2 x hx

theorem memFinishedAt_eq (m : MemStore V) (l : Nat) : memFinishedAt m l = Dict.get? m.nFinished l := by
  unfold memFinishedAt MemStore.nFinishedArr
  cases h : m.nFinished with
  | nil => simp
  | cons p d =>
    simp only
    by_cases hl : l < (Dict.keys (p :: d)).foldl max 0 + 1
    · simp [List.getElem?_map, List.getElem?_range hl]
    · rw [List.getElem?_eq_none (by simp; simpa using hl)]
      symm
      simp only [Option.join_none]
      rw [Dict.get?_eq_none_iff]
      intro hk
      have := (foldl_max_ge (Dict.keys (p :: d)) 0).2 l hk
      omega

theorem nFin_saveSuccessful {l : Nat} (s : Dict Nat (List (SampleId × V))) : ∀ {m m' : MemStore V},
    s.foldlM MemStore.saveSuccessful1 m = .ok m' →
    Dict.get? m'.nFinished l = if atLevel s l = [] then Dict.get? m.nFinished l
      else some ((Dict.get? m.nFinished l).getD 0 + (atLevel s l).length) := by
  induction s with
  | nil => intro m m' hs; cases hs; simp [atLevel]
  | cons e s ih =>
    intro m m' hs
    rw [List.foldlM_cons] at hs
    cases h1 : m.saveSuccessful1 e with
    | error x => rw [h1] at hs; cases hs
    | ok m1 =>
      rw [h1] at hs
      rw [ih hs]
      obtain ⟨l', res⟩ := e
      simp only [MemStore.saveSuccessful1] at h1
      split at h1
      · cases h1
      · rename_i hne
        cases h1
        have h2 : atLevel ((l', res) :: s) l = (if l' = l then res else []) ++ atLevel s l := rfl
        rw [h2]
        by_cases hl : l' = l
        · subst hl
          simp only [if_true, Dict.get?_upd_self, List.append_eq_nil_iff, hne, false_and, if_false]
          by_cases hs : atLevel s l' = []
          · simp [hs]
          · simp [hs]; omega
        · have hl' : l ≠ l' := fun e => hl e.symm
          simp [hl, Dict.get?_upd_ne _ _ _ hl']

theorem nFin_saveFailed {l : Nat} (f : Dict Nat (List (SampleId × Msg))) : ∀ {m : MemStore V} {k : Nat},
    Dict.get? m.nFinished l = some k →
    Dict.get? (f.foldl MemStore.saveFailed1 m).nFinished l = some (k + (atLevel f l).length) := by
  induction f with
  | nil => intro m k h; simpa [atLevel] using h
  | cons e f ih =>
    intro m k h
    obtain ⟨l', res⟩ := e
    have h2 : atLevel ((l', res) :: f) l = (if l' = l then res else []) ++ atLevel f l := rfl
    have h1 : Dict.get? (m.saveFailed1 (l', res)).nFinished l = some (k + (if l' = l then res else []).length) := by
      by_cases hl : l' = l
      · subst hl
        simp [MemStore.saveFailed1, h, Dict.get?_set_self]
      · have hl' : l ≠ l' := fun e => hl e.symm
        simp only [MemStore.saveFailed1]
        cases Dict.get? m.nFinished l' <;> simp [Dict.get?_set_ne _ _ hl', h, hl]
    rw [List.foldl_cons, ih h1, h2]
    simp; omega

theorem nFin_saveFailed_none {l : Nat} (f : Dict Nat (List (SampleId × Msg))) : ∀ {m : MemStore V},
    l ∉ Dict.keys f →
    Dict.get? (f.foldl MemStore.saveFailed1 m).nFinished l = Dict.get? m.nFinished l := by
  induction f with
  | nil => intro m _; rfl
  | cons e f ih =>
    intro m h
    obtain ⟨l', res⟩ := e
    simp only [Dict.keys, List.map_cons, List.mem_cons, not_or] at h
    rw [List.foldl_cons, ih h.2]
    simp only [MemStore.saveFailed1]
    cases Dict.get? m.nFinished l' <;> simp [Dict.get?_set_ne _ _ h.1]

theorem atLevel_nil_of_not_key {α : Type} (f : Dict Nat (List α)) (l : Nat) (h : l ∉ Dict.keys f) :
    atLevel f l = [] := by
  induction f with
  | nil => rfl
  | cons e f ih =>
    simp only [Dict.keys, List.map_cons, List.mem_cons, not_or] at h
    have h1 : e.1 ≠ l := fun x => h.1 x.symm
    show (if e.1 = l then e.2 else []) ++ atLevel f l = []
    simp [h1, ih h.2]

theorem nOps_nFinished (e : List (Nat × (ℚ × ℚ))) : ∀ (m : MemStore V), (m.saveNOps e).nFinished = m.nFinished := by
  induction e with
  | nil => intro m; rfl
  | cons a e ih => intro m; show (MemStore.saveNOps _ e).nFinished = _; rw [ih]

/-- C16 for the memory storage, partial: the count is right for every level `l` whose failures are only reported in or
after a call that reports a success of the level.  Missing: levels that start with a batch of failures only
(`C16_memory_counterexample`). -/
theorem C16_memory_finished_counts_partial (l : Nat) (ops : List (StoreOp V)) (mem : MemStore V)
    (hrun : memRun {} ops = .ok mem)
    (hfirst : ∀ a s f b, ops = a ++ .samples s f :: b → l ∈ Dict.keys f → savedSucc (a ++ [.samples s f]) l ≠ [])
    (hsome : savedSucc ops l ≠ []) :
    memFinishedAt mem l = some ((savedSucc ops l).length + (savedFailed ops l).length) := by
  rw [memFinishedAt_eq]
  have key : ∀ (ops : List (StoreOp V)) (mem : MemStore V), memRun {} ops = .ok mem →
      (∀ a s f b, ops = a ++ .samples s f :: b → l ∈ Dict.keys f → savedSucc (a ++ [.samples s f]) l ≠ []) →
      (Dict.get? mem.nFinished l = if savedSucc ops l = [] then none
        else some ((savedSucc ops l).length + (savedFailed ops l).length)) ∧
      (savedSucc ops l = [] → savedFailed ops l = []) := by
    intro ops
    induction ops using List.reverseRecOn with
    | nil => intro m h _; cases h; exact ⟨rfl, fun _ => rfl⟩
    | append_singleton ops o ih =>
      intro m h hf
      rw [memRun_snoc] at h
      cases h0 : memRun {} ops with
      | error e => rw [h0] at h; cases h
      | ok m0 =>
        rw [h0] at h
        change memStep m0 o = .ok m at h
        obtain ⟨h1, h1'⟩ := ih m0 h0 (fun a s f b he => hf a s f (b ++ [o]) (by rw [he]; simp))
        rw [savedSucc_snoc, savedFailed_snoc]
        cases o with
        | scheduled l' ids => cases h; simp only [List.append_nil]; exact ⟨h1, h1'⟩
        | samples s f =>
          simp only [memStep, MemStore.saveSamples] at h
          cases h2 : List.foldlM MemStore.saveSuccessful1 m0 s with
          | error e => rw [h2] at h; cases h
          | ok m2 =>
            rw [h2] at h
            cases h
            have h3 := nFin_saveSuccessful (l := l) s h2
            rw [h1] at h3
            have hlast := hf ops s f [] rfl
            rw [savedSucc_snoc] at hlast
            simp only at hlast ⊢
            by_cases hs0 : savedSucc ops l ++ atLevel s l = []
            · have hk : l ∉ Dict.keys f := fun hk => hlast hk hs0
              obtain ⟨ha, hb⟩ := List.append_eq_nil_iff.1 hs0
              rw [if_pos hs0, nFin_saveFailed_none f hk, h3, if_pos hb, if_pos ha, atLevel_nil_of_not_key f l hk, h1' ha]
              exact ⟨rfl, fun _ => rfl⟩
            · rw [if_neg hs0]
              refine ⟨?_, fun h => absurd h hs0⟩
              by_cases hb : atLevel s l = []
              · rw [if_pos hb] at h3
                have ha : savedSucc ops l ≠ [] := by simpa [hb] using hs0
                rw [if_neg ha] at h3
                rw [nFin_saveFailed f h3, hb]; simp; omega
              · rw [if_neg hb] at h3
                rw [nFin_saveFailed f h3]
                by_cases ha : savedSucc ops l = []
                · simp [ha, h1' ha]
                · simp [ha]; omega
        | nOps e => cases h; simp only [List.append_nil]; rw [nOps_nFinished]; exact ⟨h1, h1'⟩
        | clearFailed => cases h
  have := (key ops mem hrun hfirst).1
  rwa [if_neg hsome] at this

/-- Non-vacuity of C16 (both storages, with a batch of failures after a success). -/
example : let ops : List (StoreOp Unit) := [.samples [(0, [(['a'], ())]), (1, [(['b'], ())])] [], .samples [] [(1, [(['c'], [])])]]
    hdfNFinished (hdfRun (hdfFresh Unit 2) ops) = .ok [1, 2] ∧
    (memRun {} ops).bind MemStore.nFinishedArr = .ok [some 1, some 2] := by decide +kernel

/-! ## C17 Chunks cover the collected samples exactly once -/

/-- C17: for every stored content, every HDF chunk length `c > 0`: reading chunk by chunk and concatenating gives all
values in order; chunks are non-empty, at most `c` long, inside the data and numbered from 0; asking for `k` samples
gives one chunk with the first `k`. -/
theorem C17_chunks_cover (x : LevelGroup V) (vals : List V) (hv : x.collectedValues = some vals) (c : Nat) (hc : 0 < c)
    (level : Nat) :
    (∃ chs, x.chunks c level none = .ok chs ∧
      chs.flatMap (fun ch => (x.collected ch).getD []) = vals ∧
      (∀ ch ∈ chs, ch.start < ch.stop ∧ ch.stop ≤ vals.length ∧ ch.stop - ch.start ≤ c ∧ ch.levelId = level) ∧
      chs.map (·.chunkId) = List.range chs.length) ∧
    (∀ k, ∃ ch, x.chunks c level (some k) = .ok [ch] ∧ x.collected ch = some (vals.take k)) := by
  constructor
  · refine ⟨iterChunks c level vals.length 0 0 vals.length, by simp [LevelGroup.chunks, hv], ?_, ?_, ?_⟩
    · have := iterChunks_join c level hc vals vals.length 0 0 (by omega)
      simpa [LevelGroup.collected, hv] using this
    · intro ch hch
      have := iterChunks_bounds c level hc vals.length _ _ _ ch hch
      omega
    · rw [iterChunks_ids, List.range_eq_range']
  · intro k
    exact ⟨⟨0, 0, k, level⟩, by simp [LevelGroup.chunks, hv], by simp [LevelGroup.collected, hv]⟩

/-- C17 for the memory storage: its single chunk has all samples, or the first `k`. -/
theorem C17_memory_chunks (m : MemStore V) (level : Nat) (vals : List V) (hv : Dict.get? m.results level = some vals)
    (k : Option Nat) :
    ∃ ch, m.levelChunks level k = .ok [ch] ∧
      m.collected ch = .ok (match k with | none => vals | some k => vals.take k) := by
  cases k with
  | none =>
    refine ⟨⟨0, 0, vals.length, level⟩, by simp [MemStore.levelChunks, hv], ?_⟩
    simp [MemStore.collected, hv]
  | some k =>
    refine ⟨⟨0, 0, (vals.take k).length, level⟩, by simp [MemStore.levelChunks, hv], ?_⟩
    simp only [MemStore.collected, hv, List.drop_zero, Nat.sub_zero, Except.ok.injEq]
    rw [List.length_take]
    rcases Nat.le_total k vals.length with h | h
    · rw [Nat.min_eq_left h]
    · rw [Nat.min_eq_right h, List.take_of_length_le (le_refl _), List.take_of_length_le h]

/-- C17, any part of a level: reading the chunk `[start, stop)` of either storage gives the samples at the positions
`start`, …, `stop - 1` (as far as they exist), in order. -/
theorem C17_chunk_positions (vals : List V) (ch : Chunk) :
    (∀ m : MemStore V, Dict.get? m.results ch.levelId = some vals → ∃ got, m.collected ch = .ok got ∧
      ∀ i, got[i]? = if ch.start + i < ch.stop then vals[ch.start + i]? else none) ∧
    (∀ x : LevelGroup V, x.collectedValues = some vals → ∃ got, x.collected ch = some got ∧
      ∀ i, got[i]? = if ch.start + i < ch.stop then vals[ch.start + i]? else none) := by
  have key : ∀ i, ((vals.drop ch.start).take (ch.stop - ch.start))[i]? =
      if ch.start + i < ch.stop then vals[ch.start + i]? else none := by
    intro i
    rw [List.getElem?_take, List.getElem?_drop]
    have : i < ch.stop - ch.start ↔ ch.start + i < ch.stop := by omega
    simp only [this]
  constructor
  · intro m hm
    exact ⟨_, by simp only [MemStore.collected, hm], key⟩
  · intro x hx
    exact ⟨_, by simp only [LevelGroup.collected, hx, Option.map_some], key⟩

example : ({ results := [(3, [10, 11, 12, 13])] } : MemStore Nat).collected ⟨0, 1, 3, 3⟩ = .ok [11, 12] := by decide +kernel

example : (⟨[], [], some [10, 11, 12, 13, 14], some [], none⟩ : LevelGroup Nat).chunks 2 1 none =
    .ok [⟨0, 0, 2, 1⟩, ⟨1, 2, 4, 1⟩, ⟨2, 4, 5, 1⟩] := by decide +kernel

/-! ## C18 Unfinished identifiers are exactly scheduled minus finished -/

/-- The identifier was saved as scheduled on level `l` and neither as successful nor as failed. -/
def OpenAt (ops : List (StoreOp V)) (id : SampleId) (l : Nat) : Prop :=
  id ∈ savedSched ops l ∧ id ∉ (savedSucc ops l).map (·.1) ∧ id ∉ (savedFailed ops l).map (·.1)

instance (ops : List (StoreOp V)) (id : SampleId) (l : Nat) : Decidable (OpenAt ops id l) := by
  unfold OpenAt; infer_instance

/-- C18. -/
theorem C18_unfinished_ids (n : Nat) (ops : List (StoreOp V)) :
    ∃ r, hdfUnfinishedIds (hdfRun (hdfFresh V n) ops) = .ok r ∧
      (∀ id, id ∈ r ↔ ∃ l, l < n ∧ OpenAt ops id l) ∧
      (∀ id, r.count id = ((List.range n).filter fun l => decide (OpenAt ops id l)).length) ∧
      ((∀ l id, l < n → id ∈ savedSched ops l → id ∈ (savedSucc ops l).map (·.1) ∨ id ∈ (savedFailed ops l).map (·.1)) →
        r = []) := by
  have hlen : (hdfRun (hdfFresh V n) ops).length = n := by rw [hdfRun_length]; simp [hdfFresh]
  let h : Nat → List SampleId := fun l => (savedSched ops l).dedup.filter
    (fun i => decide (i ∉ (savedSucc ops l).map (·.1) ++ (savedFailed ops l).map (·.1)))
  have hm : (hdfRun (hdfFresh V n) ops).mapM LevelGroup.unfinishedIds = .ok ((List.range n).map h) := by
    rw [mapM_ok_range _ _ h, hlen]
    intro l y hy
    have hl : l < n := by
      rcases Nat.lt_or_ge l n with h | h
      · exact h
      · rw [List.getElem?_eq_none (by omega)] at hy; simp at hy
    obtain ⟨y', hy', hs, hi, _, hf⟩ := hdf_fresh_spec n l hl ops
    rw [hy] at hy'; cases hy'
    simp only [LevelGroup.unfinishedIds, LevelGroup.finishedIds, hf, hi, hs]
    rfl
  have hmem : ∀ id l, id ∈ h l ↔ OpenAt ops id l := by
    intro id l
    simp only [h, List.mem_filter, List.mem_dedup, OpenAt, List.mem_append, not_or, decide_eq_true_eq]
  refine ⟨((List.range n).map h).flatten, by simp only [hdfUnfinishedIds, hm]; rfl, ?_, ?_, ?_⟩
  · intro id
    simp only [List.mem_flatten, List.mem_map, List.mem_range]
    constructor
    · rintro ⟨_, ⟨l, hl, rfl⟩, hid⟩; exact ⟨l, hl, (hmem id l).1 hid⟩
    · rintro ⟨l, hl, ho⟩; exact ⟨_, ⟨l, hl, rfl⟩, (hmem id l).2 ho⟩
  · intro id
    have hnd : ∀ l, (h l).Nodup := fun l => (List.nodup_dedup _).filter _
    induction n with
    | zero => rfl
    | succ n ih =>
      rw [List.range_succ, List.map_append, List.flatten_append, List.count_append, List.filter_append,
        List.length_append]
      have hc : (h n).count id = if OpenAt ops id n then 1 else 0 := by
        split
        · rename_i ho; exact List.count_eq_one_of_mem (hnd n) ((hmem id n).2 ho)
        · rename_i ho; exact List.count_eq_zero_of_not_mem (fun hh => ho ((hmem id n).1 hh))
      have ih' : ∀ n, List.count id ((List.range n).map h).flatten
          = ((List.range n).filter fun l => decide (OpenAt ops id l)).length := by
        intro n
        induction n with
        | zero => rfl
        | succ n ih2 =>
          rw [List.range_succ, List.map_append, List.flatten_append, List.count_append, List.filter_append,
            List.length_append, ih2]
          have hc : (h n).count id = if OpenAt ops id n then 1 else 0 := by
            split
            · rename_i ho; exact List.count_eq_one_of_mem (hnd n) ((hmem id n).2 ho)
            · rename_i ho; exact List.count_eq_zero_of_not_mem (fun hh => ho ((hmem id n).1 hh))
          simp only [List.map_cons, List.map_nil, List.flatten_cons, List.flatten_nil, List.append_nil, hc]
          by_cases ho : OpenAt ops id n <;> simp [ho]
      rw [ih' n]
      simp only [List.map_cons, List.map_nil, List.flatten_cons, List.flatten_nil, List.append_nil, hc]
      by_cases ho : OpenAt ops id n <;> simp [ho]
  · intro hall
    rw [List.eq_nil_iff_forall_not_mem]
    intro id hid
    simp only [List.mem_flatten, List.mem_map, List.mem_range] at hid
    obtain ⟨_, ⟨l, hl, rfl⟩, hid⟩ := hid
    obtain ⟨h1, h2, h3⟩ := (hmem id l).1 hid
    rcases hall l id hl h1 with h | h
    · exact h2 h
    · exact h3 h

example : hdfUnfinishedIds (hdfRun (hdfFresh Unit 2)
    [.scheduled 0 [['a'], ['b']], .scheduled 1 [['c'], ['d']], .samples [(0, [(['b'], ())])] [(1, [(['c'], [])])]]) =
    .ok [['a'], ['d']] := by decide +kernel

/-! ## C25 Memory and HDF storages are interchangeable -/

/-- C25, partial: for every history accepted by the memory storage, both storages hold the same scheduled ids, values,
collected ids and failures of every level, so they return the same values for each level with samples, and the same
`sample_pairs()` when exactly the existing levels have samples.  Missing: finished counts
(`C16_memory_counterexample`) and levels without samples (`C25_counterexample`). -/
theorem C25_storages_agree_partial (n : Nat) (ops : List (StoreOp V)) (mem : MemStore V) (hrun : memRun {} ops = .ok mem) :
    (∀ l, l < n → ∃ y, (hdfRun (hdfFresh V n) ops)[l]? = some y ∧
      (Dict.get? mem.scheduled l).getD [] = y.scheduled ∧
      Dict.get? mem.results l = y.collectedValues ∧
      (Dict.get? mem.successfulIds l).getD [] = y.collectedIds ∧
      some ((Dict.get? mem.failed l).getD []) = y.failed) ∧
    (0 < n → (∀ l, savedSucc ops l ≠ [] ↔ l < n) →
      mem.samplePairs = hdfSamplePairs (hdfRun (hdfFresh V n) ops) ∧
      mem.nCollected = .ok ((hdfNCollected (hdfRun (hdfFresh V n) ops)).map (·.getD 0))) := by
  constructor
  · intro l hl
    obtain ⟨y, hy, hs, hi, hv, hf⟩ := hdf_fresh_spec n l hl ops
    have h := memRun_spec l ops mem hrun
    exact ⟨y, hy, by rw [h.sched, hs], by rw [h.results, hv], by rw [h.ids, hi], by rw [h.failed, hf]⟩
  · intro hn hall
    have h1 := C15_memory_sample_pairs n ops mem hrun hall
    have h2 := (C15_hdf_sample_pairs n hn ops).1 (fun l hl => (hall l).2 hl)
    refine ⟨by rw [h1, h2], ?_⟩
    have hsp : mem.samplePairs.map (List.map List.length) = mem.nCollected := by
      simp only [MemStore.samplePairs, MemStore.nCollected]
      split
      · simp [Except.map, Function.comp_def]
      · rfl
    rw [← hsp, h1]
    simp only [Except.map, Except.ok.injEq]
    apply List.ext_getElem?
    intro l
    simp only [hdfNCollected, List.map_map, List.getElem?_map]
    by_cases hl : l < n
    · obtain ⟨y, hy, _, _, hv, _⟩ := hdf_fresh_spec n l hl ops
      rw [if_neg ((hall l).2 hl)] at hv
      rw [List.getElem?_range hl, hy]
      simp [hv]
    · have hlen : (hdfRun (hdfFresh V n) ops).length = n := by rw [hdfRun_length]; simp [hdfFresh]
      rw [List.getElem?_eq_none (by simp; omega), List.getElem?_eq_none (by omega)]
      rfl

/-- C25 does not hold in full: with a level that has no successful sample yet, `sample_pairs()` of the HDF storage
raises while the memory storage returns the other levels; and the finished counts differ. -/
theorem C25_counterexample :
    let ops : List (StoreOp Unit) := [.samples [(0, [(['a'], ())])] [(1, [(['b'], [])])]]
    hdfSamplePairs (hdfRun (hdfFresh Unit 2) ops) = .error .assertionError ∧
    hdfNFinished (hdfRun (hdfFresh Unit 2) ops) = .ok [1, 1] ∧
    ∃ m, memRun {} ops = .ok m ∧ m.samplePairs = .ok [[()]] ∧ m.nFinishedArr = .ok [some 1, some 0] := by
  refine ⟨by decide +kernel, by decide +kernel, _, rfl, by decide +kernel, by decide +kernel⟩

example : let ops : List (StoreOp Nat) := [.scheduled 0 [['a']], .samples [(0, [(['a'], 4)])] []]
    (∃ m, memRun {} ops = .ok m) ∧ ∀ l, l < 1 → savedSucc ops l ≠ [] := by
  refine ⟨⟨_, rfl⟩, ?_⟩
  intro l hl; obtain rfl : l = 0 := by omega
  decide

end MLMC
