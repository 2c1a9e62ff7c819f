import Verif.Proofs.Storage
import Mathlib.Data.List.Induction
/-! Helper lemmas: `mapM`, chunk lists, the memory storage seen from one level. -/
namespace MLMC
variable {V : Type}

theorem mapM_ok_range {α β ε : Type} (f : α → Except ε β) : ∀ (g : List α) (h : Nat → β),
    (∀ l y, g[l]? = some y → f y = .ok (h l)) → g.mapM f = .ok ((List.range g.length).map h) := by
  intro g
  induction g with
  | nil => intro h _; rfl
  | cons x g ih =>
    intro h H
    have h0 := H 0 x rfl
    have ht := ih (fun l => h (l + 1)) (fun l y hy => H (l + 1) y (by simpa using hy))
    rw [List.mapM_cons, h0, ht]
    simp only [List.length_cons, List.range_succ_eq_map, List.map_cons, List.map_map]
    rfl

theorem mapM_error_of {α β ε : Type} (f : α → Except ε β) (e : ε) : ∀ (g : List α),
    (∃ y ∈ g, f y = .error e) → (∀ y ∈ g, ∀ e', f y = .error e' → e' = e) → g.mapM f = .error e := by
  intro g
  induction g with
  | nil => rintro ⟨y, hy, _⟩; simp at hy
  | cons x g ih =>
    rintro ⟨y, hy, he⟩ hu
    rw [List.mapM_cons]
    cases hx : f x with
    | error e' => rw [hu x (by simp) e' hx]; rfl
    | ok v =>
      have : g.mapM f = .error e := by
        apply ih
        · rcases List.mem_cons.1 hy with rfl | hy
          · rw [hx] at he; cases he
          · exact ⟨y, hy, he⟩
        · intro y hy e' h; exact hu y (List.mem_cons_of_mem _ hy) e' h
      rw [this]; rfl

/-! ### Chunks -/

theorem iterChunks_join {α : Type} (c lev : Nat) (hc : 0 < c) (vals : List α) : ∀ (fuel k start : Nat),
    vals.length - start ≤ fuel →
    (iterChunks c lev fuel k start vals.length).flatMap (fun ch => (vals.drop ch.start).take (ch.stop - ch.start))
      = vals.drop start := by
  intro fuel
  induction fuel with
  | zero => intro k start h; simp [iterChunks]; omega
  | succ fuel ih =>
    intro k start h
    simp only [iterChunks]
    split
    · rename_i hlt
      rw [List.flatMap_cons, ih _ _ (by omega)]
      simp only
      rcases Nat.le_total (start + c) vals.length with hle | hle
      · rw [Nat.min_eq_left hle]
        have : vals.drop (start + c) = (vals.drop start).drop c := by rw [List.drop_drop]
        rw [this]
        have h2 : start + c - start = c := by omega
        rw [h2, List.take_append_drop]
      · rw [Nat.min_eq_right hle, List.drop_eq_nil_of_le hle, List.append_nil]
        rw [List.take_of_length_le (by simp)]
    · rename_i hge
      simp [List.drop_eq_nil_of_le (Nat.le_of_not_lt hge)]

theorem iterChunks_bounds (c lev : Nat) (hc : 0 < c) (n : Nat) : ∀ (fuel k start : Nat),
    ∀ ch ∈ iterChunks c lev fuel k start n,
      start ≤ ch.start ∧ ch.start < ch.stop ∧ ch.stop ≤ n ∧ ch.stop - ch.start ≤ c ∧ ch.levelId = lev ∧ k ≤ ch.chunkId := by
  intro fuel
  induction fuel with
  | zero => intro k start ch h; simp [iterChunks] at h
  | succ fuel ih =>
    intro k start ch h
    simp only [iterChunks] at h
    split at h
    · rename_i hlt
      rcases List.mem_cons.1 h with rfl | h
      · refine ⟨le_refl _, ?_, ?_, ?_, rfl, le_refl _⟩ <;> dsimp only <;> omega
      · have := ih _ _ ch h; omega
    · simp at h

theorem iterChunks_ids (c lev n : Nat) : ∀ (fuel k start : Nat),
    (iterChunks c lev fuel k start n).map (·.chunkId) = List.range' k (iterChunks c lev fuel k start n).length := by
  intro fuel
  induction fuel with
  | zero => intro k start; simp [iterChunks]
  | succ fuel ih =>
    intro k start
    simp only [iterChunks]
    split
    · simp only [List.map_cons, List.length_cons, List.range'_succ, ih]
    · simp

/-! ### The memory storage -/

/-- What the memory storage contains for level `l`, in terms of the lists saved so far. -/
structure MemAt (m : MemStore V) (l : Nat) (succ : List (SampleId × V)) (fail : List (SampleId × Msg))
    (sched : List SampleId) : Prop where
  results : Dict.get? m.results l = if succ = [] then none else some (succ.map (·.2))
  ids : (Dict.get? m.successfulIds l).getD [] = succ.map (·.1)
  failed : (Dict.get? m.failed l).getD [] = fail
  sched : (Dict.get? m.scheduled l).getD [] = sched

theorem memAt_saveSuccessful1 {m m' : MemStore V} {l : Nat} {succ fail sched} (e : Nat × List (SampleId × V))
    (h : MemAt m l succ fail sched) (hs : m.saveSuccessful1 e = .ok m') :
    MemAt m' l (succ ++ if e.1 = l then e.2 else []) fail sched := by
  obtain ⟨l', res⟩ := e
  simp only [MemStore.saveSuccessful1] at hs
  split at hs
  · cases hs
  · rename_i hne
    cases hs
    by_cases hl : l' = l
    · subst hl
      constructor
      · simp only [Dict.get?_upd_self, h.results, if_true, List.append_eq_nil_iff, hne, and_false, if_false]
        by_cases hs : succ = [] <;> simp [hs]
      · simp only [Dict.get?_upd_self, if_true, Option.getD_some, h.ids, List.map_append]
      · exact h.failed
      · exact h.sched
    · have hl' : l ≠ l' := fun e => hl e.symm
      simp only [hl, if_false, List.append_nil]
      constructor
      · simp only [Dict.get?_upd_ne _ _ _ hl', h.results]
      · simp only [Dict.get?_upd_ne _ _ _ hl', h.ids]
      · exact h.failed
      · exact h.sched

theorem memAt_saveSuccessful {l : Nat} (s : Dict Nat (List (SampleId × V))) : ∀ {m m' : MemStore V} {succ fail sched},
    MemAt m l succ fail sched → s.foldlM MemStore.saveSuccessful1 m = .ok m' →
    MemAt m' l (succ ++ atLevel s l) fail sched := by
  induction s with
  | nil => intro m m' succ fail sched h hs; cases hs; simpa [atLevel] using h
  | cons e s ih =>
    intro m m' succ fail sched h hs
    rw [List.foldlM_cons] at hs
    cases h1 : m.saveSuccessful1 e with
    | error x => rw [h1] at hs; cases hs
    | ok m1 =>
      rw [h1] at hs
      have := ih (memAt_saveSuccessful1 e h h1) hs
      simpa [atLevel, List.append_assoc] using this

theorem memAt_saveFailed {l : Nat} (f : Dict Nat (List (SampleId × Msg))) : ∀ {m : MemStore V} {succ fail sched},
    MemAt m l succ fail sched → MemAt (f.foldl MemStore.saveFailed1 m) l succ (fail ++ atLevel f l) sched := by
  induction f with
  | nil => intro m succ fail sched h; simpa [atLevel] using h
  | cons e f ih =>
    intro m succ fail sched h
    obtain ⟨l', res⟩ := e
    have h1 : MemAt (m.saveFailed1 (l', res)) l succ (fail ++ if l' = l then res else []) sched := by
      by_cases hl : l' = l
      · subst hl
        constructor
        · exact h.results
        · exact h.ids
        · simp only [MemStore.saveFailed1, Dict.get?_upd_self, Option.getD_some, h.failed, if_true]
        · exact h.sched
      · have hl' : l ≠ l' := fun e => hl e.symm
        constructor
        · exact h.results
        · exact h.ids
        · simp only [MemStore.saveFailed1, Dict.get?_upd_ne _ _ _ hl', h.failed, hl, if_false, List.append_nil]
        · exact h.sched
    have := ih h1
    simpa [atLevel, List.append_assoc] using this

theorem memAt_nOps {m : MemStore V} {l : Nat} {succ fail sched} (e : List (Nat × (ℚ × ℚ)))
    (h : MemAt m l succ fail sched) : MemAt (m.saveNOps e) l succ fail sched := by
  induction e generalizing m with
  | nil => exact h
  | cons a e ih =>
    show MemAt (MemStore.saveNOps _ e) l succ fail sched
    exact ih ⟨h.results, h.ids, h.failed, h.sched⟩

theorem savedFailed_append (a b : List (StoreOp V)) (l : Nat) :
    savedFailed (a ++ b) l = b.foldl (fun acc => fun
      | .samples _ f => acc ++ atLevel f l | .clearFailed => [] | _ => acc) (savedFailed a l) := by
  rw [savedFailed, List.foldl_append]; rfl

theorem savedFailed_snoc (ops : List (StoreOp V)) (o : StoreOp V) (l : Nat) :
    savedFailed (ops ++ [o]) l = match o with
      | .samples _ f => savedFailed ops l ++ atLevel f l | .clearFailed => [] | _ => savedFailed ops l := by
  rw [savedFailed_append]; cases o <;> rfl

theorem savedSucc_snoc (ops : List (StoreOp V)) (o : StoreOp V) (l : Nat) :
    savedSucc (ops ++ [o]) l = savedSucc ops l ++ match o with | .samples s _ => atLevel s l | _ => [] := by
  cases o <;> simp [savedSucc]

theorem savedSched_snoc (ops : List (StoreOp V)) (o : StoreOp V) (l : Nat) :
    savedSched (ops ++ [o]) l = savedSched ops l ++
      match o with | .scheduled l' ids => if l' = l then ids else [] | _ => [] := by
  cases o <;> simp [savedSched]

theorem memRun_snoc (ops : List (StoreOp V)) (o : StoreOp V) (m : MemStore V) :
    memRun m (ops ++ [o]) = (memRun m ops).bind (fun m' => memStep m' o) := by
  simp only [memRun, List.foldlM_append]
  cases h : List.foldlM memStep m ops with
  | error e => rfl
  | ok m' =>
    show (List.foldlM memStep m' [o]) = memStep m' o
    rw [List.foldlM_cons]
    cases memStep m' o <;> rfl

theorem memRun_spec (l : Nat) (ops : List (StoreOp V)) : ∀ m : MemStore V,
    memRun {} ops = .ok m → MemAt m l (savedSucc ops l) (savedFailed ops l) (savedSched ops l) := by
  induction ops using List.reverseRecOn with
  | nil =>
    intro m h
    cases h
    exact ⟨rfl, rfl, rfl, rfl⟩
  | append_singleton ops o ih =>
    intro m h
    rw [memRun_snoc] at h
    cases h0 : memRun {} ops with
    | error e => rw [h0] at h; cases h
    | ok m0 =>
      rw [h0] at h
      have h1 := ih m0 h0
      change memStep m0 o = .ok m at h
      rw [savedSucc_snoc, savedFailed_snoc, savedSched_snoc]
      cases o with
      | scheduled l' ids =>
        cases h
        simp only [List.append_nil]
        by_cases hl : l' = l
        · subst hl
          exact ⟨h1.results, h1.ids, h1.failed, by
            simp only [MemStore.saveScheduled, Dict.get?_upd_self, Option.getD_some, h1.sched, if_true]⟩
        · have hl' : l ≠ l' := fun e => hl e.symm
          exact ⟨h1.results, h1.ids, h1.failed, by
            simp only [MemStore.saveScheduled, Dict.get?_upd_ne _ _ _ hl', h1.sched, hl, if_false, List.append_nil]⟩
      | samples s f =>
        simp only [memStep, MemStore.saveSamples] at h
        cases h2 : List.foldlM MemStore.saveSuccessful1 m0 s with
        | error e => rw [h2] at h; cases h
        | ok m2 =>
          rw [h2] at h
          cases h
          simp only [List.append_nil]
          exact memAt_saveFailed f (memAt_saveSuccessful s h1 h2)
      | nOps e =>
        cases h
        simpa using memAt_nOps e h1
      | clearFailed => cases h

/-! Keys of `results`. -/

theorem memRun_keys (ops : List (StoreOp V)) : ∀ m : MemStore V, memRun {} ops = .ok m →
    (Dict.keys m.results).Nodup := by
  have step1 : ∀ (s : Dict Nat (List (SampleId × V))) (m m' : MemStore V), (Dict.keys m.results).Nodup →
      s.foldlM MemStore.saveSuccessful1 m = .ok m' → (Dict.keys m'.results).Nodup := by
    intro s
    induction s with
    | nil => intro m m' h hs; cases hs; exact h
    | cons e s ih =>
      intro m m' h hs
      rw [List.foldlM_cons] at hs
      cases h1 : m.saveSuccessful1 e with
      | error x => rw [h1] at hs; cases hs
      | ok m1 =>
        rw [h1] at hs
        refine ih m1 m' ?_ hs
        obtain ⟨l', res⟩ := e
        simp only [MemStore.saveSuccessful1] at h1
        split at h1
        · cases h1
        · cases h1; exact Dict.nodup_keys_upd _ _ _ _ h
  have step2 : ∀ (f : Dict Nat (List (SampleId × Msg))) (m : MemStore V),
      (f.foldl MemStore.saveFailed1 m).results = m.results := by
    intro f
    induction f with
    | nil => intro m; rfl
    | cons e f ih => intro m; rw [List.foldl_cons, ih]; rfl
  have step3 : ∀ (e : List (Nat × (ℚ × ℚ))) (m : MemStore V), (m.saveNOps e).results = m.results := by
    intro e
    induction e with
    | nil => intro m; rfl
    | cons a e ih => intro m; show (MemStore.saveNOps _ e).results = _; rw [ih]
  induction ops using List.reverseRecOn with
  | nil => intro m h; cases h; simp [Dict.keys]
  | append_singleton ops o ih =>
    intro m h
    rw [memRun_snoc] at h
    cases h0 : memRun {} ops with
    | error e => rw [h0] at h; cases h
    | ok m0 =>
      rw [h0] at h
      change memStep m0 o = .ok m at h
      have h1 := ih m0 h0
      cases o with
      | scheduled l' ids => cases h; exact h1
      | samples s f =>
        simp only [memStep, MemStore.saveSamples] at h
        cases h2 : List.foldlM MemStore.saveSuccessful1 m0 s with
        | error e => rw [h2] at h; cases h
        | ok m2 =>
          rw [h2] at h; cases h
          rw [step2]; exact step1 s m0 m2 h1 h2
      | nOps e => cases h; rw [step3]; exact h1
      | clearFailed => cases h

end MLMC
