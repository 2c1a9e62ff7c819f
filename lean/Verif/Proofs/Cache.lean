import Verif.Spec.Cache
import Verif.Proofs.Dict
namespace MLMC
variable {K : Type}

theorem parts_self (q : Quantity K) : q ∈ q.parts := by cases q <;> simp [Quantity.parts]

/-- Entries of the caches are what plain evaluation returns for the objects of the evaluation. -/
def SoundFor (m : QCache K) (e : Evaluation K) : Prop :=
  (∀ o t s op ins v, Quantity.node o t s op ins ∈ e.q.parts → m.nodes.get? (e.chunk.cacheKey, o) = some v →
    (Quantity.node o t s op ins).samples (e.data e.chunk) = .ok v) ∧
  (∀ o t x v, Quantity.const o t x ∈ e.q.parts → m.consts.get? (e.chunk.cacheKey, o) = some v →
    (Quantity.const o t x).samples (e.data e.chunk) = .ok v)

theorem data_eq {a b : Evaluation K} (h : Compatible a b) (hk : a.chunk.cacheKey = b.chunk.cacheKey) : a.data a.chunk = b.data b.chunk := by
  simp only [Chunk.cacheKey, Prod.mk.injEq] at hk
  exact h.2 hk.1 hk.2.1 hk.2.2

theorem store_get {d : Dict (ChunkKey × Nat) (QVal K)} {k k' : ChunkKey × Nat} {r : Except PyErr (QVal K)} {v : QVal K}
    (h : (cacheStore d k r).get? k' = some v) : d.get? k' = some v ∨ (k = k' ∧ r = .ok v) := by
  cases r with
  | error e => exact .inl h
  | ok x =>
    rw [cacheStore] at h
    by_cases e : k' = k
    · subst e; rw [Dict.get?_set_self] at h; exact .inr ⟨rfl, by simpa using h⟩
    · rw [Dict.get?_set_ne _ _ e] at h; exact .inl h

mutual
theorem cached_spec (L : List (Evaluation K)) (e : Evaluation K) (he : e ∈ L) (hL : ∀ a ∈ L, Compatible e a) :
    ∀ (q : Quantity K) (_ : ∀ s ∈ q.parts, s ∈ e.q.parts) (m : QCache K), (∀ a ∈ L, SoundFor m a) →
      (q.cachedSamples e.data e.chunk m).1 = q.samples (e.data e.chunk) ∧ ∀ a ∈ L, SoundFor (q.cachedSamples e.data e.chunk m).2 a
  | .storage o t, _, m, hm => by
    rw [Quantity.cachedSamples, Quantity.samples]
    exact ⟨rfl, hm⟩
  | .const o t x, hq, m, hm => by
    rw [Quantity.cachedSamples]
    cases hg : m.consts.get? (e.chunk.cacheKey, o) with
    | some r =>
      exact ⟨((hm e he).2 o t x r (hq _ (parts_self _)) hg).symm, hm⟩
    | none =>
      refine ⟨by rw [Quantity.samples], fun a ha => ⟨(hm a ha).1, fun o' t' x' v hin hv => ?_⟩⟩
      simp only at hv
      rcases store_get hv with h | ⟨h1, h2⟩
      · exact (hm a ha).2 o' t' x' v hin h
      · obtain ⟨hk, ho⟩ := Prod.mk.inj h1
        have := (hL a ha).1 _ (hq _ (parts_self _)) _ hin ho
        rw [← this, Quantity.samples]
        exact h2
  | .node o t s op ins, hq, m, hm => by
    rw [Quantity.cachedSamples]
    cases hg : m.nodes.get? (e.chunk.cacheKey, o) with
    | some r =>
      exact ⟨((hm e he).1 o t s op ins r (hq _ (parts_self _)) hg).symm, hm⟩
    | none =>
      obtain ⟨h1, h2⟩ := cachedList_spec L e he hL ins (fun s hs => hq s (by rw [Quantity.parts]; exact List.mem_cons_of_mem _ hs)) m hm
      refine ⟨by rw [Quantity.samples]; simp only [h1], fun a ha => ⟨fun o' t' s' op' ins' v hin hv => ?_, (h2 a ha).2⟩⟩
      rcases store_get hv with h | ⟨h3, h4⟩
      · exact (h2 a ha).1 o' t' s' op' ins' v hin h
      · obtain ⟨hk, ho⟩ := Prod.mk.inj h3
        have := (hL a ha).1 _ (hq _ (parts_self _)) _ hin ho
        rw [← this, Quantity.samples, ← data_eq (hL a ha) hk, ← h1]
        exact h4
theorem cachedList_spec (L : List (Evaluation K)) (e : Evaluation K) (he : e ∈ L) (hL : ∀ a ∈ L, Compatible e a) :
    ∀ (qs : List (Quantity K)) (_ : ∀ s ∈ Quantity.partsList qs, s ∈ e.q.parts) (m : QCache K), (∀ a ∈ L, SoundFor m a) →
      (Quantity.cachedList e.data e.chunk qs m).1 = Quantity.samplesList (e.data e.chunk) qs ∧
      ∀ a ∈ L, SoundFor (Quantity.cachedList e.data e.chunk qs m).2 a
  | [], _, m, hm => by
    rw [Quantity.cachedList, Quantity.samplesList]
    exact ⟨rfl, hm⟩
  | q :: qs, hq, m, hm => by
    obtain ⟨h1, h2⟩ := cached_spec L e he hL q (fun s hs => hq s (by rw [Quantity.partsList]; exact List.mem_append_left _ hs)) m hm
    rw [Quantity.cachedList, Quantity.samplesList]
    simp only [bind, Except.bind]
    cases hv : (q.cachedSamples e.data e.chunk m).1 with
    | error er => rw [← h1, hv]; exact ⟨rfl, h2⟩
    | ok x =>
      obtain ⟨h3, h4⟩ := cachedList_spec L e he hL qs (fun s hs => hq s (by rw [Quantity.partsList]; exact List.mem_append_right _ hs)) _ h2
      rw [← h1, hv]
      refine ⟨?_, h4⟩
      simp only [h3]
      cases Quantity.samplesList (e.data e.chunk) qs <;> rfl
end

theorem sound_new (e : Evaluation K) : SoundFor QCache.new e :=
  ⟨fun _ _ _ _ _ _ _ h => by simp [QCache.new, Dict.get?] at h, fun _ _ _ _ _ h => by simp [QCache.new, Dict.get?] at h⟩

theorem sound_clear (m : QCache K) (e : Evaluation K) : SoundFor m.clear e := sound_new e

/-- Evaluations before the first `cache_clear`. -/
def lead : List (CacheEv K) → List (Evaluation K)
  | [] => []
  | .clear :: _ => []
  | .eval d c q :: h => ⟨d, c, q⟩ :: lead h

theorem lead_split (h : List (CacheEv K)) : ∃ seg post, h = seg ++ post ∧ CacheEv.clear ∉ seg ∧ evaluations seg = lead h := by
  induction h with
  | nil => exact ⟨[], [], rfl, by simp, rfl⟩
  | cons e h ih =>
    cases e with
    | clear => exact ⟨[], _, rfl, by simp, rfl⟩
    | eval d c q =>
      obtain ⟨seg, post, h1, h2, h3⟩ := ih
      exact ⟨.eval d c q :: seg, post, by rw [h1]; rfl, by simpa using h2, by rw [evaluations, lead, h3]⟩

theorem settled_lead {h : List (CacheEv K)} (hs : Settled h) : ∀ a ∈ lead h, ∀ b ∈ lead h, Compatible a b := by
  obtain ⟨seg, post, h1, h2, h3⟩ := lead_split h
  intro a ha b hb
  exact hs [] seg post (by simpa using h1) h2 a (by rw [h3]; exact ha) b (by rw [h3]; exact hb)

theorem settled_tail {e : CacheEv K} {h : List (CacheEv K)} (hs : Settled (e :: h)) : Settled h := by
  intro pre seg post h1
  exact hs (e :: pre) seg post (by rw [h1]; rfl)

theorem runCached_plain : ∀ (h : List (CacheEv K)) (m : QCache K), Settled h → (∀ a ∈ lead h, SoundFor m a) →
    runCached h m = (evaluations h).map Evaluation.plain
  | [], _, _, _ => rfl
  | .clear :: h, m, hs, _ => by
    rw [runCached, evaluations]
    exact runCached_plain h _ (settled_tail hs) fun a _ => sound_clear m a
  | .eval d c q :: h, m, hs, hm => by
    have hl := settled_lead hs
    rw [lead] at hl hm
    obtain ⟨h1, h2⟩ := cached_spec _ ⟨d, c, q⟩ (List.mem_cons_self ..) (fun a ha => hl _ (List.mem_cons_self ..) a ha) q (fun _ h => h) m hm
    rw [runCached, evaluations, List.map_cons]
    simp only at h1 h2
    rw [h1, runCached_plain h _ (settled_tail hs) fun a ha => h2 a (List.mem_cons_of_mem _ ha)]
    rfl

theorem meanLoop_plain {F : Type} [Field F] (q : Quantity (Option F)) (nL : Nat) (data : StoreData (Option F)) :
    ∀ (cs : List Chunk) (acc : MeanAcc F) (m : QCache (Option F)),
      (∀ a ∈ cs.map (fun c => Evaluation.mk data c q), ∀ b ∈ cs.map (fun c => Evaluation.mk data c q), Compatible a b) →
      (∀ a ∈ cs.map (fun c => Evaluation.mk data c q), SoundFor m a) →
      meanLoopCached q nL data acc cs m = meanLoop q nL acc (cs.map fun c => (c.levelId, data c))
  | [], _, _, _, _ => rfl
  | c :: cs, acc, m, hc, hm => by
    obtain ⟨h1, h2⟩ := cached_spec _ ⟨data, c, q⟩ (List.mem_cons_self ..) (fun a ha => hc _ (List.mem_cons_self ..) a ha) q (fun _ h => h) m hm
    simp only at h1 h2
    rw [meanLoopCached, List.map_cons, meanLoop]
    simp only [h1, bind]
    cases q.samples (data c) with
    | error e => rfl
    | ok s =>
      simp only [Except.bind]
      cases meanStep q.size nL acc c.levelId s with
      | error e => rfl
      | ok acc' =>
        exact meanLoop_plain q nL data cs acc' _ (fun a ha b hb => hc a (List.mem_cons_of_mem _ ha) b (List.mem_cons_of_mem _ hb))
          fun a ha => h2 a (List.mem_cons_of_mem _ ha)

end MLMC
