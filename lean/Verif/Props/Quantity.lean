import Verif.Proofs.QuantityBuilt
import Verif.Props.Storage
/-! Properties of quantities (C38-C40). -/
namespace MLMC
variable {K : Type} [Inhabited K]

/-! ## C38 Chunked evaluation equals whole evaluation -/

theorem values_of_good {sid W : Nat} {q : Quantity K} {m : Nat} {g : List K → List K} (h : GoodQ sid W q (some (m, g))) (b : Batch K)
    (hb : b.WF) (hw : b.width = W) : q.values sid b = .ok ((kept sid W q b).map (·.map g)) := by
  obtain ⟨a, ha, hr⟩ := h b hb hw
  unfold Quantity.values
  rw [ha]
  simp only
  rw [hr.samples (kept_parts hb)]

omit [Inhabited K] in
theorem single_wf {W : Nat} {b : Batch K} (hb : b.WF) (hw : b.width = W) {s : Sample K} (hs : s ∈ b.data) :
    (⟨W, s.length, [s]⟩ : Batch K).WF := by
  intro s' hs'
  simp only [List.mem_singleton] at hs'
  subst hs'
  exact ⟨rfl, by rw [← hw]; exact (hb _ hs).2⟩

theorem perSample_of_good {sid W : Nat} {q : Quantity K} {m : Nat} {g : List K → List K} (h : GoodQ sid W q (some (m, g))) (s : Sample K)
    (hs : (⟨W, s.length, [s]⟩ : Batch K).WF) : q.perSample sid W s = if keep sid W q s then some (s.map g) else none := by
  unfold Quantity.perSample
  rw [values_of_good h _ hs rfl]
  cases hk : keep sid W q s <;> simp [kept, hk]

/-- C38: a quantity built with the API acts on samples one by one.  On every batch of stored samples of one level it gives, in
order, what it gives for each single sample (a selection drops some) — or it raises on every batch. -/
theorem C38_samplewise [Mul K] (sid W : Nat) (q : Quantity K) (hq : Built sid .qty q) (hid : IdsIdentify q) :
    (∀ b : Batch K, b.WF → b.width = W → ∃ e, q.values sid b = .error e) ∨
    ∀ b : Batch K, b.WF → b.width = W → q.values sid b = .ok (b.data.filterMap (q.perSample sid W)) := by
  obtain ⟨⟨res, h⟩, _⟩ := built_good W hq hid
  cases res with
  | none =>
    left
    intro b hb hw
    obtain ⟨e, he⟩ := h b hb hw
    exact ⟨e, by unfold Quantity.values; rw [he]⟩
  | some x =>
    obtain ⟨m, g⟩ := x
    right
    intro b hb hw
    rw [values_of_good h b hb hw]
    congr 1
    unfold kept
    rw [← List.filterMap_eq_map, List.filterMap_filter]
    apply List.filterMap_congr
    intro s hs
    rw [perSample_of_good h s (single_wf hb hw hs)]
    simp

/-- C38: evaluation chunk by chunk and joining the chunks gives the same samples as evaluation at once; one raises exactly if
the other does. -/
theorem C38_chunked_evaluation [Mul K] (sid W p : Nat) (q : Quantity K) (hq : Built sid .qty q) (hid : IdsIdentify q)
    (chunks : List (List (Sample K))) (hne : chunks ≠ []) (hwf : (⟨W, p, chunks.flatten⟩ : Batch K).WF) :
    (∃ e, q.values sid ⟨W, p, chunks.flatten⟩ = .error e) ∧ (∃ e, chunks.mapM (fun c => q.values sid ⟨W, p, c⟩) = .error e) ∨
    ∃ parts, chunks.mapM (fun c => q.values sid ⟨W, p, c⟩) = .ok parts ∧ q.values sid ⟨W, p, chunks.flatten⟩ = .ok parts.flatten := by
  have hc : ∀ c ∈ chunks, (⟨W, p, c⟩ : Batch K).WF := fun c hc s hs => hwf s (List.mem_flatten.2 ⟨c, hc, hs⟩)
  rcases C38_samplewise sid W q hq hid with h | h
  · left
    refine ⟨h _ hwf rfl, ?_⟩
    cases chunks with
    | nil => exact absurd rfl hne
    | cons c cs =>
      obtain ⟨e, he⟩ := h ⟨W, p, c⟩ (hc c (by simp)) rfl
      exact ⟨e, by rw [List.mapM_cons, he]; rfl⟩
  · right
    refine ⟨chunks.map fun c => c.filterMap (q.perSample sid W), ?_, ?_⟩
    · clear hne hwf
      induction chunks with
      | nil => rfl
      | cons c cs ih =>
        rw [List.mapM_cons, h ⟨W, p, c⟩ (hc c (by simp)) rfl, ih fun c' h' => hc c' (by simp [h'])]
        rfl
    · rw [h _ hwf rfl]
      congr 1
      simp only
      clear hne hwf hc
      induction chunks with
      | nil => rfl
      | cons c cs ih => simp [List.filterMap_append, ih]

/-- The array `[M, N, P]` as nested lists. -/
def Arr.toLists (a : Arr K) : List (List (List K)) := a.rows.map fun r => (List.range a.n).map fun j => (List.range a.p).map (r j)

/-- The batch of a level is what the storages return for it (`chunkArray`). -/
theorem levelBatch_toArr [Zero K] (level W : Nat) (vals : List (List K × List K)) (h : ∀ v ∈ vals, v.1.length = W ∧ v.2.length = W) :
    (levelBatch level W vals).toArr.toLists = chunkArray level W vals := by
  unfold Arr.toLists chunkArray Batch.toArr
  simp only [List.map_map]
  apply List.map_congr_left
  intro i hi
  rw [List.mem_range] at hi
  have hi : i < W := hi
  simp only [Function.comp, levelBatch]
  apply map_range_getElem vals _ _ _ (by simp)
  intro j hj
  have hv := h _ (List.getElem_mem hj)
  by_cases hl : level = 0
  · subst hl
    have h1 : i < vals[j].1.length := by omega
    simp [hj, h1]
  · simp only [hl, if_false]
    have : List.range 2 = [0, 1] := rfl
    have h1 : i < vals[j].1.length := by omega
    have h2 : i < vals[j].2.length := by omega
    simp [this, hj, h1, h2]

omit [Inhabited K] in
theorem levelBatch_wf (level W : Nat) (vals : List (List K × List K)) (h : ∀ v ∈ vals, v.1.length = W ∧ v.2.length = W) :
    (levelBatch level W vals).WF := by
  intro s hs
  simp only [levelBatch, List.mem_map] at hs
  obtain ⟨v, hv, rfl⟩ := hs
  have := h v hv
  by_cases hl : level = 0 <;> simp [hl, levelBatch, this.1, this.2]

/-- C38 for the HDF storage: evaluating on the chunks of a level (any positive chunk length) and joining them gives the
evaluation on all stored samples of the level. -/
theorem C38_hdf_chunks [Mul K] (sid W : Nat) (q : Quantity K) (hq : Built sid .qty q) (hid : IdsIdentify q)
    (x : LevelGroup (List K × List K)) (vals : List (List K × List K)) (hx : x.collectedValues = some vals) (c level : Nat) (hc : 0 < c)
    (hv : ∀ v ∈ vals, v.1.length = W ∧ v.2.length = W) (all : List (Sample K))
    (hall : q.values sid (levelBatch level W vals) = .ok all) :
    ∃ chs parts, x.chunks c level none = .ok chs ∧
      chs.mapM (fun ch => q.values sid (levelBatch level W ((x.collected ch).getD []))) = .ok parts ∧ parts.flatten = all := by
  obtain ⟨⟨chs, h1, h2, _⟩, _⟩ := C17_chunks_cover x vals hx c hc level
  have hf : (levelBatch level W vals).data = (chs.map fun ch => (levelBatch level W ((x.collected ch).getD [])).data).flatten := by
    simp only [levelBatch]
    rw [← h2, List.map_flatMap, List.flatMap_def]
  have hwf := levelBatch_wf level W vals hv
  by_cases hne : chs = []
  · subst hne
    simp only [List.flatMap_nil] at h2
    subst h2
    refine ⟨[], [], h1, rfl, ?_⟩
    rcases C38_samplewise sid W q hq hid with h | h
    · obtain ⟨e, he⟩ := h _ hwf rfl
      rw [he] at hall; simp at hall
    · rw [h _ hwf rfl] at hall
      simp [levelBatch] at hall
      simp [← hall]
  · have hwf' : (⟨W, (levelBatch level W vals).parts, (chs.map fun ch => (levelBatch level W ((x.collected ch).getD [])).data).flatten⟩ : Batch K).WF := by
      rw [← hf]; exact hwf
    have hall' : q.values sid ⟨W, (levelBatch level W vals).parts, (chs.map fun ch => (levelBatch level W ((x.collected ch).getD [])).data).flatten⟩ = .ok all := by
      rw [← hf]; exact hall
    rcases C38_chunked_evaluation sid W _ q hq hid _ (by simpa using hne) hwf' with ⟨⟨e, he⟩, _⟩ | ⟨parts, hp, ha⟩
    · rw [he] at hall'; simp at hall'
    · rw [ha] at hall'
      refine ⟨chs, parts, h1, ?_, by simpa using hall'⟩
      rw [List.mapM_map] at hp
      exact hp

/-! ## C39 Selection -/

theorem holds_of_good {sid W : Nat} {c : Quantity K} {f : Sample K → Bool} (h : GoodC sid W c (some f)) (s : Sample K)
    (hs : (⟨W, s.length, [s]⟩ : Batch K).WF) : c.holds sid W s = (keep sid W c s && f s) := by
  have := h _ hs rfl
  simp only at this
  unfold Quantity.holds
  rw [this]
  cases hk : keep sid W c s <;> simp [kept, hk]

theorem holds_false {sid W : Nat} {c : Quantity K} (h : GoodC sid W c none) (s : Sample K)
    (hs : (⟨W, s.length, [s]⟩ : Batch K).WF) : c.holds sid W s = false := by
  obtain ⟨e, he⟩ := h _ hs rfl
  unfold Quantity.holds
  rw [he]

/-- `np.logical_and` of two conditions holds for a sample exactly if both do. -/
theorem holds_and {sid W : Nat} {a b : Quantity K} {o : Nat} {t : QType} {q : Quantity K} (ha : Good sid W .cond a) (hb : Good sid W .cond b)
    (hq : Quantity.mk o t (logicArr (· && ·)) [a, b] = .ok q) (hid : IdsIdentify q) (s : Sample K)
    (hs : (⟨W, s.length, [s]⟩ : Batch K).WF) : q.holds sid W s = (a.holds sid W s && b.holds sid W s) := by
  obtain ⟨rfl, hsel⟩ := mk_ok hq
  obtain ⟨⟨ra, hra⟩, hca⟩ := ha
  obtain ⟨⟨rb, hrb⟩, hcb⟩ := hb
  have hk : keep sid W a s = keep sid W b s := by
    unfold keep
    rw [← node_selNode hid hsel (a := a) (by simp) hca, ← node_selNode hid hsel (a := b) (by simp) hcb]
  cases ra with
  | none =>
    rw [holds_false hra s hs, Bool.false_and]
    obtain ⟨e, he⟩ := hra _ hs rfl
    unfold Quantity.holds
    rw [on_two, he]; rfl
  | some fa =>
    cases rb with
    | none =>
      rw [holds_false hrb s hs, Bool.and_false]
      have h1 := hra _ hs rfl
      simp only at h1
      obtain ⟨e, he⟩ := hrb _ hs rfl
      unfold Quantity.holds
      rw [on_two, h1, he]; rfl
    | some fb =>
      rw [holds_of_good hra s hs, holds_of_good hrb s hs]
      have h1 := hra _ hs rfl
      have h2 := hrb _ hs rfl
      simp only at h1 h2
      unfold Quantity.holds
      rw [on_two, h1, h2, ← hk]
      cases hc : keep sid W a s <;> simp [kept, hc, hk ▸ hc, Except.bind, logicArr, bdim, bind]

theorem holds_fold {sid W : Nat} {env0} {os : Nat → Nat} (cs : List (Quantity K × Nat)) (s : Sample K)
    (hs : (⟨W, s.length, [s]⟩ : Batch K).WF) :
    ∀ (m r : Quantity K), (IdsIdentify m → Good sid W .cond m) → (∀ x ∈ cs, IdsIdentify x.1 → Good sid W .cond x.1) →
      cs.foldlM (fun m x => Quantity.ufunc env0 (os (x.2 + 1)) (logicArr (· && ·)) [m, x.1]) m = .ok r →
      IdsIdentify r → r.holds sid W s = (m.holds sid W s && cs.all fun x => x.1.holds sid W s) := by
  induction cs with
  | nil => intro m r _ _ h _; simp [pure, Except.pure] at h; subst h; simp
  | cons c cs ih =>
    intro m r hm hcs h hid
    rw [List.foldlM_cons] at h
    cases h1 : Quantity.ufunc env0 (os (c.2 + 1)) (logicArr (· && ·)) [m, c.1] with
    | error e => rw [h1] at h; simp [bind, Except.bind] at h
    | ok m' =>
      rw [h1] at h
      obtain ⟨t, ht⟩ := ufunc_mk h1
      have he := (mk_ok ht).1
      have hgood : IdsIdentify m' → Good sid W .cond m' := by
        intro hid'
        refine good_logic _ (hm ?_) (hcs c (by simp) ?_) ht hid'
        · rw [he] at hid'; exact hid'.input (by simp)
        · rw [he] at hid'; exact hid'.input (by simp)
      have hid' : IdsIdentify m' := by
        have key : ∀ (cs : List (Quantity K × Nat)) (m r : Quantity K),
            cs.foldlM (fun m x => Quantity.ufunc env0 (os (x.2 + 1)) (logicArr (· && ·)) [m, x.1]) m = .ok r → IdsIdentify r → IdsIdentify m := by
          intro cs
          induction cs with
          | nil => intro m r h hid; simp [pure, Except.pure] at h; subst h; exact hid
          | cons c cs ih2 =>
            intro m r h hid
            rw [List.foldlM_cons] at h
            cases h3 : Quantity.ufunc env0 (os (c.2 + 1)) (logicArr (· && ·)) [m, c.1] with
            | error e => rw [h3] at h; simp [bind, Except.bind] at h
            | ok m2 =>
              rw [h3] at h
              have h4 := ih2 m2 r h hid
              obtain ⟨t', ht'⟩ := ufunc_mk h3
              rw [(mk_ok ht').1] at h4
              exact h4.input (by simp)
        exact key cs m' r h hid
      rw [ih m' r hgood (fun x hx => hcs x (by simp [hx])) h hid]
      have hidm := hid'
      rw [he] at hidm
      rw [holds_and (hm (hidm.input (by simp))) (hcs c (by simp) (hidm.input (by simp))) ht hid' s hs]
      simp [Bool.and_assoc]

/-- C39: `q.select(c1, ..., ck)` evaluates to the samples of `q`, in order and unchanged, for which every condition holds. -/
theorem C39_select_keeps_exactly [Mul K] (sid W : Nat) (q c s : Quantity K) (cs : List (Quantity K)) (env0) (os : Nat → Nat)
    (hq : Built sid .qty q) (hc : ∀ x ∈ c :: cs, Built sid .cond x) (hs : q.select env0 os c cs = .ok s) (hid : IdsIdentify s)
    (b : Batch K) (hb : b.WF) (hw : b.width = W) (vals : List (Sample K)) (hv : s.values sid b = .ok vals) :
    vals = (b.data.filter fun x => (c :: cs).all fun d => d.holds sid W x).filterMap (q.perSample sid W) := by
  obtain ⟨m, hm, rfl, hsel⟩ := select_ok hs
  have gq := built_good W hq (hid.input (by simp))
  have gm : Good sid W .cond m := good_logic_fold _ c m (fun h => built_good W (hc c (by simp)) h)
    (fun x hx h => built_good W (hc x.1 (List.mem_cons_of_mem _ (mem_zipIdx_fst _ _ hx))) h) hm (hid.input (by simp))
  have gs := good_select (o := os 0) (t := q.qtype) gq gm hsel hid
  have hsel' : q.selNode = m.selNode := by
    refine same_selNode hid (by simp) (by simp) ?_
    rcases hsel q (by simp) m (by simp) with h | h | h
    · have := gq.2; rw [(selId_none_iff q).1 h] at this; simp at this
    · have := gm.2; rw [(selId_none_iff m).1 h] at this; simp at this
    · exact h
  have hold : ∀ x ∈ b.data, m.holds sid W x = (c :: cs).all fun d => d.holds sid W x := by
    intro x hx
    rw [holds_fold _ x (single_wf hb hw hx) c m (fun h => built_good W (hc c (by simp)) h)
      (fun x hx h => built_good W (hc x.1 (List.mem_cons_of_mem _ (mem_zipIdx_fst _ _ hx))) h) hm (hid.input (by simp))]
    rw [List.all_cons]
    congr 1
    rw [Bool.eq_iff_iff, List.all_eq_true, List.all_eq_true]
    constructor
    · intro h d hd
      obtain ⟨i, hi, rfl⟩ := List.mem_iff_getElem.1 hd
      exact h (cs[i], i) (by rw [List.mem_zipIdx_iff_getElem?]; simp [hi])
    · intro h d hd
      exact h d.1 (mem_zipIdx_fst _ _ hd)
  obtain ⟨⟨rq, hrq⟩, _⟩ := gq
  obtain ⟨⟨rm, hrm⟩, _⟩ := gm
  cases rq with
  | none =>
    obtain ⟨e, he⟩ := hrq b hb hw
    rw [Quantity.values, on_two, he] at hv
    simp [Except.bind] at hv
  | some x =>
    obtain ⟨mm, g⟩ := x
    cases rm with
    | none =>
      obtain ⟨y, hy, _⟩ := hrq b hb hw
      obtain ⟨e, he⟩ := hrm b hb hw
      rw [Quantity.values, on_two, hy, he] at hv
      simp [Except.bind] at hv
    | some f =>
      obtain ⟨y, hy, hyr⟩ := hrq b hb hw
      have h2 := hrm b hb hw
      simp only at h2
      rw [← kept_congr hsel'] at h2
      obtain ⟨z, hz, hzr⟩ := compress_rep hyr f
      have hvz : vals = z.samples := by
        rw [Quantity.values, on_two, hy, h2] at hv
        simp [Except.bind, selectArr, hz, Except.map] at hv
        exact hv.symm
      rw [hvz, hzr.samples (fun x hx => kept_parts hb x (List.mem_of_mem_filter hx))]
      rw [← List.filterMap_eq_map]
      unfold kept
      rw [List.filter_filter, List.filterMap_filter, List.filterMap_filter]
      apply List.filterMap_congr
      intro x hx
      rw [← hold x hx, holds_of_good hrm x (single_wf hb hw hx), perSample_of_good hrq x (single_wf hb hw hx)]
      have : keep sid W m x = keep sid W q x := by unfold keep; rw [hsel']
      rw [this]
      cases keep sid W q x <;> cases f x <;> simp

theorem perSample_good {sid W : Nat} {q : Quantity K} {m : Nat} {g : List K → List K} (h : GoodQ sid W q (some (m, g))) {s x : Sample K}
    (hs : (⟨W, s.length, [s]⟩ : Batch K).WF) (hx : q.perSample sid W s = some x) : keep sid W q s = true ∧ x = s.map g := by
  rw [perSample_of_good h s hs] at hx
  split at hx
  · rename_i hk; exact ⟨hk, by simpa using hx.symm⟩
  · simp at hx

theorem perSample_none {sid W : Nat} {q : Quantity K} (h : GoodQ sid W q none) {s x : Sample K}
    (hs : (⟨W, s.length, [s]⟩ : Batch K).WF) : q.perSample sid W s ≠ some x := by
  obtain ⟨e, he⟩ := h _ hs rfl
  unfold Quantity.perSample Quantity.values
  rw [he]; simp

theorem rep_single_length {a : Arr K} {p m : Nat} {g : List K → List K} {s : Sample K} (h : Rep a p m g [s]) (hs : s.length = p)
    (v : List K) (hv : v ∈ s) : (g v).length = m := by
  obtain ⟨k, hk, rfl⟩ := List.mem_iff_getElem.1 hv
  have := h.val 0 (by simp) k (by omega)
  rw [← h.m]
  have h2 := congrArg List.length this
  simp [hk] at h2
  exact h2.symm

theorem allComp_iff (r : K → K → Bool) (v w : List K) (h : v.length = w.length) :
    allComp r v.length v w = true ↔ List.Forall₂ (fun x y => r x y = true) v w := by
  have key : allComp r v.length v w = (List.zip v w).all fun x => r x.1 x.2 := by
    unfold allComp
    rw [Bool.eq_iff_iff, List.all_eq_true, List.all_eq_true]
    constructor
    · intro hh x hx
      obtain ⟨i, hi, rfl⟩ := List.mem_iff_getElem.1 hx
      simp at hi
      have := hh i (by simpa using hi.1)
      have hc : ∀ u : List K, u.length = v.length → ∀ hi' : i < u.length, comp u i = u[i] := by
        intro u hu hi'
        unfold comp
        split
        · have : i = 0 := by omega
          subst this
          rw [getD_lt _ _ _ hi']
        · rw [getD_lt _ _ _ hi']
      rw [hc v rfl hi.1, hc w h.symm hi.2] at this
      simpa using this
    · intro hh i hi
      rw [List.mem_range] at hi
      have hc : ∀ u : List K, u.length = v.length → ∀ hi' : i < u.length, comp u i = u[i] := by
        intro u hu hi'
        unfold comp
        split
        · have : i = 0 := by omega
          subst this
          rw [getD_lt _ _ _ hi']
        · rw [getD_lt _ _ _ hi']
      rw [hc v rfl hi, hc w h.symm (h ▸ hi)]
      exact hh (v[i], w[i]) (by rw [List.mem_iff_getElem]; exact ⟨i, by simp; omega, by simp⟩)
  rw [key, List.all_eq_true, List.forall₂_iff_zip]
  constructor
  · intro hh; exact ⟨h, fun {a b} hab => hh (a, b) hab⟩
  · intro hh x hx; exact hh.2 hx

/-- C39: a comparison of two quantities of equal size holds for a sample exactly if it holds for every component of every part
(fine and coarse). -/
theorem C39_comparison [Mul K] (sid W : Nat) (a b c : Quantity K) (o : Nat) (r : K → K → Bool)
    (ha : Built sid .qty a) (hb : Built sid .qty b) (hc : a.compare o r b = .ok c) (hid : IdsIdentify c)
    (s xa xb : Sample K) (hs : (⟨W, s.length, [s]⟩ : Batch K).WF) (hxa : a.perSample sid W s = some xa) (hxb : b.perSample sid W s = some xb)
    (hne : s ≠ []) (hsize : xa.map List.length = xb.map List.length) :
    c.holds sid W s = true ↔ List.Forall₂ (List.Forall₂ fun x y => r x y = true) xa xb := by
  have hm := mk_ok hc
  have hid' := hid
  rw [hm.1] at hid'
  obtain ⟨⟨ra, hra⟩, hca⟩ := built_good W ha (hid'.input (by simp))
  obtain ⟨⟨rb, hrb⟩, hcb⟩ := built_good W hb (hid'.input (by simp))
  cases ra with
  | none => exact absurd hxa (perSample_none hra hs)
  | some x =>
  obtain ⟨ma, ga⟩ := x
  cases rb with
  | none => exact absurd hxb (perSample_none hrb hs)
  | some y =>
  obtain ⟨mb, gb⟩ := y
  obtain ⟨hka, rfl⟩ := perSample_good hra hs hxa
  obtain ⟨hkb, rfl⟩ := perSample_good hrb hs hxb
  obtain ⟨x, hx, hxr⟩ := hra _ hs rfl
  obtain ⟨y, hy, hyr⟩ := hrb _ hs rfl
  have e1 : kept sid W a ⟨W, s.length, [s]⟩ = [s] := by simp [kept, hka]
  have e2 : kept sid W b ⟨W, s.length, [s]⟩ = [s] := by simp [kept, hkb]
  rw [e1] at hxr
  rw [e2] at hyr
  have hla := fun v hv => rep_single_length hxr rfl v hv
  have hlb := fun v hv => rep_single_length hyr rfl v hv
  have hmm : ma = mb := by
    cases hs' : s with
    | nil => exact absurd hs' hne
    | cons v vs =>
      subst hs'
      rw [← hla v (by simp), ← hlb v (by simp)]
      simp at hsize
      exact hsize.1
  have key : ∀ s' : Sample K, (∀ v ∈ s', v ∈ s) → ma = mb →
      ((s'.all fun v => allComp r ma (ga v) (gb v)) = true ↔ List.Forall₂ (List.Forall₂ fun x y => r x y = true) (s'.map ga) (s'.map gb)) := by
    intro s' hsub hmab
    induction s' with
    | nil => simp
    | cons v vs ih =>
      rw [List.all_cons, Bool.and_eq_true, ih fun u hu => hsub u (by simp [hu])]
      simp only [List.map_cons, List.forall₂_cons]
      have h1 := hla v (hsub v (by simp))
      have h2 := hlb v (hsub v (by simp))
      have := allComp_iff r (ga v) (gb v) (by rw [h1, h2, hmab])
      rw [h1] at this
      rw [this]
  rw [hm.1]
  unfold Quantity.holds
  rw [on_two, hx, hy]
  simp only [Except.bind, cmpArr]
  rw [mask_rep r hxr hyr (by simp) ma (by rw [hmm, bdim_self])]
  simp only [Except.map, List.map_cons, List.map_nil]
  rw [← key s (fun _ h => h) hmm]
  simp

/-- C39: a comparison with a number holds for a sample exactly if it holds for every component of every part. -/
theorem C39_comparison_with_number [Mul K] (sid W : Nat) (a c : Quantity K) (o o' : Nat) (t : QType) (y : K) (r : K → K → Bool)
    (ha : Built sid .qty a) (hc : a.compare o r (.const o' t [y]) = .ok c) (hid : IdsIdentify c)
    (s xa : Sample K) (hs : (⟨W, s.length, [s]⟩ : Batch K).WF) (hxa : a.perSample sid W s = some xa) :
    c.holds sid W s = true ↔ ∀ v ∈ xa, ∀ x ∈ v, r x y = true := by
  have hm := mk_ok hc
  have hid' := hid
  rw [hm.1] at hid'
  obtain ⟨⟨ra, hra⟩, hca⟩ := built_good W ha (hid'.input (by simp))
  cases ra with
  | none => exact absurd hxa (perSample_none hra hs)
  | some x =>
  obtain ⟨ma, ga⟩ := x
  obtain ⟨hka, rfl⟩ := perSample_good hra hs hxa
  obtain ⟨x, hx, hxr⟩ := hra _ hs rfl
  have e1 : kept sid W a ⟨W, s.length, [s]⟩ = [s] := by simp [kept, hka]
  rw [e1] at hxr
  have hla := fun v hv => rep_single_length hxr rfl v hv
  rw [hm.1]
  unfold Quantity.holds
  rw [on_two, hx, on_const]
  simp only [Except.bind, cmpArr]
  rw [mask_repR r hxr [y] (by simp) ma (bdim_one _)]
  simp only [Except.map, List.map_cons, List.map_nil]
  simp only [beq_iff_eq, List.cons.injEq, and_true, List.all_eq_true, List.mem_map, forall_exists_index, and_imp, forall_apply_eq_imp_iff₂]
  refine forall_congr' fun v => imp_congr_right fun hv => ?_
  unfold allComp
  rw [List.all_eq_true]
  have hy : ∀ i, comp [y] i = y := by intro i; simp [comp]
  have hi : ∀ i, i < ma → ∀ h : i < (ga v).length, comp (ga v) i = (ga v)[i] := by
    intro i hi h
    unfold comp
    split
    · have : i = 0 := by omega
      subst this; rw [getD_lt _ _ _ h]
    · rw [getD_lt _ _ _ h]
  constructor
  · intro h x hx
    obtain ⟨i, hi', rfl⟩ := List.mem_iff_getElem.1 hx
    have h1 : i < ma := by rw [← hla v hv]; exact hi'
    have := h i (by simpa using h1)
    rwa [hy, hi i h1 hi'] at this
  · intro h i hi'
    rw [List.mem_range] at hi'
    rw [hy, hi i hi' (by rw [hla v hv]; exact hi')]
    exact h _ (List.getElem_mem _)

/-! ## A concrete case

A storage with two values a sample; `q = root["b"]`, condition `root["a"] < 3`, selection `q.select(root["a"] < 3)`. -/
namespace ExQ

def t : QType := .dict [(.str "a".toList, .scalar), (.str "b".toList, .scalar)]
def root : Quantity ℤ := .storage 1 t
def three : Quantity ℤ := .const 9 .scalar [3]
def okQ (x : Except PyErr (Quantity ℤ)) : Quantity ℤ := match x with | .ok q => q | .error _ => root
def a : Quantity ℤ := okQ (root.getitem 2 (.key (.str "a".toList)))
def b : Quantity ℤ := okQ (root.getitem 3 (.key (.str "b".toList)))
def c : Quantity ℤ := okQ (a.compare 4 (fun x y => decide (x < y)) three)
def env0 : Nat → Except PyErr (Arr ℤ) := fun _ => .error .other
def s : Quantity ℤ := okQ (b.select env0 (fun _ => 5) c [])
def batch : Batch ℤ := ⟨2, 2, [[[1, 10], [2, 20]], [[1, 11], [5, 21]], [[0, 12], [0, 22]]]⟩

theorem a_ok : root.getitem 2 (.key (.str "a".toList)) = .ok a := rfl
theorem b_ok : root.getitem 3 (.key (.str "b".toList)) = .ok b := rfl
theorem c_ok : a.compare 4 (fun x y => decide (x < y)) three = .ok c := rfl
theorem s_ok : b.select env0 (fun _ => 5) c [] = .ok s := rfl
theorem a_built : Built 1 .qty a := .getitem 2 _ (.root t) a_ok
theorem b_built : Built 1 .qty b := .getitem 3 _ (.root t) b_ok
theorem c_built : Built 1 .cond c := .compareR 4 _ a_built (.const 9 .scalar [3]) c_ok
theorem s_built : Built 1 .qty s := .select env0 _ b_built (by intro x hx; simp at hx; subst hx; exact c_built) s_ok
theorem s_ids : IdsIdentify s := by
  have h : s.selections = [s] := rfl
  intro x hx y hy _
  rw [h, List.mem_singleton] at hx hy
  rw [hx, hy]
theorem batch_wf : batch.WF := by unfold Batch.WF; decide

example : s.values 1 batch = .ok [[[10], [20]], [[12], [22]]] := rfl
example : s.perSample 1 2 [[1, 11], [5, 21]] = none ∧ s.perSample 1 2 [[0, 12], [0, 22]] = some [[12], [22]] := ⟨rfl, rfl⟩
example : c.holds 1 2 [[1, 11], [5, 21]] = false ∧ c.holds 1 2 [[0, 12], [0, 22]] = true := ⟨rfl, rfl⟩
example := C38_samplewise 1 2 s s_built s_ids
example := C38_chunked_evaluation 1 2 2 s s_built s_ids [[[[1, 10], [2, 20]]], [[[1, 11], [5, 21]], [[0, 12], [0, 22]]]] (by simp) batch_wf
example := C39_select_keeps_exactly 1 2 b c s [] env0 (fun _ => 5) b_built (by intro x hx; simp at hx; subst hx; exact c_built) s_ok s_ids
  batch batch_wf rfl _ rfl

end ExQ
end MLMC
