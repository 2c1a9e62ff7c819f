import Verif.Props.QuantitySize
import Verif.Props.QuantityMix
/-! Composed quantities (C41), counterexamples about sizes (C37). -/
namespace MLMC
variable {K : Type} [Inhabited K]

theorem concat_on {sid o : Nat} {t : QType} {s : Bool} {qs : List (Quantity K)} {b : Batch K} {v : QVal K}
    (h : (Quantity.node o t s concatArr qs).on sid b = .ok v) :
    ∃ z as, v = .arr z ∧ List.Forall₂ (fun (q : Quantity K) a => q.on sid b = .ok (.arr a)) qs as ∧ (∀ a ∈ as, a.n = z.n ∧ a.p = z.p) ∧
      z.rows = as.flatMap (·.rows) := by
  rw [on_node] at h
  cases hl : Quantity.samplesList (fun o => if o = sid then .ok b.toArr else .error .other) qs with
  | error e => rw [hl] at h; simp [Except.bind] at h
  | ok vs =>
    rw [hl] at h
    simp only [Except.bind, concatArr, bind] at h
    cases ha : arrsOf vs with
    | error e => rw [ha] at h; simp at h
    | ok as =>
      rw [ha] at h
      simp only at h
      have hf : List.Forall₂ (fun (q : Quantity K) a => q.on sid b = .ok (.arr a)) qs as := by
        clear h
        induction qs generalizing vs as with
        | nil => simp [Quantity.samplesList] at hl; subst hl; simp [arrsOf] at ha; subst ha; exact .nil
        | cons q qs ih =>
          rw [samplesList_cons_on] at hl
          cases hq : q.on sid b with
          | error e => rw [hq] at hl; simp [Except.bind] at hl
          | ok v =>
            rw [hq] at hl
            simp only [Except.bind] at hl
            cases hl' : Quantity.samplesList (fun o => if o = sid then .ok b.toArr else .error .other) qs with
            | error e => rw [hl'] at hl; simp at hl
            | ok vs' =>
              rw [hl'] at hl
              simp only [Except.ok.injEq] at hl
              subst hl
              cases v with
              | mask m => simp [arrsOf] at ha
              | arr a =>
                rw [arrsOf] at ha
                cases ha' : arrsOf vs' with
                | error e => rw [ha'] at ha; simp [Except.map] at ha
                | ok as' =>
                  rw [ha'] at ha
                  simp [Except.map] at ha
                  subst ha
                  exact .cons hq (ih vs' hl' as' ha')
      cases hc : Arr.concat as with
      | error e => rw [hc] at h; simp [Except.map] at h
      | ok z =>
        rw [hc] at h
        simp [Except.map] at h
        refine ⟨z, as, h.symm, hf, ?_⟩
        unfold Arr.concat at hc
        split at hc
        · simp at hc
        · rename_i a0 as0
          split at hc
          · rename_i hall
            simp only [Except.ok.injEq] at hc
            subst hc
            refine ⟨?_, rfl⟩
            rw [List.all_eq_true] at hall
            intro a ha
            rcases List.mem_cons.1 ha with rfl | ha
            · exact ⟨rfl, rfl⟩
            · have := hall a ha
              simpa using this
          · simp at hc

theorem forall₂_getElem {α β : Type} {R : α → β → Prop} {l : List α} {m : List β} (h : List.Forall₂ R l m) (i : Nat) (hi : i < l.length)
    (hi' : i < m.length) : R l[i] m[i] := by
  induction h generalizing i with
  | nil => simp at hi
  | cons h1 h2 ih =>
    cases i with
    | zero => exact h1
    | succ i => exact ih i (by simpa using hi) (by simpa using hi')

theorem flatMap_block {α β : Type} (as : List α) (f : α → List β) (i : Nat) (hi : i < as.length) :
    ((as.flatMap f).drop ((as.take i).map fun a => (f a).length).sum).take (f as[i]).length = f as[i] := by
  induction as generalizing i with
  | nil => simp at hi
  | cons a as ih =>
    cases i with
    | zero => simp
    | succ i =>
      simp only [List.take_succ_cons, List.map_cons, List.sum_cons, List.flatMap_cons, List.getElem_cons_succ]
      rw [List.drop_append, List.drop_eq_nil_of_le (by omega), List.nil_append, Nat.add_sub_cancel_left]
      exact ih i (by simpa using hi)


/-- Access to one block of a composed quantity gives that part. -/
theorem block_on [Mul K] {sid W o : Nat} {t : QType} {s : Bool} {qs : List (Quantity K)} (hqs : ∀ q ∈ qs, Sized sid W q) {b : Batch K}
    (hw : b.width = W) {v : QVal K} (h : (Quantity.node o t s concatArr qs).on sid b = .ok v) (o' : Nat) (t' : QType) (i : Nat) (hi : i < qs.length)
    (ht : t'.size = qs[i].size) :
    (keyNode o' t' ((qs.take i).map Quantity.size).sum (.node o t s concatArr qs)).on sid b = qs[i].on sid b := by
  obtain ⟨z, as, rfl, hf, hnp, hrows⟩ := concat_on h
  have hlen := hf.length_eq
  have hi' : i < as.length := by omega
  have hon := forall₂_getElem hf i hi hi'
  have hsz := hqs _ (List.getElem_mem hi) b _ hw hon
  rw [keyNode_on sid b o' t' _ _ z h, hon, ht, ← hsz, hrows]
  have hsum : ((qs.take i).map Quantity.size).sum = ((as.take i).map fun a => a.rows.length).sum := by
    congr 1
    apply List.ext_getElem
    · simp [hlen]
    · intro j h1 h2
      simp at h1 h2
      simp only [List.getElem_map, List.getElem_take]
      exact (hqs _ (List.getElem_mem (by omega)) b _ hw (forall₂_getElem hf j (by omega) (by omega))).symm
  rw [hsum, flatMap_block as (·.rows) i hi']
  obtain ⟨e1, e2⟩ := hnp _ (List.getElem_mem hi')
  rw [← e1, ← e2]

theorem takeWhile_ne_of_nodup {α : Type} [DecidableEq α] (l : List α) (h : l.Nodup) (i : Nat) (hi : i < l.length) :
    l.takeWhile (· ≠ l[i]) = l.take i := by
  induction l generalizing i with
  | nil => simp at hi
  | cons a l ih =>
    rw [List.nodup_cons] at h
    cases i with
    | zero => simp
    | succ i =>
      have hi' : i < l.length := by simpa using hi
      rw [List.takeWhile_cons_of_pos]
      · simp only [List.getElem_cons_succ, List.take_succ_cons]
        rw [ih h.2 i hi']
      · simp only [List.getElem_cons_succ, decide_eq_true_eq]
        intro e
        exact h.1 (e ▸ List.getElem_mem hi')

/-- C41 for dictionaries: `QDict([(k1, q1), ...])[ki]` evaluates on every chunk to exactly what `qi` evaluates to. -/
theorem C41_dict_part [Mul K] (sid W : Nat) (kqs : List (PartKey × Quantity K)) (hp : ∀ x ∈ kqs, Plain sid W x.2) (hk : (kqs.map (·.1)).Nodup)
    (o o' : Nat) (q : Quantity K) (hq : Quantity.qDict o kqs = .ok q) (k : PartKey) (p : Quantity K) (hkp : (k, p) ∈ kqs) :
    ∃ r, q.getitem o' (.key k) = .ok r ∧ r.size = p.size ∧
      ∀ (b : Batch K) (v : QVal K), b.width = W → q.on sid b = .ok v → r.on sid b = p.on sid b := by
  unfold Quantity.qDict at hq
  cases ht : QType.mkDict (kqs.map fun x => (x.1, x.2.qtype)) with
  | error e => rw [ht] at hq; simp [bind, Except.bind] at hq
  | ok t =>
    rw [ht] at hq
    simp only [bind, Except.bind] at hq
    obtain ⟨rfl, _⟩ := mk_ok hq
    have hnd : ((kqs.map fun x => (x.1, x.2.qtype)).map (·.1)).Nodup := by rw [List.map_map]; exact hk
    have htd : t = .dict (kqs.map fun x => (x.1, x.2.qtype)) := by
      unfold QType.mkDict at ht
      rw [pyDict_nodup _ hnd] at ht
      split at ht
      · simp at ht
      · rename_i hitems
        split at ht
        · simp at ht
        · simp only [Except.ok.injEq] at ht
          rw [hitems, ht]
    obtain ⟨i, hi, hpi⟩ := List.mem_iff_getElem.1 hkp
    have hkey : t.getKey (.key k) = .ok (p.qtype, (((kqs.map (·.2)).take i).map Quantity.size).sum) := by
      rw [htd, QType.getKey]
      rw [Dict.get?_of_mem (v := p.qtype) hnd (List.mem_map_of_mem (f := fun x : PartKey × Quantity K => (x.1, x.2.qtype)) hkp)]
      simp only [Except.ok.injEq, Prod.mk.injEq, true_and]
      have hi2 : i < (kqs.map (·.1)).length := by simpa using hi
      have e := takeWhile_ne_of_nodup _ hk i hi2
      have hki : (kqs.map (·.1))[i] = k := by simp [hpi]
      rw [hki] at e
      have : (kqs.map fun x => (x.1, x.2.qtype)).takeWhile (fun x => x.1 ≠ k) = (kqs.take i).map fun x => (x.1, x.2.qtype) := by
        rw [List.takeWhile_map]
        congr 1
        rw [List.takeWhile_map, ← List.map_take] at e
        have hlen := congrArg List.length e
        simp only [List.length_map] at hlen
        have hpre := List.takeWhile_prefix (l := kqs) ((fun x => decide (x ≠ k)) ∘ fun x : PartKey × Quantity K => x.1)
        have : kqs.takeWhile ((fun x => decide (x ≠ k)) ∘ fun x : PartKey × Quantity K => x.1) = kqs.take i := by
          rw [List.prefix_iff_eq_take] at hpre
          rw [hpre, hlen]
          simp only [List.length_take]
          congr 1
          omega
        exact this
      rw [this, sizeItems_eq, List.map_map, ← List.map_take, List.map_map]
      rfl
    refine ⟨keyNode o' p.qtype _ _, getitem_key o' (q := .node o t false concatArr (kqs.map (·.2))) hkey, rfl, ?_⟩
    intro b v hw hv
    have hi2 : i < (kqs.map (·.2)).length := by simpa using hi
    have hpe : (kqs.map (·.2))[i] = p := by simp [hpi]
    have := block_on (fun q hq => by
      obtain ⟨x, hx, rfl⟩ := List.mem_map.1 hq
      exact fun b a hw ha => C37_size_partial sid W _ (hp x hx) b hw a ha) hw hv o' p.qtype i hi2 (by rw [hpe]; rfl)
    rw [this, hpe]

theorem sizes_const {qs : List (Quantity K)} {m : Nat} (h : ∀ q ∈ qs, q.size = m) (i : Nat) (hi : i ≤ qs.length) :
    ((qs.take i).map Quantity.size).sum = i * m := by
  rw [sum_map_const _ _ m fun x hx => h x (List.mem_of_mem_take hx), List.length_take]
  congr 1
  omega

/-- C41 for time series: `QTimeSeries([(t1, q1), ...])[ti]` is `qi`, for distinct times. -/
theorem C41_time_part [Mul K] (sid W : Nat) (tqs : List (ℚ × Quantity K)) (hp : ∀ x ∈ tqs, Plain sid W x.2) (hk : (tqs.map (·.1)).Nodup)
    (same : QType → QType → Bool) (hsame : ∀ a b, same a b = true → a = b)
    (o o' : Nat) (q : Quantity K) (hq : Quantity.qTimeSeries same o tqs = .ok q) (k : ℚ) (p : Quantity K) (hkp : (k, p) ∈ tqs) :
    ∃ r, q.getitem o' (.key (.num k)) = .ok r ∧ r.size = p.size ∧
      ∀ (b : Batch K) (v : QVal K), b.width = W → q.on sid b = .ok v → r.on sid b = p.on sid b := by
  unfold Quantity.qTimeSeries at hq
  split at hq
  · simp at hq
  · split at hq
    · simp at hq
    · rename_i t0 q0 ts0 hall
      obtain ⟨rfl, _⟩ := mk_ok hq
      rw [not_not, List.all_eq_true] at hall
      set tqs := (t0, q0) :: ts0 with htqs
      have hty : ∀ x ∈ tqs, x.2.qtype = q0.qtype := fun x hx => (hsame _ _ (hall x hx)).symm
      obtain ⟨i, hi, hpi⟩ := List.mem_iff_getElem.1 hkp
      have hi1 : i < (tqs.map (·.1)).length := by simpa using hi
      have hi2 : i < (tqs.map (·.2)).length := by simpa using hi
      have hpe : (tqs.map (·.2))[i] = p := by simp [hpi]
      have hsz : ∀ x ∈ tqs.map (·.2), x.size = q0.qtype.size := by
        intro x hx
        obtain ⟨y, hy, rfl⟩ := List.mem_map.1 hx
        rw [Quantity.size, hty y hy]
      have hkey : (QType.times (tqs.map (·.1)) q0.qtype).getKey (.key (.num k)) = .ok (q0.qtype, (((tqs.map (·.2)).take i).map Quantity.size).sum) := by
        have hki : (tqs.map (·.1))[i] = k := by simp [hpi]
        rw [QType.getKey, if_pos (hki ▸ List.getElem_mem hi1), sizes_const hsz i (by omega), ← hki, List.Nodup.idxOf_getElem hk]
      have hpt : p.qtype = q0.qtype := hty (k, p) hkp
      refine ⟨_, getitem_key o' (q := .node o _ false concatArr (tqs.map (·.2))) hkey, by
        show q0.qtype.size = p.qtype.size
        rw [hpt], ?_⟩
      intro b v hw hv
      have := block_on (fun q hq => by
        obtain ⟨x, hx, rfl⟩ := List.mem_map.1 hq
        exact fun b a hw ha => C37_size_partial sid W _ (hp x hx) b hw a ha) hw hv o' q0.qtype i hi2 (by rw [hpe, Quantity.size, hpt])
      rw [this, hpe]

/-- C41 for fields: `QField([(k1, q1), ...])[ki]` is `qi`, for distinct keys. -/
theorem C41_field_part [Mul K] (sid W : Nat) (kqs : List (PartKey × Quantity K)) (hp : ∀ x ∈ kqs, Plain sid W x.2) (hk : (kqs.map (·.1)).Nodup)
    (same : QType → QType → Bool) (hsame : ∀ a b, same a b = true → a = b)
    (o o' : Nat) (q : Quantity K) (hq : Quantity.qField same o kqs = .ok q) (k : PartKey) (p : Quantity K) (hkp : (k, p) ∈ kqs) :
    ∃ r, q.getitem o' (.key k) = .ok r ∧ r.size = p.size ∧
      ∀ (b : Batch K) (v : QVal K), b.width = W → q.on sid b = .ok v → r.on sid b = p.on sid b := by
  unfold Quantity.qField at hq
  split at hq
  · simp at hq
  · split at hq
    · simp at hq
    · rename_i t0 q0 ks0 hall
      cases ht : QType.mkField (((t0, q0) :: ks0).map fun x => (x.1, x.2.qtype)) with
      | error e => rw [ht] at hq; simp [bind, Except.bind] at hq
      | ok t =>
      rw [ht] at hq
      simp only [bind, Except.bind] at hq
      obtain ⟨rfl, _⟩ := mk_ok hq
      rw [not_not, List.all_eq_true] at hall
      have htf : t = .field (((t0, q0) :: ks0).map (·.1)) q0.qtype := by
        unfold QType.mkField at ht
        simp only [List.map_cons] at ht
        split at ht
        · simp only [Except.ok.injEq] at ht
          subst ht
          have hpd := pyDict_nodup (((t0, q0) :: ks0).map fun x => (x.1, x.2.qtype)) (by rw [List.map_map]; exact hk)
          simp only [List.map_cons] at hpd
          rw [hpd]
          simp
        · simp at ht
      set kqs := (t0, q0) :: ks0 with hkqs
      have hty : ∀ x ∈ kqs, x.2.qtype = q0.qtype := fun x hx => (hsame _ _ (hall x hx)).symm
      obtain ⟨i, hi, hpi⟩ := List.mem_iff_getElem.1 hkp
      have hi1 : i < (kqs.map (·.1)).length := by simpa using hi
      have hi2 : i < (kqs.map (·.2)).length := by simpa using hi
      have hpe : (kqs.map (·.2))[i] = p := by simp [hpi]
      have hsz : ∀ x ∈ kqs.map (·.2), x.size = q0.qtype.size := by
        intro x hx
        obtain ⟨y, hy, rfl⟩ := List.mem_map.1 hx
        rw [Quantity.size, hty y hy]
      have hkey : t.getKey (.key k) = .ok (q0.qtype, (((kqs.map (·.2)).take i).map Quantity.size).sum) := by
        have hki : (kqs.map (·.1))[i] = k := by simp [hpi]
        rw [htf, QType.getKey, if_pos (hki ▸ List.getElem_mem hi1), sizes_const hsz i (by omega), ← hki, List.Nodup.idxOf_getElem hk]
      have hpt : p.qtype = q0.qtype := hty (k, p) hkp
      refine ⟨_, getitem_key o' (q := .node o _ false concatArr (kqs.map (·.2))) hkey, by
        show q0.qtype.size = p.qtype.size
        rw [hpt], ?_⟩
      intro b v hw hv
      have := block_on (fun q hq => by
        obtain ⟨x, hx, rfl⟩ := List.mem_map.1 hq
        exact fun b a hw ha => C37_size_partial sid W _ (hp x hx) b hw a ha) hw hv o' q0.qtype i hi2 (by rw [hpe, Quantity.size, hpt])
      rw [this, hpe]

theorem flatMap_single {α β : Type} (as : List α) (f : α → List β) (h : ∀ a ∈ as, (f a).length = 1) (i : Nat) (hi : i < as.length) (d : β) :
    [(as.flatMap f).getD i d] = f as[i] := by
  have e := flatMap_block as f i hi
  rw [sum_map_const _ _ 1 fun a ha => h a (List.mem_of_mem_take ha), h _ (List.getElem_mem hi), List.length_take] at e
  have hl : i < (as.flatMap f).length := by
    rw [List.length_flatMap, sum_map_const _ _ 1 h]; omega
  rw [show min i as.length * 1 = i by omega] at e
  rw [← e, getD_lt _ _ _ hl]
  rw [List.drop_eq_getElem_cons hl]
  rfl

/-- C41 for arrays (partial): an array composed of quantities of size one gives back its parts; the part at a multi-index is the one
at its row-major position.  Missing: parts of other sizes, see the counterexample. -/
theorem C41_array_part_partial [Mul K] (sid W : Nat) (qs : List (Quantity K)) (hp : ∀ x ∈ qs, Plain sid W x) (shape : List Nat)
    (hshape : shape.prod = qs.length) (hone : ∀ x ∈ qs, x.size = 1)
    (same : QType → QType → Bool) (o o' : Nat) (q : Quantity K) (hq : Quantity.qArray same o shape qs = .ok q) (tup : Bool) (ix : List Nat)
    (hix : List.Forall₂ (· < ·) ix shape) :
    ∃ r, q.getitem o' (.idx tup (ix.map fun i : Nat => .int i)) = .ok r ∧ r.size = 1 ∧
      ∀ (b : Batch K) (v : QVal K), b.width = W → q.on sid b = .ok v →
        ∃ p, qs[(multiIndices shape).idxOf ix]? = some p ∧ r.on sid b = p.on sid b := by
  unfold Quantity.qArray at hq
  split at hq
  · simp at hq
  · split at hq
    · simp at hq
    · rename_i q0 qs0 hall
      obtain ⟨rfl, _⟩ := mk_ok hq
      set qs := q0 :: qs0 with hqs
      have hix' := mem_multiIndices.2 hix
      have hkey : (QType.array shape q0.qtype).getKey (.idx tup (ix.map fun i : Nat => .int i)) = .ok (q0.qtype, 0) := by
        rw [QType.getKey, npIndex_ints hix']
        rfl
      refine ⟨_, getitem_idx tup _ o' (q := .node o (.array shape q0.qtype) false concatArr qs) rfl hkey, hone q0 (by simp [hqs]), ?_⟩
      intro b v hw hv
      have hlt : (multiIndices shape).idxOf ix < qs.length := by
        rw [← hshape, ← multiIndices_length]; exact List.idxOf_lt_length_of_mem hix'
      refine ⟨qs[(multiIndices shape).idxOf ix], List.getElem?_eq_getElem hlt, ?_⟩
      obtain ⟨z, as, rfl, hf, hnp, hrows⟩ := concat_on hv
      have hlen := hf.length_eq
      have h1 : ∀ a ∈ as, a.rows.length = 1 := by
        intro a ha
        obtain ⟨i, hi, rfl⟩ := List.mem_iff_getElem.1 ha
        have hi' : i < qs.length := by omega
        rw [C37_size_partial sid W _ (hp _ (List.getElem_mem hi')) b hw _ (forall₂_getElem hf i hi' hi)]
        exact hone _ (List.getElem_mem hi')
      have hzl : z.rows.length = shape.prod := by
        rw [hrows, List.length_flatMap, sum_map_const _ _ 1 h1, hshape]; omega
      rw [idxNode_on sid b o' q0.qtype shape _ _ z hv hzl _ (npIndex_ints hix')]
      have hi' : (multiIndices shape).idxOf ix < as.length := by omega
      rw [forall₂_getElem hf _ hlt hi']
      obtain ⟨e1, e2⟩ := hnp _ (List.getElem_mem hi')
      rw [← flatIndex_idxOf hix']
      simp only [Arr.pick, List.map_cons, List.map_nil]
      rw [hrows, flatMap_single as (·.rows) h1 _ hi', ← e1, ← e2]

/-- C41 fails for arrays of larger parts: whatever the index, access to an array composed of parts of another size than one raises
at every evaluation. -/
theorem C41_array_counterexample [Mul K] (sid W : Nat) (qs : List (Quantity K)) (hp : ∀ x ∈ qs, Plain sid W x) (shape : List Nat)
    (hshape : shape.prod = qs.length) (m : Nat) (hm : ∀ x ∈ qs, x.size = m) (hm1 : m ≠ 1)
    (same : QType → QType → Bool) (o o' : Nat) (q : Quantity K) (hq : Quantity.qArray same o shape qs = .ok q) (tup : Bool) (items : List IdxItem)
    (r : Quantity K) (hr : q.getitem o' (.idx tup items) = .ok r) (b : Batch K) (hw : b.width = W) : ∃ e, r.on sid b = .error e := by
  unfold Quantity.qArray at hq
  split at hq
  · simp at hq
  · split at hq
    · simp at hq
    · rename_i q0 qs0 hall
      obtain ⟨rfl, _⟩ := mk_ok hq
      set qs := q0 :: qs0 with hqs
      unfold Quantity.getitem at hr
      cases hk : (Quantity.node o (QType.array shape q0.qtype) false concatArr qs).qtype.getKey (.idx tup items) with
      | error e => rw [hk] at hr; simp [bind, Except.bind] at hr
      | ok ts =>
        rw [hk] at hr
        simp only [bind, Except.bind] at hr
        change Quantity.mk o' ts.1 (unArr fun a => if a.rows.length = shape.prod then Except.map (fun r => a.pick r.2) (npIndex shape items)
          else Except.error PyErr.valueError) [Quantity.node o (QType.array shape q0.qtype) false concatArr qs] = .ok r at hr
        rw [(mk_ok hr).1, on_one]
        cases hv : (Quantity.node o (QType.array shape q0.qtype) false concatArr qs).on sid b with
        | error e => exact ⟨e, rfl⟩
        | ok v =>
          obtain ⟨z, as, rfl, hf, hnp, hrows⟩ := concat_on hv
          have hlen := hf.length_eq
          have h1 : ∀ a ∈ as, a.rows.length = m := by
            intro a ha
            obtain ⟨i, hi, rfl⟩ := List.mem_iff_getElem.1 ha
            have hi' : i < qs.length := by omega
            rw [C37_size_partial sid W _ (hp _ (List.getElem_mem hi')) b hw _ (forall₂_getElem hf i hi' hi)]
            exact hm _ (List.getElem_mem hi')
          have hzl : z.rows.length ≠ shape.prod := by
            rw [hrows, List.length_flatMap, sum_map_const _ _ m h1, hshape, ← hlen]
            intro e
            have hpos : 0 < qs.length := by simp [hqs]
            have : qs.length * m = qs.length * 1 := by omega
            exact hm1 (Nat.eq_of_mul_eq_mul_left hpos this)
          exact ⟨.valueError, by simp [Except.bind, unArr, hzl, Except.map]⟩

namespace ExQ

/-- `QDict([("x", a), ("y", b)])`, `QArray([a, b])`. -/
def kqs : List (PartKey × Quantity ℤ) := [(.str "x".toList, a), (.str "y".toList, b)]
theorem a_plain : Plain 1 2 a := .getitem 2 _ (.root t rfl) a_ok
theorem b_plain : Plain 1 2 b := .getitem 3 _ (.root t rfl) b_ok
theorem kqs_plain : ∀ x ∈ kqs, Plain 1 2 x.2 := by
  intro x hx
  simp [kqs] at hx
  rcases hx with rfl | rfl
  · exact a_plain
  · exact b_plain
def d : Quantity ℤ := okQ (Quantity.qDict 20 kqs)
theorem d_ok : Quantity.qDict 20 kqs = .ok d := rfl
theorem d_plain : Plain 1 2 d := .qDict 20 kqs_plain (by decide +kernel) d_ok
example := C41_dict_part 1 2 kqs kqs_plain (by decide +kernel) 20 21 d d_ok (.str "y".toList) b (by simp [kqs])
example := C37_size_partial 1 2 d d_plain batch rfl
example : d.values 1 batch = .ok [[[1, 10], [2, 20]], [[1, 11], [5, 21]], [[0, 12], [0, 22]]] := rfl

/-- An array of two parts of size two cannot be indexed. -/
def scalarSame : QType → QType → Bool := fun x y => match x, y with | .scalar, .scalar => true | _, _ => false
theorem scalarSame_eq (x y : QType) (h : scalarSame x y = true) : x = y := by
  cases x <;> cases y <;> simp [scalarSame] at h ⊢
def arr2 : Quantity ℤ := okQ (Quantity.qArray scalarSame 22 [2] [a, b])
theorem arr2_ok : Quantity.qArray scalarSame 22 [2] [a, b] = .ok arr2 := rfl
example := C41_array_part_partial 1 2 [a, b] (by intro x hx; simp at hx; rcases hx with rfl | rfl; exacts [a_plain, b_plain]) [2] rfl
  (by intro x hx; simp at hx; rcases hx with rfl | rfl <;> rfl) scalarSame 22 23 arr2 arr2_ok false [1] (.cons (by decide) .nil)
def any : QType → QType → Bool := fun _ _ => true
example : ∃ q r, Quantity.qArray any 24 [2] [d, d] = .ok q ∧ q.getitem 25 (.idx false [.int 0]) = .ok r ∧ r.on 1 batch = .error .valueError :=
  ⟨_, _, rfl, rfl, rfl⟩

def ts2 : Quantity ℤ := okQ (Quantity.qTimeSeries scalarSame 26 [(0, a), (1/2, b)])
theorem ts2_ok : Quantity.qTimeSeries scalarSame 26 [(0, a), (1/2, b)] = .ok ts2 := rfl
theorem ab_plain {κ : Type} (k l : κ) : ∀ x ∈ [(k, a), (l, b)], Plain 1 2 x.2 := by
  intro x hx; simp at hx; rcases hx with rfl | rfl; exacts [a_plain, b_plain]
example := C41_time_part 1 2 [(0, a), (1/2, b)] (ab_plain _ _) (by decide +kernel) scalarSame scalarSame_eq 26 27 ts2 ts2_ok (1/2) b (by simp)
def fld2 : Quantity ℤ := okQ (Quantity.qField scalarSame 28 kqs)
theorem fld2_ok : Quantity.qField scalarSame 28 kqs = .ok fld2 := rfl
example := C41_field_part 1 2 kqs kqs_plain (by decide +kernel) scalarSame scalarSame_eq 28 29 fld2 fld2_ok (.str "x".toList) a (by simp [kqs])

end ExQ

/-- C37 fails with broadcasting: a scalar quantity plus an array constant has size 1 and evaluates to three rows. -/
theorem C37_broadcast_counterexample : ∃ (q : Quantity ℤ) (z : Arr ℤ), ExQ.a.arith 30 (· + ·) (.const 31 (.array [3] .scalar) [1, 2, 3]) = .ok q ∧
    q.on 1 ExQ.batch = .ok (.arr z) ∧ z.rows.length = 3 ∧ q.size = 1 := ⟨_, _, rfl, rfl, rfl, rfl⟩

/-- C37 fails with repeated keys: the dictionary keeps one of two entries, the evaluation has both. -/
theorem C37_repeated_key_counterexample : ∃ (q : Quantity ℤ) (z : Arr ℤ),
    Quantity.qDict 32 [(.str ['k'], ExQ.a), (.str ['k'], ExQ.b)] = .ok q ∧ q.on 1 ExQ.batch = .ok (.arr z) ∧ z.rows.length = 2 ∧ q.size = 1 :=
  ⟨_, _, rfl, rfl, rfl, rfl⟩

end MLMC
