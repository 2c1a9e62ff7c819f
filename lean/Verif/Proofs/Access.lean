import Verif.Spec.Format
import Verif.Proofs.QuantityBuilt
/-! Named access and indexing of quantities. -/
namespace MLMC
variable {K : Type}

/-! ## Positions -/

theorem idxOf_flatMap {α β : Type} [DecidableEq α] [BEq β] [LawfulBEq β] (l : List α) (f : α → List β) (a : α) (y : β) (ha : a ∈ l) (hy : y ∈ f a)
    (hne : ∀ a' ∈ l, a' ≠ a → y ∉ f a') :
    (l.flatMap f).idxOf y = ((l.takeWhile (· ≠ a)).map fun a => (f a).length).sum + (f a).idxOf y := by
  induction l with
  | nil => simp at ha
  | cons b l ih =>
    rw [List.flatMap_cons]
    by_cases hb : b = a
    · subst hb
      rw [List.idxOf_append_of_mem hy]
      simp
    · rw [List.idxOf_append_of_notMem (hne b (by simp) hb)]
      have ha' : a ∈ l := by
        rcases List.mem_cons.1 ha with h | h
        · exact absurd h.symm hb
        · exact h
      rw [ih ha' fun a' h h' => hne a' (by simp [h]) h']
      rw [List.takeWhile_cons_of_pos (by simp [hb])]
      simp only [List.map_cons, List.sum_cons]
      omega

theorem takeWhile_length_idxOf {α : Type} [DecidableEq α] (l : List α) (a : α) : (l.takeWhile (· ≠ a)).length = l.idxOf a := by
  induction l with
  | nil => rfl
  | cons b l ih =>
    by_cases hb : b = a
    · subst hb; simp
    · rw [List.takeWhile_cons_of_pos (by simp [hb]), List.idxOf_cons_ne _ hb, List.length_cons, ih]

theorem idxOf_flatMap_const {α β : Type} [DecidableEq α] [BEq β] [LawfulBEq β] (l : List α) (f : α → List β) (a : α) (y : β) (ha : a ∈ l) (hy : y ∈ f a)
    (hne : ∀ a' ∈ l, a' ≠ a → y ∉ f a') (m : Nat) (hm : ∀ a, (f a).length = m) : (l.flatMap f).idxOf y = l.idxOf a * m + (f a).idxOf y := by
  rw [idxOf_flatMap l f a y ha hy hne]
  simp only [hm]
  rw [List.map_const', List.sum_replicate, takeWhile_length_idxOf]
  rfl

theorem idxOf_map_inj {α β : Type} [BEq α] [LawfulBEq α] [BEq β] [LawfulBEq β] (l : List α) (f : α → β) (hf : ∀ a b, f a = f b → a = b) (a : α) :
    (l.map f).idxOf (f a) = l.idxOf a := by
  induction l with
  | nil => rfl
  | cons b l ih =>
    by_cases hb : b = a
    · subst hb; simp
    · rw [List.map_cons, List.idxOf_cons_ne _ hb, List.idxOf_cons_ne _ fun h => hb (hf _ _ h), ih]

/-- Row-major position of a multi-index. -/
def flatIndex : List Nat → List Nat → Nat
  | _ :: shape, i :: ix => i * shape.prod + flatIndex shape ix
  | _, _ => 0

theorem multiIndices_length (shape : List Nat) : (multiIndices shape).length = shape.prod := by
  induction shape with
  | nil => rfl
  | cons d shape ih => simp [multiIndices, List.length_flatMap, ih, List.prod_cons]

theorem mem_multiIndices {shape ix : List Nat} : ix ∈ multiIndices shape ↔ List.Forall₂ (· < ·) ix shape := by
  induction shape generalizing ix with
  | nil => simp [multiIndices]
  | cons d shape ih =>
    simp only [multiIndices, List.mem_flatMap, List.mem_range, List.mem_map]
    constructor
    · rintro ⟨i, hi, ix', h, rfl⟩
      exact .cons hi (ih.1 h)
    · intro h
      cases h with
      | cons h1 h2 => exact ⟨_, h1, _, ih.2 h2, rfl⟩

theorem flatIndex_idxOf {shape ix : List Nat} (h : ix ∈ multiIndices shape) : (multiIndices shape).idxOf ix = flatIndex shape ix := by
  induction shape generalizing ix with
  | nil => simp [multiIndices] at h; subst h; rfl
  | cons d shape ih =>
    simp only [multiIndices, List.mem_flatMap, List.mem_range, List.mem_map] at h
    obtain ⟨i, hi, ix', h, rfl⟩ := h
    rw [multiIndices, idxOf_flatMap_const _ _ i (i :: ix') (by simpa using hi) (by simpa using h) _ shape.prod]
    · rw [flatIndex, idxOf_map_inj _ _ (by simp), ih h]
      congr 2
      have : ∀ n, i < n → (List.range n).idxOf i = i := by
        intro n hn
        have hne : (List.range n).Nodup := List.nodup_range
        have h2 := List.Nodup.idxOf_getElem hne i (by simpa using hn)
        simpa using h2
      exact this d hi
    · intro a; simp [multiIndices_length]
    · intro a _ ha; simp; intro _ hc; exact ha hc

theorem flatIndex_lt {shape ix : List Nat} (h : ix ∈ multiIndices shape) : flatIndex shape ix < shape.prod := by
  rw [← flatIndex_idxOf h, ← multiIndices_length]
  exact List.idxOf_lt_length_of_mem h

theorem npIndex_ints {shape ix : List Nat} (h : ix ∈ multiIndices shape) :
    npIndex shape (ix.map fun i : Nat => .int i) = .ok ([], [flatIndex shape ix]) := by
  induction shape generalizing ix with
  | nil => simp [multiIndices] at h; subst h; simp [npIndex, flatIndex]
  | cons d shape ih =>
    simp only [multiIndices, List.mem_flatMap, List.mem_range, List.mem_map] at h
    obtain ⟨i, hi, ix', h, rfl⟩ := h
    rw [List.map_cons, npIndex, ih h]
    simp [bind, Except.bind, normIndex, hi, flatIndex]

/-! ## Dictionaries -/

theorem upd_append {κ α : Type} [DecidableEq κ] (d : Dict κ α) (k : κ) (v : α) (h : k ∉ d.map (·.1)) : Dict.set d k v = d ++ [(k, v)] := by
  induction d with
  | nil => rfl
  | cons x d ih =>
    simp only [List.map_cons, List.mem_cons, not_or] at h
    have := ih h.2
    unfold Dict.set at this ⊢
    rw [Dict.upd, if_neg (fun e => h.1 e.symm), this]
    rfl

theorem pyDict_nodup {α : Type} (args : List (PartKey × α)) (h : (args.map (·.1)).Nodup) : QType.pyDict args = args := by
  have key : ∀ (args d : List (PartKey × α)), ((d ++ args).map (·.1)).Nodup → args.foldl (fun d x => Dict.set d x.1 x.2) d = d ++ args := by
    intro args
    induction args with
    | nil => intro d _; simp
    | cons x args ih =>
      intro d hd
      rw [List.foldl_cons, upd_append]
      · rw [ih]
        · simp
        · simpa using hd
      · simp only [List.map_append, List.map_cons] at hd
        have := List.disjoint_of_nodup_append hd
        intro hx
        exact this hx (by simp)
  unfold QType.pyDict
  rw [key args [] (by simpa using h)]
  rfl

/-! ## Access -/

theorem mk_one (o : Nat) (t : QType) (op) (q : Quantity K) : Quantity.mk o t op [q] = .ok (.node o t false op [q]) := by
  unfold Quantity.mk
  have h1 : Quantity.setSelection none [q] = .ok q.selId := by
    rw [Quantity.setSelection]
    cases q.selId <;> rw [Quantity.setSelection]
  rw [h1]
  simp only [bind, Except.bind]
  rw [if_neg]
  push Not
  intro _
  rw [List.all_eq_true]
  intro i hi
  rw [List.mem_singleton] at hi
  subst hi
  rw [Quantity.selId, Quantity.firstSel, Quantity.firstSel]
  cases i.selId <;> simp

variable [Inhabited K]

/-- The quantity made by bracket access with a key. -/
def keyNode (o : Nat) (t : QType) (start : Nat) (q : Quantity K) : Quantity K :=
  .node o t false (unArr fun a => .ok ⟨a.n, a.p, (a.rows.drop start).take t.size⟩) [q]

theorem getitem_key {q : Quantity K} {k : PartKey} {t : QType} {start : Nat} (o : Nat) (h : q.qtype.getKey (.key k) = .ok (t, start)) :
    q.getitem o (.key k) = .ok (keyNode o t start q) := by
  unfold Quantity.getitem
  rw [h]
  simp only [bind, Except.bind]
  split
  · rename_i h1; simp at h1
  · exact mk_one _ _ _ _

theorem keyNode_on (sid : Nat) (b : Batch K) (o : Nat) (t : QType) (start : Nat) (q : Quantity K) (a : Arr K) (h : q.on sid b = .ok (.arr a)) :
    (keyNode o t start q).on sid b = .ok (.arr ⟨a.n, a.p, (a.rows.drop start).take t.size⟩) := by
  unfold keyNode
  rw [on_one, h]
  rfl

/-- The quantity made by an array index. -/
def idxNode (o : Nat) (t : QType) (shape : List Nat) (items : List IdxItem) (q : Quantity K) : Quantity K :=
  .node o t false (unArr fun a => if a.rows.length = shape.prod then (npIndex shape items).map fun r => a.pick r.2 else .error .valueError) [q]

theorem getitem_idx {q : Quantity K} {shape : List Nat} {inner t : QType} {start : Nat} (tup : Bool) (items : List IdxItem) (o : Nat)
    (hq : q.qtype = .array shape inner) (h : q.qtype.getKey (.idx tup items) = .ok (t, start)) :
    q.getitem o (.idx tup items) = .ok (idxNode o t shape items q) := by
  unfold Quantity.getitem
  rw [h]
  simp only [bind, Except.bind]
  rw [hq]
  exact mk_one _ _ _ _

theorem idxNode_on (sid : Nat) (b : Batch K) (o : Nat) (t : QType) (shape : List Nat) (items : List IdxItem) (q : Quantity K) (a : Arr K)
    (h : q.on sid b = .ok (.arr a)) (hl : a.rows.length = shape.prod) (r : List Nat × List Nat) (hr : npIndex shape items = .ok r) :
    (idxNode o t shape items q).on sid b = .ok (.arr (a.pick r.2)) := by
  unfold idxNode
  rw [on_one, h]
  simp [Except.bind, unArr, hl, hr, Except.map]

theorem root_on (sid : Nat) (b : Batch K) (t : QType) : (Quantity.storage sid t : Quantity K).on sid b = .ok (.arr b.toArr) := by
  rw [Quantity.on, Quantity.samples]; simp [Except.map]

theorem sizeItems_eq (items : List (PartKey × QType)) : QType.sizeItems items = (items.map fun x => x.2.size).sum := by
  induction items with
  | nil => rw [QType.sizeItems]; rfl
  | cons x items ih => rw [QType.sizeItems, ih]; rfl

/-- The sample entry at one position, as an array. -/
theorem pick_values {b : Batch K} (hb : b.WF) (rows : List (Nat → Nat → K)) (pos : Nat)
    (hrows : rows = [b.toArr.rows.getD pos fun _ _ => default]) :
    (⟨b.toArr.n, b.toArr.p, rows⟩ : Arr K).samples = b.data.map (·.map fun v => [v.getD pos default]) := by
  have := rep_rows (toArr_rep b hb) rows 1 (fun v => [v.getD pos default]) (by rw [hrows]; rfl) (by
    intro j k v hv
    rw [hrows, ← hv]
    simp only [List.map_cons, List.map_nil]
    rw [getD_map_rows])
  exact this.samples (fun s hs => (hb s hs).1)

theorem getD_drop_take {α : Type} (l : List α) (d : α) (s m i : Nat) (h : i < m) : ((l.drop s).take m).getD i d = l.getD (s + i) d := by
  simp [List.getD_eq_getElem?_getD, h]

end MLMC
