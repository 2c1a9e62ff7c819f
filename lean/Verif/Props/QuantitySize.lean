import Verif.Proofs.Access
/-! A quantity's size is the number of values it evaluates to (C37). -/
namespace MLMC
variable {K : Type} [Inhabited K]

mutual
theorem size_replaceScalar : ∀ (t s : QType), (t.replaceScalar s).size = t.size * s.size
  | .scalar, s => by simp [QType.replaceScalar, QType.size]
  | .bool, s => by simp [QType.replaceScalar, QType.size]
  | .array shape q, s => by rw [QType.replaceScalar, QType.size, QType.size, size_replaceScalar q s, Nat.mul_assoc]
  | .times ts q, s => by rw [QType.replaceScalar, QType.size, QType.size, size_replaceScalar q s, Nat.mul_assoc]
  | .field ks q, s => by rw [QType.replaceScalar, QType.size, QType.size, size_replaceScalar q s, Nat.mul_assoc]
  | .dict items, s => by rw [QType.replaceScalar, QType.size, QType.size, size_replaceItems items s]
theorem size_replaceItems : ∀ (items : List (PartKey × QType)) (s : QType),
    QType.sizeItems (QType.replaceItems items s) = QType.sizeItems items * s.size
  | [], s => by simp [QType.replaceItems, QType.sizeItems]
  | (k, q) :: items, s => by
    rw [QType.replaceItems, QType.sizeItems, QType.sizeItems, size_replaceScalar q s, size_replaceItems items s, Nat.add_mul]
end

/-- A NumPy index selects as many entries as its shape has, all inside. -/
theorem npIndex_length {shape : List Nat} {items : List IdxItem} {r : List Nat × List Nat} (h : npIndex shape items = .ok r) :
    r.2.length = r.1.prod ∧ (shape.prod = 0 → r.1.prod = 0) := by
  induction shape generalizing items r with
  | nil =>
    cases items with
    | nil => simp [npIndex] at h; subst h; simp
    | cons i is => simp [npIndex] at h
  | cons d shape ih =>
    cases items with
    | nil => simp [npIndex] at h; subst h; simp
    | cons it items =>
      rw [npIndex] at h
      cases hr : npIndex shape items with
      | error e => rw [hr] at h; simp [bind, Except.bind] at h
      | ok r' =>
        obtain ⟨h1, h2⟩ := ih hr
        rw [hr] at h
        simp only [bind, Except.bind] at h
        cases it with
        | int i =>
          simp only at h
          cases hn : normIndex d i with
          | error e => rw [hn] at h; simp at h
          | ok i' =>
            rw [hn] at h
            simp only [Except.ok.injEq] at h
            subst h
            refine ⟨by simp [h1], fun h0 => h2 ?_⟩
            rw [List.prod_cons, Nat.mul_eq_zero] at h0
            rcases h0 with h0 | h0
            · subst h0
              unfold normIndex at hn
              split at hn
              · omega
              · split at hn
                · omega
                · simp at hn
            · exact h0
        | slice a b s =>
          simp only [Except.ok.injEq] at h
          subst h
          refine ⟨by simp [List.length_flatMap, h1, List.prod_cons], fun h0 => ?_⟩
          rw [List.prod_cons, Nat.mul_eq_zero] at h0 ⊢
          rcases h0 with h0 | h0
          · left; subst h0; simp [sliceIndices]
          · right; exact h2 h0

/-- Evaluation has as many component rows as the size says. -/
def Sized (sid W : Nat) (q : Quantity K) : Prop := ∀ (b : Batch K) (a : Arr K), b.width = W → q.on sid b = .ok (.arr a) → a.rows.length = q.size

theorem sized_un {sid W o : Nat} {t : QType} {s : Bool} {a : Quantity K} (op : Arr K → Except PyErr (Arr K)) (ha : Sized sid W a)
    (h : ∀ x y, x.rows.length = a.size → op x = .ok y → y.rows.length = t.size) : Sized sid W (.node o t s (unArr op) [a]) := by
  intro b y hw hy
  rw [on_one] at hy
  cases hx : a.on sid b with
  | error e => rw [hx] at hy; simp [Except.bind] at hy
  | ok v =>
    rw [hx] at hy
    cases v with
    | mask m => simp [Except.bind, unArr] at hy
    | arr x =>
      simp only [Except.bind, unArr] at hy
      cases ho : op x with
      | error e => rw [ho] at hy; simp [Except.map] at hy
      | ok z =>
        rw [ho] at hy
        simp [Except.map] at hy
        subst hy
        exact h x z (ha b x hw hx) ho

theorem zip_rows {f : K → K → K} {x y z : Arr K} (h : Arr.zip f x y = .ok z) : bdim x.rows.length y.rows.length = .ok z.rows.length := by
  unfold Arr.zip at h
  cases h1 : bdim x.rows.length y.rows.length with
  | error e => rw [h1] at h; simp [bind, Except.bind] at h
  | ok m =>
    rw [h1] at h
    simp only [bind, Except.bind] at h
    cases h2 : bdim x.n y.n with
    | error e => rw [h2] at h; simp at h
    | ok n =>
      rw [h2] at h
      simp only at h
      cases h3 : bdim x.p y.p with
      | error e => rw [h3] at h; simp at h
      | ok p =>
        rw [h3] at h
        simp only [Except.ok.injEq] at h
        subst h
        simp

theorem on_zip {sid o : Nat} {t : QType} {s : Bool} {a c : Quantity K} {f : K → K → K} {b : Batch K} {z : Arr K}
    (hz : (Quantity.node o t s (binArr (Arr.zip f)) [a, c]).on sid b = .ok (.arr z)) :
    ∃ x y, a.on sid b = .ok (.arr x) ∧ c.on sid b = .ok (.arr y) ∧ bdim x.rows.length y.rows.length = .ok z.rows.length := by
  rw [on_two] at hz
  cases hx : a.on sid b with
  | error e => rw [hx] at hz; simp [Except.bind] at hz
  | ok v =>
    cases hy : c.on sid b with
    | error e => rw [hx, hy] at hz; simp [Except.bind] at hz
    | ok w =>
      rw [hx, hy] at hz
      cases v with
      | mask m => cases w <;> simp [Except.bind, binArr] at hz
      | arr x =>
        cases w with
        | mask m => simp [Except.bind, binArr] at hz
        | arr y =>
          simp only [Except.bind, binArr] at hz
          cases ho : Arr.zip f x y with
          | error e => rw [ho] at hz; simp [Except.map] at hz
          | ok z' =>
            rw [ho] at hz
            simp [Except.map] at hz
            subst hz
            exact ⟨x, y, rfl, rfl, zip_rows ho⟩

theorem bdim_eq_of {a b m : Nat} (h : bdim a b = .ok m) (hab : b = 1 ∨ b = a) : m = a := by
  unfold bdim at h
  rcases hab with rfl | rfl
  · split at h
    · simp at h; omega
    · split at h
      · simp at h; omega
      · simpa using h.symm
  · simpa using h.symm

theorem bdim_comm {a b m : Nat} (h : bdim a b = .ok m) : bdim b a = .ok m := by
  unfold bdim at h ⊢
  by_cases h1 : a = b
  · subst h1; simpa using h
  · rw [if_neg h1] at h
    rw [if_neg (fun e => h1 e.symm)]
    by_cases h2 : a = 1
    · rw [if_pos h2] at h
      by_cases h3 : b = 1
      · omega
      · rw [if_neg h3, if_pos h2]; exact h
    · rw [if_neg h2] at h
      by_cases h3 : b = 1
      · rw [if_pos h3] at h ⊢; exact h
      · rw [if_neg h3] at h; simp at h

theorem concat_rows {as : List (Arr K)} {z : Arr K} (h : Arr.concat as = .ok z) : z.rows.length = (as.map fun a => a.rows.length).sum := by
  unfold Arr.concat at h
  split at h
  · simp at h
  · split at h
    · simp only [Except.ok.injEq] at h
      subst h
      simp [List.length_flatMap]
    · simp at h

theorem concatArr_rows {sid W : Nat} {b : Batch K} (hw : b.width = W) (qs : List (Quantity K)) (hqs : ∀ q ∈ qs, Sized sid W q)
    {vs : List (QVal K)} (h : Quantity.samplesList (fun o => if o = sid then .ok b.toArr else .error .other) qs = .ok vs) {as : List (Arr K)}
    (ha : arrsOf vs = .ok as) : (as.map fun a => a.rows.length) = qs.map Quantity.size := by
  induction qs generalizing vs as with
  | nil => simp [Quantity.samplesList] at h; subst h; simp [arrsOf] at ha; subst ha; rfl
  | cons q qs ih =>
    rw [samplesList_cons_on] at h
    cases hq : q.on sid b with
    | error e => rw [hq] at h; simp [Except.bind] at h
    | ok v =>
      rw [hq] at h
      simp only [Except.bind] at h
      cases hl : Quantity.samplesList (fun o => if o = sid then .ok b.toArr else .error .other) qs with
      | error e => rw [hl] at h; simp at h
      | ok vs' =>
        rw [hl] at h
        simp only [Except.ok.injEq] at h
        subst h
        cases v with
        | mask m => simp [arrsOf] at ha
        | arr a =>
          rw [arrsOf] at ha
          cases ha' : arrsOf vs' with
          | error e => rw [ha'] at ha; simp [Except.map] at ha
          | ok as' =>
            rw [ha'] at ha
            simp [Except.map] at ha
            subst ha
            rw [List.map_cons, List.map_cons, ih (fun q hq => hqs q (by simp [hq])) hl ha', hqs q (by simp) b a hw hq]

theorem sized_concat {sid W o : Nat} {t : QType} {s : Bool} {qs : List (Quantity K)} (hqs : ∀ q ∈ qs, Sized sid W q)
    (ht : t.size = (qs.map Quantity.size).sum) : Sized sid W (.node o t s concatArr qs) := by
  intro b z hw hz
  rw [on_node] at hz
  cases hl : Quantity.samplesList (fun o => if o = sid then .ok b.toArr else .error .other) qs with
  | error e => rw [hl] at hz; simp [Except.bind] at hz
  | ok vs =>
    rw [hl] at hz
    simp only [Except.bind, concatArr, bind] at hz
    cases ha : arrsOf vs with
    | error e => rw [ha] at hz; simp at hz
    | ok as =>
      rw [ha] at hz
      simp only at hz
      cases hc : Arr.concat as with
      | error e => rw [hc] at hz; simp [Except.map] at hz
      | ok z' =>
        rw [hc] at hz
        simp [Except.map] at hz
        subst hz
        rw [concat_rows hc, concatArr_rows hw qs hqs hl ha]
        exact ht.symm

theorem sum_map_const {α : Type} (l : List α) (f : α → Nat) (m : Nat) (h : ∀ x ∈ l, f x = m) : (l.map f).sum = l.length * m := by
  induction l with
  | nil => simp
  | cons a l ih => rw [List.map_cons, List.sum_cons, ih fun x hx => h x (by simp [hx]), h a (by simp), List.length_cons, Nat.succ_mul]; omega

theorem ufunc_parts {env0} {o : Nat} {op} {qs : List (Quantity K)} {q : Quantity K} (h : Quantity.ufunc env0 o op qs = .ok q) :
    ∃ vs v base, Quantity.samplesList env0 qs = .ok vs ∧ op vs = .ok v ∧ (base = QType.bool ∨ base = .scalar) ∧
      q = .node o (.array [Quantity.firstAxis v] base) false op qs := by
  unfold Quantity.ufunc at h
  cases h1 : Quantity.samplesList env0 qs with
  | error e => rw [h1] at h; simp [bind, Except.bind] at h
  | ok vs =>
    rw [h1] at h
    simp only [bind, Except.bind] at h
    cases h2 : op vs with
    | error e => rw [h2] at h; simp at h
    | ok v =>
      rw [h2] at h
      refine ⟨vs, v, _, rfl, h2, ?_, (mk_ok h).1⟩
      split <;> simp

theorem node_on_of {sid o : Nat} {t : QType} {s : Bool} {op} {qs : List (Quantity K)} {b : Batch K} {vs} {v : QVal K}
    (h1 : Quantity.samplesList (fun o => if o = sid then .ok b.toArr else .error .other) qs = .ok vs) (h2 : op vs = .ok v) :
    (Quantity.node o t s op qs).on sid b = .ok v := by
  rw [on_node, h1]; exact h2

theorem size_array_base {n : Nat} {base : QType} (h : base = QType.bool ∨ base = .scalar) : (QType.array [n] base).size = n := by
  rcases h with rfl | rfl <;> simp [QType.size]

theorem getKey_inside {t t' : QType} {k : Brackets} {start : Nat} (h : t.getKey k = .ok (t', start))
    (hk : ∀ shape inner, t ≠ .array shape inner) : start + t'.size ≤ t.size := by
  cases t with
  | array shape inner => exact absurd rfl (hk shape inner)
  | scalar => simp [QType.getKey] at h
  | bool => simp [QType.getKey] at h
  | times ts q =>
    cases k with
    | idx tup items => simp [QType.getKey] at h
    | key k =>
      cases k with
      | str s => simp [QType.getKey] at h
      | point x y z => simp [QType.getKey] at h
      | num x =>
        rw [QType.getKey] at h
        split at h
        · rename_i hm
          simp only [Except.ok.injEq, Prod.mk.injEq] at h
          obtain ⟨rfl, rfl⟩ := h
          rw [QType.size, ← Nat.succ_mul]
          exact Nat.mul_le_mul_right _ (List.idxOf_lt_length_of_mem hm)
        · simp at h
  | field ks q =>
    cases k with
    | idx tup items => simp [QType.getKey] at h
    | key k =>
      rw [QType.getKey] at h
      split at h
      · rename_i hm
        simp only [Except.ok.injEq, Prod.mk.injEq] at h
        obtain ⟨rfl, rfl⟩ := h
        rw [QType.size, ← Nat.succ_mul]
        exact Nat.mul_le_mul_right _ (List.idxOf_lt_length_of_mem hm)
      · simp at h
  | dict items =>
    cases k with
    | idx tup items => simp [QType.getKey] at h
    | key k =>
      rw [QType.getKey] at h
      cases hg : Dict.get? items k with
      | none => rw [hg] at h; simp at h
      | some q =>
        rw [hg] at h
        simp only [Except.ok.injEq, Prod.mk.injEq] at h
        obtain ⟨rfl, rfl⟩ := h
        rw [QType.size]
        clear hk
        induction items with
        | nil => simp at hg
        | cons x items ih =>
          obtain ⟨k', q'⟩ := x
          rw [Dict.get?] at hg
          rw [QType.sizeItems]
          by_cases hk' : k' = k
          · rw [if_pos hk'] at hg
            simp only [Option.some.injEq] at hg
            subst hg
            rw [List.takeWhile_cons_of_neg (by simp [hk']), QType.sizeItems]
            omega
          · rw [if_neg hk'] at hg
            rw [List.takeWhile_cons_of_pos (by simp [hk']), QType.sizeItems]
            have := ih hg
            omega

/-- C37 (partial): for quantities built without broadcasting between components, `size()` is the number of component rows of
every evaluation.  Missing: mixed sizes in arithmetic and repeated keys, where it is false (see the counterexamples). -/
theorem C37_size_partial [Mul K] (sid W : Nat) (q : Quantity K) (h : Plain sid W q) (b : Batch K) (hw : b.width = W) (a : Arr K)
    (ha : q.on sid b = .ok (.arr a)) : a.rows.length = q.size := by
  suffices Sized sid W q from this b a hw ha
  clear ha hw a b
  induction h with
  | root t ht =>
    intro b a hw ha
    rw [root_on] at ha
    simp only [Except.ok.injEq, QVal.arr.injEq] at ha
    subst ha
    simp [Batch.toArr, hw, Quantity.size, Quantity.qtype, ht]
  | @getitem q q' o k _ h ih =>
    unfold Quantity.getitem at h
    cases hk : q.qtype.getKey k with
    | error e => rw [hk] at h; simp [bind, Except.bind] at h
    | ok ts =>
      obtain ⟨t, start⟩ := ts
      rw [hk] at h
      simp only [bind, Except.bind] at h
      split at h
      · rename_i shape inner tup items hqt
        rw [(mk_ok h).1]
        refine sized_un _ ih ?_
        intro x y hx hy
        split at hy
        · rename_i hlen
          rw [hqt, QType.getKey] at hk
          cases hn : npIndex shape items with
          | error e => rw [hn] at hy; simp [Except.map] at hy
          | ok r =>
            rw [hn] at hy hk
            simp [Except.map] at hy
            subst hy
            obtain ⟨h1, h2⟩ := npIndex_length hn
            simp only [bind, Except.bind, Except.ok.injEq, Prod.mk.injEq] at hk
            rw [hlen, Quantity.size, hqt, QType.size] at hx
            simp only [Arr.pick, List.length_map, h1]
            rw [← hk.1]
            by_cases h0 : shape.prod = 0
            · have h3 := h2 h0
              have hr1 : r.1 ≠ [] := by intro e; rw [e] at h3; simp at h3
              have hr2 : r.1 ≠ [1] := by intro e; rw [e] at h3; simp at h3
              simp [hr1, hr2, QType.size, h3]
            · have hi : inner.size = 1 := by
                have : shape.prod * inner.size = shape.prod * 1 := by omega
                exact Nat.eq_of_mul_eq_mul_left (Nat.pos_of_ne_zero h0) this
              by_cases hr2 : r.1 = [1]
              · simp [hr2, hi]
              · by_cases hr1 : r.1 = []
                · simp [hr1, hi]
                · simp [hr1, hr2, QType.size, hi]
        · simp at hy
      · rename_i k _ _ hno
        rw [(mk_ok h).1]
        refine sized_un _ ih ?_
        intro x y hx hy
        simp only [Except.ok.injEq] at hy
        subst hy
        have hnot : ∀ shape inner, q.qtype ≠ .array shape inner := by
          intro shape inner hq
          cases k with
          | idx tup items => exact hno shape inner tup items hq rfl
          | key k => rw [hq] at hk; simp [QType.getKey] at hk
        have := getKey_inside hk hnot
        simp only [List.length_take, List.length_drop, hx, Quantity.size]
        omega
  | @arith a b q o f _ _ hsz h iha ihb =>
    unfold Quantity.arith Quantity.create at h
    split at h
    · rename_i r hr
      have hrs : r.size = a.size := by
        have hmem := List.mem_of_find?_eq_some hr
        simp at hmem
        rcases hmem with rfl | rfl
        · rfl
        · exact hsz.symm
      rw [(mk_ok h).1]
      intro B z hw hz
      obtain ⟨x, y, hx, hy, hb⟩ := on_zip hz
      have h1 := iha B x hw hx
      have h2 := ihb B y hw hy
      rw [bdim_eq_of hb (.inr (by omega)), h1]
      exact hrs.symm
    · simp at h
  | @arithR a q o o' t v f _ hv h ih =>
    unfold Quantity.arith Quantity.create at h
    split at h
    · rename_i r hr
      have hrs : r.size = a.size := by
        have hmem := List.mem_of_find?_eq_some hr
        have hp := List.find?_some hr
        simp at hmem
        rcases hmem with rfl | rfl
        · rfl
        · simp [Quantity.isConst] at hp
      rw [(mk_ok h).1]
      intro B z hw hz
      obtain ⟨x, y, hx, hy, hb⟩ := on_zip hz
      have h1 := ih B x hw hx
      rw [on_const] at hy
      simp only [Except.ok.injEq, QVal.arr.injEq] at hy
      subst hy
      rw [bdim_eq_of hb (by rw [h1]; simpa [constArr] using hv), h1]
      exact hrs.symm
    · simp at h
  | @arithL a q o o' t v f _ hv h ih =>
    unfold Quantity.arith Quantity.create at h
    split at h
    · rename_i r hr
      have hrs : r.size = a.size := by
        have hmem := List.mem_of_find?_eq_some hr
        have hp := List.find?_some hr
        simp at hmem
        rcases hmem with rfl | rfl
        · simp [Quantity.isConst] at hp
        · rfl
      rw [(mk_ok h).1]
      intro B z hw hz
      obtain ⟨x, y, hx, hy, hb⟩ := on_zip hz
      have h1 := ih B y hw hy
      rw [on_const] at hx
      simp only [Except.ok.injEq, QVal.arr.injEq] at hx
      subst hx
      rw [bdim_eq_of (bdim_comm hb) (by rw [h1]; simpa [constArr] using hv), h1]
      exact hrs.symm
    · simp at h
  | @ufunc a q o b0 f _ hw0 h ih =>
    obtain ⟨vs, v, base, h1, h2, hbase, rfl⟩ := ufunc_parts h
    have hv := node_on_of (o := o) (t := .array [Quantity.firstAxis v] base) (s := false) h1 h2
    have key : ∀ (B : Batch K) (z : QVal K), B.width = W →
        (Quantity.node o (.array [Quantity.firstAxis v] base) false (unArr fun x => .ok (x.map f)) [a]).on sid B = .ok z → Quantity.firstAxis z = a.size := by
      intro B z hw hz
      rw [on_one] at hz
      cases hx : a.on sid B with
      | error e => rw [hx] at hz; simp [Except.bind] at hz
      | ok x =>
        rw [hx] at hz
        cases x with
        | mask m => simp [Except.bind, unArr] at hz
        | arr x =>
          simp [Except.bind, unArr, Except.map] at hz
          subst hz
          simp [Quantity.firstAxis, Arr.map, ih B x hw hx]
    intro B z hw hz
    have e1 := key B _ hw hz
    have e2 := key b0 _ hw0 hv
    rw [Quantity.size, Quantity.qtype, size_array_base hbase, e2, ← e1]
    rfl
  | @ufunc2 a b q o b0 f _ _ hw0 h iha ihb =>
    obtain ⟨vs, v, base, h1, h2, hbase, rfl⟩ := ufunc_parts h
    have hv := node_on_of (o := o) (t := .array [Quantity.firstAxis v] base) (s := false) h1 h2
    have key : ∀ (B : Batch K) (z : Arr K), B.width = W →
        (Quantity.node o (.array [Quantity.firstAxis v] base) false (binArr (Arr.zip f)) [a, b]).on sid B = .ok (.arr z) → bdim a.size b.size = .ok z.rows.length := by
      intro B z hw hz
      obtain ⟨x, y, hx, hy, hb⟩ := on_zip hz
      rw [← iha B x hw hx, ← ihb B y hw hy]
      exact hb
    have hva : ∃ z0, v = .arr z0 := by
      rw [on_two] at hv
      cases hx : a.on sid b0 with
      | error e => rw [hx] at hv; simp [Except.bind] at hv
      | ok x =>
        cases hy : b.on sid b0 with
        | error e => rw [hx, hy] at hv; simp [Except.bind] at hv
        | ok y =>
          rw [hx, hy] at hv
          cases x <;> cases y <;> simp [Except.bind, binArr] at hv
          rename_i x y
          cases hz : Arr.zip f x y with
          | error e => rw [hz] at hv; simp [Except.map] at hv
          | ok z => rw [hz] at hv; simp [Except.map] at hv; exact ⟨z, hv.symm⟩
    obtain ⟨z0, rfl⟩ := hva
    intro B z hw hz
    have e1 := key B _ hw hz
    have e2 := key b0 _ hw0 hv
    rw [Quantity.size, Quantity.qtype, size_array_base hbase]
    rw [e1] at e2
    simpa [Quantity.firstAxis] using e2
  | @ufunc2R a q o o' t v0 b0 f _ hw0 h ih =>
    obtain ⟨vs, v, base, h1, h2, hbase, rfl⟩ := ufunc_parts h
    have hv := node_on_of (o := o) (t := .array [Quantity.firstAxis v] base) (s := false) h1 h2
    have key : ∀ (B : Batch K) (z : Arr K), B.width = W →
        (Quantity.node o (.array [Quantity.firstAxis v] base) false (binArr (Arr.zip f)) [a, .const o' t v0]).on sid B = .ok (.arr z) →
          bdim a.size v0.length = .ok z.rows.length := by
      intro B z hw hz
      obtain ⟨x, y, hx, hy, hb⟩ := on_zip hz
      rw [on_const] at hy
      simp only [Except.ok.injEq, QVal.arr.injEq] at hy
      subst hy
      rw [← ih B x hw hx]
      simpa [constArr] using hb
    have hva : ∃ z0, v = .arr z0 := by
      rw [on_two, on_const] at hv
      cases hx : a.on sid b0 with
      | error e => rw [hx] at hv; simp [Except.bind] at hv
      | ok x =>
        rw [hx] at hv
        cases x <;> simp [Except.bind, binArr] at hv
        rename_i x
        cases hz : Arr.zip f x (constArr v0) with
        | error e => rw [hz] at hv; simp [Except.map] at hv
        | ok z => rw [hz] at hv; simp [Except.map] at hv; exact ⟨z, hv.symm⟩
    obtain ⟨z0, rfl⟩ := hva
    intro B z hw hz
    have e1 := key B _ hw hz
    have e2 := key b0 _ hw0 hv
    rw [Quantity.size, Quantity.qtype, size_array_base hbase]
    rw [e1] at e2
    simpa [Quantity.firstAxis] using e2
  | @reduce a q o b0 f _ hw0 h ih =>
    obtain ⟨vs, v, base, h1, h2, hbase, rfl⟩ := ufunc_parts h
    have hv := node_on_of (o := o) (t := .array [Quantity.firstAxis v] base) (s := false) h1 h2
    have key : ∀ (B : Batch K) (z : QVal K),
        (Quantity.node o (.array [Quantity.firstAxis v] base) false (unArr (Arr.reduce f)) [a]).on sid B = .ok z → Quantity.firstAxis z = 1 := by
      intro B z hz
      rw [on_one] at hz
      cases hx : a.on sid B with
      | error e => rw [hx] at hz; simp [Except.bind] at hz
      | ok x =>
        rw [hx] at hz
        cases x with
        | mask m => simp [Except.bind, unArr] at hz
        | arr x =>
          simp only [Except.bind, unArr, Arr.reduce] at hz
          cases hr : x.rows with
          | nil => rw [hr] at hz; simp [Except.map] at hz
          | cons r rs => rw [hr] at hz; simp [Except.map] at hz; subst hz; rfl
    intro B z hw hz
    have e1 := key B _ hz
    have e2 := key b0 _ hv
    rw [Quantity.size, Quantity.qtype, size_array_base hbase, e2, ← e1]
    rfl
  | @select q s c cs env0 os _ h ih =>
    obtain ⟨m, _, rfl, _⟩ := select_ok h
    intro B z hw hz
    rw [on_two] at hz
    cases hx : q.on sid B with
    | error e => rw [hx] at hz; simp [Except.bind] at hz
    | ok x =>
      cases hy : m.on sid B with
      | error e => rw [hx, hy] at hz; simp [Except.bind] at hz
      | ok y =>
        rw [hx, hy] at hz
        cases x <;> cases y <;> simp [Except.bind, selectArr] at hz
        rename_i x y
        unfold Arr.compress at hz
        split at hz
        · simp [Except.map] at hz
          subst hz
          simp [ih B x hw hx, Quantity.size, Quantity.qtype]
        · simp [Except.map] at hz
  | @qArray qs q same o shape _ hsame hshape h ih =>
    unfold Quantity.qArray at h
    split at h
    · simp at h
    · split at h
      · simp at h
      · rename_i q0 qs0 _ hall
        rw [(mk_ok h).1]
        refine sized_concat ih ?_
        rw [not_not, List.all_eq_true] at hall
        rw [QType.size, hshape, sum_map_const _ _ q0.qtype.size]
        intro x hx
        rw [Quantity.size, hsame _ _ (hall x hx)]
  | @qDict kqs q o _ hnd h ih =>
    unfold Quantity.qDict at h
    cases ht : QType.mkDict (kqs.map fun x => (x.1, x.2.qtype)) with
    | error e => rw [ht] at h; simp [bind, Except.bind] at h
    | ok t =>
      rw [ht] at h
      simp only [bind, Except.bind] at h
      rw [(mk_ok h).1]
      refine sized_concat (fun x hx => ?_) ?_
      · obtain ⟨y, hy, rfl⟩ := List.mem_map.1 hx
        exact ih y hy
      · unfold QType.mkDict at ht
        rw [pyDict_nodup _ (by rw [List.map_map]; exact hnd)] at ht
        split at ht
        · simp at ht
        · rename_i k0 q0 items hitems
          split at ht
          · simp at ht
          · simp only [Except.ok.injEq] at ht
            subst ht
            rw [QType.size, ← hitems, sizeItems_eq, List.map_map, List.map_map]
            rfl
  | @qTimeSeries tqs q same o _ hsame h ih =>
    unfold Quantity.qTimeSeries at h
    split at h
    · simp at h
    · split at h
      · simp at h
      · rename_i t0 q0 ts0 _ hall
        rw [(mk_ok h).1]
        refine sized_concat (fun x hx => ?_) ?_
        · obtain ⟨y, hy, rfl⟩ := List.mem_map.1 hx
          exact ih y hy
        · rw [not_not, List.all_eq_true] at hall
          rw [QType.size, sum_map_const _ _ q0.qtype.size]
          · simp
          · intro x hx
            obtain ⟨y, hy, rfl⟩ := List.mem_map.1 hx
            rw [Quantity.size, hsame _ _ (hall y hy)]
  | @qField kqs q same o _ hnd hsame h ih =>
    unfold Quantity.qField at h
    split at h
    · simp at h
    · split at h
      · simp at h
      · rename_i t0 q0 ks _ hall
        cases ht : QType.mkField (((t0, q0) :: ks).map fun x => (x.1, x.2.qtype)) with
        | error e => rw [ht] at h; simp [bind, Except.bind] at h
        | ok t =>
          rw [ht] at h
          simp only [bind, Except.bind] at h
          rw [(mk_ok h).1]
          refine sized_concat (fun x hx => ?_) ?_
          · obtain ⟨y, hy, rfl⟩ := List.mem_map.1 hx
            exact ih y hy
          · rw [not_not, List.all_eq_true] at hall
            unfold QType.mkField at ht
            simp only [List.map_cons] at ht
            split at ht
            · simp only [Except.ok.injEq] at ht
              subst ht
              have hp := pyDict_nodup (((t0, q0) :: ks).map fun x => (x.1, x.2.qtype)) (by rw [List.map_map]; exact hnd)
              simp only [List.map_cons] at hp
              rw [hp, QType.size, sum_map_const _ _ q0.qtype.size]
              · simp
              · intro x hx
                obtain ⟨y, hy, rfl⟩ := List.mem_map.1 hx
                rw [Quantity.size, hsame _ _ (hall y hy)]
            · simp at ht
  | @moment a q o fn i _ h ih =>
    rw [(mk_ok h).1]
    refine sized_un _ ih ?_
    intro x y hx hy
    simp only [Except.ok.injEq] at hy
    subst hy
    simp [Arr.map, hx, Quantity.size]
  | @moments a q o fn bottom _ h ih =>
    rw [(mk_ok h).1]
    refine sized_un _ ih ?_
    intro x y hx hy
    simp only [Except.ok.injEq] at hy
    subst hy
    cases bottom <;> simp [List.length_flatMap, hx, Quantity.size, size_replaceScalar, QType.size]
  | @covariance a q o fn bottom _ h ih =>
    rw [(mk_ok h).1]
    refine sized_un _ ih ?_
    intro x y hx hy
    simp only [Except.ok.injEq] at hy
    subst hy
    cases bottom <;> simp [List.length_flatMap, hx, Quantity.size, size_replaceScalar, QType.size, Nat.mul_assoc]
  | @timeInterpolation a q o lerp v _ h ih =>
    unfold Quantity.timeInterpolation at h
    split at h
    · rw [(mk_ok h).1]
      refine sized_un _ ih ?_
      intro x y hx hy
      unfold Quantity.interpArr at hy
      simp only at hy
      split at hy
      · simp at hy
      · split at hy
        · simp at hy
        · simp only [Except.ok.injEq] at hy
          subst hy
          simp
    · simp at h

end MLMC
