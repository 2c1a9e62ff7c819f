import Verif.Proofs.Quantity
/-! Every quantity built with the API is a function of single stored samples after the filter of its selection. -/
namespace MLMC
variable {K : Type}

/-! ## Selections -/

mutual
/-- The selection object a quantity belongs to. -/
def Quantity.selNode : Quantity K → Option (Quantity K)
  | .storage _ _ => none
  | .const _ _ _ => none
  | .node o t true op ins => some (.node o t true op ins)
  | .node _ _ false _ ins => firstSelNode ins
def Quantity.firstSelNode : List (Quantity K) → Option (Quantity K)
  | [] => none
  | q :: qs => if q.isConst then firstSelNode qs else q.selNode
end

theorem selId_none_iff (q : Quantity K) : q.selId = none ↔ q.isConst = true := by
  cases q with
  | storage => simp [Quantity.selId, Quantity.isConst]
  | const => simp [Quantity.selId, Quantity.isConst]
  | node o t s op ins => cases s <;> simp [Quantity.selId, Quantity.isConst]

mutual
theorem selNode_of_selId : ∀ (q : Quantity K),
    (∀ o, q.selId = some (.select o) → ∃ x ∈ q.selections, q.selNode = some x ∧ x.oid = o) ∧
    ((∀ o, q.selId ≠ some (.select o)) → q.selNode = none)
  | .storage _ _ => by simp [Quantity.selId, Quantity.selNode]
  | .const _ _ _ => by simp [Quantity.selId, Quantity.selNode]
  | .node o t true op ins => by simp [Quantity.selId, Quantity.selNode, Quantity.selections, Quantity.oid]
  | .node o t false op ins => by
    have := firstSelNode_of_firstSel ins
    simp only [Quantity.selId, Quantity.selNode, Quantity.selections]
    constructor
    · intro o' h
      refine this.1 o' ?_
      cases hf : Quantity.firstSel ins with
      | none => rw [hf] at h; simp at h
      | some s => rw [hf] at h; simpa using h
    · intro h
      refine this.2 fun o' ho => h o' ?_
      rw [ho]; rfl
theorem firstSelNode_of_firstSel : ∀ (qs : List (Quantity K)),
    (∀ o, Quantity.firstSel qs = some (.select o) → ∃ x ∈ Quantity.selectionsList qs, Quantity.firstSelNode qs = some x ∧ x.oid = o) ∧
    ((∀ o, Quantity.firstSel qs ≠ some (.select o)) → Quantity.firstSelNode qs = none)
  | [] => by simp [Quantity.firstSel, Quantity.firstSelNode]
  | q :: qs => by
    have h1 := selNode_of_selId q
    have h2 := firstSelNode_of_firstSel qs
    simp only [Quantity.firstSel, Quantity.firstSelNode, Quantity.selectionsList]
    cases hq : q.isConst with
    | true =>
      rw [(selId_none_iff q).2 hq, Option.none_or]
      simp only [if_true]
      refine ⟨fun o h => ?_, h2.2⟩
      obtain ⟨x, hx, h⟩ := h2.1 o h
      exact ⟨x, List.mem_append_right _ hx, h⟩
    | false =>
      obtain ⟨s, hs⟩ : ∃ s, q.selId = some s := by
        cases h : q.selId with
        | none => rw [(selId_none_iff q).1 h] at hq; simp at hq
        | some s => exact ⟨s, rfl⟩
      rw [hs, Option.some_or]
      rw [hs] at h1
      refine ⟨fun o h => ?_, by simpa using h1.2⟩
      obtain ⟨x, hx, h⟩ := h1.1 o h
      exact ⟨x, List.mem_append_left _ hx, by simpa using h⟩
end

/-- All inputs that are not constants have the same selection id. -/
theorem setSelection_ok (qs : List (Quantity K)) : ∀ sel r, Quantity.setSelection sel qs = .ok r →
    (∀ s, sel = some s → ∀ q ∈ qs, q.selId = none ∨ q.selId = some s) ∧
    (∀ a ∈ qs, ∀ b ∈ qs, a.selId = none ∨ b.selId = none ∨ a.selId = b.selId) := by
  induction qs with
  | nil => intro sel r _; simp
  | cons q qs ih =>
    intro sel r h
    cases sel with
    | none =>
      rw [Quantity.setSelection] at h
      obtain ⟨h1, h2⟩ := ih _ _ h
      refine ⟨by simp, ?_⟩
      intro a ha b hb
      have hq : ∀ x ∈ qs, q.selId = none ∨ x.selId = none ∨ q.selId = x.selId := by
        intro x hx
        cases hs : q.selId with
        | none => exact .inl rfl
        | some s =>
          rcases h1 s hs x hx with h | h
          · exact .inr (.inl h)
          · exact .inr (.inr h.symm)
      rcases List.mem_cons.1 ha with ha1 | ha1 <;> rcases List.mem_cons.1 hb with hb1 | hb1
      · rw [ha1, hb1]; exact .inr (.inr rfl)
      · rw [ha1]; exact hq b hb1
      · rw [hb1]
        rcases hq a ha1 with h | h | h
        · exact .inr (.inl h)
        · exact .inl h
        · exact .inr (.inr h.symm)
      · exact h2 a ha1 b hb1
    | some s =>
      rw [Quantity.setSelection] at h
      split at h
      · simp at h
      · rename_i hn
        obtain ⟨h1, h2⟩ := ih _ _ h
        have hq : q.selId = none ∨ q.selId = some s := by
          by_contra hc; push Not at hc; exact hn hc
        have hall : ∀ x ∈ q :: qs, x.selId = none ∨ x.selId = some s := by
          intro x hx
          rcases List.mem_cons.1 hx with rfl | hx
          · exact hq
          · exact h1 s rfl x hx
        refine ⟨fun s' hs' => by simp only [Option.some.injEq] at hs'; subst hs'; exact hall, ?_⟩
        intro a ha b hb
        rcases hall a ha with h | h
        · exact .inl h
        · rcases hall b hb with h' | h'
          · exact .inr (.inl h')
          · exact .inr (.inr (h.trans h'.symm))

theorem mk_ok {o : Nat} {t : QType} {op} {ins : List (Quantity K)} {q : Quantity K} (h : Quantity.mk o t op ins = .ok q) :
    q = .node o t false op ins ∧ ∀ a ∈ ins, ∀ b ∈ ins, a.selId = none ∨ b.selId = none ∨ a.selId = b.selId := by
  unfold Quantity.mk at h
  cases hs : Quantity.setSelection none ins with
  | error e => rw [hs] at h; simp [bind, Except.bind] at h
  | ok r =>
    rw [hs] at h
    simp only [bind, Except.bind] at h
    split at h
    · simp at h
    · simp only [Except.ok.injEq] at h
      exact ⟨h.symm, (setSelection_ok ins _ _ hs).2⟩

theorem mem_selectionsList (ins : List (Quantity K)) (q x : Quantity K) (hq : q ∈ ins) (hx : x ∈ q.selections) :
    x ∈ Quantity.selectionsList ins := by
  induction ins with
  | nil => simp at hq
  | cons a as ih =>
    rw [Quantity.selectionsList, List.mem_append]
    rcases List.mem_cons.1 hq with rfl | h
    · exact .inl hx
    · exact .inr (ih h)

theorem selections_inputs {o : Nat} {t : QType} {s : Bool} {op} {ins : List (Quantity K)} {q x : Quantity K} (hq : q ∈ ins)
    (hx : x ∈ q.selections) : x ∈ (Quantity.node o t s op ins).selections := by
  have := mem_selectionsList ins q x hq hx
  cases s with
  | true => rw [Quantity.selections]; exact List.mem_cons_of_mem _ this
  | false => rw [Quantity.selections]; exact this

theorem IdsIdentify.input {o : Nat} {t : QType} {s : Bool} {op} {ins : List (Quantity K)} {q : Quantity K}
    (h : IdsIdentify (.node o t s op ins)) (hq : q ∈ ins) : IdsIdentify q :=
  fun a ha b hb => h a (selections_inputs hq ha) b (selections_inputs hq hb)

/-- Inputs with the same selection id belong to the same selection object. -/
theorem same_selNode {o : Nat} {t : QType} {s : Bool} {op} {ins : List (Quantity K)} (h : IdsIdentify (.node o t s op ins))
    {a b : Quantity K} (ha : a ∈ ins) (hb : b ∈ ins) (hab : a.selId = b.selId) : a.selNode = b.selNode := by
  by_cases hc : ∃ o', a.selId = some (.select o')
  · obtain ⟨o', ho'⟩ := hc
    obtain ⟨x, hx, h1, h2⟩ := (selNode_of_selId a).1 o' ho'
    obtain ⟨y, hy, h3, h4⟩ := (selNode_of_selId b).1 o' (by rw [← hab, ho'])
    rw [h1, h3, h x (selections_inputs ha hx) y (selections_inputs hb hy) (by rw [h2, h4])]
  · push Not at hc
    rw [(selNode_of_selId a).2 hc, (selNode_of_selId b).2 (by rw [← hab]; exact hc)]

/-- The selection object of a new quantity is that of any of its inputs that is not a constant. -/
theorem node_selNode {o : Nat} {t : QType} {op} {ins : List (Quantity K)} (h : IdsIdentify (.node o t false op ins))
    (hsel : ∀ a ∈ ins, ∀ b ∈ ins, a.selId = none ∨ b.selId = none ∨ a.selId = b.selId) {a : Quantity K} (ha : a ∈ ins)
    (hc : a.isConst = false) : (Quantity.node o t false op ins).selNode = a.selNode := by
  have key : ∀ qs : List (Quantity K), (∀ x ∈ qs, x ∈ ins) → a ∈ qs → Quantity.firstSelNode qs = a.selNode := by
    intro qs
    induction qs with
    | nil => intro _ h; simp at h
    | cons q qs ih =>
      intro hsub hmem
      rw [Quantity.firstSelNode]
      by_cases hq : q.isConst = true
      · rw [if_pos hq]
        refine ih (fun x hx => hsub x (by simp [hx])) ?_
        rcases List.mem_cons.1 hmem with rfl | h
        · rw [hq] at hc; simp at hc
        · exact h
      · rw [if_neg hq]
        refine same_selNode h (hsub q (by simp)) ha ?_
        rcases hsel q (hsub q (by simp)) a ha with h | h | h
        · exact absurd ((selId_none_iff q).1 h) hq
        · rw [(selId_none_iff a).1 h] at hc; simp at hc
        · exact h
  rw [Quantity.selNode]
  exact key ins (fun _ h => h) ha

/-! ## Semantics -/

variable [Inhabited K]

/-- Whether the selection object `x` keeps a stored sample. -/
def survives (sid W : Nat) (x : Quantity K) (s : Sample K) : Bool :=
  match x.on sid ⟨W, s.length, [s]⟩ with
  | .ok (.arr a) => a.n == 1
  | _ => false

def keep (sid W : Nat) (q : Quantity K) (s : Sample K) : Bool :=
  match q.selNode with
  | none => true
  | some x => survives sid W x s

/-- The samples of the batch that the selection of `q` keeps. -/
def kept (sid W : Nat) (q : Quantity K) (b : Batch K) : List (Sample K) := b.data.filter (keep sid W q)

/-- Outcome of evaluating a quantity on any batch: always an error, or always component functions of the kept samples. -/
def GoodQ (sid W : Nat) (q : Quantity K) (res : Option (Nat × (List K → List K))) : Prop :=
  ∀ b : Batch K, b.WF → b.width = W → match res with
    | none => ∃ e, q.on sid b = .error e
    | some (m, g) => ∃ a, q.on sid b = .ok (.arr a) ∧ Rep a b.parts m g (kept sid W q b)

/-- The same for conditions. -/
def GoodC (sid W : Nat) (q : Quantity K) (res : Option (Sample K → Bool)) : Prop :=
  ∀ b : Batch K, b.WF → b.width = W → match res with
    | none => ∃ e, q.on sid b = .error e
    | some c => q.on sid b = .ok (.mask ((kept sid W q b).map c))

def Good (sid W : Nat) : Kind → Quantity K → Prop
  | .qty, q => (∃ res, GoodQ sid W q res) ∧ q.isConst = false
  | .cond, q => (∃ res, GoodC sid W q res) ∧ q.isConst = false
  | .const, q => ∃ o t v, q = .const o t v

theorem on_node (sid : Nat) (b : Batch K) (o : Nat) (t : QType) (s : Bool) (op) (ins : List (Quantity K)) :
    (Quantity.node o t s op ins).on sid b =
      (Quantity.samplesList (fun o => if o = sid then .ok b.toArr else .error .other) ins).bind op := by
  rw [Quantity.on, Quantity.samples]

theorem on_one (sid : Nat) (b : Batch K) (o : Nat) (t : QType) (s : Bool) (op) (q : Quantity K) :
    (Quantity.node o t s op [q]).on sid b = (q.on sid b).bind fun v => op [v] := by
  rw [on_node, Quantity.samplesList, Quantity.samplesList, Quantity.on]
  cases Quantity.samples _ q <;> rfl

theorem on_two (sid : Nat) (b : Batch K) (o : Nat) (t : QType) (s : Bool) (op) (q r : Quantity K) :
    (Quantity.node o t s op [q, r]).on sid b = (q.on sid b).bind fun v => (r.on sid b).bind fun w => op [v, w] := by
  rw [on_node, Quantity.samplesList, Quantity.samplesList, Quantity.samplesList, Quantity.on, Quantity.on]
  cases Quantity.samples _ q <;> [rfl; skip]
  cases Quantity.samples _ r <;> rfl

theorem kept_congr {sid W : Nat} {q r : Quantity K} (h : q.selNode = r.selNode) (b : Batch K) : kept sid W q b = kept sid W r b := by
  unfold kept keep; rw [h]

theorem kept_parts {sid W : Nat} {q : Quantity K} {b : Batch K} (h : b.WF) : ∀ s ∈ kept sid W q b, s.length = b.parts :=
  fun s hs => (h s (List.mem_of_mem_filter hs)).1

/-- A unary operation on arrays that acts component-wise. -/
theorem good_un {sid W : Nat} {a q : Quantity K} {o : Nat} {t : QType} (op : Arr K → Except PyErr (Arr K))
    (hop : ∀ m g, (∀ (x : Arr K) p S, Rep x p m g S → ∃ e, op x = .error e) ∨
      ∃ m' g', ∀ (x : Arr K) p S, Rep x p m g S → ∃ y, op x = .ok y ∧ Rep y p m' g' S)
    (ha : Good sid W .qty a) (hq : Quantity.mk o t (unArr op) [a] = .ok q) (hid : IdsIdentify q) : Good sid W .qty q := by
  obtain ⟨rfl, hsel⟩ := mk_ok hq
  obtain ⟨⟨res, hres⟩, hc⟩ := ha
  refine ⟨?_, rfl⟩
  have hn := node_selNode hid hsel (a := a) (by simp) hc
  cases res with
  | none =>
    refine ⟨none, fun b hb hw => ?_⟩
    obtain ⟨e, he⟩ := hres b hb hw
    exact ⟨e, by rw [on_one, he]; rfl⟩
  | some mg =>
    obtain ⟨m, g⟩ := mg
    rcases hop m g with h | ⟨m', g', h⟩
    · refine ⟨none, fun b hb hw => ?_⟩
      obtain ⟨x, hx, hr⟩ := hres b hb hw
      obtain ⟨e, he⟩ := h x _ _ hr
      exact ⟨e, by rw [on_one, hx]; simp [Except.bind, unArr, he, Except.map]⟩
    · refine ⟨some (m', g'), fun b hb hw => ?_⟩
      obtain ⟨x, hx, hr⟩ := hres b hb hw
      obtain ⟨y, hy, hr'⟩ := h x _ _ hr
      exact ⟨y, by rw [on_one, hx]; simp [Except.bind, unArr, hy, Except.map], by rw [kept_congr hn]; exact hr'⟩

theorem on_const (sid : Nat) (b : Batch K) (o : Nat) (t : QType) (v : List K) :
    (Quantity.const o t v).on sid b = .ok (.arr (constArr v)) := by
  rw [Quantity.on, Quantity.samples]; rfl

theorem bdim_cases (a b : Nat) : (∃ m, bdim a b = .ok m) ∨ ∃ e, bdim a b = .error e := by
  cases bdim a b with
  | ok m => exact .inl ⟨m, rfl⟩
  | error e => exact .inr ⟨e, rfl⟩

theorem good_zip {sid W : Nat} {a b q : Quantity K} {o : Nat} {t : QType} (f : K → K → K)
    (ha : Good sid W .qty a) (hb : Good sid W .qty b) (hq : Quantity.mk o t (binArr (Arr.zip f)) [a, b] = .ok q) (hid : IdsIdentify q) :
    Good sid W .qty q := by
  obtain ⟨rfl, hsel⟩ := mk_ok hq
  obtain ⟨⟨ra, hra⟩, hca⟩ := ha
  obtain ⟨⟨rb, hrb⟩, hcb⟩ := hb
  have hna := node_selNode hid hsel (a := a) (by simp) hca
  have hnb := node_selNode hid hsel (a := b) (by simp) hcb
  refine ⟨?_, rfl⟩
  cases ra with
  | none =>
    refine ⟨none, fun B hB hw => ?_⟩
    obtain ⟨e, he⟩ := hra B hB hw
    exact ⟨e, by rw [on_two, he]; rfl⟩
  | some x =>
    obtain ⟨ma, ga⟩ := x
    cases rb with
    | none =>
      refine ⟨none, fun B hB hw => ?_⟩
      obtain ⟨x, hx, _⟩ := hra B hB hw
      obtain ⟨e, he⟩ := hrb B hB hw
      exact ⟨e, by rw [on_two, hx, he]; rfl⟩
    | some y =>
      obtain ⟨mb, gb⟩ := y
      rcases bdim_cases ma mb with ⟨m, hm⟩ | ⟨e, he⟩
      · refine ⟨some (m, fun v => zipComp f m (ga v) (gb v)), fun B hB hw => ?_⟩
        obtain ⟨x, hx, hxr⟩ := hra B hB hw
        obtain ⟨y, hy, hyr⟩ := hrb B hB hw
        rw [← kept_congr hna] at hxr
        rw [← kept_congr hnb] at hyr
        obtain ⟨c, hc, hcr⟩ := zip_rep f hxr hyr m hm
        exact ⟨c, by rw [on_two, hx, hy]; simp [Except.bind, binArr, hc, Except.map], hcr⟩
      · refine ⟨none, fun B hB hw => ?_⟩
        obtain ⟨x, hx, hxr⟩ := hra B hB hw
        obtain ⟨y, hy, hyr⟩ := hrb B hB hw
        exact ⟨e, by rw [on_two, hx, hy]; simp [Except.bind, binArr, zip_err f x y e (by rw [hxr.m, hyr.m, he]), Except.map]⟩

theorem good_zipR {sid W : Nat} {a b q : Quantity K} {o : Nat} {t : QType} (f : K → K → K)
    (ha : Good sid W .qty a) (hb : Good sid W .const b) (hq : Quantity.mk o t (binArr (Arr.zip f)) [a, b] = .ok q) (hid : IdsIdentify q) :
    Good sid W .qty q := by
  obtain ⟨rfl, hsel⟩ := mk_ok hq
  obtain ⟨⟨ra, hra⟩, hca⟩ := ha
  obtain ⟨o', t', w, rfl⟩ := hb
  have hna := node_selNode hid hsel (a := a) (by simp) hca
  refine ⟨?_, rfl⟩
  cases ra with
  | none =>
    refine ⟨none, fun B hB hw => ?_⟩
    obtain ⟨e, he⟩ := hra B hB hw
    exact ⟨e, by rw [on_two, he]; rfl⟩
  | some x =>
    obtain ⟨ma, ga⟩ := x
    rcases bdim_cases ma w.length with ⟨m, hm⟩ | ⟨e, he⟩
    · refine ⟨some (m, fun v => zipComp f m (ga v) w), fun B hB hw => ?_⟩
      obtain ⟨x, hx, hxr⟩ := hra B hB hw
      rw [← kept_congr hna] at hxr
      obtain ⟨c, hc, hcr⟩ := zip_repR f hxr w m hm
      exact ⟨c, by rw [on_two, hx, on_const]; simp [Except.bind, binArr, hc, Except.map], hcr⟩
    · refine ⟨none, fun B hB hw => ?_⟩
      obtain ⟨x, hx, hxr⟩ := hra B hB hw
      exact ⟨e, by rw [on_two, hx, on_const]; simp [Except.bind, binArr, zip_err f x (constArr w) e (by simp [constArr, hxr.m, he]), Except.map]⟩

theorem good_zipL {sid W : Nat} {a b q : Quantity K} {o : Nat} {t : QType} (f : K → K → K)
    (ha : Good sid W .const a) (hb : Good sid W .qty b) (hq : Quantity.mk o t (binArr (Arr.zip f)) [a, b] = .ok q) (hid : IdsIdentify q) :
    Good sid W .qty q := by
  obtain ⟨rfl, hsel⟩ := mk_ok hq
  obtain ⟨⟨ra, hra⟩, hca⟩ := hb
  obtain ⟨o', t', w, rfl⟩ := ha
  have hna := node_selNode hid hsel (a := b) (by simp) hca
  refine ⟨?_, rfl⟩
  cases ra with
  | none =>
    refine ⟨none, fun B hB hw => ?_⟩
    obtain ⟨e, he⟩ := hra B hB hw
    exact ⟨e, by rw [on_two, on_const, he]; rfl⟩
  | some x =>
    obtain ⟨ma, ga⟩ := x
    rcases bdim_cases w.length ma with ⟨m, hm⟩ | ⟨e, he⟩
    · refine ⟨some (m, fun v => zipComp f m w (ga v)), fun B hB hw => ?_⟩
      obtain ⟨x, hx, hxr⟩ := hra B hB hw
      rw [← kept_congr hna] at hxr
      obtain ⟨c, hc, hcr⟩ := zip_repL f hxr w m hm
      exact ⟨c, by rw [on_two, hx, on_const]; simp [Except.bind, binArr, hc, Except.map], hcr⟩
    · refine ⟨none, fun B hB hw => ?_⟩
      obtain ⟨x, hx, hxr⟩ := hra B hB hw
      exact ⟨e, by rw [on_two, hx, on_const]; simp [Except.bind, binArr, zip_err f (constArr w) x e (by simp [constArr, hxr.m, he]), Except.map]⟩

theorem good_cmp {sid W : Nat} {a b q : Quantity K} {o : Nat} {t : QType} (r : K → K → Bool)
    (ha : Good sid W .qty a) (hb : Good sid W .qty b) (hq : Quantity.mk o t (cmpArr (Arr.processMask r)) [a, b] = .ok q) (hid : IdsIdentify q) :
    Good sid W .cond q := by
  obtain ⟨rfl, hsel⟩ := mk_ok hq
  obtain ⟨⟨ra, hra⟩, hca⟩ := ha
  obtain ⟨⟨rb, hrb⟩, hcb⟩ := hb
  have hna := node_selNode hid hsel (a := a) (by simp) hca
  have hnb := node_selNode hid hsel (a := b) (by simp) hcb
  refine ⟨?_, rfl⟩
  cases ra with
  | none =>
    refine ⟨none, fun B hB hw => ?_⟩
    obtain ⟨e, he⟩ := hra B hB hw
    exact ⟨e, by rw [on_two, he]; rfl⟩
  | some x =>
    obtain ⟨ma, ga⟩ := x
    cases rb with
    | none =>
      refine ⟨none, fun B hB hw => ?_⟩
      obtain ⟨x, hx, _⟩ := hra B hB hw
      obtain ⟨e, he⟩ := hrb B hB hw
      exact ⟨e, by rw [on_two, hx, he]; rfl⟩
    | some y =>
      obtain ⟨mb, gb⟩ := y
      rcases bdim_cases ma mb with ⟨m, hm⟩ | ⟨e, he⟩
      · refine ⟨some fun s => s.all fun v => allComp r m (ga v) (gb v), fun B hB hw => ?_⟩
        obtain ⟨x, hx, hxr⟩ := hra B hB hw
        obtain ⟨y, hy, hyr⟩ := hrb B hB hw
        rw [← kept_congr hna] at hxr
        rw [← kept_congr hnb] at hyr
        have hc := mask_rep r hxr hyr (kept_parts hB) m hm
        rw [on_two, hx, hy]; simp only [Except.bind, cmpArr, hc, Except.map]
      · refine ⟨none, fun B hB hw => ?_⟩
        obtain ⟨x, hx, hxr⟩ := hra B hB hw
        obtain ⟨y, hy, hyr⟩ := hrb B hB hw
        exact ⟨e, by rw [on_two, hx, hy]; simp [Except.bind, cmpArr, mask_err r x y e (by rw [hxr.m, hyr.m, he]), Except.map]⟩

theorem good_cmpR {sid W : Nat} {a b q : Quantity K} {o : Nat} {t : QType} (r : K → K → Bool)
    (ha : Good sid W .qty a) (hb : Good sid W .const b) (hq : Quantity.mk o t (cmpArr (Arr.processMask r)) [a, b] = .ok q) (hid : IdsIdentify q) :
    Good sid W .cond q := by
  obtain ⟨rfl, hsel⟩ := mk_ok hq
  obtain ⟨⟨ra, hra⟩, hca⟩ := ha
  obtain ⟨o', t', w, rfl⟩ := hb
  have hna := node_selNode hid hsel (a := a) (by simp) hca
  refine ⟨?_, rfl⟩
  cases ra with
  | none =>
    refine ⟨none, fun B hB hw => ?_⟩
    obtain ⟨e, he⟩ := hra B hB hw
    exact ⟨e, by rw [on_two, he]; rfl⟩
  | some x =>
    obtain ⟨ma, ga⟩ := x
    rcases bdim_cases ma w.length with ⟨m, hm⟩ | ⟨e, he⟩
    · refine ⟨some fun s => s.all fun v => allComp r m (ga v) w, fun B hB hw => ?_⟩
      obtain ⟨x, hx, hxr⟩ := hra B hB hw
      rw [← kept_congr hna] at hxr
      have hc := mask_repR r hxr w (kept_parts hB) m hm
      rw [on_two, hx, on_const]; simp only [Except.bind, cmpArr, hc, Except.map]
    · refine ⟨none, fun B hB hw => ?_⟩
      obtain ⟨x, hx, hxr⟩ := hra B hB hw
      exact ⟨e, by rw [on_two, hx, on_const]; simp [Except.bind, cmpArr, mask_err r x (constArr w) e (by simp [constArr, hxr.m, he]), Except.map]⟩

theorem good_logic {sid W : Nat} {a b q : Quantity K} {o : Nat} {t : QType} (f : Bool → Bool → Bool)
    (ha : Good sid W .cond a) (hb : Good sid W .cond b) (hq : Quantity.mk o t (logicArr f) [a, b] = .ok q) (hid : IdsIdentify q) :
    Good sid W .cond q := by
  obtain ⟨rfl, hsel⟩ := mk_ok hq
  obtain ⟨⟨ra, hra⟩, hca⟩ := ha
  obtain ⟨⟨rb, hrb⟩, hcb⟩ := hb
  have hna := node_selNode hid hsel (a := a) (by simp) hca
  have hnb := node_selNode hid hsel (a := b) (by simp) hcb
  refine ⟨?_, rfl⟩
  cases ra with
  | none =>
    refine ⟨none, fun B hB hw => ?_⟩
    obtain ⟨e, he⟩ := hra B hB hw
    exact ⟨e, by rw [on_two, he]; rfl⟩
  | some ca =>
    cases rb with
    | none =>
      refine ⟨none, fun B hB hw => ?_⟩
      have hx := hra B hB hw
      obtain ⟨e, he⟩ := hrb B hB hw
      exact ⟨e, by rw [on_two]; simp only at hx; rw [hx, he]; rfl⟩
    | some cb =>
      refine ⟨some fun s => f (ca s) (cb s), fun B hB hw => ?_⟩
      have hx := hra B hB hw
      have hy := hrb B hB hw
      simp only at hx hy ⊢
      rw [← kept_congr hna] at hx
      rw [← kept_congr hnb] at hy
      rw [on_two, hx, hy]
      simp only [Except.bind, logicArr, List.length_map, bdim_self, bind]
      congr 2
      set S := kept sid W (Quantity.node o t false (logicArr f) [a, b]) B
      apply map_range_getElem S _ _ _ rfl
      intro j hj
      have e1 : (if S.length = 1 then 0 else j) = j := by split <;> omega
      rw [e1]
      simp [List.getD_eq_getElem?_getD, hj]

/-- A selection: its filter is that of the inputs and the condition. -/
theorem good_select {sid W : Nat} {a c : Quantity K} {o : Nat} {t : QType}
    (ha : Good sid W .qty a) (hc : Good sid W .cond c)
    (hsel : ∀ x ∈ [a, c], ∀ y ∈ [a, c], x.selId = none ∨ y.selId = none ∨ x.selId = y.selId)
    (hid : IdsIdentify (.node o t true selectArr [a, c])) :
    Good sid W .qty (.node o t true selectArr [a, c]) := by
  obtain ⟨⟨ra, hra⟩, hca⟩ := ha
  obtain ⟨⟨rc, hrc⟩, hcc⟩ := hc
  refine ⟨?_, rfl⟩
  have hs : a.selNode = c.selNode := by
    refine same_selNode hid (by simp) (by simp) ?_
    rcases hsel a (by simp) c (by simp) with h | h | h
    · rw [(selId_none_iff a).1 h] at hca; simp at hca
    · rw [(selId_none_iff c).1 h] at hcc; simp at hcc
    · exact h
  cases ra with
  | none =>
    refine ⟨none, fun B hB hw => ?_⟩
    obtain ⟨e, he⟩ := hra B hB hw
    exact ⟨e, by rw [on_two, he]; rfl⟩
  | some x =>
    obtain ⟨m, g⟩ := x
    cases rc with
    | none =>
      refine ⟨none, fun B hB hw => ?_⟩
      obtain ⟨x, hx, _⟩ := hra B hB hw
      obtain ⟨e, he⟩ := hrc B hB hw
      exact ⟨e, by rw [on_two, hx, he]; rfl⟩
    | some cond =>
      have main : ∀ B : Batch K, B.WF → B.width = W →
          ∃ y, (Quantity.node o t true selectArr [a, c]).on sid B = .ok (.arr y) ∧ Rep y B.parts m g ((kept sid W a B).filter cond) := by
        intro B hB hw
        obtain ⟨x, hx, hxr⟩ := hra B hB hw
        have hy := hrc B hB hw
        simp only at hy
        rw [← kept_congr hs] at hy
        obtain ⟨y, hy', hyr⟩ := compress_rep hxr cond
        exact ⟨y, by rw [on_two, hx, hy]; simp [Except.bind, selectArr, hy', Except.map], hyr⟩
      have hkeep : ∀ s : Sample K, (∀ v ∈ s, v.length = W) →
          keep sid W (Quantity.node o t true selectArr [a, c]) s = (keep sid W a s && cond s) := by
        intro s hv
        obtain ⟨y, hy, hyr⟩ := main ⟨W, s.length, [s]⟩ (by intro s' hs'; simp only [List.mem_singleton] at hs'; subst hs'; exact ⟨rfl, hv⟩) rfl
        have : keep sid W (Quantity.node o t true selectArr [a, c]) s = (y.n == 1) := by
          rw [keep, Quantity.selNode]; simp only [survives, hy]
        rw [this, hyr.n]
        simp only [kept]
        cases h1 : keep sid W a s <;> cases h2 : cond s <;> simp [h1, h2, List.filter]
      refine ⟨some (m, g), fun B hB hw => ?_⟩
      obtain ⟨y, hy, hyr⟩ := main B hB hw
      refine ⟨y, hy, ?_⟩
      have : kept sid W (Quantity.node o t true selectArr [a, c]) B = (kept sid W a B).filter cond := by
        unfold kept
        rw [List.filter_filter]
        apply List.filter_congr
        intro s hs
        rw [hkeep s (by rw [← hw]; exact (hB s hs).2), Bool.and_comm]
      rw [this]
      exact hyr

theorem samplesList_cons_on (sid : Nat) (B : Batch K) (q : Quantity K) (qs : List (Quantity K)) :
    Quantity.samplesList (fun o => if o = sid then .ok B.toArr else .error .other) (q :: qs) =
      (q.on sid B).bind fun v => (Quantity.samplesList (fun o => if o = sid then .ok B.toArr else .error .other) qs).bind fun vs => .ok (v :: vs) := by
  rw [Quantity.samplesList]; rfl

/-- Evaluation of the parts of a composed quantity. -/
theorem parts_eval {sid W : Nat} (q0 : Quantity K) (qs : List (Quantity K)) (hqs : ∀ q ∈ qs, ∃ res, GoodQ sid W q res)
    (hs : ∀ q ∈ qs, q.selNode = q0.selNode) :
    (∀ B : Batch K, B.WF → B.width = W → ∃ e, Quantity.samplesList (fun o => if o = sid then .ok B.toArr else .error .other) qs = .error e) ∨
    ∃ mg : List (Nat × (List K → List K)), ∀ B : Batch K, B.WF → B.width = W → ∃ as : List (Arr K),
      Quantity.samplesList (fun o => if o = sid then .ok B.toArr else .error .other) qs = .ok (as.map .arr) ∧
      List.Forall₂ (fun a x => Rep a B.parts x.1 x.2 (kept sid W q0 B)) as mg := by
  induction qs with
  | nil => exact .inr ⟨[], fun B _ _ => ⟨[], rfl, .nil⟩⟩
  | cons q qs ih =>
    obtain ⟨res, hres⟩ := hqs q (by simp)
    cases res with
    | none =>
      left
      intro B hB hw
      obtain ⟨e, he⟩ := hres B hB hw
      exact ⟨e, by rw [samplesList_cons_on, he]; rfl⟩
    | some x =>
      obtain ⟨m, g⟩ := x
      rcases ih (fun q hq => hqs q (by simp [hq])) (fun q hq => hs q (by simp [hq])) with h | ⟨mg, h⟩
      · left
        intro B hB hw
        obtain ⟨x, hx, _⟩ := hres B hB hw
        obtain ⟨e, he⟩ := h B hB hw
        exact ⟨e, by rw [samplesList_cons_on, hx, he]; rfl⟩
      · right
        refine ⟨(m, g) :: mg, fun B hB hw => ?_⟩
        obtain ⟨x, hx, hr⟩ := hres B hB hw
        obtain ⟨as, has, hf⟩ := h B hB hw
        refine ⟨x :: as, by rw [samplesList_cons_on, hx, has]; rfl, .cons ?_ hf⟩
        rw [← kept_congr (hs q (by simp))]
        exact hr

omit [Inhabited K] in
theorem arrsOf_map (as : List (Arr K)) : arrsOf (as.map QVal.arr) = .ok as := by
  induction as with
  | nil => rfl
  | cons a as ih => simp [arrsOf, ih, Except.map]

theorem good_concat {sid W : Nat} {qs : List (Quantity K)} {q : Quantity K} {o : Nat} {t : QType}
    (hqs : ∀ x ∈ qs, Good sid W .qty x) (hne : qs ≠ []) (hq : Quantity.mk o t concatArr qs = .ok q) (hid : IdsIdentify q) :
    Good sid W .qty q := by
  obtain ⟨rfl, hsel⟩ := mk_ok hq
  refine ⟨?_, rfl⟩
  have hs : ∀ x ∈ qs, x.selNode = (Quantity.node o t false concatArr qs).selNode :=
    fun x hx => (node_selNode hid hsel hx (hqs x hx).2).symm
  rcases parts_eval (sid := sid) (W := W) (Quantity.node o t false concatArr qs) qs (fun x hx => (hqs x hx).1) hs with h | ⟨mg, h⟩
  · refine ⟨none, fun B hB hw => ?_⟩
    obtain ⟨e, he⟩ := h B hB hw
    exact ⟨e, by rw [on_node, he]; rfl⟩
  · refine ⟨some ((mg.map (·.1)).sum, fun v => mg.flatMap fun x => x.2 v), fun B hB hw => ?_⟩
    obtain ⟨as, has, hf⟩ := h B hB hw
    have hane : as ≠ [] := by
      rintro rfl
      cases qs with
      | nil => exact hne rfl
      | cons q0 qs0 =>
        rw [samplesList_cons_on] at has
        cases h1 : q0.on sid B with
        | error e => rw [h1] at has; simp [Except.bind] at has
        | ok v =>
          rw [h1] at has
          simp only [Except.bind] at has
          split at has <;> simp at has
    obtain ⟨c, hc, hr⟩ := concat_rep as B.parts _ mg hf hane
    exact ⟨c, by rw [on_node, has]; simp [Except.bind, concatArr, arrsOf_map, hc, Except.map, bind], hr⟩

end MLMC
