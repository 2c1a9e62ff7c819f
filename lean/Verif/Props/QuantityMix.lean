import Verif.Props.Quantity
/-! Quantities from different selections or storages cannot be mixed (C40). -/
namespace MLMC
variable {K : Type} [Inhabited K]

def Source.toSel : Source → SelId
  | .store o => .store o
  | .select o => .select o

/-- The quantity has the single source `x`. -/
def OneSource (q : Quantity K) (x : Source) : Prop := q.sources ≠ [] ∧ (∀ y ∈ q.sources, y = x) ∧ q.selId = some x.toSel

omit [Inhabited K] in
theorem sourcesList_eq (qs : List (Quantity K)) : Quantity.sourcesList qs = qs.flatMap Quantity.sources := by
  induction qs with
  | nil => rfl
  | cons q qs ih => rw [Quantity.sourcesList, ih]; rfl

omit [Inhabited K] in
theorem OneSource.mem {q : Quantity K} {x : Source} (h : OneSource q x) : x ∈ q.sources := by
  cases hq : q.sources with
  | nil => exact absurd hq h.1
  | cons y ys =>
    have := h.2.1 y (by simp [hq])
    rw [this]; simp

theorem Source.toSel_inj {x y : Source} (h : x.toSel = y.toSel) : x = y := by
  cases x <;> cases y <;> simp [Source.toSel] at h <;> simp [h]

omit [Inhabited K] in
theorem firstSel_of {ins : List (Quantity K)} {x : Source} (hall : ∀ i ∈ ins, i.isConst = true ∨ OneSource i x)
    (hex : ∃ i ∈ ins, OneSource i x) : Quantity.firstSel ins = some x.toSel := by
  induction ins with
  | nil => obtain ⟨i, hi, _⟩ := hex; simp at hi
  | cons q qs ih =>
    rw [Quantity.firstSel]
    rcases hall q (by simp) with h | h
    · rw [(selId_none_iff q).2 h]
      simp only [Option.none_or]
      refine ih (fun i hi => hall i (by simp [hi])) ?_
      obtain ⟨i, hi, h'⟩ := hex
      rcases List.mem_cons.1 hi with e | e
      · rw [e] at h'
        have h2 := h'.2.2
        rw [(selId_none_iff q).2 h] at h2
        simp at h2
      · exact ⟨i, e, h'⟩
    · rw [h.2.2]; rfl

omit [Inhabited K] in
theorem isConst_sources {q : Quantity K} (h : q.isConst = true) : q.sources = [] := by
  cases q <;> simp [Quantity.isConst] at h
  rw [Quantity.sources]

omit [Inhabited K] in
/-- A quantity made from inputs with one source each (or constants) has one source. -/
theorem oneSource_mk {o : Nat} {t : QType} {op} {ins : List (Quantity K)} {q : Quantity K} (h : Quantity.mk o t op ins = .ok q)
    (hall : ∀ i ∈ ins, i.isConst = true ∨ ∃ x, OneSource i x) (hex : ∃ i ∈ ins, ∃ x, OneSource i x) : ∃ x, OneSource q x := by
  obtain ⟨rfl, hsel⟩ := mk_ok h
  obtain ⟨i, hi, x, hx⟩ := hex
  have hall' : ∀ j ∈ ins, j.isConst = true ∨ OneSource j x := by
    intro j hj
    rcases hall j hj with h | ⟨y, hy⟩
    · exact .inl h
    · right
      rcases hsel i hi j hj with h | h | h
      · rw [hx.2.2] at h; simp at h
      · rw [hy.2.2] at h; simp at h
      · rw [hx.2.2, hy.2.2] at h
        have := Source.toSel_inj (Option.some.inj h)
        rw [this]; exact hy
  refine ⟨x, ?_, ?_, ?_⟩
  · rw [Quantity.sources, sourcesList_eq]
    intro hn
    rw [List.flatMap_eq_nil_iff] at hn
    exact hx.1 (hn i hi)
  · rw [Quantity.sources, sourcesList_eq]
    intro y hy
    rw [List.mem_flatMap] at hy
    obtain ⟨j, hj, hy⟩ := hy
    rcases hall' j hj with h | h
    · rw [isConst_sources h] at hy; simp at hy
    · exact h.2.1 y hy
  · rw [Quantity.selId, firstSel_of hall' ⟨i, hi, hx⟩]; rfl

theorem oneSource_fold {env0} {os : Nat → Nat} (cs : List (Quantity K × Nat)) : ∀ (m r : Quantity K), (∃ x, OneSource m x) →
    (∀ c ∈ cs, ∃ x, OneSource c.1 x) →
    cs.foldlM (fun m x => Quantity.ufunc env0 (os (x.2 + 1)) (logicArr (· && ·)) [m, x.1]) m = .ok r → ∃ x, OneSource r x := by
  induction cs with
  | nil => intro m r hm _ h; simp [pure, Except.pure] at h; subst h; exact hm
  | cons c cs ih =>
    intro m r hm hcs h
    rw [List.foldlM_cons] at h
    cases h1 : Quantity.ufunc env0 (os (c.2 + 1)) (logicArr (· && ·)) [m, c.1] with
    | error e => rw [h1] at h; simp [bind, Except.bind] at h
    | ok m' =>
      rw [h1] at h
      obtain ⟨t, ht⟩ := ufunc_mk h1
      refine ih m' r (oneSource_mk ht ?_ ⟨m, by simp, hm⟩) (fun x hx => hcs x (by simp [hx])) h
      intro i hi
      simp at hi
      rcases hi with rfl | rfl
      · exact .inr hm
      · exact .inr (hcs c (by simp))

def KindSource : Kind → Quantity K → Prop
  | .const, q => q.isConst = true
  | _, q => ∃ x, OneSource q x

omit [Inhabited K] in
theorem one_mk {o : Nat} {t : QType} {op} {a q : Quantity K} (h : Quantity.mk o t op [a] = .ok q) (ha : ∃ x, OneSource a x) :
    ∃ x, OneSource q x :=
  oneSource_mk h (by simp; exact .inr ha) ⟨a, by simp, ha⟩

omit [Inhabited K] in
theorem two_mk {o : Nat} {t : QType} {op} {a b q : Quantity K} (h : Quantity.mk o t op [a, b] = .ok q)
    (ha : a.isConst = true ∨ ∃ x, OneSource a x) (hb : b.isConst = true ∨ ∃ x, OneSource b x)
    (hex : (∃ x, OneSource a x) ∨ ∃ x, OneSource b x) : ∃ x, OneSource q x := by
  refine oneSource_mk h (by simp; exact ⟨ha, hb⟩) ?_
  rcases hex with h | h
  · exact ⟨a, by simp, h⟩
  · exact ⟨b, by simp, h⟩

theorem built_source [Mul K] {sid : Nat} {k : Kind} {q : Quantity K} (h : Built sid k q) : KindSource k q := by
  induction h with
  | root t => exact ⟨.store sid, by rw [Quantity.sources]; simp, by rw [Quantity.sources]; simp, by rw [Quantity.selId]; rfl⟩
  | const o t v => rfl
  | @getitem q q' o b _ h ih =>
    unfold Quantity.getitem at h
    cases hk : q.qtype.getKey b with
    | error e => rw [hk] at h; simp [bind, Except.bind] at h
    | ok ts =>
      rw [hk] at h
      simp only [bind, Except.bind] at h
      split at h
      · exact one_mk h ih
      · exact one_mk h ih
  | arith o f _ _ h iha ihb => obtain ⟨t, ht⟩ := create_mk h; exact two_mk ht (.inr iha) (.inr ihb) (.inl iha)
  | arithR o f _ _ h iha ihb => obtain ⟨t, ht⟩ := create_mk h; exact two_mk ht (.inr iha) (.inl ihb) (.inl iha)
  | arithL o f _ _ h iha ihb => obtain ⟨t, ht⟩ := create_mk h; exact two_mk ht (.inl iha) (.inr ihb) (.inr ihb)
  | ufunc o env0 f _ h ih => obtain ⟨t, ht⟩ := ufunc_mk h; exact one_mk ht ih
  | ufunc2 o env0 f _ _ h iha ihb => obtain ⟨t, ht⟩ := ufunc_mk h; exact two_mk ht (.inr iha) (.inr ihb) (.inl iha)
  | ufunc2R o env0 f _ _ h iha ihb => obtain ⟨t, ht⟩ := ufunc_mk h; exact two_mk ht (.inr iha) (.inl ihb) (.inl iha)
  | reduce o env0 f _ h ih => obtain ⟨t, ht⟩ := ufunc_mk h; exact one_mk ht ih
  | compare o r _ _ h iha ihb => exact two_mk h (.inr iha) (.inr ihb) (.inl iha)
  | compareR o r _ _ h iha ihb => exact two_mk h (.inr iha) (.inl ihb) (.inl iha)
  | logic o env0 f _ _ h iha ihb => obtain ⟨t, ht⟩ := ufunc_mk h; exact two_mk ht (.inr iha) (.inr ihb) (.inl iha)
  | @select q s c cs env0 os _ _ h ihq ihc =>
    obtain ⟨m, hm, rfl, hsel⟩ := select_ok h
    exact ⟨.select (os 0), by rw [Quantity.sources]; simp, by rw [Quantity.sources]; simp, by rw [Quantity.selId]; rfl⟩
  | @qArray qs q same o shape _ h ih =>
    unfold Quantity.qArray at h
    split at h
    · simp at h
    · split at h
      · simp at h
      · rename_i q0 _ _ _
        exact oneSource_mk h (fun i hi => .inr (ih i hi)) ⟨q0, by simp, ih q0 (by simp)⟩
  | @qDict kqs q o _ h ih =>
    unfold Quantity.qDict at h
    cases ht : QType.mkDict (kqs.map fun x => (x.1, x.2.qtype)) with
    | error e => rw [ht] at h; simp [bind, Except.bind] at h
    | ok t =>
      rw [ht] at h
      simp only [bind, Except.bind] at h
      cases kqs with
      | nil => simp [QType.mkDict, QType.pyDict] at ht
      | cons y ys =>
        refine oneSource_mk h (fun i hi => ?_) ⟨y.2, by simp, ih y (by simp)⟩
        obtain ⟨z, hz, rfl⟩ := List.mem_map.1 hi
        exact .inr (ih z hz)
  | @qTimeSeries tqs q same o _ h ih =>
    unfold Quantity.qTimeSeries at h
    split at h
    · simp at h
    · split at h
      · simp at h
      · rename_i t0 q0 _ _ _
        refine oneSource_mk h (fun i hi => ?_) ⟨q0, by simp, ih (t0, q0) (by simp)⟩
        obtain ⟨z, hz, rfl⟩ := List.mem_map.1 hi
        exact .inr (ih z hz)
  | @qField kqs q same o _ h ih =>
    unfold Quantity.qField at h
    split at h
    · simp at h
    · split at h
      · simp at h
      · rename_i t0 q0 ks _ _
        cases ht : QType.mkField (((t0, q0) :: ks).map fun x => (x.1, x.2.qtype)) with
        | error e => rw [ht] at h; simp [bind, Except.bind] at h
        | ok t =>
          rw [ht] at h
          simp only [bind, Except.bind] at h
          refine oneSource_mk h (fun i hi => ?_) ⟨q0, by simp, ih (t0, q0) (by simp)⟩
          obtain ⟨z, hz, rfl⟩ := List.mem_map.1 hi
          exact .inr (ih z hz)
  | moment o fn i _ h ih => exact one_mk h ih
  | moments o fn b _ h ih => exact one_mk h ih
  | covariance o fn b _ h ih => exact one_mk h ih
  | @timeInterpolation a q o lerp v _ h ih =>
    unfold Quantity.timeInterpolation at h
    split at h
    · exact one_mk h ih
    · simp at h

omit [Inhabited K] in
theorem mk_error_of_mixed {o : Nat} {t : QType} {op} {ins : List (Quantity K)} {a b : Quantity K} (ha : a ∈ ins) (hb : b ∈ ins) {x y : Source}
    (hx : OneSource a x) (hy : OneSource b y) (hxy : x ≠ y) : ∃ e, Quantity.mk o t op ins = .error e := by
  cases h : Quantity.mk o t op ins with
  | error e => exact ⟨e, rfl⟩
  | ok q =>
    rcases (mk_ok h).2 a ha b hb with h | h | h
    · rw [hx.2.2] at h; simp at h
    · rw [hy.2.2] at h; simp at h
    · rw [hx.2.2, hy.2.2] at h
      exact absurd (Source.toSel_inj (Option.some.inj h)) hxy

theorem isError_of {α : Type} {x : Except PyErr α} (h : ∀ v, x ≠ .ok v) : ∃ e, x = .error e := by
  cases x with
  | error e => exact ⟨e, rfl⟩
  | ok v => exact absurd rfl (h v)

/-- C40: every quantity and condition built with the API has exactly one source. -/
theorem C40_single_source [Mul K] (sid : Nat) (k : Kind) (q : Quantity K) (hk : k ≠ .const) (h : Built sid k q) :
    ∃ x, ∀ y, y ∈ q.sources ↔ y = x := by
  have hs := built_source h
  have : ∃ x, OneSource q x := by cases k <;> first | exact hs | exact absurd rfl hk
  obtain ⟨x, hx⟩ := this
  exact ⟨x, fun y => ⟨hx.2.1 y, fun h => h ▸ hx.mem⟩⟩

/-- C40: whatever combines two quantities with different sources raises: arithmetic, comparison, NumPy functions, selection,
composition into arrays, dictionaries, time series and fields. -/
theorem C40_mixing_raises [Mul K] (sid sid' : Nat) (k k' : Kind) (a b : Quantity K) (ha : Built sid k a) (hb : Built sid' k' b)
    (x y : Source) (hx : x ∈ a.sources) (hy : y ∈ b.sources) (hxy : x ≠ y) :
    (∀ o f, ∃ e, a.arith o f b = .error e) ∧
    (∀ o r, ∃ e, a.compare o r b = .error e) ∧
    (∀ env0 o op, ∃ e, Quantity.ufunc env0 o op [a, b] = .error e) ∧
    (∀ env0 os, ∃ e, a.select env0 os b [] = .error e) ∧
    (∀ same o shape qs, a ∈ qs → b ∈ qs → ∃ e, Quantity.qArray same o shape qs = .error e) ∧
    (∀ o kqs, a ∈ kqs.map Prod.snd → b ∈ kqs.map Prod.snd → ∃ e, Quantity.qDict o kqs = .error e) ∧
    (∀ same o tqs, a ∈ tqs.map Prod.snd → b ∈ tqs.map Prod.snd → ∃ e, Quantity.qTimeSeries same o tqs = .error e) ∧
    (∀ same o kqs, a ∈ kqs.map Prod.snd → b ∈ kqs.map Prod.snd → ∃ e, Quantity.qField same o kqs = .error e) := by
  have key : ∀ {sid k} {q : Quantity K} {z : Source}, Built sid k q → z ∈ q.sources → OneSource q z := by
    intro sid k q z h hz
    have hs := built_source h
    cases k with
    | const => rw [isConst_sources hs] at hz; simp at hz
    | qty => obtain ⟨w, hw⟩ := hs; rw [hw.2.1 z hz]; exact hw
    | cond => obtain ⟨w, hw⟩ := hs; rw [hw.2.1 z hz]; exact hw
  have h1 := key ha hx
  have h2 := key hb hy
  have hmk : ∀ {o t op ins}, a ∈ ins → b ∈ ins → ∀ q, Quantity.mk o t op ins ≠ .ok q := by
    intro o t op ins hia hib q hq
    obtain ⟨e, he⟩ := mk_error_of_mixed (o := o) (t := t) (op := op) hia hib h1 h2 hxy
    rw [he] at hq; simp at hq
  refine ⟨fun o f => isError_of fun q h => ?_, fun o r => isError_of fun q h => ?_, fun env0 o op => isError_of fun q h => ?_,
    fun env0 os => isError_of fun q h => ?_, fun same o shape qs hqa hqb => isError_of fun q h => ?_,
    fun o kqs hqa hqb => isError_of fun q h => ?_, fun same o tqs hqa hqb => isError_of fun q h => ?_,
    fun same o kqs hqa hqb => isError_of fun q h => ?_⟩
  · obtain ⟨t, ht⟩ := create_mk h; exact hmk (by simp) (by simp) _ ht
  · exact hmk (by simp) (by simp) _ h
  · obtain ⟨t, ht⟩ := ufunc_mk h; exact hmk (by simp) (by simp) _ ht
  · obtain ⟨m, hm, _, hsel⟩ := select_ok h
    simp [pure, Except.pure] at hm
    subst hm
    rcases hsel a (by simp) b (by simp) with h | h | h
    · rw [h1.2.2] at h; simp at h
    · rw [h2.2.2] at h; simp at h
    · rw [h1.2.2, h2.2.2] at h
      exact hxy (Source.toSel_inj (Option.some.inj h))
  · unfold Quantity.qArray at h
    split at h
    · simp at h
    · split at h
      · simp at h
      · exact hmk hqa hqb _ h
  · unfold Quantity.qDict at h
    cases ht : QType.mkDict (kqs.map fun x => (x.1, x.2.qtype)) with
    | error e => rw [ht] at h; simp [bind, Except.bind] at h
    | ok t => rw [ht] at h; exact hmk hqa hqb _ h
  · unfold Quantity.qTimeSeries at h
    split at h
    · simp at h
    · split at h
      · simp at h
      · exact hmk hqa hqb _ h
  · unfold Quantity.qField at h
    split at h
    · simp at h
    · split at h
      · simp at h
      · rename_i t0 q0 ks _
        cases ht : QType.mkField (((t0, q0) :: ks).map fun x => (x.1, x.2.qtype)) with
        | error e => rw [ht] at h; simp [bind, Except.bind] at h
        | ok t => rw [ht] at h; exact hmk hqa hqb _ h

omit [Inhabited K] in
theorem setSelection_const (ins : List (Quantity K)) (s : SelId) (h : ∀ i ∈ ins, i.selId = none ∨ i.selId = some s) :
    ∀ sel, (sel = none ∨ sel = some s) → ∃ r, Quantity.setSelection sel ins = .ok r := by
  induction ins with
  | nil => intro sel _; exact ⟨sel, by rw [Quantity.setSelection]⟩
  | cons q qs ih =>
    intro sel hsel
    have h1 := h q (by simp)
    have h2 := ih fun i hi => h i (by simp [hi])
    rcases hsel with rfl | rfl
    · rw [Quantity.setSelection]; exact h2 _ h1
    · rw [Quantity.setSelection]
      rcases h1 with h1 | h1 <;> simp [h1, h2]

omit [Inhabited K] in
/-- Inputs with the same source (or constants) are accepted. -/
theorem mk_of_same {o : Nat} {t : QType} {op} {ins : List (Quantity K)} {x : Source} (hall : ∀ i ∈ ins, i.isConst = true ∨ OneSource i x)
    (hex : ∃ i ∈ ins, OneSource i x) : Quantity.mk o t op ins = .ok (.node o t false op ins) := by
  have h : ∀ i ∈ ins, i.selId = none ∨ i.selId = some x.toSel := by
    intro i hi
    rcases hall i hi with h | h
    · exact .inl ((selId_none_iff i).2 h)
    · exact .inr h.2.2
  obtain ⟨r, hr⟩ := setSelection_const ins x.toSel h none (.inl rfl)
  unfold Quantity.mk
  rw [hr]
  simp only [bind, Except.bind]
  rw [if_neg]
  push Not
  intro _
  rw [List.all_eq_true]
  intro i hi
  rw [Quantity.selId, firstSel_of hall hex]
  rcases h i hi with h | h <;> simp [h]


/-- C40: quantities with the same source combine, and constants combine with every quantity: the arithmetic operators and
comparisons give a new quantity with that source. -/
theorem C40_same_source_and_constants_combine [Mul K] (sid sid' : Nat) (k k' : Kind) (a b : Quantity K) (ha : Built sid k a) (hb : Built sid' k' b)
    (x : Source) (hx : x ∈ a.sources) (hy : ∀ y ∈ b.sources, y = x) :
    (∀ o f, ∃ q, a.arith o f b = .ok q ∧ ∀ y, y ∈ q.sources ↔ y = x) ∧
    (∀ o f, ∃ q, b.arith o f a = .ok q ∧ ∀ y, y ∈ q.sources ↔ y = x) ∧
    (∀ o r, ∃ q, a.compare o r b = .ok q ∧ ∀ y, y ∈ q.sources ↔ y = x) := by
  have h1 : OneSource a x := by
    have hs := built_source ha
    cases k with
    | const => rw [isConst_sources hs] at hx; simp at hx
    | qty => obtain ⟨w, hw⟩ := hs; rw [hw.2.1 x hx]; exact hw
    | cond => obtain ⟨w, hw⟩ := hs; rw [hw.2.1 x hx]; exact hw
  have h2 : b.isConst = true ∨ OneSource b x := by
    have hs := built_source hb
    cases k' with
    | const => exact .inl hs
    | qty => obtain ⟨w, hw⟩ := hs; rw [← hy w hw.mem]; exact .inr hw
    | cond => obtain ⟨w, hw⟩ := hs; rw [← hy w hw.mem]; exact .inr hw
  have hc : a.isConst = false := by
    by_contra hc
    rw [Bool.not_eq_false] at hc
    exact h1.1 (isConst_sources hc)
  have hmk : ∀ {o t op ins}, (ins = [a, b] ∨ ins = [b, a]) → ∃ q, Quantity.mk o t op ins = .ok q ∧ ∀ y, y ∈ q.sources ↔ y = x := by
    intro o t op ins hins
    have hall : ∀ i ∈ ins, i.isConst = true ∨ OneSource i x := by
      intro i hi
      have : i = a ∨ i = b := by rcases hins with rfl | rfl <;> simp at hi <;> tauto
      rcases this with rfl | rfl
      · exact .inr h1
      · exact h2
    have hex : ∃ i ∈ ins, OneSource i x := ⟨a, by rcases hins with rfl | rfl <;> simp, h1⟩
    refine ⟨_, mk_of_same hall hex, ?_⟩
    intro y
    rw [Quantity.sources, sourcesList_eq, List.mem_flatMap]
    constructor
    · rintro ⟨i, hi, hy⟩
      rcases hall i hi with h | h
      · rw [isConst_sources h] at hy; simp at hy
      · exact h.2.1 y hy
    · rintro rfl
      obtain ⟨i, hi, h⟩ := hex
      exact ⟨i, hi, h.mem⟩
  have hfind : ∀ l : List (Quantity K), a ∈ l → ∃ q, l.find? (fun q => !q.isConst) = some q := by
    intro l hl
    cases h : l.find? (fun q => !q.isConst) with
    | some q => exact ⟨q, rfl⟩
    | none =>
      rw [List.find?_eq_none] at h
      have := h a hl
      simp [hc] at this
  refine ⟨fun o f => ?_, fun o f => ?_, fun o r => hmk (.inl rfl)⟩
  · obtain ⟨q, hq⟩ := hfind [a, b] (by simp)
    unfold Quantity.arith Quantity.create
    rw [hq]
    exact hmk (.inl rfl)
  · obtain ⟨q, hq⟩ := hfind [b, a] (by simp)
    unfold Quantity.arith Quantity.create
    rw [hq]
    exact hmk (.inr rfl)

/-- A NumPy function of constants only is not a constant for the selection check: it combines with no quantity
(its selection id is `id(None)`). -/
theorem C40_function_of_constant_refused [Mul K] (sid : Nat) (a c : Quantity K) (ha : Built sid .qty a) (o o' : Nat) (t : QType) (v : List K) (env0)
    (f : K → K) (hc : Quantity.ufunc env0 o (unArr fun x => .ok (x.map f)) [.const o' t v] = .ok c) (o2 : Nat) (g : K → K → K) :
    ∃ e, a.arith o2 g c = .error e := by
  obtain ⟨t', ht⟩ := ufunc_mk hc
  obtain ⟨rfl, _⟩ := mk_ok ht
  refine isError_of fun q h => ?_
  obtain ⟨t2, h2⟩ := create_mk h
  obtain ⟨x, hx⟩ := built_source ha
  rcases (mk_ok h2).2 a (by simp) (Quantity.node o t' false (unArr fun x => Except.ok (Arr.map f x)) [Quantity.const o' t v]) (by simp)
    with h | h | h
  · rw [hx.2.2] at h; simp at h
  · simp [Quantity.selId] at h
  · rw [hx.2.2] at h
    simp only [Quantity.selId, Quantity.firstSel] at h
    cases x <;> simp [Source.toSel] at h

namespace ExQ
/-- `b` before and after the selection, and a quantity of another storage. -/
example := (C40_mixing_raises 1 1 .qty .qty b s b_built s_built (.store 1) (.select 5) (by decide) (by decide) (by decide)).1
example := (C40_mixing_raises 1 2 .qty .qty b (.storage 2 t) b_built (.root t) (.store 1) (.store 2) (by decide) (by decide) (by decide)).1
example := (C40_same_source_and_constants_combine 1 1 .qty .const s three s_built (.const 9 .scalar [3]) (.select 5) (by decide) (by decide)).1
example : ∃ c, Quantity.ufunc env0 8 (unArr fun x => .ok (x.map (· + 1))) [three] = .ok c := ⟨_, rfl⟩
end ExQ

end MLMC
