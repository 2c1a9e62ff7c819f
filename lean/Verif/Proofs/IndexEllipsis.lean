import Verif.Spec.IndexEllipsis
import Verif.Props.QuantityIndex
import Mathlib.Tactic.Ring
import Mathlib.Tactic.Linarith
/-! Lemmas about NumPy indices (C150). -/
namespace MLMC

theorem mem_pyRange_pos {a b s : Int} (hs : 0 < s) (i : Int) : i ∈ pyRange a b s ↔ (∃ n : Nat, i = a + n * s) ∧ i < b := by
  unfold pyRange
  rw [if_pos hs, List.mem_map]
  have key : ∀ n : Nat, n ∈ List.range ((b - a + s - 1) / s).toNat ↔ a + n * s < b := by
    intro n
    rw [List.mem_range, Int.lt_toNat, ← Int.add_one_le_iff, Int.le_ediv_iff_mul_le hs, add_mul]
    constructor <;> intro h <;> linarith
  constructor
  · rintro ⟨n, hn, rfl⟩
    exact ⟨⟨n, rfl⟩, (key n).1 hn⟩
  · rintro ⟨⟨n, rfl⟩, h⟩
    exact ⟨n, (key n).2 h, rfl⟩

theorem mem_pyRange_neg {a b s : Int} (hs : s < 0) (i : Int) : i ∈ pyRange a b s ↔ (∃ n : Nat, i = a + n * s) ∧ b < i := by
  unfold pyRange
  rw [if_neg (by omega), List.mem_map]
  have key : ∀ n : Nat, n ∈ List.range ((a - b - s - 1) / (-s)).toNat ↔ b < a + n * s := by
    intro n
    rw [List.mem_range, Int.lt_toNat, ← Int.add_one_le_iff, Int.le_ediv_iff_mul_le (by omega), add_mul, mul_neg]
    constructor <;> intro h <;> linarith
  constructor
  · rintro ⟨n, hn, rfl⟩
    exact ⟨⟨n, rfl⟩, (key n).1 hn⟩
  · rintro ⟨⟨n, rfl⟩, h⟩
    exact ⟨n, (key n).2 h, rfl⟩

theorem pyRange_pairwise {a b s : Int} (hs : s ≠ 0) : (pyRange a b s).Pairwise fun i j => if 0 < s then i < j else j < i := by
  unfold pyRange
  by_cases h : 0 < s
  · simp only [h, if_true]
    rw [List.pairwise_map]
    refine List.pairwise_lt_range.imp ?_
    intro x y hxy
    have : (x : Int) + 1 ≤ y := by exact_mod_cast hxy
    nlinarith
  · simp only [h, if_false]
    rw [List.pairwise_map]
    refine List.pairwise_lt_range.imp ?_
    intro x y hxy
    have : (x : Int) + 1 ≤ y := by exact_mod_cast hxy
    have : s ≤ -1 := by omega
    nlinarith

theorem pairwise_toNat {R : Int → Int → Prop} {S : Nat → Nat → Prop} {l : List Int} (hl : ∀ x ∈ l, 0 ≤ x)
    (h : l.Pairwise R) (hRS : ∀ x y, 0 ≤ x → 0 ≤ y → R x y → S x.toNat y.toNat) : (l.map Int.toNat).Pairwise S := by
  rw [List.pairwise_map]
  induction l with
  | nil => exact List.Pairwise.nil
  | cons x l ih =>
    rw [List.pairwise_cons] at h ⊢
    exact ⟨fun y hy => hRS _ _ (hl _ (by simp)) (hl _ (by simp [hy])) (h.1 y hy), ih (fun y hy => hl y (by simp [hy])) h.2⟩

theorem mem_toNat {l : List Int} (hl : ∀ x ∈ l, 0 ≤ x) (i : Nat) : i ∈ l.map Int.toNat ↔ (i : Int) ∈ l := by
  rw [List.mem_map]
  constructor
  · rintro ⟨x, hx, rfl⟩
    rwa [Int.toNat_of_nonneg (hl x hx)]
  · intro h
    exact ⟨_, h, by simp⟩

/-- The indices of a slice are what the specification says. -/
theorem slice_picked (d : Nat) (a b s : Option Int) (hs : s.getD 1 ≠ 0) :
    ∃ l, (KeyItem.slice a b s).indices d = .ok l ∧ Picked d (.slice a b s) l := by
  unfold KeyItem.indices
  simp only [if_neg hs]
  generalize hst : s.getD 1 = st at *
  by_cases h : 0 < st
  · rw [if_pos h]
    have hst' : ∀ i : Int, (∃ n : Nat, i = (a.map (cutBound d 0 d)).getD 0 + n * st) → 0 ≤ i := by
      rintro i ⟨n, rfl⟩
      have : 0 ≤ (a.map (cutBound d 0 d)).getD 0 := by
        cases a with
        | none => simp
        | some z => simp only [Option.map_some, Option.getD_some, cutBound]; split <;> split <;> (try split) <;> omega
      have := mul_nonneg (Int.natCast_nonneg n) h.le
      omega
    have hnn : ∀ x ∈ pyRange ((a.map (cutBound d 0 d)).getD 0) ((b.map (cutBound d 0 d)).getD d) st, 0 ≤ x := by
      intro x hx
      exact hst' x ((mem_pyRange_pos h x).1 hx).1
    refine ⟨_, rfl, by rwa [hst], ?_, ?_⟩
    · intro i
      rw [mem_toNat hnn, mem_pyRange_pos h, hst]
      unfold sliceStart BeforeStop
      simp only [h, if_true]
      have hb : (i : Int) < (b.map (cutBound d 0 d)).getD d ↔ i < d ∧ (i : Int) < sliceLast d b := by
        cases b with
        | none => simp [sliceLast]
        | some z => simp only [Option.map_some, Option.getD_some, cutBound, sliceLast]; split <;> split <;> (try split) <;> omega
      rw [hb]
      have ha : i < d → ((∃ n : Nat, (i : Int) = (a.map (cutBound d 0 d)).getD 0 + n * st) ↔ ∃ n : Nat, (i : Int) = sliceFirst d a + n * st) := by
        intro hi
        cases a with
        | none => simp [sliceFirst]
        | some z =>
          by_cases hz : z ≤ d
          · have : cutBound d 0 d z = sliceFirst d (some z) := by
              simp only [cutBound, sliceFirst]; split <;> split <;> (try split) <;> omega
            simp [this]
          · have h1 : cutBound d 0 d z = d := by
              simp only [cutBound]; split <;> split <;> (try split) <;> omega
            have h2 : sliceFirst d (some z) = z := by simp only [sliceFirst]; split <;> omega
            simp only [Option.map_some, Option.getD_some, h1, h2]
            constructor <;> rintro ⟨n, hn⟩ <;> have := mul_nonneg (Int.natCast_nonneg n) h.le <;> omega
      constructor
      · rintro ⟨h1, h2, h3⟩; exact ⟨h2, (ha h2).1 h1, h3⟩
      · rintro ⟨h1, h2, h3⟩; exact ⟨(ha h1).2 h2, h1, h3⟩
    · rw [hst]
      refine pairwise_toNat hnn (pyRange_pairwise hs) ?_
      intro x y hx hy hxy
      simp only [h, if_true] at hxy ⊢
      omega
  · rw [if_neg h]
    have h' : st < 0 := by omega
    have hnn : ∀ x ∈ pyRange ((a.map (cutBound d (-1) (d - 1))).getD (d - 1)) ((b.map (cutBound d (-1) (d - 1))).getD (-1)) st, 0 ≤ x := by
      intro x hx
      have h1 := ((mem_pyRange_neg h' x).1 hx).2
      have : -1 ≤ (b.map (cutBound d (-1) (d - 1))).getD (-1) := by
        cases b with
        | none => simp
        | some z => simp only [Option.map_some, Option.getD_some, cutBound]; split <;> split <;> (try split) <;> omega
      omega
    refine ⟨_, rfl, by rwa [hst], ?_, ?_⟩
    · intro i
      rw [mem_toNat hnn, mem_pyRange_neg h', hst]
      have hb : i < d → ((b.map (cutBound d (-1) (d - 1))).getD (-1) < (i : Int) ↔ BeforeStop d st b i) := by
        intro hi
        unfold BeforeStop
        rw [if_neg h]
        cases b with
        | none => simp; omega
        | some z => simp only [Option.map_some, Option.getD_some, cutBound]; split <;> split <;> (try split) <;> omega
      have ha : (∃ n : Nat, (i : Int) = (a.map (cutBound d (-1) (d - 1))).getD (d - 1) + n * st) ↔
          i < d ∧ ∃ n : Nat, (i : Int) = sliceStart d st a + n * st := by
        unfold sliceStart
        rw [if_neg h]
        have hneg : ∀ n : Nat, (n : Int) * st ≤ 0 := fun n => mul_nonpos_of_nonneg_of_nonpos (Int.natCast_nonneg n) h'.le
        cases a with
        | none =>
          simp only [Option.map_none, Option.getD_none]
          constructor
          · rintro ⟨n, hn⟩; have := hneg n; exact ⟨by omega, n, hn⟩
          · rintro ⟨_, n, hn⟩; exact ⟨n, hn⟩
        | some z =>
          simp only [Option.map_some, Option.getD_some, cutBound]
          constructor
          · rintro ⟨n, hn⟩
            have := hneg n
            refine ⟨by revert hn; split <;> split <;> (try split) <;> intro hn <;> omega, n, ?_⟩
            rw [hn]
            revert hn
            split <;> split <;> (try split) <;> intro hn <;> omega
          · rintro ⟨hi, n, hn⟩
            have := hneg n
            refine ⟨n, ?_⟩
            rw [hn]
            revert hn
            split <;> split <;> (try split) <;> intro hn <;> omega
      rw [ha]
      constructor
      · rintro ⟨⟨h1, h2⟩, h3⟩; exact ⟨h1, h2, (hb h1).1 h3⟩
      · rintro ⟨h1, h2, h3⟩; exact ⟨⟨h1, h2⟩, (hb h1).2 h3⟩
    · rw [hst]
      refine pairwise_toNat hnn (pyRange_pairwise hs) ?_
      intro x y hx hy hxy
      simp only [h, if_false] at hxy ⊢
      omega

theorem int_picked (d : Nat) (z : Int) (h1 : -d ≤ z) (h2 : z < d) : ∃ l, (KeyItem.int z).indices d = .ok l ∧ Picked d (.int z) l ∧ l.length = 1 := by
  simp only [KeyItem.indices, normIndex, Picked]
  by_cases h : 0 ≤ z
  · rw [if_pos ⟨h, h2⟩]
    exact ⟨_, rfl, ⟨z.toNat, by omega, by omega, rfl⟩, rfl⟩
  · rw [if_neg (by omega), if_pos (by omega)]
    exact ⟨_, rfl, ⟨(z + d).toNat, by omega, by omega, rfl⟩, rfl⟩

theorem whole_indices (d : Nat) : KeyItem.whole.indices d = .ok (List.range d) := by
  unfold KeyItem.whole KeyItem.indices pyRange
  simp [Function.comp_def]

theorem select_whole (tail : List Nat) : selectAxes tail (List.replicate tail.length .whole) = .ok (tail, List.range tail.prod) := by
  induction tail with
  | nil => rfl
  | cons d tail ih =>
    rw [List.length_cons, List.replicate_succ, selectAxes, whole_indices, ih]
    simp only [Except.bind, Except.map, KeyItem.whole, List.length_range, List.prod_cons, range_mul]

theorem select_append (shape tail : List Nat) (items : List KeyItem) (h : items.length = shape.length) :
    selectAxes (shape ++ tail) (items ++ List.replicate tail.length .whole) =
      (selectAxes shape items).map fun r => (r.1 ++ tail, r.2.flatMap fun i => (List.range tail.prod).map (i * tail.prod + ·)) := by
  induction shape generalizing items with
  | nil =>
    obtain rfl : items = [] := List.length_eq_zero_iff.1 h
    rw [List.nil_append, List.nil_append, select_whole]
    simp [selectAxes, Except.map]
  | cons d shape ih =>
    cases items with
    | nil => simp at h
    | cons it items =>
      rw [List.cons_append, List.cons_append, selectAxes, selectAxes, ih items (by simpa using h)]
      cases it.indices d with
      | error e => rfl
      | ok is =>
        cases selectAxes shape items with
        | error e => rfl
        | ok r =>
          simp only [Except.bind, Except.map, List.prod_append]
          congr 2
          · cases it <;> rfl
          · rw [List.flatMap_assoc]
            congr 1
            funext i
            rw [List.map_flatMap, List.flatMap_map]
            congr 1
            funext x
            rw [List.map_map]
            apply List.map_congr_left
            intro t _
            simp only [Function.comp]
            ring

theorem split_ellipsis (items rest : List KeyItem) (h : .ellipsis ∉ items) :
    (items ++ rest).takeWhile (· ≠ KeyItem.ellipsis) = items ++ rest.takeWhile (· ≠ KeyItem.ellipsis) ∧
    (items ++ rest).dropWhile (· ≠ KeyItem.ellipsis) = rest.dropWhile (· ≠ KeyItem.ellipsis) := by
  have hp : ∀ x ∈ items, (decide (x ≠ KeyItem.ellipsis)) = true := by intro x hx; simp; rintro rfl; exact h hx
  exact ⟨List.takeWhile_append_of_pos hp, List.dropWhile_append_of_pos hp⟩

theorem expand_noEllipsis (nd : Nat) (items : List KeyItem) (h : .ellipsis ∉ items) :
    expandKey nd items = if nd < items.length then .error .indexError else .ok (items ++ List.replicate (nd - items.length) .whole) := by
  have := split_ellipsis items [] h
  rw [List.append_nil] at this
  unfold expandKey
  simp only [this.1, this.2]
  simp

theorem expand_trailing (nd : Nat) (items : List KeyItem) (h : .ellipsis ∉ items) :
    expandKey nd (items ++ [.ellipsis]) = if nd < items.length then .error .indexError else .ok (items ++ List.replicate (nd - items.length) .whole) := by
  have := split_ellipsis items [.ellipsis] h
  unfold expandKey
  simp only [this.1, this.2]
  simp

theorem expand_leading (nd : Nat) (items : List KeyItem) (h : .ellipsis ∉ items) :
    expandKey nd (.ellipsis :: items) = if nd < items.length then .error .indexError else .ok (List.replicate (nd - items.length) .whole ++ items) := by
  unfold expandKey
  simp [h]

theorem keepDims_append (sh : List Nat) (n p : Nat) : keepDims (sh ++ [n, p]) = .ok (sh.prod, n, p) := by
  unfold keepDims
  simp [List.prod_reverse]

theorem blocks_get {L : Nat} (idx : List Nat) (m t : Nat) (ht : t < L) (hm : m < idx.length) :
    (idx.flatMap fun i => (List.range L).map (i * L + ·))[m * L + t]? = some (idx[m] * L + t) := by
  induction idx generalizing m with
  | nil => simp at hm
  | cons i idx ih =>
    rw [List.flatMap_cons]
    cases m with
    | zero =>
      rw [List.getElem?_append_left (by simpa using ht)]
      simp [ht]
    | succ m =>
      have : (m + 1) * L + t = ((List.range L).map (i * L + ·)).length + (m * L + t) := by
        simp; ring
      rw [this, List.getElem?_append_right (by omega), Nat.add_sub_cancel_left, ih m (by simpa using hm)]
      simp

/-- Selection on each axis in terms of the specification. -/
theorem select_spec (shape : List Nat) (items : List KeyItem) (h : KeyInRange shape items) :
    items.length ≤ shape.length ∧ ∃ ls, PickedAll shape items ls ∧
      selectAxes shape (items ++ List.replicate (shape.length - items.length) .whole) =
        .ok (keptAxes items ls, (product ls).map (flatIndex shape)) ∧ (keptAxes items ls).prod = (product ls).length ∧
      ∀ ix ∈ product ls, ix ∈ multiIndices shape := by
  induction shape generalizing items with
  | nil =>
    cases items with
    | nil => exact ⟨le_refl _, [], trivial, rfl, rfl, by simp [product, multiIndices]⟩
    | cons it items => cases it <;> simp [KeyInRange] at h
  | cons d shape ih =>
    cases items with
    | nil =>
      obtain ⟨h1, ls, h2, h3, h4, h5⟩ := ih [] (by cases shape <;> trivial)
      refine ⟨by simp, List.range d :: ls, ⟨rfl, h2⟩, ?_, ?_, ?_⟩
      · simp only [List.nil_append, List.length_nil, Nat.sub_zero, List.length_cons, List.replicate_succ] at h3 ⊢
        rw [selectAxes, whole_indices, h3]
        simp only [Except.bind, Except.map, KeyItem.whole]
        have e1 : (List.range d).length :: keptAxes [] ls = keptAxes [] (List.range d :: ls) := by cases ls <;> rfl
        rw [e1]
        congr 2
        simp [product, List.map_flatMap, Function.comp_def, flatIndex]
      · have : keptAxes [] (List.range d :: ls) = d :: keptAxes [] ls := by cases ls <;> simp [keptAxes]
        rw [this, List.prod_cons, h4]
        simp [product, List.length_flatMap]
      · intro ix hix
        simp only [product, multiIndices, List.mem_flatMap, List.mem_map] at hix ⊢
        obtain ⟨i, hi, ix', hix', rfl⟩ := hix
        exact ⟨i, hi, ix', h5 _ hix', rfl⟩
    | cons it items =>
      have hI : ∃ l, it.indices d = .ok l ∧ Picked d it l ∧ KeyInRange shape items ∧ (∀ z, it = .int z → l.length = 1) ∧ it ≠ .ellipsis ∧
          ∀ i ∈ l, i < d := by
        cases it with
        | int z =>
          obtain ⟨h1, h2, h3⟩ := h
          obtain ⟨l, hl, hp, hl1⟩ := int_picked d z h1 h2
          refine ⟨l, hl, hp, h3, fun _ _ => hl1, by simp, ?_⟩
          obtain ⟨i, hi, _, rfl⟩ := hp
          simpa using hi
        | slice a b s =>
          obtain ⟨l, hl, hp⟩ := slice_picked d a b s h.1
          exact ⟨l, hl, hp, h.2, by simp, by simp, fun i hi => ((hp.2.1 i).1 hi).1⟩
        | ellipsis => exact absurd h (by simp [KeyInRange])
      obtain ⟨l, hl, hp, h3, hone, hne, hlt⟩ := hI
      obtain ⟨h1, ls, h2, h4, h5, h6⟩ := ih items h3
      refine ⟨by simpa using h1, l :: ls, ⟨hp, h2⟩, ?_, ?_, ?_⟩
      · simp only [List.cons_append, List.length_cons, Nat.add_sub_add_right]
        rw [selectAxes, hl, h4]
        simp only [Except.bind, Except.map]
        congr 2
        · cases it <;> first | rfl | exact absurd rfl hne
        · simp [product, List.map_flatMap, Function.comp_def, flatIndex]
      · cases it with
        | int z => simp [keptAxes, h5, product, List.length_flatMap, hone z rfl]
        | slice a b s => simp [keptAxes, List.prod_cons, h5, product, List.length_flatMap]
        | ellipsis => exact absurd rfl hne
      · intro ix hix
        simp only [product, multiIndices, List.mem_flatMap, List.mem_map] at hix ⊢
        obtain ⟨i, hi, ix', hix', rfl⟩ := hix
        exact ⟨i, List.mem_range.2 (hlt i hi), ix', h6 _ hix', rfl⟩

theorem select_error (shape : List Nat) (items : List KeyItem) (he : .ellipsis ∉ items) (h : ¬ KeyInRange shape items) (hl : items.length ≤ shape.length) :
    ∃ e, selectAxes shape (items ++ List.replicate (shape.length - items.length) .whole) = .error e := by
  induction shape generalizing items with
  | nil =>
    obtain rfl : items = [] := List.length_eq_zero_iff.1 (by simpa using hl)
    exact absurd trivial h
  | cons d shape ih =>
    cases items with
    | nil => exact absurd trivial h
    | cons it items =>
      simp only [List.cons_append, List.length_cons, Nat.add_sub_add_right]
      rw [selectAxes]
      have he' : .ellipsis ∉ items := fun hh => he (by simp [hh])
      cases hi : it.indices d with
      | error e => exact ⟨e, rfl⟩
      | ok is =>
        have : ¬ KeyInRange shape items := by
          intro hr
          apply h
          cases it with
          | int z =>
            simp only [KeyItem.indices, normIndex] at hi
            by_cases h1 : 0 ≤ z ∧ z < d
            · exact ⟨by omega, h1.2, hr⟩
            · rw [if_neg h1] at hi
              by_cases h2 : z < 0 ∧ -d ≤ z
              · exact ⟨h2.2, by omega, hr⟩
              · rw [if_neg h2] at hi; cases hi
          | slice a b s =>
            refine ⟨fun h0 => ?_, hr⟩
            unfold KeyItem.indices at hi
            simp only [h0, if_true] at hi
            cases hi
          | ellipsis => simp at he
        obtain ⟨e, h3⟩ := ih items he' this (by simpa using hl)
        rw [h3]
        exact ⟨e, rfl⟩

end MLMC
