import Verif.Spec.Index
import Verif.Props.QuantityParts
/-! # C41 Indexing of array quantities with integers and slices -/
namespace MLMC
variable {K : Type} [Inhabited K]

theorem range_mul (d m : Nat) : (List.range d).flatMap (fun i => (List.range m).map (i * m + ·)) = List.range (d * m) := by
  induction d with
  | zero => simp
  | succ d ih =>
    rw [List.range_succ, List.flatMap_append, ih, List.flatMap_singleton, Nat.succ_mul, List.range_add]

theorem flat_all (shape : List Nat) : (multiIndices shape).map (flatIndex shape) = List.range shape.prod := by
  induction shape with
  | nil => simp [multiIndices, flatIndex]
  | cons d shape ih =>
    rw [List.prod_cons, ← range_mul, ← ih, multiIndices, List.map_flatMap]
    simp [flatIndex, Function.comp_def]

open Classical in
theorem filter_flatMap' {α β : Type} (l : List α) (f : α → List β) (p : β → Prop) :
    (l.flatMap f).filter (fun x => p x) = l.flatMap fun a => (f a).filter fun x => p x := by
  induction l with
  | nil => rfl
  | cons a l ih => simp [List.flatMap_cons, List.filter_append, ih]

open Classical in
theorem flatMap_filter_split {α β : Type} (l : List α) (p : α → Prop) (f : α → List β) :
    (l.flatMap fun a => if p a then f a else []) = (l.filter fun a => p a).flatMap f := by
  induction l with
  | nil => rfl
  | cons a l ih => by_cases h : p a <;> simp [List.flatMap_cons, h, ih]

open Classical in
theorem match_cons (d : Nat) (shape : List Nat) (it : IdxItem) (items : List IdxItem) :
    ((multiIndices (d :: shape)).filter fun ix => Matches (d :: shape) (it :: items) ix).map (flatIndex (d :: shape)) =
      ((List.range d).filter fun i => Selects d it i).flatMap fun i =>
        (((multiIndices shape).filter fun ix => Matches shape items ix).map (flatIndex shape)).map (i * shape.prod + ·) := by
  rw [multiIndices, filter_flatMap', List.map_flatMap, ← flatMap_filter_split]
  congr 1
  funext i
  rw [List.filter_map, List.map_map, List.map_map]
  by_cases h : Selects d it i
  · simp only [h, if_true, Function.comp_def, Matches, true_and, flatIndex]
  · simp [h, Function.comp_def, Matches]

open Classical in
theorem filter_single (d j : Nat) (hj : j < d) (p : Nat → Prop) (hp : ∀ i < d, p i ↔ i = j) : ((List.range d).filter fun i => p i) = [j] := by
  have : ((List.range d).filter fun i => p i) = (List.range d).filter fun i => i = j := by
    apply List.filter_congr
    intro i hi
    simp [hp i (List.mem_range.1 hi)]
  rw [this]
  induction d with
  | zero => omega
  | succ d ih =>
    rw [List.range_succ, List.filter_append]
    by_cases h : j = d
    · subst h
      have : (List.range j).filter (fun i => decide (i = j)) = [] := by
        rw [List.filter_eq_nil_iff]; intro a ha; have := List.mem_range.1 ha; simp; omega
      rw [this]; simp
    · have h' : ¬ d = j := fun e => h e.symm
      have := ih (by omega) (fun i hi => hp i (by omega)) (by
        apply List.filter_congr
        intro i hi
        have := List.mem_range.1 hi
        simp [hp i (by omega)])
      rw [this]; simp [h']

open Classical in
theorem slice_sel (d : Nat) (a b : Option Int) (s : Nat) : sliceIndices d a b s = (List.range d).filter fun i => Selects d (.slice a b s) i := by
  unfold sliceIndices
  extract_lets lo hi'
  apply List.filter_congr
  intro i hi
  have hi := List.mem_range.1 hi
  have h1 : ∀ n : Nat, (i : Int) = sliceFirst d a + n ↔ i = lo + n := by
    intro n
    cases a with
    | none => simp [sliceFirst, lo]
    | some z =>
      simp only [sliceFirst, sliceBound, lo]
      split <;> omega
  have h2 : (i : Int) < sliceLast d b ↔ i < hi' := by
    cases b with
    | none => simp [sliceLast, hi']
    | some z =>
      simp only [sliceLast, sliceBound, hi']
      split <;> omega
  have h6 : Selects d (.slice a b s) i ↔ ∃ n : Nat, i = lo + n * max s 1 ∧ i < hi' := by
    unfold Selects
    apply exists_congr
    intro n
    rw [h2]
    have := h1 (n * max s 1)
    push_cast at this ⊢
    rw [this]
  rw [Bool.eq_iff_iff, decide_eq_true_eq, h6]
  simp only [Bool.and_eq_true, decide_eq_true_eq, beq_iff_eq]
  constructor
  · rintro ⟨⟨h3, h4⟩, h5⟩
    exact ⟨(i - lo) / max s 1, by rw [Nat.div_mul_cancel (Nat.dvd_of_mod_eq_zero h5)]; omega, h4⟩
  · rintro ⟨n, h3, h4⟩
    refine ⟨⟨by rw [h3]; exact Nat.le_add_right _ _, h4⟩, ?_⟩
    rw [h3, Nat.add_sub_cancel_left, Nat.mul_mod_left]

open Classical in
theorem match_all (shape : List Nat) : ((multiIndices shape).filter fun ix => Matches shape [] ix) = multiIndices shape := by
  rw [List.filter_eq_self]
  intro x _
  apply decide_eq_true
  cases shape <;> trivial

open Classical in
theorem npIndex_spec (shape : List Nat) (items : List IdxItem) :
    (IndexInRange shape items → ∃ sh, npIndex shape items = .ok (sh, ((multiIndices shape).filter fun ix => Matches shape items ix).map (flatIndex shape)) ∧
      sh.prod = ((multiIndices shape).filter fun ix => Matches shape items ix).length) ∧
    (¬ IndexInRange shape items → npIndex shape items = .error .indexError) := by
  induction shape generalizing items with
  | nil =>
    cases items with
    | nil => rw [match_all]; exact ⟨fun _ => ⟨[], by simp [npIndex, multiIndices, flatIndex], by simp [multiIndices]⟩, fun h => absurd trivial h⟩
    | cons it items => simp [IndexInRange, npIndex]
  | cons d shape ih =>
    cases items with
    | nil =>
      rw [match_all, flat_all, multiIndices_length]
      exact ⟨fun _ => ⟨_, rfl, rfl⟩, fun h => absurd trivial h⟩
    | cons it items =>
      rw [match_cons]
      have hlen : ((multiIndices (d :: shape)).filter fun ix => Matches (d :: shape) (it :: items) ix).length =
          (((List.range d).filter fun i => Selects d it i).flatMap fun i =>
            (((multiIndices shape).filter fun ix => Matches shape items ix).map (flatIndex shape)).map (i * shape.prod + ·)).length := by
        rw [← match_cons, List.length_map]
      rw [hlen]
      have hi := ih items
      cases it with
      | int z =>
        simp only [IndexInRange, npIndex]
        constructor
        · rintro ⟨h1, h2, h3⟩
          obtain ⟨sh, h4, h5⟩ := hi.1 h3
          have hn : ∃ j, j < d ∧ normIndex d z = .ok j ∧ ∀ i < d, Selects d (.int z) i ↔ i = j := by
            unfold normIndex Selects
            by_cases h0 : 0 ≤ z
            · exact ⟨z.toNat, by omega, by rw [if_pos ⟨h0, h2⟩], fun i hi => by simp only [h0, if_true]; omega⟩
            · exact ⟨(z + d).toNat, by omega, by rw [if_neg (by omega), if_pos ⟨by omega, h1⟩], fun i hi => by simp only [h0, if_false]; omega⟩
          obtain ⟨j, hj, hnj, hs⟩ := hn
          rw [filter_single d j hj _ hs, h4]
          simp only [bind, Except.bind, hnj]
          refine ⟨sh, by simp, by simp [h5]⟩
        · intro hneg
          by_cases h3 : IndexInRange shape items
          · obtain ⟨sh, h4, h5⟩ := hi.1 h3
            rw [h4]
            simp only [bind, Except.bind]
            unfold normIndex
            rw [if_neg (by intro h; exact hneg ⟨by omega, h.2, h3⟩), if_neg (by intro h; exact hneg ⟨h.2, by omega, h3⟩)]
          · rw [hi.2 h3]; rfl
      | slice a b s =>
        simp only [IndexInRange, npIndex]
        constructor
        · intro h3
          obtain ⟨sh, h4, h5⟩ := hi.1 h3
          rw [h4]
          simp only [bind, Except.bind]
          rw [slice_sel]
          refine ⟨_, rfl, ?_⟩
          rw [List.prod_cons, h5]
          simp [List.length_flatMap]
        · intro hneg
          rw [hi.2 hneg]; rfl

theorem zip_map_self {α β : Type} (l : List α) (f : α → β) : l.zip (l.map f) = l.map fun a => (a, f a) := by
  induction l with
  | nil => rfl
  | cons a l ih => simp [ih]

open Classical in
theorem zip_select (shape : List Nat) (items : List IdxItem) {α : Type} (rows : List α) (hr : rows.length = shape.prod) (dflt : α) :
    (((multiIndices shape).filter fun ix => Matches shape items ix).map (flatIndex shape)).map (fun i => rows.getD i dflt) =
      (((multiIndices shape).zip rows).filter fun x => Matches shape items x.1).map (·.2) := by
  have hz : (multiIndices shape).zip rows = (multiIndices shape).map fun ix => (ix, rows.getD (flatIndex shape ix) dflt) := by
    have hr' : rows = ((multiIndices shape).map (flatIndex shape)).map fun i => rows.getD i dflt := by
      rw [flat_all, ← hr]
      apply List.ext_getElem
      · simp
      · intro i h1 h2
        simp [List.getElem?_eq_getElem h1]
    conv_lhs => rw [hr']
    rw [List.map_map]
    exact zip_map_self _ _
  rw [hz, List.filter_map, List.map_map, List.map_map]
  rfl

/-- `C41`: brackets with integers and slices on a quantity of array type.  Indexing succeeds exactly for indices within the axes and raises
`IndexError` otherwise; the selected quantity evaluates to the rows of the array at the selected multi-indices, in their order, for the same
samples, and its declared size is their number times the size of an entry. -/
theorem C41_array_index (sid o : Nat) (q : Quantity K) (shape : List Nat) (inner : QType) (hq : q.qtype = .array shape inner) (tup : Bool)
    (items : List IdxItem) :
    (¬ IndexInRange shape items → q.getitem o (.idx tup items) = .error .indexError) ∧
    (IndexInRange shape items → ∃ r, q.getitem o (.idx tup items) = .ok r ∧
      ∀ (b : Batch K) (a : Arr K), q.on sid b = .ok (.arr a) → a.rows.length = shape.prod →
        ∃ z : Arr K, r.on sid b = .ok (.arr z) ∧ z.n = a.n ∧ z.p = a.p ∧ r.size = z.rows.length * inner.size ∧
          ∀ [DecidablePred (Matches shape items)],
            z.rows = (((multiIndices shape).zip a.rows).filter fun x => Matches shape items x.1).map (·.2)) := by
  classical
  have hs := npIndex_spec shape items
  constructor
  · intro h
    unfold Quantity.getitem
    rw [hq, QType.getKey, hs.2 h]
    rfl
  · intro h
    obtain ⟨sh, h1, h2⟩ := hs.1 h
    set sh' := if sh = [1] then [] else sh with hsh
    have hp : sh'.prod = sh.prod := by rw [hsh]; split <;> simp_all
    have hk : q.qtype.getKey (.idx tup items) = .ok (if sh' = [] then inner else .array sh' inner, 0) := by
      rw [hq, QType.getKey, h1]
      rfl
    refine ⟨_, getitem_idx tup items o hq hk, fun b a ha hl => ?_⟩
    refine ⟨_, idxNode_on sid b o _ shape items q a ha hl _ h1, rfl, rfl, ?_, ?_⟩
    · have : (idxNode o (if sh' = [] then inner else .array sh' inner) shape items q).size = sh'.prod * inner.size := by
        unfold idxNode Quantity.size
        simp only [Quantity.qtype]
        split
        · rename_i h0; simp [h0]
        · simp [QType.size]
      rw [this, hp, h2]
      simp [Arr.pick]
    · intro inst
      simp only [Arr.pick]
      rw [zip_select shape items a.rows hl]
      congr 1
      apply List.filter_congr
      intro x _
      congr

/-- `C37`: a field type is made of at least one entry, and only of entries of equal size; for distinct keys its size is the sum of the sizes. -/
theorem C37_field_entries (args : List (PartKey × QType)) (hd : (args.map (·.1)).Nodup) :
    (∃ t, QType.mkField args = .ok t ∧ t.size = (args.map (·.2.size)).sum) ↔ args ≠ [] ∧ ∀ x ∈ args, ∀ y ∈ args, x.2.size = y.2.size := by
  cases args with
  | nil => simp [QType.mkField]
  | cons a args =>
    obtain ⟨k, q⟩ := a
    unfold QType.mkField
    simp only
    split
    · rename_i h
      have h' : ∀ x ∈ (k, q) :: args, x.2.size = q.size := by simpa using h
      refine ⟨fun _ => ⟨by simp, fun x hx y hy => by rw [h' x hx, h' y hy]⟩, fun _ => ⟨_, rfl, ?_⟩⟩
      rw [pyDict_nodup _ hd, List.map_congr_left h']
      simp [QType.size, Nat.succ_mul, Nat.add_comm]
    · rename_i h
      refine ⟨fun ⟨t, ht, _⟩ => by simp at ht, fun ⟨_, h2⟩ => absurd ?_ h⟩
      rw [List.all_eq_true]
      intro x hx
      simpa using h2 x hx (k, q) (by simp)

example : ∃ t, QType.mkField [(.str "x".toList, .array [2] .scalar), (.str "y".toList, .array [2] .scalar)] = .ok t ∧ t.size = 4 :=
  (C37_field_entries _ (by decide +kernel)).2 ⟨by simp, by decide +kernel⟩
example : ¬ ∃ t, QType.mkField [(.str "x".toList, .array [2] .scalar), (.str "y".toList, .scalar)] = .ok t ∧ t.size = 3 :=
  fun h => absurd ((C37_field_entries _ (by decide +kernel)).1 h).2 (by decide +kernel)

namespace ExQ

/-- A stored 2 × 3 matrix and `m[-2, 1:]`: its first row without the first entry. -/
def mat : Quantity ℤ := .storage 1 (.array [2, 3] .scalar)
def matBatch : Batch ℤ := ⟨6, 1, [[[1, 2, 3, 4, 5, 6]], [[7, 8, 9, 10, 11, 12]]]⟩
def cut : List IdxItem := [.int (-2), .slice (some 1) none 1]

theorem cut_range : IndexInRange [2, 3] cut := by simp [IndexInRange, cut]

example : ∃ r, mat.getitem 5 (.idx true cut) = .ok r ∧ r.size = 2 ∧ r.values 1 matBatch = .ok [[[2, 3]], [[8, 9]]] := ⟨_, rfl, rfl, rfl⟩
example := (C41_array_index 1 5 mat [2, 3] .scalar rfl true cut).2 cut_range
/-- `m[2]` is outside. -/
example : mat.getitem 5 (.idx false [.int 2]) = .error .indexError :=
  (C41_array_index 1 5 mat [2, 3] .scalar rfl false [.int 2]).1 (by simp [IndexInRange])

end ExQ

end MLMC
