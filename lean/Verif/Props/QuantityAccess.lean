import Verif.Proofs.Access
/-! Named access (C36). -/
namespace MLMC
variable {K : Type} [Inhabited K]

/-! ## C36 Named access -/

theorem addresses_block_length (s : QSpec) :
    (s.times.flatMap fun t => s.locations.flatMap fun l => (multiIndices s.shape).map fun ix => (⟨s.name, t, l, ix⟩ : Address)).length =
      s.times.length * (s.locations.length * s.shape.prod) := by
  simp [List.length_flatMap, multiIndices_length]

/-- C36: the addresses are distinct. -/
theorem C36_addresses_distinct (fmt : List QSpec) (h : FormatOK fmt) : (addresses fmt).Nodup := by
  have hm : ∀ shape, (multiIndices shape).Nodup := by
    intro shape
    induction shape with
    | nil => simp [multiIndices]
    | cons d shape ih =>
      rw [multiIndices, List.nodup_flatMap]
      refine ⟨fun i _ => ih.map (by intro a b h; simpa using h), ?_⟩
      refine List.Pairwise.imp ?_ (List.nodup_range (n := d))
      intro i j hij
      intro x hx hx'
      simp only [List.mem_map] at hx hx'
      obtain ⟨a, _, rfl⟩ := hx
      obtain ⟨b, _, hb⟩ := hx'
      simp at hb
      exact hij hb.1.symm
  unfold addresses
  rw [List.nodup_flatMap]
  refine ⟨?_, ?_⟩
  · intro s hs
    rw [List.nodup_flatMap]
    refine ⟨?_, ?_⟩
    · intro t _
      rw [List.nodup_flatMap]
      refine ⟨fun l _ => (hm _).map (by intro a b h; simpa using h), ?_⟩
      refine List.Pairwise.imp ?_ (h.locs s hs)
      intro l l' hl x hx hx'
      simp only [List.mem_map] at hx hx'
      obtain ⟨a, _, rfl⟩ := hx
      obtain ⟨b, _, hb⟩ := hx'
      simp at hb
      exact hl hb.1.symm
    · refine List.Pairwise.imp ?_ (h.times s hs)
      intro t t' ht x hx hx'
      simp only [List.mem_flatMap, List.mem_map] at hx hx'
      obtain ⟨_, _, a, _, rfl⟩ := hx
      obtain ⟨_, _, b, _, hb⟩ := hx'
      simp at hb
      exact ht hb.1.symm
  · have := h.names
    rw [List.nodup_iff_pairwise_ne, List.pairwise_map] at this
    refine List.Pairwise.imp ?_ this
    intro s s' hs x hx hx'
    simp only [List.mem_flatMap, List.mem_map] at hx hx'
    obtain ⟨_, _, _, _, a, _, rfl⟩ := hx
    obtain ⟨_, _, _, _, b, _, hb⟩ := hx'
    simp at hb
    exact hs hb.1.symm

theorem Loc.toKey_inj : ∀ {a b : Loc}, a.toKey = b.toKey → a = b := by
  intro a b h
  cases a <;> cases b <;> simp [Loc.toKey] at h <;> simp [h]

theorem pyDict_locs (locs : List Loc) (t : QType) (h : locs.Nodup) :
    (QType.pyDict (locs.map fun l => (l.toKey, t))).map (·.1) = locs.map Loc.toKey := by
  rw [pyDict_nodup]
  · simp
  · rw [List.map_map]
    exact h.map fun a b h => Loc.toKey_inj h

/-- The type made for one quantity of the format. -/
def typeOfSpec (s : QSpec) : QType := .times s.times (.field (s.locations.map Loc.toKey) (.array s.shape .scalar))

theorem specType_ok (s : QSpec) (h1 : s.locations.Nodup) (h2 : s.locations ≠ []) : specType s = .ok (typeOfSpec s) := by
  unfold specType QType.mkField typeOfSpec
  cases hl : s.locations with
  | nil => exact absurd hl h2
  | cons l ls =>
    simp only [List.map_cons]
    have := pyDict_locs s.locations (.array s.shape .scalar) h1
    rw [hl] at this
    simp only [List.map_cons] at this
    simp [bind, Except.bind, this]

theorem mapM_ok {α β ε : Type} (l : List α) (f : α → Except ε β) (g : α → β) (h : ∀ a ∈ l, f a = .ok (g a)) : l.mapM f = .ok (l.map g) := by
  induction l with
  | nil => rfl
  | cons a l ih =>
    rw [List.mapM_cons, h a (by simp), ih fun b hb => h b (by simp [hb])]
    rfl

def rootItems (fmt : List QSpec) : List (PartKey × QType) := fmt.map fun s => (PartKey.str s.name, typeOfSpec s)

theorem rootItems_nodup {fmt : List QSpec} (h : FormatOK fmt) : ((rootItems fmt).map (·.1)).Nodup := by
  unfold rootItems
  rw [List.map_map]
  have := h.names.map (f := PartKey.str) (by intro a b h; simpa using h)
  rwa [List.map_map] at this

theorem makeRoot_ok (oid : Nat) (fmt : List QSpec) (h : FormatOK fmt) :
    (makeRoot oid fmt : Except PyErr (Quantity K)) = .ok (.storage oid (.dict (rootItems fmt))) := by
  unfold makeRoot
  rw [mapM_ok _ _ (fun s => (PartKey.str s.name, typeOfSpec s)) (fun s hs => by rw [specType_ok s (h.locs s hs) (h.locs_ne s hs)]; rfl)]
  simp only [bind, Except.bind]
  unfold QType.mkDict
  have hp := pyDict_nodup _ (rootItems_nodup h)
  unfold rootItems at hp ⊢
  rw [hp]
  cases hf : fmt with
  | nil => exact absurd hf h.ne
  | cons s ss => simp [typeOfSpec, QType.baseBool]

theorem size_typeOfSpec (s : QSpec) : (typeOfSpec s).size = s.times.length * (s.locations.length * s.shape.prod) := by
  simp [typeOfSpec, QType.size]

theorem takeWhile_map_key (fmt : List QSpec) (s : QSpec) (hs : s ∈ fmt) (h : (fmt.map (·.name)).Nodup) :
    (rootItems fmt).takeWhile (fun x => x.1 ≠ PartKey.str s.name) = rootItems (fmt.takeWhile (· ≠ s)) := by
  unfold rootItems
  rw [List.takeWhile_map]
  congr 1
  induction fmt with
  | nil => simp at hs
  | cons r fmt ih =>
    simp only [List.map_cons, List.nodup_cons] at h
    by_cases hr : r = s
    · subst hr; simp
    · have hs' : s ∈ fmt := by
        rcases List.mem_cons.1 hs with e | e
        · exact absurd e.symm hr
        · exact e
      have hn : r.name ≠ s.name := fun e => h.1 (by rw [e]; exact List.mem_map_of_mem hs')
      rw [List.takeWhile_cons_of_pos (by simpa using hn), List.takeWhile_cons_of_pos (by simpa using hr), ih hs' h.2]

/-- C36: the root quantity of a format, accessed by name, time, location and array index, evaluates for every stored sample, fine
and coarse, to the entry of the result vector at the position of that address in the documented order. -/
theorem C36_named_access (oid : Nat) (fmt : List QSpec) (h : FormatOK fmt) (s : QSpec) (hs : s ∈ fmt) (t : ℚ) (ht : t ∈ s.times) (l : Loc)
    (hl : l ∈ s.locations) (key : PartKey) (hkey : NamesLoc key l) (ix : List Nat) (hix : List.Forall₂ (· < ·) ix s.shape) (o1 o2 o3 o4 : Nat)
    (tup : Bool) :
    ∃ root q1 q2 q3 q4 : Quantity K, makeRoot oid fmt = .ok root ∧ root.getitem o1 (.key (.str s.name)) = .ok q1 ∧
      q1.getitem o2 (.key (.num t)) = .ok q2 ∧ q2.getitem o3 (.key key) = .ok q3 ∧
      q3.getitem o4 (.idx tup (ix.map fun i : Nat => .int i)) = .ok q4 ∧ root.size = (addresses fmt).length ∧ q4.size = 1 ∧
      (addresses fmt).idxOf ⟨s.name, t, l, ix⟩ < root.size ∧
      ∀ b : Batch K, b.WF → b.width = root.size →
        q4.values oid b = .ok (b.data.map (·.map fun v => [v.getD ((addresses fmt).idxOf ⟨s.name, t, l, ix⟩) default])) := by
  obtain rfl : key = l.toKey := by cases hkey <;> rfl
  have hix' := mem_multiIndices.2 hix
  have hmem : (⟨s.name, t, l, ix⟩ : Address) ∈ addresses fmt := by
    simp only [addresses, List.mem_flatMap, List.mem_map]
    exact ⟨s, hs, t, ht, l, hl, ix, hix', rfl⟩
  set arrT : QType := .array s.shape .scalar with harr
  set fieldT : QType := .field (s.locations.map Loc.toKey) arrT with hfield
  have hkey1 : QType.getKey (.dict (rootItems fmt)) (.key (.str s.name)) =
      .ok (typeOfSpec s, QType.sizeItems (rootItems (fmt.takeWhile (· ≠ s)))) := by
    have hg : Dict.get? (rootItems fmt) (PartKey.str s.name) = some (typeOfSpec s) :=
      Dict.get?_of_mem (rootItems_nodup h) (by unfold rootItems; exact List.mem_map_of_mem (f := fun s => (PartKey.str s.name, typeOfSpec s)) hs)
    rw [QType.getKey, hg]
    simp only
    rw [takeWhile_map_key fmt s hs h.names]
  have hkey2 : QType.getKey (typeOfSpec s) (.key (.num t)) = .ok (fieldT, s.times.idxOf t * fieldT.size) := by
    rw [typeOfSpec, QType.getKey, if_pos ht]
  have hkey3 : QType.getKey fieldT (.key l.toKey) = .ok (arrT, s.locations.idxOf l * arrT.size) := by
    rw [hfield, QType.getKey, if_pos (List.mem_map_of_mem hl), idxOf_map_inj _ _ (fun a b h => Loc.toKey_inj h)]
  have hkey4 : QType.getKey arrT (.idx tup (ix.map fun i : Nat => .int i)) = .ok (.scalar, 0) := by
    rw [harr, QType.getKey, npIndex_ints hix']
    rfl
  have hsz3 : arrT.size = s.shape.prod := by rw [harr]; simp [QType.size]
  have hsz2 : fieldT.size = s.locations.length * s.shape.prod := by rw [hfield]; simp [QType.size, hsz3]
  have htot : ∀ f : List QSpec, QType.sizeItems (rootItems f) = (f.map fun s => (s.times.flatMap fun t => s.locations.flatMap fun l => (multiIndices s.shape).map fun ix => (⟨s.name, t, l, ix⟩ : Address)).length).sum := by
    intro f
    rw [sizeItems_eq]
    unfold rootItems
    rw [List.map_map]
    congr 1
    apply List.map_congr_left
    intro s _
    simp only [Function.comp, size_typeOfSpec, addresses_block_length]
  have hsize : QType.size (.dict (rootItems fmt)) = (addresses fmt).length := by
    rw [QType.size, htot, addresses, List.length_flatMap]
  have hpos : (addresses fmt).idxOf ⟨s.name, t, l, ix⟩ =
      QType.sizeItems (rootItems (fmt.takeWhile (· ≠ s))) + (s.times.idxOf t * fieldT.size + (s.locations.idxOf l * arrT.size + flatIndex s.shape ix)) := by
    unfold addresses
    rw [idxOf_flatMap fmt _ s _ hs]
    · congr 1
      · rw [htot]
      · rw [idxOf_flatMap_const _ _ t _ ht _ _ fieldT.size]
        · congr 1
          rw [idxOf_flatMap_const _ _ l _ hl _ _ arrT.size]
          · congr 1
            rw [← flatIndex_idxOf hix']
            exact idxOf_map_inj _ _ (by simp) ix
          · intro l'; simp [multiIndices_length, hsz3]
          · simpa using hix'
          · intro l' _ hne; simp; intro _ e; exact absurd e hne
        · intro t'; simp [multiIndices_length, hsz2, List.length_flatMap]
        · simp; exact ⟨hl, hix'⟩
        · intro t' _ hne; simp; intro _ _ e; exact hne e
    · simp; exact ⟨ht, hl, hix'⟩
    · intro s' hs' hne
      simp only [List.mem_flatMap, List.mem_map, not_exists, not_and]
      intro _ _ _ _ _ _ e
      simp only [Address.mk.injEq] at e
      exact hne (List.inj_on_of_nodup_map h.names hs' hs e.1)
  have hlt : (addresses fmt).idxOf ⟨s.name, t, l, ix⟩ < (addresses fmt).length := List.idxOf_lt_length_of_mem hmem
  refine ⟨_, _, _, _, _, makeRoot_ok oid fmt h, getitem_key o1 hkey1, getitem_key o2 hkey2, getitem_key o3 hkey3,
    getitem_idx tup _ o4 rfl hkey4, hsize, by simp [idxNode, Quantity.size, Quantity.qtype, QType.size], by rw [Quantity.size, Quantity.qtype, hsize]; exact hlt, ?_⟩
  intro b hb hw
  rw [Quantity.size, Quantity.qtype] at hw
  have e1 := keyNode_on oid b o1 (typeOfSpec s) (QType.sizeItems (rootItems (fmt.takeWhile (· ≠ s)))) _ _ (root_on oid b (.dict (rootItems fmt)))
  have e2 := keyNode_on oid b o2 fieldT (s.times.idxOf t * fieldT.size) _ _ e1
  have e3 := keyNode_on oid b o3 arrT (s.locations.idxOf l * arrT.size) _ _ e2
  have hrows : b.toArr.rows.length = (addresses fmt).length := by rw [← hsize, ← hw]; simp [Batch.toArr]
  have hT : s.times.idxOf t < s.times.length := List.idxOf_lt_length_of_mem ht
  have hL : s.locations.idxOf l < s.locations.length := List.idxOf_lt_length_of_mem hl
  have hF := flatIndex_lt hix'
  -- the block of the quantity ends inside the vector
  have hblock : QType.sizeItems (rootItems (fmt.takeWhile (· ≠ s))) + (typeOfSpec s).size ≤ (addresses fmt).length := by
    rw [← hsize, QType.size, sizeItems_eq, sizeItems_eq]
    have : ∃ tl, fmt = fmt.takeWhile (· ≠ s) ++ s :: tl := by
      clear hkey1 hsize hpos hlt hmem e1 e2 e3 hrows hw htot
      clear h
      induction fmt with
      | nil => simp at hs
      | cons r f ih =>
        by_cases hr : r = s
        · exact ⟨f, by simp [hr]⟩
        · rcases List.mem_cons.1 hs with e | e
          · exact absurd e.symm hr
          · obtain ⟨tl, h⟩ := ih e
            refine ⟨tl, ?_⟩
            rw [List.takeWhile_cons_of_pos (by simpa using hr), List.cons_append, ← h]
    obtain ⟨tl, htl⟩ := this
    conv_rhs => rw [htl]
    simp [rootItems]
  have hb2 : s.times.idxOf t * fieldT.size + fieldT.size ≤ (typeOfSpec s).size := by
    rw [size_typeOfSpec, hsz2, ← Nat.succ_mul]
    exact Nat.mul_le_mul_right _ hT
  have hb3 : s.locations.idxOf l * arrT.size + arrT.size ≤ fieldT.size := by
    rw [hsz2, hsz3, ← Nat.succ_mul]
    exact Nat.mul_le_mul_right _ hL
  have e4 := idxNode_on oid b o4 .scalar s.shape (ix.map fun i : Nat => .int i) _ _ e3
    (by simp only [List.length_take, List.length_drop, hrows, ← hsz3]; omega) _ (npIndex_ints hix')
  unfold Quantity.values
  rw [e4]
  simp only
  congr 1
  refine pick_values hb _ _ ?_
  simp only [List.map_cons, List.map_nil]
  congr 1
  rw [getD_drop_take _ _ _ _ _ (by omega), getD_drop_take _ _ _ _ _ (by omega), getD_drop_take _ _ _ _ _ (by omega), hpos]

/-- A format with two quantities, a vector at three times and two places, and a scalar. -/
def exFmt : List QSpec := [⟨"v".toList, [], [2], [0, 1, 5], [.name "well".toList, .point 0 0 1]⟩, ⟨"s".toList, [], [1], [0], [.name "well".toList]⟩]

theorem exFmt_ok : FormatOK exFmt := by
  constructor <;> decide +kernel

example := C36_named_access (K := ℤ) 3 exFmt exFmt_ok _ (List.mem_cons_self) 5 (by decide +kernel) (.point 0 0 1) (by decide +kernel) _ (.point 0 0 1) [1] (.cons (by decide) .nil) 4 5 6 7 false
example : (addresses exFmt).length = 13 ∧ (addresses exFmt).idxOf ⟨"v".toList, 5, .point 0 0 1, [1]⟩ = 11 := by decide +kernel

end MLMC
