import Verif.Props.QuantityAccess
/-! # C36 Nothing else can be addressed -/
namespace MLMC
variable {K : Type} [Inhabited K]

theorem getitem_getKey {q r : Quantity K} {o : Nat} {k : Brackets} (h : q.getitem o k = .ok r) : ∃ s, q.qtype.getKey k = .ok (r.qtype, s) := by
  unfold Quantity.getitem at h
  cases hk : q.qtype.getKey k with
  | error e => rw [hk] at h; cases h
  | ok p =>
    obtain ⟨t, s⟩ := p
    rw [hk] at h
    refine ⟨s, ?_⟩
    simp only [bind, Except.bind] at h
    have : r.qtype = t := by
      split at h <;> (rw [mk_one] at h; injection h with h; rw [← h]; rfl)
    rw [this]

theorem dict_key {items : List (PartKey × QType)} {k : Brackets} {t : QType} {n : Nat} (h : QType.getKey (.dict items) k = .ok (t, n)) : ∃ key, k = .key key ∧ (key, t) ∈ items := by
  cases k with
  | idx a b => simp [QType.getKey] at h
  | key key =>
    rw [QType.getKey] at h
    cases hg : Dict.get? items key with
    | none => rw [hg] at h; cases h
    | some q =>
      rw [hg] at h
      simp only [Except.ok.injEq, Prod.mk.injEq] at h
      refine ⟨key, rfl, ?_⟩
      rw [← h.1]
      exact Dict.mem_of_get? hg

theorem times_key_only {ts : List ℚ} {q : QType} {k : Brackets} {t : QType} {n : Nat} (h : QType.getKey (.times ts q) k = .ok (t, n)) : t = q ∧ ∃ x ∈ ts, k = .key (.num x) := by
  cases k with
  | idx a b => simp [QType.getKey] at h
  | key key =>
    cases key with
    | num x =>
      rw [QType.getKey] at h
      split at h
      · rename_i hx
        simp only [Except.ok.injEq, Prod.mk.injEq] at h
        exact ⟨h.1.symm, x, hx, rfl⟩
      · cases h
    | str s => simp [QType.getKey] at h
    | point x y z => simp [QType.getKey] at h

theorem field_key_only {keys : List PartKey} {q : QType} {k : Brackets} {t : QType} {n : Nat} (h : QType.getKey (.field keys q) k = .ok (t, n)) : t = q ∧ ∃ x ∈ keys, k = .key x := by
  cases k with
  | idx a b => simp [QType.getKey] at h
  | key key =>
    rw [QType.getKey] at h
    split at h
    · rename_i hx
      simp only [Except.ok.injEq, Prod.mk.injEq] at h
      exact ⟨h.1.symm, key, hx, rfl⟩
    · cases h

theorem npIndex_bounds : ∀ {shape : List Nat} {items : List IdxItem} {p : List Nat × List Nat}, npIndex shape items = .ok p →
    items.length ≤ shape.length ∧ ∀ (j : Nat) (i : Int), items[j]? = some (.int i) → -(shape.getD j 0 : Int) ≤ i ∧ i < shape.getD j 0
  | shape, [], p, _ => ⟨by simp, by simp⟩
  | [], _ :: _, p, h => by simp [npIndex] at h
  | d :: shape, it :: key, p, h => by
    rw [npIndex] at h
    cases hn : npIndex shape key with
    | error e => rw [hn] at h; cases h
    | ok r =>
      obtain ⟨h1, h2⟩ := npIndex_bounds hn
      refine ⟨by simpa using h1, fun j i hj => ?_⟩
      cases j with
      | succ j => simpa using h2 j i (by simpa using hj)
      | zero =>
        simp only [List.getElem?_cons_zero, Option.some.injEq] at hj
        subst hj
        rw [hn] at h
        simp only [bind, Except.bind] at h
        cases hi : normIndex d i with
        | error e => rw [hi] at h; cases h
        | ok m =>
          unfold normIndex at hi
          simp only [List.getD_cons_zero]
          split at hi
          · omega
          · split at hi
            · omega
            · cases hi

theorem array_key_only {shape : List Nat} {q : QType} {k : Brackets} {r : QType × Nat} (h : QType.getKey (.array shape q) k = .ok r) :
    ∃ tup items, k = .idx tup items ∧ items.length ≤ shape.length ∧ ∀ (j : Nat) (i : Int), items[j]? = some (.int i) → -(shape.getD j 0 : Int) ≤ i ∧ i < shape.getD j 0 := by
  cases k with
  | key key => simp [QType.getKey] at h
  | idx tup items =>
    rw [QType.getKey] at h
    cases hn : npIndex shape items with
    | error e => rw [hn] at h; cases h
    | ok p => exact ⟨tup, items, rfl, npIndex_bounds hn⟩

/-- C36: nothing else can be addressed.  Brackets on the root quantity are accepted only with the name of a quantity of the format; on this quantity only with one of its times — in particular no location
before the time —; then only with one of its locations; then only with at most as many indices as the array has dimensions, each integer within its dimension (negative ones counted from the end). -/
theorem C36_nothing_else (oid : Nat) (fmt : List QSpec) (h : FormatOK fmt) (root : Quantity K) (hroot : makeRoot oid fmt = .ok root) (o1 : Nat) (k1 : Brackets) (q1 : Quantity K)
    (h1 : root.getitem o1 k1 = .ok q1) :
    ∃ s ∈ fmt, k1 = .key (.str s.name) ∧ ∀ (o2 : Nat) (k2 : Brackets) (q2 : Quantity K), q1.getitem o2 k2 = .ok q2 →
      (∃ t ∈ s.times, k2 = .key (.num t)) ∧ ∀ (o3 : Nat) (k3 : Brackets) (q3 : Quantity K), q2.getitem o3 k3 = .ok q3 →
        (∃ l ∈ s.locations, ∃ key, NamesLoc key l ∧ k3 = .key key) ∧ ∀ (o4 : Nat) (k4 : Brackets) (q4 : Quantity K), q3.getitem o4 k4 = .ok q4 →
          ∃ (tup : Bool) (items : List IdxItem), k4 = .idx tup items ∧ items.length ≤ s.shape.length ∧
            ∀ (j : Nat) (i : Int), items[j]? = some (.int i) → -(s.shape.getD j 0 : Int) ≤ i ∧ i < s.shape.getD j 0 := by
  rw [makeRoot_ok oid fmt h] at hroot
  injection hroot with hroot
  subst hroot
  obtain ⟨n1, g1⟩ := getitem_getKey h1
  obtain ⟨key, rfl, hmem⟩ := dict_key g1
  unfold rootItems at hmem
  obtain ⟨s, hs, e⟩ := List.mem_map.1 hmem
  obtain ⟨rfl, e2⟩ := Prod.mk.inj e
  refine ⟨s, hs, rfl, fun o2 k2 q2 h2 => ?_⟩
  obtain ⟨n2, g2⟩ := getitem_getKey h2
  rw [← e2] at g2
  obtain ⟨e3, t, ht, rfl⟩ := times_key_only g2
  refine ⟨⟨t, ht, rfl⟩, fun o3 k3 q3 h3 => ?_⟩
  obtain ⟨n3, g3⟩ := getitem_getKey h3
  rw [e3] at g3
  obtain ⟨e4, key, hk, rfl⟩ := field_key_only g3
  obtain ⟨l, hl, rfl⟩ := List.mem_map.1 hk
  refine ⟨⟨l, hl, l.toKey, by cases l <;> constructor, rfl⟩, fun o4 k4 q4 h4 => ?_⟩
  obtain ⟨n4, g4⟩ := getitem_getKey h4
  rw [e4] at g4
  exact array_key_only g4

/-- C36: the documented restriction.  A location, by name or by coordinates, is refused as long as no time has been selected. -/
theorem C36_location_before_time (oid : Nat) (fmt : List QSpec) (h : FormatOK fmt) (root q1 : Quantity K) (hroot : makeRoot oid fmt = .ok root) (o1 o2 : Nat) (k1 : Brackets)
    (h1 : root.getitem o1 k1 = .ok q1) (l : Loc) (key : PartKey) (hkey : NamesLoc key l) : ∃ e, q1.getitem o2 (.key key) = .error e := by
  cases h2 : q1.getitem o2 (.key key) with
  | error e => exact ⟨e, rfl⟩
  | ok q2 =>
    obtain ⟨s, _, _, hq⟩ := C36_nothing_else oid fmt h root hroot o1 k1 q1 h1
    obtain ⟨⟨t, _, e⟩, _⟩ := hq o2 _ q2 h2
    injection e with e
    subst e
    cases hkey

/-- A vector at three times and two places: access that is accepted, and access with the place first. -/
example : ∃ root q1 q2 q3 q4 : Quantity ℤ, makeRoot 3 exFmt = .ok root ∧ root.getitem 4 (.key (.str "v".toList)) = .ok q1 ∧ q1.getitem 5 (.key (.num 5)) = .ok q2 ∧
    q2.getitem 6 (.key (.point 0 0 1)) = .ok q3 ∧ q3.getitem 7 (.idx false [.int 1]) = .ok q4 ∧ ∃ e, q1.getitem 5 (.key (.str "well".toList)) = .error e := by
  obtain ⟨root, q1, q2, q3, q4, h0, h1, h2, h3, h4, -⟩ :=
    C36_named_access (K := ℤ) 3 exFmt exFmt_ok _ (List.mem_cons_self) 5 (by decide +kernel) (.point 0 0 1) (by decide +kernel) _ (.point 0 0 1) [1] (.cons (by decide) .nil) 4 5 6 7 false
  exact ⟨root, q1, q2, q3, q4, h0, h1, h2, h3, h4, C36_location_before_time 3 exFmt exFmt_ok root q1 h0 4 5 _ h1 (.name "well".toList) _ (.name _)⟩

end MLMC
