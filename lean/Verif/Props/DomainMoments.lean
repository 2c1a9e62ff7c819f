import Verif.Props.Domain
import Verif.Proofs.MomentsLinear
import Verif.Proofs.ConstructDensity
import Verif.Props.Moments
/-! # C159 Moments on the estimated domain -/
namespace MLMC
variable {F : Type} [Field F] [LinearOrder F] [IsStrictOrderedRing F] [FloorSemiring F]

/-! ## Helpers -/

/-- The sorted values behind a percentile. -/
theorem percentile_sorted {xs : List F} {t p : F} (h : percentile xs t = .ok p) :
    0 ≤ t ∧ t ≤ 1 ∧ xs ≠ [] ∧ ∃ s : List F, s.Perm xs ∧ s.Pairwise (· ≤ ·) ∧
      p = s.getD ⌊t * ((xs.length - 1 : Nat) : F)⌋₊ 0 + (s.getD (min (⌊t * ((xs.length - 1 : Nat) : F)⌋₊ + 1) (xs.length - 1)) 0 - s.getD ⌊t * ((xs.length - 1 : Nat) : F)⌋₊ 0) *
        (t * ((xs.length - 1 : Nat) : F) - (⌊t * ((xs.length - 1 : Nat) : F)⌋₊ : F)) := by
  unfold percentile at h
  by_cases ht : t < 0 ∨ 1 < t
  · rw [if_pos ht] at h; cases h
  rw [if_neg ht] at h
  by_cases hx : xs = []
  · rw [if_pos hx] at h; cases h
  rw [if_neg hx] at h
  injection h with h
  exact ⟨le_of_not_gt fun hh => ht (.inl hh), le_of_not_gt fun hh => ht (.inr hh), hx, _, List.perm_insertionSort (· ≤ ·) xs, List.pairwise_insertionSort _ _, h.symm⟩

theorem mem_getD {xs s : List F} (hp : s.Perm xs) {i : Nat} (hi : i < xs.length) : s.getD i 0 ∈ xs := by
  rw [← hp.mem_iff, getD_lt _ _ _ (by rw [hp.length_eq]; exact hi)]
  exact List.getElem_mem _

theorem percentile_zero {xs : List F} {p : F} (h : percentile xs 0 = .ok p) : p ∈ xs := by
  obtain ⟨_, _, hx, s, hp, hs, rfl⟩ := percentile_sorted h
  have hn : 0 < xs.length := List.length_pos_of_ne_nil hx
  simp only [zero_mul, Nat.floor_zero, Nat.cast_zero, sub_zero, mul_zero, add_zero]
  exact mem_getD hp hn

theorem percentile_one {xs : List F} {p : F} (h : percentile xs (1 - 0) = .ok p) : p ∈ xs := by
  obtain ⟨_, _, hx, s, hp, hs, rfl⟩ := percentile_sorted h
  have hn : 0 < xs.length := List.length_pos_of_ne_nil hx
  simp only [sub_zero, one_mul, Nat.floor_natCast, sub_self, mul_zero, add_zero]
  exact mem_getD hp (by omega)

theorem sorted_lt_getD {xs s : List F} (hp : s.Perm xs) (hs : s.Pairwise (· ≤ ·)) (hd : xs.Nodup) {i j : Nat} (hij : i < j) (hj : j < xs.length) : s.getD i 0 < s.getD j 0 := by
  have hl := hp.length_eq
  refine lt_of_le_of_ne (sorted_le_getD s hs i j hij.le (by omega)) fun he => ?_
  rw [getD_lt _ _ _ (by omega), getD_lt _ _ _ (by omega)] at he
  exact absurd ((hp.nodup_iff.2 hd).getElem_inj_iff.1 he) (by omega)

/-- A percentile above 0 of different values is above the least of them. -/
theorem percentile_pos {xs : List F} {t p : F} (h : percentile xs t = .ok p) (ht : 0 < t) (hd : xs.Nodup) (h2 : 2 ≤ xs.length) : ∃ x ∈ xs, x < p := by
  obtain ⟨_, ht1, hx, s, hp, hs, rfl⟩ := percentile_sorted h
  set v : F := t * ((xs.length - 1 : Nat) : F) with hv
  have hm : (0 : F) < ((xs.length - 1 : Nat) : F) := by exact_mod_cast (by omega : 0 < xs.length - 1)
  have hv0 : 0 < v := mul_pos ht hm
  have hfl : (⌊v⌋₊ : F) ≤ v := Nat.floor_le hv0.le
  have hi : ⌊v⌋₊ ≤ xs.length - 1 := by
    have : (⌊v⌋₊ : F) ≤ ((xs.length - 1 : Nat) : F) := hfl.trans (mul_le_of_le_one_left hm.le ht1)
    exact_mod_cast this
  refine ⟨s.getD 0 0, mem_getD hp (by omega), ?_⟩
  rcases Nat.eq_zero_or_pos ⌊v⌋₊ with h0 | h0
  · rw [h0, Nat.cast_zero, sub_zero, zero_add, Nat.min_eq_left (by omega)]
    have := mul_pos (sub_pos.2 (sorted_lt_getD hp hs hd (i := 0) (j := 1) (by omega) (by omega))) hv0
    linarith
  · have h1 := sorted_lt_getD hp hs hd h0 (by omega)
    have h3 := mul_nonneg (sub_nonneg.2 (sorted_le_getD s hs ⌊v⌋₊ (min (⌊v⌋₊ + 1) (xs.length - 1)) (by omega) (by rw [hp.length_eq]; omega))) (sub_nonneg.2 hfl)
    linarith

/-- A percentile below 1 of different values is below the greatest of them. -/
theorem percentile_lt_one {xs : List F} {t p : F} (h : percentile xs t = .ok p) (ht : t < 1) (hd : xs.Nodup) (h2 : 2 ≤ xs.length) : ∃ x ∈ xs, p < x := by
  obtain ⟨ht0, _, hx, s, hp, hs, rfl⟩ := percentile_sorted h
  set v : F := t * ((xs.length - 1 : Nat) : F) with hv
  have hm : (0 : F) < ((xs.length - 1 : Nat) : F) := by exact_mod_cast (by omega : 0 < xs.length - 1)
  have hv0 : 0 ≤ v := mul_nonneg ht0 hm.le
  have hv1 : v < ((xs.length - 1 : Nat) : F) := mul_lt_of_lt_one_left hm ht
  have hfl : (⌊v⌋₊ : F) ≤ v := Nat.floor_le hv0
  have hi : ⌊v⌋₊ < xs.length - 1 := by
    have : (⌊v⌋₊ : F) < ((xs.length - 1 : Nat) : F) := hfl.trans_lt hv1
    exact_mod_cast this
  refine ⟨s.getD (⌊v⌋₊ + 1) 0, mem_getD hp (by omega), ?_⟩
  rw [Nat.min_eq_left (by omega)]
  have h1 := sub_pos.2 (sorted_lt_getD hp hs hd (i := ⌊v⌋₊) (j := ⌊v⌋₊ + 1) (by omega) (by omega))
  have h3 := Nat.lt_floor_add_one v
  have := mul_lt_mul_of_pos_left (show v - (⌊v⌋₊ : F) < 1 by linarith) h1
  linarith

/-- The bounds of one pass are percentiles of the values of the samples that were read. -/
theorem domainRange_values {sid W : Nat} {q : Quantity (Option F)} (hq : Built sid .qty q) (hid : IdsIdentify q) {d : List (Sample (Option F))} (hwf : (batchOf W 0 d).WF) {t : F} {r : F × F}
    (h : domainRange q t (fun o => if o = sid then .ok (batchOf W 0 d).toArr else .error .other) = .ok r) :
    percentile (fineValues (levelValues q sid W d)) t = .ok r.1 ∧ percentile (fineValues (levelValues q sid W d)) (1 - t) = .ok r.2 := by
  have hv := C38_samplewise sid W q hq hid
  unfold domainRange at h
  unfold Quantity.values Quantity.on at hv
  cases hs : q.samples (fun o => if o = sid then .ok (batchOf W 0 d).toArr else .error .other) with
  | error e => rw [hs] at h; cases h
  | ok v =>
    rw [hs] at h
    cases v with
    | mask m => cases h
    | arr a =>
      have ha : a.samples = levelValues q sid W d := by
        rcases hv with hv | hv
        · obtain ⟨e, he⟩ := hv (batchOf W 0 d) hwf rfl
          rw [hs] at he
          cases he
        · have he := hv (batchOf W 0 d) hwf rfl
          rw [hs] at he
          injection he
      change (domainValues a).bind (fun xs => (percentile xs t).bind fun l => (percentile xs (1 - t)).bind fun u => Except.ok (l, u)) = _ at h
      cases hx : domainValues a with
      | error e => rw [hx] at h; cases h
      | ok xs =>
        rw [hx] at h
        have hxs := domainValues_eq a xs hx
        rw [ha] at hxs
        subst hxs
        simp only [Except.bind] at h
        cases hl : percentile (fineValues (levelValues q sid W d)) t with
        | error e => rw [hl] at h; cases h
        | ok l =>
          rw [hl] at h
          cases hu : percentile (fineValues (levelValues q sid W d)) (1 - t) with
          | error e => rw [hu] at h; cases h
          | ok u =>
            rw [hu] at h
            injection h with h
            subst h
            exact ⟨rfl, rfl⟩

theorem domainRange_values_ne {sid W : Nat} {q : Quantity (Option F)} {d : List (Sample (Option F))} {t : F} {r : F × F}
    (h : domainRange q t (fun o => if o = sid then .ok (batchOf W 0 d).toArr else .error .other) = .ok r) : ¬ ∃ e, q.values sid (batchOf W 0 d) = .error e := by
  rintro ⟨e, he⟩
  unfold Quantity.values Quantity.on at he
  unfold domainRange at h
  cases hs : q.samples (fun o => if o = sid then .ok (batchOf W 0 d).toArr else .error .other) with
  | error e => rw [hs] at h; cases h
  | ok v =>
    rw [hs] at h he
    cases v with
    | mask m => cases h
    | arr a => cases he

theorem foldl_min_mem (l : List F) (a : F) : l.foldl min a = a ∨ l.foldl min a ∈ l := by
  induction l generalizing a with
  | nil => exact .inl rfl
  | cons b l ih =>
    rcases ih (min a b) with h | h
    · rw [List.foldl_cons, h]
      rcases min_choice a b with h' | h' <;> rw [h']
      · exact .inl rfl
      · exact .inr List.mem_cons_self
    · exact .inr (List.mem_cons_of_mem _ h)

theorem foldl_max_mem (l : List F) (a : F) : l.foldl max a = a ∨ l.foldl max a ∈ l := by
  induction l generalizing a with
  | nil => exact .inl rfl
  | cons b l ih =>
    rcases ih (max a b) with h | h
    · rw [List.foldl_cons, h]
      rcases max_choice a b with h' | h' <;> rw [h']
      · exact .inl rfl
      · exact .inr List.mem_cons_self
    · exact .inr (List.mem_cons_of_mem _ h)

theorem mapM_mem {α β : Type} {f : α → Except PyErr β} : ∀ {l : List α} {rs : List β}, l.mapM f = .ok rs → ∀ r ∈ rs, ∃ a ∈ l, f a = .ok r
  | [], rs, h, r, hr => by
    rw [List.mapM_nil] at h
    injection h with h
    subst h
    cases hr
  | a :: l, rs, h, r, hr => by
    rw [List.mapM_cons] at h
    cases ha : f a with
    | error e => rw [ha] at h; cases h
    | ok b =>
      rw [ha] at h
      cases hl : l.mapM f with
      | error e => rw [hl] at h; cases h
      | ok bs =>
        rw [hl] at h
        injection h with h
        subst h
        rcases List.mem_cons.1 hr with rfl | hr
        · exact ⟨a, List.mem_cons_self, ha⟩
        · obtain ⟨x, hx, e⟩ := mapM_mem hl r hr
          exact ⟨x, List.mem_cons_of_mem _ hx, e⟩

/-- Each bound comes from one of the passes. -/
theorem estimateDomain_pass {q : Quantity (Option F)} {t : Option F} {ns : List Nat} {env : Nat → Nat → Except PyErr (Arr (Option F))} {lo hi : F} (h : estimateDomain q t ns env = .ok (lo, hi)) :
    (∃ n ∈ ns, ∃ r, domainRange q (t.getD (1 / 100)) (env n) = .ok r ∧ lo = r.1) ∧ ∃ n ∈ ns, ∃ r, domainRange q (t.getD (1 / 100)) (env n) = .ok r ∧ hi = r.2 := by
  unfold estimateDomain at h
  cases hm : ns.mapM fun n => domainRange q (t.getD (1 / 100)) (env n) with
  | error e => rw [hm] at h; cases h
  | ok rs =>
    rw [hm] at h
    cases rs with
    | nil => cases h
    | cons r rs =>
      have h' : ((rs.map (·.1)).foldl min r.1, (rs.map (·.2)).foldl max r.2) = (lo, hi) := by injection h
      obtain ⟨h1, h2⟩ := Prod.mk.inj h'
      constructor
      · have : ∃ x ∈ r :: rs, lo = x.1 := by
          rcases foldl_min_mem (rs.map (·.1)) r.1 with e | e
          · exact ⟨r, List.mem_cons_self, by rw [← h1, e]⟩
          · obtain ⟨x, hx, e⟩ := List.mem_map.1 e
            exact ⟨x, List.mem_cons_of_mem _ hx, by rw [← h1, e]⟩
        obtain ⟨x, hx, e⟩ := this
        obtain ⟨n, hn, hr⟩ := mapM_mem hm x hx
        exact ⟨n, hn, x, hr, e⟩
      · have : ∃ x ∈ r :: rs, hi = x.2 := by
          rcases foldl_max_mem (rs.map (·.2)) r.2 with e | e
          · exact ⟨r, List.mem_cons_self, by rw [← h2, e]⟩
          · obtain ⟨x, hx, e⟩ := List.mem_map.1 e
            exact ⟨x, List.mem_cons_of_mem _ hx, by rw [← h2, e]⟩
        obtain ⟨x, hx, e⟩ := this
        obtain ⟨n, hn, hr⟩ := mapM_mem hm x hx
        exact ⟨n, hn, x, hr, e⟩

omit [Field F] [LinearOrder F] [IsStrictOrderedRing F] [FloorSemiring F] in
theorem fineValues_sublist {a b : List (Sample (Option F))} (h : a.Sublist b) : (fineValues a).Sublist (fineValues b) :=
  (h.flatMap _).filterMap _

omit [Field F] [LinearOrder F] [IsStrictOrderedRing F] [FloorSemiring F] in
theorem take_wf {W : Nat} {d : List (Sample (Option F))} (h : (batchOf W 0 d).WF) (n : Nat) : (batchOf W 0 (d.take n)).WF :=
  fun s hs => h s (List.mem_of_mem_take hs)

/-- The values of a scalar quantity on level 0 and of its moments. -/
theorem scalar_values [CharZero F] {sid W nLevels : Nat} {q r : Quantity (Option F)} (hq : Built sid .qty q) (hid : IdsIdentify q) (h1 : q.size = 1) {fn : MomentFn (Option F)} (hR : 0 < fn.size)
    {bottom : Bool} {o : Nat} (hr : q.moments o fn bottom = .ok r) {chunks : List (Nat × List (Sample (Option F)))} (hwf : ChunksWF W chunks) {e : QuantityMean F}
    (he : estimateMean r nLevels (asChunks sid W chunks) = .ok e) :
    Built sid .qty r ∧ IdsIdentify r ∧ ∃ vs : List (Option F), levelValues q sid W (levelData chunks 0) = vs.map (fun v => [[v]]) ∧
      levelValues r sid W (levelData chunks 0) = vs.map fun v => [momVec fn bottom [v]] := by
  obtain ⟨M, g, hres⟩ := mom_res hq hid hr hwf he
  obtain ⟨hbr, hidr, _, rfl, hgr, hkr⟩ := mom_good hq hid hres hR hr hwf he
  have hD := levelData_wf hwf 0
  have one : ∀ s ∈ (levelData chunks 0).filter (keep sid W q), s.map g = [[(g (s.headD [])).headD none]] ∧
      s.map (fun v => momVec fn bottom (g v)) = [momVec fn bottom [(g (s.headD [])).headD none]] := by
    intro s hs
    obtain ⟨hs0, hk⟩ := List.mem_filter.1 hs
    obtain ⟨hl, hw⟩ := level_sample hD hs0
    rw [if_pos rfl] at hl
    obtain ⟨u, rfl⟩ := List.length_eq_one_iff.1 hl
    have := good_length hres hw hk 0 (by simp)
    rw [h1] at this
    obtain ⟨v, hv⟩ := List.length_eq_one_iff.1 this
    change g u = [v] at hv
    simp [hv]
  refine ⟨hbr, hidr, ((levelData chunks 0).filter (keep sid W q)).map fun s => (g (s.headD [])).headD none, ?_, ?_⟩
  · rw [levelValues_good hres hD, List.map_map]
    exact List.map_congr_left fun s hs => (one s hs).1
  · rw [levelValues_good hgr hD, List.map_map, show (levelData chunks 0).filter (keep sid W r) = (levelData chunks 0).filter (keep sid W q) from List.filter_congr fun x _ => hkr x]
    exact List.map_congr_left fun s hs => (one s hs).2

/-! ## C159 -/

/-- C159: with the quantile 0 the estimated domain is the range of the fine samples of level 0: its bounds are values of samples and all values lie between them. -/
theorem C159_whole_range (sid W : Nat) (q : Quantity (Option F)) (hq : Built sid .qty q) (hid : IdsIdentify q) (level0 : List (Sample (Option F))) (hwf : (batchOf W 0 level0).WF)
    (levels : List (List (Sample (Option F)))) (lo hi : F)
    (h : estimateDomain q (some 0) ((level0 :: levels).map (·.length)) (storeFirstChunk sid W (level0 :: levels)) = .ok (lo, hi)) :
    lo ∈ fineValues (levelValues q sid W level0) ∧ hi ∈ fineValues (levelValues q sid W level0) ∧ ∀ x ∈ fineValues (levelValues q sid W level0), lo ≤ x ∧ x ≤ hi := by
  obtain ⟨⟨n, hn, r, hr, rfl⟩, n', hn', r', hr', rfl⟩ := estimateDomain_pass h
  have a := (domainRange_values hq hid (take_wf hwf n) hr).1
  have b := (domainRange_values hq hid (take_wf hwf n') hr').2
  have sub : ∀ n, (fineValues (levelValues q sid W (level0.take n))).Sublist (fineValues (levelValues q sid W level0)) := fun n =>
    fineValues_sublist ((List.take_sublist _ _).filterMap _)
  refine ⟨(sub n).mem (percentile_zero a), (sub n').mem (percentile_one b), ?_⟩
  have hv : q.values sid (batchOf W 0 level0) = .ok (levelValues q sid W level0) := by
    rcases C38_samplewise sid W q hq hid with hv | hv
    · exact absurd (hv _ (take_wf hwf n) rfl) (domainRange_values_ne hr)
    · exact hv _ hwf rfl
  obtain ⟨c1, c2⟩ := C54_level_zero_partial q sid W (some 0) level0 levels _ hv _ _ h
  simp only [Option.getD_some, zero_mul, Nat.ceil_zero, Nat.le_zero, List.length_eq_zero_iff, List.filter_eq_nil_iff, decide_eq_true_eq, not_lt] at c1 c2
  exact fun x hx => ⟨c1 x hx, c2 x hx⟩

/-- C159 fails without a quantile, for which the documentation promises the whole range: whenever the values are different and each pass reads two of them, some fine samples of level 0 are below
the domain and some above it (the same holds for any positive quantile). -/
theorem C159_default_counterexample (sid W : Nat) (q : Quantity (Option F)) (hq : Built sid .qty q) (hid : IdsIdentify q) (level0 : List (Sample (Option F))) (hwf : (batchOf W 0 level0).WF)
    (levels : List (List (Sample (Option F)))) (t : Option F) (ht : ∀ x, t = some x → 0 < x) (hd : (fineValues (levelValues q sid W level0)).Nodup)
    (h2 : ∀ l ∈ level0 :: levels, 2 ≤ (fineValues (levelValues q sid W (level0.take l.length))).length) (lo hi : F)
    (h : estimateDomain q t ((level0 :: levels).map (·.length)) (storeFirstChunk sid W (level0 :: levels)) = .ok (lo, hi)) :
    (∃ x ∈ fineValues (levelValues q sid W level0), x < lo) ∧ ∃ x ∈ fineValues (levelValues q sid W level0), hi < x := by
  obtain ⟨⟨n, hn, r, hr, rfl⟩, n', hn', r', hr', rfl⟩ := estimateDomain_pass h
  have ht' : 0 < t.getD (1 / 100) := by
    cases t with
    | none => simp
    | some x => exact ht x rfl
  have a := (domainRange_values hq hid (take_wf hwf n) hr).1
  have b := (domainRange_values hq hid (take_wf hwf n') hr').2
  have sub : ∀ n, (fineValues (levelValues q sid W (level0.take n))).Sublist (fineValues (levelValues q sid W level0)) := fun n =>
    fineValues_sublist ((List.take_sublist _ _).filterMap _)
  obtain ⟨l, hl, rfl⟩ := List.mem_map.1 hn
  obtain ⟨l', hl', rfl⟩ := List.mem_map.1 hn'
  obtain ⟨x, hx, hx'⟩ := percentile_pos a ht' (hd.sublist (sub _)) (h2 l hl)
  obtain ⟨y, hy, hy'⟩ := percentile_lt_one b (by linarith) (hd.sublist (sub _)) (h2 l' hl')
  exact ⟨⟨x, (sub _).mem hx, hx'⟩, y, (sub _).mem hy, hy'⟩

/-- The moment functions are NaN for NaN and outside the domain, and nowhere else: `safe_eval`. -/
def NanOutside (fn : MomentFn (Option F)) (lo hi : F) : Prop := ∀ v, (∃ i < fn.size, fn.ev i v = none) ↔ ∀ x, v = some x → x < lo ∨ hi < x

/-- C159: what the moments of a scalar quantity on its estimated domain cost on level 0.  Besides samples with NaN, at most `2 ⌈t (n - 1)⌉` of the `n` samples are dropped, about two percent without
a quantile; but at least two of them, if the values are different and each pass reads two. -/
theorem C159_dropped_samples [CharZero F] (sid W nLevels : Nat) (hn : 0 < nLevels) (q r : Quantity (Option F)) (hq : Built sid .qty q) (hid : IdsIdentify q) (h1 : q.size = 1)
    (chunks : List (Nat × List (Sample (Option F)))) (hwf : ChunksWF W chunks) (hl : ∀ c ∈ chunks, c.1 < nLevels)
    (levels : List (List (Sample (Option F)))) (t : Option F) (lo hi : F) (hlt : lo < hi)
    (hdom : estimateDomain q t ((levelData chunks 0 :: levels).map (·.length)) (storeFirstChunk sid W (levelData chunks 0 :: levels)) = .ok (lo, hi))
    (fn : MomentFn (Option F)) (hR : 0 < fn.size) (hf : NanOutside fn lo hi) (bottom : Bool) (o : Nat) (hr : q.moments o fn bottom = .ok r) (e : QuantityMean F)
    (he : estimateMean r nLevels (asChunks sid W chunks) = .ok e) :
    e.nRm.getD 0 0 ≤ ((levelValues q sid W (levelData chunks 0)).filter hasNan).length +
      2 * ⌈t.getD (1 / 100) * (((fineValues (levelValues q sid W (levelData chunks 0))).length - 1 : Nat) : F)⌉₊ ∧
    ((∀ x, t = some x → 0 < x) → (fineValues (levelValues q sid W (levelData chunks 0))).Nodup →
      (∀ l ∈ levelData chunks 0 :: levels, 2 ≤ (fineValues (levelValues q sid W ((levelData chunks 0).take l.length))).length) →
      ((levelValues q sid W (levelData chunks 0)).filter hasNan).length + 2 ≤ e.nRm.getD 0 0) := by
  obtain ⟨hbr, hidr, vs, hvq, hvr⟩ := scalar_values hq hid h1 hR hr hwf he
  have E := C46_textbook_estimators sid W nLevels r hbr hidr chunks hwf hl e he
  have hwf0 := levelData_wf hwf 0
  have hfine : fineValues (levelValues q sid W (levelData chunks 0)) = vs.filterMap id := by
    rw [hvq]
    unfold fineValues
    rw [List.flatMap_map]
    congr 1
    clear hvq hvr
    induction vs with
    | nil => rfl
    | cons v vs ih => rw [List.flatMap_cons, ih]; rfl
  have hnq : ((levelValues q sid W (levelData chunks 0)).filter hasNan).length = vs.countP (· = none) := by
    rw [hvq, List.filter_map, List.length_map, ← List.countP_eq_length_filter]
    refine List.countP_congr fun v _ => ?_
    cases v <;> simp [hasNan]
  have hnr : e.nRm.getD 0 0 = vs.countP fun v => decide (∀ x, v = some x → x < lo ∨ hi < x) := by
    rw [E.dropped, getD_lt _ _ _ (by simpa using hn)]
    simp only [List.getElem_map, List.getElem_range]
    rw [hvr, List.filter_map, List.length_map, ← List.countP_eq_length_filter]
    refine List.countP_congr fun v _ => ?_
    rw [decide_eq_true_iff, ← hf v]
    change hasNan ([[v]].map (momVec fn bottom)) = true ↔ _
    rw [hasNan_iff]
    simp only [List.mem_singleton, exists_eq_left, mem_momVec]
    exact ⟨fun ⟨i, hi, h⟩ => ⟨i, hi, h.symm⟩, fun ⟨i, hi, h⟩ => ⟨i, hi, h.symm⟩⟩
  have split : vs.countP (fun v => decide (∀ x, v = some x → x < lo ∨ hi < x)) =
      vs.countP (· = none) + (((vs.filterMap id).filter fun x => x < lo).length + ((vs.filterMap id).filter fun x => hi < x).length) := by
    clear hvq hvr hfine hnq hnr
    induction vs with
    | nil => rfl
    | cons v vs ih =>
      rw [List.countP_cons, List.countP_cons, ih]
      cases v with
      | none => simp; omega
      | some x =>
        by_cases hx : x < lo
        · have hx' : ¬ hi < x := not_lt.2 (hx.le.trans hlt.le)
          simp [hx, hx']
          omega
        · by_cases hx' : hi < x
          · simp [hx, hx']
            omega
          · simp [hx, hx']
  have hv : q.values sid (batchOf W 0 (levelData chunks 0)) = .ok (levelValues q sid W (levelData chunks 0)) := by
    obtain ⟨⟨n, _, d, hd, _⟩, _⟩ := estimateDomain_pass hdom
    rcases C38_samplewise sid W q hq hid with hv | hv
    · exact absurd (hv _ (take_wf hwf0 n) rfl) (domainRange_values_ne hd)
    · exact hv _ hwf0 rfl
  obtain ⟨c1, c2⟩ := C54_level_zero_partial q sid W t (levelData chunks 0) levels _ hv lo hi hdom
  rw [hnr, hnq, split]
  constructor
  · rw [hfine] at c1 c2 ⊢
    omega
  · intro ht hd h2
    obtain ⟨⟨x, hx, hx'⟩, y, hy, hy'⟩ := C159_default_counterexample sid W q hq hid _ hwf0 levels t ht hd h2 lo hi hdom
    rw [hfine] at hx hy
    have p1 : 0 < ((vs.filterMap id).filter fun x => x < lo).length := List.length_pos_of_mem (List.mem_filter.2 ⟨hx, decide_eq_true hx'⟩)
    have p2 : 0 < ((vs.filterMap id).filter fun x => hi < x).length := List.length_pos_of_mem (List.mem_filter.2 ⟨hy, decide_eq_true hy'⟩)
    omega

open Mom in
/-- C159: the moment functions of the library on a domain `(lo, hi)` are of this kind, for all families (Fourier functions from two on, because their first one is 1 everywhere). -/
theorem C159_library (f : Family) (size : Nat) (lo hi : ℝ) (m : Moments) (h : construct f size (lo, hi) .none false true = .ok m) (hw : 1 / 10 ^ 15 ≤ hi - lo) (hs : f = .fourier → 2 ≤ size) :
    NanOutside (Dens.fn (.base m)) lo hi := by
  have hp : construct f size (lo, hi) (.pair (defaultRef f).1 (defaultRef f).2) false true = .ok m := by
    rw [← h]
    rfl
  have hr : (defaultRef f).1 < (defaultRef f).2 := by
    cases f
    · exact one_pos
    · exact Real.two_pi_pos
    · show (-1 : ℝ) < 1
      norm_num
  have hne := C55_safe_eval hp hr (by simpa [linBound] using hw)
  obtain ⟨hs0, _, _, hm⟩ := construct_ok hp
  have hsz : m.size = size := by rw [hm]
  have hfm : m.family = f := by rw [hm]
  have hpos : 0 < m.size := by omega
  have hin : ∀ (r : List (Option ℝ)), r = (List.range m.size).map (fun i => if m.family = .fourier ∧ i = 0 then some 1 else none) → none ∈ r := by
    rintro r rfl
    by_cases hf : f = .fourier
    · exact List.mem_map.2 ⟨1, List.mem_range.2 (by have := hs hf; omega), by simp⟩
    · exact List.mem_map.2 ⟨0, List.mem_range.2 hpos, by simp [hfm, hf]⟩
  intro v
  rw [Dens.exists_none_iff m hpos]
  cases v with
  | none => exact ⟨fun _ x hx => absurd hx (by simp), fun _ => hin _ rfl⟩
  | some x =>
    have e : (∀ y, some x = some y → y < lo ∨ hi < y) ↔ m.transform x = none := by rw [hne]; exact ⟨fun h => h x rfl, fun h y hy => by cases hy; exact h⟩
    rw [e]
    cases ht : m.transform x with
    | none =>
      have hr : m.evalAll x m.size = .ok ((List.range m.size).map fun i => if m.family = .fourier ∧ i = 0 then some 1 else none) := by
        unfold Moments.evalAll
        rw [if_neg hpos.ne', ht]
      simp only [Dens.row, Obj.evalAll, Obj.size, hr]
      exact ⟨fun _ => trivial, fun _ => hin _ rfl⟩
    | some u =>
      have hr : m.evalAll x m.size = .ok ((List.range m.size).map fun i => some (col m.family u i)) := by
        unfold Moments.evalAll
        rw [if_neg hpos.ne', ht]
      simp only [Dens.row, Obj.evalAll, Obj.size, hr]
      simp

namespace ExDomainMoments
open ExDom

/-- Three samples on level 0 as in `ExDom`, functions 1 and x on the estimated domain. -/
def lo : ℚ := 51 / 50
def hi : ℚ := 149 / 50
def fn : MomentFn (Option ℚ) := ⟨2, fun i v => v.bind fun x => if x < lo ∨ hi < x then none else some (x ^ i)⟩
def level0 : List (Sample (Option ℚ)) := [[[some 1]], [[some 2]], [[some 3]]]

example : Built 7 .qty q := .root _
example : NanOutside fn lo hi := by
  intro v
  cases v with
  | none => exact ⟨fun _ x h => absurd h (by simp), fun _ => ⟨0, by decide, rfl⟩⟩
  | some x =>
    by_cases h : x < lo ∨ hi < x
    · exact ⟨fun _ y hy => by cases hy; exact h, fun _ => ⟨0, by decide, by simp [fn, h]⟩⟩
    · refine ⟨fun ⟨i, _, hi'⟩ => by simp [fn, h] at hi', fun h' => absurd (h' x rfl) h⟩

/-- The whole range with the quantile 0. -/
example : estimateDomain q (some 0) [3] (storeFirstChunk 7 1 [level0]) = .ok (1, 3) := by decide +kernel
example : (fineValues (levelValues q 7 1 level0)).Nodup ∧ ∀ l ∈ [level0], 2 ≤ (fineValues (levelValues q 7 1 (level0.take l.length))).length := by decide +kernel

end ExDomainMoments

open ExDomainMoments ExDom in
/-- C159 fails on three samples 1, 2, 3: without a quantile the domain is (1.02, 2.98), so that the moments are estimated from the sample 2 alone. -/
theorem C159_counterexample : estimateDomain q none [3] (storeFirstChunk 7 1 [level0]) = .ok (lo, hi) ∧
    ((q.moments 9 fn true).bind fun r => (estimateMean r 1 (asChunks 7 1 [(0, level0)])).map fun e => (e.nRm, e.nSamples, e.mean)) = .ok ([2], [1], [some 1, some 2]) := by
  constructor <;> decide +kernel

end MLMC
