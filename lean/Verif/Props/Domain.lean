import Verif.Spec.Domain
import Verif.Proofs.Quantity
import Mathlib.Tactic.Linarith
import Mathlib.Algebra.Order.Floor.Ring
import Mathlib.Data.Rat.Floor
/-
C54: the estimated domain.
-/
namespace MLMC
variable {F : Type} [Field F] [LinearOrder F] [IsStrictOrderedRing F] [FloorSemiring F]

theorem sorted_le_getD (s : List F) (hs : s.Pairwise (· ≤ ·)) (i j : Nat) (hij : i ≤ j) (hj : j < s.length) : s.getD i 0 ≤ s.getD j 0 := by
  rw [List.getD_eq_getElem?_getD, List.getD_eq_getElem?_getD, List.getElem?_eq_getElem hj, List.getElem?_eq_getElem (by omega)]
  rcases Nat.lt_or_eq_of_le hij with h | rfl
  · exact List.pairwise_iff_getElem.1 hs i j _ _ h
  · exact le_rfl

theorem sorted_count_lt (s : List F) (hs : s.Pairwise (· ≤ ·)) (p : F) (c : Nat) (hp : ∀ j, c ≤ j → j < s.length → p ≤ s.getD j 0) :
    (s.filter fun x => x < p).length ≤ c := by
  rw [← List.take_append_drop c s, List.filter_append, List.length_append]
  have h1 : ((s.take c).filter fun x => decide (x < p)).length ≤ c := (List.length_filter_le _ _).trans (by rw [List.length_take]; omega)
  have h2 : (s.drop c).filter (fun x => decide (x < p)) = [] := by
    rw [List.filter_eq_nil_iff]
    intro x hx
    obtain ⟨j, hj, rfl⟩ := List.mem_iff_getElem.1 hx
    rw [List.getElem_drop]
    rw [List.length_drop] at hj
    have := hp (c + j) (by omega) (by omega)
    rw [List.getD_eq_getElem?_getD, List.getElem?_eq_getElem (by omega)] at this
    simpa using this
  rw [h2]; simpa using h1

theorem sorted_count_gt (s : List F) (p : F) (c : Nat) (hp : ∀ j, j ≤ c → j < s.length → s.getD j 0 ≤ p) :
    (s.filter fun x => p < x).length ≤ s.length - (c + 1) := by
  conv_lhs => rw [← List.take_append_drop (c + 1) s, List.filter_append, List.length_append]
  have h1 : ((s.drop (c + 1)).filter fun x => decide (p < x)).length ≤ s.length - (c + 1) :=
    (List.length_filter_le _ _).trans (by rw [List.length_drop])
  have h2 : (s.take (c + 1)).filter (fun x => decide (p < x)) = [] := by
    rw [List.filter_eq_nil_iff]
    intro x hx
    obtain ⟨j, hj, rfl⟩ := List.mem_iff_getElem.1 hx
    rw [List.getElem_take]
    rw [List.length_take] at hj
    have := hp j (by omega) (by omega)
    rw [List.getD_eq_getElem?_getD, List.getElem?_eq_getElem (by omega)] at this
    simpa using this
  rw [h2]; simpa using h1

/-- What a percentile means: at most `⌈t (n-1)⌉` values are below it and at most `n - 1 - ⌊t (n-1)⌋` above. -/
theorem percentile_spec (xs : List F) (t p : F) (h : percentile xs t = .ok p) :
    0 ≤ t ∧ t ≤ 1 ∧ (xs.filter fun x => x < p).length ≤ ⌈t * ((xs.length - 1 : Nat) : F)⌉₊ ∧
    (xs.filter fun x => p < x).length ≤ xs.length - (⌊t * ((xs.length - 1 : Nat) : F)⌋₊ + 1) := by
  unfold percentile at h
  by_cases ht : t < 0 ∨ 1 < t
  · rw [if_pos ht] at h; cases h
  rw [if_neg ht] at h
  have ht0 : 0 ≤ t := le_of_not_gt fun hh => ht (.inl hh)
  have ht1 : t ≤ 1 := le_of_not_gt fun hh => ht (.inr hh)
  by_cases hx : xs = []
  · rw [if_pos hx] at h; cases h
  rw [if_neg hx] at h
  have hn : 0 < xs.length := List.length_pos_of_ne_nil hx
  injection h with h
  set s := xs.insertionSort (· ≤ ·) with hsdef
  have hperm : s.Perm xs := List.perm_insertionSort _ _
  have hs : s.Pairwise (· ≤ ·) := List.pairwise_insertionSort _ _
  have hlen : s.length = xs.length := hperm.length_eq
  set v : F := t * ((xs.length - 1 : Nat) : F) with hv
  have hv0 : 0 ≤ v := mul_nonneg ht0 (Nat.cast_nonneg _)
  have hv1 : v ≤ ((xs.length - 1 : Nat) : F) := by
    rw [hv]; exact mul_le_of_le_one_left (Nat.cast_nonneg _) ht1
  have hfl : (⌊v⌋₊ : F) ≤ v := Nat.floor_le hv0
  have hlt : v < (⌊v⌋₊ : F) + 1 := Nat.lt_floor_add_one v
  have hi : ⌊v⌋₊ ≤ xs.length - 1 := by
    have : (⌊v⌋₊ : F) ≤ ((xs.length - 1 : Nat) : F) := hfl.trans hv1
    exact_mod_cast this
  have hstep : s.getD ⌊v⌋₊ 0 ≤ s.getD (min (⌊v⌋₊ + 1) (xs.length - 1)) 0 := sorted_le_getD s hs _ _ (by omega) (by omega)
  refine ⟨ht0, ht1, ?_, ?_⟩
  · rw [← (hperm.filter _).length_eq]
    apply sorted_count_lt s hs
    intro j hj hjl
    rw [← h]
    rcases eq_or_lt_of_le hfl with he | hg
    · rw [sub_eq_zero.2 he.symm, mul_zero, add_zero]
      exact sorted_le_getD s hs _ _ (le_trans (Nat.floor_le_ceil _) hj) hjl
    · have hc : ⌊v⌋₊ + 1 ≤ ⌈v⌉₊ := by
        have : (⌊v⌋₊ : F) < ⌈v⌉₊ := lt_of_lt_of_le hg (Nat.le_ceil v)
        have : ⌊v⌋₊ < ⌈v⌉₊ := by exact_mod_cast this
        omega
      have h1 : s.getD (min (⌊v⌋₊ + 1) (xs.length - 1)) 0 ≤ s.getD j 0 := sorted_le_getD s hs _ _ (by omega) hjl
      nlinarith
  · rw [← (hperm.filter _).length_eq, ← hlen]
    apply sorted_count_gt s
    intro j hj hjl
    rw [← h]
    have h1 : s.getD j 0 ≤ s.getD ⌊v⌋₊ 0 := sorted_le_getD s hs _ _ hj (by omega)
    nlinarith

theorem range_covers (xs : List F) (t lo hi : F) (h1 : percentile xs t = .ok lo) (h2 : percentile xs (1 - t) = .ok hi) : Covers t lo hi xs := by
  obtain ⟨ht0, ht1, a, _⟩ := percentile_spec xs t lo h1
  obtain ⟨_, _, _, b⟩ := percentile_spec xs (1 - t) hi h2
  refine ⟨a, b.trans ?_⟩
  set m : Nat := xs.length - 1 with hm
  have e : (1 - t) * (m : F) = m - t * m := by ring
  have hle : (m : F) < ⌊(1 - t) * (m : F)⌋₊ + 1 + ⌈t * (m : F)⌉₊ := by
    have h1 := Nat.lt_floor_add_one ((1 - t) * (m : F))
    have h2 := Nat.le_ceil (t * (m : F))
    rw [e] at h1 ⊢
    linarith
  have : m < ⌊(1 - t) * (m : F)⌋₊ + 1 + ⌈t * (m : F)⌉₊ := by exact_mod_cast hle
  omega

theorem covers_mono {t lo hi lo' hi' : F} {xs : List F} (h : Covers t lo hi xs) (h1 : lo' ≤ lo) (h2 : hi ≤ hi') : Covers t lo' hi' xs := by
  refine ⟨le_trans ?_ h.1, le_trans ?_ h.2⟩
  · refine (List.monotone_filter_right xs fun x hx => ?_).length_le
    simp only [decide_eq_true_eq] at hx ⊢
    exact lt_of_lt_of_le hx h1
  · refine (List.monotone_filter_right xs fun x hx => ?_).length_le
    simp only [decide_eq_true_eq] at hx ⊢
    exact lt_of_le_of_lt h2 hx

theorem foldl_min_le (l : List F) (a : F) : l.foldl min a ≤ a := by
  induction l generalizing a with
  | nil => exact le_rfl
  | cons b l ih => exact (ih _).trans (min_le_left _ _)

theorem le_foldl_max (l : List F) (a : F) : a ≤ l.foldl max a := by
  induction l generalizing a with
  | nil => exact le_rfl
  | cons b l ih => exact (le_max_left _ _).trans (ih _)

omit [IsStrictOrderedRing F] [FloorSemiring F] [LinearOrder F] [Field F] in
theorem domainValues_eq (a : Arr (Option F)) (xs : List F) (h : domainValues a = .ok xs) : xs = fineValues a.samples := by
  unfold domainValues at h
  by_cases hp : a.p = 0
  · rw [if_pos hp] at h; cases h
  rw [if_neg hp] at h
  injection h with h
  rw [← h]
  unfold fineValues Arr.samples
  rw [List.flatMap_map]
  congr 2
  funext j
  obtain ⟨p, hp'⟩ := Nat.exists_eq_succ_of_ne_zero hp
  rw [hp', List.range_succ_eq_map]
  rfl

/-- C54 (partial): the domain covers the requested quantile range of the fine samples of level 0, for any number of levels.  Missing: the other
levels, see `C54_counterexample`. -/
theorem C54_level_zero_partial (q : Quantity (Option F)) (sid W : Nat) (t : Option F) (level0 : List (Sample (Option F)))
    (levels : List (List (Sample (Option F)))) (vals : List (Sample (Option F))) (hvals : q.values sid (batchOf W 0 level0) = .ok vals) (lo hi : F)
    (h : estimateDomain q t ((level0 :: levels).map (·.length)) (storeFirstChunk sid W (level0 :: levels)) = .ok (lo, hi)) :
    Covers (t.getD (1 / 100)) lo hi (fineValues vals) := by
  unfold estimateDomain at h
  rw [List.map_cons, List.mapM_cons] at h
  cases hr : domainRange q (t.getD (1 / 100)) (storeFirstChunk sid W (level0 :: levels) level0.length) with
  | error e => rw [hr] at h; cases h
  | ok r =>
    rw [hr] at h
    cases hrs : (levels.map (·.length)).mapM fun n => domainRange q (t.getD (1 / 100)) (storeFirstChunk sid W (level0 :: levels) n) with
    | error e => rw [hrs] at h; cases h
    | ok rs =>
      rw [hrs] at h
      have h' : ((rs.map (·.1)).foldl min r.1, (rs.map (·.2)).foldl max r.2) = (lo, hi) := by
        injection h
      obtain ⟨h1, h2⟩ := Prod.mk.inj h'
      subst h1 h2
      refine covers_mono (lo := r.1) (hi := r.2) ?_ (foldl_min_le _ _) (le_foldl_max _ _)
      have henv : storeFirstChunk sid W (level0 :: levels) level0.length =
          fun o => if o = sid then .ok (batchOf W 0 level0).toArr else .error .other := by
        funext o
        unfold storeFirstChunk
        simp
      rw [henv] at hr
      unfold Quantity.values Quantity.on at hvals
      unfold domainRange at hr
      cases hq : q.samples (fun o => if o = sid then .ok (batchOf W 0 level0).toArr else .error .other) with
      | error e => rw [hq] at hr; cases hr
      | ok v =>
        rw [hq] at hr hvals
        cases v with
        | mask m => cases hr
        | arr a =>
          have hv : vals = a.samples := by injection hvals with hvals; exact hvals.symm
          change (domainValues a).bind (fun xs => (percentile xs (t.getD (1 / 100))).bind fun l =>
            (percentile xs (1 - t.getD (1 / 100))).bind fun u => Except.ok (l, u)) = _ at hr
          cases hx : domainValues a with
          | error e => rw [hx] at hr; cases hr
          | ok xs =>
            rw [hx] at hr
            change (percentile xs (t.getD (1 / 100))).bind _ = _ at hr
            cases hl : percentile xs (t.getD (1 / 100)) with
            | error e => rw [hl] at hr; cases hr
            | ok l =>
              rw [hl] at hr
              change (percentile xs (1 - t.getD (1 / 100))).bind _ = _ at hr
              cases hu : percentile xs (1 - t.getD (1 / 100)) with
              | error e => rw [hu] at hr; cases hr
              | ok u =>
                rw [hu] at hr
                injection hr with hr
                subst hr
                rw [hv, ← domainValues_eq a xs hx]
                exact range_covers xs _ _ _ hl hu

namespace ExDom
def q : Quantity (Option ℚ) := .storage 7 .scalar
/-- Three samples on level 0, three pairs on level 1 with larger fine values. -/
def data : List (List (Sample (Option ℚ))) :=
  [[[[some 1]], [[some 2]], [[some 3]]], [[[some 10], [some 1]], [[some 11], [some 2]], [[some 12], [some 3]]]]
end ExDom

/-- C54 fails for the other levels: only samples of level 0 are read, whatever the level, so all fine samples of level 1 can lie outside. -/
theorem C54_counterexample :
    estimateDomain ExDom.q (some 0) (ExDom.data.map (·.length)) (storeFirstChunk 7 1 ExDom.data) = .ok (1, 3) ∧
    ExDom.q.values 7 (batchOf 1 1 (ExDom.data.getD 1 [])) = .ok (ExDom.data.getD 1 []) ∧
    ∀ x ∈ fineValues (ExDom.data.getD 1 []), (3 : ℚ) < x := by
  decide +kernel

example : ∃ vals, ExDom.q.values 7 (batchOf 1 0 (ExDom.data.getD 0 [])) = .ok vals ∧ fineValues vals = [1, 2, 3] := by
  exact ⟨_, rfl, by decide +kernel⟩

end MLMC
