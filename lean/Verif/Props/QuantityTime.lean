import Verif.Proofs.Access
import Verif.Props.QuantityParts
import Mathlib.Data.List.Sort
import Mathlib.Algebra.Order.Field.Rat
import Mathlib.Data.Rat.Cast.CharZero
import Mathlib.Tactic.Ring
import Mathlib.Tactic.FieldSimp
import Mathlib.Tactic.Linarith
/-
C44: time interpolation is exact at the nodes and linear between them.
-/
namespace MLMC

/-- The number of entries below `v` of a sorted list splits it. -/
theorem count_below {xs : List (ℚ × Nat)} (hs : xs.Pairwise fun a b => a.1 < b.1) (v : ℚ) (i : Nat) (hi : i < xs.length) :
    (i < (xs.filter fun x => x.1 < v).length ↔ xs[i].1 < v) := by
  induction xs generalizing i with
  | nil => simp at hi
  | cons x xs ih =>
    rw [List.pairwise_cons] at hs
    by_cases hx : x.1 < v
    · rw [List.filter_cons_of_pos (by simpa using hx)]
      cases i with
      | zero => simp [hx]
      | succ i =>
        simp only [List.length_cons, List.getElem_cons_succ, Nat.add_lt_add_iff_right]
        exact ih hs.2 i (by simpa using hi)
    · have : (x :: xs).filter (fun x => decide (x.1 < v)) = [] := by
        rw [List.filter_eq_nil_iff]
        intro y hy
        rcases List.mem_cons.1 hy with rfl | hy
        · simpa using hx
        · have := hs.1 y hy
          simp only [decide_eq_true_eq]
          intro h; exact hx (lt_trans this h)
      rw [this]
      simp only [List.length_nil, Nat.not_lt_zero, false_iff]
      intro h
      cases i with
      | zero => exact hx h
      | succ i => exact hx (lt_trans (hs.1 _ (List.getElem_mem _)) h)

theorem sortedTimes_perm (ts : List ℚ) : (Quantity.sortedTimes ts).Perm ts.zipIdx := List.perm_insertionSort _ _

theorem sortedTimes_strict (ts : List ℚ) (h : ts.Nodup) : (Quantity.sortedTimes ts).Pairwise fun a b => a.1 < b.1 := by
  have : Std.Total (fun a b : ℚ × Nat => a.1 ≤ b.1) := ⟨fun a b => le_total a.1 b.1⟩
  have : IsTrans (ℚ × Nat) (fun a b => a.1 ≤ b.1) := ⟨fun a b c h h' => le_trans h h'⟩
  have h1 := List.pairwise_insertionSort (fun a b : ℚ × Nat => a.1 ≤ b.1) ts.zipIdx
  have h2 : (Quantity.sortedTimes ts).Pairwise fun a b => a.1 ≠ b.1 := by
    rw [← List.pairwise_map (f := fun x : ℚ × Nat => x.1) (R := (· ≠ ·))]
    have hp := (sortedTimes_perm ts).map (·.1)
    rw [show ts.zipIdx.map (·.1) = ts from List.zipIdx_map_fst 0 ts] at hp
    exact hp.nodup_iff.2 h
  exact (h1.and h2).imp fun h => lt_of_le_of_ne h.1 h.2

theorem sortedTimes_length (ts : List ℚ) : (Quantity.sortedTimes ts).length = ts.length := by
  rw [(sortedTimes_perm ts).length_eq, List.length_zipIdx]

theorem sortedTimes_pos (ts : List ℚ) (i : Nat) (hi : i < ts.length) :
    ∃ c, ∃ hc : c < (Quantity.sortedTimes ts).length, (Quantity.sortedTimes ts)[c] = (ts[i], i) := by
  have : (ts[i], i) ∈ Quantity.sortedTimes ts := by
    rw [(sortedTimes_perm ts).mem_iff, List.mem_zipIdx_iff_getElem?]
    simp [hi]
  obtain ⟨c, hc, e⟩ := List.mem_iff_getElem.1 this
  exact ⟨c, hc, e⟩

/-- Entry of an array: component, sample, part. -/
def Arr.entry {K : Type} [Inhabited K] (a : Arr K) (c j k : Nat) : K := a.rows.getD c (fun _ _ => default) j k

section
variable {F : Type} [Field F] [CharZero F] [Inhabited F]

theorem linear_left (x0 x1 : ℚ) (y0 y1 : F) : linearBetween x0 x1 x0 y0 y1 = y0 := by
  simp [linearBetween]

theorem linear_right (x0 x1 : ℚ) (h : x0 ≠ x1) (y0 y1 : F) : linearBetween x0 x1 x1 y0 y1 = y1 := by
  have h1 : ((x1 - x0 : ℚ) : F) ≠ 0 := by
    rw [Ne, Rat.cast_eq_zero, sub_eq_zero]; exact fun e => h e.symm
  unfold linearBetween
  field_simp
  ring

theorem interp_ok (q : Quantity F) (o : Nat) (ts : List ℚ) (t : QType) (hq : q.qtype = .times ts t) (v : ℚ) :
    q.timeInterpolation linearBetween o v = .ok (.node o t false (unArr (Quantity.interpArr linearBetween ts t.size v)) [q]) := by
  unfold Quantity.timeInterpolation
  rw [hq]
  exact mk_one _ _ _ _

theorem times_key (ts : List ℚ) (t : QType) (hts : ts.Nodup) (i : Nat) (hi : i < ts.length) :
    (QType.times ts t).getKey (.key (.num ts[i])) = .ok (t, i * t.size) := by
  rw [QType.getKey, if_pos (List.getElem_mem hi), List.Nodup.idxOf_getElem hts]

theorem rows_block {α : Type} (l : List α) (d : α) (s m : Nat) (h : s + m ≤ l.length) :
    (l.drop s).take m = (List.range m).map fun r => l.getD (s + r) d := by
  apply List.ext_getElem
  · simp; omega
  · intro n h1 h2
    simp at h1 h2
    simp [List.getD_eq_getElem?_getD, show s + n < l.length by omega]

/-- C44, at the nodes: interpolating a time series at one of its times gives exactly the part at that time. -/
theorem C44_exact_at_times (sid : Nat) (q : Quantity F) (ts : List ℚ) (t : QType) (hq : q.qtype = .times ts t) (hts : ts.Nodup)
    (h2 : 2 ≤ ts.length) (v : ℚ) (hv : v ∈ ts) (o o' : Nat) :
    ∃ r p, q.timeInterpolation linearBetween o v = .ok r ∧ q.getitem o' (.key (.num v)) = .ok p ∧ r.qtype = p.qtype ∧
      ∀ (b : Batch F) (z : Arr F), q.on sid b = .ok (.arr z) → z.rows.length = q.size → r.on sid b = p.on sid b := by
  obtain ⟨i, hi, rfl⟩ := List.mem_iff_getElem.1 hv
  refine ⟨_, _, interp_ok q o ts t hq _, getitem_key o' (by rw [hq]; exact times_key ts t hts i hi), rfl, ?_⟩
  intro b z hz hlen
  rw [keyNode_on sid b o' t _ q z hz, on_one, hz]
  have hsz : z.rows.length = ts.length * t.size := by rw [hlen, Quantity.size, hq, QType.size]
  simp only [Except.bind, unArr, Quantity.interpArr]
  rw [if_neg (by rw [hsz]; omega), if_neg (by
    rintro (h | h)
    · exact absurd (h _ (List.getElem_mem hi)) (lt_irrefl _)
    · exact absurd (h _ (List.getElem_mem hi)) (lt_irrefl _))]
  simp only [Except.map]
  congr 3
  have hle : (i + 1) * t.size ≤ ts.length * t.size := Nat.mul_le_mul_right _ hi
  rw [rows_block z.rows (fun _ _ => default) (i * t.size) t.size (by rw [hsz]; rw [Nat.succ_mul] at hle; omega)]
  obtain ⟨c, hc, hcp⟩ := sortedTimes_pos ts i hi
  have hstrict := sortedTimes_strict ts hts
  have hL := sortedTimes_length ts
  generalize hxs : Quantity.sortedTimes ts = xs at *
  have hcount : (xs.filter fun x => x.1 < ts[i]).length = c := by
    have h1 := count_below hstrict ts[i]
    apply le_antisymm
    · by_contra hcon
      have := (h1 c hc).1 (by omega)
      rw [hcp] at this
      exact lt_irrefl _ this
    · by_contra hcon
      have hlt : (xs.filter fun x => x.1 < ts[i]).length < xs.length := by omega
      have hno := fun h => lt_irrefl _ ((h1 _ hlt).2 h)
      apply hno
      have := (List.pairwise_iff_getElem.1 hstrict) _ c hlt hc (by omega)
      rw [hcp] at this
      exact this
  unfold Quantity.bracket
  rw [hcount]
  apply List.map_congr_left
  intro r _
  funext j k
  rcases Nat.eq_zero_or_pos c with h0 | hpos
  · subst h0
    have e1 : min (max 0 1) (xs.length - 1) = 1 := by omega
    rw [e1]
    simp only [Nat.sub_self]
    rw [getD_lt _ _ _ hc, hcp]
    exact linear_left _ _ _ _
  · have e1 : min (max c 1) (xs.length - 1) = c := by omega
    rw [e1, getD_lt xs _ c hc, getD_lt xs _ (c - 1) (by omega), hcp]
    apply linear_right
    have := (List.pairwise_iff_getElem.1 hstrict) (c - 1) c (by omega) hc (by omega)
    rw [hcp] at this
    exact ne_of_lt this

/-- C44, between the nodes: between two neighbouring times `t0 < v < t1` every value is the point on the straight line through the
values at `t0` and `t1`. -/
theorem C44_linear_between (sid : Nat) (q : Quantity F) (ts : List ℚ) (t : QType) (hq : q.qtype = .times ts t) (hts : ts.Nodup)
    (t0 t1 v : ℚ) (h0 : t0 ∈ ts) (h1 : t1 ∈ ts) (hv0 : t0 < v) (hv1 : v < t1) (hadj : ∀ x ∈ ts, ¬ (t0 < x ∧ x < t1)) (o o' o'' : Nat) :
    ∃ r p0 p1, q.timeInterpolation linearBetween o v = .ok r ∧ q.getitem o' (.key (.num t0)) = .ok p0 ∧
      q.getitem o'' (.key (.num t1)) = .ok p1 ∧
      ∀ (b : Batch F) (z : Arr F), q.on sid b = .ok (.arr z) → z.rows.length = q.size →
        ∃ y y0 y1, r.on sid b = .ok (.arr y) ∧ p0.on sid b = .ok (.arr y0) ∧ p1.on sid b = .ok (.arr y1) ∧
          y.n = z.n ∧ y.p = z.p ∧ y.rows.length = t.size ∧
          ∀ c < t.size, ∀ j k, y.entry c j k = y0.entry c j k + (y1.entry c j k - y0.entry c j k) * (((v - t0) / (t1 - t0) : ℚ) : F) := by
  obtain ⟨i, hi, rfl⟩ := List.mem_iff_getElem.1 h0
  obtain ⟨i', hi', rfl⟩ := List.mem_iff_getElem.1 h1
  have hii : i ≠ i' := by
    rintro rfl
    exact lt_irrefl _ (lt_trans hv0 hv1)
  refine ⟨_, _, _, interp_ok q o ts t hq _, getitem_key o' (by rw [hq]; exact times_key ts t hts i hi),
    getitem_key o'' (by rw [hq]; exact times_key ts t hts i' hi'), ?_⟩
  intro b z hz hlen
  have hsz : z.rows.length = ts.length * t.size := by rw [hlen, Quantity.size, hq, QType.size]
  refine ⟨⟨z.n, z.p, (List.range t.size).map fun r j k => linearBetween ts[i] ts[i'] v
    (z.rows.getD (i * t.size + r) (fun _ _ => default) j k) (z.rows.getD (i' * t.size + r) (fun _ _ => default) j k)⟩, _, _, ?_,
    keyNode_on sid b o' t _ q z hz, keyNode_on sid b o'' t _ q z hz, rfl, rfl, by simp, ?_⟩
  · rw [on_one, hz]
    simp only [Except.bind, unArr, Quantity.interpArr]
    rw [if_neg (by rw [hsz]; omega), if_neg (by
      rintro (h | h)
      · exact absurd (h _ (List.getElem_mem hi)) (not_lt.2 (le_of_lt hv0))
      · exact absurd (h _ (List.getElem_mem hi')) (not_lt.2 (le_of_lt hv1)))]
    simp only [Except.map]
    obtain ⟨c, hc, hcp⟩ := sortedTimes_pos ts i hi
    obtain ⟨d, hd, hdp⟩ := sortedTimes_pos ts i' hi'
    have hstrict := sortedTimes_strict ts hts
    have hmem : ∀ x ∈ Quantity.sortedTimes ts, x.1 ∈ ts := by
      intro x hx
      have := (sortedTimes_perm ts).mem_iff.1 hx
      exact List.fst_mem_of_mem_zipIdx this
    generalize hxs : Quantity.sortedTimes ts = xs at *
    have hb := count_below hstrict v
    set n := (xs.filter fun x => x.1 < v).length with hn
    have hcn : c < n := (hb c hc).2 (by rw [hcp]; exact hv0)
    have hdn : n ≤ d := by
      by_contra hcon
      have := (hb d hd).1 (by omega)
      rw [hdp] at this
      exact lt_asymm this hv1
    have mono := List.pairwise_iff_getElem.1 hstrict
    have hn1 : n = c + 1 := by
      by_contra hcon
      have hlt : n - 1 < xs.length := by omega
      have h3 := (hb (n - 1) hlt).1 (by omega)
      have h4 := mono c (n - 1) hc hlt (by omega)
      rw [hcp] at h4
      exact hadj _ (hmem _ (List.getElem_mem hlt)) ⟨h4, lt_trans h3 hv1⟩
    have hn2 : n = d := by
      by_contra hcon
      have hlt : n < xs.length := by omega
      have h3 : ¬ xs[n].1 < v := fun h => lt_irrefl _ ((hb n hlt).2 h)
      have h4 := mono n d hlt hd (by omega)
      rw [hdp] at h4
      exact hadj _ (hmem _ (List.getElem_mem hlt)) ⟨lt_of_lt_of_le hv0 (not_lt.1 h3), h4⟩
    have hbr : Quantity.bracket xs v = d := by
      unfold Quantity.bracket
      rw [← hn]
      omega
    rw [hbr]
    have hdc : d - 1 = c := by omega
    rw [hdc, getD_lt xs _ c hc, getD_lt xs _ d hd, hcp, hdp]
  · intro c hc j k
    have e0 := getD_drop_take z.rows (fun _ _ => default) (i * t.size) t.size c hc
    have e1 := getD_drop_take z.rows (fun _ _ => default) (i' * t.size) t.size c hc
    simp only [Arr.entry]
    rw [e0, e1, getD_lt _ _ _ (by simpa using hc)]
    simp only [List.getElem_map, List.getElem_range]
    unfold linearBetween
    have h1 : ((ts[i'] - ts[i] : ℚ) : F) ≠ 0 := by
      rw [Ne, Rat.cast_eq_zero, sub_eq_zero]; exact ne_of_gt (lt_trans hv0 hv1)
    rw [Rat.cast_div]
    field_simp
    ring

/-- C44, outside: a time before the first or after the last one is refused at every evaluation. -/
theorem C44_outside_raises (sid : Nat) (q : Quantity F) (ts : List ℚ) (t : QType) (hq : q.qtype = .times ts t) (v : ℚ)
    (hv : (∀ x ∈ ts, v < x) ∨ (∀ x ∈ ts, x < v)) (o : Nat) (r : Quantity F) (hr : q.timeInterpolation linearBetween o v = .ok r) (b : Batch F) :
    ∃ e, r.on sid b = .error e := by
  rw [interp_ok q o ts t hq v] at hr
  cases hr
  rw [on_one]
  cases hz : q.on sid b with
  | error e => exact ⟨e, rfl⟩
  | ok z =>
    cases z with
    | mask m => exact ⟨.typeError, rfl⟩
    | arr a =>
      refine ⟨.valueError, ?_⟩
      simp only [Except.bind, unArr, Quantity.interpArr]
      split
      · rfl
      · first | rfl | (rw [if_pos hv]; rfl)

end

/-- The hypotheses are met: a series of two scalars, times not in order. -/
def exSeries : Quantity ℚ := .storage 1 (.times [2, 1] .scalar)
def exSeriesBatch : Batch ℚ := ⟨2, 1, [[[10, 4]], [[7, 7]]]⟩
example := C44_exact_at_times 1 exSeries [2, 1] .scalar rfl (by decide +kernel) (by decide) 2 (by decide +kernel) 5 6
example := C44_linear_between 1 exSeries [2, 1] .scalar rfl (by decide +kernel) 1 2 (5/4) (by decide +kernel) (by decide +kernel)
  (by norm_num) (by norm_num) (by intro x hx; simp at hx; rcases hx with rfl | rfl <;> norm_num) 5 6 7
example := C44_outside_raises 1 exSeries [2, 1] .scalar rfl 3 (.inr (by intro x hx; simp at hx; rcases hx with rfl | rfl <;> norm_num)) 5
example : (exSeries.on 1 exSeriesBatch).toOption.isSome := rfl

end MLMC
