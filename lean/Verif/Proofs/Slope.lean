import Verif.Spec.Slope
import Mathlib.Data.List.GetD
import Mathlib.Algebra.BigOperators.Field
import Mathlib.Algebra.BigOperators.Ring.Finset
import Mathlib.Algebra.Order.BigOperators.Ring.Finset
import Mathlib.Tactic.Linarith
import Mathlib.Tactic.Positivity
import Mathlib.Tactic.FieldSimp
import Mathlib.Tactic.Ring
/-
Lemmas about the least squares line and the windows.
-/
namespace MLMC.Slope
open Finset

theorem slice_length {values : List ℝ} {a b : Nat} (hb : b ≤ values.length) : (slice values a b).length = b - a := by
  rw [slice, List.length_drop, List.length_take, Nat.min_eq_left hb]

theorem slice_getD {values : List ℝ} {a b i : Nat} (hi : a + i < b) : (slice values a b).getD i 0 = values.getD (a + i) 0 := by
  rw [slice, List.getD_eq_getElem?_getD, List.getD_eq_getElem?_getD, List.getElem?_drop, List.getElem?_take, if_pos hi]

/-- Normal equations of a minimum. -/
theorem normal {a : Nat} {Y : List ℝ} {s c : ℝ} (h : ∀ s' c', sqErr a Y s c ≤ sqErr a Y s' c') (u v : ℝ) :
    ∑ i ∈ range Y.length, (Y.getD i 0 - (s * ((a : ℝ) + i) + c)) * (u * ((a : ℝ) + i) + v) = 0 := by
  set B := ∑ i ∈ range Y.length, (Y.getD i 0 - (s * ((a : ℝ) + i) + c)) * (u * ((a : ℝ) + i) + v) with hB
  set D := ∑ i ∈ range Y.length, (u * ((a : ℝ) + i) + v) ^ 2 with hD
  have key : ∀ t : ℝ, 0 ≤ t ^ 2 * D - 2 * t * B := by
    intro t
    have := h (s + t * u) (c + t * v)
    have e : sqErr a Y (s + t * u) (c + t * v) = sqErr a Y s c + (t ^ 2 * D - 2 * t * B) := by
      rw [sqErr, sqErr, hB, hD, Finset.mul_sum, Finset.mul_sum, ← Finset.sum_sub_distrib, ← Finset.sum_add_distrib]
      apply Finset.sum_congr rfl
      intro i _
      ring
    linarith
  have hD0 : 0 ≤ D := Finset.sum_nonneg fun i _ => sq_nonneg _
  rcases hD0.eq_or_lt with h0 | h0
  · have h1 := key 1
    have h2 := key (-1)
    rw [← h0] at h1 h2
    linarith
  · have h1 := key (B / D)
    have e : (B / D) ^ 2 * D - 2 * (B / D) * B = -(B ^ 2 / D) := by field_simp; ring
    rw [e] at h1
    have h2 : B ^ 2 / D ≤ 0 := by linarith
    have h3 : 0 ≤ B ^ 2 / D := by positivity
    have h4 : B ^ 2 / D = 0 := le_antisymm h2 h3
    rcases div_eq_zero_iff.1 h4 with h5 | h5
    · exact pow_eq_zero_iff (two_ne_zero) |>.1 h5
    · exact absurd h5 h0.ne'

/-- The line fitted to strictly increasing values increases. -/
theorem slope_pos {a : Nat} {Y : List ℝ} {s c : ℝ} (h : ∀ s' c', sqErr a Y s c ≤ sqErr a Y s' c') (h2 : 2 ≤ Y.length)
    (hY : ∀ i j, i < j → j < Y.length → Y.getD i 0 < Y.getD j 0) : 0 < s := by
  by_contra hs
  push Not at hs
  set r : Nat → ℝ := fun i => Y.getD i 0 - (s * ((a : ℝ) + i) + c) with hr
  have hmono : ∀ i j, i < j → j < Y.length → r i < r j := by
    intro i j hij hj
    have := hY i j hij hj
    have hc : (i : ℝ) < j := by exact_mod_cast hij
    simp only [hr]
    nlinarith
  have e0 : ∑ i ∈ range Y.length, r i = 0 := by simpa [hr] using normal h 0 1
  have e1 : ∑ i ∈ range Y.length, r i * ((a : ℝ) + i) = 0 := by simpa [hr] using normal h 1 0
  -- all signed products are nonnegative
  have hz : ∑ i ∈ range Y.length, ∑ j ∈ range Y.length, (r i - r j) * (((a : ℝ) + i) - ((a : ℝ) + j)) = 0 := by
    have : ∀ i, ∑ j ∈ range Y.length, (r i - r j) * (((a : ℝ) + i) - ((a : ℝ) + j)) =
        Y.length * (r i * ((a : ℝ) + i)) - r i * ∑ j ∈ range Y.length, ((a : ℝ) + j) - ((a : ℝ) + i) * ∑ j ∈ range Y.length, r j + ∑ j ∈ range Y.length, r j * ((a : ℝ) + j) := by
      intro i
      rw [Finset.mul_sum, Finset.mul_sum]
      have : (Y.length : ℝ) * (r i * ((a : ℝ) + i)) = ∑ _j ∈ range Y.length, (r i * ((a : ℝ) + i)) := by rw [Finset.sum_const, Finset.card_range, nsmul_eq_mul]
      rw [this, ← Finset.sum_sub_distrib, ← Finset.sum_sub_distrib, ← Finset.sum_add_distrib]
      exact Finset.sum_congr rfl fun j _ => by ring
    simp only [this, e0, e1, mul_zero, sub_zero, add_zero]
    rw [Finset.sum_sub_distrib, ← Finset.mul_sum, e1, ← Finset.sum_mul, e0]
    ring
  have hnn : ∀ i ∈ range Y.length, ∀ j ∈ range Y.length, 0 ≤ (r i - r j) * (((a : ℝ) + i) - ((a : ℝ) + j)) := by
    intro i hi j hj
    rw [Finset.mem_range] at hi hj
    rcases lt_trichotomy i j with hl | hl | hl
    · have := hmono i j hl hj
      have hc : (i : ℝ) < j := by exact_mod_cast hl
      nlinarith
    · subst hl; simp
    · have := hmono j i hl hi
      have hc : (j : ℝ) < i := by exact_mod_cast hl
      nlinarith
  have h01 := (Finset.sum_eq_zero_iff_of_nonneg (fun i hi => Finset.sum_nonneg (hnn i hi))).1 hz 0 (Finset.mem_range.2 (by omega))
  have h01' := (Finset.sum_eq_zero_iff_of_nonneg (hnn 0 (Finset.mem_range.2 (by omega)))).1 h01 1 (Finset.mem_range.2 (by omega))
  have := hmono 0 1 (by omega) (by omega)
  push_cast at h01'
  nlinarith

/-- Some value of the window is not below the line. -/
theorem some_above {a : Nat} {Y : List ℝ} {s c : ℝ} (h : ∀ s' c', sqErr a Y s c ≤ sqErr a Y s' c') (h2 : 1 ≤ Y.length) :
    ∃ i < Y.length, s * ((a : ℝ) + i) + c ≤ Y.getD i 0 := by
  by_contra hno
  push Not at hno
  have e0 : ∑ i ∈ range Y.length, (Y.getD i 0 - (s * ((a : ℝ) + i) + c)) = 0 := by simpa using normal h 0 1
  have : ∑ i ∈ range Y.length, (Y.getD i 0 - (s * ((a : ℝ) + i) + c)) < ∑ i ∈ range Y.length, (0 : ℝ) := by
    apply Finset.sum_lt_sum_of_nonempty
    · exact ⟨0, Finset.mem_range.2 h2⟩
    · intro i hi
      have := hno i (Finset.mem_range.1 hi)
      linarith
  rw [e0] at this
  simp at this

/-! ### There is a least squares line -/

/-- The middle of the points. -/
noncomputable def mid (a : ℝ) (m : Nat) : ℝ := a + ((m : ℝ) - 1) / 2

/-- A least squares line by the usual formulas, for points at consecutive integers. -/
noncomputable def usualFit : Polyfit := fun X Y =>
  let a : ℝ := (X.headD 0 : ℤ)
  let m := Y.length
  let s := (∑ i ∈ range m, (a + i - mid a m) * Y.getD i 0) / ∑ i ∈ range m, (a + i - mid a m) ^ 2
  let c := (∑ i ∈ range m, Y.getD i 0) / m - s * mid a m
  (s, c, ∑ i ∈ range m, (Y.getD i 0 - (s * (a + i) + c)) ^ 2)

theorem sum_centered (a : ℝ) (m : Nat) : ∑ i ∈ range m, (a + i - mid a m) = 0 := by
  have h : ∑ i ∈ range m, (i : ℝ) = (m : ℝ) * (m - 1) / 2 := by
    induction m with
    | zero => simp
    | succ m ih => rw [Finset.sum_range_succ, ih]; push_cast; ring
  have : ∑ i ∈ range m, (a + i - mid a m) = m * (a - mid a m) + ∑ i ∈ range m, (i : ℝ) := by
    rw [show (m : ℝ) * (a - mid a m) = ∑ _i ∈ range m, (a - mid a m) by rw [Finset.sum_const, Finset.card_range, nsmul_eq_mul], ← Finset.sum_add_distrib]
    exact Finset.sum_congr rfl fun i _ => by ring
  rw [this, h, mid]
  ring

theorem IsPolyfit.arange {pf : Polyfit} (h : IsPolyfit pf) (a : Nat) (Y : List ℝ) (hY : 3 ≤ Y.length) :
    (pf (Slope.arange a (a + Y.length)) Y).2.2 = sqErr a Y (pf (Slope.arange a (a + Y.length)) Y).1 (pf (Slope.arange a (a + Y.length)) Y).2.1 ∧
    ∀ s c, (pf (Slope.arange a (a + Y.length)) Y).2.2 ≤ sqErr a Y s c :=
  h a _ Y hY (by simp [Slope.arange]) fun i hi => by
    rw [List.getD_eq_getElem _ _ hi]
    simp [Slope.arange]

theorem usualFit_ok : IsPolyfit usualFit := by
  intro a X Y hY hXl hXi
  have hhead : ((X.headD 0 : ℤ) : ℝ) = a := by
    have := hXi 0 (by omega)
    cases X with
    | nil => simp at hXl; omega
    | cons x X => simp at this; simp [this]
  have hval : ∀ X, ((X.headD 0 : ℤ) : ℝ) = a → (usualFit X Y).2.2 = sqErr a Y (usualFit X Y).1 (usualFit X Y).2.1 ∧ ∀ s c, (usualFit X Y).2.2 ≤ sqErr a Y s c := by
    intro X hX
    have h1 : (usualFit X Y).2.2 = sqErr a Y (usualFit X Y).1 (usualFit X Y).2.1 := by
      simp only [usualFit, sqErr, hX]
    refine ⟨h1, fun s' c' => ?_⟩
    rw [h1]
    set m := Y.length with hm
    set xb := mid (a : ℝ) m with hxb
    set S := ∑ i ∈ range m, ((a : ℝ) + i - xb) ^ 2 with hS
    set s := (usualFit X Y).1 with hs
    set c := (usualFit X Y).2.1 with hc
    have es : s = (∑ i ∈ range m, ((a : ℝ) + i - xb) * Y.getD i 0) / S := by rw [hs]; simp only [usualFit, hX]; rfl
    have ec : c = (∑ i ∈ range m, Y.getD i 0) / m - s * xb := by rw [hc, hs]; simp only [usualFit, hX]; rfl
    have hm0 : (m : ℝ) ≠ 0 := by
      have : m ≠ 0 := by omega
      exact_mod_cast this
    have hcen := sum_centered (a : ℝ) m
    rw [← hxb] at hcen
    have hSpos : 0 < S := by
      apply lt_of_lt_of_le _ (Finset.single_le_sum (f := fun i : ℕ => ((a : ℝ) + i - xb) ^ 2) (fun i _ => sq_nonneg _) (Finset.mem_range.2 (by omega : 0 < m)))
      have hm3 : (3 : ℝ) ≤ m := by exact_mod_cast hY
      have : (a : ℝ) + (0 : ℕ) - xb < 0 := by rw [hxb, mid]; push_cast; linarith
      have := this.ne
      positivity
    -- normal equations
    have hx : ∑ i ∈ range m, ((a : ℝ) + i) = m * xb := by
      have e : ∑ i ∈ range m, ((a : ℝ) + i - xb) = ∑ i ∈ range m, ((a : ℝ) + i) - m * xb := by
        rw [Finset.sum_sub_distrib, Finset.sum_const, Finset.card_range, nsmul_eq_mul]
      linarith
    have n0 : ∑ i ∈ range m, (Y.getD i 0 - (s * ((a : ℝ) + i) + c)) = 0 := by
      rw [Finset.sum_sub_distrib, Finset.sum_add_distrib, ← Finset.mul_sum, hx, Finset.sum_const, Finset.card_range, nsmul_eq_mul, ec]
      field_simp
      ring
    have n1 : ∑ i ∈ range m, (Y.getD i 0 - (s * ((a : ℝ) + i) + c)) * ((a : ℝ) + i - xb) = 0 := by
      have e : ∀ i ∈ range m, (Y.getD i 0 - (s * ((a : ℝ) + i) + c)) * ((a : ℝ) + i - xb) =
          ((a : ℝ) + i - xb) * Y.getD i 0 - s * ((a : ℝ) + i - xb) ^ 2 - (s * xb + c) * ((a : ℝ) + i - xb) := fun i _ => by ring
      rw [Finset.sum_congr rfl e, Finset.sum_sub_distrib, Finset.sum_sub_distrib, ← Finset.mul_sum, ← Finset.mul_sum, hcen, ← hS, es]
      field_simp
      ring
    have e : sqErr a Y s' c' = sqErr a Y s c + (∑ i ∈ range m, ((s' - s) * ((a : ℝ) + i) + (c' - c)) ^ 2
        - 2 * ((s' - s) * ∑ i ∈ range m, (Y.getD i 0 - (s * ((a : ℝ) + i) + c)) * ((a : ℝ) + i - xb)
          + ((s' - s) * xb + (c' - c)) * ∑ i ∈ range m, (Y.getD i 0 - (s * ((a : ℝ) + i) + c)))) := by
      rw [sqErr, sqErr, Finset.mul_sum, Finset.mul_sum, ← Finset.sum_add_distrib, Finset.mul_sum, ← Finset.sum_sub_distrib, ← Finset.sum_add_distrib]
      exact Finset.sum_congr rfl fun i _ => by ring
    rw [e, n0, n1]
    have : 0 ≤ ∑ i ∈ range m, ((s' - s) * ((a : ℝ) + i) + (c' - c)) ^ 2 := Finset.sum_nonneg fun i _ => sq_nonneg _
    linarith
  exact hval _ hhead

/-! ### Windows -/

/-- The windows the search considers. -/
def Considered (values : List ℝ) (ab : ℤ × ℤ) : Prop := 0 ≤ ab.1 ∧ ab.1 + 2 < ab.2 ∧ ab.2 < values.length

/-- The value the search compares. -/
noncomputable def valueOf (pf : Polyfit) (values : List ℝ) (a b : Nat) : ℝ := (pf (arange a b) (slice values a b)).2.2 / ((b : ℝ) - a) ^ 2

/-- The window recorded for `a`, `b`. -/
noncomputable def windowOf (pf : Polyfit) (values : List ℝ) (a b : Nat) : Window :=
  ⟨a, b, (pf (arange a b) (slice values a b)).1, (pf (arange a b) (slice values a b)).2.1⟩

/-- What the search knows after looking at `seen`. -/
def Knows (pf : Polyfit) (values : List ℝ) (seen : List (ℤ × ℤ)) : Option (Window × ℝ) → Prop
  | none => ∀ ab ∈ seen, ¬ Considered values ab
  | some (w, v) => (∃ ab ∈ seen, Considered values ab ∧ w = windowOf pf values ab.1.toNat ab.2.toNat) ∧ v = valueOf pf values w.a w.b ∧
      ∀ ab ∈ seen, Considered values ab → v ≤ valueOf pf values ab.1.toNat ab.2.toNat

theorem tryWindow_knows (pf : Polyfit) (values : List ℝ) (seen : List (ℤ × ℤ)) (st : Option (Window × ℝ)) (h : Knows pf values seen st) (ab : ℤ × ℤ) :
    Knows pf values (seen ++ [ab]) (tryWindow pf values st ab) := by
  unfold tryWindow
  by_cases hc : 0 ≤ ab.1 ∧ ab.1 + 2 < ab.2 ∧ ab.2 < values.length
  · rw [if_pos hc]
    have hself : ∃ ab' ∈ seen ++ [ab], Considered values ab' ∧ windowOf pf values ab.1.toNat ab.2.toNat = windowOf pf values ab'.1.toNat ab'.2.toNat := ⟨ab, by simp, hc, rfl⟩
    cases st with
    | none =>
      refine ⟨hself, rfl, fun ab' hm hc' => ?_⟩
      rcases List.mem_append.1 hm with hm | hm
      · exact absurd hc' (h ab' hm)
      · rw [List.mem_singleton] at hm; subst hm; exact le_rfl
    | some wv =>
      obtain ⟨w, v0⟩ := wv
      obtain ⟨⟨ab0, hm0, hc0, hw0⟩, hv0, hmin⟩ := h
      simp only
      split
      · rename_i hlt
        refine ⟨hself, rfl, fun ab' hm hc' => ?_⟩
        rcases List.mem_append.1 hm with hm | hm
        · exact hlt.le.trans (hmin ab' hm hc')
        · rw [List.mem_singleton] at hm; subst hm; exact le_rfl
      · rename_i hlt
        refine ⟨⟨ab0, by simp [hm0], hc0, hw0⟩, hv0, fun ab' hm hc' => ?_⟩
        rcases List.mem_append.1 hm with hm | hm
        · exact hmin ab' hm hc'
        · rw [List.mem_singleton] at hm; subst hm; exact not_lt.1 hlt
  · rw [if_neg hc]
    cases st with
    | none =>
      intro ab' hm
      rcases List.mem_append.1 hm with hm | hm
      · exact h ab' hm
      · rw [List.mem_singleton] at hm; subst hm; exact hc
    | some wv =>
      obtain ⟨w, v0⟩ := wv
      obtain ⟨⟨ab0, hm0, hc0, hw0⟩, hv0, hmin⟩ := h
      refine ⟨⟨ab0, by simp [hm0], hc0, hw0⟩, hv0, fun ab' hm hc' => ?_⟩
      rcases List.mem_append.1 hm with hm | hm
      · exact hmin ab' hm hc'
      · rw [List.mem_singleton] at hm; subst hm; exact absurd hc' hc

theorem fold_knows (pf : Polyfit) (values : List ℝ) : ∀ (l seen : List (ℤ × ℤ)) (st : Option (Window × ℝ)), Knows pf values seen st →
    Knows pf values (seen ++ l) (l.foldl (tryWindow pf values) st)
  | [], seen, st, h => by simpa using h
  | ab :: l, seen, st, h => by
    have := fold_knows pf values l (seen ++ [ab]) _ (tryWindow_knows pf values seen st h ab)
    simpa using this

/-- What `best_fit_all` returns. -/
theorem bestFitAll_spec (pf : Polyfit) (values : List ℝ) (ra rb : List ℤ) :
    (bestFitAll pf values ra rb = none ∧ ∀ a ∈ ra, ∀ b ∈ rb, ¬ Considered values (a, b)) ∨
    ∃ a ∈ ra, ∃ b ∈ rb, Considered values (a, b) ∧ bestFitAll pf values ra rb = some (windowOf pf values a.toNat b.toNat) ∧
      ∀ a' ∈ ra, ∀ b' ∈ rb, Considered values (a', b') → valueOf pf values a.toNat b.toNat ≤ valueOf pf values a'.toNat b'.toNat := by
  have h := fold_knows pf values (ra.flatMap fun a => rb.map fun b => (a, b)) [] none (by intro ab hm; simp at hm)
  rw [List.nil_append] at h
  have hmem : ∀ a b, (a, b) ∈ (ra.flatMap fun a => rb.map fun b => (a, b)) ↔ a ∈ ra ∧ b ∈ rb := by
    intro a b
    simp only [List.mem_flatMap, List.mem_map, Prod.mk.injEq]
    constructor
    · rintro ⟨x, hx, y, hy, rfl, rfl⟩; exact ⟨hx, hy⟩
    · rintro ⟨ha, hb⟩; exact ⟨a, ha, b, hb, rfl, rfl⟩
  unfold bestFitAll
  cases hr : (ra.flatMap fun a => rb.map fun b => (a, b)).foldl (tryWindow pf values) none with
  | none =>
    rw [hr] at h
    exact Or.inl ⟨rfl, fun a ha b hb => h (a, b) ((hmem a b).2 ⟨ha, hb⟩)⟩
  | some wv =>
    rw [hr] at h
    obtain ⟨w, v⟩ := wv
    obtain ⟨⟨⟨a, b⟩, hm, hc, hw⟩, hv, hmin⟩ := h
    obtain ⟨ha, hb⟩ := (hmem a b).1 hm
    refine Or.inr ⟨a, ha, b, hb, hc, by rw [hw]; rfl, fun a' ha' b' hb' hc' => ?_⟩
    have := hmin (a', b') ((hmem a' b').2 ⟨ha', hb'⟩) hc'
    rw [hv, hw] at this
    exact this

theorem small_spec (pf : Polyfit) (values : List ℝ) (h : values.length ≤ 12) :
    bestP1Fit pf values = .ok (bestFitAll pf values ((List.range values.length).map Int.ofNat) ((List.range values.length).map Int.ofNat)) := by
  rw [bestP1Fit, if_neg (by omega)]

/-- With fewer than four values nothing is found. -/
theorem p1_few (pf : Polyfit) (values : List ℝ) (h : values.length < 4) : bestP1Fit pf values = .ok none := by
  rw [small_spec pf values (by omega)]
  rcases bestFitAll_spec pf values ((List.range values.length).map Int.ofNat) ((List.range values.length).map Int.ofNat) with ⟨h1, _⟩ | ⟨a, _, b, _, hc, _⟩
  · rw [h1]
  · obtain ⟨h1, h2, h3⟩ := hc
    simp only at h1 h2 h3
    omega

/-- With at least four values a window is found, of at least three values, without the last one. -/
theorem p1_found (pf : Polyfit) : ∀ (N : Nat) (values : List ℝ), values.length ≤ N → 4 ≤ values.length →
    ∃ a b, a + 2 < b ∧ b < values.length ∧ bestP1Fit pf values = .ok (some (windowOf pf values a b))
  | 0, values, h, h4 => by omega
  | N + 1, values, h, h4 => by
    by_cases h12 : 12 < values.length
    · have hl := averages_length values
      obtain ⟨a, b, hab, hb, he⟩ := p1_found pf N (averages values) (by omega) (by omega)
      rw [bestP1Fit, if_pos h12, he]
      simp only [windowOf]
      rcases bestFitAll_spec pf values [2 * (a : ℤ) - 1, 2 * (a : ℤ), 2 * (a : ℤ) + 1] [2 * (b : ℤ) - 1, 2 * (b : ℤ), 2 * (b : ℤ) + 1] with ⟨_, h2⟩ | ⟨a', _, b', _, hc, hr, _⟩
      · exfalso
        refine h2 (2 * a) (by simp) (2 * b) (by simp) ⟨?_, ?_, ?_⟩ <;> simp only <;> omega
      · obtain ⟨c1, c2, c3⟩ := hc
        simp only at c1 c2 c3
        refine ⟨a'.toNat, b'.toNat, by omega, by omega, ?_⟩
        rw [hr]
        rfl
    · rw [small_spec pf values (by omega)]
      rcases bestFitAll_spec pf values ((List.range values.length).map Int.ofNat) ((List.range values.length).map Int.ofNat) with ⟨_, h2⟩ | ⟨a', _, b', _, hc, hr, _⟩
      · exfalso
        have h0 : 0 < values.length := by omega
        have h3 : 3 < values.length := by omega
        refine h2 0 (List.mem_map.2 ⟨0, List.mem_range.2 h0, rfl⟩) 3 (List.mem_map.2 ⟨3, List.mem_range.2 h3, rfl⟩) ⟨?_, ?_, ?_⟩ <;> simp only <;> omega
      · obtain ⟨c1, c2, c3⟩ := hc
        simp only at c1 c2 c3
        exact ⟨a'.toNat, b'.toNat, by omega, by omega, by rw [hr]⟩
end MLMC.Slope
