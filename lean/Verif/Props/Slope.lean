import Verif.Proofs.Slope
import Verif.Props.Orthogonal
import Mathlib.Data.List.GetD
/-
C99: the automatic threshold of eigenvalues.
-/
namespace MLMC.Slope
open Finset

/-- Increasing numbers of which the last ones, from the position `p` on, are positive. -/
def PositiveFrom (values : List ℝ) (p : Nat) : Prop := (∀ i < p, values.getD i 0 ≤ 0) ∧ ∀ i, p ≤ i → i < values.length → 0 < values.getD i 0

/-- The positive numbers are distinct and increase. -/
def StrictWherePositive (values : List ℝ) : Prop := ∀ i j, i < j → j < values.length → 0 < values.getD i 0 → values.getD i 0 < values.getD j 0

theorem firstAbove_eq {values : List ℝ} {p : Nat} (h : PositiveFrom values p) (hp : p < values.length) : firstAbove 0 values = p := by
  classical
  unfold firstAbove
  rw [(List.findIdx?_eq_some_iff_getElem).2 ⟨hp, ?_, ?_⟩]
  · rfl
  · have := h.2 p le_rfl hp
    rw [List.getD_eq_getElem _ _ hp] at this
    simpa using this
  · intro j hj
    have := h.1 j hj
    rw [List.getD_eq_getElem _ _ (by omega)] at this
    simpa using this

/-- The logarithms of the positive numbers. -/
noncomputable def logs (values : List ℝ) (p : Nat) : List ℝ := (values.drop p).map Real.log

theorem logs_length (values : List ℝ) (p : Nat) : (logs values p).length = values.length - p := by rw [logs, List.length_map, List.length_drop]

theorem logs_getD {values : List ℝ} {p i : Nat} (hi : p + i < values.length) : (logs values p).getD i 0 = Real.log (values.getD (p + i) 0) := by
  rw [List.getD_eq_getElem _ _ (by rw [logs_length]; omega), List.getD_eq_getElem _ _ hi]
  simp [logs]

theorem detect_eq (pf : Polyfit) {values : List ℝ} {p : Nat} (h : PositiveFrom values p) (hp : p < values.length) :
    detect pf values true = match bestP1Fit pf (logs values p) with
      | .error e => .error e
      | .ok none => .error .typeError
      | .ok (some w) => .ok (w.a + p, ((List.range (w.a + p)).map fun i : Nat => Real.exp (w.slope * ((i : ℝ) - p) + w.intercept)) ++ (logs values p |>.drop w.a).map Real.exp) := by
  unfold detect
  simp only [if_true, firstAbove_eq h hp]
  have e : (List.take p values ++ List.map Real.log (List.drop p values)).drop p = logs values p := by
    rw [List.drop_append_of_le_length (by rw [List.length_take]; omega), List.drop_take]
    simp [logs]
  rw [e]
  cases bestP1Fit pf (logs values p) with
  | error e => rfl
  | ok o =>
    cases o with
    | none => rfl
    | some w =>
      simp only [List.map_append, List.map_map]
      rw [Nat.add_comm w.a p, ← List.drop_drop, e]
      rfl

/-- **C99**, too few: with fewer than four positive eigenvalues the automatic threshold raises TypeError. -/
theorem C99_few_raise (pf : Polyfit) (values : List ℝ) (p : Nat) (h : PositiveFrom values p) (hp : p < values.length) (h4 : values.length < p + 4) (log : Bool)
    (hl : log = true) : detect pf values log = .error .typeError := by
  subst hl
  rw [detect_eq pf h hp, p1_few pf _ (by rw [logs_length]; omega)]

/-- **C99**, orthogonal moments: for at most three moments whose covariance matrix is symmetric and positive definite, `construct_ortogonal_moments` with the default tolerance always raises TypeError. -/
theorem C99_three_moments_raise {n : Nat} (pf : Polyfit) (hn : n + 1 ≤ 3) (cov : Matrix (Fin (n + 1)) (Fin (n + 1)) ℝ) (ev : Fin (n + 1) → ℝ) (V : Matrix (Fin (n + 1)) (Fin (n + 1)) ℝ)
    (he : Ortho.IsEigh (Ortho.centered cov) ev V) (hpos : ∀ i, 0 < ev i) : RaisesAuto pf cov ev .typeError ∧ ∀ th L, ¬ ConstructsAuto pf cov ev th L := by
  have hP : PositiveFrom (List.ofFn ev) 0 := by
    refine ⟨by simp, fun i _ hi => ?_⟩
    rw [List.getD_eq_getElem _ _ hi, List.getElem_ofFn]
    exact hpos _
  have ha : autoThreshold pf (List.ofFn ev) = .error .typeError := by
    unfold autoThreshold
    rw [C99_few_raise pf _ 0 hP (by simp) (by simp; omega) true rfl]
  refine ⟨⟨V, he, ha⟩, fun th L hc => ?_⟩
  obtain ⟨_, _, _, _, h, _⟩ := hc
  rw [ha] at h
  cases h

example (pf : Polyfit) : RaisesAuto pf Ortho.cov3 Ortho.ev3 .typeError :=
  (C99_three_moments_raise pf (by omega) Ortho.cov3 Ortho.ev3 Ortho.V3 Ortho.eigh3 (fun i => by fin_cases i <;> simp [Ortho.ev3])).1

/-- **C99**, enough: with at least four positive values a position is detected, at or behind the first positive value and at least four values before the end; from it on the
values are returned unchanged, the values before it are replaced by positive numbers whose logarithms are on a line; this line is the one fitted to the logarithms
of at least three values from the position on. -/
theorem C99_detected (pf : Polyfit) (hpf : IsPolyfit pf) (values : List ℝ) (p : Nat) (h : PositiveFrom values p) (h4 : p + 4 ≤ values.length) :
    ∃ K out, detect pf values true = .ok (K, out) ∧ p ≤ K ∧ K + 4 ≤ values.length ∧ out.length = values.length ∧
      (∀ i, K ≤ i → i < values.length → out.getD i 0 = values.getD i 0) ∧
      ∃ s c b, K + 2 < b ∧ b < values.length ∧ (∀ i < K, out.getD i 0 = Real.exp (s * ((i : ℝ) - p) + c)) ∧
        ∀ s' c', sqErr (K - p) (slice (logs values p) (K - p) (b - p)) s c ≤ sqErr (K - p) (slice (logs values p) (K - p) (b - p)) s' c' := by
  obtain ⟨a, b, hab, hb, hw⟩ := p1_found pf _ (logs values p) le_rfl (by rw [logs_length]; omega)
  rw [logs_length] at hb
  refine ⟨a + p, _, by rw [detect_eq pf h (by omega), hw]; rfl, by omega, by omega, ?_, ?_, (windowOf pf (logs values p) a b).slope, (windowOf pf (logs values p) a b).intercept, b + p, by omega, by omega, ?_, ?_⟩
  · simp only [List.length_append, List.length_map, List.length_range, List.length_drop, logs_length, windowOf]
    omega
  · intro i hi hil
    simp only [windowOf]
    rw [List.getD_eq_getElem?_getD, List.getElem?_append_right (by simpa using hi), List.length_map, List.length_range, List.getElem?_map, List.getElem?_drop, List.getD_eq_getElem _ _ hil]
    rw [List.getElem?_eq_getElem (by rw [logs_length]; omega)]
    simp only [Option.map_some, Option.getD_some, logs, List.getElem_map, List.getElem_drop]
    have e : p + (a + (i - (a + p))) = i := by omega
    simp only [e]
    have := h.2 i (by omega) hil
    rw [List.getD_eq_getElem _ _ hil] at this
    exact Real.exp_log this
  · intro i hi
    rw [List.getD_eq_getElem?_getD, List.getElem?_append_left (by simpa [windowOf] using hi)]
    simp only [windowOf, List.getElem?_map]
    rw [List.getElem?_eq_getElem (by simpa using hi)]
    simp
  · intro s' c'
    have hlen : (slice (logs values p) a b).length = b - a := slice_length (by rw [logs_length]; omega)
    obtain ⟨h1, h2⟩ := hpf.arange a (slice (logs values p) a b) (by omega)
    rw [hlen, Nat.add_sub_cancel' (by omega)] at h1 h2
    simp only [Nat.add_sub_cancel, windowOf]
    rw [← h1]
    exact h2 s' c'

/-- **C99**, best window: of up to twelve values, `best_p1_fit` returns a window `a:b` of at least three values without the last one and a line whose quality is at least as good as that of every
line in every such window.  Missing: windows that contain the last value (next theorem), more than twelve values (`C99_coarse_window_partial`). -/
theorem C99_best_window_partial (pf : Polyfit) (hpf : IsPolyfit pf) (values : List ℝ) (h4 : 4 ≤ values.length) (h12 : values.length ≤ 12) :
    ∃ w, bestP1Fit pf values = .ok (some w) ∧ w.a + 2 < w.b ∧ w.b < values.length ∧
      ∀ a b s c, a + 2 < b → b < values.length → quality values w.a w.b w.slope w.intercept ≤ quality values a b s c := by
  have hval : ∀ a b, a + 2 < b → b < values.length → valueOf pf values a b = quality values a b (windowOf pf values a b).slope (windowOf pf values a b).intercept ∧
      ∀ s c, valueOf pf values a b ≤ quality values a b s c := by
    intro a b hab hb
    have hlen : (slice values a b).length = b - a := slice_length (by omega)
    obtain ⟨h1, h2⟩ := hpf.arange a (slice values a b) (by omega)
    rw [hlen, Nat.add_sub_cancel' (by omega)] at h1 h2
    refine ⟨by rw [valueOf, quality, h1]; rfl, fun s c => ?_⟩
    rw [valueOf, quality]
    have : (0 : ℝ) ≤ ((b : ℝ) - a) ^ 2 := sq_nonneg _
    exact div_le_div_of_nonneg_right (h2 s c) this
  rw [small_spec pf values h12]
  rcases bestFitAll_spec pf values ((List.range values.length).map Int.ofNat) ((List.range values.length).map Int.ofNat) with ⟨_, h2⟩ | ⟨a, _, b, _, hc, hr, hmin⟩
  · exfalso
    have h0 : 0 < values.length := by omega
    have h3 : 3 < values.length := by omega
    refine h2 0 (List.mem_map.2 ⟨0, List.mem_range.2 h0, rfl⟩) 3 (List.mem_map.2 ⟨3, List.mem_range.2 h3, rfl⟩) ⟨?_, ?_, ?_⟩ <;> simp only <;> omega
  · obtain ⟨c1, c2, c3⟩ := hc
    simp only at c1 c2 c3
    refine ⟨_, by rw [hr], by simp only [windowOf]; omega, by simp only [windowOf]; omega, fun a' b' s c hab hb => ?_⟩
    have e := (hval a.toNat b.toNat (by omega) (by omega)).1
    simp only [windowOf] at e ⊢
    rw [← e]
    refine (hmin a' (List.mem_map.2 ⟨a', List.mem_range.2 (by omega), rfl⟩) b' (List.mem_map.2 ⟨b', List.mem_range.2 (by omega), rfl⟩) ⟨?_, ?_, ?_⟩).trans ?_
    · simp only; omega
    · simp only; omega
    · simp only; omega
    · simpa using (hval a' b' hab hb).2 s c

theorem averages_getD : ∀ (l : List ℝ) (i : Nat), i < l.length / 2 → (averages l).getD i 0 = (l.getD (2 * i) 0 + l.getD (2 * i + 1) 0) / 2
  | [], i, h => by simp at h
  | [_], i, h => by simp at h
  | x :: y :: l, 0, _ => by simp [averages]
  | x :: y :: l, i + 1, h => by
    rw [averages, List.getD_cons_succ, averages_getD l i (by simp only [List.length_cons] at h; omega)]
    rw [show 2 * (i + 1) = 2 * i + 1 + 1 by ring, List.getD_cons_succ, List.getD_cons_succ, List.getD_cons_succ, List.getD_cons_succ]

theorem averages_eq (l : List ℝ) : averages l = (List.range (l.length / 2)).map fun i => (l.getD (2 * i) 0 + l.getD (2 * i + 1) 0) / 2 := by
  refine List.ext_getElem (by rw [averages_length, List.length_map, List.length_range]) fun i h1 h2 => ?_
  rw [averages_length] at h1
  have := averages_getD l i h1
  rw [List.getD_eq_getElem _ _ (by rw [averages_length]; exact h1)] at this
  rw [this, List.getElem_map, List.getElem_range]

/-- **C99**, more than twelve values: a window `a₀:b₀` is found in the same way for the averages of neighbouring values; the window returned for the values is the best one of those whose ends differ
from `2 a₀` and `2 b₀` by at most one.  Missing: other windows. -/
theorem C99_coarse_window_partial (pf : Polyfit) (hpf : IsPolyfit pf) (values : List ℝ) (h12 : 12 < values.length) :
    ∃ w₀ w, bestP1Fit pf ((List.range (values.length / 2)).map fun i => (values.getD (2 * i) 0 + values.getD (2 * i + 1) 0) / 2) = .ok (some w₀) ∧
      bestP1Fit pf values = .ok (some w) ∧ w.a + 2 < w.b ∧ w.b < values.length ∧ (w.a ≤ 2 * w₀.a + 1 ∧ 2 * w₀.a ≤ w.a + 1) ∧ (w.b ≤ 2 * w₀.b + 1 ∧ 2 * w₀.b ≤ w.b + 1) ∧
      ∀ a b s c, a ≤ 2 * w₀.a + 1 → 2 * w₀.a ≤ a + 1 → b ≤ 2 * w₀.b + 1 → 2 * w₀.b ≤ b + 1 → a + 2 < b → b < values.length →
        quality values w.a w.b w.slope w.intercept ≤ quality values a b s c := by
  rw [← averages_eq]
  have hval : ∀ a b, a + 2 < b → b < values.length → valueOf pf values a b = quality values a b (windowOf pf values a b).slope (windowOf pf values a b).intercept ∧
      ∀ s c, valueOf pf values a b ≤ quality values a b s c := by
    intro a b hab hb
    have hlen : (slice values a b).length = b - a := slice_length (by omega)
    obtain ⟨h1, h2⟩ := hpf.arange a (slice values a b) (by omega)
    rw [hlen, Nat.add_sub_cancel' (by omega)] at h1 h2
    refine ⟨by rw [valueOf, quality, h1]; rfl, fun s c => ?_⟩
    rw [valueOf, quality]
    have : (0 : ℝ) ≤ ((b : ℝ) - a) ^ 2 := sq_nonneg _
    exact div_le_div_of_nonneg_right (h2 s c) this
  have hl := averages_length values
  obtain ⟨a, b, hab, hb, he⟩ := p1_found pf _ (averages values) le_rfl (by omega)
  have hw : bestP1Fit pf values = .ok (bestFitAll pf values [2 * (a : ℤ) - 1, 2 * (a : ℤ), 2 * (a : ℤ) + 1] [2 * (b : ℤ) - 1, 2 * (b : ℤ), 2 * (b : ℤ) + 1]) := by
    rw [bestP1Fit, if_pos h12, he]
    rfl
  rcases bestFitAll_spec pf values [2 * (a : ℤ) - 1, 2 * (a : ℤ), 2 * (a : ℤ) + 1] [2 * (b : ℤ) - 1, 2 * (b : ℤ), 2 * (b : ℤ) + 1] with ⟨_, h2⟩ | ⟨a', ha', b', hb', hc, hr, hmin⟩
  · exfalso
    refine h2 (2 * a) (by simp) (2 * b) (by simp) ⟨?_, ?_, ?_⟩ <;> simp only <;> omega
  · obtain ⟨c1, c2, c3⟩ := hc
    simp only at c1 c2 c3
    simp only [List.mem_cons, List.not_mem_nil, or_false] at ha' hb'
    refine ⟨_, _, he, by rw [hw, hr], ?_, ?_, ?_, ?_, fun x y s c h1 h2 h3 h4 h5 h6 => ?_⟩
    · simp only [windowOf]; omega
    · simp only [windowOf]; omega
    · simp only [windowOf]; omega
    · simp only [windowOf]; omega
    · simp only [windowOf] at h1 h2 h3 h4
      have e := (hval a'.toNat b'.toNat (by omega) (by omega)).1
      simp only [windowOf] at e ⊢
      rw [← e]
      refine (hmin x (by simp only [List.mem_cons, List.not_mem_nil, or_false]; omega) y (by simp only [List.mem_cons, List.not_mem_nil, or_false]; omega) ⟨?_, ?_, ?_⟩).trans ?_
      · simp only; omega
      · simp only; omega
      · simp only; omega
      · simpa using (hval x y h5 h6).2 s c

example := C99_coarse_window_partial usualFit usualFit_ok ((List.range 30).map fun i : Nat => (i : ℝ) ^ 2) (by simp)

theorem four_window (pf : Polyfit) (values : List ℝ) (h : values.length = 4) : bestP1Fit pf values = .ok (some (windowOf pf values 0 3)) := by
  obtain ⟨a, b, hab, hb, hw⟩ := p1_found pf _ values le_rfl (by omega)
  have ha : a = 0 := by omega
  have hb' : b = 3 := by omega
  rw [hw, ha, hb']

/-- **C99** is false for all windows: the last value is never used.  Of 0, 5, 6, 7 the last three are on a line, the window 0:3 with a positive residual is returned. -/
theorem C99_last_value_counterexample (pf : Polyfit) (hpf : IsPolyfit pf) :
    ∃ w, bestP1Fit pf [0, 5, 6, 7] = .ok (some w) ∧ w.a = 0 ∧ w.b = 3 ∧ quality [0, 5, 6, 7] 1 4 1 4 = 0 ∧ 0 < quality [0, 5, 6, 7] w.a w.b w.slope w.intercept := by
  refine ⟨_, four_window pf _ rfl, rfl, rfl, ?_, ?_⟩
  · simp only [quality, sqErr, slice]
    norm_num [Finset.sum_range_succ, List.getD]
  · simp only [windowOf, quality]
    have : 0 < sqErr 0 (slice [0, 5, 6, 7] 0 3) (pf (arange 0 3) (slice [0, 5, 6, 7] 0 3)).1 (pf (arange 0 3) (slice [0, 5, 6, 7] 0 3)).2.1 := by
      generalize (pf (arange 0 3) (slice [0, 5, 6, 7] 0 3)).1 = s
      generalize (pf (arange 0 3) (slice [0, 5, 6, 7] 0 3)).2.1 = c
      simp only [sqErr, slice]
      norm_num [Finset.sum_range_succ, List.getD]
      nlinarith [sq_nonneg (c - (2 * (s + c - 5)) + (2 * s + c - 6)), sq_nonneg c, sq_nonneg (5 - (s + c)), sq_nonneg (6 - (s * 2 + c)), sq_nonneg (c + 4 * (5 - (s + c))), sq_nonneg (2 * c - 2 * (5 - s - c) ), sq_nonneg (2*c + (5 - s - c)), sq_nonneg (2*(6 - 2*s - c) + (5 - s - c))]
    positivity

/-- The automatic threshold, from what was detected. -/
theorem auto_eq (pf : Polyfit) (values : List ℝ) (K : Nat) (f : ℝ) (out : List ℝ) (h : detect pf values true = .ok (K, f :: out)) :
    ∃ th, autoThreshold pf values = .ok th ∧ ((∃ i, i < values.length ∧ f < values.getD i 0) → th < values.length ∧ f < values.getD th 0 ∧ ∀ i < th, values.getD i 0 ≤ f) ∧
      ((∀ i, i < values.length → values.getD i 0 ≤ f) → th = 0) := by
  classical
  refine ⟨_, by unfold autoThreshold; rw [h], ?_, ?_⟩
  · rintro ⟨i, hi, hf⟩
    cases hx : values.findIdx? fun x => decide (0 < x - f) with
    | none =>
      rw [List.findIdx?_eq_none_iff] at hx
      have := hx values[i] (List.getElem_mem hi)
      rw [List.getD_eq_getElem _ _ hi] at hf
      simp only [sub_pos, decide_eq_false_iff_not, not_lt] at this
      linarith
    | some k =>
      obtain ⟨hk, h1, h2⟩ := (List.findIdx?_eq_some_iff_getElem).1 hx
      rw [Option.getD_some]
      refine ⟨hk, ?_, fun j hj => ?_⟩
      · rw [List.getD_eq_getElem _ _ hk]
        simpa using h1
      · rw [List.getD_eq_getElem _ _ (by omega)]
        have := h2 j hj
        simpa using this
  · intro hle
    rw [List.findIdx?_eq_none_iff.2 ?_]
    · rfl
    · intro x hx
      obtain ⟨i, hi, rfl⟩ := List.getElem_of_mem hx
      have := hle i hi
      rw [List.getD_eq_getElem _ _ hi] at this
      simpa using this

/-- **C99**, kept eigenvalues: for increasing eigenvalues of which at least four are positive and the positive ones are distinct, every eigenvalue that is kept is positive, at least one is kept, and
all kept ones are larger than the cut ones.  Missing: equal eigenvalues, for which it is false. -/
theorem C99_kept_positive_partial (pf : Polyfit) (hpf : IsPolyfit pf) (values : List ℝ) (hmono : ∀ i j, i ≤ j → j < values.length → values.getD i 0 ≤ values.getD j 0) (p : Nat) (h : PositiveFrom values p)
    (h4 : p + 4 ≤ values.length) (hstrict : StrictWherePositive values) :
    ∃ th, autoThreshold pf values = .ok th ∧ th < values.length ∧ (∀ i, th ≤ i → i < values.length → 0 < values.getD i 0) ∧
      ∀ i j, i < th → th ≤ j → j < values.length → values.getD i 0 < values.getD j 0 := by
  obtain ⟨K, out, hd, hpK, hK4, hlen, hsame, s, c, b, hKb, hb, hline, hmin⟩ := C99_detected pf hpf values p h h4
  cases out with
  | nil => simp at hlen; omega
  | cons f out =>
    have hfpos : 0 < f := by
      rcases Nat.eq_zero_or_pos K with h0 | h0
      · have e := hsame 0 (by omega) (by omega)
        simp only [List.getD_cons_zero] at e
        rw [e]
        exact h.2 0 (by omega) (by omega)
      · have e := hline 0 h0
        simp only [List.getD_cons_zero] at e
        rw [e]
        exact Real.exp_pos _
    have hex : ∃ i, i < values.length ∧ f < values.getD i 0 := by
      rcases Nat.eq_zero_or_pos K with h0 | h0
      · have e := hsame 0 (by omega) (by omega)
        simp only [List.getD_cons_zero] at e
        refine ⟨1, by omega, ?_⟩
        rw [e] at hfpos ⊢
        exact hstrict 0 1 (by omega) (by omega) hfpos
      · have e := hline 0 h0
        simp only [List.getD_cons_zero] at e
        set Y := slice (logs values p) (K - p) (b - p) with hY
        have hYl : Y.length = b - K := by rw [hY, slice_length (by rw [logs_length]; omega)]; omega
        have hYg : ∀ i, i < Y.length → Y.getD i 0 = Real.log (values.getD (K + i) 0) := by
          intro i hi
          rw [hYl] at hi
          rw [hY, slice_getD (by omega), logs_getD (by omega)]
          congr 2
          omega
        have hs : 0 < s := by
          refine slope_pos hmin (by omega) fun i j hij hj => ?_
          rw [hYg i (by omega), hYg j hj]
          rw [hYl] at hj
          have hp1 := h.2 (K + i) (by omega) (by omega)
          exact Real.log_lt_log hp1 (hstrict _ _ (by omega) (by omega) hp1)
        obtain ⟨i, hi, hab⟩ := some_above hmin (by omega)
        rw [hYg i hi] at hab
        rw [hYl] at hi
        refine ⟨K + i, by omega, ?_⟩
        have hp1 := h.2 (K + i) (by omega) (by omega)
        rw [← Real.exp_log hp1, e]
        apply Real.exp_lt_exp.2
        refine lt_of_lt_of_le ?_ hab
        have hc1 : ((0 : ℕ) : ℝ) - p < ((K - p : ℕ) : ℝ) + i := by
          rw [Nat.cast_sub hpK]
          have : (0 : ℝ) < K := by exact_mod_cast h0
          have : (0 : ℝ) ≤ i := by positivity
          push_cast
          linarith
        have := mul_lt_mul_of_pos_left hc1 hs
        linarith
    obtain ⟨th, hth, h1, _⟩ := auto_eq pf values K f out hd
    obtain ⟨hl, hgt, hle⟩ := h1 hex
    refine ⟨th, hth, hl, fun i hi hil => ?_, fun i j hi hj hjl => ?_⟩
    · exact hfpos.trans (hgt.trans_le (hmono th i hi hil))
    · exact (hle i hi).trans_lt (hgt.trans_le (hmono th j hj hjl))

/-- **C99**, orthonormal moments with the default tolerance: for eigenvalues of which at least four are positive and the positive ones are distinct, the construction succeeds in finding a threshold,
and whatever it returns is orthonormal with respect to the covariance. -/
theorem C99_orthonormal_partial {n : Nat} (pf : Polyfit) (hpf : IsPolyfit pf) (cov : Matrix (Fin (n + 1)) (Fin (n + 1)) ℝ) (ev : Fin (n + 1) → ℝ) (hstrict : ∀ i j, i < j → 0 < ev i → ev i < ev j)
    (i4 : Fin (n + 1)) (hi4 : i4.val + 4 ≤ n + 1) (h4 : 0 < ev i4) :
    (∀ e, ¬ RaisesAuto pf cov ev e) ∧ ∀ th L, ConstructsAuto pf cov ev th L → L * cov * L.transpose = 1 := by
  have hg : ∀ i (hi : i < (List.ofFn ev).length), (List.ofFn ev).getD i 0 = ev ⟨i, by simpa using hi⟩ := fun i hi => by
    rw [List.getD_eq_getElem _ _ hi, List.getElem_ofFn]
  have key : ∀ V, Ortho.IsEigh (Ortho.centered cov) ev V → ∃ th, autoThreshold pf (List.ofFn ev) = .ok th ∧ ∀ i : Fin (n + 1), th ≤ i.val → 0 < ev i := by
    intro V he
    classical
    have hex : ∃ p, ∃ hp : p < n + 1, 0 < ev ⟨p, hp⟩ := ⟨i4.val, i4.isLt, h4⟩
    obtain ⟨hp, hpp⟩ := Nat.find_spec hex
    have hp4 : Nat.find hex ≤ i4.val := Nat.find_min' hex ⟨i4.isLt, h4⟩
    have hP : PositiveFrom (List.ofFn ev) (Nat.find hex) := by
      refine ⟨fun i hi => ?_, fun i hi hil => ?_⟩
      · rw [hg i (by simp; omega)]
        by_contra hlt
        push Not at hlt
        exact Nat.find_min hex hi ⟨_, hlt⟩
      · rw [hg i hil]
        exact hpp.trans_le (he.increasing (by simpa [Fin.le_def] using hi))
    obtain ⟨th, hth, hl, hpos, _⟩ := C99_kept_positive_partial pf hpf (List.ofFn ev) (fun i j hij hj => by
      rw [hg i (by omega), hg j hj]; exact he.increasing (by simpa [Fin.le_def] using hij)) _ hP (by simp only [List.length_ofFn]; omega)
      (fun i j hij hj hi => by
        rw [hg i (by omega)] at hi ⊢
        rw [hg j hj]
        exact hstrict _ _ (by simpa [Fin.lt_def] using hij) hi)
    refine ⟨th, hth, fun i hi => ?_⟩
    have hil : i.val < (List.ofFn ev).length := by rw [List.length_ofFn]; exact i.isLt
    have := hpos i.val hi hil
    rwa [hg i.val hil] at this
  refine ⟨fun e ⟨V, he, hr⟩ => ?_, fun th L hc => ?_⟩
  · obtain ⟨th, hth, _⟩ := key V he
    rw [hth] at hr
    cases hr
  · obtain ⟨V, R, Q, he, ht, hrq, hL⟩ := hc
    obtain ⟨th', hth, hpos⟩ := key V he
    rw [hth] at ht
    cases ht
    exact Ortho.C84_orthonormal_threshold cov th L ⟨ev, V, R, Q, he, fun i hi => hpos i hi, hrq, hL⟩

/-- **C99** is false when nothing is to be cut: if all eigenvalues are positive and distinct and the detected position is 0 (all of them have the same slope), the first eigenvalue is cut off
nevertheless. -/
theorem C99_nothing_detected_counterexample (pf : Polyfit) (hpf : IsPolyfit pf) (values out : List ℝ) (h4 : 4 ≤ values.length) (hpos : ∀ i < values.length, 0 < values.getD i 0)
    (hstrict : ∀ i j, i < j → j < values.length → values.getD i 0 < values.getD j 0) (hd : detect pf values true = .ok (0, out)) : autoThreshold pf values = .ok 1 := by
  obtain ⟨K, out', hd', _, _, hlen, hsame, _⟩ := C99_detected pf hpf values 0 ⟨by simp, fun i _ hi => hpos i hi⟩ (by omega)
  rw [hd] at hd'
  cases hd'
  cases out with
  | nil => simp at hlen; omega
  | cons f out =>
    have e := hsame 0 (by omega) (by omega)
    simp only [List.getD_cons_zero] at e
    obtain ⟨th, hth, h1, _⟩ := auto_eq pf values 0 f out hd
    have h01 := hstrict 0 1 (by omega) (by omega)
    obtain ⟨hl, hgt, hle⟩ := h1 ⟨1, by omega, by rw [e]; exact h01⟩
    have : th = 1 := by
      rcases Nat.lt_trichotomy th 1 with h | h | h
      · have : th = 0 := by omega
        rw [this, e] at hgt
        exact absurd hgt (lt_irrefl _)
      · exact h
      · have := hle 1 h
        rw [e] at this
        linarith
    rw [hth, this]
/-! ### Concrete cases -/

/-- Four uncorrelated moments with mean squares 1, 1/2, 1/4, 1/8. -/
noncomputable def cov4 : Matrix (Fin 4) (Fin 4) ℝ := Matrix.diagonal ![1, 1 / 2, 1 / 4, 1 / 8]
/-- Its eigenvalues: their logarithms are on a line. -/
noncomputable def ev4 : Fin 4 → ℝ := ![1 / 8, 1 / 4, 1 / 2, 1]
/-- Its eigenvectors. -/
def V4 : Matrix (Fin 4) (Fin 4) ℝ := !![0, 0, 0, 1; 0, 0, 1, 0; 0, 1, 0, 0; 1, 0, 0, 0]

theorem eigh4 : Ortho.IsEigh (Ortho.centered cov4) ev4 V4 := by
  refine ⟨?_, ?_, ?_⟩
  · intro a b hab
    fin_cases a <;> fin_cases b <;> simp [ev4] at hab ⊢ <;> norm_num
  · ext a b
    fin_cases a <;> fin_cases b <;> simp [V4, Matrix.mul_apply, Fin.sum_univ_four]
  · ext a b
    have hs : ∀ f : Fin (3 + 1) → ℝ, ∑ i, f i = f 0 + f 1 + f 2 + f 3 := Fin.sum_univ_four
    simp only [Ortho.centered, Matrix.mul_apply, Matrix.transpose_apply, hs]
    fin_cases a <;> fin_cases b <;> simp [V4, Ortho.centering, cov4, ev4, Matrix.diagonal_apply]

theorem ev4_list : List.ofFn ev4 = [1 / 8, 1 / 4, 1 / 2, 1] := by simp [ev4, List.ofFn_succ]

theorem ev4_positive : PositiveFrom (List.ofFn ev4) 0 := by
  rw [ev4_list]
  refine ⟨by simp, fun i _ hi => ?_⟩
  have : i = 0 ∨ i = 1 ∨ i = 2 ∨ i = 3 := by simp at hi; omega
  rcases this with rfl | rfl | rfl | rfl <;> norm_num [List.getD]

theorem ev4_strict : ∀ i j, i < j → j < (List.ofFn ev4).length → (List.ofFn ev4).getD i 0 < (List.ofFn ev4).getD j 0 := by
  rw [ev4_list]
  intro i j hij hj
  have hj' : j = 1 ∨ j = 2 ∨ j = 3 := by simp at hj; omega
  have hi' : i = 0 ∨ i = 1 ∨ i = 2 := by simp at hj; omega
  rcases hj' with rfl | rfl | rfl <;> rcases hi' with rfl | rfl | rfl <;> first | omega | norm_num [List.getD]

theorem ev4_detect (pf : Polyfit) : ∃ out, detect pf (List.ofFn ev4) true = .ok (0, out) := by
  rw [detect_eq pf ev4_positive (by simp), four_window pf _ (by rw [logs_length]; simp)]
  exact ⟨_, rfl⟩

theorem ev4_auto (pf : Polyfit) (hpf : IsPolyfit pf) : autoThreshold pf (List.ofFn ev4) = .ok 1 := by
  obtain ⟨out, h⟩ := ev4_detect pf
  exact C99_nothing_detected_counterexample pf hpf _ out (by simp) (fun i hi => ev4_positive.2 i (by omega) hi) ev4_strict h

/-- All of four eigenvalues with logarithms on a line: the construction cuts the smallest one off and returns three moments. -/
theorem constructs4 (pf : Polyfit) (hpf : IsPolyfit pf) : ∃ L, ConstructsAuto pf cov4 ev4 1 L := by
  refine ⟨_, V4, Ortho.icovSqrtT cov4 ev4 V4 1, 1, eigh4, ev4_auto pf hpf, ⟨by simp, by simp, ?_⟩, rfl⟩
  intro i j hij
  change ((Ortho.centering cov4).transpose * V4) i (Ortho.column 1 j) * (1 / √(ev4 (Ortho.column 1 j))) = 0
  have hz : ((Ortho.centering cov4).transpose * V4) i (Ortho.column 1 j) = 0 := by
    change Fin 4 at i
    change Fin 3 at j
    have c0 : Ortho.column (1 : Fin 4) (0 : Fin 3) = 3 := rfl
    have c1 : Ortho.column (1 : Fin 4) (1 : Fin 3) = 2 := rfl
    have c2 : Ortho.column (1 : Fin 4) (2 : Fin 3) = 1 := rfl
    have hs : ∀ f : Fin (3 + 1) → ℝ, ∑ i, f i = f 0 + f 1 + f 2 + f 3 := Fin.sum_univ_four
    simp only [Matrix.mul_apply, Matrix.transpose_apply, hs]
    simp only [Ortho.kept] at hij
    fin_cases i <;> fin_cases j <;> simp [c0, c1, c2, V4, Ortho.centering, cov4, Matrix.diagonal_apply] at hij ⊢
  rw [hz, zero_mul]

/-- The hypotheses hold: there is a least squares fit, four distinct positive eigenvalues, a construction with them; the result is orthonormal. -/
example : IsPolyfit usualFit ∧ (∀ i j, i < j → 0 < ev4 i → ev4 i < ev4 j) ∧ 0 < ev4 0 ∧ ∃ L, ConstructsAuto usualFit cov4 ev4 1 L ∧ L * cov4 * L.transpose = 1 := by
  have hs : ∀ i j, i < j → 0 < ev4 i → ev4 i < ev4 j := by
    intro i j hij _
    fin_cases i <;> fin_cases j <;> simp [ev4] at hij ⊢ <;> norm_num
  have h0 : 0 < ev4 0 := by simp [ev4]
  obtain ⟨L, hL⟩ := constructs4 usualFit usualFit_ok
  exact ⟨usualFit_ok, hs, h0, L, hL, (C99_orthonormal_partial usualFit usualFit_ok cov4 ev4 hs 0 (by simp) h0).2 1 L hL⟩

/-- Four orthonormal moments and one that is always zero. -/
noncomputable def covTies : Matrix (Fin 5) (Fin 5) ℝ := Matrix.diagonal ![1, 1, 1, 1, 0]
/-- Its eigenvalues. -/
noncomputable def evTies : Fin 5 → ℝ := ![0, 1, 1, 1, 1]
/-- Its eigenvectors. -/
def VTies : Matrix (Fin 5) (Fin 5) ℝ := !![0, 0, 0, 0, 1; 0, 0, 0, 1, 0; 0, 0, 1, 0, 0; 0, 1, 0, 0, 0; 1, 0, 0, 0, 0]

theorem eighTies : Ortho.IsEigh (Ortho.centered covTies) evTies VTies := by
  refine ⟨?_, ?_, ?_⟩
  · intro a b hab
    fin_cases a <;> fin_cases b <;> simp [evTies] at hab ⊢
  · ext a b
    fin_cases a <;> fin_cases b <;> simp [VTies, Matrix.mul_apply, Fin.sum_univ_five]
  · ext a b
    have hs : ∀ f : Fin (4 + 1) → ℝ, ∑ i, f i = f 0 + f 1 + f 2 + f 3 + f 4 := Fin.sum_univ_five
    simp only [Ortho.centered, Matrix.mul_apply, Matrix.transpose_apply, hs]
    fin_cases a <;> fin_cases b <;> simp [VTies, Ortho.centering, covTies, evTies, Matrix.diagonal_apply]

/-- **C99** is false for equal eigenvalues: with eigenvalues 0, 1, 1, 1, 1 nothing is cut off, the eigenvalue 0 is kept and its inverse square root is used. -/
theorem C99_equal_counterexample (pf : Polyfit) (hpf : IsPolyfit pf) :
    Ortho.IsEigh (Ortho.centered covTies) evTies VTies ∧ autoThreshold pf (List.ofFn evTies) = .ok 0 ∧ evTies 0 = 0 := by
  refine ⟨eighTies, ?_, by simp [evTies]⟩
  have el : List.ofFn evTies = [0, 1, 1, 1, 1] := by simp [evTies, List.ofFn_succ]
  rw [el]
  have hP : PositiveFrom [0, 1, 1, 1, 1] 1 := by
    refine ⟨fun i hi => ?_, fun i h1 hi => ?_⟩
    · have : i = 0 := by omega
      subst this
      simp
    · have : i = 1 ∨ i = 2 ∨ i = 3 ∨ i = 4 := by simp at hi; omega
      rcases this with rfl | rfl | rfl | rfl <;> norm_num [List.getD]
  have hlog : logs [0, 1, 1, 1, 1] 1 = [0, 0, 0, 0] := by simp [logs]
  have hfit : (windowOf pf [0, 0, 0, 0] 0 3).slope = 0 ∧ (windowOf pf [0, 0, 0, 0] 0 3).intercept = 0 := by
    obtain ⟨h1, h2⟩ := hpf.arange 0 (slice [0, 0, 0, 0] 0 3) (by simp [slice])
    have h3 := h2 0 0
    rw [h1] at h3
    have e3 : (slice ([0, 0, 0, 0] : List ℝ) 0 3) = [0, 0, 0] := rfl
    simp only [windowOf, e3] at h3 ⊢
    simp only [List.length_cons, List.length_nil, Nat.zero_add] at h3
    revert h3
    generalize (pf (arange 0 (1 + 1 + 1)) [0, 0, 0]).1 = s
    generalize (pf (arange 0 (1 + 1 + 1)) [0, 0, 0]).2.1 = c
    intro h3
    norm_num [sqErr, Finset.sum_range_succ, List.getD] at h3
    have hc : c = 0 := by nlinarith [sq_nonneg c, sq_nonneg (s + c), sq_nonneg (s * 2 + c)]
    subst hc
    exact ⟨by nlinarith [sq_nonneg s], rfl⟩
  have hd := detect_eq pf hP (by simp)
  rw [hlog, four_window pf _ rfl] at hd
  simp only [hfit.1, hfit.2] at hd
  obtain ⟨th, hth, _, h0⟩ := auto_eq pf [0, 1, 1, 1, 1] 1 1 _ (by rw [hd]; simp [windowOf]; rfl)
  rw [hth, h0 ?_]
  intro i hi
  have : i = 0 ∨ i = 1 ∨ i = 2 ∨ i = 3 ∨ i = 4 := by simp at hi; omega
  rcases this with rfl | rfl | rfl | rfl | rfl <;> norm_num [List.getD]
end MLMC.Slope
