import Verif.Model.FloatAllocation
import Verif.Props.Allocation
import Verif.Props.FloatEstimate
/-! # C161 Sample allocation in floating-point arithmetic -/
namespace MLMC.Alloc
open Fl
variable {L M : Nat} {A : Arith ℝ} {u : ℝ}

/-! ## Helpers -/

theorem rnd_sign (hA : A.Valid u) (hu : u < 1) {x : ℝ} : (0 ≤ x → 0 ≤ A.rnd x) ∧ (x < 0 → A.rnd x < 0) := by
  have h := abs_le.1 (hA.rnd x)
  constructor
  · intro hx
    rw [abs_of_nonneg hx] at h
    nlinarith [h.1]
  · intro hx
    rw [abs_of_neg hx] at h
    nlinarith [h.2]

/-- Relative error of a square root of a rounded number. -/
theorem sqrt_near (hu : 0 ≤ u) (hu1 : u < 1) {x y : ℝ} (hx : 0 ≤ x) (h : |y - x| ≤ u * |x|) : Near u 1 (Real.sqrt x) (Real.sqrt y) (Real.sqrt x) := by
  refine ⟨by rw [abs_of_nonneg (Real.sqrt_nonneg _)], ?_⟩
  rw [abs_of_nonneg hx] at h
  have hg : gamma u 1 = u := by unfold gamma; ring
  rw [hg]
  have h := abs_le.1 h
  have hs := Real.sqrt_nonneg x
  have hsq := Real.sq_sqrt hx
  have up : Real.sqrt y ≤ (1 + u) * Real.sqrt x := by
    refine Real.sqrt_le_iff.2 ⟨by positivity, ?_⟩
    rw [mul_pow, hsq]
    nlinarith [mul_nonneg hu hx, mul_nonneg (mul_nonneg hu hu) hx]
  have lo : (1 - u) * Real.sqrt x ≤ Real.sqrt y := by
    refine Real.le_sqrt_of_sq_le ?_
    rw [mul_pow, hsq]
    nlinarith [mul_nonneg hu hx, mul_nonneg (mul_nonneg hu (sub_nonneg.2 hu1.le)) hx]
  exact abs_le.2 ⟨by linarith, by linarith⟩

variable {V : Fin L → Fin M → ℝ} {C : Fin L → ℝ}

theorem work_near (hA : A.Valid u) (hu1 : u < 1) (hV : ∀ l m, 0 ≤ V l m) (hC : ∀ l, 0 < C l) (m : Fin M) (k : Fin L) :
    ∃ s, flWork A (fun l m => some (V l m)) C m k = some s ∧ Near u 2 (Real.sqrt (V k m * C k)) s (Real.sqrt (V k m * C k)) := by
  have hx := mul_nonneg (hV k m) (hC k).le
  refine ⟨A.rnd (Real.sqrt (A.rnd (V k m * C k))), ?_, (sqrt_near hA.nonneg hu1 hx (hA.rnd _)).rnd hA.nonneg hA.rnd⟩
  simp only [flWork, Option.bind_some, if_neg (not_lt.2 ((rnd_sign hA hu1).1 hx))]

theorem total_near (hA : A.Valid u) (hu1 : u < 1) (hV : ∀ l m, 0 ≤ V l m) (hC : ∀ l, 0 < C l) (hL : 0 < L) (m : Fin M) :
    ∃ t, flTotal A (fun l m => some (V l m)) C m = some t ∧ Near u (L + 1) (∑ k, Real.sqrt (V k m * C k)) t (∑ k, Real.sqrt (V k m * C k)) := by
  choose s hs hn using fun k => work_near hA hu1 hV hC m k
  refine ⟨A.sum (List.ofFn s), ?_, ?_⟩
  · rw [flTotal, if_pos (fun k => by rw [hs k]; rfl)]
    simp only [hs, Option.getD_some]
  · have h := hA.sum_near 2 (List.finRange L) (by simp [List.finRange_eq_nil_iff]; omega) (fun k => Real.sqrt (V k m * C k)) s (fun k => Real.sqrt (V k m * C k)) fun k _ => hn k
    rw [List.length_finRange, show 2 + (L - 1) = L + 1 by omega, ← List.ofFn_eq_map, ← List.ofFn_eq_map, List.sum_ofFn] at h
    exact h

theorem optimum_near (hA : A.Valid u) (hu1 : u < 1) {target : ℝ} (ht : 0 < target) (hV : ∀ l m, 0 ≤ V l m) (hC : ∀ l, 0 < C l) (l : Fin L) (m : Fin M) :
    ∃ x, flOptimum A target (fun l m => some (V l m)) C l m = some x ∧ |x - optimal target V C l m| ≤ gamma u (L + 6) * optimal target V C l m := by
  obtain ⟨s, hs, hns⟩ := work_near hA hu1 hV hC m l
  obtain ⟨t, htt, hnt⟩ := total_near hA hu1 hV hC (Fin.pos l) m
  refine ⟨_, by rw [flOptimum, hs, htt]; rfl, ?_⟩
  have h := (((((hns.div (hC l)).rnd hA.nonneg hA.rnd).mul hA.nonneg hnt).rnd hA.nonneg hA.rnd).div ht).rnd hA.nonneg hA.rnd
  rw [show 2 + 1 + (L + 1) + 1 + 1 = L + 6 by omega, sqrt_mul_div (hC l)] at h
  exact h.2

theorem cap_near (hA : A.Valid u) {target : ℝ} (ht : 0 < target) (hV : ∀ l m, 0 ≤ V l m) (l : Fin L) (m : Fin M) :
    |A.rnd (A.rnd (V l m * L) / target) - cap target V l m| ≤ gamma u (L + 6) * cap target V l m := by
  have h0 : 0 ≤ V l m * L := mul_nonneg (hV l m) (Nat.cast_nonneg _)
  have h := (((Near.refl hA.nonneg 0 (V l m * L)).rnd hA.nonneg hA.rnd).div ht).rnd hA.nonneg hA.rnd
  rw [abs_of_nonneg h0] at h
  exact (h.mono hA.nonneg (by omega)).2

theorem toInt64_some {z : ℤ} (h1 : -2 ^ 63 ≤ z) (h2 : z < 2 ^ 63) : toInt64 (some z) = z := if_pos ⟨h1, h2⟩

theorem optimal_nonneg {target : ℝ} (ht : 0 < target) (V : Fin L → Fin M → ℝ) (C : Fin L → ℝ) (l : Fin L) (m : Fin M) : 0 ≤ optimal target V C l m :=
  div_nonneg (mul_nonneg (Real.sqrt_nonneg _) (Finset.sum_nonneg fun _ _ => Real.sqrt_nonneg _)) ht.le

theorem cap_nonneg {target : ℝ} (ht : 0 < target) (hV : ∀ l m, 0 ≤ V l m) (l : Fin L) (m : Fin M) : 0 ≤ cap target V l m :=
  div_nonneg (mul_nonneg (hV l m) (Nat.cast_nonneg _)) ht.le

/-- What is compared with 2 for one moment. -/
theorem safe_value (hA : A.Valid u) (hu1 : u < 1) {target : ℝ} (ht : 0 < target) (hV : ∀ l m, 0 ≤ V l m) (hC : ∀ l, 0 < C l) (hg : gamma u (L + 6) < 1) (l : Fin L) (m : Fin M)
    (hbig : (1 + gamma u (L + 6)) * optimal target V C l m + 1 < 2 ^ 63) :
    ∃ (z : ℤ) (y : ℝ), flSafe A target (fun l m => some (V l m)) C L l m = some (max (min (z : ℝ) y) 2) ∧ z < 2 ^ 63 ∧
      (1 - gamma u (L + 6)) * optimal target V C l m - 1 / 2 ≤ z ∧ (z : ℝ) ≤ (1 + gamma u (L + 6)) * optimal target V C l m + 1 / 2 ∧
      (1 - gamma u (L + 6)) * cap target V l m ≤ y ∧ y ≤ (1 + gamma u (L + 6)) * cap target V l m := by
  obtain ⟨x, hx, hnx⟩ := optimum_near hA hu1 ht hV hC l m
  have hx' := abs_le.1 hnx
  have ho := optimal_nonneg ht V C l m
  have hr := abs_le.1 (npRound_rounded x).1
  have hc := abs_le.1 (cap_near hA ht hV l m)
  have hz : (npRound x : ℝ) < 2 ^ 63 := by nlinarith [hr.2, hx'.2]
  have hz' : npRound x < 2 ^ 63 := by exact_mod_cast hz
  have hlow : (-1 : ℝ) < npRound x := by nlinarith [hr.1, hx'.1, mul_nonneg ho (sub_nonneg.2 hg.le)]
  have hlow' : -1 < npRound x := by exact_mod_cast hlow
  refine ⟨npRound x, A.rnd (A.rnd (V l m * L) / target), ?_, hz', ?_, ?_, ?_, ?_⟩
  · rw [flSafe, flEstimate, hx]
    simp only [Option.map_some]
    rw [toInt64_some (by omega) hz']
  · linarith [hr.1, hx'.1]
  · linarith [hr.2, hx'.2]
  · linarith [hc.1]
  · linarith [hc.2]

/-! ## C161 -/

/-- C161: in floating-point arithmetic with relative rounding errors at most `u`, for numbers within 64-bit integers, the numbers of samples are at least 2 and within rounding of the limited optimum, up to
the relative error `γ = (1 + u) ^ (L + 6) - 1`, `L` being the number of levels. -/
theorem C161_near_limited_optimum (A : Arith ℝ) (u : ℝ) (hA : A.Valid u) (target : ℝ) (ht : 0 < target) (V : Fin L → Fin (M + 1) → ℝ) (hV : ∀ l m, 0 ≤ V l m) (C : Fin L → ℝ)
    (hC : ∀ l, 0 < C l) (hg : gamma u (L + 6) < 1) (l : Fin L) (hbig : ∀ m, (1 + gamma u (L + 6)) * optimal target V C l m + 1 < 2 ^ 63) :
    2 ≤ flSamples A target (fun l m => some (V l m)) C L l ∧
    (∀ m, (1 - gamma u (L + 6)) * min (optimal target V C l m) (cap target V l m) < flSamples A target (fun l m => some (V l m)) C L l + 1) ∧
    ∃ m, (flSamples A target (fun l m => some (V l m)) C L l : ℝ) ≤
      max (min ((1 + gamma u (L + 6)) * optimal target V C l m + 1 / 2) ((1 + gamma u (L + 6)) * cap target V l m)) 2 := by
  have hu1 : u < 1 := by
    have : gamma u 1 ≤ gamma u (L + 6) := gamma_mono hA.nonneg (by omega)
    have e : gamma u 1 = u := by unfold gamma; ring
    linarith
  set γ := gamma u (L + 6) with hγ
  choose z y hs hz63 hz1 hz2 hy1 hy2 using fun m => safe_value hA hu1 ht hV hC hg l m (hbig m)
  set S := Finset.univ.sup' Finset.univ_nonempty fun m => max (min (z m : ℝ) (y m)) 2 with hS
  have hn : flSamples A target (fun l m => some (V l m)) C L l = ⌊S⌋ := by
    have e : (if ∀ m, (flSafe A target (fun l m => some (V l m)) C L l m).isSome then
        some ⌊Finset.univ.sup' Finset.univ_nonempty fun m => (flSafe A target (fun l m => some (V l m)) C L l m).getD 0⌋ else none) = some ⌊S⌋ := by
      rw [if_pos fun m => by rw [hs m]; rfl]
      simp only [hs, Option.getD_some, hS]
    rw [flSamples, e]
    have h2 : (2 : ℝ) ≤ S := (le_max_right _ _).trans (Finset.le_sup' (f := fun m => max (min (z m : ℝ) (y m)) 2) (Finset.mem_univ 0))
    have h2' : (2 : ℤ) ≤ ⌊S⌋ := Int.le_floor.2 (by exact_mod_cast h2)
    refine toInt64_some (by omega) ?_
    obtain ⟨m, _, hm⟩ := Finset.exists_mem_eq_sup' Finset.univ_nonempty fun m => max (min (z m : ℝ) (y m)) 2
    rw [← hS] at hm
    have : S < 2 ^ 63 := by
      rw [hm]
      refine max_lt ((min_le_left _ _).trans_lt ?_) (by norm_num)
      exact_mod_cast hz63 m
    exact Int.floor_lt.2 (by exact_mod_cast this)
  have h2 : (2 : ℝ) ≤ S := (le_max_right _ _).trans (Finset.le_sup' (f := fun m => max (min (z m : ℝ) (y m)) 2) (Finset.mem_univ 0))
  rw [hn]
  refine ⟨Int.le_floor.2 (by exact_mod_cast h2), fun m => ?_, ?_⟩
  · have hle : max (min (z m : ℝ) (y m)) 2 ≤ S := Finset.le_sup' (f := fun m => max (min (z m : ℝ) (y m)) 2) (Finset.mem_univ m)
    have hfl : S < ⌊S⌋ + 1 := Int.lt_floor_add_one S
    have hg1 : 0 ≤ 1 - γ := by linarith
    by_cases hc : (z m : ℝ) ≤ y m
    · have h1 : (z m : ℝ) ≤ S := by rw [min_eq_left hc] at hle; exact (le_max_left _ _).trans hle
      have h3 : z m ≤ ⌊S⌋ := Int.le_floor.2 h1
      have h3' : (z m : ℝ) ≤ ⌊S⌋ := by exact_mod_cast h3
      calc (1 - γ) * min (optimal target V C l m) (cap target V l m) ≤ (1 - γ) * optimal target V C l m := mul_le_mul_of_nonneg_left (min_le_left _ _) hg1
        _ < _ := by linarith [hz1 m]
    · calc (1 - γ) * min (optimal target V C l m) (cap target V l m) ≤ (1 - γ) * cap target V l m := mul_le_mul_of_nonneg_left (min_le_right _ _) hg1
        _ ≤ y m := hy1 m
        _ = min (z m : ℝ) (y m) := (min_eq_right (le_of_not_ge hc)).symm
        _ ≤ S := (le_max_left _ _).trans hle
        _ < _ := hfl
  · obtain ⟨m, _, hm⟩ := Finset.exists_mem_eq_sup' Finset.univ_nonempty fun m => max (min (z m : ℝ) (y m)) 2
    rw [← hS] at hm
    refine ⟨m, (Int.floor_le S).trans ?_⟩
    rw [hm]
    exact max_le_max (min_le_min (hz2 m) (hy2 m)) le_rfl

/-- C161: the consequence for the predicted variance, as C52 up to the rounding errors: with one more sample on each level it is at most twice the target divided by `1 - γ`. -/
theorem C161_within_factor_two (A : Arith ℝ) (u : ℝ) (hA : A.Valid u) (target : ℝ) (ht : 0 < target) (V : Fin L → Fin (M + 1) → ℝ) (hV : ∀ l m, 0 ≤ V l m) (C : Fin L → ℝ)
    (hC : ∀ l, 0 < C l) (hg : gamma u (L + 6) < 1) (hbig : ∀ l m, (1 + gamma u (L + 6)) * optimal target V C l m + 1 < 2 ^ 63) (m : Fin (M + 1)) :
    predicted V (fun l => flSamples A target (fun l m => some (V l m)) C L l + 1) m ≤ 2 * target / (1 - gamma u (L + 6)) := by
  have hg1 : 0 < 1 - gamma u (L + 6) := by linarith
  unfold predicted
  have hterm : ∀ l : Fin L, V l m / ((flSamples A target (fun l m => some (V l m)) C L l : ℝ) + 1) ≤
      (target * (Real.sqrt (V l m * C l) / total V C m) + target / L) / (1 - gamma u (L + 6)) := by
    intro l
    obtain ⟨h2, h3, -⟩ := C161_near_limited_optimum A u hA target ht V hV C hC hg l (hbig l)
    have hn : (2 : ℝ) ≤ flSamples A target (fun l m => some (V l m)) C L l := by exact_mod_cast h2
    have hL : (0 : ℝ) < L := by exact_mod_cast (Fin.pos l)
    have h0 : 0 ≤ Real.sqrt (V l m * C l) / total V C m :=
      div_nonneg (Real.sqrt_nonneg _) (Finset.sum_nonneg fun _ _ => Real.sqrt_nonneg _)
    set n : ℝ := (flSamples A target (fun l m => some (V l m)) C L l : ℝ) + 1 with hn'
    have hmin : min (optimal target V C l m) (cap target V l m) ≤ n / (1 - gamma u (L + 6)) := by
      rw [le_div_iff₀ hg1, mul_comm]
      exact (h3 m).le
    have hbound : V l m / (n / (1 - gamma u (L + 6))) ≤ target * (Real.sqrt (V l m * C l) / total V C m) + target / L := by
      rcases contribution target ht V hV C hC l m _ (by positivity) hmin with h | h
      · have : 0 ≤ target / L := by positivity
        linarith
      · have := mul_nonneg ht.le h0
        linarith
    rw [div_div_eq_mul_div] at hbound
    rw [le_div_iff₀ hg1]
    calc V l m / n * (1 - gamma u (L + 6)) = V l m * (1 - gamma u (L + 6)) / n := by ring
      _ ≤ _ := hbound
  refine (Finset.sum_le_sum fun l _ => hterm l).trans ?_
  rw [← Finset.sum_div]
  refine div_le_div_of_nonneg_right ?_ hg1.le
  rw [Finset.sum_add_distrib, ← Finset.mul_sum, Finset.sum_const, Finset.card_univ, Fintype.card_fin, nsmul_eq_mul]
  have h1 : target * ∑ l, Real.sqrt (V l m * C l) / total V C m ≤ target * 1 := mul_le_mul_of_nonneg_left (shares V C m) ht.le
  have h2 : (L : ℝ) * (target / L) ≤ target := by
    rcases Nat.eq_zero_or_pos L with h | h
    · subst h; simp [ht.le]
    · have : (0 : ℝ) < L := by exact_mod_cast h
      rw [mul_div_cancel₀ _ this.ne']
  linarith

/-- The number for one moment depends on the variances of this moment only. -/
theorem flSafe_column {V V' : Fin L → Fin M → Option ℝ} {m : Fin M} (h : ∀ k, V k m = V' k m) (A : Arith ℝ) (target : ℝ) (C : Fin L → ℝ) (nLevels : Nat) (l : Fin L) :
    flSafe A target V C nLevels l m = flSafe A target V' C nLevels l m := by
  have hw : ∀ k, flWork A V C m k = flWork A V' C m k := fun k => by rw [flWork, flWork, h]
  have ht : flTotal A V C m = flTotal A V' C m := by
    unfold flTotal
    simp only [hw]
  rw [flSafe, flSafe, h, flEstimate, flEstimate, flOptimum, flOptimum, hw, ht]

/-- A moment with a negative variance on one level. -/
theorem flSafe_negative {V : Fin L → Fin M → Option ℝ} {m : Fin M} (hA : A.Valid u) (hu : u < 1) (target : ℝ) (C : Fin L → ℝ) (hC : ∀ l, 0 < C l) (nLevels : Nat) (l : Fin L) (hs : (V l m).isSome)
    {k : Fin L} {v : ℝ} (hv : V k m = some v) (h0 : v < 0) : flSafe A target V C nLevels l m = some 2 := by
  have hw : flWork A V C m k = none := by
    rw [flWork, hv, Option.bind_some, if_pos ((rnd_sign hA hu).2 (mul_neg_of_neg_of_pos h0 (hC k)))]
  have ht : flTotal A V C m = none := by
    rw [flTotal, if_neg]
    intro h
    have := h k
    rw [hw] at this
    cases this
  have he : flEstimate A target V C l m = -2 ^ 63 := by
    rw [flEstimate, flOptimum, ht]
    cases flWork A V C m l <;> rfl
  obtain ⟨x, hx⟩ := Option.isSome_iff_exists.1 hs
  rw [flSafe, hx, Option.map_some, he]
  congr 1
  refine max_eq_right ((min_le_left _ _).trans ?_)
  norm_num

theorem rnd_zero (hA : A.Valid u) : A.rnd 0 = 0 := by
  have := hA.rnd 0
  rw [abs_zero, mul_zero, sub_zero] at this
  exact abs_nonpos_iff.1 this

/-- C161, negative variances (level variances computed in floating-point arithmetic can be negative, `C105_negative_variance_counterexample`): if the variance of a moment is negative on one level, the
numbers of samples of all levels are those for the variance 0 of this moment on all levels, also where its variance is positive, however small the target is. -/
theorem C161_negative_moment (A : Arith ℝ) (u : ℝ) (hA : A.Valid u) (hu : u < 1) (target : ℝ) (V : Fin L → Fin (M + 1) → Option ℝ) (C : Fin L → ℝ) (hC : ∀ l, 0 < C l) (nLevels : Nat)
    (bad : Fin (M + 1)) (hV : ∀ l, (V l bad).isSome) (k : Fin L) (v : ℝ) (hv : V k bad = some v) (h0 : v < 0) (l : Fin L) :
    flSamples A target V C nLevels l = flSamples A target (fun l m => if m = bad then some 0 else V l m) C nLevels l := by
  have hs : ∀ m, flSafe A target V C nLevels l m = flSafe A target (fun l m => if m = bad then some 0 else V l m) C nLevels l m := by
    intro m
    by_cases hm : m = bad
    · subst hm
      rw [flSafe_negative hA hu target C hC nLevels l (hV l) hv h0, flSafe, if_pos rfl, Option.map_some, zero_mul, rnd_zero hA, zero_div, rnd_zero hA]
      congr 1
      exact (max_eq_right ((min_le_right _ _).trans (by norm_num))).symm
    · exact flSafe_column (fun k => by rw [if_neg hm]) A target C nLevels l
  simp only [flSamples, hs]

/-- C161, negative variances: if every moment has a negative variance on one level, each level gets 2 samples, however small the target is. -/
theorem C161_negative_variance (A : Arith ℝ) (u : ℝ) (hA : A.Valid u) (hu : u < 1) (target : ℝ) (V : Fin L → Fin (M + 1) → Option ℝ) (hV : ∀ l m, (V l m).isSome) (C : Fin L → ℝ)
    (hC : ∀ l, 0 < C l) (nLevels : Nat) (hneg : ∀ m, ∃ k v, V k m = some v ∧ v < 0) (l : Fin L) : flSamples A target V C nLevels l = 2 := by
  have hs : ∀ m, flSafe A target V C nLevels l m = some 2 := by
    intro m
    obtain ⟨k, v, hv, h0⟩ := hneg m
    exact flSafe_negative hA hu target C hC nLevels l (hV l m) hv h0
  rw [flSamples, if_pos fun m => by rw [hs m]; rfl]
  simp only [hs, Option.getD_some, Finset.sup'_const]
  have : ⌊(2 : ℝ)⌋ = 2 := by norm_num
  rw [this]
  rfl

/-- C161, NaN variances (a level with less than two samples, C46): a level with a NaN variance gets the number -2^63, not 2. -/
theorem C161_nan_variance (A : Arith ℝ) (target : ℝ) (V : Fin L → Fin (M + 1) → Option ℝ) (C : Fin L → ℝ) (nLevels : Nat) (l : Fin L) (m : Fin (M + 1)) (h : V l m = none) :
    flSamples A target V C nLevels l = -2 ^ 63 := by
  rw [flSamples, if_neg]
  · rfl
  · intro hall
    have := hall m
    rw [flSafe, h] at this
    cases this

/-- Exact arithmetic. -/
def exact : Arith ℝ := ⟨fun x => x, float64.order⟩

theorem exact_valid : exact.Valid 0 := ⟨le_rfl, fun x => by simp [exact], float64_valid.order⟩

/-- One level with variance and cost 1. -/
theorem one_level (target : ℝ) (ht : 0 < target) (l : Fin 1) (m : Fin 1) : optimal target (fun _ _ => 1) (fun _ => 1) l m = 1 / target ∧ cap target (fun (_ : Fin 1) (_ : Fin 1) => 1) l m = 1 / target := by
  simp [optimal, cap]

/-- C161, what is not true: a smaller target variance does not always ask for more samples.  If the optimum exceeds 64-bit integers, the result is 2 samples.  One level with variance and cost 1: the target
`1 / 10^18` asks for `10^18` samples (at least `10^18 - 1`), the target `1 / 10^19` for 2. -/
theorem C161_counterexample_monotone :
    10 ^ 18 - 1 ≤ flSamples (L := 1) (M := 0) exact (1 / 10 ^ 18) (fun _ _ => some 1) (fun _ => 1) 1 0 ∧ flSamples (L := 1) (M := 0) exact (1 / 10 ^ 19) (fun _ _ => some 1) (fun _ => 1) 1 0 = 2 := by
  have hg : gamma (0 : ℝ) (1 + 6) = 0 := by unfold gamma; norm_num
  constructor
  · obtain ⟨-, h, -⟩ := C161_near_limited_optimum (L := 1) (M := 0) exact 0 exact_valid (1 / 10 ^ 18) (by norm_num) (fun _ _ => 1) (fun _ _ => zero_le_one) (fun _ => 1) (fun _ => one_pos) (by rw [hg]; norm_num) 0
      (fun m => by rw [hg, (one_level _ (by norm_num) 0 m).1]; norm_num)
    have h := h 0
    rw [hg, (one_level _ (by norm_num) 0 0).1, (one_level _ (by norm_num) 0 0).2] at h
    norm_num at h
    have h' : (1000000000000000000 : ℤ) < flSamples (L := 1) (M := 0) exact (1 / 10 ^ 18) (fun _ _ => some 1) (fun _ => 1) 1 0 + 1 := by
      have e : (1 / 10 ^ 18 : ℝ) = 1 / 1000000000000000000 := by norm_num
      rw [e]
      exact_mod_cast h
    omega
  · obtain ⟨x, hx, hn⟩ := optimum_near (L := 1) (M := 1) exact_valid one_pos (target := 1 / 10 ^ 19) (by norm_num) (V := fun _ _ => 1) (fun _ _ => zero_le_one) (C := fun _ => 1) (fun _ => one_pos) 0 0
    have hg' : gamma (0 : ℝ) (1 + 6) = 0 := hg
    rw [hg', (one_level _ (by norm_num) 0 0).1, zero_mul] at hn
    have hx' : x = ((10 ^ 19 : ℕ) : ℝ) := by
      have := abs_nonpos_iff.1 hn
      push_cast
      rw [sub_eq_zero.1 this]
      norm_num
    have he : flEstimate (L := 1) (M := 1) exact (1 / 10 ^ 19) (fun _ _ => some 1) (fun _ => 1) 0 0 = -2 ^ 63 := by
      rw [flEstimate, hx, Option.map_some, hx', npRound_nat, toInt64, if_neg]
      norm_num
    have hs : ∀ m : Fin (0 + 1), flSafe (L := 1) (M := 0 + 1) exact (1 / 10 ^ 19) (fun _ _ => some 1) (fun _ => 1) 1 0 m = some 2 := by
      intro m
      obtain rfl : m = 0 := by ext; omega
      rw [flSafe, Option.map_some]
      rw [show flEstimate (L := 1) (M := 0 + 1) exact (1 / 10 ^ 19) (fun _ _ => some 1) (fun _ => 1) 0 0 = -2 ^ 63 from he]
      congr 1
      refine max_eq_right ((min_le_left _ _).trans ?_)
      norm_num
    rw [flSamples, if_pos fun m => by rw [hs m]; rfl]
    simp only [hs, Option.getD_some, Finset.sup'_const]
    have : ⌊(2 : ℝ)⌋ = 2 := by norm_num
    rw [this]
    rfl

/-! ## The hypotheses are met -/

/-- Every result is off by the factor `1 + 1 / 2^53`, the largest relative error of doubles. -/
noncomputable def off : Arith ℝ := ⟨fun x => x * (1 + 1 / 2 ^ 53), float64.order⟩

theorem off_valid : off.Valid (1 / 2 ^ 53) := by
  refine ⟨by norm_num, fun x => ?_, float64_valid.order⟩
  have : off.rnd x - x = 1 / 2 ^ 53 * x := by simp only [off]; ring
  rw [this, abs_mul, abs_of_nonneg (by norm_num)]

/-- Two levels with the variances and costs of `C52_counterexample`, every operation rounded. -/
example (m : Fin 1) := C161_within_factor_two off (1 / 2 ^ 53) off_valid 1 one_pos exV (by intro l m; unfold exV; split <;> norm_num) (fun _ => 1) (fun _ => one_pos)
  (by unfold gamma; norm_num) (by
    intro l m
    have h : optimal 1 exV (fun _ => 1) l m ≤ 11000 := by
      unfold optimal exV
      simp only [Fin.sum_univ_two, Fin.isValue, if_true, one_ne_zero, if_false, mul_one, div_one, sqrt_exV.1, sqrt_exV.2]
      split
      · rw [sqrt_exV.1]; norm_num
      · rw [sqrt_exV.2]; norm_num
    have : gamma (1 / 2 ^ 53 : ℝ) (2 + 6) ≤ 1 := by unfold gamma; norm_num
    have h0 := optimal_nonneg one_pos exV (fun _ => 1) l m
    nlinarith) m

/-- Variances 5, -1/10^20 of one moment on two levels. -/
example (target : ℝ) := C161_negative_variance (L := 2) (M := 0) off (1 / 2 ^ 53) off_valid (by norm_num) target (fun l _ => some (if l = 0 then 5 else -1 / 10 ^ 20)) (fun _ _ => rfl) (fun _ => 1)
  (fun _ => one_pos) 2 (fun _ => ⟨1, _, rfl, by norm_num⟩)

/-- Two moments, the second with the variances 5, -1/10^20. -/
example (target : ℝ) (l : Fin 2) := C161_negative_moment (L := 2) (M := 1) off (1 / 2 ^ 53) off_valid (by norm_num) target (fun l m => some (if m = 0 then 3 else if l = 0 then 5 else -1 / 10 ^ 20)) (fun _ => 1)
  (fun _ => one_pos) 2 1 (fun _ => rfl) 1 (-1 / 10 ^ 20) (by simp) (by norm_num) l

end MLMC.Alloc
