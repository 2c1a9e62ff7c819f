import Verif.Spec.Allocation
import Mathlib.Tactic.Linarith
import Mathlib.Tactic.FieldSimp
import Mathlib.Tactic.NormNum
import Mathlib.Tactic.Positivity
import Mathlib.Tactic.FinCases
import Mathlib.Data.List.Pairwise
/-
C51, C52, C53, C73: planning of samples and levels.
-/
namespace MLMC.Alloc
variable {L M : Nat}

/-! ## Rounding -/

theorem npRound_ge (x : ℝ) : ⌊x⌋ ≤ npRound x := by
  unfold npRound; split_ifs <;> omega

theorem npRound_le (x : ℝ) : npRound x ≤ ⌊x⌋ + 1 := by
  unfold npRound; split_ifs <;> omega

theorem npRound_rounded (x : ℝ) : IsRounded x (npRound x) := by
  have h := Int.floor_add_fract x
  have h0 := Int.fract_nonneg x
  have h1 := Int.fract_lt_one x
  unfold npRound
  split_ifs with a b c
  · refine ⟨by rw [abs_le]; constructor <;> linarith, fun e => ?_⟩
    rw [abs_of_nonpos (by linarith)] at e; linarith
  · unfold IsRounded
    rw [Int.cast_add, Int.cast_one]
    refine ⟨by rw [abs_le]; constructor <;> linarith, fun e => ?_⟩
    rw [abs_of_nonneg (by linarith)] at e; linarith
  · exact ⟨by rw [abs_le]; constructor <;> linarith, fun _ => c⟩
  · refine ⟨by push_cast; rw [abs_le]; constructor <;> linarith, fun _ => ?_⟩
    rw [Int.not_even_iff_odd] at c
    exact Odd.add_one c

theorem npRound_mono {x y : ℝ} (h : x ≤ y) : npRound x ≤ npRound y := by
  rcases lt_or_eq_of_le (Int.floor_mono h) with hf | hf
  · have := npRound_le x; have := npRound_ge y; omega
  · have hx := Int.floor_add_fract x
    have hy := Int.floor_add_fract y
    have hfr : Int.fract x ≤ Int.fract y := by
      have : (⌊x⌋ : ℝ) = ⌊y⌋ := by rw [hf]
      linarith
    unfold npRound
    rw [hf]
    split_ifs <;> first | omega | (exfalso; linarith)

/-! ## C51 -/

theorem sqrt_mul_div {v c : ℝ} (hc : 0 < c) : Real.sqrt (v * c) / c = Real.sqrt (v / c) := by
  have e : v / c = v * c / c ^ 2 := by field_simp
  rw [e, Real.sqrt_div' _ (by positivity), Real.sqrt_sq hc.le]

theorem estimateSafe_eq (target : ℝ) (V : Fin L → Fin M → ℝ) (C : Fin L → ℝ) (hC : ∀ l, 0 < C l) (l : Fin L) (m : Fin M) :
    estimateSafe target V C L l m = max (min (npRound (optimal target V C l m) : ℝ) (cap target V l m)) 2 := by
  unfold estimateSafe estimate optimal cap total
  rw [sqrt_mul_div (hC l)]

/-- C51: the number of samples of a level is the largest over all moments of the rounded optimum, limited from above by `V_l L / target` and from
below by 2 (fractions of the bound are cut). -/
theorem C51_formula (target : ℝ) (V : Fin L → Fin (M + 1) → ℝ) (C : Fin L → ℝ) (hC : ∀ l, 0 < C l) (l : Fin L) :
    (∀ m, ⌊max (min (npRound (optimal target V C l m) : ℝ) (cap target V l m)) 2⌋₊ ≤ nSamples target V C L l) ∧
    ∃ m, nSamples target V C L l = ⌊max (min (npRound (optimal target V C l m) : ℝ) (cap target V l m)) 2⌋₊ := by
  unfold nSamples
  constructor
  · intro m
    rw [← estimateSafe_eq target V C hC l m]
    exact Nat.floor_mono (Finset.le_sup' (f := fun m => estimateSafe target V C L l m) (Finset.mem_univ m))
  · obtain ⟨m, _, hm⟩ := Finset.exists_mem_eq_sup' Finset.univ_nonempty (fun m => estimateSafe target V C L l m)
    exact ⟨m, by rw [hm, estimateSafe_eq target V C hC l m]⟩

/-- C51: every level gets at least two samples. -/
theorem C51_at_least_two (target : ℝ) (V : Fin L → Fin (M + 1) → ℝ) (C : Fin L → ℝ) (nLevels : Nat) (l : Fin L) :
    2 ≤ nSamples target V C nLevels l := by
  unfold nSamples
  apply Nat.le_floor
  calc ((2 : Nat) : ℝ) = 2 := by norm_num
    _ ≤ estimateSafe target V C nLevels l 0 := le_max_right _ _
    _ ≤ _ := Finset.le_sup' (f := fun m => estimateSafe target V C nLevels l m) (Finset.mem_univ 0)

/-- C51: the number of samples is within rounding of the limited optimum. -/
theorem C51_near_limited_optimum (target : ℝ) (V : Fin L → Fin (M + 1) → ℝ) (C : Fin L → ℝ) (hC : ∀ l, 0 < C l) (l : Fin L) :
    (∀ m, min (optimal target V C l m) (cap target V l m) < nSamples target V C L l + 1) ∧
    ∃ m, (nSamples target V C L l : ℝ) ≤ max (min (optimal target V C l m + 1 / 2) (cap target V l m)) 2 := by
  constructor
  · intro m
    have h := (C51_formula target V C hC l).1 m
    have hr := (abs_le.1 (npRound_rounded (optimal target V C l m)).1)
    have hn : (2 : ℝ) ≤ nSamples target V C L l := by exact_mod_cast C51_at_least_two target V C L l
    set x := max (min (npRound (optimal target V C l m) : ℝ) (cap target V l m)) 2 with hx
    have hfl : x < ⌊x⌋₊ + 1 := Nat.lt_floor_add_one x
    have hle : ((⌊x⌋₊ : Nat) : ℝ) ≤ nSamples target V C L l := by exact_mod_cast h
    by_cases hc : (npRound (optimal target V C l m) : ℝ) ≤ cap target V l m
    · -- the rounded optimum is an integer and is reached
      have : (npRound (optimal target V C l m) : ℝ) ≤ nSamples target V C L l := by
        have h1 : (npRound (optimal target V C l m) : ℝ) < nSamples target V C L l + 1 := by
          calc (npRound (optimal target V C l m) : ℝ) = min (npRound (optimal target V C l m) : ℝ) (cap target V l m) := (min_eq_left hc).symm
            _ ≤ x := le_max_left _ _
            _ < _ := by linarith
        have h2 : npRound (optimal target V C l m) < (nSamples target V C L l : ℤ) + 1 := by exact_mod_cast h1
        have h3 : npRound (optimal target V C l m) ≤ (nSamples target V C L l : ℤ) := by omega
        exact_mod_cast h3
      calc min (optimal target V C l m) (cap target V l m) ≤ optimal target V C l m := min_le_left _ _
        _ < _ := by linarith [hr.1]
    · calc min (optimal target V C l m) (cap target V l m) ≤ cap target V l m := min_le_right _ _
        _ = min (npRound (optimal target V C l m) : ℝ) (cap target V l m) := (min_eq_right (le_of_not_ge hc)).symm
        _ ≤ x := le_max_left _ _
        _ < _ := by linarith
  · obtain ⟨m, hm⟩ := (C51_formula target V C hC l).2
    refine ⟨m, ?_⟩
    have hr := (abs_le.1 (npRound_rounded (optimal target V C l m)).1)
    rw [hm]
    refine (Nat.floor_le (le_trans (by norm_num) (le_max_right _ _))).trans ?_
    exact max_le_max (min_le_min (by linarith [hr.2]) le_rfl) le_rfl

/-- C51: a smaller target variance never gives fewer samples. -/
theorem C51_monotone (target target' : ℝ) (ht' : 0 < target') (hle : target' ≤ target) (V : Fin L → Fin (M + 1) → ℝ) (hV : ∀ l m, 0 ≤ V l m)
    (C : Fin L → ℝ) (hC : ∀ l, 0 < C l) (nLevels : Nat) (l : Fin L) : nSamples target V C nLevels l ≤ nSamples target' V C nLevels l := by
  unfold nSamples
  apply Nat.floor_mono
  apply Finset.sup'_le
  intro m _
  refine le_trans ?_ (Finset.le_sup' (f := fun m => estimateSafe target' V C nLevels l m) (Finset.mem_univ m))
  unfold estimateSafe
  apply max_le_max _ le_rfl
  apply min_le_min
  · have : estimate target V C l m ≤ estimate target' V C l m := by
      apply npRound_mono
      apply div_le_div_of_nonneg_left _ ht' hle
      exact mul_nonneg (div_nonneg (Real.sqrt_nonneg _) (hC l).le) (Finset.sum_nonneg fun _ _ => Real.sqrt_nonneg _)
    exact_mod_cast this
  · exact div_le_div_of_nonneg_left (mul_nonneg (hV l m) (Nat.cast_nonneg _)) ht' hle

/-! ## C52 -/

/-- Contribution of a level: bounded by its share of the target or by `target / L`. -/
theorem contribution (target : ℝ) (ht : 0 < target) (V : Fin L → Fin (M + 1) → ℝ) (hV : ∀ l m, 0 ≤ V l m) (C : Fin L → ℝ) (hC : ∀ l, 0 < C l)
    (l : Fin L) (m : Fin (M + 1)) (n : ℝ) (hn : 0 < n) (h : min (optimal target V C l m) (cap target V l m) ≤ n) :
    V l m / n ≤ target * (Real.sqrt (V l m * C l) / total V C m) ∨ V l m / n ≤ target / L := by
  have hL : (0 : ℝ) < L := by exact_mod_cast (Fin.pos l)
  rcases min_le_iff.1 h with h | h
  · left
    rcases lt_or_eq_of_le (hV l m) with hv | hv
    · have hs : 0 < Real.sqrt (V l m * C l) := Real.sqrt_pos.2 (mul_pos hv (hC l))
      have ht0 : 0 < total V C m :=
        lt_of_lt_of_le hs (Finset.single_le_sum (f := fun k => Real.sqrt (V k m * C k)) (fun _ _ => Real.sqrt_nonneg _) (Finset.mem_univ l))
      rw [div_le_iff₀ hn]
      have e1 : V l m = Real.sqrt (V l m * C l) * Real.sqrt (V l m / C l) := by
        rw [← Real.sqrt_mul (mul_nonneg hv.le (hC l).le), show V l m * C l * (V l m / C l) = V l m ^ 2 by field_simp [(hC l).ne'],
          Real.sqrt_sq hv.le]
      have e2 : optimal target V C l m = Real.sqrt (V l m / C l) * total V C m / target := rfl
      rw [e2] at h
      calc V l m = Real.sqrt (V l m * C l) * Real.sqrt (V l m / C l) := e1
        _ = target * (Real.sqrt (V l m * C l) / total V C m) * (Real.sqrt (V l m / C l) * total V C m / target) := by field_simp
        _ ≤ _ := mul_le_mul_of_nonneg_left h (by positivity)
    · rw [← hv]
      simp only [zero_div, zero_mul, Real.sqrt_zero, mul_zero]; exact le_rfl
  · right
    rw [div_le_iff₀ hn]
    unfold cap at h
    calc V l m = target / L * (V l m * L / target) := by field_simp
      _ ≤ _ := mul_le_mul_of_nonneg_left h (by positivity)

theorem shares (V : Fin L → Fin (M + 1) → ℝ) (C : Fin L → ℝ) (m : Fin (M + 1)) :
    ∑ l, Real.sqrt (V l m * C l) / total V C m ≤ 1 := by
  rw [← Finset.sum_div]
  exact div_self_le_one _

/-- C52 (partial): with one more sample on each level (rounding) the predicted variance is at most twice the target, for all moments. -/
theorem C52_within_factor_two_partial (target : ℝ) (ht : 0 < target) (V : Fin L → Fin (M + 1) → ℝ) (hV : ∀ l m, 0 ≤ V l m) (C : Fin L → ℝ)
    (hC : ∀ l, 0 < C l) (m : Fin (M + 1)) :
    predicted V (fun l => nSamples target V C L l + 1) m ≤ 2 * target := by
  unfold predicted
  have hterm : ∀ l : Fin L, V l m / ((nSamples target V C L l : ℝ) + 1) ≤ target * (Real.sqrt (V l m * C l) / total V C m) + target / L := by
    intro l
    have hL : (0 : ℝ) < L := by exact_mod_cast (Fin.pos l)
    have h0 : 0 ≤ Real.sqrt (V l m * C l) / total V C m :=
      div_nonneg (Real.sqrt_nonneg _) (Finset.sum_nonneg fun _ _ => Real.sqrt_nonneg _)
    rcases contribution target ht V hV C hC l m _ (by positivity) ((C51_near_limited_optimum target V C hC l).1 m).le with h | h
    · have : 0 ≤ target / L := by positivity
      linarith
    · have := mul_nonneg ht.le h0
      linarith
  refine (Finset.sum_le_sum fun l _ => hterm l).trans ?_
  rw [Finset.sum_add_distrib, ← Finset.mul_sum, Finset.sum_const, Finset.card_univ, Fintype.card_fin, nsmul_eq_mul]
  have h1 : target * ∑ l, Real.sqrt (V l m * C l) / total V C m ≤ target * 1 := mul_le_mul_of_nonneg_left (shares V C m) ht.le
  have h2 : (L : ℝ) * (target / L) ≤ target := by
    rcases Nat.eq_zero_or_pos L with h | h
    · subst h; simp [ht.le]
    · have : (0 : ℝ) < L := by exact_mod_cast h
      rw [mul_div_cancel₀ _ this.ne']
  linarith

/-- C52 (partial): if the work `sqrt(V_l C_l)` is the same on all levels the target is met up to rounding; in particular for one level. -/
theorem C52_balanced_partial (target : ℝ) (ht : 0 < target) (V : Fin L → Fin (M + 1) → ℝ) (hV : ∀ l m, 0 ≤ V l m) (C : Fin L → ℝ)
    (hC : ∀ l, 0 < C l) (m : Fin (M + 1)) (hbal : ∀ k l, V k m * C k = V l m * C l) :
    predicted V (fun l => nSamples target V C L l + 1) m ≤ target := by
  unfold predicted
  have hterm : ∀ l : Fin L, V l m / ((nSamples target V C L l : ℝ) + 1) ≤ target / L := by
    intro l
    have hL : (0 : ℝ) < L := by exact_mod_cast (Fin.pos l)
    rcases contribution target ht V hV C hC l m _ (by positivity) ((C51_near_limited_optimum target V C hC l).1 m).le with h | h
    · refine h.trans ?_
      have : total V C m = L * Real.sqrt (V l m * C l) := by
        unfold total
        rw [Finset.sum_congr rfl fun k _ => by rw [hbal k l], Finset.sum_const, Finset.card_univ, Fintype.card_fin, nsmul_eq_mul]
      rw [this, div_eq_mul_inv target]
      apply mul_le_mul_of_nonneg_left _ ht.le
      rcases eq_or_ne (Real.sqrt (V l m * C l)) 0 with h0 | h0
      · rw [h0]; simp
      · rw [div_mul_cancel_right₀ h0]
    · exact h
  refine (Finset.sum_le_sum fun l _ => hterm l).trans ?_
  rw [Finset.sum_const, Finset.card_univ, Fintype.card_fin, nsmul_eq_mul]
  rcases Nat.eq_zero_or_pos L with h | h
  · subst h; simp [ht.le]
  · have : (0 : ℝ) < L := by exact_mod_cast h
    rw [mul_div_cancel₀ _ this.ne']

/-- The variances, costs and target of the witness. -/
def exV : Fin 2 → Fin 1 → ℝ := fun l _ => if l = 0 then 10000 else 100

theorem sqrt_exV : Real.sqrt 10000 = 100 ∧ Real.sqrt 100 = 10 := by
  constructor
  · rw [show (10000 : ℝ) = 100 ^ 2 by norm_num, Real.sqrt_sq (by norm_num)]
  · rw [show (100 : ℝ) = 10 ^ 2 by norm_num, Real.sqrt_sq (by norm_num)]

theorem npRound_nat (n : Nat) : npRound (n : ℝ) = n := by
  unfold npRound
  rw [Int.fract_natCast, if_pos (by norm_num), Int.floor_natCast]

theorem exV_n : nSamples 1 exV (fun _ => 1) 2 0 = 11000 ∧ nSamples 1 exV (fun _ => 1) 2 1 = 200 := by
  obtain ⟨h1, h2⟩ := sqrt_exV
  constructor
  · obtain ⟨m, hm⟩ := (C51_formula 1 exV (fun _ => 1) (fun _ => one_pos) 0).2
    rw [hm]
    have : optimal 1 exV (fun _ => 1) 0 m = ((11000 : Nat) : ℝ) := by
      simp [optimal, exV, Fin.sum_univ_two, h1, h2]; norm_num
    rw [this, npRound_nat]
    have : cap 1 exV 0 m = 20000 := by simp [cap, exV]; norm_num
    rw [this, Nat.floor_eq_iff (by positivity)]
    norm_num
  · obtain ⟨m, hm⟩ := (C51_formula 1 exV (fun _ => 1) (fun _ => one_pos) 1).2
    rw [hm]
    have : optimal 1 exV (fun _ => 1) 1 m = ((1100 : Nat) : ℝ) := by
      simp [optimal, exV, Fin.sum_univ_two, h1, h2]; norm_num
    rw [this, npRound_nat]
    have : cap 1 exV 1 m = 200 := by simp [cap, exV]; norm_num
    rw [this, Nat.floor_eq_iff (by positivity)]
    norm_num

/-- C52 fails: the limit `V_l L / target` cuts the optimum on levels with a small share of the work, so the predicted variance exceeds the target
by 40 percent, far beyond rounding. -/
theorem C52_counterexample : ∃ (V : Fin 2 → Fin 1 → ℝ) (C : Fin 2 → ℝ), (∀ l m, 0 ≤ V l m) ∧ (∀ l, 0 < C l) ∧
    predicted V (fun l => nSamples 1 V C 2 l) 0 > 7 / 5 ∧ predicted V (fun l => nSamples 1 V C 2 l + 1) 0 > 7 / 5 := by
  refine ⟨exV, fun _ => 1, fun l m => ?_, fun _ => one_pos, ?_, ?_⟩
  · unfold exV; split <;> norm_num
  · unfold predicted
    rw [Fin.sum_univ_two]
    beta_reduce
    rw [exV_n.1, exV_n.2]
    simp [exV]; norm_num
  · unfold predicted
    rw [Fin.sum_univ_two]
    beta_reduce
    rw [exV_n.1, exV_n.2]
    simp [exV]; norm_num

/-- Hypotheses of C51 and C52 hold for the data of the witness (levels share the work unequally) and, for one level, those of the balanced
case. -/
example : (∀ l m, 0 ≤ exV l m) ∧ (∀ l : Fin 2, (0 : ℝ) < (fun _ => 1) l) := by
  refine ⟨fun l m => ?_, fun _ => one_pos⟩
  unfold exV; split <;> norm_num
example : ∀ k l : Fin 2, (fun l (_ : Fin 1) => if l = 0 then (4 : ℝ) else 1) k 0 * (fun l : Fin 2 => if l = 0 then (1 : ℝ) else 4) k =
    (fun l (_ : Fin 1) => if l = 0 then (4 : ℝ) else 1) l 0 * (fun l : Fin 2 => if l = 0 then (1 : ℝ) else 4) l := by
  intro k l; fin_cases k <;> fin_cases l <;> norm_num

/-! ## C53 -/

/-- C53: a step range that does not decrease is refused. -/
theorem C53_refused (n : Nat) (coarsest finest : ℝ) (h : ¬ coarsest > finest) :
    levelParameters n coarsest finest = .error .assertionError := by
  unfold levelParameters; rw [if_neg h]

/-- C53: the steps go geometrically from the coarsest to the finest one: there is a ratio in (0, 1) such that step `i` is `coarsest * ratio ^ i`, and
the last step is the finest one. -/
theorem C53_geometric (n : Nat) (coarsest finest : ℝ) (h0 : 0 < finest) (h : coarsest > finest) :
    ∃ ratio, 0 < ratio ∧ ratio < 1 ∧ coarsest * ratio ^ (n + 1) = finest ∧
      levelParameters (n + 2) coarsest finest = .ok ((List.range (n + 2)).map fun i : Nat => [coarsest * ratio ^ i]) := by
  have hc : 0 < coarsest := h0.trans h
  have hq : 0 < finest / coarsest := div_pos h0 hc
  have hn : (0 : ℝ) < (n : ℝ) + 1 := by positivity
  have hpow : ∀ i : Nat, ((finest / coarsest) ^ (1 / ((n : ℝ) + 1))) ^ i = (finest / coarsest) ^ ((i : ℝ) / ((n : ℝ) + 1)) := by
    intro i
    rw [← Real.rpow_natCast, ← Real.rpow_mul hq.le]
    congr 1; ring
  refine ⟨(finest / coarsest) ^ (1 / ((n : ℝ) + 1)), Real.rpow_pos_of_pos hq _,
    Real.rpow_lt_one hq.le ((div_lt_one hc).2 h) (by positivity), ?_, ?_⟩
  · rw [hpow, show (((n + 1 : Nat) : ℝ)) / ((n : ℝ) + 1) = 1 by push_cast; exact div_self hn.ne', Real.rpow_one, mul_div_cancel₀ _ hc.ne']
  · unfold levelParameters
    rw [if_pos h]
    congr 1
    apply List.map_congr_left
    intro i _
    have e : ((n + 2 : Nat) : ℝ) - 1 = (n : ℝ) + 1 := by push_cast; ring
    simp only [if_neg (show n + 2 ≠ 1 by omega), e, hpow]
    rw [Real.div_rpow h0.le hc.le, Real.rpow_sub hc, Real.rpow_one]
    congr 1
    ring

/-- C53: one level has the finest step. -/
theorem C53_one_level (coarsest finest : ℝ) (h : coarsest > finest) : levelParameters 1 coarsest finest = .ok [[finest]] := by
  unfold levelParameters
  rw [if_pos h]
  simp

/-- C53: the number of steps, the ends and the order follow. -/
theorem C53_level_parameters (n : Nat) (coarsest finest : ℝ) (h0 : 0 < finest) (h : coarsest > finest) :
    ∃ steps : List ℝ, levelParameters (n + 2) coarsest finest = .ok (steps.map fun s => [s]) ∧ steps.length = n + 2 ∧
      steps.head? = some coarsest ∧ steps.getLast? = some finest ∧ steps.Pairwise (· > ·) := by
  obtain ⟨r, hr0, hr1, hlast, hp⟩ := C53_geometric n coarsest finest h0 h
  have hc : 0 < coarsest := h0.trans h
  refine ⟨(List.range (n + 2)).map fun i : Nat => coarsest * r ^ i, by rw [hp, List.map_map]; rfl, by simp, ?_, ?_, ?_⟩
  · rw [List.range_succ_eq_map]; simp
  · rw [List.range_succ, List.map_append]; simp [hlast]
  · rw [List.pairwise_map]
    refine List.Pairwise.imp ?_ (List.pairwise_lt_range (n := n + 2))
    intro i j hij
    exact mul_lt_mul_of_pos_left (pow_lt_pow_right_of_lt_one₀ hr0 hr1 hij) hc

example : (0 : ℝ) < 1 / 100 ∧ (1 : ℝ) > 1 / 100 := by norm_num

/-! ## C73 -/

theorem exp_log {n : Nat} (h : 0 < n) : (2 : ℝ) ^ Real.logb 2 n = n :=
  Real.rpow_logb (by norm_num) (by norm_num) (by exact_mod_cast h)

/-- C73: numbers of samples for all levels from the first and the last one. -/
theorem C73_n_samples (n n0 nL : Nat) (hL : 0 < nL) (hle : nL ≤ n0) :
    ∃ ns, determineNSamples (n + 2) (some [n0, nL]) = ns ∧ ns.length = n + 2 ∧ ns.head? = some (n0 : Int) ∧ ns.getLast? = some (nL : Int) ∧
      ns.Pairwise (· ≥ ·) ∧ ∀ k ∈ ns, (nL : Int) ≤ k ∧ k ≤ n0 := by
  have h0 : 0 < n0 := lt_of_lt_of_le hL hle
  have hn : (0 : ℝ) < (n : ℝ) + 1 := by positivity
  have e : ((n + 2 : Nat) : ℝ) - 1 = (n : ℝ) + 1 := by push_cast; ring
  have hlog : Real.logb 2 nL - Real.logb 2 n0 ≤ 0 := by
    have := Real.logb_le_logb_of_le (b := 2) (by norm_num) (show (0 : ℝ) < nL by exact_mod_cast hL) (show (nL : ℝ) ≤ n0 by exact_mod_cast hle)
    linarith
  have hdef : determineNSamples (n + 2) (some [n0, nL]) = (List.range (n + 2)).map fun i : Nat =>
      npRound ((2 : ℝ) ^ (Real.logb 2 n0 + (i : ℝ) / ((n : ℝ) + 1) * (Real.logb 2 nL - Real.logb 2 n0))) := by
    unfold determineNSamples geometric
    simp only [if_neg (show n + 2 ≠ 1 by omega), e]
  have hfirst : npRound ((2 : ℝ) ^ (Real.logb 2 n0 + ((0 : Nat) : ℝ) / ((n : ℝ) + 1) * (Real.logb 2 nL - Real.logb 2 n0))) = n0 := by
    rw [Nat.cast_zero, zero_div, zero_mul, add_zero, exp_log h0, npRound_nat]
  have hlast : npRound ((2 : ℝ) ^ (Real.logb 2 n0 + ((n + 1 : Nat) : ℝ) / ((n : ℝ) + 1) * (Real.logb 2 nL - Real.logb 2 n0))) = nL := by
    rw [Nat.cast_add, Nat.cast_one, div_self hn.ne', one_mul, add_sub_cancel, exp_log hL, npRound_nat]
  have hmono : ∀ i j : Nat, i ≤ j →
      npRound ((2 : ℝ) ^ (Real.logb 2 n0 + (j : ℝ) / ((n : ℝ) + 1) * (Real.logb 2 nL - Real.logb 2 n0))) ≤
      npRound ((2 : ℝ) ^ (Real.logb 2 n0 + (i : ℝ) / ((n : ℝ) + 1) * (Real.logb 2 nL - Real.logb 2 n0))) := by
    intro i j hij
    apply npRound_mono
    apply Real.rpow_le_rpow_of_exponent_le (by norm_num)
    have h1 : (i : ℝ) / ((n : ℝ) + 1) ≤ (j : ℝ) / ((n : ℝ) + 1) := div_le_div_of_nonneg_right (by exact_mod_cast hij) hn.le
    nlinarith
  refine ⟨_, hdef, by simp, ?_, ?_, ?_, ?_⟩
  · rw [List.range_succ_eq_map]; simpa using hfirst
  · rw [List.range_succ, List.map_append]; simpa using hlast
  · rw [List.pairwise_map]
    exact List.Pairwise.imp (fun hij => hmono _ _ (Nat.le_of_lt hij)) (List.pairwise_lt_range (n := n + 2))
  · intro k hk
    obtain ⟨i, hi, rfl⟩ := List.mem_map.1 hk
    rw [List.mem_range] at hi
    exact ⟨by rw [← hlast]; exact hmono _ _ (by omega), by rw [← hfirst]; exact hmono _ _ (by omega)⟩

/-- C73: one level gets the first number; without numbers 100 and 3 are used; one number is completed by 3; three and more numbers are taken as
they are. -/
theorem C73_other (n n0 nL : Nat) (h0 : 0 < n0) (ns : List Nat) (hlen : 3 ≤ ns.length) :
    determineNSamples 1 (some [n0, nL]) = [(n0 : Int)] ∧
    determineNSamples n none = determineNSamples n (some [100, 3]) ∧ determineNSamples n (some [n0]) = determineNSamples n (some [n0, 3]) ∧
    determineNSamples n (some ns) = ns.map fun k => (k : Int) := by
  refine ⟨?_, rfl, rfl, ?_⟩
  · unfold determineNSamples geometric
    simp only [if_pos, zero_mul, add_zero, exp_log h0, npRound_nat]
    rfl
  · match ns, hlen with
    | _ :: _ :: _ :: _, _ => rfl

example : 0 < 3 ∧ 3 ≤ 100 := by decide

/-- C73: a given vector of sample numbers replaces the collected ones; only the entries of existing levels are kept. -/
theorem C73_sample_vec (collected vec : List Nat) (n : Nat) :
    determineSampleVec collected n none = collected.take n ∧ determineSampleVec collected n (some vec) = vec.take n ∧
    (n ≤ vec.length → (determineSampleVec collected n (some vec)).length = n) := by
  refine ⟨rfl, rfl, fun h => ?_⟩
  show (vec.take n).length = n
  rw [List.length_take]; omega

end MLMC.Alloc
