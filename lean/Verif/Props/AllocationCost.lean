import Verif.Props.Allocation
import Mathlib.Algebra.Order.BigOperators.Ring.Finset
/-! # C126 What the allocated samples cost -/
namespace MLMC.Alloc
variable {L M : Nat}

/-- What the unrounded optimum costs. -/
theorem optimal_work_eq (target : ℝ) {V : Fin L → Fin M → ℝ} {C : Fin L → ℝ} (hC : ∀ l, 0 < C l) {m : Fin M} :
    work C (fun l => optimal target V C l m) = (∑ l, Real.sqrt (V l m * C l)) ^ 2 / target := by
  unfold work optimal
  have : ∀ l, C l * (Real.sqrt (V l m / C l) * (∑ k, Real.sqrt (V k m * C k)) / target) = Real.sqrt (V l m * C l) * ((∑ k, Real.sqrt (V k m * C k)) / target) := by
    intro l
    rw [← sqrt_mul_div (hC l)]
    have := (hC l).ne'
    field_simp
  rw [Finset.sum_congr rfl fun l _ => this l, ← Finset.sum_mul]
  ring

/-- The unrounded optimum costs no more than any numbers that meet the target. -/
theorem optimal_work {target : ℝ} (ht : 0 < target) {V : Fin L → Fin M → ℝ} (hV : ∀ l m, 0 ≤ V l m) {C : Fin L → ℝ} (hC : ∀ l, 0 < C l) {m : Fin M} {N : Fin L → ℝ}
    (hN : Meets target V N m) : work C (fun l => optimal target V C l m) ≤ work C N := by
  have hcs : (∑ l, Real.sqrt (V l m * C l)) ^ 2 ≤ (∑ l, V l m / N l) * ∑ l, C l * N l := by
    refine Finset.sum_sq_le_sum_mul_sum_of_sq_eq_mul _ (fun l _ => div_nonneg (hV l m) (hN.1 l).le) (fun l _ => mul_nonneg (hC l).le (hN.1 l).le) fun l _ => ?_
    rw [Real.sq_sqrt (mul_nonneg (hV l m) (hC l).le)]
    have := (hN.1 l).ne'
    field_simp
  have hw := optimal_work_eq (m := m) target hC (V := V)
  rw [hw, div_le_iff₀ ht]
  refine hcs.trans ?_
  rw [mul_comm (work C N)]
  exact mul_le_mul_of_nonneg_right hN.2 (Finset.sum_nonneg fun l _ => mul_nonneg (hC l).le (hN.1 l).le)

theorem optimal_nonneg {target : ℝ} (ht : 0 < target) (V : Fin L → Fin M → ℝ) (C : Fin L → ℝ) (l : Fin L) (m : Fin M) : 0 ≤ optimal target V C l m := by
  unfold optimal
  exact div_nonneg (mul_nonneg (Real.sqrt_nonneg _) (Finset.sum_nonneg fun _ _ => Real.sqrt_nonneg _)) ht.le

/-- `C126` for one moment: up to two samples per level, no numbers of samples that meet the target variance cost less than the allocated ones. -/
theorem C126_one_moment_partial (target : ℝ) (ht : 0 < target) (V : Fin L → Fin 1 → ℝ) (hV : ∀ l m, 0 ≤ V l m) (C : Fin L → ℝ) (hC : ∀ l, 0 < C l) (N : Fin L → ℝ)
    (hN : Meets target V N 0) : work C (fun l => nSamples target V C L l) ≤ work C N + 2 * ∑ l, C l := by
  have h1 : work C (fun l => nSamples target V C L l) ≤ work C (fun l => optimal target V C l 0) + 2 * ∑ l, C l := by
    unfold work
    rw [Finset.mul_sum, ← Finset.sum_add_distrib]
    refine Finset.sum_le_sum fun l _ => ?_
    obtain ⟨m, hm⟩ := (C51_near_limited_optimum target V C hC l).2
    obtain rfl : m = 0 := Fin.ext (by omega)
    have h0 := optimal_nonneg ht V C l 0
    have : (nSamples target V C L l : ℝ) ≤ optimal target V C l 0 + 2 := hm.trans (max_le ((min_le_left _ _).trans (by linarith)) (by linarith))
    have := mul_le_mul_of_nonneg_left this (hC l).le
    linarith
  exact h1.trans (by have := optimal_work ht hV hC hN; linarith)

/-- The allocated samples cost at most the sum of the optima of the moments that vary, and two samples per level. -/
theorem work_le {target : ℝ} (ht : 0 < target) (V : Fin L → Fin (M + 1) → ℝ) {C : Fin L → ℝ} (hC : ∀ l, 0 < C l) :
    work C (fun l => nSamples target V C L l) ≤ ∑ m ∈ Finset.univ.filter (fun m => ∃ l, V l m ≠ 0), work C (fun l => optimal target V C l m) + 2 * ∑ l, C l := by
  classical
  let S : Finset (Fin (M + 1)) := Finset.univ.filter fun m => ∃ l, V l m ≠ 0
  have hz : ∀ m, m ∉ S → ∀ l, optimal target V C l m = 0 := by
    intro m hm l
    have h0 : ∀ l, V l m = 0 := by
      intro l; by_contra h
      exact hm (Finset.mem_filter.2 ⟨Finset.mem_univ _, l, h⟩)
    simp [optimal, h0]
  have h1 : work C (fun l => nSamples target V C L l) ≤ ∑ m ∈ S, work C (fun l => optimal target V C l m) + 2 * ∑ l, C l := by
    unfold work
    rw [Finset.sum_comm, Finset.mul_sum, ← Finset.sum_add_distrib]
    refine Finset.sum_le_sum fun l _ => ?_
    obtain ⟨m, hm⟩ := (C51_near_limited_optimum target V C hC l).2
    have h0 := fun m => optimal_nonneg ht V C l m
    have h2 : (nSamples target V C L l : ℝ) ≤ optimal target V C l m + 2 :=
      hm.trans (max_le ((min_le_left _ _).trans (by linarith)) (by have := h0 m; linarith))
    have h3 : optimal target V C l m ≤ ∑ m ∈ S, optimal target V C l m := by
      by_cases hmS : m ∈ S
      · exact Finset.single_le_sum (f := fun m => optimal target V C l m) (fun j _ => h0 j) hmS
      · rw [hz m hmS l]; exact Finset.sum_nonneg fun j _ => h0 j
    rw [← Finset.mul_sum]
    have := mul_le_mul_of_nonneg_left (h2.trans (add_le_add_left h3 2)) (hC l).le
    linarith
  exact h1

/-- `C126` for several moments: the allocated samples cost at most as many times the cheapest ones as there are moments with a variance (the zeroth moment has none), plus two samples per
level. -/
theorem C126_several_moments_partial (target : ℝ) (ht : 0 < target) (V : Fin L → Fin (M + 1) → ℝ) (hV : ∀ l m, 0 ≤ V l m) (C : Fin L → ℝ) (hC : ∀ l, 0 < C l) (N : Fin L → ℝ)
    (hN : ∀ m, Meets target V N m) :
    work C (fun l => nSamples target V C L l) ≤ (Finset.univ.filter fun m => ∃ l, V l m ≠ 0).card * work C N + 2 * ∑ l, C l := by
  classical
  refine (work_le ht V hC).trans ?_
  have h2 : ∑ m ∈ Finset.univ.filter (fun m => ∃ l, V l m ≠ 0), work C (fun l => optimal target V C l m) ≤ ∑ _m ∈ Finset.univ.filter (fun m => ∃ l, V l m ≠ 0), work C N := Finset.sum_le_sum fun m _ => optimal_work ht hV hC (hN m)
  rw [Finset.sum_const, nsmul_eq_mul] at h2
  linarith

/-- Two levels, two moments: each moment varies more on one of the levels. -/
def exV2 (l : Fin 2) (m : Fin 2) : ℝ := if l = m then 400 else 100

theorem sqrt_exV2 : Real.sqrt 400 = 20 ∧ Real.sqrt 100 = 10 := by
  constructor
  · rw [show (400 : ℝ) = 20 ^ 2 by norm_num, Real.sqrt_sq (by norm_num)]
  · rw [show (100 : ℝ) = 10 ^ 2 by norm_num, Real.sqrt_sq (by norm_num)]

theorem exV2_n (l : Fin 2) : nSamples 1 exV2 (fun _ => 1) 2 l = 600 := by
  obtain ⟨h1, h2⟩ := sqrt_exV2
  have hs : ∀ m : Fin 2, ∑ k : Fin 2, Real.sqrt (exV2 k m * 1) = 30 := by
    intro m
    fin_cases m <;> simp [exV2, Fin.sum_univ_two, h1, h2] <;> norm_num
  have hopt : ∀ l m : Fin 2, optimal 1 exV2 (fun _ => 1) l m = (((if l = m then 600 else 300 : Nat)) : ℝ) := by
    intro l m
    unfold optimal
    rw [hs m]
    by_cases h : l = m
    · simp [exV2, h, h1]; norm_num
    · simp [exV2, h, h2]; norm_num
  have hcap : ∀ l m : Fin 2, cap 1 exV2 l m = if l = m then 800 else 200 := by
    intro l m
    unfold cap exV2
    by_cases h : l = m <;> simp [h] <;> norm_num
  obtain ⟨hall, m, hm⟩ := C51_formula 1 exV2 (fun _ => 1) (fun _ => one_pos) l
  have hval : ∀ m, ⌊max (min (npRound (optimal 1 exV2 (fun _ => 1) l m) : ℝ) (cap 1 exV2 l m)) 2⌋₊ = if l = m then 600 else 200 := by
    intro m
    rw [hopt, npRound_nat, hcap]
    by_cases h : l = m
    · simp only [h, if_true]; rw [Nat.floor_eq_iff (by positivity)]; norm_num
    · simp only [h, if_false]; rw [Nat.floor_eq_iff (by positivity)]; norm_num
  have h1 := hall l
  rw [hval l, if_pos rfl] at h1
  rw [hval m] at hm
  have : nSamples 1 exV2 (fun _ => 1) 2 l ≤ 600 := by rw [hm]; split <;> omega
  exact le_antisymm this h1

/-- `C126` fails for several moments: 600 samples are allocated to each of two levels, although 500 on each meet the target for both moments. -/
theorem C126_counterexample_several_moments : ∃ (V : Fin 2 → Fin 2 → ℝ) (N : Fin 2 → ℝ), (∀ l m, 0 ≤ V l m) ∧ (∀ m, Meets 1 V N m) ∧
    work (fun _ => 1) N = 1000 ∧ work (fun _ => 1) (fun l => nSamples 1 V (fun _ => 1) 2 l) = 1200 := by
  refine ⟨exV2, fun _ => 500, fun l m => ?_, fun m => ⟨fun _ => by norm_num, ?_⟩, ?_, ?_⟩
  · unfold exV2; split <;> norm_num
  · unfold predicted
    fin_cases m <;> simp [exV2, Fin.sum_univ_two] <;> norm_num
  · simp [work]; norm_num
  · simp [work, exV2_n]; norm_num

/-- The hypotheses hold for the data of the witness; with one moment, 600 and 300 samples meet its target. -/
example : work (fun _ => 1) (fun l => nSamples 1 exV2 (fun _ => 1) 2 l) ≤ (Finset.univ.filter fun m => ∃ l, exV2 l m ≠ 0).card * work (L := 2) (fun _ => 1) (fun _ => 500) + 2 * ∑ _l : Fin 2, 1 :=
  C126_several_moments_partial 1 one_pos exV2 (fun l m => by unfold exV2; split <;> norm_num) (fun _ => 1) (fun _ => one_pos) _ fun m => ⟨fun _ => by norm_num, by
    unfold predicted
    fin_cases m <;> simp [exV2, Fin.sum_univ_two] <;> norm_num⟩

example : work (fun _ => 1) (fun l => nSamples (M := 0) 1 (fun l _ => exV2 l 0) (fun _ => 1) 2 l) ≤ work (L := 2) (fun _ => 1) (fun l => if l = 0 then 600 else 300) + 2 * ∑ _l : Fin 2, 1 :=
  C126_one_moment_partial 1 one_pos (fun l _ => exV2 l 0) (fun l m => by unfold exV2; split <;> norm_num) (fun _ => 1) (fun _ => one_pos) _
    ⟨fun l => by dsimp only; split <;> norm_num, by
      unfold predicted
      simp [exV2, Fin.sum_univ_two]; norm_num⟩

end MLMC.Alloc
