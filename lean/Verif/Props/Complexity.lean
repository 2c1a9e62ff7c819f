import Verif.Props.AllocationCost
import Mathlib.Algebra.Order.Field.GeomSum
import Mathlib.Data.Real.Sqrt
/-! # C128 How the cost grows with the number of levels and the target -/
namespace MLMC.Alloc
variable {L M : Nat}

/-- Variances of the moments decrease at least and costs grow at most geometrically with the level. -/
structure Rates (v q c r : ℝ) (V : Fin L → Fin (M + 1) → ℝ) (C : Fin L → ℝ) : Prop where
  pos : 0 ≤ v ∧ 0 < q ∧ 0 ≤ c ∧ 0 < r
  var : ∀ l m, 0 ≤ V l m ∧ V l m ≤ v * q ^ (l : ℕ)
  cost : ∀ l, 0 < C l ∧ C l ≤ c * r ^ (l : ℕ)

/-- Moments that vary on some level (the zeroth one does not). -/
noncomputable def varying (V : Fin L → Fin (M + 1) → ℝ) : Finset (Fin (M + 1)) := Finset.univ.filter fun m => ∃ l, V l m ≠ 0

variable {v q c r : ℝ} {V : Fin L → Fin (M + 1) → ℝ} {C : Fin L → ℝ}

theorem Rates.sqrt_le (h : Rates v q c r V C) (l : Fin L) (m : Fin (M + 1)) : Real.sqrt (V l m * C l) ≤ Real.sqrt (v * c) * Real.sqrt (q * r) ^ (l : ℕ) := by
  obtain ⟨hv, hq, hc, hr⟩ := h.pos
  have hpow : Real.sqrt (q * r) ^ (l : ℕ) = Real.sqrt ((q * r) ^ (l : ℕ)) := by
    rw [eq_comm, Real.sqrt_eq_iff_mul_self_eq (by positivity) (by positivity), ← mul_pow, Real.mul_self_sqrt (by positivity)]
  rw [hpow, ← Real.sqrt_mul (by positivity)]
  refine Real.sqrt_le_sqrt ?_
  calc V l m * C l ≤ (v * q ^ (l : ℕ)) * (c * r ^ (l : ℕ)) := mul_le_mul (h.var l m).2 (h.cost l).2 (h.cost l).1.le (by positivity)
    _ = v * c * (q * r) ^ (l : ℕ) := by rw [mul_pow]; ring

/-- All three cases at once: the cost is bounded through the sum of the powers of `√(q r)`. -/
theorem work_geometric (h : Rates v q c r V C) {target : ℝ} (ht : 0 < target) :
    work C (fun l => nSamples target V C L l) ≤ (varying V).card * (v * c * (∑ i ∈ Finset.range L, Real.sqrt (q * r) ^ i) ^ 2 / target) + 2 * ∑ l, C l := by
  obtain ⟨hv, hq, hc, hr⟩ := h.pos
  have hC : ∀ l, 0 < C l := fun l => (h.cost l).1
  refine (work_le ht V hC).trans ?_
  refine add_le_add_left ?_ _
  rw [varying, ← nsmul_eq_mul, ← Finset.sum_const]
  refine Finset.sum_le_sum fun m _ => ?_
  rw [optimal_work_eq target hC]
  refine div_le_div_of_nonneg_right ?_ ht.le
  have h1 : ∑ l, Real.sqrt (V l m * C l) ≤ Real.sqrt (v * c) * ∑ i ∈ Finset.range L, Real.sqrt (q * r) ^ i := by
    rw [← Fin.sum_univ_eq_sum_range (fun i => Real.sqrt (q * r) ^ i), Finset.mul_sum]
    exact Finset.sum_le_sum fun l _ => h.sqrt_le l m
  have h0 : 0 ≤ ∑ l, Real.sqrt (V l m * C l) := Finset.sum_nonneg fun _ _ => Real.sqrt_nonneg _
  refine (pow_le_pow_left₀ h0 h1 2).trans_eq ?_
  rw [mul_pow, Real.sq_sqrt (mul_nonneg hv hc)]

/-- **C128**, variances decrease faster than costs grow: the cost of the allocated samples is at most a constant divided by the target, the same for any number of levels, plus two
samples per level. -/
theorem C128_decreasing (h : Rates v q c r V C) (hqr : q * r < 1) (target : ℝ) (ht : 0 < target) :
    work C (fun l => nSamples target V C L l) ≤ (varying V).card * (v * c / (1 - Real.sqrt (q * r)) ^ 2) / target + 2 * ∑ l, C l := by
  obtain ⟨hv, hq, hc, hr⟩ := h.pos
  refine (work_geometric h ht).trans (add_le_add_left ?_ _)
  have hs : Real.sqrt (q * r) < 1 := by
    rw [Real.sqrt_lt' one_pos]; simpa using hqr
  have hs0 := Real.sqrt_nonneg (q * r)
  have hg : ∑ i ∈ Finset.range L, Real.sqrt (q * r) ^ i ≤ 1 / (1 - Real.sqrt (q * r)) := by
    rw [le_div_iff₀ (by linarith), mul_comm, mul_neg_geom_sum]
    have := pow_nonneg hs0 L
    linarith
  have hg0 : 0 ≤ ∑ i ∈ Finset.range L, Real.sqrt (q * r) ^ i := Finset.sum_nonneg fun i _ => pow_nonneg hs0 i
  have h2 := pow_le_pow_left₀ hg0 hg 2
  rw [mul_div_assoc ((varying V).card : ℝ)]
  refine mul_le_mul_of_nonneg_left ?_ (Nat.cast_nonneg (α := ℝ) _)
  refine div_le_div_of_nonneg_right ?_ ht.le
  calc v * c * (∑ i ∈ Finset.range L, Real.sqrt (q * r) ^ i) ^ 2 ≤ v * c * (1 / (1 - Real.sqrt (q * r))) ^ 2 := mul_le_mul_of_nonneg_left h2 (mul_nonneg hv hc)
    _ = v * c / (1 - Real.sqrt (q * r)) ^ 2 := by rw [div_pow, one_pow, mul_one_div]

/-- **C128**, variances decrease as fast as costs grow: the constant grows with the square of the number of levels. -/
theorem C128_balanced (h : Rates v q c r V C) (hqr : q * r = 1) (target : ℝ) (ht : 0 < target) :
    work C (fun l => nSamples target V C L l) ≤ (varying V).card * (v * c * L ^ 2) / target + 2 * ∑ l, C l := by
  refine (work_geometric h ht).trans_eq ?_
  rw [hqr, Real.sqrt_one]
  simp only [one_pow, Finset.sum_const, Finset.card_range, nsmul_eq_mul, mul_one]
  ring

/-- **C128**, costs grow faster than variances decrease: the constant grows like the product of cost and variance of the finest level. -/
theorem C128_growing (h : Rates v q c r V C) (hqr : 1 < q * r) (target : ℝ) (ht : 0 < target) :
    work C (fun l => nSamples target V C L l) ≤ (varying V).card * (v * c * (q * r) ^ L / (Real.sqrt (q * r) - 1) ^ 2) / target + 2 * ∑ l, C l := by
  obtain ⟨hv, hq, hc, hr⟩ := h.pos
  refine (work_geometric h ht).trans (add_le_add_left ?_ _)
  have hs : 1 < Real.sqrt (q * r) := by
    rw [Real.lt_sqrt (by norm_num)]; simpa using hqr
  have hs0 := Real.sqrt_nonneg (q * r)
  have hg : ∑ i ∈ Finset.range L, Real.sqrt (q * r) ^ i ≤ Real.sqrt (q * r) ^ L / (Real.sqrt (q * r) - 1) := by
    rw [le_div_iff₀ (by linarith), mul_comm, mul_geom_sum]
    linarith
  have hg0 : 0 ≤ ∑ i ∈ Finset.range L, Real.sqrt (q * r) ^ i := Finset.sum_nonneg fun i _ => pow_nonneg hs0 i
  have h2 := pow_le_pow_left₀ hg0 hg 2
  rw [mul_div_assoc ((varying V).card : ℝ)]
  refine mul_le_mul_of_nonneg_left ?_ (Nat.cast_nonneg (α := ℝ) _)
  refine div_le_div_of_nonneg_right ?_ ht.le
  calc v * c * (∑ i ∈ Finset.range L, Real.sqrt (q * r) ^ i) ^ 2 ≤ v * c * (Real.sqrt (q * r) ^ L / (Real.sqrt (q * r) - 1)) ^ 2 := mul_le_mul_of_nonneg_left h2 (mul_nonneg hv hc)
    _ = v * c * (q * r) ^ L / (Real.sqrt (q * r) - 1) ^ 2 := by
      rw [div_pow, ← pow_mul, mul_comm L 2, pow_mul, Real.sq_sqrt (mul_nonneg hq.le hr.le)]
      ring

/-- **C128**, for comparison: on one level with variance `V` and cost `C` of a sample the allocated samples cost `C V / target` up to one sample, or two samples. -/
theorem C128_single_level (V C target : ℝ) (hV : 0 ≤ V) (hC : 0 < C) :
    C * (V / target) - C < work (L := 1) (fun _ => C) (fun l => nSamples (M := 0) target (fun _ _ => V) (fun _ => C) 1 l) ∧
    work (L := 1) (fun _ => C) (fun l => nSamples (M := 0) target (fun _ _ => V) (fun _ => C) 1 l) ≤ C * max (V / target) 2 := by
  have ho : optimal (L := 1) (M := 1) target (fun _ _ => V) (fun _ => C) 0 0 = V / target := by
    unfold optimal
    rw [Fin.sum_univ_one, ← Real.sqrt_mul (div_nonneg hV hC.le)]
    have : V / C * (V * C) = V * V := by field_simp
    rw [this, Real.sqrt_mul_self hV]
  have hc : cap (L := 1) (M := 1) target (fun _ _ => V) 0 0 = V / target := by
    unfold cap; simp
  obtain ⟨h1, m, h2⟩ := C51_near_limited_optimum (L := 1) (M := 0) target (fun _ _ => V) (fun _ => C) (fun _ => hC) 0
  have h1 := h1 0
  obtain rfl : m = 0 := Fin.ext (by omega)
  rw [ho, hc, min_self] at h1
  rw [ho, hc] at h2
  rw [min_eq_right (by linarith)] at h2
  unfold work
  rw [Fin.sum_univ_one]
  constructor
  · have := mul_lt_mul_of_pos_left h1 hC
    linarith
  · exact mul_le_mul_of_nonneg_left h2 hC.le

/-- Variances divided by sixteen and costs multiplied by four from level to level: for any number of levels the samples cost at most `4 / target` for each varying moment, and two samples
per level. -/
example (L : Nat) (target : ℝ) (ht : 0 < target) :
    work (fun l : Fin L => (4 : ℝ) ^ (l : ℕ)) (fun l => nSamples (M := 0) target (fun l _ => (1 / 16) ^ (l : ℕ)) (fun l => 4 ^ (l : ℕ)) L l) ≤ 
      (varying (M := 0) fun (l : Fin L) _ => (1 / 16 : ℝ) ^ (l : ℕ)).card * (1 * 1 / (1 - Real.sqrt (1 / 16 * 4)) ^ 2) / target + 2 * ∑ l : Fin L, (4 : ℝ) ^ (l : ℕ) :=
  C128_decreasing (v := 1) (q := 1 / 16) (c := 1) (r := 4) ⟨⟨by norm_num, by norm_num, by norm_num, by norm_num⟩, fun l _ => ⟨by positivity, by simp⟩, fun l => ⟨by positivity, by simp⟩⟩ (by norm_num) target ht

end MLMC.Alloc
