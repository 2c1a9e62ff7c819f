import Verif.Proofs.NormalTests
/-! Cochran's theorem for several orthonormal vectors, and groups of normal numbers. -/
namespace MLMC.Stat
open MeasureTheory ProbabilityTheory

variable {Ω ι κ : Type} [MeasurableSpace Ω] {P : Measure Ω} [Fintype ι] [Fintype κ] {Z : ι → Ω → ℝ}

namespace StdNormal

/-- Combinations of standard normal numbers with orthonormal vectors are independent standard normal numbers. -/
theorem combs [DecidableEq κ] (h : StdNormal P Z) (V : κ → ι → ℝ) (hV : ∀ a b, ∑ i, V a i * V b i = if a = b then 1 else 0) : StdNormal P fun a => comb (V a) Z where
  meas a := h.comb_meas _
  indep := by
    refine HasGaussianLaw.iIndepFun_of_covariance_eq_zero ?_ fun a b hab => ?_
    · have := h.joint.map (ContinuousLinearMap.pi fun a => ∑ i, V a i • ContinuousLinearMap.proj (R := ℝ) (φ := fun _ : ι => ℝ) i)
      refine this.congr (ae_of_all _ fun w => ?_)
      ext; simp [comb]
    · rw [h.comb_cov, hV, if_neg hab]
  law a := h.comb_law _ (by have := hV a a; rw [if_pos rfl] at this; rw [← this]; exact Finset.sum_congr rfl fun i _ => sq _)

/-- The numbers without their parts along the vectors. -/
def res (V : κ → ι → ℝ) (Z : ι → Ω → ℝ) (i : ι) (w : Ω) : ℝ := Z i w - ∑ a, V a i * comb (V a) Z w

theorem res_comb [DecidableEq ι] (V : κ → ι → ℝ) (i : ι) (w : Ω) : comb (fun j => (if j = i then 1 else 0) - ∑ a, V a i * V a j) Z w = res V Z i w := by
  unfold comb res
  simp only [sub_mul, Finset.sum_sub_distrib, ite_mul, one_mul, zero_mul, Finset.sum_ite_eq', Finset.mem_univ, if_true, Finset.sum_mul]
  rw [Finset.sum_comm]
  simp only [comb, Finset.mul_sum, mul_assoc]

theorem res_meas (h : StdNormal P Z) (V : κ → ι → ℝ) (i : ι) : Measurable (res V Z i) :=
  (h.meas i).sub (Finset.measurable_fun_sum _ fun a _ => (h.comb_meas _).const_mul _)

theorem res_indep [DecidableEq κ] (h : StdNormal P Z) (V : κ → ι → ℝ) (hV : ∀ a b, ∑ i, V a i * V b i = if a = b then 1 else 0) :
    IndepFun (fun w a => comb (V a) Z w) (fun w i => res V Z i w) P := by
  classical
  have := h.comb_indep V (fun i j => (if j = i then 1 else 0) - ∑ a, V a i * V a j) fun b i => by
    simp only [mul_sub, Finset.sum_sub_distrib, mul_ite, mul_one, mul_zero, Finset.sum_ite_eq', Finset.mem_univ, if_true]
    have : ∑ j, V b j * ∑ a, V a i * V a j = ∑ a, V a i * ∑ j, V b j * V a j := by
      simp only [Finset.mul_sum]
      rw [Finset.sum_comm]
      exact Finset.sum_congr rfl fun a _ => Finset.sum_congr rfl fun j _ => by ring
    rw [this]
    simp only [hV, mul_ite, mul_one, mul_zero, Finset.sum_ite_eq, Finset.mem_univ, if_true, sub_self]
  simpa only [res_comb V] using this

theorem res_sq [DecidableEq κ] (V : κ → ι → ℝ) (hV : ∀ a b, ∑ i, V a i * V b i = if a = b then 1 else 0) (w : Ω) :
    ∑ i, res V Z i w ^ 2 = ∑ i, Z i w ^ 2 - ∑ a, comb (V a) Z w ^ 2 := by
  set S : κ → ℝ := fun a => comb (V a) Z w with hS
  have e : ∀ i, res V Z i w ^ 2 = Z i w ^ 2 - 2 * ∑ a, S a * (V a i * Z i w) + ∑ a, ∑ b, S a * S b * (V a i * V b i) := by
    intro i
    have e1 : (∑ a, V a i * S a) ^ 2 = ∑ a, ∑ b, S a * S b * (V a i * V b i) := by
      rw [sq, Finset.sum_mul_sum]
      exact Finset.sum_congr rfl fun a _ => Finset.sum_congr rfl fun b _ => by ring
    have e2 : ∑ a, S a * (V a i * Z i w) = (∑ a, V a i * S a) * Z i w := by rw [Finset.sum_mul]; exact Finset.sum_congr rfl fun a _ => by ring
    rw [← e1, e2]
    unfold res
    ring
  simp only [e, Finset.sum_add_distrib, Finset.sum_sub_distrib, ← Finset.mul_sum]
  have e3 : ∑ i, ∑ a, S a * (V a i * Z i w) = ∑ a, S a ^ 2 := by
    rw [Finset.sum_comm]
    refine Finset.sum_congr rfl fun a _ => ?_
    rw [← Finset.mul_sum, sq]
    rfl
  have e4 : ∑ i, ∑ a, ∑ b, S a * S b * (V a i * V b i) = ∑ a, S a ^ 2 := by
    rw [Finset.sum_comm]
    refine Finset.sum_congr rfl fun a _ => ?_
    rw [Finset.sum_comm]
    simp only [← Finset.mul_sum, hV, mul_ite, mul_one, mul_zero, Finset.sum_ite_eq, Finset.mem_univ, if_true, sq]
  rw [e3, e4]
  ring

/-- Cochran: the squared length of the part orthogonal to orthonormal vectors has the χ² distribution. -/
theorem res_law [DecidableEq κ] (h : StdNormal P Z) (V : κ → ι → ℝ) (hV : ∀ a b, ∑ i, V a i * V b i = if a = b then 1 else 0)
    (hk : Fintype.card κ < Fintype.card ι) : P.map (fun w => ∑ i, res V Z i w ^ 2) = chiSq (Fintype.card ι - Fintype.card κ) := by
  have := h.prob
  have hk' : 0 < Fintype.card ι - Fintype.card κ := by omega
  have := chiSq_prob hk'
  set Q : Ω → ℝ := fun w => ∑ i, res V Z i w ^ 2 with hQ
  have hQm : Measurable Q := Finset.measurable_fun_sum _ fun i _ => (h.res_meas V i).pow_const 2
  have hQ0 : ∀ w, 0 ≤ Q w := fun w => Finset.sum_nonneg fun i _ => sq_nonneg _
  have hS := h.combs V hV
  have hRm : Measurable fun w => ∑ a, comb (V a) Z w ^ 2 := Finset.measurable_fun_sum _ fun a _ => (hS.meas a).pow_const 2
  have hsum : ∀ w, ∑ i, Z i w ^ 2 = Q w + ∑ a, comb (V a) Z w ^ 2 := fun w => by have := res_sq (Z := Z) V hV w; simp only [hQ]; linarith
  have hind : IndepFun Q (fun w => ∑ a, comb (V a) Z w ^ 2) P :=
    ((h.res_indep V hV).comp (φ := fun f : κ → ℝ => ∑ a, f a ^ 2) (ψ := fun f : ι → ℝ => ∑ i, f i ^ 2) (by fun_prop) (by fun_prop)).symm
  have hint : ∀ t < (1 / 2 : ℝ), Integrable (fun w => Real.exp (t * Q w)) P := by
    intro t ht
    rcases le_total 0 t with h0 | h0
    · refine (h.sum_sq ht).1.mono' (by fun_prop) (ae_of_all _ fun w => ?_)
      rw [Real.norm_eq_abs, Real.abs_exp, hsum]
      exact Real.exp_le_exp.2 (mul_le_mul_of_nonneg_left (le_add_of_nonneg_right (Finset.sum_nonneg fun a _ => sq_nonneg _)) h0)
    · refine (integrable_const (1 : ℝ)).mono' (by fun_prop) (ae_of_all _ fun w => ?_)
      rw [Real.norm_eq_abs, Real.abs_exp]
      exact Real.exp_le_one_iff.2 (mul_nonpos_of_nonpos_of_nonneg h0 (hQ0 w))
  have hmgf : ∀ t < (1 / 2 : ℝ), mgf Q P t = mgf id (chiSq (Fintype.card ι - Fintype.card κ)) t := by
    intro t ht
    have hp : 0 < 1 - 2 * t := by linarith
    have h1 := (h.sum_sq ht).2
    have h2 : mgf (fun w => ∑ i, Z i w ^ 2) P t = mgf Q P t * mgf (fun w => ∑ a, comb (V a) Z w ^ 2) P t := by
      rw [← hind.mgf_add (by fun_prop) ((hRm.const_mul t).exp.aestronglyMeasurable)]
      exact mgf_congr (ae_of_all _ fun w => hsum w)
    rw [h1, (hS.sum_sq ht).2] at h2
    rw [chiSq_mgf hk' ht]
    have h3 := (Real.rpow_pos_of_pos hp (-(Fintype.card κ / 2 : ℝ))).ne'
    rw [← mul_left_inj' h3, ← h2, ← Real.rpow_add hp]
    congr 1
    rw [Nat.cast_sub (by omega)]
    ring
  have := law_eq_of_mgf hQm.aemeasurable aemeasurable_id (by norm_num) hint (fun t ht => chiSq_integrable hk' ht) hmgf
  rwa [Measure.map_id] at this

end StdNormal

theorem fisher_meas (a b : ℕ) : Measurable fun p : ℝ × ℝ => (p.1 / a) / (p.2 / b) := by fun_prop

theorem fisher_prob {a b : ℕ} (ha : 0 < a) (hb : 0 < b) : IsProbabilityMeasure (fisher a b) := by
  have := chiSq_prob ha
  have := chiSq_prob hb
  exact Measure.isProbabilityMeasure_map (fisher_meas a b).aemeasurable

theorem fisher_noAtoms {a b : ℕ} (ha : 0 < a) (hb : 0 < b) : NullSingletonClass (fisher a b) := by
  have := chiSq_prob ha
  have := chiSq_prob hb
  refine ⟨fun c => ?_⟩
  have ha' : (0 : ℝ) < a := by positivity
  have hb' : (0 : ℝ) < b := by positivity
  rw [fisher, Measure.map_apply (fisher_meas a b) (measurableSet_singleton c), Measure.prod_apply_symm (fisher_meas a b (measurableSet_singleton c))]
  rw [lintegral_eq_zero_iff' (measurable_measure_prodMk_right (fisher_meas a b (measurableSet_singleton c))).aemeasurable]
  filter_upwards [chiSq_pos (k := b)] with y hy
  have hs : y / b ≠ 0 := by positivity
  have : (fun x => (x, y)) ⁻¹' ((fun p : ℝ × ℝ => (p.1 / a) / (p.2 / b)) ⁻¹' {c}) = {c * (y / b) * a} := by
    ext x
    simp only [Set.mem_preimage, Set.mem_singleton_iff, div_eq_iff hs, div_eq_iff ha'.ne']
  rw [this]
  exact measure_singleton _

end MLMC.Stat

namespace MLMC.Stat
open MeasureTheory ProbabilityTheory

section Groups
variable {Ω : Type} {k : ℕ} {n : Fin k → ℕ}

/-- The unit vectors of the means of the groups. -/
noncomputable def groupVec (n : Fin k → ℕ) (g : Fin k) : (Σ g, Fin (n g)) → ℝ := fun p => if p.1 = g then 1 / √(n g) else 0

theorem sum_group (n : Fin k → ℕ) (g : Fin k) (f : (Σ g, Fin (n g)) → ℝ) : ∑ p, (if p.1 = g then f p else 0) = ∑ i, f ⟨g, i⟩ := by
  rw [Fintype.sum_sigma, Finset.sum_eq_single g]
  · simp
  · intro b _ hb; simp [hb]
  · simp

theorem groupVec_orth (hn : ∀ g, 0 < n g) (a b : Fin k) : ∑ p, groupVec n a p * groupVec n b p = if a = b then 1 else 0 := by
  have h : ∀ p, groupVec n a p * groupVec n b p = if p.1 = a then (if a = b then 1 / (n a : ℝ) else 0) else 0 := by
    intro p
    unfold groupVec
    by_cases h1 : p.1 = a
    · by_cases h2 : a = b
      · subst h2
        rw [if_pos h1, if_pos h1, if_pos rfl, div_mul_div_comm, one_mul, Real.mul_self_sqrt (Nat.cast_nonneg _)]
      · rw [if_neg (fun h => h2 (h1 ▸ h)), mul_zero, if_pos h1, if_neg h2]
    · rw [if_neg h1, zero_mul, if_neg h1]
  simp only [h]
  rw [sum_group n a fun _ => if a = b then 1 / (n a : ℝ) else 0]
  have : (n a : ℝ) ≠ 0 := by have := hn a; positivity
  split_ifs
  · simp [this]
  · simp

theorem comb_group (Z : (Σ g, Fin (n g)) → Ω → ℝ) (g : Fin k) (w : Ω) : StdNormal.comb (groupVec n g) Z w = (∑ i, Z ⟨g, i⟩ w) / √(n g) := by
  unfold StdNormal.comb groupVec
  simp only [ite_mul, zero_mul]
  rw [sum_group n g fun p => 1 / √(n g) * Z p w, ← Finset.mul_sum]
  ring

/-- The unit vector of the mean over all groups. -/
noncomputable def totalVec (n : Fin k → ℕ) (g : Fin k) : ℝ := √(n g) / √(∑ g, n g : ℕ)

theorem totalVec_sq (hN : 0 < ∑ g, n g) : ∑ g, totalVec n g ^ 2 = 1 := by
  have : ((∑ g, n g : ℕ) : ℝ) ≠ 0 := by positivity
  simp only [totalVec, div_pow, Real.sq_sqrt (Nat.cast_nonneg _), ← Finset.sum_div]
  rw [← Nat.cast_sum, div_self this]

/-- The lists of values of the groups. -/
def groupLists (Y : (Σ g, Fin (n g)) → Ω → ℝ) (w : Ω) : List (List ℝ) := List.ofFn fun g => List.ofFn fun i => Y ⟨g, i⟩ w

theorem groupLists_length (Y : (Σ g, Fin (n g)) → Ω → ℝ) (w : Ω) : (groupLists Y w).length = k := List.length_ofFn

theorem groupLists_total (Y : (Σ g, Fin (n g)) → Ω → ℝ) (w : Ω) : (groupLists Y w).flatten.length = ∑ g, n g := by
  rw [groupLists, List.length_flatten, List.map_ofFn, List.sum_ofFn]
  simp

theorem groupLists_sum (Y : (Σ g, Fin (n g)) → Ω → ℝ) (w : Ω) : (groupLists Y w).flatten.sum = ∑ g, ∑ i, Y ⟨g, i⟩ w := by
  rw [groupLists, List.sum_flatten, List.map_ofFn, List.sum_ofFn]
  simp [List.sum_ofFn]

/-- The statistic of `f_oneway` in terms of standard normal numbers. -/
theorem fStatistic_eq (hk : 2 ≤ k) (hn : ∀ g, 0 < n g) (hN : k < ∑ g, n g) {mu : ℝ} {v : NNReal} (hv : v ≠ 0) (Y : (Σ g, Fin (n g)) → Ω → ℝ) (w : Ω) :
    fStatistic (groupLists Y w) =
      ((∑ g, (StdNormal.comb (groupVec n g) (fun p w => (Y p w - mu) / √v) w -
          totalVec n g * StdNormal.comb (totalVec n) (fun g => StdNormal.comb (groupVec n g) fun p w => (Y p w - mu) / √v) w) ^ 2) / (k - 1 : ℕ)) /
        ((∑ p, StdNormal.res (groupVec n) (fun p w => (Y p w - mu) / √v) p w ^ 2) / (∑ g, n g - k : ℕ)) := by
  have hv' : (0 : ℝ) < v := by exact_mod_cast pos_iff_ne_zero.2 hv
  have hs : √(v : ℝ) ≠ 0 := (Real.sqrt_pos.2 hv').ne'
  have hN0 : (0 : ℝ) < (∑ g, n g : ℕ) := Nat.cast_pos.2 (by omega)
  have hsN : √((∑ g, n g : ℕ) : ℝ) ≠ 0 := (Real.sqrt_pos.2 hN0).ne'
  have hng : ∀ g, (0 : ℝ) < n g := fun g => by have := hn g; positivity
  have hsn : ∀ g, √(n g : ℝ) ≠ 0 := fun g => (Real.sqrt_pos.2 (hng g)).ne'
  set m : Fin k → ℝ := fun g => (∑ i, Y ⟨g, i⟩ w) / n g with hm
  set M : ℝ := (∑ g, ∑ i, Y ⟨g, i⟩ w) / (∑ g, n g : ℕ) with hM
  have hS : ∀ g, StdNormal.comb (groupVec n g) (fun p w => (Y p w - mu) / √v) w = √(n g) / √v * (m g - mu) := by
    intro g
    rw [comb_group, ← Finset.sum_div, Finset.sum_sub_distrib]
    simp only [Finset.sum_const, Finset.card_univ, Fintype.card_fin, nsmul_eq_mul, hm]
    have e : (n g : ℝ) = √(n g) * √(n g) := (Real.mul_self_sqrt (Nat.cast_nonneg _)).symm
    have := hsn g
    generalize ∑ i, Y ⟨g, i⟩ w = s
    generalize √(n g : ℝ) = r at *
    rw [e]
    field_simp
  have hU : StdNormal.comb (totalVec n) (fun g => StdNormal.comb (groupVec n g) fun p w => (Y p w - mu) / √v) w = √(∑ g, n g : ℕ) / √v * (M - mu) := by
    rw [StdNormal.comb]
    simp only [hS]
    have e : ∀ g, totalVec n g * (√(n g) / √v * (m g - mu)) = (∑ i, Y ⟨g, i⟩ w - n g * mu) / (√(∑ g, n g : ℕ) * √v) := by
      intro g
      have e : (n g : ℝ) = √(n g) * √(n g) := (Real.mul_self_sqrt (Nat.cast_nonneg _)).symm
      have := hsn g
      simp only [totalVec, hm]
      generalize ∑ i, Y ⟨g, i⟩ w = s
      generalize √(n g : ℝ) = r at *
      rw [e]
      field_simp
    simp only [e, ← Finset.sum_div, Finset.sum_sub_distrib, ← Finset.sum_mul, hM, ← Nat.cast_sum]
    have e : ((∑ g, n g : ℕ) : ℝ) = √(∑ g, n g : ℕ) * √(∑ g, n g : ℕ) := (Real.mul_self_sqrt (Nat.cast_nonneg _)).symm
    generalize ∑ g, ∑ i, Y ⟨g, i⟩ w = s
    generalize √((∑ g, n g : ℕ) : ℝ) = r at *
    rw [e]
    field_simp
  have hB : ∀ g, (StdNormal.comb (groupVec n g) (fun p w => (Y p w - mu) / √v) w -
      totalVec n g * StdNormal.comb (totalVec n) (fun g => StdNormal.comb (groupVec n g) fun p w => (Y p w - mu) / √v) w) ^ 2 = n g * (m g - M) ^ 2 / v := by
    intro g
    rw [hS, hU, totalVec]
    have e : √(n g : ℝ) / √v * (m g - mu) - √(n g : ℝ) / √(∑ g, n g : ℕ) * (√(∑ g, n g : ℕ) / √v * (M - mu)) = √(n g : ℝ) / √v * (m g - M) := by
      generalize m g = x
      field_simp
      ring
    rw [e, mul_pow, div_pow, Real.sq_sqrt (Nat.cast_nonneg _), Real.sq_sqrt hv'.le]
    ring
  have hW : ∀ p : Σ g, Fin (n g), StdNormal.res (groupVec n) (fun p w => (Y p w - mu) / √v) p w ^ 2 = (Y p w - m p.1) ^ 2 / v := by
    intro p
    have e : ∑ a, groupVec n a p * StdNormal.comb (groupVec n a) (fun p w => (Y p w - mu) / √v) w = (m p.1 - mu) / √v := by
      rw [Finset.sum_eq_single p.1]
      · rw [hS, groupVec, if_pos rfl]
        have := hsn p.1
        generalize m p.1 = x
        field_simp
      · intro b _ hb
        rw [groupVec, if_neg (Ne.symm hb), zero_mul]
      · simp
    rw [StdNormal.res, e, ← sub_div, div_pow, Real.sq_sqrt hv'.le]
    ring
  have hl1 : ((groupLists Y w).map fun g => (g.length : ℝ) * (mean g - mean (groupLists Y w).flatten) ^ 2).sum = ∑ g, n g * (m g - M) ^ 2 := by
    have : mean (groupLists Y w).flatten = M := by rw [mean, groupLists_sum, groupLists_total]
    rw [this, groupLists, List.map_ofFn, List.sum_ofFn]
    refine Finset.sum_congr rfl fun g _ => ?_
    simp only [Function.comp, List.length_ofFn, mean_ofFn, hm]
  have hl2 : ((groupLists Y w).map fun g => (g.map fun x => (x - mean g) ^ 2).sum).sum = ∑ p : Σ g, Fin (n g), (Y p w - m p.1) ^ 2 := by
    rw [groupLists, List.map_ofFn, List.sum_ofFn, Fintype.sum_sigma]
    refine Finset.sum_congr rfl fun g _ => ?_
    simp only [Function.comp, sq_ofFn, hm]
  simp only [hB, hW, ← Finset.sum_div]
  rw [fStatistic, hl1, hl2, groupLists_length, groupLists_total, Nat.cast_sub (by omega : 1 ≤ k), Nat.cast_sub hN.le, Nat.cast_one]
  generalize ∑ g, n g * (m g - M) ^ 2 = A
  generalize ∑ p : Σ g, Fin (n g), (Y p w - m p.1) ^ 2 = B
  rcases eq_or_ne B 0 with h | h
  · simp [h]
  · rw [div_right_comm A (v : ℝ), div_right_comm B (v : ℝ), div_div_div_cancel_right₀ hv'.ne']

end Groups
end MLMC.Stat
