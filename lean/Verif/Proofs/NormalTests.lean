import Verif.Proofs.ChiSquare
import Verif.Proofs.StatsTests
import Mathlib.Probability.CDF
/-! Continuity of the distribution functions; normal samples are scaled standard normal numbers. -/
namespace MLMC.Stat
open MeasureTheory ProbabilityTheory Filter Topology

theorem cdf_continuous (μ : Measure ℝ) [IsProbabilityMeasure μ] [NullSingletonClass μ] : Continuous fun t => cdf μ t := by
  rw [continuous_iff_continuousAt]
  intro a
  rw [continuousAt_iff_continuous_left'_right']
  refine ⟨?_, ((cdf μ).right_continuous a).mono Set.Ioi_subset_Ici_self⟩
  rw [(cdf μ).mono.continuousWithinAt_Iio_iff_leftLim_eq]
  have h := (cdf μ).measure_singleton a
  rw [measure_cdf, measure_singleton, eq_comm, ENNReal.ofReal_eq_zero] at h
  exact le_antisymm ((cdf μ).mono.leftLim_le le_rfl) (by linarith)

instance chiSq_noAtoms (k : ℕ) : NullSingletonClass (chiSq k) := by
  unfold chiSq gammaMeasure
  infer_instance

variable {Ω ι : Type} [MeasurableSpace Ω] {P : Measure Ω} [Fintype ι]

theorem Normal.std {mu : ℝ} {v : NNReal} (hv : v ≠ 0) {Y : ι → Ω → ℝ} (h : Normal P mu v Y) : StdNormal P fun i w => (Y i w - mu) / √v where
  meas i := ((h.meas i).sub_const _).div_const _
  indep := h.indep.comp (fun _ x => (x - mu) / √v) fun _ => by fun_prop
  law i := by
    have e : (fun w => (Y i w - mu) / √v) = (fun x => x / √v) ∘ (fun x => x - mu) ∘ Y i := rfl
    rw [e, ← Measure.map_map (by fun_prop) (by have := h.meas i; fun_prop), ← Measure.map_map (by fun_prop) (h.meas i), h.law, gaussianReal_map_sub_const, gaussianReal_map_div_const]
    congr 1
    · simp
    · rw [NNReal.coe_inj.symm]
      simp
      exact hv

/-- The unit vector of the mean. -/
noncomputable def unitVec (N : ℕ) : Fin N → ℝ := fun _ => 1 / √N

theorem unitVec_sq {N : ℕ} (hN : 0 < N) : ∑ i, unitVec N i ^ 2 = 1 := by
  have : (N : ℝ) ≠ 0 := by positivity
  simp only [unitVec, div_pow, one_pow, Real.sq_sqrt (Nat.cast_nonneg N), Finset.sum_const, Finset.card_univ, Fintype.card_fin, nsmul_eq_mul]
  field_simp

theorem mean_ofFn {N : ℕ} (f : Fin N → ℝ) : mean (List.ofFn f) = (∑ i, f i) / N := by
  rw [mean, List.sum_ofFn, List.length_ofFn]

theorem sq_ofFn {N : ℕ} (f : Fin N → ℝ) : ((List.ofFn f).map fun x => (x - mean (List.ofFn f)) ^ 2).sum = ∑ i, (f i - (∑ j, f j) / N) ^ 2 := by
  rw [mean_ofFn, List.map_ofFn, List.sum_ofFn]
  rfl

omit [MeasurableSpace Ω] in
/-- Sum of squared deviations and mean in terms of the standard normal numbers. -/
theorem dev_eq {N : ℕ} (hN : 0 < N) {mu : ℝ} {v : NNReal} (hv : v ≠ 0) (Y : Fin N → Ω → ℝ) (w : Ω) :
    ∑ i, (Y i w - (∑ j, Y j w) / N) ^ 2 = v * ∑ i, ((Y i w - mu) / √v - unitVec N i * StdNormal.comb (unitVec N) (fun i w => (Y i w - mu) / √v) w) ^ 2 ∧
    (∑ j, Y j w) / N - mu = √v / √N * StdNormal.comb (unitVec N) (fun i w => (Y i w - mu) / √v) w := by
  have hn : (N : ℝ) ≠ 0 := by positivity
  have hv' : (0 : ℝ) < v := by exact_mod_cast pos_iff_ne_zero.2 hv
  have hs : √(v : ℝ) ≠ 0 := (Real.sqrt_pos.2 hv').ne'
  have hsn : √(N : ℝ) ≠ 0 := (Real.sqrt_pos.2 (by positivity)).ne'
  have hc : StdNormal.comb (unitVec N) (fun i w => (Y i w - mu) / √v) w = √N / √v * ((∑ j, Y j w) / N - mu) := by
    unfold StdNormal.comb unitVec
    rw [← Finset.mul_sum, ← Finset.sum_div, Finset.sum_sub_distrib]
    simp only [Finset.sum_const, Finset.card_univ, Fintype.card_fin, nsmul_eq_mul]
    have : (N : ℝ) = √N * √N := (Real.mul_self_sqrt (Nat.cast_nonneg N)).symm
    generalize ∑ j, Y j w = s
    generalize √(N : ℝ) = r at *
    rw [this]
    field_simp
  constructor
  · rw [Finset.mul_sum]
    refine Finset.sum_congr rfl fun i _ => ?_
    rw [hc, unitVec]
    have e : (Y i w - mu) / √v - 1 / √N * (√N / √v * ((∑ j, Y j w) / N - mu)) = (Y i w - (∑ j, Y j w) / N) / √v := by
      generalize (∑ j, Y j w) / (N : ℝ) = m
      field_simp
      ring
    rw [e, div_pow, Real.sq_sqrt hv'.le, mul_div_cancel₀ _ hv'.ne']
  · rw [hc]
    field_simp

theorem chiSq_pos {k : ℕ} : ∀ᵐ y ∂chiSq k, 0 < y := by
  rw [ae_iff]
  have : {y : ℝ | ¬ 0 < y} = Set.Iio 0 ∪ {0} := by ext y; simp [le_iff_lt_or_eq]
  rw [this]
  refine measure_union_null ?_ (measure_singleton 0)
  rw [chiSq, gammaMeasure, withDensity_apply _ measurableSet_Iio]
  rw [setLIntegral_congr_fun measurableSet_Iio (g := fun _ => 0) fun x hx => gammaPDF_of_neg hx]
  simp

theorem student_meas (k : ℕ) : Measurable fun p : ℝ × ℝ => p.1 / √(p.2 / k) := by fun_prop

theorem student_prob {k : ℕ} (hk : 0 < k) : IsProbabilityMeasure (student k) := by
  have := chiSq_prob hk
  exact Measure.isProbabilityMeasure_map (student_meas k).aemeasurable

theorem student_noAtoms {k : ℕ} (hk : 0 < k) : NullSingletonClass (student k) := by
  have := chiSq_prob hk
  refine ⟨fun a => ?_⟩
  have hk' : (0 : ℝ) < k := by positivity
  rw [student, Measure.map_apply (student_meas k) (measurableSet_singleton a), Measure.prod_apply_symm (student_meas k (measurableSet_singleton a))]
  rw [lintegral_eq_zero_iff' (measurable_measure_prodMk_right (student_meas k (measurableSet_singleton a))).aemeasurable]
  filter_upwards [chiSq_pos (k := k)] with y hy
  have hs : √(y / k) ≠ 0 := (Real.sqrt_pos.2 (by positivity)).ne'
  have : (fun x => (x, y)) ⁻¹' ((fun p : ℝ × ℝ => p.1 / √(p.2 / k)) ⁻¹' {a}) = {a * √(y / k)} := by
    ext x
    simp only [Set.mem_preimage, Set.mem_singleton_iff, div_eq_iff hs]
  rw [this]
  have := noAtoms_gaussianReal (μ := 0) (v := 1) one_ne_zero
  exact measure_singleton _

theorem student_neg {k : ℕ} (hk : 0 < k) : (student k).map (fun x => -x) = student k := by
  have := chiSq_prob hk
  rw [student, Measure.map_map (by fun_prop) (student_meas k)]
  have e : (fun x : ℝ => -x) ∘ (fun p : ℝ × ℝ => p.1 / √(p.2 / k)) = (fun p : ℝ × ℝ => p.1 / √(p.2 / k)) ∘ (Prod.map (fun x => -x) id) := by
    ext p; simp [neg_div]
  rw [e, ← Measure.map_map (student_meas k) (by fun_prop), ← Measure.map_prod_map _ _ (by fun_prop) (by fun_prop), gaussianReal_map_neg, Measure.map_id, neg_zero]

/-- Student's distribution is symmetric. -/
theorem student_abs {k : ℕ} (hk : 0 < k) (t : ℝ) : (student k).real {x | |x| ≤ t} = max 0 (2 * cdf (student k) t - 1) := by
  have := student_prob hk
  have := student_noAtoms hk
  have hsym : ∀ s, (student k).real (Set.Iio (-s)) = (student k).real (Set.Ioi s) := by
    intro s
    conv_lhs => rw [← student_neg hk, map_measureReal_apply (by fun_prop) measurableSet_Iio]
    congr 1
    ext x; simp
  have hIoi : ∀ s, (student k).real (Set.Ioi s) = 1 - cdf (student k) s := by
    intro s
    rw [← Set.compl_Iic, probReal_compl_eq_one_sub measurableSet_Iic, cdf_eq_real]
  rcases lt_or_ge t 0 with ht | ht
  · have e : {x : ℝ | |x| ≤ t} = ∅ := by
      ext x; simp only [Set.mem_setOf_eq, Set.mem_empty_iff_false, iff_false, not_le]; exact ht.trans_le (abs_nonneg x)
    have h0 : cdf (student k) t ≤ 1 / 2 := by
      have h1 := (cdf (student k)).mono (show t ≤ -t by linarith)
      have h2 := hsym (-t)
      rw [neg_neg, hIoi] at h2
      have h3 : (student k).real (Set.Iio t) = cdf (student k) t := by rw [cdf_eq_real]; exact measureReal_congr Iio_ae_eq_Iic
      linarith
    rw [e, measureReal_empty, max_eq_left (by linarith)]
  · have hle : (student k).real (Set.Iio (-t)) ≤ (student k).real (Set.Iic t) := measureReal_mono fun x (hx : x < -t) => show x ≤ t by linarith
    have e : {x : ℝ | |x| ≤ t} = Set.Iic t \ Set.Iio (-t) := by
      ext x; simp only [Set.mem_setOf_eq, Set.mem_diff, Set.mem_Iic, Set.mem_Iio, not_lt, abs_le]; tauto
    have hsub : Set.Iio (-t) ⊆ Set.Iic t := fun x (hx : x < -t) => show x ≤ t by linarith
    rw [e, measureReal_diff hsub measurableSet_Iio, hsym, hIoi, ← cdf_eq_real, max_eq_right]
    · ring
    · rw [hsym, hIoi, ← cdf_eq_real] at hle
      linarith

end MLMC.Stat
