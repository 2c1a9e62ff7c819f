import Verif.Spec.NormalTests
import Mathlib.Probability.Distributions.Gaussian.Real
import Mathlib.Probability.Distributions.Gaussian.HasGaussianLaw.Independence
import Mathlib.Probability.Moments.ComplexMGF
import Mathlib.Analysis.SpecialFunctions.Gamma.Basic
import Mathlib.Analysis.SpecialFunctions.Gaussian.GaussianIntegral
/-! The χ² distribution, and that the sum of squared deviations from the mean of normal numbers has it. -/
namespace MLMC.Stat
open MeasureTheory ProbabilityTheory Complex Filter Topology

section Unique
variable {Ω Ω' : Type} {mΩ : MeasurableSpace Ω} {mΩ' : MeasurableSpace Ω'} {X : Ω → ℝ} {Y : Ω' → ℝ} {μ : Measure Ω} {μ' : Measure Ω'}

/-- Laws with the same moment generating function near zero are equal. -/
theorem law_eq_of_mgf [IsProbabilityMeasure μ] [IsProbabilityMeasure μ'] (hmX : AEMeasurable X μ) (hmY : AEMeasurable Y μ') {c : ℝ} (hc : 0 < c)
    (hX : ∀ t < c, Integrable (fun w => Real.exp (t * X w)) μ) (hY : ∀ t < c, Integrable (fun w => Real.exp (t * Y w)) μ')
    (h : ∀ t < c, mgf X μ t = mgf Y μ' t) : μ.map X = μ'.map Y := by
  have iX : Set.Iio c ⊆ interior (integrableExpSet X μ) := interior_maximal (fun t ht => hX t ht) isOpen_Iio
  have iY : Set.Iio c ⊆ interior (integrableExpSet Y μ') := interior_maximal (fun t ht => hY t ht) isOpen_Iio
  have aX : AnalyticOnNhd ℂ (complexMGF X μ) {z | z.re ∈ Set.Iio c} := (analyticOnNhd_complexMGF (X := X) (μ := μ)).mono fun z hz => iX hz
  have aY : AnalyticOnNhd ℂ (complexMGF Y μ') {z | z.re ∈ Set.Iio c} := (analyticOnNhd_complexMGF (X := Y) (μ := μ')).mono fun z hz => iY hz
  have he : Set.EqOn (complexMGF X μ) (complexMGF Y μ') {z | z.re ∈ Set.Iio c} := by
    refine AnalyticOnNhd.eqOn_of_preconnected_of_frequently_eq aX aY ((convex_Iio c).linear_preimage reLm).isPreconnected (z₀ := ((0 : ℝ) : ℂ)) (by simpa using hc) ?_
    have h_real : ∃ᶠ (x : ℝ) in 𝓝[≠] 0, complexMGF X μ x = complexMGF Y μ' x := by
      refine Eventually.frequently ?_
      have : ∀ᶠ x : ℝ in 𝓝[≠] 0, x < c := (eventually_lt_nhds hc).filter_mono nhdsWithin_le_nhds
      filter_upwards [this] with x hx
      rw [complexMGF_ofReal, complexMGF_ofReal, h x hx]
    rw [frequently_iff_seq_forall] at h_real ⊢
    obtain ⟨xs, hx_tendsto, hx_eq⟩ := h_real
    refine ⟨fun n ↦ xs n, ?_, fun n ↦ ?_⟩
    · rw [tendsto_nhdsWithin_iff] at hx_tendsto ⊢
      constructor
      · rw [tendsto_ofReal_iff]
        exact hx_tendsto.1
      · simpa using hx_tendsto.2
    · simp [hx_eq]
  have := Measure.isProbabilityMeasure_map hmX
  have := Measure.isProbabilityMeasure_map hmY
  refine Measure.ext_of_charFun ?_
  ext t
  have := he (x := (t : ℂ) * I) (by simpa using hc)
  rw [← complexMGF_id_mul_I, ← complexMGF_id_mul_I, complexMGF_id_map hmX, complexMGF_id_map hmY]
  exact this

end Unique

theorem chiSq_prob {k : ℕ} (hk : 0 < k) : IsProbabilityMeasure (chiSq k) :=
  isProbabilityMeasure_gammaMeasure (by positivity) (by norm_num)

theorem gamma_scaled {a t : ℝ} (ht : t < 1 / 2) (x : ℝ) :
    gammaPDFReal a (1 / 2) x * Real.exp (t * x) = (1 - 2 * t) ^ (-a) * gammaPDFReal a (1 / 2 - t) x := by
  unfold gammaPDFReal
  split_ifs with hx
  · have e1 : Real.exp (-(1 / 2 * x)) * Real.exp (t * x) = Real.exp (-((1 / 2 - t) * x)) := by rw [← Real.exp_add]; ring_nf
    have e2 : (1 / 2 : ℝ) ^ a = (1 - 2 * t) ^ (-a) * (1 / 2 - t) ^ a := by
      rw [Real.rpow_neg (by linarith), show (1 / 2 - t : ℝ) = (1 - 2 * t) * (1 / 2) by ring, Real.mul_rpow (by linarith) (by norm_num), ← mul_assoc,
        inv_mul_cancel₀ (Real.rpow_pos_of_pos (by linarith) a).ne', one_mul]
    rw [mul_assoc, e1, e2]
    ring
  · simp

theorem integrable_gammaPDF {a r : ℝ} (ha : 0 < a) (hr : 0 < r) : Integrable (gammaPDFReal a r) := by
  refine ⟨(measurable_gammaPDFReal a r).aestronglyMeasurable, ?_⟩
  rw [hasFiniteIntegral_iff_ofReal (ae_of_all _ (gammaPDFReal_nonneg ha hr))]
  have := lintegral_gammaPDF_eq_one ha hr
  unfold gammaPDF at this
  rw [this]
  exact ENNReal.one_lt_top

theorem integral_gammaPDF {a r : ℝ} (ha : 0 < a) (hr : 0 < r) : ∫ x, gammaPDFReal a r x = 1 := by
  have := lintegral_gammaPDF_eq_one ha hr
  unfold gammaPDF at this
  rw [integral_eq_lintegral_of_nonneg_ae (ae_of_all _ (gammaPDFReal_nonneg ha hr)) (measurable_gammaPDFReal a r).aestronglyMeasurable, this, ENNReal.toReal_one]

theorem integral_gammaMeasure {a r : ℝ} (ha : 0 < a) (hr : 0 < r) (f : ℝ → ℝ) : ∫ x, f x ∂gammaMeasure a r = ∫ x, gammaPDFReal a r x * f x := by
  have hm : Measurable (gammaPDF a r) := (measurable_gammaPDFReal a r).ennreal_ofReal
  unfold gammaMeasure
  rw [integral_withDensity_eq_integral_toReal_smul₀ hm.aemeasurable (by simp [gammaPDF])]
  refine integral_congr_ae (ae_of_all _ fun x => ?_)
  simp [gammaPDF, ENNReal.toReal_ofReal (gammaPDFReal_nonneg ha hr x)]

theorem integrable_gammaMeasure {a r : ℝ} (ha : 0 < a) (hr : 0 < r) (f : ℝ → ℝ) : Integrable f (gammaMeasure a r) ↔ Integrable fun x => gammaPDFReal a r x * f x := by
  have hm : Measurable (gammaPDF a r) := (measurable_gammaPDFReal a r).ennreal_ofReal
  unfold gammaMeasure
  rw [integrable_withDensity_iff_integrable_smul₀' hm.aemeasurable (by simp [gammaPDF])]
  refine integrable_congr (ae_of_all _ fun x => ?_)
  simp [gammaPDF, ENNReal.toReal_ofReal (gammaPDFReal_nonneg ha hr x)]

theorem chiSq_integrable {k : ℕ} (hk : 0 < k) {t : ℝ} (ht : t < 1 / 2) : Integrable (fun x => Real.exp (t * x)) (chiSq k) := by
  have ha : (0 : ℝ) < k / 2 := by positivity
  rw [chiSq, integrable_gammaMeasure ha (by norm_num)]
  simp only [gamma_scaled ht]
  exact (integrable_gammaPDF ha (by linarith)).const_mul _

theorem chiSq_mgf {k : ℕ} (hk : 0 < k) {t : ℝ} (ht : t < 1 / 2) : mgf id (chiSq k) t = (1 - 2 * t) ^ (-(k / 2 : ℝ)) := by
  have ha : (0 : ℝ) < k / 2 := by positivity
  rw [mgf, chiSq]
  simp only [id]
  rw [integral_gammaMeasure ha (by norm_num)]
  simp only [gamma_scaled ht]
  rw [integral_const_mul, integral_gammaPDF ha (by linarith), mul_one]

theorem sq_scaled (t x : ℝ) : gaussianPDFReal 0 1 x * Real.exp (t * x ^ 2) = (√(2 * Real.pi))⁻¹ * Real.exp (-(1 / 2 - t) * x ^ 2) := by
  rw [gaussianPDFReal, mul_assoc, ← Real.exp_add]
  simp
  ring_nf
  trivial

theorem sq_integrable {t : ℝ} (ht : t < 1 / 2) : Integrable (fun x : ℝ => Real.exp (t * x ^ 2)) (gaussianReal 0 1) := by
  rw [gaussianReal_of_var_ne_zero _ one_ne_zero, integrable_withDensity_iff_integrable_smul₀' (by fun_prop) (by simp [gaussianPDF])]
  have : (fun x => (gaussianPDF 0 1 x).toReal • Real.exp (t * x ^ 2)) = fun x => (√(2 * Real.pi))⁻¹ * Real.exp (-(1 / 2 - t) * x ^ 2) := by
    ext x
    rw [toReal_gaussianPDF, smul_eq_mul, sq_scaled]
  rw [this]
  exact (integrable_exp_neg_mul_sq (by linarith)).const_mul _

theorem sq_mgf {t : ℝ} (ht : t < 1 / 2) : mgf (fun x => x ^ 2) (gaussianReal 0 1) t = (1 - 2 * t) ^ (-(1 / 2 : ℝ)) := by
  rw [mgf, integral_gaussianReal_eq_integral_smul one_ne_zero]
  simp only [smul_eq_mul, sq_scaled]
  rw [integral_const_mul, integral_gaussian, Real.rpow_neg (by linarith), ← Real.sqrt_eq_rpow, ← Real.sqrt_inv, ← Real.sqrt_inv, ← Real.sqrt_mul (by positivity)]
  congr 1
  have : (1 / 2 - t) ≠ 0 := by linarith
  have : (1 - 2 * t) ≠ 0 := by linarith
  field_simp

section Normal
variable {Ω ι : Type} [MeasurableSpace Ω] {P : Measure Ω} [Fintype ι] {Z : ι → Ω → ℝ}

/-- Independent standard normal numbers. -/
structure StdNormal (P : Measure Ω) (Z : ι → Ω → ℝ) : Prop where
  meas : ∀ i, Measurable (Z i)
  indep : iIndepFun Z P
  law : ∀ i, P.map (Z i) = gaussianReal 0 1

namespace StdNormal

theorem prob (h : StdNormal P Z) : IsProbabilityMeasure P := h.indep.isProbabilityMeasure

theorem gauss (h : StdNormal P Z) (i : ι) : HasGaussianLaw (Z i) P := ⟨by rw [h.law]; infer_instance⟩

theorem joint (h : StdNormal P Z) : HasGaussianLaw (fun w => (Z · w)) P := h.indep.hasGaussianLaw h.gauss

theorem mean_eq (h : StdNormal P Z) (i : ι) : ∫ w, Z i w ∂P = 0 := by
  have := integral_map (μ := P) (φ := Z i) (f := id) (h.meas i).aemeasurable (by fun_prop)
  simp only [id] at this
  rw [← this, h.law, integral_id_gaussianReal]

theorem cov [DecidableEq ι] (h : StdNormal P Z) (i j : ι) : cov[Z i, Z j; P] = if i = j then 1 else 0 := by
  have := h.prob
  split_ifs with hij
  · subst hij
    rw [covariance_self (h.meas i).aemeasurable]
    have := variance_map (X := id) (μ := P) (Y := Z i) (by fun_prop) (h.meas i).aemeasurable
    rw [h.law, variance_id_gaussianReal] at this
    simpa using this.symm
  · exact (h.indep.indepFun hij).covariance_eq_zero (h.gauss i).memLp_two (h.gauss j).memLp_two

/-- A linear combination of the numbers. -/
def comb (v : ι → ℝ) (Z : ι → Ω → ℝ) (w : Ω) : ℝ := ∑ i, v i * Z i w

theorem comb_meas (h : StdNormal P Z) (v : ι → ℝ) : Measurable (comb v Z) := by
  unfold comb
  exact Finset.measurable_fun_sum _ fun i _ => (h.meas i).const_mul _

theorem comb_cov (h : StdNormal P Z) (u v : ι → ℝ) : cov[comb u Z, comb v Z; P] = ∑ i, u i * v i := by
  classical
  have := h.prob
  unfold comb
  rw [covariance_fun_sum_fun_sum (fun i => (h.gauss i).memLp_two.const_mul _) (fun i => (h.gauss i).memLp_two.const_mul _)]
  refine Finset.sum_congr rfl fun i _ => ?_
  rw [Finset.sum_eq_single i]
  · rw [covariance_const_mul_left, covariance_const_mul_right, h.cov, if_pos rfl, mul_one]
  · intro j _ hj
    rw [covariance_const_mul_left, covariance_const_mul_right, h.cov, if_neg hj.symm, mul_zero, mul_zero]
  · simp

theorem comb_gauss (h : StdNormal P Z) (v : ι → ℝ) : HasGaussianLaw (comb v Z) P :=
  h.joint.map (∑ i, v i • ContinuousLinearMap.proj (R := ℝ) (φ := fun _ : ι => ℝ) i) |>.congr (ae_of_all _ fun w => by simp [comb])

theorem comb_law (h : StdNormal P Z) (v : ι → ℝ) (hv : ∑ i, v i ^ 2 = 1) : P.map (comb v Z) = gaussianReal 0 1 := by
  have := h.prob
  rw [(h.comb_gauss v).map_eq_gaussianReal, ← covariance_self (h.comb_meas v).aemeasurable, h.comb_cov]
  have e : ∫ w, comb v Z w ∂P = 0 := by
    unfold comb
    rw [integral_finset_sum _ fun i _ => ((h.gauss i).integrable.const_mul _)]
    exact Finset.sum_eq_zero fun i _ => by rw [integral_const_mul, h.mean_eq, mul_zero]
  rw [e]
  congr 1
  simp only [← sq, hv, Real.toNNReal_one]

/-- Families of linear combinations that are orthogonal to each other are independent. -/
theorem comb_indep {κ τ : Type} [Fintype κ] [Fintype τ] (h : StdNormal P Z) (u : κ → ι → ℝ) (v : τ → ι → ℝ) (ho : ∀ a b, ∑ i, u a i * v b i = 0) :
    IndepFun (fun w a => comb (u a) Z w) (fun w b => comb (v b) Z w) P := by
  refine HasGaussianLaw.indepFun_of_covariance_eval ?_ fun a b => ?_
  · have := h.joint.map (ContinuousLinearMap.prod (ContinuousLinearMap.pi fun a => ∑ i, u a i • ContinuousLinearMap.proj (R := ℝ) (φ := fun _ : ι => ℝ) i)
      (ContinuousLinearMap.pi fun b => ∑ i, v b i • ContinuousLinearMap.proj (R := ℝ) (φ := fun _ : ι => ℝ) i))
    refine this.congr (ae_of_all _ fun w => ?_)
    ext <;> simp [comb]
  · rw [show (comb (u a) Z) = comb (u a) Z from rfl, h.comb_cov, ho]

theorem sq_integrable' {X : Ω → ℝ} (hm : Measurable X) (hl : P.map X = gaussianReal 0 1) {t : ℝ} (ht : t < 1 / 2) :
    Integrable (fun w => Real.exp (t * X w ^ 2)) P := by
  have := sq_integrable ht
  rw [← hl] at this
  exact (integrable_map_measure (by fun_prop) hm.aemeasurable).1 this

theorem sq_mgf' {X : Ω → ℝ} (hm : Measurable X) (hl : P.map X = gaussianReal 0 1) {t : ℝ} (ht : t < 1 / 2) :
    mgf (fun w => X w ^ 2) P t = (1 - 2 * t) ^ (-(1 / 2 : ℝ)) := by
  rw [← sq_mgf ht, ← hl, mgf_map hm.aemeasurable (by fun_prop)]
  rfl

theorem sum_sq (h : StdNormal P Z) {t : ℝ} (ht : t < 1 / 2) :
    Integrable (fun w => Real.exp (t * ∑ i, Z i w ^ 2)) P ∧ mgf (fun w => ∑ i, Z i w ^ 2) P t = (1 - 2 * t) ^ (-(Fintype.card ι / 2 : ℝ)) := by
  have := h.prob
  have hi : iIndepFun (fun i w => Z i w ^ 2) P := h.indep.comp (fun _ x => x ^ 2) fun _ => by fun_prop
  constructor
  · have := hi.integrable_exp_mul_sum (t := t) (fun i => (h.meas i).pow_const 2) (s := Finset.univ) fun i _ => sq_integrable' (h.meas i) (h.law i) ht
    simpa [Finset.sum_apply] using this
  · have := hi.mgf_sum (t := t) (fun i => (h.meas i).pow_const 2) Finset.univ
    rw [Finset.prod_congr rfl fun i _ => sq_mgf' (h.meas i) (h.law i) ht] at this
    have e : (fun w => ∑ i, Z i w ^ 2) = ∑ i, fun w => Z i w ^ 2 := by ext w; simp
    rw [e, this, Finset.prod_const, Finset.card_univ, ← Real.rpow_natCast, ← Real.rpow_mul (by linarith)]
    congr 1
    ring

theorem comb_single [DecidableEq ι] (v : ι → ℝ) (i : ι) (w : Ω) : comb (fun j => (if j = i then 1 else 0) - v i * v j) Z w = Z i w - v i * comb v Z w := by
  simp only [comb, sub_mul, Finset.sum_sub_distrib, Finset.mul_sum, ite_mul, one_mul, zero_mul, Finset.sum_ite_eq', Finset.mem_univ, if_true, mul_assoc]

/-- The part of the numbers orthogonal to a unit vector is independent of the part along it. -/
theorem resid_indep (h : StdNormal P Z) (v : ι → ℝ) (hv : ∑ i, v i ^ 2 = 1) : IndepFun (comb v Z) (fun w i => Z i w - v i * comb v Z w) P := by
  classical
  have := h.comb_indep (fun _ : Unit => v) (fun i j => (if j = i then 1 else 0) - v i * v j) fun _ i => by
    simp only [mul_sub, Finset.sum_sub_distrib, mul_ite, mul_one, mul_zero, Finset.sum_ite_eq', Finset.mem_univ, if_true]
    have : ∑ j, v j * (v i * v j) = v i * ∑ j, v j ^ 2 := by rw [Finset.mul_sum]; exact Finset.sum_congr rfl fun j _ => by ring
    rw [this, hv]; ring
  simp only [comb_single v] at this
  exact this.comp (φ := fun f : Unit → ℝ => f ()) (ψ := id) (by fun_prop) measurable_id

theorem resid_sq (v : ι → ℝ) (hv : ∑ i, v i ^ 2 = 1) (w : Ω) : ∑ i, (Z i w - v i * comb v Z w) ^ 2 = ∑ i, Z i w ^ 2 - comb v Z w ^ 2 := by
  have e : ∀ i, (Z i w - v i * comb v Z w) ^ 2 = Z i w ^ 2 - 2 * comb v Z w * (v i * Z i w) + comb v Z w ^ 2 * v i ^ 2 := fun i => by ring
  simp only [e, Finset.sum_add_distrib, Finset.sum_sub_distrib, ← Finset.mul_sum, hv]
  rw [show ∑ i, v i * Z i w = comb v Z w from rfl]
  ring

/-- Cochran: the squared length of the part orthogonal to a unit vector has the χ² distribution with one degree of freedom less. -/
theorem resid_law (h : StdNormal P Z) (v : ι → ℝ) (hv : ∑ i, v i ^ 2 = 1) (hk : 2 ≤ Fintype.card ι) :
    P.map (fun w => ∑ i, (Z i w - v i * comb v Z w) ^ 2) = chiSq (Fintype.card ι - 1) := by
  have := h.prob
  have hk' : 0 < Fintype.card ι - 1 := by omega
  have := chiSq_prob hk'
  set Q : Ω → ℝ := fun w => ∑ i, (Z i w - v i * comb v Z w) ^ 2 with hQ
  have hQm : Measurable Q := Finset.measurable_fun_sum _ fun i _ => ((h.meas i).sub ((h.comb_meas v).const_mul _)).pow_const 2
  have hQ0 : ∀ w, 0 ≤ Q w := fun w => Finset.sum_nonneg fun i _ => sq_nonneg _
  have hsum : ∀ w, ∑ i, Z i w ^ 2 = Q w + comb v Z w ^ 2 := fun w => by have := resid_sq (Z := Z) v hv w; simp only [hQ]; linarith
  have hind : IndepFun Q (fun w => comb v Z w ^ 2) P :=
    ((h.resid_indep v hv).comp (φ := fun x => x ^ 2) (ψ := fun f : ι → ℝ => ∑ i, f i ^ 2) (by fun_prop) (by fun_prop)).symm
  have hint : ∀ t < (1 / 2 : ℝ), Integrable (fun w => Real.exp (t * Q w)) P := by
    intro t ht
    rcases le_total 0 t with h0 | h0
    · refine (h.sum_sq ht).1.mono' (by fun_prop) (ae_of_all _ fun w => ?_)
      rw [Real.norm_eq_abs, Real.abs_exp, hsum]
      exact Real.exp_le_exp.2 (mul_le_mul_of_nonneg_left (le_add_of_nonneg_right (sq_nonneg _)) h0)
    · refine (integrable_const (1 : ℝ)).mono' (by fun_prop) (ae_of_all _ fun w => ?_)
      rw [Real.norm_eq_abs, Real.abs_exp]
      exact Real.exp_le_one_iff.2 (mul_nonpos_of_nonpos_of_nonneg h0 (hQ0 w))
  have hmgf : ∀ t < (1 / 2 : ℝ), mgf Q P t = mgf id (chiSq (Fintype.card ι - 1)) t := by
    intro t ht
    have hp : 0 < 1 - 2 * t := by linarith
    have h1 := (h.sum_sq ht).2
    have h2 : mgf (fun w => ∑ i, Z i w ^ 2) P t = mgf Q P t * mgf (fun w => comb v Z w ^ 2) P t := by
      rw [← hind.mgf_add (by fun_prop) (Measurable.aestronglyMeasurable (((h.comb_meas v).pow_const 2).const_mul t).exp)]
      exact mgf_congr (ae_of_all _ fun w => hsum w)
    rw [h1, sq_mgf' (h.comb_meas v) (h.comb_law v hv) ht] at h2
    rw [chiSq_mgf hk' ht]
    have h3 := (Real.rpow_pos_of_pos hp (-(1 / 2 : ℝ))).ne'
    rw [← mul_left_inj' h3, ← h2, ← Real.rpow_add hp]
    congr 1
    rw [Nat.cast_sub (by omega)]
    push_cast
    ring
  have := law_eq_of_mgf hQm.aemeasurable aemeasurable_id (by norm_num) hint (fun t ht => chiSq_integrable hk' ht) hmgf
  rwa [Measure.map_id] at this

end StdNormal
end Normal

end MLMC.Stat
