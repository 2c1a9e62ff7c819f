import Mathlib.LinearAlgebra.Complex.FiniteDimensional
import Mathlib.Analysis.SpecialFunctions.PolarCoord
import Mathlib.Analysis.SpecialFunctions.Gaussian.FourierTransform
import Mathlib.MeasureTheory.Function.JacobianOneDim
import Mathlib.MeasureTheory.Integral.IntervalIntegral.Periodic
/-! Random frequencies in polar coordinates. -/
namespace MLMC.RF.Fourier
open MeasureTheory Set Real

/-- A number from `[0, 1)` turned into a radius: `rad` inverts the decreasing function `f` from `(0, ∞)` onto `(0, 1)`. -/
structure Radius (f f' rad : ℝ → ℝ) : Prop where
  deriv : ∀ r ∈ Ioi (0 : ℝ), HasDerivAt f (f' r) r
  anti : StrictAntiOn f (Ioi 0)
  image : f '' Ioi 0 = Ioo 0 1
  inv : ∀ r ∈ Ioi (0 : ℝ), rad (f r) = r
  meas : Measurable f'

theorem Radius.integral {f f' rad : ℝ → ℝ} (h : Radius f f' rad) (g : ℝ → ℝ) :
    ∫ u in Ico (0 : ℝ) 1, g (rad u) = ∫ r in Ioi (0 : ℝ), |f' r| * g r := by
  rw [← setIntegral_congr_set Ioo_ae_eq_Ico, ← h.image,
    integral_image_eq_integral_abs_deriv_smul measurableSet_Ioi (fun x hx => (h.deriv x hx).hasDerivWithinAt) h.anti.injOn]
  refine setIntegral_congr_fun measurableSet_Ioi fun r hr => ?_
  simp only [smul_eq_mul, h.inv r hr]

theorem Radius.integrable {f f' rad : ℝ → ℝ} (h : Radius f f' rad) : IntegrableOn (fun r => |f' r|) (Ioi 0) := by
  have := (integrableOn_image_iff_integrableOn_abs_deriv_smul measurableSet_Ioi (fun x hx => (h.deriv x hx).hasDerivWithinAt) h.anti.injOn
    fun _ => (1 : ℝ)).1 (by rw [h.image]; exact integrableOn_const (by simp))
  simpa using this

theorem angle (G : ℝ → ℝ) (hG : Function.Periodic G (2 * π)) : ∫ a in Ico (0 : ℝ) 1, G (2 * π * a) = 1 / (2 * π) * ∫ t in Ioo (-π) π, G t := by
  rw [setIntegral_congr_set (Ioo_ae_eq_Ico.symm.trans Ioo_ae_eq_Ioc), ← intervalIntegral.integral_of_le zero_le_one, intervalIntegral.integral_comp_mul_left _ (by positivity),
    setIntegral_congr_set Ioo_ae_eq_Ioc, ← intervalIntegral.integral_of_le (by linarith [pi_pos])]
  have := hG.intervalIntegral_add_eq 0 (-π)
  rw [show 0 + 2 * π = 2 * π * 1 by ring, show -π + 2 * π = π by ring] at this
  rw [mul_zero, this, smul_eq_mul, one_div]

/-- The expectation of the cosine for a random frequency with radius `rad u` and angle `2 π a`, as an integral over the plane. -/
theorem plane {f f' rad : ℝ → ℝ} (h : Radius f f' rad) (w : ℝ → ℝ) (hw : ∀ r ∈ Ioi (0 : ℝ), |f' r| = r * w r) (x y : ℝ) :
    ∫ a in Ico (0 : ℝ) 1, ∫ u in Ico (0 : ℝ) 1, Real.cos (2 * π * (rad u * Real.cos (2 * π * a) * x + rad u * Real.sin (2 * π * a) * y)) =
      1 / (2 * π) * ∫ z : ℂ, w ‖z‖ * Real.cos (2 * π * (z.re * x + z.im * y)) := by
  have e1 : ∀ a : ℝ, ∫ u in Ico (0 : ℝ) 1, Real.cos (2 * π * (rad u * Real.cos (2 * π * a) * x + rad u * Real.sin (2 * π * a) * y)) =
      ∫ r in Ioi (0 : ℝ), |f' r| * Real.cos (2 * π * (r * Real.cos (2 * π * a) * x + r * Real.sin (2 * π * a) * y)) := fun a =>
    h.integral fun r => Real.cos (2 * π * (r * Real.cos (2 * π * a) * x + r * Real.sin (2 * π * a) * y))
  simp only [e1]
  rw [angle (fun t => ∫ r in Ioi (0 : ℝ), |f' r| * Real.cos (2 * π * (r * Real.cos t * x + r * Real.sin t * y))) (by intro t; simp), ← Complex.integral_comp_polarCoord_symm]
  congr 1
  have hint : Integrable (Function.uncurry fun (r t : ℝ) => |f' r| * Real.cos (2 * π * (r * Real.cos t * x + r * Real.sin t * y)))
      ((volume.restrict (Ioi 0)).prod (volume.restrict (Ioo (-π) π))) := by
    have h1 : Integrable (fun p : ℝ × ℝ => |f' p.1| * 1) ((volume.restrict (Ioi 0)).prod (volume.restrict (Ioo (-π) π))) :=
      h.integrable.mul_prod (integrable_const 1)
    refine h1.mono ?_ ?_
    · refine Measurable.aestronglyMeasurable ?_
      have := h.meas
      unfold Function.uncurry
      fun_prop
    · refine Filter.Eventually.of_forall fun p => ?_
      simp only [Function.uncurry, norm_mul, norm_one, mul_one]
      exact mul_le_of_le_one_right (norm_nonneg _) (by rw [Real.norm_eq_abs]; exact Real.abs_cos_le_one _)
  rw [integral_integral_swap (f := fun t r => |f' r| * Real.cos (2 * π * (r * Real.cos t * x + r * Real.sin t * y))) (by exact hint.swap),
    integral_integral hint, polarCoord_target, Measure.volume_eq_prod, Measure.prod_restrict]
  refine setIntegral_congr_fun (measurableSet_Ioi.prod measurableSet_Ioo) fun p hp => ?_
  simp only [smul_eq_mul]
  rw [Complex.norm_polarCoord_symm, hw p.1 hp.1, abs_of_pos hp.1, Complex.polarCoord_symm_apply, mul_assoc]
  simp only [Complex.re_ofReal_mul, Complex.im_ofReal_mul, Complex.add_re, Complex.add_im, Complex.ofReal_re, Complex.ofReal_im, Complex.mul_I_re, Complex.mul_I_im,
    neg_zero, add_zero, zero_add]

/-! ## The Gaussian spectrum -/

theorem gauss_radius (c : ℝ) (hc : 0 < c) : Radius (fun r => rexp (-(r ^ 2 / c ^ 2))) (fun r => rexp (-(r ^ 2 / c ^ 2)) * -(2 * r / c ^ 2))
    fun u => c * √(-Real.log u) := by
  refine ⟨fun r _ => ?_, ?_, ?_, ?_, by fun_prop⟩
  · have : HasDerivAt (fun r : ℝ => -(r ^ 2 / c ^ 2)) (-(2 * r / c ^ 2)) r := by
      have := ((hasDerivAt_pow 2 r).div_const (c ^ 2)).fun_neg
      simpa using this
    exact this.exp
  · intro r hr s hs hrs
    rw [Real.exp_lt_exp, neg_lt_neg_iff]
    have : 0 < r := hr
    gcongr
  · ext u
    simp only [mem_image, mem_Ioi, mem_Ioo]
    constructor
    · rintro ⟨r, hr, rfl⟩
      exact ⟨Real.exp_pos _, by rw [Real.exp_lt_one_iff]; have : 0 < r ^ 2 / c ^ 2 := by positivity
                                linarith⟩
    · rintro ⟨h0, h1⟩
      have hl : 0 < -Real.log u := by have := Real.log_neg h0 h1; linarith
      refine ⟨c * √(-Real.log u), by positivity, ?_⟩
      rw [mul_pow, Real.sq_sqrt hl.le, mul_div_cancel_left₀ _ (by positivity), neg_neg, Real.exp_log h0]
  · intro r hr
    have : (0 : ℝ) < r := hr
    simp only [Real.log_exp, neg_neg]
    rw [Real.sqrt_div (by positivity), Real.sqrt_sq this.le, Real.sqrt_sq hc.le]
    field_simp

theorem gauss_plane (b : ℝ) (hb : 0 < b) (x y : ℝ) :
    ∫ z : ℂ, rexp (-b * ‖z‖ ^ 2) * Real.cos (2 * π * (z.re * x + z.im * y)) = π / b * rexp (-(π ^ 2 * (x ^ 2 + y ^ 2) / b)) := by
  have h := GaussianFourier.integral_cexp_neg_mul_sq_norm_add (V := ℂ) (b := (b : ℂ)) (by simpa using hb) (2 * π * Complex.I) (x + y * Complex.I)
  have hi := GaussianFourier.integrable_cexp_neg_mul_sq_norm_add (V := ℂ) (b := (b : ℂ)) (by simpa using hb) (2 * π * Complex.I) (x + y * Complex.I)
  have e := congrArg Complex.re h
  rw [← RCLike.re_eq_complex_re, ← integral_re hi] at e
  have e2 : ∀ z : ℂ, RCLike.re (Complex.exp (-(b : ℂ) * (‖z‖ : ℂ) ^ 2 + 2 * π * Complex.I * (inner ℝ ((x : ℂ) + y * Complex.I) z : ℝ))) =
      rexp (-b * ‖z‖ ^ 2) * Real.cos (2 * π * (z.re * x + z.im * y)) := by
    intro z
    have : -(b : ℂ) * (‖z‖ : ℂ) ^ 2 + 2 * π * Complex.I * (inner ℝ ((x : ℂ) + y * Complex.I) z : ℝ) =
        ((-b * ‖z‖ ^ 2 : ℝ) : ℂ) + ((2 * π * (z.re * x + z.im * y) : ℝ) : ℂ) * Complex.I := by
      rw [Complex.inner]; simp; ring
    rw [this, RCLike.re_eq_complex_re, Complex.exp_re]
    simp only [Complex.add_re, Complex.add_im, Complex.ofReal_re, Complex.ofReal_im, Complex.mul_I_re, Complex.mul_I_im, neg_zero, add_zero, zero_add]
  simp only [e2] at e
  rw [e]
  have e3 : ((π : ℂ) / b) ^ ((Module.finrank ℝ ℂ : ℂ) / 2) * Complex.exp ((2 * π * Complex.I) ^ 2 * (‖(x : ℂ) + y * Complex.I‖ : ℂ) ^ 2 / (4 * b)) =
      ((π / b * rexp (-(π ^ 2 * (x ^ 2 + y ^ 2) / b)) : ℝ) : ℂ) := by
    rw [Complex.finrank_real_complex]
    have hn : ((‖(x : ℂ) + y * Complex.I‖ : ℂ)) ^ 2 = ((x ^ 2 + y ^ 2 : ℝ) : ℂ) := by
      rw [← Complex.ofReal_pow, Complex.sq_norm, Complex.normSq_add_mul_I]
    rw [hn]
    push_cast
    rw [div_self two_ne_zero, Complex.cpow_one]
    congr 2
    have hb' : (b : ℂ) ≠ 0 := by exact_mod_cast hb.ne'
    field_simp
    ring_nf
    rw [Complex.I_sq]; ring
  rw [e3]
  exact Complex.ofReal_re _

/-! ## The exponential spectrum -/

theorem shift_integral (B : ℝ) (hB : 0 < B) : ∫ t in Ioi (0 : ℝ), rexp (-(t - B / t) ^ 2) = √π / 2 := by
  have dF : ∀ t ∈ Ioi (0 : ℝ), HasDerivWithinAt (fun t => t - B / t) (1 + B / t ^ 2) (Ioi 0) t := by
    intro t ht
    have h0 : t ≠ 0 := ne_of_gt ht
    have := (hasDerivAt_id' t).sub ((hasDerivAt_inv h0).const_mul B)
    have e : (fun t : ℝ => t - B / t) = (fun x => x) - fun y => B * y⁻¹ := by funext t; simp [div_eq_mul_inv]
    rw [e]
    exact (this.congr_deriv (by field_simp; ring)).hasDerivWithinAt
  have iF : InjOn (fun t : ℝ => t - B / t) (Ioi 0) := by
    have : StrictMonoOn (fun t : ℝ => t - B / t) (Ioi 0) := by
      intro a ha b hb hab
      have : B / b < B / a := div_lt_div_of_pos_left hB ha hab
      simp only; linarith
    exact this.injOn
  have im : (fun t : ℝ => t - B / t) '' Ioi 0 = univ := by
    ext y
    simp only [mem_image, mem_Ioi, mem_univ, iff_true]
    have h1 : |y| < √(y ^ 2 + 4 * B) := by
      rw [← Real.sqrt_sq_eq_abs]; exact Real.sqrt_lt_sqrt (sq_nonneg _) (by linarith)
    have h2 : 0 < y + √(y ^ 2 + 4 * B) := by have := neg_abs_le y; linarith
    have h3 := Real.sq_sqrt (show 0 ≤ y ^ 2 + 4 * B by positivity)
    refine ⟨(y + √(y ^ 2 + 4 * B)) / 2, by linarith, ?_⟩
    field_simp
    nlinarith
  have hg : Integrable fun y : ℝ => rexp (-y ^ 2) := by simpa using integrable_exp_neg_mul_sq (b := 1) one_pos
  have hgi : ∫ y : ℝ, rexp (-y ^ 2) = √π := by simpa using integral_gaussian 1
  have htot := integral_image_eq_integral_abs_deriv_smul measurableSet_Ioi dF iF fun y => rexp (-y ^ 2)
  have hint := (integrableOn_image_iff_integrableOn_abs_deriv_smul measurableSet_Ioi dF iF fun y => rexp (-y ^ 2)).1 (by rw [im]; exact hg.integrableOn)
  rw [im, setIntegral_univ, hgi] at htot
  have hpos : ∀ t ∈ Ioi (0 : ℝ), |1 + B / t ^ 2| = 1 + B / t ^ 2 := fun t ht => abs_of_pos (by have : (0 : ℝ) < t := ht; positivity)
  have hJ : IntegrableOn (fun t => rexp (-(t - B / t) ^ 2)) (Ioi 0) := by
    refine Integrable.mono hint ?_ ?_
    · exact Measurable.aestronglyMeasurable (by fun_prop)
    · refine (ae_restrict_iff' measurableSet_Ioi).2 (Filter.Eventually.of_forall fun t ht => ?_)
      rw [hpos t ht, smul_eq_mul, norm_mul]
      refine le_mul_of_one_le_left (norm_nonneg _) ?_
      rw [Real.norm_eq_abs, hpos t ht]
      have : 0 ≤ B / t ^ 2 := by positivity
      linarith
  have hK : IntegrableOn (fun t => B / t ^ 2 * rexp (-(t - B / t) ^ 2)) (Ioi 0) := by
    refine Integrable.mono hint ?_ ?_
    · exact Measurable.aestronglyMeasurable (by fun_prop)
    · refine (ae_restrict_iff' measurableSet_Ioi).2 (Filter.Eventually.of_forall fun t ht => ?_)
      rw [hpos t ht, smul_eq_mul, norm_mul, norm_mul]
      refine mul_le_mul_of_nonneg_right ?_ (norm_nonneg _)
      rw [Real.norm_eq_abs, Real.norm_eq_abs, hpos t ht]
      have : 0 ≤ B / t ^ 2 := by positivity
      rw [abs_of_nonneg this]; linarith
  have hJK : ∫ t in Ioi (0 : ℝ), rexp (-(t - B / t) ^ 2) = ∫ t in Ioi (0 : ℝ), B / t ^ 2 * rexp (-(t - B / t) ^ 2) := by
    have dφ : ∀ t ∈ Ioi (0 : ℝ), HasDerivWithinAt (fun t => B / t) (-(B / t ^ 2)) (Ioi 0) t := by
      intro t ht
      have h0 : t ≠ 0 := ne_of_gt ht
      have := (hasDerivAt_inv h0).const_mul B
      have e : (fun t : ℝ => B / t) = fun y => B * y⁻¹ := by funext t; simp [div_eq_mul_inv]
      rw [e]
      exact (this.congr_deriv (by field_simp)).hasDerivWithinAt
    have iφ : InjOn (fun t : ℝ => B / t) (Ioi 0) := by
      have : StrictAntiOn (fun t : ℝ => B / t) (Ioi 0) := fun a ha b hb hab => div_lt_div_of_pos_left hB ha hab
      exact this.injOn
    have imφ : (fun t : ℝ => B / t) '' Ioi 0 = Ioi 0 := by
      ext y
      simp only [mem_image, mem_Ioi]
      constructor
      · rintro ⟨t, ht, rfl⟩; positivity
      · intro hy; exact ⟨B / y, by positivity, by field_simp⟩
    have := integral_image_eq_integral_abs_deriv_smul measurableSet_Ioi dφ iφ fun t => rexp (-(t - B / t) ^ 2)
    rw [imφ] at this
    rw [this]
    refine setIntegral_congr_fun measurableSet_Ioi fun t ht => ?_
    have h0 : (0 : ℝ) < t := ht
    simp only [smul_eq_mul]
    rw [abs_neg, abs_of_pos (by positivity : 0 < B / t ^ 2)]
    congr 2
    field_simp
    ring
  have hsum : √π = (∫ t in Ioi (0 : ℝ), rexp (-(t - B / t) ^ 2)) + ∫ t in Ioi (0 : ℝ), B / t ^ 2 * rexp (-(t - B / t) ^ 2) := by
    rw [htot, ← integral_add hJ hK]
    refine setIntegral_congr_fun measurableSet_Ioi fun t ht => ?_
    simp only [smul_eq_mul, hpos t ht]; ring
  linarith

theorem half_bessel (A : ℝ) (hA : 0 ≤ A) : ∫ s in Ioi (0 : ℝ), 1 / √s * (rexp (-s) * rexp (-(A ^ 2 / (4 * s)))) = √π * rexp (-A) := by
  have im : (fun t : ℝ => t ^ 2) '' Ioi 0 = Ioi 0 := by
    ext y
    simp only [mem_image, mem_Ioi]
    constructor
    · rintro ⟨t, ht, rfl⟩; positivity
    · intro hy; exact ⟨√y, Real.sqrt_pos.2 hy, Real.sq_sqrt hy.le⟩
  have inj : InjOn (fun t : ℝ => t ^ 2) (Ioi 0) := by
    have : StrictMonoOn (fun t : ℝ => t ^ 2) (Ioi 0) := fun a ha b hb hab => by
      have : (0 : ℝ) < a := ha
      simp only; gcongr
    exact this.injOn
  have d : ∀ t ∈ Ioi (0 : ℝ), HasDerivWithinAt (fun t : ℝ => t ^ 2) (2 * t) (Ioi 0) t := fun t _ => by
    simpa using (hasDerivAt_pow 2 t).hasDerivWithinAt
  have := integral_image_eq_integral_abs_deriv_smul measurableSet_Ioi d inj fun s => 1 / √s * (rexp (-s) * rexp (-(A ^ 2 / (4 * s))))
  rw [im] at this
  rw [this]
  have e : ∀ t ∈ Ioi (0 : ℝ), |2 * t| • (1 / √(t ^ 2) * (rexp (-t ^ 2) * rexp (-(A ^ 2 / (4 * t ^ 2))))) = 2 * rexp (-A) * rexp (-(t - A / 2 / t) ^ 2) := by
    intro t ht
    have h0 : (0 : ℝ) < t := ht
    rw [abs_of_pos (by positivity), Real.sqrt_sq h0.le, smul_eq_mul, ← Real.exp_add, mul_assoc 2 (rexp _), ← Real.exp_add]
    have : -t ^ 2 + -(A ^ 2 / (4 * t ^ 2)) = -A + -(t - A / 2 / t) ^ 2 := by field_simp; ring
    rw [this]; field_simp
  rw [setIntegral_congr_fun measurableSet_Ioi e, integral_const_mul]
  rcases hA.eq_or_lt with rfl | hpos
  · have := integral_gaussian_Ioi 1
    simp at this
    simp [this]
    ring
  · rw [shift_integral (A / 2) (by positivity)]; ring

theorem exp_radius (l : ℝ) (hl : 0 < l) : Radius (fun r => 1 / √(1 + l ^ 2 * r ^ 2)) (fun r => -(l ^ 2 * r / √(1 + l ^ 2 * r ^ 2) ^ 3))
    fun u => √(1 / u ^ 2 - 1) / l := by
  have hp : ∀ r : ℝ, 0 < 1 + l ^ 2 * r ^ 2 := fun r => by positivity
  refine ⟨fun r _ => ?_, ?_, ?_, ?_, by fun_prop⟩
  · have h1 : HasDerivAt (fun r : ℝ => 1 + l ^ 2 * r ^ 2) (l ^ 2 * (2 * r)) r := by
      simpa using ((hasDerivAt_pow 2 r).const_mul (l ^ 2)).const_add 1
    have h2 := (h1.sqrt (hp r).ne').inv (Real.sqrt_pos.2 (hp r)).ne'
    simp only [one_div]
    have := Real.sqrt_pos.2 (hp r)
    exact h2.congr_deriv (by field_simp)
  · intro a ha b hb hab
    have : (0 : ℝ) < a := ha
    refine one_div_lt_one_div_of_lt (Real.sqrt_pos.2 (hp a)) (Real.sqrt_lt_sqrt (hp a).le ?_)
    gcongr
  · ext u
    simp only [mem_image, mem_Ioi, mem_Ioo]
    constructor
    · rintro ⟨r, hr, rfl⟩
      have h1 : 1 < √(1 + l ^ 2 * r ^ 2) := by
        rw [Real.lt_sqrt zero_le_one]; have : 0 < l ^ 2 * r ^ 2 := by positivity
        linarith
      exact ⟨by positivity, by rw [div_lt_one (by linarith)]; exact h1⟩
    · rintro ⟨h0, h1⟩
      have h2 : 1 < 1 / u ^ 2 := by rw [one_lt_div (by positivity)]; nlinarith
      refine ⟨√(1 / u ^ 2 - 1) / l, div_pos (Real.sqrt_pos.2 (by linarith)) hl, ?_⟩
      rw [div_pow, Real.sq_sqrt (by linarith)]
      have : 1 + l ^ 2 * ((1 / u ^ 2 - 1) / l ^ 2) = (1 / u) ^ 2 := by field_simp; ring
      rw [this, Real.sqrt_sq (by positivity), one_div_one_div]
  · intro r hr
    have : (0 : ℝ) < r := hr
    rw [div_pow, Real.sq_sqrt (hp r).le, one_pow, one_div_one_div, add_sub_cancel_left, ← mul_pow, Real.sqrt_sq (by positivity)]
    field_simp

theorem inv_cube (D : ℝ) (hD : 0 < D) : 1 / √D ^ 3 = 2 / √π * ∫ s in Ioi (0 : ℝ), √s * rexp (-(D * s)) := by
  have h := Real.integral_rpow_mul_exp_neg_mul_Ioi (a := 3 / 2) (r := D) (by norm_num) hD
  have e : ∀ s ∈ Ioi (0 : ℝ), s ^ ((3 / 2 : ℝ) - 1) * rexp (-(D * s)) = √s * rexp (-(D * s)) := by
    intro s _
    rw [Real.sqrt_eq_rpow]; norm_num
  rw [setIntegral_congr_fun measurableSet_Ioi e] at h
  have hg : Real.Gamma (3 / 2) = √π / 2 := by
    have := Real.Gamma_add_one (s := 1 / 2) (by norm_num)
    rw [Real.Gamma_one_half_eq] at this
    rw [show (3 / 2 : ℝ) = 1 / 2 + 1 by norm_num, this]; ring
  have hpow : (1 / D) ^ (3 / 2 : ℝ) = 1 / √D ^ 3 := by
    rw [one_div, Real.inv_rpow hD.le, Real.sqrt_eq_rpow, ← Real.rpow_natCast, ← Real.rpow_mul hD.le, one_div]; norm_num
  have hpi : 0 < √π := Real.sqrt_pos.2 pi_pos
  rw [h, hg, hpow]; field_simp

theorem integrable_gauss_plane (b : ℝ) (hb : 0 < b) : Integrable fun z : ℂ => rexp (-b * ‖z‖ ^ 2) := by
  by_contra hn
  have := gauss_plane b hb 0 0
  simp only [mul_zero, add_zero, Real.cos_zero, mul_one] at this
  rw [integral_undef hn] at this
  have : 0 < π / b * rexp (-(π ^ 2 * (0 ^ 2 + 0 ^ 2) / b)) := by positivity
  linarith

theorem exp_plane (l : ℝ) (hl : 0 < l) (x y : ℝ) :
    ∫ z : ℂ, l ^ 2 / √(1 + l ^ 2 * ‖z‖ ^ 2) ^ 3 * Real.cos (2 * π * (z.re * x + z.im * y)) = 2 * π * rexp (-(2 * π * √(x ^ 2 + y ^ 2) / l)) := by
  have hpi : 0 < √π := Real.sqrt_pos.2 pi_pos
  set F : ℝ → ℂ → ℝ := fun s z => √s * rexp (-s) * (rexp (-(s * l ^ 2) * ‖z‖ ^ 2) * Real.cos (2 * π * (z.re * x + z.im * y))) with hF
  set G : ℝ → ℂ → ℝ := fun s z => √s * rexp (-s) * rexp (-(s * l ^ 2) * ‖z‖ ^ 2) with hG
  have e1 : ∀ z : ℂ, l ^ 2 / √(1 + l ^ 2 * ‖z‖ ^ 2) ^ 3 * Real.cos (2 * π * (z.re * x + z.im * y)) = 2 * l ^ 2 / √π * ∫ s in Ioi (0 : ℝ), F s z := by
    intro z
    have h := inv_cube (1 + l ^ 2 * ‖z‖ ^ 2) (by positivity)
    have : l ^ 2 / √(1 + l ^ 2 * ‖z‖ ^ 2) ^ 3 = l ^ 2 * (1 / √(1 + l ^ 2 * ‖z‖ ^ 2) ^ 3) := by ring
    rw [this, h]
    have e : ∀ s : ℝ, F s z = √s * rexp (-((1 + l ^ 2 * ‖z‖ ^ 2) * s)) * Real.cos (2 * π * (z.re * x + z.im * y)) := by
      intro s
      have : rexp (-((1 + l ^ 2 * ‖z‖ ^ 2) * s)) = rexp (-s) * rexp (-(s * l ^ 2) * ‖z‖ ^ 2) := by rw [← Real.exp_add]; congr 1; ring
      rw [this, hF]; ring
    simp only [e]
    rw [integral_mul_const]; ring
  have hGz : ∀ s ∈ Ioi (0 : ℝ), ∫ z : ℂ, G s z = π / l ^ 2 * (1 / √s * (rexp (-s) * rexp (-(0 ^ 2 / (4 * s))))) := by
    intro s hs
    have h0 : (0 : ℝ) < s := hs
    have := gauss_plane (s * l ^ 2) (by positivity) 0 0
    simp only [mul_zero, add_zero, Real.cos_zero, mul_one] at this
    rw [hG, integral_const_mul, this]
    have h1 := Real.sq_sqrt h0.le
    have h2 := Real.sqrt_pos.2 h0
    simp
    field_simp
    rw [h1]
  have hGint : Integrable (Function.uncurry G) ((volume.restrict (Ioi 0)).prod volume) := by
    rw [integrable_prod_iff (by refine Measurable.aestronglyMeasurable ?_; unfold Function.uncurry; fun_prop)]
    have hn : ∀ s z, ‖G s z‖ = G s z := fun s z => by rw [Real.norm_eq_abs, abs_of_nonneg]; rw [hG]; positivity
    constructor
    · refine (ae_restrict_iff' measurableSet_Ioi).2 (Filter.Eventually.of_forall fun s hs => ?_)
      have h0 : (0 : ℝ) < s := hs
      exact (integrable_gauss_plane (s * l ^ 2) (by positivity)).const_mul (√s * rexp (-s))
    · simp only [Function.uncurry, hn]
      have hi : IntegrableOn (fun s => π / l ^ 2 * (1 / √s * (rexp (-s) * rexp (-(0 ^ 2 / (4 * s)))))) (Ioi 0) := by
        refine Integrable.const_mul ?_ _
        by_contra hcon
        have := half_bessel 0 le_rfl
        rw [integral_undef hcon] at this
        simp at this
        exact absurd this.symm hpi.ne'
      exact hi.congr_fun (fun s hs => (hGz s hs).symm) measurableSet_Ioi
  have hFint : Integrable (Function.uncurry F) ((volume.restrict (Ioi 0)).prod volume) := by
    refine hGint.mono (by refine Measurable.aestronglyMeasurable ?_; unfold Function.uncurry; fun_prop) (Filter.Eventually.of_forall fun p => ?_)
    simp only [Function.uncurry, hF, hG, norm_mul, ← mul_assoc]
    exact mul_le_of_le_one_right (by positivity) (by rw [Real.norm_eq_abs]; exact Real.abs_cos_le_one _)
  simp only [e1]
  rw [integral_const_mul, integral_integral_swap (f := fun z s => F s z) (by exact hFint.swap)]
  have hFz : ∀ s ∈ Ioi (0 : ℝ), ∫ z : ℂ, F s z = π / l ^ 2 * (1 / √s * (rexp (-s) * rexp (-((2 * π * √(x ^ 2 + y ^ 2) / l) ^ 2 / (4 * s))))) := by
    intro s hs
    have h0 : (0 : ℝ) < s := hs
    have := gauss_plane (s * l ^ 2) (by positivity) x y
    rw [hF, integral_const_mul, this]
    have h1 := Real.sq_sqrt h0.le
    have h2 := Real.sqrt_pos.2 h0
    have h3 := Real.sq_sqrt (show 0 ≤ x ^ 2 + y ^ 2 by positivity)
    have h4 : (2 * π * √(x ^ 2 + y ^ 2) / l) ^ 2 / (4 * s) = π ^ 2 * (x ^ 2 + y ^ 2) / (s * l ^ 2) := by
      rw [div_pow, mul_pow, h3]; field_simp; ring
    rw [h4]
    field_simp
    rw [h1]
  rw [setIntegral_congr_fun measurableSet_Ioi hFz, integral_const_mul, half_bessel _ (by positivity)]
  have := Real.mul_self_sqrt pi_pos.le
  field_simp

end MLMC.RF.Fourier
