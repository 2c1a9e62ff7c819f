import Verif.Spec.Divergence
import Verif.Model.Divergence
import Mathlib.MeasureTheory.Integral.IntervalIntegral.FundThmCalculus
import Mathlib.MeasureTheory.Integral.DominatedConvergence
import Mathlib.Analysis.SpecialFunctions.Integrals.Basic
import Mathlib.Algebra.QuadraticDiscriminant
import Mathlib.Analysis.Complex.ExponentialBounds
/-! # C96 Distances between densities -/
namespace MLMC.Dist
open MeasureTheory

theorem weightedSum_nonneg {f : ℝ → Option ℝ} : ∀ {nodes : List (ℝ × ℝ)}, (∀ n ∈ nodes, 0 < n.2) → (∀ n ∈ nodes, ∀ v, f n.1 = some v → 0 ≤ v) →
    ∀ {v : ℝ}, weightedSum f nodes = some v → 0 ≤ v
  | [], _, _, v, h => by simp [weightedSum] at h; exact h.le
  | (x, w) :: l, hw, hf, v, h => by
    simp only [weightedSum] at h
    cases hx : f x with
    | none => rw [hx] at h; simp at h
    | some y =>
      cases hl : weightedSum f l with
      | none => rw [hx, hl] at h; simp at h
      | some z =>
        rw [hx, hl] at h
        simp only [Option.bind_some, Option.map_some, Option.some.injEq] at h
        have h1 := weightedSum_nonneg (fun n hn => hw n (by simp [hn])) (fun n hn => hf n (by simp [hn])) hl
        have h2 := hf (x, w) (by simp) y hx
        have h3 := hw (x, w) (by simp)
        simp only at h3
        rw [← h]
        positivity

theorem tiny_pos : 0 < eps300 := by unfold eps300; positivity

theorem tiny_half : eps300 ≤ 1 / 2 := by
  have h : (10 : ℝ) ^ (-300 : ℤ) ≤ 10 ^ (-1 : ℤ) := zpow_le_zpow_right₀ (by norm_num) (by norm_num)
  exact h.trans (by norm_num)

theorem huge : 1 ≤ big300 := one_le_pow₀ (by norm_num)

/-- `p log (p / q) - p + q` is nonnegative, and 0 only for equal arguments. -/
theorem kl_pointwise {p q : ℝ} (hp : 0 < p) (hq : 0 < q) : 0 ≤ p * Real.log (p / q) - p + q ∧ (p * Real.log (p / q) - p + q = 0 → p = q) := by
  have h1 : Real.log (q / p) ≤ q / p - 1 := Real.log_le_sub_one_of_pos (by positivity)
  have h2 : Real.log (q / p) = - Real.log (p / q) := by rw [← Real.log_inv, inv_div]
  have h3 : p * (q / p - 1) = q - p := by field_simp
  constructor
  · nlinarith [mul_le_mul_of_nonneg_left h1 hp.le]
  · intro h0
    by_contra hne
    have : q / p ≠ 1 := by intro h; rw [div_eq_one_iff_eq hp.ne'] at h; exact hne h.symm
    have h4 : Real.log (q / p) < q / p - 1 := Real.log_lt_sub_one_of_pos (by positivity) this
    nlinarith [mul_lt_mul_of_pos_left h4 hp]

/-- `C96`: for all functions and every integration rule with positive weights the sum that `KL_divergence` computes is nonnegative, also for densities that
are not normalized; the result is at least `1e-10` (or no number). -/
theorem C96_kl_nonnegative (quad) (hquad : QuadRule quad) (prior posterior : ℝ → ℝ) (a b : ℝ) (hab : a < b) :
    (∀ v, quad (fun x => klIntegrand (prior x) (posterior x)) a b = some v → 0 ≤ v) ∧
    ∀ d, klDivergence quad prior posterior a b = some d → 1e-10 ≤ d := by
  constructor
  · intro v hv
    obtain ⟨nodes, h1, h2⟩ := hquad.rule (fun x => klIntegrand (prior x) (posterior x)) a b hab
    rw [h2] at hv
    refine weightedSum_nonneg (fun n hn => (h1 n hn).2.2) ?_ hv
    intro n _ y hy
    simp only [klIntegrand] at hy
    split at hy
    · simp at hy
    · rename_i hp
      simp only [Option.some.injEq] at hy
      rw [← hy]
      exact (kl_pointwise (not_le.1 hp) (lt_max_of_lt_right tiny_pos)).1
  · intro d hd
    unfold klDivergence floorValue at hd
    obtain ⟨v, _, rfl⟩ := Option.map_eq_some_iff.1 hd
    exact le_max_right _ _

theorem kl_cont {p q : ℝ → ℝ} {a b : ℝ} (hp : ContinuousOn p (Set.Icc a b)) (hq : ContinuousOn q (Set.Icc a b)) (hp0 : ∀ x ∈ Set.Icc a b, 0 < p x)
    (hq0 : ∀ x ∈ Set.Icc a b, 0 < q x) : ContinuousOn (fun x => p x * Real.log (p x / q x)) (Set.Icc a b) := by
  refine hp.mul (ContinuousOn.log (hp.div hq fun x hx => (hq0 x hx).ne') fun x hx => ?_)
  exact (div_pos (hp0 x hx) (hq0 x hx)).ne'

theorem integral_zero_iff {g : ℝ → ℝ} {a b : ℝ} (hab : a < b) (hg : ContinuousOn g (Set.Icc a b)) (h0 : ∀ x ∈ Set.Icc a b, 0 ≤ g x) :
    ∫ x in a..b, g x = 0 ↔ ∀ x ∈ Set.Icc a b, g x = 0 := by
  constructor
  · intro h
    by_contra hne
    push Not at hne
    obtain ⟨c, hc, hc0⟩ := hne
    have : 0 < ∫ x in a..b, g x := intervalIntegral.integral_pos hab hg (fun x hx => h0 x ⟨hx.1.le, hx.2⟩)
      ⟨c, hc, lt_of_le_of_ne (h0 c hc) (Ne.symm hc0)⟩
    exact this.ne' h
  · intro h
    rw [intervalIntegral.integral_congr (g := fun _ => (0 : ℝ)) (fun x hx => h x (by rwa [Set.uIcc_of_le hab.le] at hx))]
    simp

/-- Gibbs' inequality on an interval. -/
theorem gibbs {p q : ℝ → ℝ} {a b : ℝ} (hab : a < b) (hp : PosDensity p a b) (hq : PosDensity q a b) :
    ∫ x in a..b, (p x * Real.log (p x / q x) - p x + q x) = ∫ x in a..b, p x * Real.log (p x / q x) ∧
    0 ≤ ∫ x in a..b, p x * Real.log (p x / q x) ∧
    (∫ x in a..b, p x * Real.log (p x / q x) = 0 ↔ ∀ x ∈ Set.Icc a b, p x = q x) := by
  have hc := kl_cont hp.cont hq.cont hp.pos hq.pos
  have i1 : IntervalIntegrable (fun x => p x * Real.log (p x / q x)) volume a b := hc.intervalIntegrable_of_Icc hab.le
  have i2 := hp.cont.intervalIntegrable_of_Icc (μ := volume) hab.le
  have i3 := hq.cont.intervalIntegrable_of_Icc (μ := volume) hab.le
  have e : ∫ x in a..b, (p x * Real.log (p x / q x) - p x + q x) = ∫ x in a..b, p x * Real.log (p x / q x) := by
    rw [intervalIntegral.integral_add (i1.sub i2) i3, intervalIntegral.integral_sub i1 i2, hp.mass, hq.mass]
    ring
  have hc' : ContinuousOn (fun x => p x * Real.log (p x / q x) - p x + q x) (Set.Icc a b) := (hc.sub hp.cont).add hq.cont
  have h0 : ∀ x ∈ Set.Icc a b, 0 ≤ p x * Real.log (p x / q x) - p x + q x := fun x hx => (kl_pointwise (hp.pos x hx) (hq.pos x hx)).1
  refine ⟨e, ?_, ?_⟩
  · rw [← e]
    exact intervalIntegral.integral_nonneg hab.le h0
  · rw [← e, integral_zero_iff hab hc' h0]
    refine forall₂_congr fun x hx => ⟨(kl_pointwise (hp.pos x hx) (hq.pos x hx)).2, fun h => ?_⟩
    rw [h, div_self (hq.pos x hx).ne', Real.log_one]
    ring

/-- `C96`, only for densities that are positive on the whole interval (the second at least 1e-300) and exact integration: both functions `KL_divergence`
return `∫ P log (P / Q)` or `1e-10` if this is smaller; it is never negative, and 0 only for equal densities. -/
theorem C96_kl_value_partial (quad) (hquad : Exact quad) (p q : ℝ → ℝ) (a b : ℝ) (hab : a < b) (hp : PosDensity p a b) (hq : PosDensity q a b)
    (hmin : ∀ x ∈ Set.Icc a b, 10 ^ (-300 : ℤ) ≤ q x) (hlog : ∀ x ∈ Set.Icc a b, -(10 : ℝ) ^ 300 ≤ Real.log (p x / q x)) :
    klDivergence quad p q a b = some (max (∫ x in a..b, p x * Real.log (p x / q x)) (1e-10)) ∧
    klDivergence' quad p q a b = some (max (∫ x in a..b, p x * Real.log (p x / q x)) (1e-10)) ∧
    0 ≤ ∫ x in a..b, p x * Real.log (p x / q x) ∧
    (∫ x in a..b, p x * Real.log (p x / q x) = 0 ↔ ∀ x ∈ Set.Icc a b, p x = q x) := by
  have hc := kl_cont hp.cont hq.cont hp.pos hq.pos
  obtain ⟨e, h1, h2⟩ := gibbs hab hp hq
  refine ⟨?_, ?_, h1, h2⟩
  · unfold klDivergence
    rw [hquad _ (fun x => p x * Real.log (p x / q x) - p x + q x) a b hab ((hc.sub hp.cont).add hq.cont), e]
    · rfl
    · intro x hx
      simp only [klIntegrand]
      rw [if_neg (not_le.2 (hp.pos x hx)), max_eq_left (show eps300 ≤ q x from hmin x hx)]
  · unfold klDivergence'
    rw [hquad _ (fun x => p x * Real.log (p x / q x)) a b hab hc]
    · rfl
    · intro x hx
      have h3 := hp.pos x hx
      have h4 := hq.pos x hx
      have h5 : 0 < p x / q x := div_pos h3 h4
      simp only [klIntegrand']
      rw [if_neg (by rintro (h | h) <;> linarith), if_neg h3.ne', max_eq_left (show -big300 ≤ Real.log (p x / q x) from hlog x hx)]

/-- `C96` fails for densities with zeros: `3x²/2` on (-1, 1) vanishes only at 0, its divergence from the uniform density is finite, yet `KL_divergence` is NaN. -/
theorem C96_kl_zero_counterexample (quad) (hquad : QuadRule quad) :
    (∫ x in (-1 : ℝ)..1, 3 / 2 * x ^ 2 = 1) ∧ klDivergence quad (fun x => 3 / 2 * x ^ 2) (fun _ => 1 / 2) (-1) 1 = none := by
  constructor
  · rw [intervalIntegral.integral_const_mul, integral_pow]; norm_num
  · unfold klDivergence
    rw [hquad.middle _ _ _ (by norm_num)]
    · rfl
    · simp [klIntegrand]

/-- `C96` fails in the older module for functions that are not normalized: with `P = 1/2` and `Q = 1` on (0, 1) the result is the one of equal densities;
the newer one returns a positive value. -/
theorem C96_kl_unnormalized_counterexample (quad) (hquad : Exact quad) :
    klDivergence' quad (fun _ => 1 / 2) (fun _ => 1) 0 1 = klDivergence' quad (fun _ => 1) (fun _ => 1) 0 1 ∧
    ∃ d, klDivergence quad (fun _ => 1 / 2) (fun _ => 1) 0 1 = some d ∧ 1 / 10 < d := by
  have hl : Real.log (1 / 2) = - Real.log 2 := by rw [one_div, Real.log_inv]
  have hl2 := Real.log_two_gt_d9
  have hl3 := Real.log_two_lt_d9
  have e1 : klDivergence' quad (fun _ => 1 / 2) (fun _ => 1) 0 1 = some 1e-10 := by
    unfold klDivergence'
    rw [hquad _ (fun _ => 1 / 2 * Real.log (1 / 2)) 0 1 (by norm_num) continuousOn_const]
    · simp only [floorValue, Option.map_some, intervalIntegral.integral_const, sub_zero, one_smul]
      rw [max_eq_right]
      rw [hl]; norm_num; linarith
    · intro x _
      simp only [klIntegrand', div_one]
      rw [if_neg (by norm_num), if_neg (by norm_num), max_eq_left (by rw [hl]; linarith [huge])]
  have e2 : klDivergence' quad (fun _ => 1) (fun _ => 1) 0 1 = some 1e-10 := by
    unfold klDivergence'
    rw [hquad _ (fun _ => 0) 0 1 (by norm_num) continuousOn_const]
    · simp only [floorValue, Option.map_some, intervalIntegral.integral_const, sub_zero, one_smul]
      rw [max_eq_right (by norm_num)]
    · intro x _
      simp only [klIntegrand', div_one]
      rw [if_neg (by norm_num), if_neg (by norm_num), Real.log_one, max_eq_left (by linarith [huge])]
      simp
  refine ⟨e1.trans e2.symm, ?_⟩
  unfold klDivergence
  rw [hquad _ (fun _ => 1 / 2 * Real.log (1 / 2) - 1 / 2 + 1) 0 1 (by norm_num) continuousOn_const]
  · refine ⟨_, rfl, ?_⟩
    simp only [intervalIntegral.integral_const, sub_zero, one_smul]
    apply lt_max_of_lt_left
    rw [hl]; linarith
  · intro x _
    simp only [klIntegrand]
    rw [if_neg (by norm_num), max_eq_left (by linarith [tiny_half]), div_one]

/-- The norm of the space of continuous functions on the interval. -/
theorem cauchy_schwarz {f g : ℝ → ℝ} {a b : ℝ} (hab : a < b) (hf : ContinuousOn f (Set.Icc a b)) (hg : ContinuousOn g (Set.Icc a b)) :
    (∫ x in a..b, f x * g x) ^ 2 ≤ (∫ x in a..b, f x ^ 2) * ∫ x in a..b, g x ^ 2 := by
  have i1 : IntervalIntegrable (fun x => f x ^ 2) volume a b := (hf.pow 2).intervalIntegrable_of_Icc hab.le
  have i2 : IntervalIntegrable (fun x => g x ^ 2) volume a b := (hg.pow 2).intervalIntegrable_of_Icc hab.le
  have i3 : IntervalIntegrable (fun x => f x * g x) volume a b := (hf.mul hg).intervalIntegrable_of_Icc hab.le
  have key : ∀ t : ℝ, 0 ≤ (∫ x in a..b, g x ^ 2) * (t * t) + (2 * ∫ x in a..b, f x * g x) * t + ∫ x in a..b, f x ^ 2 := by
    intro t
    have : ∫ x in a..b, (f x + t * g x) ^ 2 = (∫ x in a..b, g x ^ 2) * (t * t) + (2 * ∫ x in a..b, f x * g x) * t + ∫ x in a..b, f x ^ 2 := by
      have e : (fun x => (f x + t * g x) ^ 2) = fun x => (f x ^ 2 + (2 * t) * (f x * g x)) + (t * t) * g x ^ 2 := by funext x; ring
      rw [e, intervalIntegral.integral_add (i1.add (i3.const_mul _)) (i2.const_mul _), intervalIntegral.integral_add i1 (i3.const_mul _),
        intervalIntegral.integral_const_mul, intervalIntegral.integral_const_mul]
      ring
    rw [← this]
    exact intervalIntegral.integral_nonneg hab.le fun x _ => sq_nonneg _
  have := discrim_le_zero key
  unfold discrim at this
  nlinarith

/-- `C96`, `L2_distance` with exact integration of continuous functions: the norm of the difference; it is 0 only for equal functions, symmetric, and satisfies
the triangle inequality. -/
theorem C96_l2_metric (quad) (hquad : Exact quad) (a b : ℝ) (hab : a < b) (p q r : ℝ → ℝ) (hp : ContinuousOn p (Set.Icc a b))
    (hq : ContinuousOn q (Set.Icc a b)) (hr : ContinuousOn r (Set.Icc a b)) :
    ∃ pq qp qr pr, l2Distance quad p q a b = some pq ∧ l2Distance quad q p a b = some qp ∧ l2Distance quad q r a b = some qr ∧
      l2Distance quad p r a b = some pr ∧ 0 ≤ pq ∧ pq ^ 2 = ∫ x in a..b, (q x - p x) ^ 2 ∧ (pq = 0 ↔ ∀ x ∈ Set.Icc a b, p x = q x) ∧ qp = pq ∧ pr ≤ pq + qr := by
  have val : ∀ {f g : ℝ → ℝ}, ContinuousOn f (Set.Icc a b) → ContinuousOn g (Set.Icc a b) →
      l2Distance quad f g a b = some (Real.sqrt (∫ x in a..b, (g x - f x) ^ 2)) := by
    intro f g hf hg
    unfold l2Distance
    rw [hquad _ (fun x => (g x - f x) ^ 2) a b hab ((hg.sub hf).pow 2) fun x _ => rfl]
    simp only [Option.bind_some]
    rw [if_neg (not_lt.2 (intervalIntegral.integral_nonneg hab.le fun x _ => sq_nonneg _))]
  have nn : ∀ f : ℝ → ℝ, 0 ≤ ∫ x in a..b, f x ^ 2 := fun f => intervalIntegral.integral_nonneg hab.le fun x _ => sq_nonneg _
  refine ⟨_, _, _, _, val hp hq, val hq hp, val hq hr, val hp hr, Real.sqrt_nonneg _, Real.sq_sqrt (nn _), ?_, ?_, ?_⟩
  · rw [Real.sqrt_eq_zero (nn _), integral_zero_iff (g := fun x => (q x - p x) ^ 2) hab ((hq.sub hp).pow 2) fun x _ => sq_nonneg _]
    refine forall₂_congr fun x _ => ?_
    rw [pow_eq_zero_iff two_ne_zero, sub_eq_zero, eq_comm]
  · congr 2; funext x; ring
  · have hA := nn fun x => q x - p x
    have hB := nn fun x => r x - q x
    have hcs := cauchy_schwarz (f := fun x => q x - p x) (g := fun x => r x - q x) hab (hq.sub hp) (hr.sub hq)
    have i1 : IntervalIntegrable (fun x => (q x - p x) ^ 2) volume a b := ((hq.sub hp).pow 2).intervalIntegrable_of_Icc hab.le
    have i2 : IntervalIntegrable (fun x => (r x - q x) ^ 2) volume a b := ((hr.sub hq).pow 2).intervalIntegrable_of_Icc hab.le
    have i3 : IntervalIntegrable (fun x => (q x - p x) * (r x - q x)) volume a b := ((hq.sub hp).mul (hr.sub hq)).intervalIntegrable_of_Icc hab.le
    have e : ∫ x in a..b, (r x - p x) ^ 2 = (∫ x in a..b, (q x - p x) ^ 2) + 2 * (∫ x in a..b, (q x - p x) * (r x - q x)) + ∫ x in a..b, (r x - q x) ^ 2 := by
      have e : (fun x => (r x - p x) ^ 2) = fun x => ((q x - p x) ^ 2 + 2 * ((q x - p x) * (r x - q x))) + (r x - q x) ^ 2 := by funext x; ring
      rw [e, intervalIntegral.integral_add (i1.add (i3.const_mul _)) i2, intervalIntegral.integral_add i1 (i3.const_mul _), intervalIntegral.integral_const_mul]
    rw [e]
    apply Real.sqrt_le_iff.2
    refine ⟨by positivity, ?_⟩
    rw [add_sq, Real.sq_sqrt hA, Real.sq_sqrt hB, mul_assoc, ← Real.sqrt_mul hA]
    have := Real.abs_le_sqrt hcs
    have := le_abs_self (∫ x in a..b, (q x - p x) * (r x - q x))
    linarith

/-- Integration without an error exists. -/
theorem exact_exists : ∃ quad, Exact quad := by
  classical
  refine ⟨fun f a b => some (∫ x in a..b, ((f x).getD 0 : ℝ)), fun f g a b hab _ hf => ?_⟩
  refine congrArg some ?_
  refine intervalIntegral.integral_congr (E := ℝ) fun x hx => ?_
  rw [Set.uIcc_of_le hab.le] at hx
  simp only [hf x hx]
  rfl

/-- The midpoint rule is an integration rule of the kind described. -/
theorem midpoint_rule : QuadRule fun f a b => weightedSum f [((a + b) / 2, b - a)] where
  rule f a b hab := ⟨_, by intro n hn; simp only [List.mem_singleton] at hn; subst hn; exact ⟨by simp only; linarith, by simp only; linarith, by simp only; linarith⟩, rfl⟩
  middle f a b _ h := by simp [weightedSum, h]

/-- The uniform density and a linear one on (0, 1). -/
example : ∃ quad, Exact quad ∧ ∃ d, klDivergence quad (fun _ => 1) (fun x => 1 / 2 + x) 0 1 = some (max d (1e-10)) ∧ 0 ≤ d := by
  obtain ⟨quad, hq⟩ := exact_exists
  have p1 : PosDensity (fun _ => 1) 0 1 := ⟨continuousOn_const, by simp, by simp⟩
  have p2 : PosDensity (fun x => 1 / 2 + x) 0 1 := by
    refine ⟨by fun_prop, fun x hx => by have := hx.1; linarith, ?_⟩
    rw [intervalIntegral.integral_add (by simp) (by simp), integral_id]
    norm_num
  have h := C96_kl_value_partial quad hq _ _ 0 1 (by norm_num) p1 p2 (fun x hx => by have := hx.1; have := tiny_half; unfold eps300 at this; linarith) (fun x hx => by
    have h1 : (1 : ℝ) / 2 + x ≤ 2 := by have := hx.2; linarith
    have h2 : (0 : ℝ) < 1 / 2 + x := by have := hx.1; linarith
    have h3 : Real.log (1 / 2 + x) ≤ 1 / 2 + x - 1 := Real.log_le_sub_one_of_pos h2
    rw [one_div, Real.log_inv]
    change -big300 ≤ _
    linarith [huge])
  exact ⟨quad, hq, _, h.1, h.2.2.1⟩

example := C96_kl_nonnegative _ midpoint_rule (fun _ => 1) (fun x => 1 / 2 + x) 0 1 (by norm_num)
example := (C96_kl_zero_counterexample _ midpoint_rule).2

end MLMC.Dist
