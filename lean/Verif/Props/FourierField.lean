import Mathlib.Probability.Distributions.Gaussian.Real
import Mathlib.Probability.Independence.InfinitePi
import Verif.Spec.FourierField
import Verif.Proofs.FourierField
import Verif.Props.RandomField
import Verif.Props.KarhunenLoeve
/-! # C90 A field made of Fourier modes has the prescribed mean and covariance -/
namespace MLMC.RF.Fourier
open MeasureTheory ProbabilityTheory

section
variable {Ω : Type} [MeasurableSpace Ω] (P : Measure Ω) [IsProbabilityMeasure P]

theorem integrable_bdd_mul {Z G : Ω → ℝ} (hZ : MemLp Z 2 P) (hG : Measurable G) (hb : ∀ ω, |G ω| ≤ 1) : MemLp (fun ω => Z ω * G ω) 2 P := by
  refine hZ.mono (hZ.aestronglyMeasurable.mul hG.aestronglyMeasurable) (Filter.Eventually.of_forall fun ω => ?_)
  rw [norm_mul]
  exact mul_le_of_le_one_right (norm_nonneg _) (hb ω)

theorem mixed {ι : Type} (s : Finset ι) (Z G H : ι → Ω → ℝ) (hL : ∀ q ∈ s, MemLp (Z q) 2 P) (hm : ∀ q ∈ s, ∫ ω, Z q ω ∂P = 0)
    (hc : ∀ q ∈ s, ∀ q' ∈ s, q ≠ q' → cov[Z q, Z q'; P] = 0) (hv : ∀ q ∈ s, Var[Z q; P] = 1)
    (hG : ∀ q, Measurable (G q)) (hG1 : ∀ q ω, |G q ω| ≤ 1) (hH : ∀ q, Measurable (H q)) (hH1 : ∀ q ω, |H q ω| ≤ 1)
    (iG : ∀ q, IndepFun (Z q) (G q) P) (iH : ∀ q, IndepFun (Z q) (H q) P) (i2 : ∀ q q', IndepFun (fun ω => Z q ω * Z q' ω) (fun ω => G q ω * H q' ω) P) :
    MemLp (fun ω => ∑ q ∈ s, Z q ω * G q ω) 2 P ∧ ∫ ω, ∑ q ∈ s, Z q ω * G q ω ∂P = 0 ∧
    cov[fun ω => ∑ q ∈ s, Z q ω * G q ω, fun ω => ∑ q ∈ s, Z q ω * H q ω; P] = ∑ q ∈ s, ∫ ω, G q ω * H q ω ∂P := by
  have LG : ∀ q ∈ s, MemLp (fun ω => Z q ω * G q ω) 2 P := fun q hq => integrable_bdd_mul P (hL q hq) (hG q) (hG1 q)
  have LH : ∀ q ∈ s, MemLp (fun ω => Z q ω * H q ω) 2 P := fun q hq => integrable_bdd_mul P (hL q hq) (hH q) (hH1 q)
  have mG : ∀ q ∈ s, ∫ ω, Z q ω * G q ω ∂P = 0 := fun q hq => by
    rw [(iG q).integral_fun_mul_eq_mul_integral (hL q hq).aestronglyMeasurable (hG q).aestronglyMeasurable, hm q hq, zero_mul]
  have mH : ∀ q ∈ s, ∫ ω, Z q ω * H q ω ∂P = 0 := fun q hq => by
    rw [(iH q).integral_fun_mul_eq_mul_integral (hL q hq).aestronglyMeasurable (hH q).aestronglyMeasurable, hm q hq, zero_mul]
  refine ⟨memLp_finset_sum _ LG, ?_, ?_⟩
  · rw [integral_finsetSum _ fun q hq => (LG q hq).integrable (by norm_num)]
    exact Finset.sum_eq_zero mG
  · rw [covariance_fun_sum_fun_sum' LG LH]
    refine Finset.sum_congr rfl fun q hq => ?_
    have key : ∀ q' ∈ s, cov[fun ω => Z q ω * G q ω, fun ω => Z q' ω * H q' ω; P] = (∫ ω, Z q ω * Z q' ω ∂P) * ∫ ω, G q ω * H q' ω ∂P := by
      intro q' hq'
      rw [covariance_eq_sub (LG q hq) (LH q' hq'), mG q hq, zero_mul, sub_zero,
        ← (i2 q q').integral_fun_mul_eq_mul_integral ((hL q hq).aestronglyMeasurable.mul (hL q' hq').aestronglyMeasurable) ((hG q).mul (hH q')).aestronglyMeasurable]
      refine integral_congr_ae (Filter.Eventually.of_forall fun ω => ?_)
      simp only [Pi.mul_apply]; ring
    have hz : ∀ q' ∈ s, ∫ ω, Z q ω * Z q' ω ∂P = cov[Z q, Z q'; P] := by
      intro q' hq'
      rw [covariance_eq_sub (hL q hq) (hL q' hq'), hm q hq, zero_mul, sub_zero]; rfl
    rw [Finset.sum_eq_single q]
    · rw [key q hq, hz q hq, covariance_self (hL q hq).aemeasurable, hv q hq, one_mul]
    · intro q' hq' hne
      rw [key q' hq', hz q' hq', hc q hq q' hq' hne.symm, zero_mul]
    · intro hn; exact absurd hq hn

theorem randomField_eq {dim : Nat} (N : Nat) (z : Nat → Nat → ℝ) (k : Nat → Fin dim → ℝ) (x : Fin dim → ℝ) :
    randomField N z k x = Real.sqrt (1 / N) * ∑ q ∈ Finset.range 2 ×ˢ Finset.range N, z q.1 q.2 *
      (if q.1 = 0 then Real.cos (2 * Real.pi * ∑ a, k q.2 a * x a) else Real.sin (2 * Real.pi * ∑ a, k q.2 a * x a)) := by
  unfold randomField
  rw [C74_sum_of_modes_first_attempt _ _ fun _ => rfl, Option.getD_some, Finset.sum_product]
  congr 1
  have : ((List.range N).map (contribution z k x)).foldr (· + ·) 0 = ∑ m ∈ Finset.range N, contribution z k x m := rfl
  rw [this, Finset.sum_range_succ, Finset.sum_range_one, ← Finset.sum_add_distrib]
  exact Finset.sum_congr rfl fun m _ => by simp [contribution]

/-- Mean and covariance for any spectrum: the modes are a measurable function of their random numbers. -/
theorem law {dim : Nat} (N : Nat) (hN : 1 ≤ N) (r : Ω → Draws) (hr : IsDraw P N r) (k : Ω → Nat → Fin dim → ℝ) (κ : (Nat → ℝ) × (Nat → ℝ) → Nat → Fin dim → ℝ) (hκ : Measurable κ)
    (hk : ∀ ω, k ω = κ ((r ω).ang, (r ω).num)) (x y : Fin dim → ℝ) :
    MemLp (fun ω => randomField N (r ω).z (k ω) x) 2 P ∧ ∫ ω, randomField N (r ω).z (k ω) x ∂P = 0 ∧
    cov[fun ω => randomField N (r ω).z (k ω) x, fun ω => randomField N (r ω).z (k ω) y; P] =
      1 / N * ∑ m ∈ Finset.range N, ∫ ω, Real.cos (2 * Real.pi * ∑ a, k ω m a * (y a - x a)) ∂P := by
  set g : (Fin dim → ℝ) → Nat × Nat → (Nat → ℝ) × (Nat → ℝ) → ℝ := fun x q d =>
    if q.1 = 0 then Real.cos (2 * Real.pi * ∑ a, κ d q.2 a * x a) else Real.sin (2 * Real.pi * ∑ a, κ d q.2 a * x a) with hg
  have gm : ∀ x q, Measurable (g x q) := by
    intro x q
    have : ∀ a, Measurable fun d => κ d q.2 a := fun a => (measurable_pi_apply a).comp ((measurable_pi_apply q.2).comp hκ)
    rw [hg]
    beta_reduce
    split_ifs
    · exact Real.measurable_cos.comp ((Finset.measurable_sum _ fun a _ => (this a).mul_const _).const_mul _)
    · exact Real.measurable_sin.comp ((Finset.measurable_sum _ fun a _ => (this a).mul_const _).const_mul _)
  have g1 : ∀ x q d, |g x q d| ≤ 1 := by
    intro x q d
    rw [hg]; beta_reduce
    split_ifs
    · exact Real.abs_cos_le_one _
    · exact Real.abs_sin_le_one _
  have zm : ∀ q : Nat × Nat, Measurable fun z : Nat → Nat → ℝ => z q.1 q.2 := fun q => (measurable_pi_apply q.2).comp (measurable_pi_apply q.1)
  have hmem : ∀ q ∈ Finset.range 2 ×ˢ Finset.range N, q.1 < 2 ∧ q.2 < N := fun q hq => by simpa using hq
  have hmix := mixed P (Finset.range 2 ×ˢ Finset.range N) (fun q ω => (r ω).z q.1 q.2) (fun q ω => g x q ((r ω).ang, (r ω).num)) (fun q ω => g y q ((r ω).ang, (r ω).num))
    (fun q hq => hr.finite _ (hmem q hq).1 _ (hmem q hq).2) (fun q hq => hr.mean _ (hmem q hq).1 _ (hmem q hq).2)
    (fun q hq q' hq' hne => hr.uncorrelated _ (hmem q hq).1 _ (hmem q hq).2 _ (hmem q' hq').1 _ (hmem q' hq').2 hne)
    (fun q hq => hr.variance _ (hmem q hq).1 _ (hmem q hq).2)
    (fun q => (gm x q).comp hr.measurable) (fun q ω => g1 x q _) (fun q => (gm y q).comp hr.measurable) (fun q ω => g1 y q _)
    (fun q => hr.independent.comp (zm q) (gm x q)) (fun q => hr.independent.comp (zm q) (gm y q))
    (fun q q' => hr.independent.comp ((zm q).mul (zm q')) ((gm x q).mul (gm y q')))
  have e : ∀ x ω, randomField N (r ω).z (k ω) x = Real.sqrt (1 / N) * ∑ q ∈ Finset.range 2 ×ˢ Finset.range N, (r ω).z q.1 q.2 * g x q ((r ω).ang, (r ω).num) := by
    intro x ω
    rw [randomField_eq, hk ω]
  simp only [e]
  refine ⟨hmix.1.const_mul _, by rw [integral_const_mul, hmix.2.1, mul_zero], ?_⟩
  rw [covariance_const_mul_left, covariance_const_mul_right, hmix.2.2, ← mul_assoc, Real.mul_self_sqrt (by positivity), Finset.sum_product]
  congr 1
  rw [Finset.sum_range_succ, Finset.sum_range_one, ← Finset.sum_add_distrib]
  refine Finset.sum_congr rfl fun m _ => ?_
  have hb : ∀ i, Integrable (fun ω => g x (i, m) ((r ω).ang, (r ω).num) * g y (i, m) ((r ω).ang, (r ω).num)) P := by
    intro i
    refine Integrable.of_bound (((gm x _).comp hr.measurable).mul ((gm y _).comp hr.measurable)).aestronglyMeasurable 1 (Filter.Eventually.of_forall fun ω => ?_)
    rw [norm_mul, Real.norm_eq_abs, Real.norm_eq_abs]
    exact mul_le_one₀ (g1 _ _ _) (abs_nonneg _) (g1 _ _ _)
  rw [← integral_add (hb 0) (hb 1)]
  refine integral_congr_ae (Filter.Eventually.of_forall fun ω => ?_)
  simp only [hg, if_pos, hk ω, one_ne_zero, if_false]
  rw [← Real.cos_sub, ← Real.cos_neg]
  congr 1
  simp only [mul_sub, Finset.sum_sub_distrib]
  ring

theorem mapM_ok {α β : Type} (f : α → Except PyErr β) (g : α → β) : ∀ l : List α, (∀ a ∈ l, f a = .ok (g a)) → l.mapM f = .ok (l.map g)
  | [], _ => rfl
  | a :: l, h => by
    rw [List.mapM_cons, h a (by simp), mapM_ok f g l fun b hb => h b (by simp [hb])]; rfl

theorem sample_eq (alpha L : ℝ) {dim : Nat} (N : Nat) (mu sigma : Arr ℝ) (pts : List (Fin dim → ℝ)) (hmu : mu.fits pts.length) (hsi : sigma.fits pts.length) (r : Draws)
    (k : Nat → Fin dim → ℝ) (hk : ∀ m < N, mode alpha L dim (r.ang m) (r.num m) = .ok (k m)) :
    sample alpha L N mu sigma pts r = .ok ((List.range pts.length).map fun i => sigma.at i * randomField N r.z k (pts.getD i 0) + mu.at i) := by
  unfold sample
  rw [mapM_ok _ k _ fun m hm => hk m (List.mem_range.1 hm)]
  have hc : ∀ x, randomField N r.z (fun m => ((List.range N).map k).getD m 0) x = randomField N r.z k x := by
    intro x
    rw [randomField_eq, randomField_eq]
    congr 1
    refine Finset.sum_congr rfl fun q hq => ?_
    have : q.2 < N := by simp at hq; exact hq.2
    simp [this]
  show Spatial.scale sigma mu (pts.map (randomField N r.z fun m => ((List.range N).map k).getD m 0)) = _
  unfold Spatial.scale
  rw [if_pos (by simpa using ⟨hsi, hmu⟩)]
  congr 1
  rw [List.length_map]
  refine List.map_congr_left fun i hi => ?_
  have hi' := List.mem_range.1 hi
  rw [← hc]
  simp [Arr.at, hi']

/-- What `sample` returns for a spectrum. -/
theorem sample_law (alpha L : ℝ) {dim : Nat} (N : Nat) (hN : 1 ≤ N) (mu sigma : Arr ℝ) (pts : List (Fin dim → ℝ)) (hmu : mu.fits pts.length) (hsi : sigma.fits pts.length)
    (r : Ω → Draws) (hr : IsDraw P N r) (κ : ℝ → ℝ → Fin dim → ℝ) (hκ : Measurable fun p : ℝ × ℝ => κ p.1 p.2) (hm : ∀ a u, mode alpha L dim a u = .ok (κ a u))
    (c : (Fin dim → ℝ) → ℝ) (hc : ∀ m < N, ∀ h : Fin dim → ℝ, ∫ ω, Real.cos (2 * Real.pi * ∑ a, κ ((r ω).ang m) ((r ω).num m) a * h a) ∂P = c h) :
    ∃ field : Nat → Ω → ℝ, (∀ ω, sample alpha L N mu sigma pts (r ω) = .ok ((List.range pts.length).map fun i => field i ω)) ∧
      HasLaw P pts.length mu.at (fun i j => sigma.at i * sigma.at j * c (pts.getD j 0 - pts.getD i 0)) field := by
  refine ⟨fun i ω => sigma.at i * randomField N (r ω).z (fun m => κ ((r ω).ang m) ((r ω).num m)) (pts.getD i 0) + mu.at i,
    fun ω => sample_eq alpha L N mu sigma pts hmu hsi (r ω) _ fun m _ => hm _ _, ?_⟩
  have hκ' : Measurable fun (d : (Nat → ℝ) × (Nat → ℝ)) m => κ (d.1 m) (d.2 m) := by
    refine measurable_pi_lambda _ fun m => ?_
    have h : Measurable fun d : (Nat → ℝ) × (Nat → ℝ) => (d.1 m, d.2 m) := by fun_prop
    exact hκ.comp h
  have hl := fun x y => law P N hN r hr (fun ω m => κ ((r ω).ang m) ((r ω).num m)) (fun d m => κ (d.1 m) (d.2 m))
    hκ' (fun ω => rfl) x y
  refine ⟨fun i _ => ((hl _ 0).1.const_mul _).add (memLp_const _), fun i _ => ?_, fun i _ j _ => ?_⟩
  · rw [integral_add (((hl _ 0).1.const_mul _).integrable (by norm_num)) (integrable_const _), integral_const_mul, (hl _ 0).2.1]; simp
  · rw [covariance_add_const_left (((hl _ 0).1.const_mul _).integrable (by norm_num)), covariance_add_const_right (((hl _ 0).1.const_mul _).integrable (by norm_num)),
      covariance_const_mul_left, covariance_const_mul_right, (hl _ _).2.2]
    have e : ∀ m ∈ Finset.range N, ∫ ω, Real.cos (2 * Real.pi * ∑ a, κ ((r ω).ang m) ((r ω).num m) a * (pts.getD j 0 a - pts.getD i 0 a)) ∂P = c (pts.getD j 0 - pts.getD i 0) :=
      fun m hm => hc m (Finset.mem_range.1 hm) _
    rw [Finset.sum_congr rfl e, Finset.sum_const, Finset.card_range, nsmul_eq_mul]
    have : (N : ℝ) ≠ 0 := by exact_mod_cast (by omega : N ≠ 0)
    field_simp

theorem plane_expectation (P : Measure Ω) {X : Ω → ℝ × ℝ} (hX : Measurable X) (hlaw : P.map X = unit.prod unit) (ρ : ℝ → ℝ) (hρ : Measurable ρ) (x y : ℝ) :
    ∫ ω, Real.cos (2 * Real.pi * (ρ (X ω).2 * Real.cos (2 * Real.pi * (X ω).1) * x + ρ (X ω).2 * Real.sin (2 * Real.pi * (X ω).1) * y)) ∂P =
      ∫ a in Set.Ico (0 : ℝ) 1, ∫ u in Set.Ico (0 : ℝ) 1, Real.cos (2 * Real.pi * (ρ u * Real.cos (2 * Real.pi * a) * x + ρ u * Real.sin (2 * Real.pi * a) * y)) := by
  have hm : Measurable fun p : ℝ × ℝ => Real.cos (2 * Real.pi * (ρ p.2 * Real.cos (2 * Real.pi * p.1) * x + ρ p.2 * Real.sin (2 * Real.pi * p.1) * y)) := by fun_prop
  have : ∫ ω, Real.cos (2 * Real.pi * (ρ (X ω).2 * Real.cos (2 * Real.pi * (X ω).1) * x + ρ (X ω).2 * Real.sin (2 * Real.pi * (X ω).1) * y)) ∂P =
      ∫ p, Real.cos (2 * Real.pi * (ρ p.2 * Real.cos (2 * Real.pi * p.1) * x + ρ p.2 * Real.sin (2 * Real.pi * p.1) * y)) ∂(unit.prod unit) := by
    rw [← hlaw, integral_map hX.aemeasurable hm.aestronglyMeasurable]
  rw [this]
  have : IsFiniteMeasure unit := by unfold unit; infer_instance
  rw [integral_prod]
  · rfl
  · refine Integrable.of_bound hm.aestronglyMeasurable 1 (Filter.Eventually.of_forall fun p => ?_)
    rw [Real.norm_eq_abs]; exact Real.abs_cos_le_one _

theorem gau_scale (L : ℝ) (hL : 0 < L) : Real.sqrt Real.pi / (lenScale L * Real.sqrt (Real.pi / 4)) = 1 / (Real.pi * L) := by
  have h1 : Real.sqrt (Real.pi / 4) = Real.sqrt Real.pi / 2 := by
    rw [Real.sqrt_div Real.pi_pos.le]; congr 1
    rw [show (4 : ℝ) = 2 ^ 2 by norm_num, Real.sqrt_sq (by norm_num)]
  have h2 : 0 < Real.sqrt Real.pi := Real.sqrt_pos.2 Real.pi_pos
  rw [h1, lenScale]
  have := Real.pi_pos
  field_simp

theorem expect_gau (L : ℝ) (hL : 0 < L) (x y : ℝ) :
    ∫ a in Set.Ico (0 : ℝ) 1, ∫ u in Set.Ico (0 : ℝ) 1, Real.cos (2 * Real.pi * (1 / (Real.pi * L) * Real.sqrt (-Real.log u) * Real.cos (2 * Real.pi * a) * x +
      1 / (Real.pi * L) * Real.sqrt (-Real.log u) * Real.sin (2 * Real.pi * a) * y)) = Real.exp (-((x ^ 2 + y ^ 2) / L ^ 2)) := by
  have hpi := Real.pi_pos
  have hc : 0 < 1 / (Real.pi * L) := by positivity
  rw [plane (gauss_radius _ hc) (fun r => 2 * (Real.pi * L) ^ 2 * Real.exp (-(Real.pi * L) ^ 2 * r ^ 2)) ?_ x y]
  · have : ∀ z : ℂ, 2 * (Real.pi * L) ^ 2 * Real.exp (-(Real.pi * L) ^ 2 * ‖z‖ ^ 2) * Real.cos (2 * Real.pi * (z.re * x + z.im * y)) =
        2 * (Real.pi * L) ^ 2 * (Real.exp (-(Real.pi * L) ^ 2 * ‖z‖ ^ 2) * Real.cos (2 * Real.pi * (z.re * x + z.im * y))) := fun z => by ring
    simp only [this]
    rw [integral_const_mul, gauss_plane _ (by positivity)]
    have : Real.pi ^ 2 * (x ^ 2 + y ^ 2) / (Real.pi * L) ^ 2 = (x ^ 2 + y ^ 2) / L ^ 2 := by field_simp
    rw [this]; field_simp
  · intro r hr
    have h0 : (0 : ℝ) < r := hr
    rw [abs_mul, abs_neg, abs_of_pos (Real.exp_pos _), abs_of_pos (by positivity)]
    have : -(r ^ 2 / (1 / (Real.pi * L)) ^ 2) = -(Real.pi * L) ^ 2 * r ^ 2 := by field_simp
    rw [this]; field_simp

theorem expect_exp (L : ℝ) (hL : 0 < L) (x y : ℝ) :
    ∫ a in Set.Ico (0 : ℝ) 1, ∫ u in Set.Ico (0 : ℝ) 1, Real.cos (2 * Real.pi * (Real.sqrt (1 / u ^ 2 - 1) / lenScale L * Real.cos (2 * Real.pi * a) * x +
      Real.sqrt (1 / u ^ 2 - 1) / lenScale L * Real.sin (2 * Real.pi * a) * y)) = Real.exp (-(Real.sqrt (x ^ 2 + y ^ 2) / L)) := by
  have hpi := Real.pi_pos
  have hl : 0 < lenScale L := by unfold lenScale; positivity
  rw [plane (exp_radius _ hl) (fun r => lenScale L ^ 2 / Real.sqrt (1 + lenScale L ^ 2 * r ^ 2) ^ 3) ?_ x y, exp_plane _ hl]
  · have : 2 * Real.pi * Real.sqrt (x ^ 2 + y ^ 2) / lenScale L = Real.sqrt (x ^ 2 + y ^ 2) / L := by unfold lenScale; field_simp
    rw [this]; field_simp
  · intro r hr
    have h0 : (0 : ℝ) < r := hr
    rw [abs_neg, abs_of_nonneg (by positivity)]; ring

/-- C90 in the plane: for the models `gauss` (exponent 2) and `exp` (exponent 1), every correlation length, number of modes, set of points, mean and deviation, the values
returned by `sample` have exactly the prescribed mean and covariance, if the numbers for the modes are uniform. -/
theorem C90_plane_partial (alpha : ℝ) (halpha : alpha = 2 ∨ alpha = 1) (L : ℝ) (K : Fin 2 → Fin 2 → ℝ) (hK : isotropicTensor 2 L = .ok K) (N : Nat) (hN : 1 ≤ N)
    (mu sigma : Arr ℝ) (pts : List (Fin 2 → ℝ)) (hmu : mu.fits pts.length) (hsi : sigma.fits pts.length) (r : Ω → Draws) (hr : IsDraw P N r)
    (hu : ∀ m < N, P.map (fun ω => ((r ω).ang m, (r ω).num m)) = unit.prod unit) :
    ∃ field : Nat → Ω → ℝ, (∀ ω, sample alpha L N mu sigma pts (r ω) = .ok ((List.range pts.length).map fun i => field i ω)) ∧
      HasLaw P pts.length mu.at (fun i j => sigma.at i * sigma.at j * correlation K alpha (pts.getD i 0) (pts.getD j 0)) field := by
  have hL : 0 < L := by
    unfold isotropicTensor at hK
    split at hK
    · rename_i h; exact lt_trans (by positivity) h
    · simp at hK
  have hd := (C88_correlation_length 2 L K hK).2
  have hX : ∀ m, Measurable fun ω => ((r ω).ang m, (r ω).num m) := fun m =>
    ((measurable_pi_apply m).comp (measurable_fst.comp hr.measurable)).prodMk ((measurable_pi_apply m).comp (measurable_snd.comp hr.measurable))
  rcases halpha with rfl | rfl
  · obtain ⟨field, h1, h2⟩ := sample_law P 2 L N hN mu sigma pts hmu hsi r hr
      (fun ang num a => Real.sqrt Real.pi / (lenScale L * Real.sqrt (Real.pi / 4)) * Real.sqrt (-Real.log num) * sphere ang a)
      (by refine measurable_pi_lambda _ fun a => ?_
          fin_cases a <;> simp [sphere] <;> fun_prop)
      (fun a u => by unfold mode; rw [if_pos rfl]; rfl)
      (fun h => Real.exp (-((h 0 ^ 2 + h 1 ^ 2) / L ^ 2)))
      (by
        intro m hm h
        rw [← expect_gau L hL, ← plane_expectation P (hX m) (hu m hm) (fun u => 1 / (Real.pi * L) * Real.sqrt (-Real.log u)) (by fun_prop)]
        refine integral_congr_ae (Filter.Eventually.of_forall fun ω => ?_)
        simp only [gau_scale L hL]
        simp [Fin.sum_univ_two, sphere])
    refine ⟨field, h1, h2.finite, h2.mean, fun i hi j hj => (h2.covariance i hi j hj).trans ?_⟩
    unfold correlation
    rw [hd, Fin.sum_univ_two]
    simp
  · obtain ⟨field, h1, h2⟩ := sample_law P 1 L N hN mu sigma pts hmu hsi r hr
      (fun ang num a => Real.sqrt (1 / num ^ 2 - 1) / lenScale L * sphere ang a)
      (by refine measurable_pi_lambda _ fun a => ?_
          fin_cases a <;> simp [sphere] <;> fun_prop)
      (fun a u => by unfold mode; rw [if_neg (by norm_num)]; rfl)
      (fun h => Real.exp (-(Real.sqrt (h 0 ^ 2 + h 1 ^ 2) / L)))
      (by
        intro m hm h
        rw [← expect_exp L hL, ← plane_expectation P (hX m) (hu m hm) (fun u => Real.sqrt (1 / u ^ 2 - 1) / lenScale L) (by fun_prop)]
        refine integral_congr_ae (Filter.Eventually.of_forall fun ω => ?_)
        simp [Fin.sum_univ_two, sphere])
    refine ⟨field, h1, h2.finite, h2.mean, fun i hi j hj => (h2.covariance i hi j hj).trans ?_⟩
    unfold correlation
    rw [hd, Fin.sum_univ_two, ← Real.sqrt_eq_rpow, Real.sqrt_div (by positivity), Real.sqrt_sq hL.le]
    simp

/-- C90 on a line fails for the model `gauss`: the deviation of the frequencies is not the one of the prescribed correlation.  The covariance of the returned field is
`exp(-h² / (2 π² L⁴))` instead of `exp(-h² / L²)`. -/
theorem C90_line_law (L : ℝ) (hL : 0 < L) (N : Nat) (hN : 1 ≤ N)
    (mu sigma : Arr ℝ) (pts : List (Fin 1 → ℝ)) (hmu : mu.fits pts.length) (hsi : sigma.fits pts.length) (r : Ω → Draws) (hr : IsDraw P N r)
    (hu : ∀ m < N, P.map (fun ω => (r ω).num m) = gaussianReal 0 1) :
    ∃ field : Nat → Ω → ℝ, (∀ ω, sample 2 L N mu sigma pts (r ω) = .ok ((List.range pts.length).map fun i => field i ω)) ∧
      HasLaw P pts.length mu.at (fun i j => sigma.at i * sigma.at j * Real.exp (-((pts.getD j 0 0 - pts.getD i 0 0) ^ 2 / (2 * Real.pi ^ 2 * L ^ 4)))) field := by
  have hpi := Real.pi_pos
  have hs : Real.pi / 2 / (lenScale L * Real.sqrt (Real.pi / 4)) ^ 2 = 1 / (2 * Real.pi ^ 2 * L ^ 2) := by
    rw [mul_pow, Real.sq_sqrt (by positivity), lenScale]; field_simp; ring
  have hX : ∀ m, Measurable fun ω => (r ω).num m := fun m => (measurable_pi_apply m).comp (measurable_snd.comp hr.measurable)
  refine sample_law P 2 L N hN mu sigma pts hmu hsi r hr
    (fun _ num _ => Real.pi / 2 / (lenScale L * Real.sqrt (Real.pi / 4)) ^ 2 * num) (by fun_prop) (fun a u => by unfold mode; rw [if_pos rfl]; rfl)
    (fun h => Real.exp (-(h 0 ^ 2 / (2 * Real.pi ^ 2 * L ^ 4)))) ?_
  intro m hm h
  have e1 : ∫ ω, Real.cos (2 * Real.pi * ∑ a : Fin 1, Real.pi / 2 / (lenScale L * Real.sqrt (Real.pi / 4)) ^ 2 * (r ω).num m * h a) ∂P =
      ∫ x, Real.cos (h 0 / (Real.pi * L ^ 2) * x) ∂(gaussianReal 0 1) := by
    rw [← hu m hm, integral_map (hX m).aemeasurable (by fun_prop)]
    refine integral_congr_ae (Filter.Eventually.of_forall fun ω => ?_)
    simp only [Finset.univ_unique, Fin.default_eq_zero, Fin.isValue, Finset.sum_singleton]
    rw [hs]; congr 1; field_simp
  rw [e1]
  have hcf := charFun_gaussianReal (μ := 0) (v := 1) (h 0 / (Real.pi * L ^ 2))
  rw [charFun_apply_real] at hcf
  have e2 := congrArg Complex.re hcf
  have hint : Integrable (fun x : ℝ => Complex.exp ((h 0 / (Real.pi * L ^ 2) : ℝ) * x * Complex.I)) (gaussianReal 0 1) := by
    refine Integrable.of_bound (by fun_prop) 1 (Filter.Eventually.of_forall fun x => ?_)
    rw [← Complex.ofReal_mul, Complex.norm_exp_ofReal_mul_I]
  rw [← RCLike.re_eq_complex_re, ← integral_re hint] at e2
  have e3 : ∀ x : ℝ, RCLike.re (Complex.exp ((h 0 / (Real.pi * L ^ 2) : ℝ) * x * Complex.I)) = Real.cos (h 0 / (Real.pi * L ^ 2) * x) := by
    intro x
    rw [← Complex.ofReal_mul, RCLike.re_eq_complex_re, Complex.exp_ofReal_mul_I_re]
  simp only [e3] at e2
  rw [e2]
  have e4 : ((h 0 / (Real.pi * L ^ 2) : ℝ) : ℂ) * ((0 : ℝ) : ℂ) * Complex.I - ((1 : NNReal) : ℂ) * ((h 0 / (Real.pi * L ^ 2) : ℝ) : ℂ) ^ 2 / 2 =
      ((-(h 0 ^ 2 / (2 * Real.pi ^ 2 * L ^ 4)) : ℝ) : ℂ) := by
    simp only [Complex.ofReal_zero, mul_zero, zero_mul, zero_sub, NNReal.coe_one, Complex.ofReal_one, one_mul]
    push_cast
    have h1 : (Real.pi : ℂ) ≠ 0 := by exact_mod_cast hpi.ne'
    have h2 : (L : ℂ) ≠ 0 := by exact_mod_cast hL.ne'
    field_simp
  rw [RCLike.re_eq_complex_re, e4, Complex.exp_ofReal_re]

end

/-- C90 on a line: with exponent 2, any correlation length except `1 / (√2 π)` gives a covariance different from the prescribed one between any two different points. -/
theorem C90_counterexample_line {Ω : Type} [MeasurableSpace Ω] (P : Measure Ω) [IsProbabilityMeasure P] (L : ℝ) (K : Fin 1 → Fin 1 → ℝ) (hK : isotropicTensor 1 L = .ok K)
    (hL2 : 2 * Real.pi ^ 2 * L ^ 2 ≠ 1) (N : Nat) (hN : 1 ≤ N) (p q : Fin 1 → ℝ) (hpq : p ≠ q) (r : Ω → Draws) (hr : IsDraw P N r)
    (hu : ∀ m < N, P.map (fun ω => (r ω).num m) = gaussianReal 0 1) :
    ∃ f g : Ω → ℝ, (∀ ω, sample 2 L N (.scalar 0) (.scalar 1) [p, q] (r ω) = .ok [f ω, g ω]) ∧ cov[f, g; P] ≠ correlation K 2 p q := by
  have hL : 0 < L := by
    unfold isotropicTensor at hK
    split at hK
    · rename_i h; exact lt_trans (by positivity) h
    · simp at hK
  obtain ⟨field, h1, h2⟩ := C90_line_law P L hL N hN (.scalar 0) (.scalar 1) [p, q] trivial trivial r hr hu
  refine ⟨field 0, field 1, h1, ?_⟩
  rw [h2.covariance 0 (by simp) 1 (by simp)]
  unfold correlation
  rw [(C88_correlation_length 1 L K hK).2]
  simp only [Arr.at, Arr.get, Option.getD_some, one_mul, Finset.univ_unique, Fin.default_eq_zero, Finset.sum_singleton]
  have e : ([p, q].getD 1 0 0 - [p, q].getD 0 0 0) = q 0 - p 0 := rfl
  rw [e]
  have hd : q 0 - p 0 ≠ 0 := by
    intro h; apply hpq; funext a; rw [Fin.fin_one_eq_zero a]; linarith
  rw [show (2 : ℝ) / 2 = 1 by norm_num, Real.rpow_one]
  intro hcon
  have := Real.exp_injective hcon
  have h3 : (q 0 - p 0) ^ 2 ≠ 0 := pow_ne_zero _ hd
  apply hL2
  have hpi := Real.pi_pos
  field_simp at this
  nlinarith

/-- C90 on a line: with any exponent but 2, `sample` raises `AttributeError`. -/
theorem C90_counterexample_line_exp (alpha L : ℝ) (h : alpha ≠ 2) (N : Nat) (hN : 1 ≤ N) (mu sigma : Arr ℝ) (pts : List (Fin 1 → ℝ)) (r : Draws) :
    sample alpha L N mu sigma pts r = .error .attributeError := by
  obtain ⟨n, rfl⟩ : ∃ n, N = n + 1 := ⟨N - 1, by omega⟩
  unfold sample
  rw [List.range_succ_eq_map, List.mapM_cons]
  have : mode alpha L 1 (r.ang 0) (r.num 0) = .error .attributeError := by unfold mode; rw [if_neg h]; rfl
  rw [this]; rfl

theorem exponent_ignored (alpha : ℝ) (h : alpha ≠ 2) (L : ℝ) (dim N : Nat) (mu sigma : Arr ℝ) (pts : List (Fin dim → ℝ)) (r : Draws) :
    sample alpha L N mu sigma pts r = sample 1 L N mu sigma pts r := by
  unfold sample mode
  simp only [h, if_false, show ¬ ((1 : ℝ) = 2) by norm_num]

/-- C90 in the plane fails for every exponent other than 1 and 2, which the constructor accepts: the field is the one of the exponent 1, and two points at the distance of twice the
correlation length have the covariance `exp(-2)` instead of `exp(-2 ^ alpha)`. -/
theorem C90_counterexample_exponent {Ω : Type} [MeasurableSpace Ω] (P : Measure Ω) [IsProbabilityMeasure P] (alpha : ℝ) (h1 : alpha ≠ 1) (h2 : alpha ≠ 2)
    (L : ℝ) (K : Fin 2 → Fin 2 → ℝ) (hK : isotropicTensor 2 L = .ok K) (N : Nat) (hN : 1 ≤ N) (r : Ω → Draws) (hr : IsDraw P N r)
    (hu : ∀ m < N, P.map (fun ω => ((r ω).ang m, (r ω).num m)) = unit.prod unit) :
    ∃ f g : Ω → ℝ, (∀ ω, sample alpha L N (.scalar 0) (.scalar 1) [![0, 0], ![2 * L, 0]] (r ω) = .ok [f ω, g ω]) ∧
      cov[f, g; P] ≠ correlation K alpha ![0, 0] ![2 * L, 0] := by
  have hL : 0 < L := by
    unfold isotropicTensor at hK
    split at hK
    · rename_i h; exact lt_trans (by positivity) h
    · simp at hK
  obtain ⟨field, e1, e2⟩ := C90_plane_partial P 1 (Or.inr rfl) L K hK N hN (.scalar 0) (.scalar 1) [![0, 0], ![2 * L, 0]] trivial trivial r hr hu
  refine ⟨field 0, field 1, fun ω => by rw [exponent_ignored alpha h2]; exact e1 ω, ?_⟩
  rw [e2.covariance 0 (by simp) 1 (by simp)]
  have hd : ∀ a : ℝ, correlation K a ![0, 0] ![2 * L, 0] = Real.exp (-(2 ^ a)) := by
    intro a
    unfold correlation
    rw [(C88_correlation_length 2 L K hK).2, Fin.sum_univ_two]
    have : ((![2 * L, 0] 0 - ![0, 0] 0) ^ 2 + (![2 * L, 0] 1 - ![0, 0] 1) ^ 2 : ℝ) / L ^ 2 = 2 ^ (2 : ℝ) := by
      simp; field_simp
    rw [this, ← Real.rpow_mul (by norm_num)]
    congr 3; ring
  show Arr.at _ 0 * Arr.at _ 1 * correlation K 1 ![0, 0] ![2 * L, 0] ≠ _
  rw [hd, hd]
  simp only [Arr.at, Arr.get, Option.getD_some, one_mul]
  intro hcon
  have := neg_injective (Real.exp_injective hcon)
  exact h1 (Real.rpow_right_inj (by norm_num) (by norm_num) |>.1 this).symm

/-! ## The hypotheses are met -/

namespace Ex

instance : IsProbabilityMeasure unit := ⟨by simp [unit]⟩

/-- Normal numbers. -/
noncomputable def normals : Measure (Nat × Nat → ℝ) := Measure.infinitePi fun _ => gaussianReal 0 1
/-- The numbers for the modes, with distribution `ν`. -/
noncomputable def others (ν : Measure (ℝ × ℝ)) : Measure (Nat → ℝ × ℝ) := Measure.infinitePi fun _ => ν
/-- All draws of one call. -/
def draw (ω : (Nat × Nat → ℝ) × (Nat → ℝ × ℝ)) : Draws := ⟨fun i m => ω.1 (i, m), fun m => (ω.2 m).1, fun m => (ω.2 m).2⟩

instance : IsProbabilityMeasure normals := by unfold normals; infer_instance
instance (ν : Measure (ℝ × ℝ)) [IsProbabilityMeasure ν] : IsProbabilityMeasure (others ν) := by unfold others; infer_instance

theorem isDraw (ν : Measure (ℝ × ℝ)) [IsProbabilityMeasure ν] (N : Nat) : IsDraw (normals.prod (others ν)) N draw := by
  have mp : ∀ i m : Nat, MeasurePreserving (fun ω : (Nat × Nat → ℝ) × (Nat → ℝ × ℝ) => ω.1 (i, m)) (normals.prod (others ν)) (gaussianReal 0 1) := fun i m =>
    (measurePreserving_eval_infinitePi (fun _ : Nat × Nat => gaussianReal 0 1) (i, m)).comp measurePreserving_fst
  have hL : ∀ i m : Nat, MemLp (fun ω : (Nat × Nat → ℝ) × (Nat → ℝ × ℝ) => ω.1 (i, m)) 2 (normals.prod (others ν)) := fun i m =>
    (memLp_id_gaussianReal' 2 (by norm_num)).comp_measurePreserving (mp i m)
  have hi : iIndepFun (fun k (ω : Nat × Nat → ℝ) => ω k) normals :=
    iIndepFun_infinitePi (P := fun _ : Nat × Nat => gaussianReal 0 1) (X := fun _ x => x) (by fun_prop)
  have hL1 : ∀ k : Nat × Nat, MemLp (fun ω : Nat × Nat → ℝ => ω k) 2 normals := fun k =>
    (memLp_id_gaussianReal' 2 (by norm_num)).comp_measurePreserving (measurePreserving_eval_infinitePi (fun _ : Nat × Nat => gaussianReal 0 1) k)
  refine ⟨fun i _ m _ => hL i m, fun i _ m _ => ?_, fun i _ m _ => ?_, fun i _ m _ i' _ m' _ hne => ?_, ?_, by unfold draw; fun_prop⟩
  · have h := integral_map (mp i m).aemeasurable (f := (id : ℝ → ℝ)) (by fun_prop)
    rw [(mp i m).map_eq] at h
    exact h.symm.trans integral_id_gaussianReal
  · exact ((mp i m).variance_fun_comp (f := (id : ℝ → ℝ)) (by fun_prop)).trans (by simp)
  · have h := covariance_map_fun (μ := normals.prod (others ν)) (Z := Prod.fst) (X := fun ω : Nat × Nat → ℝ => ω (i, m)) (Y := fun ω => ω (i', m'))
      (measurable_pi_apply _).aestronglyMeasurable (measurable_pi_apply _).aestronglyMeasurable (by fun_prop)
    rw [(measurePreserving_fst (μ := normals) (ν := others ν)).map_eq] at h
    exact h.symm.trans ((hi.indepFun hne).covariance_eq_zero (hL1 _) (hL1 _))
  · exact indepFun_prod (μ := normals) (ν := others ν) (X := fun ω i m => ω (i, m)) (Y := fun ω => (fun m => (ω m).1, fun m => (ω m).2)) (by fun_prop) (by fun_prop)

theorem draw_law (ν : Measure (ℝ × ℝ)) [IsProbabilityMeasure ν] (m : Nat) : (normals.prod (others ν)).map (fun ω => ((draw ω).ang m, (draw ω).num m)) = ν :=
  ((measurePreserving_eval_infinitePi (fun _ : Nat => ν) m).comp (measurePreserving_snd (μ := normals) (ν := others ν))).map_eq

/-- Two points in the plane, two modes, exponent 1, length 1. -/
example : ∃ f g : (Nat × Nat → ℝ) × (Nat → ℝ × ℝ) → ℝ, (∀ ω, sample 1 1 2 (.scalar 5) (.array [1, 2]) [![0, 0], ![3, 4]] (draw ω) = .ok [f ω, g ω]) ∧
    ∫ ω, f ω ∂(normals.prod (others (unit.prod unit))) = 5 ∧ cov[f, g; normals.prod (others (unit.prod unit))] = 2 * Real.exp (-5) := by
  obtain ⟨K, hK⟩ : ∃ K, isotropicTensor 2 1 = .ok K := by
    unfold isotropicTensor; rw [if_pos (by norm_num)]; exact ⟨_, rfl⟩
  obtain ⟨field, h1, h2⟩ := C90_plane_partial (normals.prod (others (unit.prod unit))) 1 (Or.inr rfl) 1 K hK 2 (by norm_num) (.scalar 5) (.array [1, 2]) [![0, 0], ![3, 4]]
    trivial rfl draw (isDraw _ 2) (fun m _ => draw_law _ m)
  refine ⟨field 0, field 1, h1, (h2.mean 0 (by simp)).trans rfl, ?_⟩
  rw [h2.covariance 0 (by simp) 1 (by simp)]
  unfold correlation
  rw [(C88_correlation_length 2 1 K hK).2, ← Real.sqrt_eq_rpow]
  have : Real.sqrt ((∑ a : Fin 2, (([![0, 0], ![3, 4]] : List (Fin 2 → ℝ)).getD 1 0 a - ([![0, 0], ![3, 4]] : List (Fin 2 → ℝ)).getD 0 0 a) ^ 2) / 1 ^ 2) = 5 := by
    rw [Fin.sum_univ_two]
    simp only [List.getD_cons_zero, List.getD_cons_succ, Matrix.cons_val_zero, Matrix.cons_val_one, Matrix.cons_val_fin_one]
    rw [show ((3 - 0) ^ 2 + (4 - 0) ^ 2 : ℝ) / 1 ^ 2 = 5 ^ 2 by norm_num, Real.sqrt_sq (by norm_num)]
  rw [this]
  simp [Arr.at, Arr.get]

/-- Two points on a line. -/
example : ∃ f g : (Nat × Nat → ℝ) × (Nat → ℝ × ℝ) → ℝ, (∀ ω, sample 2 1 3 (.scalar 0) (.scalar 1) [fun _ : Fin 1 => 0, fun _ => 1] (draw ω) = .ok [f ω, g ω]) ∧
    ∃ K, isotropicTensor 1 1 = .ok K ∧ cov[f, g; normals.prod (others ((Measure.dirac 0).prod (gaussianReal 0 1)))] ≠ correlation K 2 (fun _ => 0) (fun _ => 1) := by
  obtain ⟨K, hK⟩ : ∃ K, isotropicTensor 1 1 = .ok K := by
    unfold isotropicTensor; rw [if_pos (by norm_num)]; exact ⟨_, rfl⟩
  obtain ⟨f, g, h1, h2⟩ := C90_counterexample_line (normals.prod (others ((Measure.dirac 0).prod (gaussianReal 0 1)))) 1 K hK (by nlinarith [Real.two_le_pi]) 3 (by norm_num)
    (fun _ => 0) (fun _ => 1) (by intro h; have := congrFun h 0; norm_num at this) draw (isDraw _ 3) (fun m _ => by
      have h := draw_law ((Measure.dirac 0).prod (gaussianReal 0 1)) m
      have := congrArg (Measure.map Prod.snd) h
      rw [Measure.map_map measurable_snd (by unfold draw; fun_prop)] at this
      exact this.trans (by simp))
  exact ⟨f, g, h1, K, hK, h2⟩

end Ex

end MLMC.RF.Fourier
