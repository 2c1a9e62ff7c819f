import Mathlib.Probability.CentralLimitTheorem
import Mathlib.MeasureTheory.Function.ConvergenceInDistribution
import Verif.Spec.Convergence
/-! Central limit theorem for weighted sums over several levels whose numbers of samples grow at arbitrary rates. -/
namespace MLMC
open MeasureTheory ProbabilityTheory Filter Topology Asymptotics

theorem norm_pow_sub_le {a b : ℂ} (ha : ‖a‖ ≤ 1) (hb : ‖b‖ ≤ 1) (n : ℕ) : ‖a ^ n - b ^ n‖ ≤ n * ‖a - b‖ := by
  induction n with
  | zero => simp
  | succ n ih =>
    have e : a ^ (n + 1) - b ^ (n + 1) = a ^ n * (a - b) + (a ^ n - b ^ n) * b := by ring
    rw [e]
    refine (norm_add_le _ _).trans ?_
    rw [norm_mul, norm_mul, norm_pow]
    have h1 : ‖a‖ ^ n * ‖a - b‖ ≤ 1 * ‖a - b‖ := mul_le_mul_of_nonneg_right (pow_le_one₀ (norm_nonneg _) ha) (norm_nonneg _)
    have h2 : ‖a ^ n - b ^ n‖ * ‖b‖ ≤ (n * ‖a - b‖) * 1 := mul_le_mul ih hb (norm_nonneg _) (by positivity)
    push_cast; linarith

theorem norm_prod_sub_le {ι : Type} (s : Finset ι) {a b : ι → ℂ} (ha : ∀ i ∈ s, ‖a i‖ ≤ 1) (hb : ∀ i ∈ s, ‖b i‖ ≤ 1) :
    ‖∏ i ∈ s, a i - ∏ i ∈ s, b i‖ ≤ ∑ i ∈ s, ‖a i - b i‖ := by
  classical
  induction s using Finset.induction_on with
  | empty => simp
  | insert i s hi ih =>
    rw [Finset.prod_insert hi, Finset.prod_insert hi, Finset.sum_insert hi]
    have e : a i * ∏ j ∈ s, a j - b i * ∏ j ∈ s, b j = (a i - b i) * ∏ j ∈ s, a j + b i * (∏ j ∈ s, a j - ∏ j ∈ s, b j) := by ring
    rw [e]
    refine (norm_add_le _ _).trans ?_
    rw [norm_mul, norm_mul]
    have hp : ‖∏ j ∈ s, a j‖ ≤ 1 := by
      rw [norm_prod]
      exact Finset.prod_le_one (fun _ _ => norm_nonneg _) fun j hj => ha j (Finset.mem_insert_of_mem hj)
    have h0 := ih (fun j hj => ha j (Finset.mem_insert_of_mem hj)) (fun j hj => hb j (Finset.mem_insert_of_mem hj))
    have h1 : ‖a i - b i‖ * ‖∏ j ∈ s, a j‖ ≤ ‖a i - b i‖ * 1 := mul_le_mul_of_nonneg_left hp (norm_nonneg _)
    have h2 : ‖b i‖ * ‖∏ j ∈ s, a j - ∏ j ∈ s, b j‖ ≤ 1 * ∑ j ∈ s, ‖a j - b j‖ :=
      mul_le_mul (hb i (Finset.mem_insert_self _ _)) h0 (norm_nonneg _) (by norm_num)
    linarith

variable {Ω : Type} [MeasurableSpace Ω] {P : Measure Ω}

/-- The characteristic function of a centred number with variance `v` agrees with the one of the normal distribution up to a term smaller than `s²`. -/
theorem charFun_normal [IsProbabilityMeasure P] {X : Ω → ℝ} (hX : MemLp X 2 P) (h0 : ∫ ω, X ω ∂P = 0) {v : ℝ} (hv : ∫ ω, X ω ^ 2 ∂P = v) :
    (fun s : ℝ => charFun (P.map X) s - Complex.exp (-(v * s ^ 2 / 2 : ℝ))) =o[𝓝 0] fun s : ℝ => s ^ 2 := by
  have hm : AEMeasurable X P := hX.1.aemeasurable
  have hpm : IsProbabilityMeasure (P.map X) := Measure.isProbabilityMeasure_map hm
  have hint : MemLp id 2 (P.map X) := (memLp_map_measure_iff (by fun_prop) hm).2 hX
  have h1 : (fun s : ℝ => charFun (P.map X) s - (1 - (v * s ^ 2 / 2 : ℝ))) =o[𝓝 0] fun s : ℝ => s ^ 2 := by
    have h := taylor_isLittleO_univ (f := charFun (P.map X)) (x₀ := 0) (n := 2) (contDiff_charFun hint)
    simp_rw [taylorWithinEval_charFun_two_zero hm hint] at h
    have h0' : P[X] = 0 := h0
    have hv' : P[X ^ 2] = v := hv
    rw [h0', hv'] at h
    simpa using h
  have h2 : (fun s : ℝ => Complex.exp (-(v * s ^ 2 / 2 : ℝ)) - (1 - (v * s ^ 2 / 2 : ℝ))) =o[𝓝 0] fun s : ℝ => s ^ 2 := by
    have hb : (fun s : ℝ => Complex.exp (-(v * s ^ 2 / 2 : ℝ)) - (1 - (v * s ^ 2 / 2 : ℝ))) =O[𝓝 0] fun s : ℝ => s ^ 4 := by
      have hsmall : ∀ᶠ s : ℝ in 𝓝 0, ‖(-(v * s ^ 2 / 2 : ℝ) : ℂ)‖ ≤ 1 := by
        have : Tendsto (fun s : ℝ => ‖(-(v * s ^ 2 / 2 : ℝ) : ℂ)‖) (𝓝 0) (𝓝 ‖(-(v * (0 : ℝ) ^ 2 / 2 : ℝ) : ℂ)‖) :=
          (Continuous.tendsto (by fun_prop) 0)
        have h := this.eventually (ge_mem_nhds (show ‖(-(v * (0 : ℝ) ^ 2 / 2 : ℝ) : ℂ)‖ < 1 by simp))
        exact h
      refine IsBigO.of_bound (v ^ 2 / 4) ?_
      filter_upwards [hsmall] with s hs
      have := Complex.norm_exp_sub_one_sub_id_le hs
      have e : Complex.exp (-(v * s ^ 2 / 2 : ℝ)) - (1 - (v * s ^ 2 / 2 : ℝ)) = Complex.exp (-(v * s ^ 2 / 2 : ℝ)) - 1 - -(v * s ^ 2 / 2 : ℝ) := by ring
      rw [e]
      refine this.trans (le_of_eq ?_)
      rw [norm_neg, Complex.norm_real, Real.norm_eq_abs, sq_abs, Real.norm_eq_abs, abs_of_nonneg (by positivity)]
      ring
    exact hb.trans_isLittleO (isLittleO_pow_pow (by norm_num))
  simpa using h1.sub h2

/-- One level: the power of the characteristic function approaches the normal one if the arguments tend to zero and `n s²` stays bounded. -/
theorem charFun_level [IsProbabilityMeasure P] {X : Ω → ℝ} (hX : MemLp X 2 P) (h0 : ∫ ω, X ω ∂P = 0) {v : ℝ} (hv : ∫ ω, X ω ^ 2 ∂P = v)
    {n : ℕ → ℕ} {s : ℕ → ℝ} {C : ℝ} (hs : Tendsto s atTop (𝓝 0)) (hC : ∀ᶠ r in atTop, n r * s r ^ 2 ≤ C) :
    Tendsto (fun r => ‖charFun (P.map X) (s r) ^ n r - Complex.exp (-(v * (n r * s r ^ 2) / 2 : ℝ))‖) atTop (𝓝 0) := by
  have hm : AEMeasurable X P := hX.1.aemeasurable
  have hpm : IsProbabilityMeasure (P.map X) := Measure.isProbabilityMeasure_map hm
  have hv0 : 0 ≤ v := by rw [← hv]; exact integral_nonneg fun ω => sq_nonneg _
  have ho := (charFun_normal hX h0 hv).comp_tendsto hs
  rw [Metric.tendsto_nhds]
  intro ε hε
  have hc : 0 < ε / (|C| + 1) := by positivity
  filter_upwards [hC, ho.bound hc] with r h1 h2
  simp only [Function.comp] at h2
  have e : Complex.exp (-(v * (n r * s r ^ 2) / 2 : ℝ)) = Complex.exp (-(v * s r ^ 2 / 2 : ℝ)) ^ n r := by
    rw [← Complex.exp_nat_mul]; congr 1; push_cast; ring
  have hb : ‖Complex.exp (-(v * s r ^ 2 / 2 : ℝ))‖ ≤ 1 := by
    rw [Complex.norm_exp]
    simp only [Complex.neg_re, Complex.ofReal_re]
    exact Real.exp_le_one_iff.2 (by have : 0 ≤ v * s r ^ 2 / 2 := by positivity
                                    linarith)
  rw [dist_zero_right, norm_norm, e]
  refine (norm_pow_sub_le (norm_charFun_le_one _) hb _).trans_lt ?_
  rw [Real.norm_eq_abs, abs_of_nonneg (sq_nonneg (s r))] at h2
  calc (n r : ℝ) * ‖charFun (P.map X) (s r) - Complex.exp (-(v * s r ^ 2 / 2 : ℝ))‖
      ≤ n r * (ε / (|C| + 1) * s r ^ 2) := mul_le_mul_of_nonneg_left h2 (by positivity)
    _ = ε / (|C| + 1) * (n r * s r ^ 2) := by ring
    _ ≤ ε / (|C| + 1) * |C| := mul_le_mul_of_nonneg_left (h1.trans (le_abs_self _)) hc.le
    _ < ε := by
      rw [div_mul_eq_mul_div, div_lt_iff₀ (by positivity)]
      nlinarith

variable {L : Nat} {D : Nat → Nat → Ω → ℝ} {mu var : Nat → ℝ}

/-- The sum of the level averages. -/
noncomputable def mlmcSum (L : Nat) (D : Nat → Nat → Ω → ℝ) (n : Nat → Nat) (ω : Ω) : ℝ := ∑ l ∈ Finset.range L, (∑ k ∈ Finset.range (n l), D l k ω) / n l

/-- The variance of the sum of the level averages. -/
noncomputable def mlmcVar (L : Nat) (var : Nat → ℝ) (n : Nat → Nat) : ℝ := ∑ l ∈ Finset.range L, var l / n l

theorem LevelDraws.memLp (h : LevelDraws P L D mu var) {l : Nat} (hl : l < L) (k : Nat) : MemLp (D l k) 2 P := (h.ident l hl k).memLp_iff.2 (h.finite l hl)

theorem charFun_sum [IsProbabilityMeasure P] (h : LevelDraws P L D mu var) (n : Nat → Nat) (c : ℝ) (hn : ∀ l < L, 1 ≤ n l) (t : ℝ) :
    charFun (P.map fun ω => c * (mlmcSum L D n ω - ∑ l ∈ Finset.range L, mu l)) t =
      ∏ l ∈ Finset.range L, charFun (P.map fun ω => D l 0 ω - mu l) (c * t / n l) ^ n l := by
  have hmeas : ∀ l < L, ∀ k, AEMeasurable (D l k) P := fun l hl k => (h.ident l hl k).aemeasurable_fst
  let Y : Fin L × ℕ → Ω → ℝ := fun p ω => (c / n p.1) * (D p.1 p.2 ω - mu p.1)
  let S : Finset (Fin L × ℕ) := (Finset.univ : Finset (Fin L)).biUnion fun l => (Finset.range (n l)).map ⟨fun k => (l, k), fun a b hab => by simpa using hab⟩
  have hS : ∀ {M : Type} [CommMonoid M] (f : Fin L × ℕ → M), ∏ p ∈ S, f p = ∏ l : Fin L, ∏ k ∈ Finset.range (n l), f (l, k) := by
    intro M _ f
    rw [Finset.prod_biUnion]
    · refine Finset.prod_congr rfl fun l _ => ?_
      rw [Finset.prod_map]; rfl
    · intro l _ l' _ hne
      rw [Function.onFun, Finset.disjoint_left]
      intro p hp hp'
      rw [Finset.mem_map] at hp hp'
      obtain ⟨a, _, rfl⟩ := hp
      obtain ⟨b, _, hb⟩ := hp'
      exact hne (congrArg Prod.fst hb).symm
  have hS' : ∀ (f : Fin L × ℕ → ℝ), ∑ p ∈ S, f p = ∑ l : Fin L, ∑ k ∈ Finset.range (n l), f (l, k) := by
    intro f
    have := hS (M := Multiplicative ℝ) fun p => Multiplicative.ofAdd (f p)
    exact this
  have hsum : (fun ω => c * (mlmcSum L D n ω - ∑ l ∈ Finset.range L, mu l)) = fun ω => ∑ p ∈ S, Y p ω := by
    funext ω
    rw [hS', mlmcSum, ← Finset.sum_sub_distrib, Finset.mul_sum, Finset.sum_range]
    refine Finset.sum_congr rfl fun l _ => ?_
    have h0 : (n l : ℝ) ≠ 0 := by have := hn l l.2; positivity
    simp only [Y]
    rw [← Finset.mul_sum, Finset.sum_sub_distrib, Finset.sum_const, Finset.card_range, nsmul_eq_mul]
    field_simp
  have hYm : ∀ p, AEMeasurable (Y p) P := fun p => ((hmeas p.1 p.1.2 p.2).sub_const _).const_mul _
  have hYi : iIndepFun Y P := h.indep.comp (fun (p : Fin L × ℕ) x => (c / n p.1) * (x - mu p.1)) (fun p => by fun_prop)
  rw [hsum, (hYi.restrict _).charFun_map_fun_finsetSum_eq_prod (fun p _ => hYm p), Finset.prod_apply, hS, Finset.prod_range]
  refine Finset.prod_congr rfl fun l _ => ?_
  have : ∀ k ∈ Finset.range (n l), charFun (P.map (Y (l, k))) t = charFun (P.map fun ω => D l 0 ω - mu l) (c * t / n l) := by
    intro k _
    have hid := (h.ident l l.2 k).comp (u := fun x => (c / n l) * (x - mu l)) (by fun_prop)
    have e1 : P.map (Y (l, k)) = P.map fun ω => (c / n l) * (D l 0 ω - mu l) := hid.map_eq
    rw [e1, charFun_map_mul_comp ((hmeas l l.2 0).sub_const _)]
    congr 1; ring
  rw [Finset.prod_congr rfl this, Finset.prod_const, Finset.card_range]

/-- The standardized sum of level averages approaches the standard normal distribution. -/
theorem charFun_standardized [IsProbabilityMeasure P] (h : LevelDraws P L D mu var) {l₀ : Nat} (hl₀ : l₀ < L) (hv₀ : 0 < var l₀) {n : ℕ → Nat → Nat}
    (hn : ∀ l < L, Tendsto (fun r => n r l) atTop atTop) (t : ℝ) :
    Tendsto (fun r => charFun (P.map fun ω => (Real.sqrt (mlmcVar L var (n r)))⁻¹ * (mlmcSum L D (n r) ω - ∑ l ∈ Finset.range L, mu l)) t) atTop
      (𝓝 (charFun (gaussianReal 0 1) t)) := by
  have hv : ∀ l < L, 0 ≤ var l := fun l hl => by rw [← h.variance l hl]; exact variance_nonneg _ _
  have hbig : ∀ᶠ r in atTop, ∀ l ∈ Finset.range L, 1 ≤ n r l := by
    rw [Finset.eventually_all]
    intro l hl
    exact (hn l (Finset.mem_range.1 hl)).eventually_ge_atTop 1
  -- lower bound of the variance
  have hlow : ∀ᶠ r in atTop, ∀ l < L, var l ≤ n r l * mlmcVar L var (n r) := by
    filter_upwards [hbig] with r hr l hl
    have hp : (0 : ℝ) < n r l := by have := hr l (Finset.mem_range.2 hl); exact_mod_cast this
    have : var l / n r l ≤ mlmcVar L var (n r) :=
      Finset.single_le_sum (f := fun l => var l / (n r l : ℝ)) (fun j hj => div_nonneg (hv j (Finset.mem_range.1 hj)) (Nat.cast_nonneg _)) (Finset.mem_range.2 hl)
    rw [div_le_iff₀ hp] at this
    linarith
  have hpos : ∀ᶠ r in atTop, 0 < mlmcVar L var (n r) := by
    filter_upwards [hlow, hbig] with r hr hb
    have h1 := hr l₀ hl₀
    have hp : (0 : ℝ) < n r l₀ := by have := hb l₀ (Finset.mem_range.2 hl₀); exact_mod_cast this
    by_contra hc
    have : (n r l₀ : ℝ) * mlmcVar L var (n r) ≤ 0 := mul_nonpos_of_nonneg_of_nonpos hp.le (not_lt.1 hc)
    linarith
  -- arguments of the characteristic functions of the levels
  let s : Nat → ℕ → ℝ := fun l r => (Real.sqrt (mlmcVar L var (n r)))⁻¹ * t / n r l
  have hns : ∀ᶠ r in atTop, ∀ l < L, n r l * s l r ^ 2 = t ^ 2 / (n r l * mlmcVar L var (n r)) := by
    filter_upwards [hpos, hbig] with r hr hb l hl
    have hp : (0 : ℝ) < n r l := by have := hb l (Finset.mem_range.2 hl); exact_mod_cast this
    simp only [s]
    rw [div_pow, mul_pow, inv_pow, Real.sq_sqrt hr.le]
    field_simp
  -- each level
  have hlev : ∀ l ∈ Finset.range L, Tendsto (fun r => ‖charFun (P.map fun ω => D l 0 ω - mu l) (s l r) ^ n r l -
      Complex.exp (-(var l * (n r l * s l r ^ 2) / 2 : ℝ))‖) atTop (𝓝 0) := by
    intro l hl
    have hl := Finset.mem_range.1 hl
    have hX : MemLp (fun ω => D l 0 ω - mu l) 2 P := (h.finite l hl).sub (memLp_const _)
    have h0 : ∫ ω, (D l 0 ω - mu l) ∂P = 0 := by
      rw [integral_sub ((h.finite l hl).integrable (by norm_num)) (integrable_const _), h.mean l hl]; simp
    have h2 : ∫ ω, (D l 0 ω - mu l) ^ 2 ∂P = var l := by
      rw [← h.variance l hl, variance_eq_integral (h.finite l hl).1.aemeasurable, h.mean l hl]
    rcases (hv l hl).eq_or_lt with hz | hp
    · -- constant draws
      have hc : (fun ω => D l 0 ω - mu l) =ᵐ[P] fun _ => 0 := by
        have := ae_eq_integral_of_variance_eq_zero (h.finite l hl) (by rw [h.variance l hl, ← hz])
        filter_upwards [this] with ω hω
        rw [hω, h.mean l hl]; simp
      have hone : ∀ x, charFun (P.map fun ω => D l 0 ω - mu l) x = 1 := by
        intro x
        rw [Measure.map_congr hc, Measure.map_const, measure_univ, one_smul, charFun_dirac]
        simp
      simp only [hone, one_pow, ← hz]
      simp
    · refine charFun_level hX h0 h2 (C := t ^ 2 / var l) ?_ ?_
      · have hq : Tendsto (fun r => s l r ^ 2) atTop (𝓝 0) := by
          have hup : Tendsto (fun r => t ^ 2 / var l / (n r l : ℝ)) atTop (𝓝 0) :=
            tendsto_const_nhds.div_atTop (tendsto_natCast_atTop_atTop.comp (hn l hl))
          refine tendsto_of_tendsto_of_tendsto_of_le_of_le' tendsto_const_nhds hup (.of_forall fun r => sq_nonneg _) ?_
          filter_upwards [hns, hlow, hbig] with r h3 h4 h5
          have hp' : (0 : ℝ) < n r l := by have := h5 l (Finset.mem_range.2 hl); exact_mod_cast this
          rw [le_div_iff₀ hp', mul_comm, h3 l hl]
          exact div_le_div_of_nonneg_left (sq_nonneg _) hp (h4 l hl)
        have hsq := (Real.continuous_sqrt.tendsto 0).comp hq
        simp only [Real.sqrt_zero] at hsq
        have : Tendsto (fun r => |s l r|) atTop (𝓝 0) := by
          refine hsq.congr fun r => ?_
          simp only [Function.comp, Real.sqrt_sq_eq_abs]
        exact (tendsto_zero_iff_abs_tendsto_zero _).2 this
      · filter_upwards [hns, hlow] with r h3 h4
        rw [h3 l hl]
        exact div_le_div_of_nonneg_left (sq_nonneg _) hp (h4 l hl)
  have hsumlim : Tendsto (fun r => ∑ l ∈ Finset.range L, ‖charFun (P.map fun ω => D l 0 ω - mu l) (s l r) ^ n r l -
      Complex.exp (-(var l * (n r l * s l r ^ 2) / 2 : ℝ))‖) atTop (𝓝 0) := by
    rw [show (0 : ℝ) = ∑ l ∈ Finset.range L, 0 by simp]
    exact tendsto_finsetSum _ hlev
  rw [tendsto_iff_norm_sub_tendsto_zero]
  refine tendsto_of_tendsto_of_tendsto_of_le_of_le' tendsto_const_nhds hsumlim (.of_forall fun r => norm_nonneg _) ?_
  filter_upwards [hns, hpos, hbig] with r h3 h4 h5
  rw [charFun_sum h (n r) _ (fun l hl => h5 l (Finset.mem_range.2 hl)) t]
  have hg : charFun (gaussianReal 0 1) t = ∏ l ∈ Finset.range L, Complex.exp (-(var l * (n r l * s l r ^ 2) / 2 : ℝ)) := by
    rw [← Complex.exp_sum, charFun_gaussianReal]
    congr 1
    have : ∑ l ∈ Finset.range L, var l * (n r l * s l r ^ 2) / 2 = t ^ 2 / 2 := by
      have e : ∀ l ∈ Finset.range L, var l * (n r l * s l r ^ 2) / 2 = (var l / n r l) * (t ^ 2 / mlmcVar L var (n r) / 2) := by
        intro l hl
        rw [h3 l (Finset.mem_range.1 hl)]
        have hp : (0 : ℝ) < n r l := by have := h5 l hl; exact_mod_cast this
        field_simp
      rw [Finset.sum_congr rfl e, ← Finset.sum_mul]
      have : ∑ l ∈ Finset.range L, var l / (n r l : ℝ) = mlmcVar L var (n r) := rfl
      rw [this]
      field_simp
    rw [Finset.sum_neg_distrib, ← Complex.ofReal_sum, this]
    push_cast; simp
  rw [hg]
  refine norm_prod_sub_le _ (fun l hl => ?_) fun l hl => ?_
  · have hm : AEMeasurable (fun ω => D l 0 ω - mu l) P := ((h.ident l (Finset.mem_range.1 hl) 0).aemeasurable_fst).sub_const _
    have : IsProbabilityMeasure (P.map fun ω => D l 0 ω - mu l) := Measure.isProbabilityMeasure_map hm
    rw [norm_pow]
    exact pow_le_one₀ (norm_nonneg _) (norm_charFun_le_one _)
  · rw [Complex.norm_exp]
    simp only [Complex.neg_re, Complex.ofReal_re]
    refine Real.exp_le_one_iff.2 ?_
    have h0 := hv l (Finset.mem_range.1 hl)
    have : 0 ≤ var l * (n r l * s l r ^ 2) / 2 := by positivity
    linarith

end MLMC
