import Verif.Model.LogField
import Verif.Spec.LogField
import Verif.Props.KarhunenLoeve
import Mathlib.Probability.Moments.Basic
import Mathlib.Probability.Independence.InfinitePi
/-! # C122 Logarithmic random fields -/
namespace MLMC.RF
open MeasureTheory ProbabilityTheory

/-- C122: in every state of the object, one sample with `log=True` is the exponential, value by value, of the sample without it for the same normal numbers, and raises when
that one raises; the object is left in the same state. -/
theorem C122_exponential {d : Nat} (K : Fin d → Fin d → ℝ) (alpha : ℝ) (svd : List (List ℝ) → Svd) (est : Nat → ℝ) (precision : ℝ) (lo : Nat) (hi : Option Nat)
    (s : Spatial ℝ (Fin d → ℝ)) (noise : List ℝ) :
    (s.sample (klLog K alpha svd est precision lo hi) noise).1 =
      (s.sample (klNumerics K alpha svd est precision lo hi) noise).1.map (List.map Real.exp) ∧
    (s.sample (klLog K alpha svd est precision lo hi) noise).2 = (s.sample (klNumerics K alpha svd est precision lo hi) noise).2 := by
  have hd : s.svdDcmp (klLog K alpha svd est precision lo hi) = s.svdDcmp (klNumerics K alpha svd est precision lo hi) := rfl
  unfold Spatial.sample
  rw [hd]
  cases s.lFactor with
  | some f =>
    refine ⟨?_, rfl⟩
    simp only
    cases Spatial.scale s.sigma s.mu (Spatial.dot (s.lFactor.getD []) noise) <;> rfl
  | none =>
    simp only
    rcases h : s.svdDcmp (klNumerics K alpha svd est precision lo hi) with ⟨r, s'⟩
    cases r with
    | error e => exact ⟨rfl, rfl⟩
    | ok u =>
      refine ⟨?_, rfl⟩
      simp only
      cases Spatial.scale s'.sigma s'.mu (Spatial.dot (s'.lFactor.getD []) noise) <;> rfl

section
variable {Ω : Type} [MeasurableSpace Ω] {P : Measure Ω} [IsProbabilityMeasure P] {Z : Nat → Ω → ℝ}

theorem cov_of {f g : Ω → ℝ} (hf : Integrable f P) (hg : Integrable g P) (hfg : Integrable (fun ω => f ω * g ω) P) :
    ∫ ω, (f ω - ∫ ω, f ω ∂P) * (g ω - ∫ ω, g ω ∂P) ∂P = ∫ ω, f ω * g ω ∂P - (∫ ω, f ω ∂P) * ∫ ω, g ω ∂P := by
  set a := ∫ ω, f ω ∂P with ha
  set b := ∫ ω, g ω ∂P with hb
  have e : (fun ω => (f ω - a) * (g ω - b)) = fun ω => f ω * g ω - (a * g ω + (b * f ω - a * b)) := by funext ω; ring
  have i1 : Integrable (fun ω => b * f ω - a * b) P := (hf.const_mul b).sub (integrable_const _)
  have i2 : Integrable (fun ω => a * g ω + (b * f ω - a * b)) P := (hg.const_mul a).add i1
  rw [e, integral_sub hfg i2, integral_add (hg.const_mul a) i1, integral_sub (hf.const_mul b) (integrable_const _),
    integral_const_mul, integral_const_mul, ← ha, ← hb]
  simp
  ring

theorem exp_comb (h : IsNormalNoise P Z) (m : Nat) (c : Nat → ℝ) (u : ℝ) :
    Integrable (fun ω => Real.exp (∑ k ∈ Finset.range m, c k * Z k ω + u)) P ∧
    ∫ ω, Real.exp (∑ k ∈ Finset.range m, c k * Z k ω + u) ∂P = Real.exp (u + (∑ k ∈ Finset.range m, c k ^ 2) / 2) := by
  have hind : iIndepFun (fun k ω => c k * Z k ω) P := h.indep.comp (fun k x => c k * x) fun k => measurable_const_mul (c k)
  have hmeas : ∀ k, Measurable fun ω => c k * Z k ω := fun k => (h.measurable k).const_mul _
  have hfun : (fun ω => ∑ k ∈ Finset.range m, c k * Z k ω) = ∑ k ∈ Finset.range m, fun ω => c k * Z k ω := by
    funext ω; rw [Finset.sum_apply]
  have hone : ∀ k, mgf (fun ω => c k * Z k ω) P 1 = Real.exp (c k ^ 2 / 2) := by
    intro k
    have := mgf_gaussianReal (h.law k) (c k)
    rw [mgf] at this ⊢
    simp only [one_mul]
    rw [this]
    simp
  have hint : ∀ k, Integrable (fun ω => Real.exp (1 * (c k * Z k ω))) P := by
    intro k
    have := integrable_exp_mul_gaussianReal (μ := 0) (v := 1) (c k)
    rw [← h.law k, integrable_map_measure (by fun_prop) (h.measurable k).aemeasurable] at this
    simpa [Function.comp_def] using this
  have hi := hind.integrable_exp_mul_sum (t := 1) hmeas (s := Finset.range m) fun k _ => hint k
  have hm := hind.mgf_sum (t := 1) hmeas (Finset.range m)
  rw [← hfun] at hi hm
  simp only [one_mul] at hi
  have hsplit : (fun ω => Real.exp (∑ k ∈ Finset.range m, c k * Z k ω + u)) = fun ω => Real.exp (∑ k ∈ Finset.range m, c k * Z k ω) * Real.exp u := by
    funext ω; rw [Real.exp_add]
  rw [hsplit]
  refine ⟨hi.mul_const _, ?_⟩
  rw [integral_mul_const]
  rw [mgf] at hm
  simp only [one_mul] at hm
  rw [hm, Finset.prod_congr rfl fun k _ => hone k, ← Real.exp_sum, ← Real.exp_add, Finset.sum_div, add_comm]

/-- Values of the field with `log=True`: the exponentials of linear combinations of the normal numbers. -/
theorem log_sample_eq {d : Nat} (K : Fin d → Fin d → ℝ) (alpha : ℝ) (svd : List (List ℝ) → Svd) (est : Nat → ℝ) (precision : ℝ) (lo : Nat) (hi : Option Nat)
    (s : Spatial ℝ (Fin d → ℝ)) (pts : List (Fin d → ℝ)) (hne : pts ≠ []) (hs : s.points = some pts) (hl : s.lFactor = none) (hc : s.covMat = none)
    (hmu : s.mu.fits pts.length) (hsi : s.sigma.fits pts.length) (S : Svd) (hS : svd (pts.map fun p => pts.map (correlation K alpha p)) = S) (m : Nat)
    (hm : klTerms S.ev est precision pts.length lo hi = .ok m) (z : Nat → ℝ) :
    (s.sample (klLog K alpha svd est precision lo hi) ((List.range m).map z)).1 = .ok ((List.range pts.length).map fun i =>
      Real.exp (∑ k ∈ Finset.range m, s.sigma.at i * (S.U i k * Real.sqrt (S.ev k)) * z k + s.mu.at i)) := by
  subst hS
  rw [(C122_exponential K alpha svd est precision lo hi s _).1, sample_eq K alpha svd est precision lo hi s pts hne hs hl hc hmu hsi m hm z]
  simp only [Except.map, List.map_map]
  congr 1
  refine List.map_congr_left fun i _ => ?_
  simp only [Function.comp, Finset.mul_sum, mul_assoc]

theorem sq_coeff {n m : Nat} {C U V : Nat → Nat → ℝ} {ev : Nat → ℝ} (h : IsSvd n C U V ev) (hmn : m ≤ n) (a b : ℝ) (i j : Nat) :
    ∑ k ∈ Finset.range m, (a * (U i k * Real.sqrt (ev k)) + b * (U j k * Real.sqrt (ev k))) ^ 2 =
      a ^ 2 * ∑ k ∈ Finset.range m, ev k * U i k * U i k + b ^ 2 * ∑ k ∈ Finset.range m, ev k * U j k * U j k +
        2 * (a * b) * ∑ k ∈ Finset.range m, ev k * U i k * U j k := by
  rw [Finset.mul_sum, Finset.mul_sum, Finset.mul_sum, ← Finset.sum_add_distrib, ← Finset.sum_add_distrib]
  refine Finset.sum_congr rfl fun k hk => ?_
  have := Real.mul_self_sqrt (h.nonneg k (lt_of_lt_of_le (Finset.mem_range.1 hk) hmn))
  linear_combination (a * U i k + b * U j k) ^ 2 * this

/-- C122: if all terms are used (`n_terms_range[0]` is at least the number of points), the field with `log=True` is the lognormal field whose logarithm has the mean, the
deviations and the correlations of the object. -/
theorem C122_lognormal {d : Nat} (K : Fin d → Fin d → ℝ) (hK : IsCovariance K) (alpha : ℝ) (h0 : 0 < alpha) (h2 : alpha ≤ 2)
    (svd : List (List ℝ) → Svd) (est : Nat → ℝ) (precision : ℝ) (lo : Nat) (hi : Option Nat)
    (s : Spatial ℝ (Fin d → ℝ)) (pts : List (Fin d → ℝ)) (hne : pts ≠ []) (hlo : pts.length ≤ lo) (hs : s.points = some pts) (hl : s.lFactor = none) (hc : s.covMat = none)
    (hmu : s.mu.fits pts.length) (hsi : s.sigma.fits pts.length) (S : Svd) (hS : svd (pts.map fun p => pts.map (correlation K alpha p)) = S)
    (V : Nat → Nat → ℝ) (hsvd : IsSvd pts.length (corrOf K alpha pts) S.U V S.ev) (hZ : IsNormalNoise P Z) :
    ∃ field : Nat → Ω → ℝ,
      (∀ ω, (s.sample (klLog K alpha svd est precision lo hi) ((List.range pts.length).map fun k => Z k ω)).1 =
        .ok ((List.range pts.length).map fun i => field i ω)) ∧
      Lognormal P pts.length s.mu.at s.sigma.at (corrOf K alpha pts) field := by
  have hm : klTerms S.ev est precision pts.length lo hi = .ok pts.length := by unfold klTerms; rw [if_pos hlo]
  have hC : IsCovariance fun i j : Fin pts.length => corrOf K alpha pts i j :=
    (C88_correlation_matrix_partial K hK alpha h0 h2 fun i : Fin pts.length => pts.getD i 0).1
  have hone : ∀ i < pts.length, corrOf K alpha pts i i = 1 := fun i hi =>
    (C88_correlation_matrix_partial K hK alpha h0 h2 fun i : Fin pts.length => pts.getD i 0).2.1 ⟨i, hi⟩
  have hCeq := hsvd.cov hC
  refine ⟨fun i ω => Real.exp (∑ k ∈ Finset.range pts.length, s.sigma.at i * (S.U i k * Real.sqrt (S.ev k)) * Z k ω + s.mu.at i),
    fun ω => log_sample_eq K alpha svd est precision lo hi s pts hne hs hl hc hmu hsi S hS _ hm fun k => Z k ω, ?_⟩
  have hmean : ∀ i < pts.length, Integrable (fun ω => Real.exp (∑ k ∈ Finset.range pts.length, s.sigma.at i * (S.U i k * Real.sqrt (S.ev k)) * Z k ω + s.mu.at i)) P ∧
      ∫ ω, Real.exp (∑ k ∈ Finset.range pts.length, s.sigma.at i * (S.U i k * Real.sqrt (S.ev k)) * Z k ω + s.mu.at i) ∂P =
        Real.exp (s.mu.at i + s.sigma.at i ^ 2 / 2) := by
    intro i hi
    have h := exp_comb hZ pts.length (fun k => s.sigma.at i * (S.U i k * Real.sqrt (S.ev k))) (s.mu.at i)
    refine ⟨h.1, h.2.trans ?_⟩
    have e := sq_coeff hsvd le_rfl (s.sigma.at i) 0 i i
    simp only [zero_mul, add_zero, mul_zero, ne_eq, OfNat.ofNat_ne_zero, not_false_eq_true, zero_pow] at e
    rw [e, ← hCeq i hi i hi, hone i hi, mul_one]
  have hprod : ∀ i < pts.length, ∀ j < pts.length,
      Integrable (fun ω => Real.exp (∑ k ∈ Finset.range pts.length, s.sigma.at i * (S.U i k * Real.sqrt (S.ev k)) * Z k ω + s.mu.at i) *
        Real.exp (∑ k ∈ Finset.range pts.length, s.sigma.at j * (S.U j k * Real.sqrt (S.ev k)) * Z k ω + s.mu.at j)) P ∧
      ∫ ω, Real.exp (∑ k ∈ Finset.range pts.length, s.sigma.at i * (S.U i k * Real.sqrt (S.ev k)) * Z k ω + s.mu.at i) *
        Real.exp (∑ k ∈ Finset.range pts.length, s.sigma.at j * (S.U j k * Real.sqrt (S.ev k)) * Z k ω + s.mu.at j) ∂P =
        Real.exp (s.mu.at i + s.sigma.at i ^ 2 / 2) * Real.exp (s.mu.at j + s.sigma.at j ^ 2 / 2) * Real.exp (s.sigma.at i * s.sigma.at j * corrOf K alpha pts i j) := by
    intro i hi j hj
    have h := exp_comb hZ pts.length (fun k => s.sigma.at i * (S.U i k * Real.sqrt (S.ev k)) + s.sigma.at j * (S.U j k * Real.sqrt (S.ev k))) (s.mu.at i + s.mu.at j)
    have hf : (fun ω => Real.exp (∑ k ∈ Finset.range pts.length, s.sigma.at i * (S.U i k * Real.sqrt (S.ev k)) * Z k ω + s.mu.at i) *
        Real.exp (∑ k ∈ Finset.range pts.length, s.sigma.at j * (S.U j k * Real.sqrt (S.ev k)) * Z k ω + s.mu.at j)) =
        fun ω => Real.exp (∑ k ∈ Finset.range pts.length, (s.sigma.at i * (S.U i k * Real.sqrt (S.ev k)) + s.sigma.at j * (S.U j k * Real.sqrt (S.ev k))) * Z k ω +
          (s.mu.at i + s.mu.at j)) := by
      funext ω
      rw [← Real.exp_add]
      congr 1
      simp only [add_mul, Finset.sum_add_distrib]
      ring
    rw [hf]
    refine ⟨h.1, h.2.trans ?_⟩
    rw [sq_coeff hsvd le_rfl, ← hCeq i hi i hi, ← hCeq j hj j hj, ← hCeq i hi j hj, hone i hi, hone j hj, ← Real.exp_add, ← Real.exp_add]
    congr 1
    ring
  refine ⟨fun i _ ω => Real.exp_pos _, fun i hi j hj => (hprod i hi j hj).1, fun i hi => (hmean i hi).2, fun i hi j hj => ?_⟩
  obtain ⟨ii, mi⟩ := hmean i hi
  obtain ⟨ij, mj⟩ := hmean j hj
  obtain ⟨ip, mp⟩ := hprod i hi j hj
  have h := cov_of ii ij ip
  simp only [mi, mj, mp] at h ⊢
  rw [h]
  ring

/-- C122: for any number of terms the mean of a value lies between the exponential of `mu` and the mean of the lognormal field with all terms. -/
theorem C122_mean_bounds_partial {d : Nat} (K : Fin d → Fin d → ℝ) (hK : IsCovariance K) (alpha : ℝ) (h0 : 0 < alpha) (h2 : alpha ≤ 2)
    (svd : List (List ℝ) → Svd) (est : Nat → ℝ) (precision : ℝ) (hp : 0 < precision) (lo : Nat) (hi : Option Nat)
    (s : Spatial ℝ (Fin d → ℝ)) (pts : List (Fin d → ℝ)) (hne : pts ≠ []) (hs : s.points = some pts) (hl : s.lFactor = none) (hc : s.covMat = none)
    (hmu : s.mu.fits pts.length) (hsi : s.sigma.fits pts.length) (S : Svd) (hS : svd (pts.map fun p => pts.map (correlation K alpha p)) = S)
    (V : Nat → Nat → ℝ) (hsvd : IsSvd pts.length (corrOf K alpha pts) S.U V S.ev)
    (m : Nat) (hm : klTerms S.ev est precision pts.length lo hi = .ok m) (hZ : IsNormalNoise P Z) :
    ∃ field : Nat → Ω → ℝ,
      (∀ ω, (s.sample (klLog K alpha svd est precision lo hi) ((List.range m).map fun k => Z k ω)).1 = .ok ((List.range pts.length).map fun i => field i ω)) ∧
      ∀ i < pts.length, (∀ ω, 0 < field i ω) ∧ Integrable (field i) P ∧
        Real.exp (s.mu.at i) ≤ ∫ ω, field i ω ∂P ∧ ∫ ω, field i ω ∂P ≤ Real.exp (s.mu.at i + s.sigma.at i ^ 2 / 2) := by
  have hmn : m ≤ pts.length := (C89_terms _ _ _ hp _ _ _ _ hm).1
  have hC : IsCovariance fun i j : Fin pts.length => corrOf K alpha pts i j :=
    (C88_correlation_matrix_partial K hK alpha h0 h2 fun i : Fin pts.length => pts.getD i 0).1
  have hone : ∀ i < pts.length, corrOf K alpha pts i i = 1 := fun i hi =>
    (C88_correlation_matrix_partial K hK alpha h0 h2 fun i : Fin pts.length => pts.getD i 0).2.1 ⟨i, hi⟩
  have hCeq := hsvd.cov hC
  refine ⟨fun i ω => Real.exp (∑ k ∈ Finset.range m, s.sigma.at i * (S.U i k * Real.sqrt (S.ev k)) * Z k ω + s.mu.at i),
    fun ω => log_sample_eq K alpha svd est precision lo hi s pts hne hs hl hc hmu hsi S hS _ hm fun k => Z k ω, fun i hi => ⟨fun ω => Real.exp_pos _, ?_⟩⟩
  have h := exp_comb hZ m (fun k => s.sigma.at i * (S.U i k * Real.sqrt (S.ev k))) (s.mu.at i)
  refine ⟨h.1, ?_⟩
  rw [h.2]
  have e := sq_coeff hsvd hmn (s.sigma.at i) 0 i i
  simp only [zero_mul, add_zero, mul_zero, ne_eq, OfNat.ofNat_ne_zero, not_false_eq_true, zero_pow] at e
  have h1 : 0 ≤ ∑ k ∈ Finset.range m, S.ev k * S.U i k * S.U i k := Finset.sum_nonneg fun k hk => by
    rw [mul_assoc]; exact mul_nonneg (hsvd.nonneg k (lt_of_lt_of_le (Finset.mem_range.1 hk) hmn)) (mul_self_nonneg _)
  have h3 : ∑ k ∈ Finset.range m, S.ev k * S.U i k * S.U i k ≤ 1 := by
    rw [← hone i hi, hCeq i hi i hi, ← Finset.sum_range_add_sum_Ico _ hmn]
    have : 0 ≤ ∑ k ∈ Finset.Ico m pts.length, S.ev k * S.U i k * S.U i k := Finset.sum_nonneg fun k hk => by
      rw [mul_assoc]; exact mul_nonneg (hsvd.nonneg k (Finset.mem_Ico.1 hk).2) (mul_self_nonneg _)
    linarith
  rw [e]
  have h4 := mul_nonneg (sq_nonneg (s.sigma.at i)) h1
  have h5 := mul_le_mul_of_nonneg_left h3 (sq_nonneg (s.sigma.at i))
  exact ⟨Real.exp_le_exp.2 (by linarith), Real.exp_le_exp.2 (by linarith)⟩

/-- C122, last sentence fails: the mean of a value is never the `mu` given for the point (documented as "Mean value of uncorrelated field: E( F(X_i))"): it is larger by at
least one. -/
theorem C122_counterexample_mu {d : Nat} (K : Fin d → Fin d → ℝ) (hK : IsCovariance K) (alpha : ℝ) (h0 : 0 < alpha) (h2 : alpha ≤ 2)
    (svd : List (List ℝ) → Svd) (est : Nat → ℝ) (precision : ℝ) (hp : 0 < precision) (lo : Nat) (hi : Option Nat)
    (s : Spatial ℝ (Fin d → ℝ)) (pts : List (Fin d → ℝ)) (hne : pts ≠ []) (hs : s.points = some pts) (hl : s.lFactor = none) (hc : s.covMat = none)
    (hmu : s.mu.fits pts.length) (hsi : s.sigma.fits pts.length) (S : Svd) (hS : svd (pts.map fun p => pts.map (correlation K alpha p)) = S)
    (V : Nat → Nat → ℝ) (hsvd : IsSvd pts.length (corrOf K alpha pts) S.U V S.ev)
    (m : Nat) (hm : klTerms S.ev est precision pts.length lo hi = .ok m) (hZ : IsNormalNoise P Z) :
    ∃ field : Nat → Ω → ℝ,
      (∀ ω, (s.sample (klLog K alpha svd est precision lo hi) ((List.range m).map fun k => Z k ω)).1 = .ok ((List.range pts.length).map fun i => field i ω)) ∧
      ∀ i < pts.length, s.mu.at i + 1 ≤ ∫ ω, field i ω ∂P := by
  obtain ⟨f, h1, hf⟩ := C122_mean_bounds_partial K hK alpha h0 h2 svd est precision hp lo hi s pts hne hs hl hc hmu hsi S hS V hsvd m hm hZ
  exact ⟨f, h1, fun i hi => (Real.add_one_le_exp _).trans (hf i hi).2.2.1⟩

end

/-! ## The hypotheses are met -/

theorem normal_normal : IsNormalNoise (Measure.infinitePi fun _ : Nat => gaussianReal 0 1) fun k (ω : Nat → ℝ) => ω k :=
  ⟨fun k => measurable_pi_apply k, fun k => Measure.infinitePi_map_eval (fun _ : Nat => gaussianReal 0 1) k, iIndepFun_infinitePi (X := fun _ x => x) fun _ => measurable_id⟩

/-- Four points on a line, mean 0, deviation 1, `n_terms_range = (4, np.inf)`: every value has mean `exp (1/2)`. -/
example : ∃ (svd : List (List ℝ) → Svd) (f : Nat → (Nat → ℝ) → ℝ),
    (∀ ω, (ExKL.field.sample (klLog ExKL.tensor 2 svd ExKL.est (1 / 100) 4 none) ((List.range 4).map fun k => ω k)).1 = .ok ((List.range 4).map fun i => f i ω)) ∧
    ∀ i < 4, ∫ ω, f i ω ∂(Measure.infinitePi fun _ : Nat => gaussianReal 0 1) = Real.exp (1 / 2) := by
  obtain ⟨U, ev, h⟩ := exists_svd ExKL.cov4
  obtain ⟨f, h1, h2⟩ := C122_lognormal (P := Measure.infinitePi fun _ : Nat => gaussianReal 0 1) ExKL.tensor ExKL.tensor_cov 2 (by norm_num) le_rfl
    (fun _ => ⟨U, ev⟩) ExKL.est (1 / 100) 4 none ExKL.field ExKL.pts (List.cons_ne_nil _ _) le_rfl rfl rfl rfl trivial trivial ⟨U, ev⟩ rfl U h normal_normal
  refine ⟨_, f, h1, fun i hi => ?_⟩
  rw [h2.mean i hi]
  simp [ExKL.field, Arr.at, Arr.get]

/-- The same points with the default arguments, where three terms are used. -/
example : ∃ (svd : List (List ℝ) → Svd) (f : Nat → (Nat → ℝ) → ℝ),
    (∀ ω, (ExKL.field.sample (klLog ExKL.tensor 2 svd ExKL.est (1 / 100) 1 none) ((List.range 3).map fun k => ω k)).1 = .ok ((List.range 4).map fun i => f i ω)) ∧
    ∀ i < 4, 1 ≤ ∫ ω, f i ω ∂(Measure.infinitePi fun _ : Nat => gaussianReal 0 1) := by
  obtain ⟨U, ev, h⟩ := exists_svd ExKL.cov4
  obtain ⟨f, h1, h2⟩ := C122_counterexample_mu (P := Measure.infinitePi fun _ : Nat => gaussianReal 0 1) ExKL.tensor ExKL.tensor_cov 2 (by norm_num) le_rfl
    (fun _ => ⟨U, ev⟩) ExKL.est (1 / 100) (by norm_num) 1 none ExKL.field ExKL.pts (List.cons_ne_nil _ _) rfl rfl rfl trivial trivial ⟨U, ev⟩ rfl U h 3 (ExKL.terms h) normal_normal
  refine ⟨_, f, h1, fun i hi => ?_⟩
  have := h2 i hi
  simpa [ExKL.field, Arr.at, Arr.get] using this

end MLMC.RF
