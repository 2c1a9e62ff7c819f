import Verif.Proofs.Cochran
import Verif.Props.StatsTests
/-! # C109 for normal samples: the distributions of the statistics are those of `scipy` -/
namespace MLMC.Stat
open MeasureTheory ProbabilityTheory

variable {Ω : Type} [MeasurableSpace Ω] {P : Measure Ω}

/-- `C109`: `chi2_test` fails independent normal samples whose variance is `var_0` with probability exactly `max_p_val`. -/
theorem C109_chi2_normal {N : Nat} (hN : 2 ≤ N) (mu : ℝ) (var0 : NNReal) (hv : var0 ≠ 0) (Y : Fin N → Ω → ℝ) (h : Normal P mu var0 Y) (maxP : ℝ) (h0 : 0 < maxP) (h1 : maxP < 1) :
    P.real {w | chi2Test (fun k t => cdf (chiSq k) t) var0 (List.ofFn fun i => Y i w) maxP = .error .assertionError} = maxP := by
  have := h.indep.isProbabilityMeasure
  have hk : 0 < N - 1 := by omega
  have := chiSq_prob hk
  have hv' : (var0 : ℝ) ≠ 0 := by exact_mod_cast hv
  have hs := h.std hv
  have hstat : (fun w => ((List.ofFn fun i => Y i w).map fun x => (x - mean (List.ofFn fun i => Y i w)) ^ 2).sum / (var0 : ℝ)) =
      fun w => ∑ i, ((Y i w - mu) / √var0 - unitVec N i * StdNormal.comb (unitVec N) (fun i w => (Y i w - mu) / √var0) w) ^ 2 := by
    ext w
    rw [sq_ofFn, (dev_eq (by omega) (mu := mu) hv Y w).1, mul_div_cancel_left₀ _ hv']
  have hm : Measurable fun w => ∑ i, ((Y i w - mu) / √var0 - unitVec N i * StdNormal.comb (unitVec N) (fun i w => (Y i w - mu) / √var0) w) ^ 2 :=
    Finset.measurable_fun_sum _ fun i _ => ((hs.meas i).sub ((hs.comb_meas _).const_mul _)).pow_const 2
  have hlaw := hs.resid_law (unitVec N) (unitVec_sq (by omega)) (by rw [Fintype.card_fin]; exact hN)
  rw [Fintype.card_fin] at hlaw
  refine C109_chi2_level P N hN _ (fun w => List.length_ofFn) var0 _ (by rw [hstat]; exact hm) (fun t => ?_) (cdf_continuous _) maxP h0 h1
  rw [cdf_eq_real, ← hlaw, map_measureReal_apply hm measurableSet_Iic]
  congr 1
  ext w
  exact Iff.of_eq (congrArg (· ≤ t) (congrFun hstat w))

/-- `C109`: `t_test` fails independent normal samples whose mean is `mu_0` with probability `1 - max_p_val` instead of `max_p_val`: with the default 0.01, 99 of 100 correct samples. -/
theorem C109_counterexample_t_normal {N : Nat} (hN : 2 ≤ N) (mu0 : ℝ) (v : NNReal) (hv : v ≠ 0) (Y : Fin N → Ω → ℝ) (h : Normal P mu0 v Y) (maxP : ℝ) (h0 : 0 < maxP) (h1 : maxP < 1) :
    P.real {w | tTest (fun k t => 1 - cdf (student k) t) mu0 (List.ofFn fun i => Y i w) maxP = .error .assertionError} = 1 - maxP := by
  have := h.indep.isProbabilityMeasure
  have hk : 0 < N - 1 := by omega
  have hN0 : 0 < N := by omega
  have := chiSq_prob hk
  have := student_prob hk
  have := student_noAtoms hk
  have hv' : (0 : ℝ) < v := by exact_mod_cast pos_iff_ne_zero.2 hv
  have hs := h.std hv
  set S : Ω → ℝ := StdNormal.comb (unitVec N) (fun i w => (Y i w - mu0) / √v) with hS
  set Q : Ω → ℝ := fun w => ∑ i, ((Y i w - mu0) / √v - unitVec N i * S w) ^ 2 with hQ
  have hSm : Measurable S := hs.comb_meas _
  have hQm : Measurable Q := Finset.measurable_fun_sum _ fun i _ => ((hs.meas i).sub (hSm.const_mul _)).pow_const 2
  have hQlaw : P.map Q = chiSq (N - 1) := by
    have := hs.resid_law (unitVec N) (unitVec_sq hN0) (by rw [Fintype.card_fin]; exact hN)
    rwa [Fintype.card_fin] at this
  have hSlaw : P.map S = gaussianReal 0 1 := hs.comb_law _ (unitVec_sq hN0)
  have hind : IndepFun S Q P := (hs.resid_indep (unitVec N) (unitVec_sq hN0)).comp (φ := id) (ψ := fun f : Fin N → ℝ => ∑ i, f i ^ 2) measurable_id (by fun_prop)
  set T : Ω → ℝ := fun w => S w / √(Q w / (N - 1 : ℕ)) with hT
  have hTm : Measurable T := by fun_prop
  have hTlaw : P.map T = student (N - 1) := by
    have e : T = (fun p : ℝ × ℝ => p.1 / √(p.2 / (N - 1 : ℕ))) ∘ fun w => (S w, Q w) := rfl
    rw [e, ← Measure.map_map (student_meas _) (by fun_prop), (indepFun_iff_map_prod_eq_prod_map_map hSm.aemeasurable hQm.aemeasurable).1 hind, hSlaw, hQlaw]
    rfl
  have hQpos : ∀ᵐ w ∂P, 0 < Q w := by
    have := chiSq_pos (k := N - 1)
    rw [← hQlaw] at this
    exact ae_of_ae_map hQm.aemeasurable this
  set G : ℝ → ℝ := fun t => max 0 (2 * cdf (student (N - 1)) t - 1) with hG
  have hGc : Continuous G := continuous_const.max (((cdf_continuous (student (N - 1))).const_mul 2).sub continuous_const)
  have hGF : ∀ t, P.real {w | |T w| ≤ t} = G t := by
    intro t
    rw [hG]
    change _ = max 0 (2 * cdf (student (N - 1)) t - 1)
    rw [← student_abs hk, ← hTlaw, map_measureReal_apply hTm (measurableSet_le (by fun_prop) measurable_const)]
    rfl
  have hpit := pit P (fun w => |T w|) hTm.abs G hGF hGc (u := 1 - maxP) (by linarith) (by linarith)
  rw [← hpit]
  refine measureReal_congr ?_
  filter_upwards [hQpos] with w hw
  refine propext ?_
  change tTest (fun k t => 1 - cdf (student k) t) mu0 (List.ofFn fun i => Y i w) maxP = .error .assertionError ↔ G |T w| ≤ 1 - maxP
  have hN' : (N : ℝ) ≠ 0 := by positivity
  have hd := dev_eq hN0 (mu := mu0) hv Y w
  have hvar : var (List.ofFn fun i => Y i w) = v * Q w / N := by
    rw [var, sq_ofFn, hd.1, List.length_ofFn]
  have hne : var (List.ofFn fun i => Y i w) ≠ 0 := by rw [hvar]; positivity
  have hcast : ((N - 1 : ℕ) : ℝ) = (N : ℝ) - 1 := by rw [Nat.cast_sub (by omega)]; simp
  have hTw : (mean (List.ofFn fun i => Y i w) - mu0) / √(var (List.ofFn fun i => Y i w) / ((N : ℝ) - 1)) = T w := by
    have hN1 : (0 : ℝ) < (N : ℝ) - 1 := by rw [← hcast]; positivity
    rw [mean_ofFn, hd.2, hvar, hT]
    change √v / √N * S w / _ = S w / √(Q w / (N - 1 : ℕ))
    rw [hcast, show v * Q w / N / ((N : ℝ) - 1) = v / N * (Q w / ((N : ℝ) - 1)) by ring, Real.sqrt_mul (by positivity), Real.sqrt_div hv'.le]
    have a1 : √(v : ℝ) ≠ 0 := (Real.sqrt_pos.2 hv').ne'
    have a2 : √(N : ℝ) ≠ 0 := (Real.sqrt_pos.2 (by positivity)).ne'
    rw [mul_div_mul_left _ _ (div_ne_zero a1 a2)]
  unfold tTest tP
  rw [if_neg hne, List.length_ofFn, hTw]
  change (if 2 * (1 - cdf (student (N - 1)) |T w|) < maxP then Except.ok () else Except.error PyErr.assertionError) = _ ↔ max 0 (2 * cdf (student (N - 1)) |T w| - 1) ≤ 1 - maxP
  generalize (cdf (student (N - 1))) |T w| = u
  rw [max_le_iff]
  constructor
  · intro h
    split_ifs at h with h'
    exact ⟨by linarith, by linarith⟩
  · rintro ⟨_, h⟩
    rw [if_neg (by linarith)]

/-- `C109`: `anova` finds different means on levels with independent normal values of the same mean and variance with probability exactly 0.05.  There are at least two levels, no level is
empty, and some level has two values. -/
theorem C109_anova_normal {k : Nat} (hk : 2 ≤ k) (n : Fin k → Nat) (hn : ∀ g, 0 < n g) (hN : k < ∑ g, n g) (mu : ℝ) (v : NNReal) (hv : v ≠ 0) (Y : (Σ g, Fin (n g)) → Ω → ℝ)
    (h : Normal P mu v Y) :
    P.real {w | anova (fun a b t => 1 - cdf (fisher a b) t) (List.ofFn fun g => List.ofFn fun i => Y ⟨g, i⟩ w) = false} = 5 / 100 := by
  have := h.indep.isProbabilityMeasure
  have hk1 : 0 < k - 1 := by omega
  have hk2 : 0 < ∑ g, n g - k := by omega
  have := fisher_prob hk1 hk2
  have := fisher_noAtoms hk1 hk2
  have hs := h.std hv
  have ho := groupVec_orth hn
  have hS := hs.combs (groupVec n) ho
  have hu := totalVec_sq (n := n) (by omega)
  set B : Ω → ℝ := fun w => ∑ g, (StdNormal.comb (groupVec n g) (fun p w => (Y p w - mu) / √v) w -
    totalVec n g * StdNormal.comb (totalVec n) (fun g => StdNormal.comb (groupVec n g) fun p w => (Y p w - mu) / √v) w) ^ 2 with hB
  set W : Ω → ℝ := fun w => ∑ p, StdNormal.res (groupVec n) (fun p w => (Y p w - mu) / √v) p w ^ 2 with hW
  have hBm : Measurable B := Finset.measurable_fun_sum _ fun g _ => ((hS.meas g).sub ((hS.comb_meas _).const_mul _)).pow_const 2
  have hWm : Measurable W := Finset.measurable_fun_sum _ fun p _ => (hs.res_meas _ p).pow_const 2
  have hBlaw : P.map B = chiSq (k - 1) := by
    have := hS.resid_law (totalVec n) hu (by rw [Fintype.card_fin]; exact hk)
    rwa [Fintype.card_fin] at this
  have hWlaw : P.map W = chiSq (∑ g, n g - k) := by
    have := hs.res_law (groupVec n) ho (by simpa using hN)
    simpa using this
  have hind : IndepFun B W P := (hs.res_indep (groupVec n) ho).comp
    (φ := fun f : Fin k → ℝ => ∑ g, (f g - totalVec n g * ∑ a, totalVec n a * f a) ^ 2) (ψ := fun f : (Σ g, Fin (n g)) → ℝ => ∑ p, f p ^ 2) (by fun_prop) (by fun_prop)
  have hstat : (fun w => fStatistic (groupLists Y w)) = (fun p : ℝ × ℝ => (p.1 / (k - 1 : ℕ)) / (p.2 / (∑ g, n g - k : ℕ))) ∘ fun w => (B w, W w) :=
    funext fun w => fStatistic_eq hk hn hN hv Y w
  have hm : Measurable fun w => fStatistic (groupLists Y w) := by
    rw [hstat]
    exact (fisher_meas _ _).comp (hBm.prodMk hWm)
  have hlaw : P.map (fun w => fStatistic (groupLists Y w)) = fisher (k - 1) (∑ g, n g - k) := by
    rw [hstat, ← Measure.map_map (fisher_meas _ _) (hBm.prodMk hWm), (indepFun_iff_map_prod_eq_prod_map_map hBm.aemeasurable hWm.aemeasurable).1 hind, hBlaw, hWlaw]
    rfl
  refine C109_anova_level P k (∑ g, n g) (groupLists Y) (groupLists_length Y) (groupLists_total Y) _ hm (fun t => ?_) (continuous_const.sub (cdf_continuous _))
  rw [sub_sub_cancel, cdf_eq_real, ← hlaw, map_measureReal_apply hm measurableSet_Iic]
  rfl

/-- Normal samples exist for every number of samples, mean and variance. -/
theorem normal_exists (ι : Type) [Fintype ι] (mu : ℝ) (v : NNReal) : Normal (Measure.pi fun _ : ι => gaussianReal mu v) mu v (fun i w => w i) where
  meas i := measurable_pi_apply i
  indep := iIndepFun_pi (X := fun _ => id) fun _ => aemeasurable_id
  law i := by
    have := measurePreserving_eval (fun _ : ι => gaussianReal mu v) i
    exact this.map_eq

example : (Measure.pi fun _ : Fin 5 => gaussianReal 3 2).real {w | chi2Test (fun k t => cdf (chiSq k) t) 2 (List.ofFn fun i => w i) 0.01 = .error .assertionError} = 0.01 :=
  C109_chi2_normal (by norm_num) 3 2 (by norm_num) _ (normal_exists (Fin 5) 3 2) 0.01 (by norm_num) (by norm_num)

example : (Measure.pi fun _ : Fin 5 => gaussianReal 3 2).real {w | tTest (fun k t => 1 - cdf (student k) t) 3 (List.ofFn fun i => w i) 0.01 = .error .assertionError} = 1 - 0.01 :=
  C109_counterexample_t_normal (by norm_num) 3 2 (by norm_num) _ (normal_exists (Fin 5) 3 2) 0.01 (by norm_num) (by norm_num)

theorem anova_example {k : Nat} (hk : 2 ≤ k) (n : Fin k → Nat) (h1 : ∀ g, 0 < n g) (h2 : k < ∑ g, n g) (mu : ℝ) (v : NNReal) (hv : v ≠ 0) :
    (Measure.pi fun _ : Σ g, Fin (n g) => gaussianReal mu v).real
      {w | anova (fun a b t => 1 - cdf (fisher a b) t) (List.ofFn fun g => List.ofFn fun i => w ⟨g, i⟩) = false} = 5 / 100 := by
  have h := normal_exists (Σ g, Fin (n g)) mu v
  have q := C109_anova_normal (P := Measure.pi fun _ : Σ g, Fin (n g) => gaussianReal mu v) hk n h1 h2 mu v hv (fun p w => w p) h
  exact q

example := anova_example (by decide) ![2, 1, 4] (by decide) (by decide) 3 2 (by norm_num)

end MLMC.Stat
