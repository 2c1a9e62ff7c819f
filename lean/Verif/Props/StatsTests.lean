import Verif.Proofs.StatsTests
import Mathlib.MeasureTheory.Measure.Lebesgue.Basic
import Mathlib.Tactic.FieldSimp
import Mathlib.Tactic.Ring
/-! # C109: statistical tests -/
namespace MLMC.Stat
open MeasureTheory ProbabilityTheory

theorem var_mul (xs : List ℝ) (h : xs ≠ []) : var xs * xs.length = (xs.map fun x => (x - mean xs) ^ 2).sum := by
  have : (xs.length : ℝ) ≠ 0 := by simpa using h
  rw [var, div_mul_cancel₀ _ this]

variable {Ω : Type} [MeasurableSpace Ω] (P : Measure Ω) [IsProbabilityMeasure P]

/-- `C109`: `chi2_test` fails samples with the variance `var_0` with probability exactly `max_p_val`: if the sum of squared deviations from the mean of the samples over
`var_0` has the distribution function that `scipy` gives for `N - 1` degrees of freedom, and this function is continuous, then `AssertionError` is raised with
probability `max_p_val`. -/
theorem C109_chi2_level (N : Nat) (hN : 2 ≤ N) (X : Ω → List ℝ) (hX : ∀ w, (X w).length = N) (var0 : ℝ) (cdf : Nat → ℝ → ℝ)
    (hm : Measurable fun w => ((X w).map fun x => (x - mean (X w)) ^ 2).sum / var0)
    (hF : ∀ t, P.real {w | ((X w).map fun x => (x - mean (X w)) ^ 2).sum / var0 ≤ t} = cdf (N - 1) t) (hc : Continuous (cdf (N - 1)))
    (maxP : ℝ) (h0 : 0 < maxP) (h1 : maxP < 1) :
    P.real {w | chi2Test cdf var0 (X w) maxP = .error .assertionError} = maxP := by
  set T : Ω → ℝ := fun w => ((X w).map fun x => (x - mean (X w)) ^ 2).sum / var0 with hT
  have hset : {w | chi2Test cdf var0 (X w) maxP = .error .assertionError} =
      {w | cdf (N - 1) (T w) ≤ maxP / 2} ∪ {w | cdf (N - 1) (T w) < 1 - maxP / 2}ᶜ := by
    ext w
    have hne : X w ≠ [] := by
      intro h
      have := hX w
      rw [h] at this
      simp at this
      omega
    have hP : chi2P cdf var0 (X w) = 2 * min (cdf (N - 1) (T w)) (1 - cdf (N - 1) (T w)) := by
      unfold chi2P
      rw [var_mul _ hne, hX]
    simp only [Set.mem_setOf_eq, Set.mem_union, Set.mem_compl_iff, chi2Test, hP]
    generalize cdf (N - 1) (T w) = u
    constructor
    · intro h
      split_ifs at h with h'
      rw [gt_iff_lt, not_lt] at h'
      rcases min_choice u (1 - u) with hm | hm <;> rw [hm] at h'
      · left; linarith
      · right; linarith
    · intro h
      rw [if_neg]
      rw [gt_iff_lt, not_lt]
      rcases h with h | h
      · linarith [min_le_left u (1 - u)]
      · linarith [min_le_right u (1 - u)]
  have hmeas : Measurable fun w => cdf (N - 1) (T w) := hc.measurable.comp hm
  have hB : MeasurableSet {w | cdf (N - 1) (T w) < 1 - maxP / 2}ᶜ := (measurableSet_lt hmeas measurable_const).compl
  have hd : Disjoint {w | cdf (N - 1) (T w) ≤ maxP / 2} {w | cdf (N - 1) (T w) < 1 - maxP / 2}ᶜ := by
    rw [Set.disjoint_left]
    intro w hw hw'
    simp only [Set.mem_setOf_eq, Set.mem_compl_iff, not_lt] at hw hw'
    linarith
  rw [hset, measureReal_union hd hB, pit P T hm _ hF hc (by linarith) (by linarith),
    probReal_compl_eq_one_sub (measurableSet_lt hmeas measurable_const), pit_lt P T hm _ hF hc (by linarith) (by linarith)]
  ring

/-- `C109` for `anova`: if the statistic of the levels' moments has the distribution of which `scipy` gives the survival function, and this function is continuous, then `anova` finds
different means with probability exactly 0.05. -/
theorem C109_anova_level (k n : Nat) (X : Ω → List (List ℝ)) (hk : ∀ w, (X w).length = k) (hn : ∀ w, (X w).flatten.length = n) (sf : Nat → Nat → ℝ → ℝ)
    (hm : Measurable fun w => fStatistic (X w)) (hF : ∀ t, P.real {w | fStatistic (X w) ≤ t} = 1 - sf (k - 1) (n - k) t) (hc : Continuous (sf (k - 1) (n - k))) :
    P.real {w | anova sf (X w) = false} = 5 / 100 := by
  have hset : {w | anova sf (X w) = false} = {w | 1 - sf (k - 1) (n - k) (fStatistic (X w)) < 95 / 100}ᶜ := by
    ext w
    simp only [Set.mem_setOf_eq, Set.mem_compl_iff, anova, hk, hn]
    generalize sf (k - 1) (n - k) (fStatistic (X w)) = u
    constructor
    · intro h
      split_ifs at h with h'
      rw [gt_iff_lt, not_lt] at h'
      linarith
    · intro h
      rw [if_neg]
      linarith
  have hc' : Continuous fun t => 1 - sf (k - 1) (n - k) t := continuous_const.sub hc
  have hmeas : Measurable fun w => 1 - sf (k - 1) (n - k) (fStatistic (X w)) := hc'.measurable.comp hm
  rw [hset, probReal_compl_eq_one_sub (measurableSet_lt hmeas measurable_const),
    pit_lt P (fun w => fStatistic (X w)) hm _ hF hc' (by norm_num) (by norm_num)]
  norm_num

/-- A uniform number on the unit interval. -/
noncomputable def unif : Measure ℝ := volume.restrict (Set.Icc 0 1)

instance : IsProbabilityMeasure unif := ⟨by simp [unif]⟩

theorem unif_le (t : ℝ) : unif.real {w | w ≤ t} = max 0 (min t 1) := by
  have h : {w : ℝ | w ≤ t} ∩ Set.Icc 0 1 = Set.Icc 0 (min t 1) := by
    ext w; simp only [Set.mem_inter_iff, Set.mem_setOf_eq, Set.mem_Icc, le_min_iff]; tauto
  have hm : MeasurableSet {w : ℝ | w ≤ t} := measurableSet_Iic
  rw [unif, measureReal_restrict_apply hm, h, Real.volume_real_Icc, sub_zero, max_comm]

theorem unif_lt {t : ℝ} (h0 : 0 ≤ t) (h1 : t ≤ 1) : unif.real {w | w < t} = t := by
  have h : {w : ℝ | w < t} ∩ Set.Icc 0 1 = Set.Ico 0 t := by
    ext w; simp only [Set.mem_inter_iff, Set.mem_setOf_eq, Set.mem_Icc, Set.mem_Ico]
    constructor
    · rintro ⟨a, b, c⟩; exact ⟨b, a⟩
    · rintro ⟨a, b⟩; exact ⟨b, a, by linarith⟩
  have hm : MeasurableSet {w : ℝ | w < t} := measurableSet_Iio
  rw [unif, measureReal_restrict_apply hm, h, Real.volume_real_Ico, sub_zero, max_eq_left h0]

/-- The hypotheses of C109_chi2_level are met: two samples whose statistic is uniform on the unit interval. -/
example : ∃ (X : ℝ → List ℝ) (cdf : Nat → ℝ → ℝ), (∀ w, (X w).length = 2) ∧
    (Measurable fun w => ((X w).map fun x => (x - mean (X w)) ^ 2).sum / 1) ∧
    (∀ t, unif.real {w | ((X w).map fun x => (x - mean (X w)) ^ 2).sum / 1 ≤ t} = cdf 1 t) ∧ Continuous (cdf 1) := by
  have hval : ∀ w : ℝ, (([0, Real.sqrt (2 * |w|)]).map fun x => (x - mean [0, Real.sqrt (2 * |w|)]) ^ 2).sum / 1 = |w| := by
    intro w
    have h := Real.mul_self_sqrt (show (0 : ℝ) ≤ 2 * |w| from mul_nonneg (by norm_num) (abs_nonneg w))
    generalize Real.sqrt (2 * |w|) = r at h
    simp [mean]
    nlinarith
  refine ⟨fun w => [0, Real.sqrt (2 * |w|)], fun _ t => max 0 (min t 1), fun _ => rfl, ?_, ?_, by fun_prop⟩
  · simp only [hval]
    exact measurable_norm
  · intro t
    simp only [hval]
    rw [← unif_le]
    refine measureReal_congr ?_
    rw [unif]
    filter_upwards [ae_restrict_mem measurableSet_Icc] with w hw
    have : |w| = w := abs_of_nonneg hw.1
    exact propext (by change |w| ≤ t ↔ w ≤ t; rw [this])

/-- The hypotheses of C109_anova_level are met: two levels with two values each whose statistic is uniform on the unit interval. -/
example : ∃ (X : ℝ → List (List ℝ)) (sf : Nat → Nat → ℝ → ℝ), (∀ w, (X w).length = 2) ∧ (∀ w, (X w).flatten.length = 4) ∧ (Measurable fun w => fStatistic (X w)) ∧
    (∀ t, unif.real {w | fStatistic (X w) ≤ t} = 1 - sf 1 2 t) ∧ Continuous (sf 1 2) := by
  have hval : ∀ w : ℝ, fStatistic [[Real.sqrt (|w| / 2) - 1, Real.sqrt (|w| / 2) + 1], [-Real.sqrt (|w| / 2) - 1, -Real.sqrt (|w| / 2) + 1]] = |w| := by
    intro w
    have h := Real.mul_self_sqrt (show (0 : ℝ) ≤ |w| / 2 from div_nonneg (abs_nonneg w) (by norm_num))
    generalize Real.sqrt (|w| / 2) = r at h
    have h1 : mean [r - 1, r + 1] = r := by simp [mean]
    have h2 : mean [-r - 1, -r + 1] = -r := by simp [mean]
    have h3 : mean [r - 1, r + 1, -r - 1, -r + 1] = 0 := by simp [mean]; try ring_nf
    simp only [fStatistic, List.map_cons, List.map_nil, h1, h2, List.flatten_cons, List.flatten_nil, List.append_nil, List.cons_append, List.nil_append, h3]
    simp
    have e : (-r - 1 + r) ^ 2 = 1 := by ring
    rw [e]
    norm_num
    nlinarith
  refine ⟨fun w => [[Real.sqrt (|w| / 2) - 1, Real.sqrt (|w| / 2) + 1], [-Real.sqrt (|w| / 2) - 1, -Real.sqrt (|w| / 2) + 1]], fun _ _ t => 1 - max 0 (min t 1),
    fun _ => rfl, fun _ => rfl, ?_, ?_, by fun_prop⟩
  · simp only [hval]
    exact measurable_norm
  · intro t
    simp only [hval]
    rw [sub_sub_cancel, ← unif_le]
    refine measureReal_congr ?_
    rw [unif]
    filter_upwards [ae_restrict_mem measurableSet_Icc] with w hw
    have : |w| = w := abs_of_nonneg hw.1
    exact propext (by change |w| ≤ t ↔ w ≤ t; rw [this])

/-- `C109`: `anova` never finds different means on levels that all have exactly the same mean. -/
theorem C109_anova_same_means (groups : List (List ℝ)) (mu : ℝ) (hg : ∀ g ∈ groups, g ≠ [] ∧ mean g = mu) (sf : Nat → Nat → ℝ → ℝ) (h0 : ∀ a b, sf a b 0 = 1) :
    anova sf groups = true := by
  have hs : ∀ g ∈ groups, g.sum = mu * g.length := by
    intro g hm
    obtain ⟨hne, he⟩ := hg g hm
    have : (g.length : ℝ) ≠ 0 := by simpa using hne
    rw [mean, div_eq_iff this] at he
    exact he
  have hz : (groups.map fun g => (g.length : ℝ) * (mean g - mean groups.flatten) ^ 2).sum = 0 := by
    rcases groups with _ | ⟨g0, gs⟩
    · simp
    · have hfl : mean (g0 :: gs).flatten = mu := by
        have h1 : ∀ l : List (List ℝ), (∀ g ∈ l, g.sum = mu * g.length) → l.flatten.sum = mu * l.flatten.length := by
          intro l
          induction l with
          | nil => intro _; simp
          | cons a l ih =>
            intro h
            rw [List.flatten_cons, List.sum_append, List.length_append, h a List.mem_cons_self, ih fun g hm => h g (List.mem_cons_of_mem _ hm)]
            push_cast
            ring
        have hl : ((g0 :: gs).flatten.length : ℝ) ≠ 0 := by
          have := (hg g0 List.mem_cons_self).1
          rw [List.flatten_cons]
          exact Nat.cast_ne_zero.2 (by simp [this])
        rw [mean, h1 _ hs, mul_div_assoc, div_self hl, mul_one]
      refine List.sum_eq_zero fun x hx => ?_
      obtain ⟨g, hm, rfl⟩ := List.mem_map.1 hx
      rw [(hg g hm).2, hfl, sub_self]
      simp
  rw [anova, fStatistic, hz, zero_div, zero_div, h0, if_pos (by norm_num)]

example : anova (fun _ _ t => 1 / (1 + t)) [[1, 3], [2, 2], [0, 4, 2]] = true :=
  C109_anova_same_means _ 2 (by intro g hg; fin_cases hg <;> simp [mean] <;> norm_num) _ (by simp)

/-- `C109`, `t_test`: it should fail correct samples with probability `max_p_val`; it does so with the complementary probability.  If the p-value of correct samples is uniform (as p-values are), `AssertionError` is raised with probability `1 - max_p_val`. -/
theorem C109_counterexample_t_level (X : Ω → List ℝ) (mu0 : ℝ) (sf : Nat → ℝ → ℝ) (p : Ω → ℝ) (hpm : Measurable p)
    (hp : ∀ w, tP sf mu0 (X w) = some (p w)) (maxP : ℝ) (hu : P.real {w | p w < maxP} = maxP) :
    P.real {w | tTest sf mu0 (X w) maxP = .error .assertionError} = 1 - maxP := by
  have : {w | tTest sf mu0 (X w) maxP = .error .assertionError} = {w | p w < maxP}ᶜ := by
    ext w
    simp only [Set.mem_setOf_eq, Set.mem_compl_iff, tTest, hp]
    split_ifs with h <;> simp [h]
  rw [this, probReal_compl_eq_one_sub (measurableSet_lt hpm measurable_const), hu]

/-- The hypotheses of C109_counterexample_t_level are met: samples `w - 1` and `w + 1` with `w` uniform on the unit interval. -/
example : ∃ (X : ℝ → List ℝ) (sf : Nat → ℝ → ℝ) (p : ℝ → ℝ), Measurable p ∧ (∀ w, tP sf 0 (X w) = some (p w)) ∧
    ∀ a, 0 ≤ a → a ≤ 1 → unif.real {w | p w < a} = a := by
  refine ⟨fun w => [w - 1, w + 1], fun _ t => t / 2, fun w => |w|, measurable_norm, fun w => ?_, fun a h0 h1 => ?_⟩
  · have hm : mean [w - 1, w + 1] = w := by simp [mean]
    have hv : var [w - 1, w + 1] = 1 := by simp [var, hm]
    simp only [tP, hm, hv]
    norm_num
    ring
  · conv_rhs => rw [← unif_lt h0 h1]
    refine measureReal_congr ?_
    rw [unif]
    filter_upwards [ae_restrict_mem measurableSet_Icc] with w hw
    have : |w| = w := abs_of_nonneg hw.1
    exact propext (by change |w| < a ↔ w < a; rw [this])

/-- `C109`: `t_test` raises for all samples whose mean is exactly the expected one, whatever the level. -/
theorem C109_counterexample_t_exact (xs : List ℝ) (sf : Nat → ℝ → ℝ) (hsf : ∀ df, sf df 0 = 1 / 2) (maxP : ℝ) (h1 : maxP ≤ 1) :
    tTest sf (mean xs) xs maxP = .error .assertionError := by
  unfold tTest tP
  by_cases h : var xs = 0
  · simp [h]
  · simp only [h, if_false, sub_self, zero_div, abs_zero, hsf]
    rw [if_neg]
    rw [not_lt]; linarith

end MLMC.Stat
