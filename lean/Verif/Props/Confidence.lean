import Verif.Proofs.CentralLimit
import Verif.Props.Consistency
/-! # C125 The reported variance gives confidence intervals -/
namespace MLMC
open MeasureTheory ProbabilityTheory Filter Topology

variable {Ω : Type} [MeasurableSpace Ω] {P : Measure Ω} {L : Nat} {D : Nat → Nat → Ω → ℝ} {mu var : Nat → ℝ}

/-! ## Helpers -/

/-- The reported variance of the mean. -/
noncomputable def repVar (L : Nat) (D : Nat → Nat → Ω → ℝ) (n : Nat → Nat) (ω : Ω) : ℝ :=
  ∑ l ∈ Finset.range L, sampleVar ((List.range (n l)).map fun k => D l k ω) / (n l : ℝ)

theorem sampleVar_aemeasurable {X : Nat → Ω → ℝ} (hX : ∀ k, AEMeasurable (X k) P) (n : Nat) :
    AEMeasurable (fun ω => sampleVar ((List.range n).map fun k => X k ω)) P := by
  have e : (fun ω => sampleVar ((List.range n).map fun k => X k ω)) =
      fun ω => (∑ k ∈ Finset.range n, (X k ω - (∑ j ∈ Finset.range n, X j ω) / n) ^ 2) / ((n : ℝ) - 1) := by
    funext ω
    unfold sampleVar average
    rw [List.map_map, listRange_sum, listRange_sum]
    simp
  rw [e]
  have : AEMeasurable (fun ω => ∑ j ∈ Finset.range n, X j ω) P := Finset.aemeasurable_fun_sum _ fun k _ => hX k
  exact (Finset.aemeasurable_fun_sum _ fun k _ => ((hX k).sub (this.div_const _)).pow_const 2).div_const _

theorem repVar_aemeasurable (h : LevelDraws P L D mu var) (n : Nat → Nat) : AEMeasurable (repVar L D n) P := by
  unfold repVar
  refine Finset.aemeasurable_fun_sum _ fun l hl => ?_
  exact (sampleVar_aemeasurable (fun k => (h.ident l (Finset.mem_range.1 hl) k).aemeasurable_fst) _).div_const _

theorem mlmcSum_aemeasurable (h : LevelDraws P L D mu var) (n : Nat → Nat) : AEMeasurable (mlmcSum L D n) P := by
  unfold mlmcSum
  refine Finset.aemeasurable_fun_sum _ fun l hl => ?_
  exact (Finset.aemeasurable_fun_sum _ fun k _ => (h.ident l (Finset.mem_range.1 hl) k).aemeasurable_fst).div_const _

theorem mlmcVar_bounds (hv : ∀ l < L, 0 ≤ var l) {l₀ : Nat} (hl₀ : l₀ < L) (hv₀ : 0 < var l₀) {n : Nat → Nat} (hn : ∀ l < L, 1 ≤ n l) :
    0 < mlmcVar L var n ∧ ∀ l < L, var l ≤ n l * mlmcVar L var n := by
  have hb : ∀ l < L, var l / n l ≤ mlmcVar L var n := fun l hl =>
    Finset.single_le_sum (f := fun l => var l / (n l : ℝ)) (fun j hj => div_nonneg (hv j (Finset.mem_range.1 hj)) (Nat.cast_nonneg _)) (Finset.mem_range.2 hl)
  have hp : ∀ l < L, (0 : ℝ) < n l := fun l hl => by have := hn l hl; exact_mod_cast this
  refine ⟨(div_pos hv₀ (hp l₀ hl₀)).trans_le (hb l₀ hl₀), fun l hl => ?_⟩
  have := hb l hl
  rw [div_le_iff₀ (hp l hl)] at this
  linarith

/-- The reported variance is close to the variance of the mean. -/
theorem repVar_ratio [IsProbabilityMeasure P] (h : LevelDraws P L D mu var) {l₀ : Nat} (hl₀ : l₀ < L) (hv₀ : 0 < var l₀) {n : ℕ → Nat → Nat}
    (hn : ∀ l < L, Tendsto (fun r => n r l) atTop atTop) :
    ∀ᵐ ω ∂P, Tendsto (fun r => repVar L D (n r) ω / mlmcVar L var (n r)) atTop (𝓝 1) := by
  have hv : ∀ l < L, 0 ≤ var l := fun l hl => by rw [← h.variance l hl]; exact variance_nonneg _ _
  have hbig : ∀ᶠ r in atTop, ∀ l ∈ Finset.range L, 1 ≤ n r l := by
    rw [Finset.eventually_all]
    intro l hl
    exact (hn l (Finset.mem_range.1 hl)).eventually_ge_atTop 1
  have hlim : ∀ᵐ ω ∂P, ∀ l < L, Tendsto (fun n : ℕ => sampleVar ((List.range n).map fun k => D l k ω)) atTop (𝓝 (var l)) := by
    rw [ae_all_iff]; intro l
    by_cases hl : l < L
    · filter_upwards [level_limits h hl] with ω w _ using w.2
    · filter_upwards with ω h; exact absurd h hl
  have hconst : ∀ᵐ ω ∂P, ∀ l < L, var l = 0 → ∀ k, D l k ω = mu l := by
    rw [ae_all_iff]; intro l
    by_cases hl : l < L ∧ var l = 0
    · have : ∀ᵐ ω ∂P, ∀ k, D l k ω = mu l := by
        rw [ae_all_iff]; intro k
        have h2 := ae_eq_integral_of_variance_eq_zero (h.memLp hl.1 k) (by rw [(h.ident l hl.1 k).variance_eq, h.variance l hl.1, hl.2])
        filter_upwards [h2] with ω hω
        rw [hω, (h.ident l hl.1 k).integral_eq, h.mean l hl.1]
      filter_upwards [this] with ω hω _ _ using hω
    · filter_upwards with ω h1 h2; exact absurd ⟨h1, h2⟩ hl
  filter_upwards [hlim, hconst] with ω h1 h2
  -- the difference is at most the sum of the relative errors of the levels
  have hterm : ∀ l ∈ Finset.range L, Tendsto (fun r => (sampleVar ((List.range (n r l)).map fun k => D l k ω) - var l) / (n r l * mlmcVar L var (n r)))
      atTop (𝓝 0) := by
    intro l hl
    have hl := Finset.mem_range.1 hl
    rcases (hv l hl).eq_or_lt with hz | hp
    · have : ∀ m : Nat, sampleVar ((List.range m).map fun k => D l k ω) = 0 := by
        intro m
        have hD : ((List.range m).map fun k => D l k ω) = (List.range m).map fun _ => mu l :=
          List.map_congr_left fun k _ => h2 l hl hz.symm k
        rw [hD]
        unfold sampleVar average
        rcases Nat.eq_zero_or_pos m with rfl | hm
        · simp
        · have hm0 : (m : ℝ) ≠ 0 := by positivity
          simp [hm0]
      simp [this, ← hz]
    · rw [tendsto_zero_iff_abs_tendsto_zero]
      have hup : Tendsto (fun r => |sampleVar ((List.range (n r l)).map fun k => D l k ω) - var l| / var l) atTop (𝓝 0) := by
        have := ((((h1 l hl).comp (hn l hl)).sub_const (var l)).abs).div_const (var l)
        simpa using this
      refine tendsto_of_tendsto_of_tendsto_of_le_of_le' tendsto_const_nhds hup (.of_forall fun r => abs_nonneg _) ?_
      filter_upwards [hbig] with r hr
      obtain ⟨b1, b2⟩ := mlmcVar_bounds hv hl₀ hv₀ fun l hl => hr l (Finset.mem_range.2 hl)
      have b3 := b2 l hl
      simp only [Function.comp, abs_div]
      rw [abs_of_pos (hp.trans_le b3)]
      exact div_le_div_of_nonneg_left (abs_nonneg _) hp b3
  have hsum := tendsto_finsetSum _ hterm
  rw [Finset.sum_const_zero] at hsum
  have := hsum.add_const 1
  rw [zero_add] at this
  refine this.congr' ?_
  filter_upwards [hbig] with r hr
  obtain ⟨b1, _⟩ := mlmcVar_bounds hv hl₀ hv₀ fun l hl => hr l (Finset.mem_range.2 hl)
  have e : ∑ l ∈ Finset.range L, (sampleVar ((List.range (n r l)).map fun k => D l k ω) - var l) / (n r l * mlmcVar L var (n r)) =
      (repVar L D (n r) ω - mlmcVar L var (n r)) / mlmcVar L var (n r) := by
    rw [repVar]
    conv_rhs => rw [mlmcVar.eq_1 L var (n r), ← Finset.sum_sub_distrib]
    rw [Finset.sum_div]
    refine Finset.sum_congr rfl fun l hl => ?_
    have hp : (0 : ℝ) < n r l := by have := hr l hl; exact_mod_cast this
    have : ∑ l ∈ Finset.range L, var l / (n r l : ℝ) = mlmcVar L var (n r) := rfl
    rw [this]
    field_simp
  rw [e]
  field_simp
  ring

/-- The standardized error converges in distribution. -/
theorem standardized_tendsto [IsProbabilityMeasure P] (h : LevelDraws P L D mu var) {l₀ : Nat} (hl₀ : l₀ < L) (hv₀ : 0 < var l₀) {n : ℕ → Nat → Nat}
    (hn : ∀ l < L, Tendsto (fun r => n r l) atTop atTop) :
    TendstoInDistribution (fun r ω => (Real.sqrt (mlmcVar L var (n r)))⁻¹ * (mlmcSum L D (n r) ω - ∑ l ∈ Finset.range L, mu l)) atTop
      (id : ℝ → ℝ) (fun _ => P) (gaussianReal 0 1) where
  forall_aemeasurable r := ((mlmcSum_aemeasurable h (n r)).sub_const _).const_mul _
  tendsto := by
    refine ProbabilityMeasure.tendsto_iff_tendsto_charFun.2 fun t => ?_
    have := charFun_standardized h hl₀ hv₀ hn t
    simpa using this

theorem studentized_tendsto [IsProbabilityMeasure P] (h : LevelDraws P L D mu var) {l₀ : Nat} (hl₀ : l₀ < L) (hv₀ : 0 < var l₀) {n : ℕ → Nat → Nat}
    (hn : ∀ l < L, Tendsto (fun r => n r l) atTop atTop) (hn1 : ∀ r, ∀ l < L, 1 ≤ n r l) :
    TendstoInDistribution (fun r ω => (mlmcSum L D (n r) ω - ∑ l ∈ Finset.range L, mu l) / Real.sqrt (repVar L D (n r) ω)) atTop
      (id : ℝ → ℝ) (fun _ => P) (gaussianReal 0 1) ∧ Tendsto (fun r => P {ω | Real.sqrt (repVar L D (n r) ω) = 0}) atTop (𝓝 0) := by
  have hv : ∀ l < L, 0 ≤ var l := fun l hl => by rw [← h.variance l hl]; exact variance_nonneg _ _
  have hpos : ∀ r, 0 < mlmcVar L var (n r) := fun r => (mlmcVar_bounds hv hl₀ hv₀ (hn1 r)).1
  let R : ℕ → Ω → ℝ := fun r ω => Real.sqrt (mlmcVar L var (n r)) / Real.sqrt (repVar L D (n r) ω)
  have hRm : ∀ r, AEMeasurable (R r) P := fun r => (repVar_aemeasurable h (n r)).sqrt.const_div _
  have hRlim : ∀ᵐ ω ∂P, Tendsto (fun r => R r ω) atTop (𝓝 1) := by
    filter_upwards [repVar_ratio h hl₀ hv₀ hn] with ω hω
    have h1 := (Real.continuous_sqrt.tendsto 1).comp hω
    rw [Real.sqrt_one] at h1
    have h2 := h1.inv₀ (by norm_num)
    rw [inv_one] at h2
    refine h2.congr fun r => ?_
    simp only [Function.comp, R]
    rw [Real.sqrt_div' _ (hpos r).le, inv_div]
  have hRmeas : TendstoInMeasure P R atTop fun _ => 1 := tendstoInMeasure_of_tendsto_ae (fun r => (hRm r).aestronglyMeasurable) hRlim
  constructor
  · have hS := (standardized_tendsto h hl₀ hv₀ hn).continuous_comp_prodMk_of_tendstoInMeasure_const
      (g := fun x : ℝ × ℝ => x.1 * x.2) (by fun_prop) hRmeas hRm
    refine hS.congr (fun r => .of_forall fun ω => ?_) (.of_forall fun x => ?_)
    · simp only [R]
      have : Real.sqrt (mlmcVar L var (n r)) ≠ 0 := (Real.sqrt_pos.2 (hpos r)).ne'
      field_simp
    · simp
  · have h1 := hRmeas 1 (by norm_num)
    refine tendsto_of_tendsto_of_tendsto_of_le_of_le tendsto_const_nhds h1 (fun _ => zero_le) fun r => measure_mono fun ω hω => ?_
    simp only [Set.mem_setOf_eq] at hω ⊢
    simp only [R, hω, div_zero]
    simp [edist_dist]

/-- `C125`: sample numbers that do not depend on the samples grow on every level, at whatever rates, and at least one level has a positive variance.  Then the probability that the error of the
reported mean lies between `a` and `b` times the square root of the reported variance converges to the probability that the standard normal distribution gives to the interval from `a` to `b`. -/
theorem C125_error_normal [IsProbabilityMeasure P] (sid W L : Nat) (q : Quantity (Option ℝ)) (hq : Built sid .qty q) (hid : IdsIdentify q) (i : Nat) (hi : i < q.size)
    (D : Nat → Nat → Ω → ℝ) (mu var : Nat → ℝ) (hd : LevelDraws P L D mu var) (hvar : ∃ l < L, 0 < var l) (n : ℕ → Nat → Nat)
    (hn : ∀ l < L, Tendsto (fun r => n r l) atTop atTop) (hn2 : ∀ r, ∀ l < L, 2 ≤ n r l) (e : ℕ → Ω → QuantityMean ℝ)
    (he : ∀ r ω, EstimateOf q sid W L i (n r) (fun l k => D l k ω) (e r ω)) :
    ∃ m v : ℕ → Ω → ℝ, (∀ r ω, (e r ω).mean.getD i none = some (m r ω) ∧ (e r ω).var.getD i none = some (v r ω)) ∧
      ∀ a b : ℝ, Tendsto (fun r => P {ω | a * Real.sqrt (v r ω) ≤ m r ω - ∑ l ∈ Finset.range L, mu l ∧ m r ω - ∑ l ∈ Finset.range L, mu l ≤ b * Real.sqrt (v r ω)})
        atTop (𝓝 (gaussianReal 0 1 (Set.Icc a b))) := by
  obtain ⟨l₀, hl₀, hv₀⟩ := hvar
  refine ⟨fun r => mlmcSum L D (n r), fun r => repVar L D (n r), fun r ω => ?_, fun a b => ?_⟩
  · obtain ⟨h1, h2, _⟩ := estimateOf_values hq hid hi (hn2 r) (he r ω)
    refine ⟨?_, h2⟩
    rw [h1]
    simp only [average_range]
    rfl
  obtain ⟨hd1, hd2⟩ := studentized_tendsto hd hl₀ hv₀ hn fun r l hl => le_trans (by norm_num) (hn2 r l hl)
  have hB := ProbabilityMeasure.tendsto_measure_of_null_frontier_of_tendsto' hd1.tendsto (E := Set.Icc a b) (by
    simp only [ProbabilityMeasure.coe_mk, Measure.map_id]
    have : NullSingletonClass (gaussianReal 0 1) := nullSingletonClass_gaussianReal (by norm_num)
    refine measure_mono_null (t := {a, b}) ?_ (Set.Finite.measure_zero (by simp) _)
    rcases le_or_gt a b with hab | hab
    · rw [frontier_Icc hab]
    · rw [Set.Icc_eq_empty hab.not_ge]; simp)
  simp only [ProbabilityMeasure.coe_mk, Measure.map_id] at hB
  have hB' : Tendsto (fun r => P {ω | (mlmcSum L D (n r) ω - ∑ l ∈ Finset.range L, mu l) / Real.sqrt (repVar L D (n r) ω) ∈ Set.Icc a b}) atTop
      (𝓝 (gaussianReal 0 1 (Set.Icc a b))) := by
    refine hB.congr fun r => ?_
    rw [Measure.map_apply_of_aemeasurable (hd1.forall_aemeasurable r) measurableSet_Icc]
    rfl
  have hsame : ∀ (r : ℕ) (ω : Ω), Real.sqrt (repVar L D (n r) ω) ≠ 0 →
      ((a * Real.sqrt (repVar L D (n r) ω) ≤ mlmcSum L D (n r) ω - ∑ l ∈ Finset.range L, mu l ∧
        mlmcSum L D (n r) ω - ∑ l ∈ Finset.range L, mu l ≤ b * Real.sqrt (repVar L D (n r) ω)) ↔
      (mlmcSum L D (n r) ω - ∑ l ∈ Finset.range L, mu l) / Real.sqrt (repVar L D (n r) ω) ∈ Set.Icc a b) := by
    intro r ω hne
    have hp : 0 < Real.sqrt (repVar L D (n r) ω) := lt_of_le_of_ne (Real.sqrt_nonneg _) hne.symm
    rw [Set.mem_Icc, le_div_iff₀ hp, div_le_iff₀ hp]
  refine tendsto_of_tendsto_of_tendsto_of_le_of_le
    (g := fun r => P {ω | (mlmcSum L D (n r) ω - ∑ l ∈ Finset.range L, mu l) / Real.sqrt (repVar L D (n r) ω) ∈ Set.Icc a b} - P {ω | Real.sqrt (repVar L D (n r) ω) = 0})
    (h := fun r => P {ω | (mlmcSum L D (n r) ω - ∑ l ∈ Finset.range L, mu l) / Real.sqrt (repVar L D (n r) ω) ∈ Set.Icc a b} + P {ω | Real.sqrt (repVar L D (n r) ω) = 0})
    ?_ ?_ ?_ ?_
  · have := ENNReal.Tendsto.sub hB' hd2 (Or.inl (measure_ne_top _ _))
    simpa using this
  · simpa using hB'.add hd2
  · intro r
    refine tsub_le_iff_right.2 ((measure_mono fun ω hω => ?_).trans (measure_union_le _ _))
    by_cases hz : Real.sqrt (repVar L D (n r) ω) = 0
    · exact Or.inr hz
    · exact Or.inl ((hsame r ω hz).2 hω)
  · intro r
    refine (measure_mono fun ω hω => ?_).trans (measure_union_le _ _)
    by_cases hz : Real.sqrt (repVar L D (n r) ω) = 0
    · exact Or.inr hz
    · exact Or.inl ((hsame r ω hz).1 hω)

/-- `C125`: the interval around the reported mean with half width `z` times the square root of the reported variance contains the expectation of the finest level with a probability that
converges to the one of the standard normal distribution, if the coarse values of every level have the expectation of the fine values of the level below. -/
theorem C125_confidence_interval [IsProbabilityMeasure P] (sid W L : Nat) (q : Quantity (Option ℝ)) (hq : Built sid .qty q) (hid : IdsIdentify q) (i : Nat) (hi : i < q.size)
    (fine coarse : Nat → Nat → Ω → ℝ) (a mu var : Nat → ℝ)
    (hfine : ∀ l < L + 1, Integrable (fine l 0) P ∧ ∫ ω, fine l 0 ω ∂P = a l)
    (hcoarse : ∀ l < L, Integrable (coarse (l + 1) 0) P ∧ ∫ ω, coarse (l + 1) 0 ω ∂P = a l)
    (hd : LevelDraws P (L + 1) (fun l k ω => if l = 0 then fine l k ω else fine l k ω - coarse l k ω) mu var) (hvar : ∃ l < L + 1, 0 < var l) (n : ℕ → Nat → Nat)
    (hn : ∀ l < L + 1, Tendsto (fun r => n r l) atTop atTop) (hn2 : ∀ r, ∀ l < L + 1, 2 ≤ n r l) (e : ℕ → Ω → QuantityMean ℝ)
    (he : ∀ r ω, EstimateOf q sid W (L + 1) i (n r) (fun l k => if l = 0 then fine l k ω else fine l k ω - coarse l k ω) (e r ω)) :
    ∃ m v : ℕ → Ω → ℝ, (∀ r ω, (e r ω).mean.getD i none = some (m r ω) ∧ (e r ω).var.getD i none = some (v r ω)) ∧
      ∀ z : ℝ, Tendsto (fun r => P {ω | |m r ω - a L| ≤ z * Real.sqrt (v r ω)}) atTop (𝓝 (gaussianReal 0 1 (Set.Icc (-z) z))) := by
  have hsum : ∑ l ∈ Finset.range (L + 1), mu l = a L := levelSum_finest hfine hcoarse hd
  obtain ⟨m, v, h1, h2⟩ := C125_error_normal sid W (L + 1) q hq hid i hi _ mu var hd hvar n hn hn2 e he
  refine ⟨m, v, h1, fun z => ?_⟩
  have := h2 (-z) z
  rw [hsum] at this
  refine this.congr fun r => ?_
  congr 1
  ext ω
  simp only [Set.mem_setOf_eq, abs_le, neg_mul]

namespace ExConf
open ExUnb ExCons

variable (ν : Measure ℝ) [IsProbabilityMeasure ν]

/-- Two levels with `r + 3` and `2 r + 3` samples drawn from a distribution with positive variance: the probability of an error of at most two reported standard deviations converges. -/
example (hν : MemLp id 2 ν) (hv : 0 < Var[id; ν]) :=
  C125_error_normal 7 1 2 q built ids 0 (by decide) _ _ _ (draws ν hν) ⟨0, by decide, hv⟩ (fun r l => (l + 1) * r + 3)
    (fun l _ => tendsto_atTop_mono (fun r => by show r ≤ (l + 1) * r + 3; nlinarith) tendsto_id) (fun r l _ => by omega)
    (fun r ω => (exists_estimate (fun l => (l + 1) * r + 3) (by omega) fun l k => ω (l, k)).choose)
    (fun r ω => (exists_estimate (fun l => (l + 1) * r + 3) (by omega) fun l k => ω (l, k)).choose_spec)

example (hν : MemLp id 2 ν) (hv : 0 < Var[id; ν]) :=
  C125_confidence_interval 7 1 1 q built ids 0 (by decide) fine coarse (fun l => (l + 1) * ∫ x, x ∂ν) _ _ (fineOk ν hν) (coarseOk ν hν) (drawsOk ν hν)
    ⟨1, by decide, hv⟩ (fun r l => (l + 1) * r + 3)
    (fun l _ => tendsto_atTop_mono (fun r => by show r ≤ (l + 1) * r + 3; nlinarith) tendsto_id) (fun r l _ => by omega)
    (fun r ω => (exists_estimate (fun l => (l + 1) * r + 3) (by omega) _).choose)
    (fun r ω => (exists_estimate (fun l => (l + 1) * r + 3) (by omega) _).choose_spec)

end ExConf

end MLMC
