import Verif.Model.VarOfVar
import Verif.Props.StatsNormal
import Mathlib.MeasureTheory.Integral.IntervalIntegral.IntegrationByParts
/-! # C129: variances of the logarithms of estimated variances -/
namespace MLMC.VarVar
open MeasureTheory ProbabilityTheory MLMC.Stat

theorem chiPdf_eq (df y : ℝ) : chiPdf df y = gammaPDFReal (df / 2) (1 / 2) y := rfl

theorem chiPdf_cont (df : ℝ) : ContinuousOn (chiPdf df) (Set.Ioi 0) := by
  have h : ContinuousOn (fun y : ℝ => (1 / 2) ^ (df / 2) / Real.Gamma (df / 2) * y ^ (df / 2 - 1) * Real.exp (-(1 / 2 * y))) (Set.Ioi 0) := by
    refine (continuousOn_const.mul ?_).mul (by fun_prop)
    exact fun x hx => (Real.continuousAt_rpow_const x _ (Or.inl (ne_of_gt hx))).continuousWithinAt
  exact h.congr fun y hy => if_pos (le_of_lt hy)

/-- Substitution `y = df e^x`. -/
theorem moment_subst {df : ℝ} (hdf : 0 < df) (m : Nat) :
    computeMoment df m = ∫ y in Set.Icc (df * Real.exp (-(100 * √(2 / df)))) (df * Real.exp (100 * √(2 / df))), Real.log (y / df) ^ m * chiPdf df y := by
  have hs : (0 : ℝ) ≤ 100 * √(2 / df) := by positivity
  have hcont : ContinuousOn (fun y => Real.log (y / df) ^ m * chiPdf df y) (Set.Ioi 0) := by
    refine ContinuousOn.mul (ContinuousOn.pow (ContinuousOn.log (by fun_prop) fun y hy => ?_) m) (chiPdf_cont df)
    have : 0 < y := hy
    positivity
  have h := intervalIntegral.integral_comp_mul_deriv'' (a := -100 * √(2 / df)) (b := 100 * √(2 / df)) (f := fun x => Real.exp x * df) (f' := fun x => Real.exp x * df)
    (g := fun y => Real.log (y / df) ^ m * chiPdf df y) (by fun_prop) (fun x _ => ((Real.hasDerivAt_exp x).mul_const df).hasDerivWithinAt) (by fun_prop)
    (hcont.mono (by rintro _ ⟨x, _, rfl⟩; exact Set.mem_Ioi.2 (by positivity)))
  have e : ∀ x, Real.log (Real.exp x * df / df) = x := fun x => by rw [mul_div_cancel_right₀ _ hdf.ne', Real.log_exp]
  unfold computeMoment logChiPdf
  rw [integral_Icc_eq_integral_Ioc, ← intervalIntegral.integral_of_le (mul_le_mul_of_nonneg_left (Real.exp_le_exp.2 (by linarith)) hdf.le), mul_comm df, mul_comm df,
    show -(100 * √(2 / df)) = -100 * √(2 / df) by ring, ← h]
  refine intervalIntegral.integral_congr fun x _ => ?_
  simp only [Function.comp, e]
  ring

variable {Ω : Type} [MeasurableSpace Ω] {P : Measure Ω}

/-- `C129`: the moments that are computed are those of the logarithm of the estimated variance `s²` of independent normal samples relative to their variance, on the event that this logarithm is
at most 100 of its approximate standard deviations `√(2/(n-1))` in modulus.  Hence the value is the variance of `log s²` up to this restriction. -/
theorem C129_moments {n : Nat} (hn : 2 ≤ n) (mu : ℝ) (v : NNReal) (hv : v ≠ 0) (Y : Fin n → Ω → ℝ) (h : Normal P mu v Y) (m : Nat) :
    computeMoment (n - 1 : ℕ) m =
      ∫ w in {w | |Real.log ((∑ i, (Y i w - (∑ j, Y j w) / n) ^ 2) / (n - 1) / v)| ≤ 100 * √(2 / (n - 1))}, Real.log ((∑ i, (Y i w - (∑ j, Y j w) / n) ^ 2) / (n - 1) / v) ^ m ∂P := by
  have := h.indep.isProbabilityMeasure
  have hk : 0 < n - 1 := by omega
  have hcast : ((n - 1 : ℕ) : ℝ) = (n : ℝ) - 1 := by rw [Nat.cast_sub (by omega)]; simp
  have hdf : (0 : ℝ) < (n - 1 : ℕ) := by positivity
  have hv' : (v : ℝ) ≠ 0 := by exact_mod_cast hv
  have hs := h.std hv
  set Q : Ω → ℝ := fun w => ∑ i, ((Y i w - mu) / √v - unitVec n i * StdNormal.comb (unitVec n) (fun i w => (Y i w - mu) / √v) w) ^ 2 with hQ
  have hQm : Measurable Q := Finset.measurable_fun_sum _ fun i _ => ((hs.meas i).sub ((hs.comb_meas _).const_mul _)).pow_const 2
  have hQlaw : P.map Q = chiSq (n - 1) := by
    have := hs.resid_law (unitVec n) (unitVec_sq (by omega)) (by rw [Fintype.card_fin]; exact hn)
    rwa [Fintype.card_fin] at this
  have hL : ∀ w, (∑ i, (Y i w - (∑ j, Y j w) / n) ^ 2) / (n - 1) / v = Q w / (n - 1 : ℕ) := by
    intro w
    rw [(dev_eq (by omega) (mu := mu) hv Y w).1, hcast]
    change (v : ℝ) * Q w / ((n : ℝ) - 1) / v = Q w / ((n : ℝ) - 1)
    rw [div_right_comm, mul_div_cancel_left₀ _ hv']
  simp only [hL]
  rw [← hcast]
  set df : ℝ := ((n - 1 : ℕ) : ℝ) with hdf'
  set R : ℝ := 100 * √(2 / df) with hR
  have hR0 : 0 ≤ R := by positivity
  have hA : MeasurableSet {y : ℝ | |Real.log (y / df)| ≤ R} := measurableSet_le (by fun_prop) measurable_const
  have hmeas : AEStronglyMeasurable (fun y : ℝ => Real.log (y / df) ^ m) (P.map Q) := ((Real.measurable_log.comp (measurable_id.div_const df)).pow_const m).aestronglyMeasurable
  have e1 : ∫ w in {w | |Real.log (Q w / df)| ≤ R}, Real.log (Q w / df) ^ m ∂P = ∫ y in {y : ℝ | |Real.log (y / df)| ≤ R}, Real.log (y / df) ^ m ∂chiSq (n - 1) := by
    rw [← hQlaw, setIntegral_map hA hmeas hQm.aemeasurable]
    rfl
  rw [e1, moment_subst hdf, ← integral_indicator hA, chiSq, integral_gammaMeasure (by positivity) (by norm_num), ← integral_indicator measurableSet_Icc]
  have hne : ∀ᵐ y : ℝ, y ≠ 0 := by
    rw [ae_iff]
    simp
  refine integral_congr_ae ?_
  filter_upwards [hne] with y hy0
  rcases lt_or_gt_of_ne hy0 with hy | hy
  · rw [Set.indicator_of_notMem, gammaPDFReal, if_neg (not_le.2 hy), zero_mul]
    rw [Set.mem_Icc, not_and_or]
    left
    exact not_le.2 (hy.trans (by positivity))
  · have hyd : 0 < y / df := by positivity
    have hiff : y ∈ Set.Icc (df * Real.exp (-R)) (df * Real.exp R) ↔ y ∈ {y : ℝ | |Real.log (y / df)| ≤ R} := by
      rw [Set.mem_Icc, Set.mem_setOf_eq, abs_le, Real.le_log_iff_exp_le hyd, Real.log_le_iff_le_exp hyd, le_div_iff₀ hdf, div_le_iff₀ hdf, mul_comm df, mul_comm df]
    by_cases hc : y ∈ {y : ℝ | |Real.log (y / df)| ≤ R}
    · rw [Set.indicator_of_mem (hiff.2 hc), Set.indicator_of_mem hc, chiPdf_eq, mul_comm]
    · rw [Set.indicator_of_notMem (fun h => hc (hiff.1 h)), Set.indicator_of_notMem hc, mul_zero]

/-- `C129`: for at least two samples the value is the variance of the logarithm of the estimated variance of that many independent normal samples, where outcomes with a logarithm of more than
100 approximate standard deviations count as zero.  It does not depend on the mean and the variance of the distribution. -/
theorem C129_variance {n : Nat} (hn : 2 ≤ n) (mu : ℝ) (v : NNReal) (hv : v ≠ 0) (Y : Fin n → Ω → ℝ) (h : Normal P mu v Y) :
    ofLevel n = .ok (some (Var[{w | |logVar v Y w| ≤ 100 * √(2 / (n - 1))}.indicator (logVar v Y); P])) := by
  have := h.indep.isProbabilityMeasure
  have hYm : Measurable (logVar v Y) :=
    Real.measurable_log.comp (((Finset.measurable_fun_sum _ fun i _ => (((h.meas i).sub ((Finset.measurable_fun_sum _ fun j _ => h.meas j).div_const _)).pow_const 2)).div_const _).div_const _)
  have hA : MeasurableSet {w | |logVar v Y w| ≤ 100 * √(2 / ((n : ℝ) - 1))} := measurableSet_le hYm.abs measurable_const
  have h1 := C129_moments hn mu v hv Y h 1
  have h2 := C129_moments hn mu v hv Y h 2
  have e : ∀ m : Nat, m ≠ 0 → ∫ w in {w | |logVar v Y w| ≤ 100 * √(2 / ((n : ℝ) - 1))}, logVar v Y w ^ m ∂P =
      ∫ w, {w | |logVar v Y w| ≤ 100 * √(2 / ((n : ℝ) - 1))}.indicator (logVar v Y) w ^ m ∂P := by
    intro m hm
    rw [← integral_indicator hA]
    refine integral_congr_ae (Filter.Eventually.of_forall fun w => ?_)
    by_cases hw : w ∈ {w | |logVar v Y w| ≤ 100 * √(2 / ((n : ℝ) - 1))}
    · simp only [Set.indicator_of_mem hw]
    · simp only [Set.indicator_of_notMem hw, zero_pow hm]
  have hL : MemLp ({w | |logVar v Y w| ≤ 100 * √(2 / ((n : ℝ) - 1))}.indicator (logVar v Y)) 2 P := by
    refine MemLp.of_bound (hYm.indicator hA).aestronglyMeasurable (100 * √(2 / ((n : ℝ) - 1))) (Filter.Eventually.of_forall fun w => ?_)
    by_cases hw : w ∈ {w | |logVar v Y w| ≤ 100 * √(2 / ((n : ℝ) - 1))}
    · rw [Set.indicator_of_mem hw]
      exact hw
    · rw [Set.indicator_of_notMem hw, norm_zero]
      positivity
  rw [variance_eq_sub hL]
  obtain ⟨k, rfl⟩ : ∃ k, n = k + 2 := ⟨n - 2, by omega⟩
  change Except.ok (some (computeMoment (k + 2 - 1 : ℕ) 2 - computeMoment (k + 2 - 1 : ℕ) 1 ^ 2)) = _
  rw [h1, h2]
  change Except.ok (some ((∫ w in {w | |logVar v Y w| ≤ 100 * √(2 / (((k + 2 : ℕ) : ℝ) - 1))}, logVar v Y w ^ 2 ∂P) -
    (∫ w in {w | |logVar v Y w| ≤ 100 * √(2 / (((k + 2 : ℕ) : ℝ) - 1))}, logVar v Y w ^ 1 ∂P) ^ 2)) = _
  rw [e 2 (by norm_num), e 1 (by norm_num)]
  simp only [pow_one, Pi.pow_apply]

example := C129_variance (n := 5) (by norm_num) 3 2 (by norm_num) _ (normal_exists (Fin 5) 3 2)

/-- `C129`: the values are not negative. -/
theorem C129_nonneg {n : Nat} {x : ℝ} (h : ofLevel n = .ok (some x)) : 0 ≤ x := by
  match n, h with
  | 0, h => simp [ofLevel] at h
  | 1, h => simp [ofLevel] at h
  | n + 2, h =>
    rw [C129_variance (n := n + 2) (by omega) 0 1 one_ne_zero _ (normal_exists (Fin (n + 2)) 0 1)] at h
    cases h
    exact variance_nonneg _ _

example : ∃ x, ofLevel 5 = .ok (some x) := ⟨_, rfl⟩

theorem mapM_one {l : List Nat} (h : 1 ∈ l) : l.mapM ofLevel = .error .other := by
  induction l with
  | nil => cases h
  | cons a l ih =>
    rw [List.mapM_cons]
    rcases List.mem_cons.1 h with h1 | h1
    · subst h1
      rfl
    · rw [ih h1]
      match a with
      | 0 => rfl
      | 1 => rfl
      | a + 2 => rfl

/-- `C129`: a level with one sample raises an exception, however many samples the other levels have. -/
theorem C129_one_sample (heap : Nat → List Nat) (n : Nat) (h : 1 ∈ heap n) : call heap n none = .error .other := by
  unfold call
  dsimp only
  rw [mapM_one h]
  rfl

example : call (fun _ => [100, 30, 1]) 0 none = .error .other := C129_one_sample _ 0 (by simp)

/-- `C129` is false: the numbers of samples are kept as a reference, so a caller that passes the same list after new samples have been created gets the values of the old numbers. -/
theorem C129_counterexample_stale :
    ∃ x, ofLevel 5 = .ok (some x) ∧ calls [(fun _ => [0, 0, 0], 7), (fun _ => [5, 5, 5], 7)] none = [.ok [none, none, none], .ok [none, none, none]] ∧
      calls [(fun _ => [5, 5, 5], 7)] none = [.ok [some x, some x, some x]] :=
  ⟨_, rfl, rfl, rfl⟩

/-- `C129` is false: a saved list with one level is compared with every level of another list, so one value is returned for three levels. -/
theorem C129_counterexample_broadcast :
    ∃ x, ofLevel 5 = .ok (some x) ∧ calls [(fun k => List.replicate k 5, 1), (fun k => List.replicate k 5, 3)] none = [.ok [some x], .ok [some x]] :=
  ⟨_, rfl, rfl⟩

/-- `C129` is false also the other way round: three values are returned for one level. -/
theorem C129_counterexample_broadcast_back :
    ∃ x, ofLevel 5 = .ok (some x) ∧ calls [(fun k => List.replicate k 5, 3), (fun k => List.replicate k 5, 1)] none = [.ok [some x, some x, some x], .ok [some x, some x, some x]] :=
  ⟨_, rfl, rfl⟩

/-- What holds of `C129` for the saved values: if the lists are not changed between the calls, and two of them have the same length, or one of them has one entry and the other an entry
different from it, every call gives the values of its numbers of samples. -/
theorem C129_saved_partial (heap : Nat → List Nat) (ns : List Nat) (hk : ∀ m ∈ ns, ∀ n ∈ ns, (heap m).length = (heap n).length ∨
    (∃ a, heap m = [a] ∧ ∃ x ∈ heap n, x ≠ a) ∨ ∃ a, heap n = [a] ∧ ∃ x ∈ heap m, x ≠ a) :
    calls (ns.map fun n => (heap, n)) none = ns.map fun n => (heap n).mapM ofLevel := by
  suffices ∀ saved, (∀ s, saved = some s → (heap s.1).mapM ofLevel = .ok s.2 ∧ ∀ n ∈ ns, sameNumbers (heap s.1) (heap n) = .ok (heap s.1 == heap n)) →
      calls (ns.map fun n => (heap, n)) saved = ns.map fun n => (heap n).mapM ofLevel from this none (fun _ h => nomatch h)
  have hsame : ∀ m ∈ ns, ∀ n ∈ ns, sameNumbers (heap m) (heap n) = .ok (heap m == heap n) := by
    intro m hm n hn
    by_cases hlen : (heap m).length = (heap n).length
    · rw [sameNumbers, if_pos hlen]
    · rw [sameNumbers, if_neg hlen]
      have hne : (heap m == heap n) = false := beq_eq_false_iff_ne.2 fun h => hlen (by rw [h])
      rw [hne]
      rcases (hk m hm n hn).resolve_left hlen with ⟨a, ha, x, hx, hxa⟩ | ⟨a, ha, x, hx, hxa⟩
      · rw [if_pos (by rw [ha]; rfl), ha]
        refine congrArg _ (Bool.eq_false_iff.2 fun h => ?_)
        rw [List.all_eq_true] at h
        exact hxa (by simpa using h x hx)
      · have h1 : (heap m).length ≠ 1 := fun h => hlen (by rw [h, ha]; rfl)
        rw [if_neg h1, if_pos (by rw [ha]; rfl), ha]
        refine congrArg _ (Bool.eq_false_iff.2 fun h => ?_)
        rw [List.all_eq_true] at h
        exact hxa (by simpa using h x hx)
  clear hk
  induction ns with
  | nil => intros; rfl
  | cons n ns ih =>
    intro saved hs
    have ih := ih (fun m hm n' hn => hsame m (List.mem_cons_of_mem _ hm) n' (List.mem_cons_of_mem _ hn))
    rw [List.map_cons, List.map_cons, calls]
    have hfresh : ∀ sv, call heap n sv = ((heap n).mapM ofLevel).map (fun vs => (vs, some (n, vs))) →
        (∀ s, sv = some s → (heap s.1).mapM ofLevel = .ok s.2 ∧ ∀ n' ∈ ns, sameNumbers (heap s.1) (heap n') = .ok (heap s.1 == heap n')) →
        (match call heap n sv with
          | .ok r => .ok r.1 :: calls (ns.map fun n => (heap, n)) r.2
          | .error e => .error e :: calls (ns.map fun n => (heap, n)) sv) = (heap n).mapM ofLevel :: ns.map fun n => (heap n).mapM ofLevel := by
      intro sv hc hsv
      rw [hc]
      cases hm : (heap n).mapM ofLevel with
      | error e => simp only [Except.map]; rw [ih sv hsv]
      | ok vs => simp only [Except.map]; rw [ih (some (n, vs)) (fun s h => by cases h; exact ⟨hm, fun n' hn' => hsame n (by simp) n' (List.mem_cons_of_mem _ hn')⟩)]
    have hs' : ∀ s, saved = some s → (heap s.1).mapM ofLevel = .ok s.2 ∧ ∀ n' ∈ ns, sameNumbers (heap s.1) (heap n') = .ok (heap s.1 == heap n') :=
      fun s h => ⟨(hs s h).1, fun n' hn' => (hs s h).2 n' (List.mem_cons_of_mem _ hn')⟩
    match saved, hs, hs' with
    | none, hs, hs' => exact hfresh none rfl hs'
    | some (m, vals), hs, hs' =>
      have hsame := (hs _ rfl).2 n (by simp)
      by_cases hb : heap m = heap n
      · have hc : call heap n (some (m, vals)) = .ok (vals, some (m, vals)) := by
          unfold call
          rw [hb, beq_self_eq_true] at hsame
          simp only [hb, hsame, Except.bind, if_true]
        rw [hc]
        simp only
        rw [ih _ hs', ← (hs _ rfl).1, hb]
      · refine hfresh _ ?_ hs'
        unfold call
        simp only [hsame, Except.bind, beq_eq_false_iff_ne.2 hb]
        rfl

example := C129_saved_partial (fun n => if n = 0 then [7] else [n, n + 2, 9]) [5, 0, 5, 4] (by
  intro m hm n hn
  by_cases h1 : m = 0 <;> by_cases h2 : n = 0 <;> simp [h1, h2])

end MLMC.VarVar
