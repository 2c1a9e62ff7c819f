import Verif.Spec.Concentration
import Verif.Props.Unbiased
import Verif.Proofs.AdaptiveStats
import Mathlib.Probability.Moments.SubGaussian
/-! # C160 Large errors are exponentially unlikely -/
namespace MLMC
open MeasureTheory ProbabilityTheory

section
variable {Ω : Type} [MeasurableSpace Ω] (P : Measure Ω) [IsProbabilityMeasure P]

/-! ## Helpers -/

/-- The error of the mean is a sum of independent centred numbers. -/
theorem error_sum {L : Nat} {N : Nat → Nat} (hN : ∀ l < L, 0 < N l) (D : Nat → Nat → Ω → ℝ) (mu : Nat → ℝ) (ω : Ω) :
    ∑ l ∈ Finset.range L, average ((List.range (N l)).map fun k => D l k ω) - ∑ l ∈ Finset.range L, mu l =
      ∑ p : (Σ l : Fin L, Fin (N l)), (1 / (N p.1 : ℝ)) * (D p.1 p.2 ω - mu p.1) := by
  rw [← Finset.sum_sub_distrib, Finset.sum_range, Fintype.sum_sigma]
  refine Finset.sum_congr rfl fun l _ => ?_
  have h0 : ((N l : Nat) : ℝ) ≠ 0 := by exact_mod_cast (hN l l.2).ne'
  rw [average_range, Finset.sum_range]
  simp only
  rw [← Finset.mul_sum, Finset.sum_sub_distrib]
  simp only [Finset.sum_const, Finset.card_univ, Fintype.card_fin, nsmul_eq_mul]
  field_simp

variable {P}

theorem error_subgaussian {L : Nat} {N : Nat → Nat} (hN : ∀ l < L, 0 < N l) {D : Nat → Nat → Ω → ℝ} {mu a b : Nat → ℝ} (hd : BoundedDraws P L N D mu a b) :
    ∃ c : NNReal, (c : ℝ) = ∑ l ∈ Finset.range L, (b l - a l) ^ 2 / (4 * N l) ∧
      HasSubgaussianMGF (fun ω => ∑ p : (Σ l : Fin L, Fin (N l)), (1 / (N p.1 : ℝ)) * (D p.1 p.2 ω - mu p.1)) c P := by
  have hind : iIndepFun (fun (p : Σ l : Fin L, Fin (N l)) ω => (1 / (N p.1 : ℝ)) * (D p.1 p.2 ω - mu p.1)) P :=
    hd.indep.comp (fun (p : Σ l : Fin L, Fin (N l)) (x : ℝ) => (1 / (N p.1 : ℝ)) * (x - mu p.1)) fun p => by fun_prop
  have hsub : ∀ p ∈ (Finset.univ : Finset (Σ l : Fin L, Fin (N l))), HasSubgaussianMGF (fun ω => (1 / (N p.1 : ℝ)) * (D p.1 p.2 ω - mu p.1))
      (⟨(1 / (N p.1 : ℝ)) ^ 2, sq_nonneg _⟩ * ((‖b p.1 - a p.1‖₊ / 2) ^ 2)) P := by
    intro p _
    have h := hasSubgaussianMGF_of_mem_Icc (hd.random p.1 p.1.2 p.2 p.2.2) (hd.range p.1 p.1.2 p.2 p.2.2)
    rw [hd.mean p.1 p.1.2 p.2 p.2.2] at h
    exact h.const_mul _
  refine ⟨_, ?_, HasSubgaussianMGF.sum_of_iIndepFun hind hsub⟩
  rw [NNReal.coe_sum, Fintype.sum_sigma, Finset.sum_range]
  refine Finset.sum_congr rfl fun l _ => ?_
  have h0 : ((N l : Nat) : ℝ) ≠ 0 := by exact_mod_cast (hN l l.2).ne'
  have one : ∀ k ∈ (Finset.univ : Finset (Fin (N l))), ((⟨(1 / (N l : ℝ)) ^ 2, sq_nonneg _⟩ * ((‖b l - a l‖₊ / 2) ^ 2) : NNReal) : ℝ) = (1 / (N l : ℝ)) ^ 2 * ((b l - a l) ^ 2 / 4) := by
    intro k _
    change (1 / (N l : ℝ)) ^ 2 * (‖b l - a l‖ / 2) ^ 2 = _
    rw [Real.norm_eq_abs, div_pow |b l - a l|, sq_abs]
    norm_num
  refine (Finset.sum_congr rfl one).trans ?_
  rw [Finset.sum_const, Finset.card_univ, Fintype.card_fin, nsmul_eq_mul]
  field_simp

theorem error_tail {L : Nat} {N : Nat → Nat} (hN0 : ∀ l < L, 0 < N l) {D : Nat → Nat → Ω → ℝ} {mu a b : Nat → ℝ} (hd : BoundedDraws P L N D mu a b) {c : ℝ} (hc : 0 ≤ c) :
    P.real {ω | c ≤ |∑ l ∈ Finset.range L, average ((List.range (N l)).map fun k => D l k ω) - ∑ l ∈ Finset.range L, mu l|} ≤
      2 * Real.exp (-(2 * c ^ 2 / ∑ l ∈ Finset.range L, (b l - a l) ^ 2 / N l)) := by
  obtain ⟨s, hs, hsub⟩ := error_subgaussian hN0 hd
  simp only [error_sum hN0]
  set X : Ω → ℝ := fun ω => ∑ p : (Σ l : Fin L, Fin (N l)), (1 / (N p.1 : ℝ)) * (D p.1 p.2 ω - mu p.1) with hX
  have e1 : -c ^ 2 / (2 * (s : ℝ)) = -(2 * c ^ 2 / ∑ l ∈ Finset.range L, (b l - a l) ^ 2 / N l) := by
    rw [hs, show ∑ l ∈ Finset.range L, (b l - a l) ^ 2 / (4 * (N l : ℝ)) = (∑ l ∈ Finset.range L, (b l - a l) ^ 2 / N l) / 4 by
      rw [Finset.sum_div]
      exact Finset.sum_congr rfl fun l _ => by rw [div_div, mul_comm]]
    generalize ∑ l ∈ Finset.range L, (b l - a l) ^ 2 / (N l : ℝ) = S
    by_cases h0 : S = 0
    · simp [h0]
    · field_simp
      norm_num
  have h1 := hsub.measure_ge_le hc
  have h2 := hsub.neg.measure_ge_le hc
  rw [e1] at h1 h2
  have hsubset : {ω | c ≤ |X ω|} ⊆ {ω | c ≤ X ω} ∪ {ω | c ≤ (-X) ω} := fun ω hω => by
    rcases le_abs.1 (show c ≤ |X ω| from hω) with h | h
    · exact .inl h
    · exact .inr h
  calc P.real {ω | c ≤ |X ω|} ≤ P.real ({ω | c ≤ X ω} ∪ {ω | c ≤ (-X) ω}) := measureReal_mono hsubset
    _ ≤ P.real {ω | c ≤ X ω} + P.real {ω | c ≤ (-X) ω} := measureReal_union_le _ _
    _ ≤ _ := by linarith

/-! ## C160 -/

variable (P)

/-- C160: if the differences of the samples on level `l` lie between `a l` and `b l` and are drawn independently, `N l` of them, then the probability that the reported mean is off by `c` or more is
at most `2 exp (-2 c² / Σ (b l - a l)² / N l)`.  Holds for every quantity built with the API and any division into chunks. -/
theorem C160_error_unlikely (sid W L : Nat) (q : Quantity (Option ℝ)) (hq : Built sid .qty q) (hid : IdsIdentify q) (i : Nat) (hi : i < q.size)
    (N : Nat → Nat) (hN : ∀ l < L, 2 ≤ N l) (D : Nat → Nat → Ω → ℝ) (mu a b : Nat → ℝ) (hd : BoundedDraws P L N D mu a b)
    (chunks : Ω → List (Nat × List (Sample (Option ℝ)))) (e : Ω → QuantityMean ℝ) (he : EstimatesFrom q sid W L i N D chunks e) (c : ℝ) (hc : 0 ≤ c) :
    ∃ m : Ω → ℝ, (∀ ω, (e ω).mean.getD i none = some (m ω)) ∧
      P.real {ω | c ≤ |m ω - ∑ l ∈ Finset.range L, mu l|} ≤ 2 * Real.exp (-(2 * c ^ 2 / ∑ l ∈ Finset.range L, (b l - a l) ^ 2 / N l)) := by
  have hN0 : ∀ l < L, 0 < N l := fun l hl => by have := hN l hl; omega
  refine ⟨_, fun ω => (estimates_values hq hid hi hN he ω).1, ?_⟩
  exact error_tail hN0 hd hc

/-- C160: how many samples suffice.  With `N l ≥ L (b l - a l)² log (2 / δ) / (2 c²)` samples on every level the mean is off by `c` or more with probability at most `δ`. -/
theorem C160_enough_samples (sid W L : Nat) (q : Quantity (Option ℝ)) (hq : Built sid .qty q) (hid : IdsIdentify q) (i : Nat) (hi : i < q.size)
    (N : Nat → Nat) (hN : ∀ l < L, 2 ≤ N l) (D : Nat → Nat → Ω → ℝ) (mu a b : Nat → ℝ) (hd : BoundedDraws P L N D mu a b)
    (chunks : Ω → List (Nat × List (Sample (Option ℝ)))) (e : Ω → QuantityMean ℝ) (he : EstimatesFrom q sid W L i N D chunks e) (c : ℝ) (hc : 0 < c) (δ : ℝ) (hδ : 0 < δ)
    (hab : ∃ l < L, a l ≠ b l) (hn : ∀ l < L, L * (b l - a l) ^ 2 * Real.log (2 / δ) / (2 * c ^ 2) ≤ N l) :
    ∃ m : Ω → ℝ, (∀ ω, (e ω).mean.getD i none = some (m ω)) ∧ P.real {ω | c ≤ |m ω - ∑ l ∈ Finset.range L, mu l|} ≤ δ := by
  obtain ⟨m, h1, h2⟩ := C160_error_unlikely P sid W L q hq hid i hi N hN D mu a b hd chunks e he c hc.le
  refine ⟨m, h1, h2.trans ?_⟩
  have hpos : ∀ l < L, (0 : ℝ) < N l := fun l hl => by exact_mod_cast (by have := hN l hl; omega : 0 < N l)
  obtain ⟨l0, hl0, hne⟩ := hab
  have hL : (0 : ℝ) < L := by exact_mod_cast (by omega : 0 < L)
  have hS : 0 < ∑ l ∈ Finset.range L, (b l - a l) ^ 2 / (N l : ℝ) :=
    Finset.sum_pos' (fun l hl => div_nonneg (sq_nonneg _) (hpos l (Finset.mem_range.1 hl)).le)
      ⟨l0, Finset.mem_range.2 hl0, div_pos (by have := sub_ne_zero.2 hne.symm; positivity) (hpos l0 hl0)⟩
  have key : Real.log (2 / δ) * ∑ l ∈ Finset.range L, (b l - a l) ^ 2 / (N l : ℝ) ≤ 2 * c ^ 2 := by
    rw [Finset.mul_sum]
    have : ∀ l ∈ Finset.range L, Real.log (2 / δ) * ((b l - a l) ^ 2 / (N l : ℝ)) ≤ 2 * c ^ 2 / L := by
      intro l hl
      have hp := hpos l (Finset.mem_range.1 hl)
      have h := hn l (Finset.mem_range.1 hl)
      rw [div_le_iff₀ (by positivity)] at h
      rw [← mul_div_assoc, div_le_div_iff₀ hp hL]
      nlinarith
    refine (Finset.sum_le_sum this).trans ?_
    rw [Finset.sum_const, Finset.card_range, nsmul_eq_mul]
    field_simp
    exact le_rfl
  have h3 : Real.log (2 / δ) ≤ 2 * c ^ 2 / ∑ l ∈ Finset.range L, (b l - a l) ^ 2 / (N l : ℝ) := by rwa [le_div_iff₀ hS]
  calc 2 * Real.exp (-(2 * c ^ 2 / ∑ l ∈ Finset.range L, (b l - a l) ^ 2 / (N l : ℝ))) ≤ 2 * Real.exp (-Real.log (2 / δ)) := by
        gcongr
    _ = δ := by
        rw [Real.exp_neg, Real.exp_log (by positivity)]
        field_simp

/-- C160, moments: functions bounded by `B` (those of the library by 1, `C111_moments_bounded`) need no knowledge of the distribution: on every level the differences are between `-2 B` and `2 B`, and an
estimated moment is off by `c` or more with probability at most `2 exp (-c² / (8 B² Σ 1 / N l))`. -/
theorem C160_moments (sid W L : Nat) (q r : Quantity (Option ℝ)) (hq : Built sid .qty q) (hid : IdsIdentify r) (fn : MomentFn (Option ℝ)) (B : ℝ) (hB : 0 ≤ B) (hfn : fn.Bounded B) (o : Nat)
    (hr : q.moments o fn true = .ok r) (i : Nat) (hi : i < r.size) (N : Nat → Nat) (hN : ∀ l < L, 2 ≤ N l) (D : Nat → Nat → Ω → ℝ) (mu : Nat → ℝ)
    (hm : ∀ l < L, ∀ k < N l, AEMeasurable (D l k) P ∧ ∫ ω, D l k ω ∂P = mu l) (hind : iIndepFun (fun p : Σ l : Fin L, Fin (N l) => D p.1 p.2) P)
    (chunks : Ω → List (Nat × List (Sample (Option ℝ)))) (e : Ω → QuantityMean ℝ) (he : EstimatesFrom r sid W L i N D chunks e) (c : ℝ) (hc : 0 ≤ c) :
    ∃ m : Ω → ℝ, (∀ ω, (e ω).mean.getD i none = some (m ω)) ∧
      P.real {ω | c ≤ |m ω - ∑ l ∈ Finset.range L, mu l|} ≤ 2 * Real.exp (-(c ^ 2 / (8 * B ^ 2 * ∑ l ∈ Finset.range L, 1 / (N l : ℝ)))) := by
  have hd : BoundedDraws P L N D mu (fun _ => -(2 * B)) fun _ => 2 * B := by
    refine ⟨fun l hl k hk => (hm l hl k hk).1, fun l hl k hk => Filter.Eventually.of_forall fun ω => abs_le.1 ?_, fun l hl k hk => (hm l hl k hk).2, hind⟩
    refine diffs_bounded hB hfn hr l i (levelData (chunks ω) l) (D l k ω) ?_ (sid := sid) (W := W)
    rw [he.diffs ω l hl]
    exact List.mem_map.2 ⟨k, List.mem_range.2 hk, rfl⟩
  obtain ⟨m, h1, h2⟩ := C160_error_unlikely P sid W L r (.moments o fn true hq hr) hid i hi N hN D mu _ _ hd chunks e he c hc
  refine ⟨m, h1, h2.trans_eq ?_⟩
  have : ∑ l ∈ Finset.range L, (2 * B - -(2 * B)) ^ 2 / (N l : ℝ) = 16 * B ^ 2 * ∑ l ∈ Finset.range L, 1 / (N l : ℝ) := by
    rw [Finset.mul_sum]
    exact Finset.sum_congr rfl fun l _ => by ring
  rw [this]
  congr 3
  rw [show 16 * B ^ 2 * ∑ l ∈ Finset.range L, 1 / (N l : ℝ) = 2 * (8 * B ^ 2 * ∑ l ∈ Finset.range L, 1 / (N l : ℝ)) by ring, mul_div_mul_left _ _ two_ne_zero]

end

/-! ## The hypotheses are met -/

namespace ExConc
open ExUnb

variable (ν : Measure ℝ) [IsProbabilityMeasure ν]

theorem coordinates_indep : iIndepFun (fun (p : Σ l : Fin 2, Fin (ExUnb.N l)) (ω : ℕ × ℕ → ℝ) => ω (p.1, p.2)) (Measure.infinitePi fun _ : ℕ × ℕ => ν) :=
  (iIndepFun_infinitePi (P := fun _ : ℕ × ℕ => ν) (X := fun _ x => x) (by fun_prop)).precomp (g := fun p : Σ l : Fin 2, Fin (ExUnb.N l) => ((p.1 : ℕ), (p.2 : ℕ))) fun p p' h => by
    obtain ⟨⟨l, hl⟩, ⟨k, hk⟩⟩ := p
    obtain ⟨⟨l', hl'⟩, ⟨k', hk'⟩⟩ := p'
    obtain ⟨h1, h2⟩ := Prod.mk.inj h
    simp only at h1 h2
    subst h1
    subst h2
    rfl

/-- Two levels of numbers drawn from a distribution on the interval from 0 to 1. -/
theorem draws (hν : ∀ᵐ x ∂ν, 0 ≤ x ∧ x ≤ 1) :
    BoundedDraws (Measure.infinitePi fun _ : ℕ × ℕ => ν) 2 ExUnb.N ExUnb.D (fun _ => ∫ x, x ∂ν) (fun _ => 0) fun _ => 1 := by
  have hD : ∀ l k, ExUnb.D l k = fun ω : ℕ × ℕ → ℝ => ω (l, k) := fun l k => funext fun ω => D_eq l k ω
  have mp : ∀ p : ℕ × ℕ, MeasurePreserving (fun ω : ℕ × ℕ → ℝ => ω p) (Measure.infinitePi fun _ : ℕ × ℕ => ν) ν := fun p =>
    measurePreserving_eval_infinitePi (fun _ : ℕ × ℕ => ν) p
  refine ⟨fun l _ k _ => ?_, fun l _ k _ => ?_, fun l _ k _ => ?_, ?_⟩
  · rw [hD]; exact (mp _).aemeasurable
  · rw [hD]; exact (mp (l, k)).quasiMeasurePreserving.ae hν
  · rw [hD]
    have h := integral_map (mp (l, k)).aemeasurable (f := (id : ℝ → ℝ)) (by fun_prop)
    rw [(mp (l, k)).map_eq] at h
    exact h.symm
  · have : (fun p : Σ l : Fin 2, Fin (ExUnb.N l) => ExUnb.D p.1 p.2) = fun p ω => ω (p.1, p.2) := funext fun p => hD _ _
    rw [this]
    exact coordinates_indep ν

example (hν : ∀ᵐ x ∂ν, 0 ≤ x ∧ x ≤ 1) (c : ℝ) (hc : 0 ≤ c) :=
  C160_error_unlikely (Measure.infinitePi fun _ : ℕ × ℕ => ν) 7 1 2 q built ids 0 (by decide) ExUnb.N (by decide) ExUnb.D _ _ _ (draws ν hν) chunks _ stored c hc

/-- Moment functions 1 and the value cut at -1 and 1. -/
noncomputable def cut (x : ℝ) : ℝ := max (-1) (min 1 x)
noncomputable def fn : MomentFn (Option ℝ) := ⟨2, fun i v => v.map fun x => if i = 0 then 1 else cut x⟩
theorem bounded : fn.Bounded 1 := by
  intro i v x h
  cases v with
  | none => cases h
  | some y =>
    injection h with h
    subst h
    beta_reduce
    split
    · simp
    · exact abs_le.2 ⟨le_max_left _ _, max_le (by norm_num) (min_le_left _ _)⟩

noncomputable def r : Quantity (Option ℝ) := .node 9 (.array [2] .scalar) false (unArr fun a => .ok ⟨a.n, a.p, a.rows.flatMap fun r => (List.range 2).map fun i j k => fn.ev i (r j k)⟩) [q]
theorem made : q.moments 9 fn true = .ok r := rfl
theorem okr (ω : ℕ × ℕ → ℝ) : ∃ e, estimateMean r 2 (asChunks 7 1 (chunks ω)) = .ok e := ⟨_, rfl⟩
noncomputable def Dr (l k : Nat) (ω : ℕ × ℕ → ℝ) : ℝ := if l = 0 then cut (fine l k ω) else cut (fine l k ω) - cut (coarse l k ω)

theorem storedr : EstimatesFrom r 7 1 2 1 ExUnb.N Dr chunks fun ω => (okr ω).choose where
  wf := stored.wf
  level := stored.level
  diffs ω l hl := by
    match l, hl with
    | 0, _ => rfl
    | 1, _ => rfl
  result ω := (okr ω).choose_spec

noncomputable def g (l : Nat) (x : ℝ) : ℝ := if l = 0 then cut x else cut (2 * x) - cut x
theorem Dr_eq (l k : Nat) : Dr l k = fun ω => g l (ω (l, k)) := by
  funext ω
  unfold Dr g fine coarse
  by_cases h : l = 0
  · subst h; simp
  · simp [h]
theorem g_measurable (l : Nat) : Measurable (g l) := by
  unfold g cut
  split <;> fun_prop

example (c : ℝ) (hc : 0 ≤ c) :=
  C160_moments (Measure.infinitePi fun _ : ℕ × ℕ => ν) 7 1 2 q r built (by intro a ha; simp [r, q, Quantity.selections, Quantity.selectionsList] at ha) fn 1 zero_le_one bounded 9 made 1 (by decide) ExUnb.N (by decide) Dr
    (fun l => ∫ x, g l x ∂ν)
    (fun l _ k _ => by
      have mp := measurePreserving_eval_infinitePi (fun _ : ℕ × ℕ => ν) (l, k)
      rw [Dr_eq]
      refine ⟨((g_measurable l).comp (measurable_pi_apply _)).aemeasurable, ?_⟩
      have h := integral_map mp.aemeasurable (f := g l) (g_measurable l).aestronglyMeasurable
      rw [mp.map_eq] at h
      exact h.symm)
    (by
      have : (fun p : Σ l : Fin 2, Fin (ExUnb.N l) => Dr p.1 p.2) = fun p ω => g p.1 (ω (p.1, p.2)) := funext fun p => Dr_eq _ _
      rw [this]
      exact (coordinates_indep ν).comp (fun p => g p.1) fun p => g_measurable _)
    chunks _ storedr c hc

end ExConc

end MLMC
