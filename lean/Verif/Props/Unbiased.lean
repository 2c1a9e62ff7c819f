import Verif.Spec.Statistics
import Verif.Props.Estimate
import Verif.Props.Allocation
import Mathlib.Probability.Independence.InfinitePi
/-! # C87 Estimates from random samples are unbiased -/
namespace MLMC
open MeasureTheory ProbabilityTheory

section
variable {Ω : Type} [MeasurableSpace Ω] {P : Measure Ω} [IsProbabilityMeasure P] {N : ℕ} {X : ℕ → Ω → ℝ} {m v : ℝ}

theorem listRange_sum (n : ℕ) (f : ℕ → ℝ) : ((List.range n).map f).sum = ∑ k ∈ Finset.range n, f k := by
  rw [Finset.sum_range, ← List.sum_ofFn, List.ofFn_eq_map, ← List.map_coe_finRange_eq_range, List.map_map]
  rfl

theorem average_range (n : ℕ) (f : ℕ → ℝ) : average ((List.range n).map f) = (∑ k ∈ Finset.range n, f k) / n := by
  unfold average; rw [listRange_sum]; simp

theorem sampleVar_range (n : ℕ) (h : n ≠ 0) (f : ℕ → ℝ) :
    sampleVar ((List.range n).map f) =
      (∑ k ∈ Finset.range n, f k ^ 2 - n * (average ((List.range n).map f)) ^ 2) / ((n : ℝ) - 1) := by
  unfold sampleVar
  rw [List.map_map, List.length_map, List.length_range]
  have : ((List.range n).map ((fun x => (x - average ((List.range n).map f)) ^ 2) ∘ f)).sum
      = ∑ k ∈ Finset.range n, (f k - average ((List.range n).map f)) ^ 2 := listRange_sum n _
  rw [this]
  congr 1
  have hn : (n : ℝ) ≠ 0 := by exact_mod_cast h
  have hs : ∑ k ∈ Finset.range n, f k = n * average ((List.range n).map f) := by
    rw [average_range]; field_simp
  generalize average ((List.range n).map f) = a at *
  have : ∀ k, (f k - a) ^ 2 = f k ^ 2 - 2 * a * f k + a ^ 2 := fun k => by ring
  simp only [this, Finset.sum_add_distrib, Finset.sum_sub_distrib, ← Finset.mul_sum, hs, Finset.sum_const, Finset.card_range, nsmul_eq_mul]
  ring

theorem memLp_average (hX : ∀ k < N, MemLp (X k) 2 P) : MemLp (fun ω => average ((List.range N).map fun k => X k ω)) 2 P := by
  simp only [average_range]
  have : MemLp (fun ω => ∑ k ∈ Finset.range N, X k ω) 2 P :=
    memLp_finset_sum _ fun k hk => hX k (Finset.mem_range.1 hk)
  simpa [div_eq_inv_mul] using this.const_mul ((N : ℝ)⁻¹)

theorem integral_average (hN : N ≠ 0) (hX : ∀ k < N, MemLp (X k) 2 P) (hm : ∀ k < N, ∫ ω, X k ω ∂P = m) :
    ∫ ω, average ((List.range N).map fun k => X k ω) ∂P = m := by
  simp only [average_range]
  rw [integral_div, integral_finsetSum _ fun k hk => (hX k (Finset.mem_range.1 hk)).integrable (by norm_num)]
  rw [Finset.sum_congr rfl fun k hk => hm k (Finset.mem_range.1 hk)]
  have hn : (N : ℝ) ≠ 0 := by exact_mod_cast hN
  simp; field_simp

theorem variance_average (hN : N ≠ 0) (hX : ∀ k < N, MemLp (X k) 2 P) (hv : ∀ k < N, Var[X k; P] = v)
    (hi : ∀ k < N, ∀ k' < N, k ≠ k' → IndepFun (X k) (X k') P) :
    Var[fun ω => average ((List.range N).map fun k => X k ω); P] = v / N := by
  simp only [average_range]
  have h1 := IndepFun.variance_sum (X := X) (s := Finset.range N) (μ := P) (fun k hk => hX k (Finset.mem_range.1 hk))
    (fun k hk k' hk' h => hi k (by simpa using hk) k' (by simpa using hk') h)
  rw [Finset.sum_congr rfl fun k hk => hv k (Finset.mem_range.1 hk)] at h1
  have h2 : (fun ω => (∑ k ∈ Finset.range N, X k ω) / (N : ℝ)) = fun ω => (N : ℝ)⁻¹ * (∑ k ∈ Finset.range N, X k) ω := by
    funext ω; rw [Finset.sum_apply, div_eq_inv_mul]
  rw [h2, variance_const_mul, h1]
  have hn : (N : ℝ) ≠ 0 := by exact_mod_cast hN
  simp; field_simp

theorem integral_sq (h : MemLp (X 0) 2 P) : ∫ ω, X 0 ω ^ 2 ∂P = Var[X 0; P] + (∫ ω, X 0 ω ∂P) ^ 2 := by
  have := variance_eq_sub h
  simp only [Pi.pow_apply] at this
  linarith

theorem integrable_sampleVar (hN : 2 ≤ N) (hX : ∀ k < N, MemLp (X k) 2 P) :
    Integrable (fun ω => sampleVar ((List.range N).map fun k => X k ω)) P := by
  simp only [sampleVar_range N (by omega)]
  refine Integrable.div_const (Integrable.sub (integrable_finsetSum _ fun k hk => (hX k (Finset.mem_range.1 hk)).integrable_sq) ?_) _
  exact (memLp_average hX).integrable_sq.const_mul _

theorem integral_sampleVar (hN : 2 ≤ N) (hX : ∀ k < N, MemLp (X k) 2 P) (hm : ∀ k < N, ∫ ω, X k ω ∂P = m)
    (hv : ∀ k < N, Var[X k; P] = v) (hi : ∀ k < N, ∀ k' < N, k ≠ k' → IndepFun (X k) (X k') P) :
    ∫ ω, sampleVar ((List.range N).map fun k => X k ω) ∂P = v := by
  have hA := memLp_average hX
  simp only [sampleVar_range N (show N ≠ 0 by omega)]
  rw [integral_div, integral_sub (integrable_finsetSum _ fun k hk => (hX k (Finset.mem_range.1 hk)).integrable_sq)
      (hA.integrable_sq.const_mul _), integral_const_mul,
    integral_finsetSum _ fun k hk => (hX k (Finset.mem_range.1 hk)).integrable_sq]
  have e1 : ∀ k ∈ Finset.range N, ∫ ω, X k ω ^ 2 ∂P = v + m ^ 2 := by
    intro k hk
    have hk := Finset.mem_range.1 hk
    rw [integral_sq (X := fun _ => X k) (hX k hk), hv k hk, hm k hk]
  rw [Finset.sum_congr rfl e1, integral_sq (X := fun _ ω => average ((List.range N).map fun k => X k ω)) hA,
    variance_average (by omega) hX hv hi, integral_average (by omega) hX hm]
  have hn : (N : ℝ) ≠ 0 := by positivity
  have hn' : (N : ℝ) - 1 ≠ 0 := by
    have : (2 : ℝ) ≤ N := by exact_mod_cast hN
    linarith
  simp; field_simp; ring

end

/-- The variance of the sum over the levels of the averages of independent draws. -/
theorem variance_levels {Ω : Type} [MeasurableSpace Ω] {P : Measure Ω} {L : Nat} {N : Nat → Nat} {D : Nat → Nat → Ω → ℝ}
    {mu var : Nat → ℝ} (hd : RandomDraws P L N D mu var) (hN : ∀ l < L, 1 ≤ N l) :
    Var[fun ω => ∑ l ∈ Finset.range L, average ((List.range (N l)).map fun k => D l k ω); P] = ∑ l ∈ Finset.range L, var l / N l := by
  simp only [average_range]
  let X : (_ : ℕ) × ℕ → Ω → ℝ := fun p ω => (N p.1 : ℝ)⁻¹ * D p.1 p.2 ω
  have h1 : (fun ω => ∑ l ∈ Finset.range L, (∑ k ∈ Finset.range (N l), D l k ω) / (N l : ℝ)) =
      ∑ p ∈ (Finset.range L).sigma fun l => Finset.range (N l), X p := by
    funext ω
    rw [Finset.sum_apply, Finset.sum_sigma]
    refine Finset.sum_congr rfl fun l _ => ?_
    rw [div_eq_inv_mul, Finset.mul_sum]
  rw [h1, IndepFun.variance_sum, Finset.sum_sigma]
  · refine Finset.sum_congr rfl fun l hl => ?_
    have hl := Finset.mem_range.1 hl
    have hn : (N l : ℝ) ≠ 0 := by have := hN l hl; positivity
    have : ∀ k ∈ Finset.range (N l), Var[X ⟨l, k⟩; P] = (N l : ℝ)⁻¹ ^ 2 * var l := by
      intro k hk
      rw [← hd.variance l hl k (Finset.mem_range.1 hk)]
      exact variance_const_mul _ _ _
    rw [Finset.sum_congr rfl this]
    simp; field_simp
  · intro p hp
    simp only [Finset.mem_sigma, Finset.mem_range] at hp
    exact (hd.finite p.1 hp.1 p.2 hp.2).const_mul _
  · intro p hp p' hp' h
    simp only [Finset.coe_sigma, Set.mem_sigma_iff, Finset.mem_coe, Finset.mem_range] at hp hp'
    have hne : (p.1, p.2) ≠ (p'.1, p'.2) := by
      intro e; apply h
      obtain ⟨a, b⟩ := p; obtain ⟨c, d⟩ := p'
      simp_all
    exact (hd.indep p.1 hp.1 p.2 hp.2 p'.1 hp'.1 p'.2 hp'.2 hne).comp (φ := fun x => (N p.1 : ℝ)⁻¹ * x) (ψ := fun x => (N p'.1 : ℝ)⁻¹ * x)
      (by fun_prop) (by fun_prop)

theorem getD_map_range {α : Type} (f : Nat → α) (d : α) {n i : Nat} (h : i < n) : ((List.range n).map f).getD i d = f i := by
  rw [List.getD_eq_getElem?_getD]; simp [h]

/-- The reported mean and variance as functions of the outcome. -/
theorem estimates_values {Ω : Type} {q : Quantity (Option ℝ)} {sid W L i : Nat} {N : Nat → Nat} {D : Nat → Nat → Ω → ℝ}
    {chunks : Ω → List (Nat × List (Sample (Option ℝ)))} {e : Ω → QuantityMean ℝ} (hq : Built sid .qty q) (hid : IdsIdentify q)
    (hi : i < q.size) (hN : ∀ l < L, 2 ≤ N l) (he : EstimatesFrom q sid W L i N D chunks e) (ω : Ω) :
    (e ω).mean.getD i none = some (∑ l ∈ Finset.range L, average ((List.range (N l)).map fun k => D l k ω)) ∧
    (e ω).var.getD i none = some (∑ l ∈ Finset.range L, sampleVar ((List.range (N l)).map fun k => D l k ω) / (N l : ℝ)) ∧
    ∀ l < L, ((e ω).lVars.getD l []).getD i none = some (sampleVar ((List.range (N l)).map fun k => D l k ω)) := by
  have hE := C46_textbook_estimators sid W L q hq hid _ (he.wf ω) (he.level ω) _ (he.result ω)
  have hlen : ∀ l < L, (usedValues q sid W (levelData (chunks ω) l)).length = N l := by
    intro l hl
    have := congrArg List.length (he.diffs ω l hl)
    simpa [usedDiffs] using this
  have h2 : ∀ l < L, 2 ≤ (usedValues q sid W (levelData (chunks ω) l)).length := fun l hl => by rw [hlen l hl]; exact hN l hl
  obtain ⟨a, b⟩ := C46_totals sid W L q _ _ hE h2
  refine ⟨?_, ?_, ?_⟩
  · rw [a, getD_map_range _ _ hi, listRange_sum]
    congr 1
    exact Finset.sum_congr rfl fun l hl => by rw [he.diffs ω l (Finset.mem_range.1 hl)]
  · rw [b, getD_map_range _ _ hi, listRange_sum]
    congr 1
    exact Finset.sum_congr rfl fun l hl => by rw [he.diffs ω l (Finset.mem_range.1 hl), hlen l (Finset.mem_range.1 hl)]
  · intro l hl
    rw [hE.vars, getD_map_range _ _ hl, getD_map_range _ _ hi, if_neg (by have := h2 l hl; omega), he.diffs ω l hl]

section
variable {Ω : Type} [MeasurableSpace Ω] (P : Measure Ω) [IsProbabilityMeasure P]

/-- C87: if on every level a number of samples that does not depend on their values, at least two, is drawn independently, then the
reported mean has the expectation `Σ mu l`, where `mu l` is the expected difference on level `l`; the expectation of every reported level
variance is the variance of the differences on that level; and the expectation of the reported variance is the variance of the reported
mean, `Σ var l / N l`.  Holds for every quantity built with the API.  `C87_adaptive_counterexample` shows that numbers of samples
chosen after looking at the samples do not give this. -/
theorem C87_unbiased_partial (sid W L : Nat) (q : Quantity (Option ℝ)) (hq : Built sid .qty q) (hid : IdsIdentify q) (i : Nat) (hi : i < q.size)
    (N : Nat → Nat) (hN : ∀ l < L, 2 ≤ N l) (D : Nat → Nat → Ω → ℝ) (mu var : Nat → ℝ) (hd : RandomDraws P L N D mu var)
    (chunks : Ω → List (Nat × List (Sample (Option ℝ)))) (e : Ω → QuantityMean ℝ) (he : EstimatesFrom q sid W L i N D chunks e) :
    ∃ m v : Ω → ℝ, (∀ ω, (e ω).mean.getD i none = some (m ω)) ∧ (∀ ω, (e ω).var.getD i none = some (v ω)) ∧
      MemLp m 2 P ∧ Integrable v P ∧
      ∫ ω, m ω ∂P = ∑ l ∈ Finset.range L, mu l ∧
      Var[m; P] = ∑ l ∈ Finset.range L, var l / N l ∧
      ∫ ω, v ω ∂P = Var[m; P] ∧
      ∀ l < L, ∃ w : Ω → ℝ, (∀ ω, ((e ω).lVars.getD l []).getD i none = some (w ω)) ∧ Integrable w P ∧ ∫ ω, w ω ∂P = var l := by
  have hval := estimates_values hq hid hi hN he
  have hind : ∀ l < L, ∀ k < N l, ∀ k' < N l, k ≠ k' → IndepFun (D l k) (D l k') P := by
    intro l hl k hk k' hk' h
    exact hd.indep l hl k hk l hl k' hk' (by simpa using h)
  have hvar : ∀ l < L, ∫ ω, sampleVar ((List.range (N l)).map fun k => D l k ω) ∂P = var l := fun l hl =>
    integral_sampleVar (hN l hl) (hd.finite l hl) (hd.mean l hl) (hd.variance l hl) (hind l hl)
  have hint : ∀ l < L, Integrable (fun ω => sampleVar ((List.range (N l)).map fun k => D l k ω)) P := fun l hl =>
    integrable_sampleVar (hN l hl) (hd.finite l hl)
  have hV := variance_levels hd fun l hl => by have := hN l hl; omega
  refine ⟨_, _, fun ω => (hval ω).1, fun ω => (hval ω).2.1, ?_, ?_, ?_, hV, ?_, fun l hl => ⟨_, fun ω => (hval ω).2.2 l hl, hint l hl, hvar l hl⟩⟩
  · exact memLp_finset_sum _ fun l hl => memLp_average (hd.finite l (Finset.mem_range.1 hl))
  · exact integrable_finsetSum _ fun l hl => (hint l (Finset.mem_range.1 hl)).div_const _
  · rw [integral_finsetSum _ fun l hl => (memLp_average (hd.finite l (Finset.mem_range.1 hl))).integrable (by norm_num)]
    refine Finset.sum_congr rfl fun l hl => ?_
    have hl := Finset.mem_range.1 hl
    exact integral_average (by have := hN l hl; omega) (hd.finite l hl) (hd.mean l hl)
  · rw [hV, integral_finsetSum _ fun l hl => (hint l (Finset.mem_range.1 hl)).div_const _]
    refine Finset.sum_congr rfl fun l hl => ?_
    rw [integral_div, hvar l (Finset.mem_range.1 hl)]

/-- C87: if moreover the differences are fine minus coarse values, and the coarse values of every level have the expectation of the fine
values of the level below, then the reported mean has the expectation of the fine values of the last level. -/
theorem C87_finest_level_partial (sid W n : Nat) (q : Quantity (Option ℝ)) (hq : Built sid .qty q) (hid : IdsIdentify q) (i : Nat) (hi : i < q.size)
    (N : Nat → Nat) (hN : ∀ l < n + 1, 2 ≤ N l) (fine coarse : Nat → Nat → Ω → ℝ) (a mu var : Nat → ℝ)
    (hfine : ∀ l < n + 1, ∀ k < N l, Integrable (fine l k) P ∧ ∫ ω, fine l k ω ∂P = a l)
    (hcoarse : ∀ l < n, ∀ k < N (l + 1), Integrable (coarse (l + 1) k) P ∧ ∫ ω, coarse (l + 1) k ω ∂P = a l)
    (hd : RandomDraws P (n + 1) N (fun l k ω => if l = 0 then fine l k ω else fine l k ω - coarse l k ω) mu var)
    (chunks : Ω → List (Nat × List (Sample (Option ℝ)))) (e : Ω → QuantityMean ℝ)
    (he : EstimatesFrom q sid W (n + 1) i N (fun l k ω => if l = 0 then fine l k ω else fine l k ω - coarse l k ω) chunks e) :
    ∃ m : Ω → ℝ, (∀ ω, (e ω).mean.getD i none = some (m ω)) ∧ ∫ ω, m ω ∂P = a n := by
  obtain ⟨m, v, h1, _, _, _, h2, _⟩ := C87_unbiased_partial P sid W (n + 1) q hq hid i hi N hN _ _ _ hd chunks e he
  refine ⟨m, h1, ?_⟩
  have e0 : mu 0 = a 0 := by
    have h := hN 0 (by omega)
    rw [← hd.mean 0 (by omega) 0 (by omega), ← (hfine 0 (by omega) 0 (by omega)).2]
    simp
  have es : ∀ l ∈ Finset.range n, mu (l + 1) = a (l + 1) - a l := by
    intro l hl
    have hl := Finset.mem_range.1 hl
    have h := hN (l + 1) (by omega)
    obtain ⟨f1, f2⟩ := hfine (l + 1) (by omega) 0 (by omega)
    obtain ⟨c1, c2⟩ := hcoarse l hl 0 (by omega)
    rw [← hd.mean (l + 1) (by omega) 0 (by omega), ← f2, ← c2, ← integral_sub f1 c1]
    simp
  rw [h2, Finset.sum_range_succ', Finset.sum_congr rfl es, Finset.sum_range_sub, e0]
  ring

/-- C87: the probability that the reported mean of such samples is off by `c` or more is at most its variance over `c²`. -/
theorem C87_confidence_partial (sid W L : Nat) (q : Quantity (Option ℝ)) (hq : Built sid .qty q) (hid : IdsIdentify q) (i : Nat) (hi : i < q.size)
    (N : Nat → Nat) (hN : ∀ l < L, 2 ≤ N l) (D : Nat → Nat → Ω → ℝ) (mu var : Nat → ℝ) (hd : RandomDraws P L N D mu var)
    (chunks : Ω → List (Nat × List (Sample (Option ℝ)))) (e : Ω → QuantityMean ℝ) (he : EstimatesFrom q sid W L i N D chunks e)
    (c : ℝ) (hc : 0 < c) :
    ∃ m : Ω → ℝ, (∀ ω, (e ω).mean.getD i none = some (m ω)) ∧
      P {ω | c ≤ |m ω - ∑ l ∈ Finset.range L, mu l|} ≤ ENNReal.ofReal ((∑ l ∈ Finset.range L, var l / N l) / c ^ 2) := by
  obtain ⟨m, v, h1, _, h2, _, h3, h4, _⟩ := C87_unbiased_partial P sid W L q hq hid i hi N hN D mu var hd chunks e he
  refine ⟨m, h1, ?_⟩
  have := meas_ge_le_variance_div_sq h2 hc
  rwa [h3, h4] at this

end

/-! ## The hypotheses are met -/

namespace ExUnb

/-- One number for each sample. -/
def q : Quantity (Option ℝ) := .storage 7 .scalar
theorem built : Built 7 .qty q := .root _
theorem ids : IdsIdentify q := by intro a ha; simp [q, Quantity.selections] at ha

/-- Outcomes: infinitely many numbers, all drawn from `ν`; on level 1 the fine result is twice the drawn number, the coarse result the number. -/
noncomputable def fine (l k : Nat) (ω : ℕ × ℕ → ℝ) : ℝ := if l = 0 then ω (0, k) else 2 * ω (l, k)
noncomputable def coarse (l k : Nat) (ω : ℕ × ℕ → ℝ) : ℝ := ω (l, k)
/-- Two levels with three and two samples, level 0 in two chunks. -/
noncomputable def chunks (ω : ℕ × ℕ → ℝ) : List (Nat × List (Sample (Option ℝ))) :=
  [(0, [[[some (fine 0 0 ω)]], [[some (fine 0 1 ω)]]]),
   (1, [[[some (fine 1 0 ω)], [some (coarse 1 0 ω)]], [[some (fine 1 1 ω)], [some (coarse 1 1 ω)]]]),
   (0, [[[some (fine 0 2 ω)]]])]
def N (l : Nat) : Nat := 3 - l

theorem ok (ω : ℕ × ℕ → ℝ) : ∃ e, estimateMean q 2 (asChunks 7 1 (chunks ω)) = .ok e := ⟨_, rfl⟩

/-- The difference that enters the estimate. -/
noncomputable def D (l k : Nat) (ω : ℕ × ℕ → ℝ) : ℝ := if l = 0 then fine l k ω else fine l k ω - coarse l k ω
theorem D_eq (l k : Nat) (ω : ℕ × ℕ → ℝ) : D l k ω = ω (l, k) := by
  unfold D fine coarse
  split
  · subst_vars; rfl
  · ring

theorem stored : EstimatesFrom q 7 1 2 0 N D chunks fun ω => (ok ω).choose where
  wf ω := by
    intro c hc
    simp only [chunks, List.mem_cons, List.not_mem_nil, or_false] at hc
    rcases hc with rfl | rfl | rfl <;> simp [batchOf, Batch.WF]
  level ω := by
    intro c hc
    simp only [chunks, List.mem_cons, List.not_mem_nil, or_false] at hc
    rcases hc with rfl | rfl | rfl <;> simp
  diffs ω l hl := by
    match l, hl with
    | 0, _ => rfl
    | 1, _ => rfl
  result ω := (ok ω).choose_spec

variable (ν : Measure ℝ) [IsProbabilityMeasure ν]

theorem draws (hν : MemLp id 2 ν) :
    RandomDraws (Measure.infinitePi fun _ : ℕ × ℕ => ν) 2 N D (fun _ => ∫ x, x ∂ν) (fun _ => Var[id; ν]) := by
  have hD : ∀ l k, D l k = (id : ℝ → ℝ) ∘ (fun ω : ℕ × ℕ → ℝ => ω (l, k)) := by intro l k; funext ω; exact D_eq l k ω
  have mp : ∀ p : ℕ × ℕ, MeasurePreserving (fun ω : ℕ × ℕ → ℝ => ω p) (Measure.infinitePi fun _ : ℕ × ℕ => ν) ν := fun p =>
    measurePreserving_eval_infinitePi (fun _ : ℕ × ℕ => ν) p
  constructor
  · intro l _ k _
    rw [hD]; exact hν.comp_measurePreserving (mp _)
  · intro l _ k _
    rw [hD]
    have h := integral_map (mp (l, k)).aemeasurable (f := (id : ℝ → ℝ)) (by fun_prop)
    rw [(mp (l, k)).map_eq] at h
    exact h.symm
  · intro l _ k _
    rw [hD]; exact (mp (l, k)).variance_fun_comp (by fun_prop)
  · intro l _ k _ l' _ k' _ h
    rw [hD, hD]
    exact (iIndepFun_infinitePi (P := fun _ : ℕ × ℕ => ν) (X := fun _ x => x) (by fun_prop)).indepFun h

example (hν : MemLp id 2 ν) :=
  C87_unbiased_partial (Measure.infinitePi fun _ : ℕ × ℕ => ν) 7 1 2 q built ids 0 (by decide) N (by decide) D _ _ (draws ν hν) chunks _ stored

/-! Nine times three equally likely outcomes: three samples, each 1 with probability 1/3 and 0 otherwise. -/

/-- The value of sample `k`. -/
noncomputable def x (ω : Fin 3 × Fin 3 × Fin 3) (k : Nat) : ℝ :=
  if (if k = 0 then ω.1 else if k = 1 then ω.2.1 else ω.2.2) = 0 then 1 else 0
/-- The first `n` samples stored on the only level. -/
noncomputable def first (ω : Fin 3 × Fin 3 × Fin 3) (n : Nat) : List (Nat × List (Sample (Option ℝ))) :=
  [(0, (List.range n).map fun k => [[some (x ω k)]])]

theorem first_estimate (ω : Fin 3 × Fin 3 × Fin 3) (n : Nat) (hn : n = 2 ∨ n = 3) :
    ∃ e, estimateMean q 1 (asChunks 7 1 (first ω n)) = .ok e ∧
      e.mean.getD 0 none = some (average ((List.range n).map fun k => x ω k)) ∧
      (e.lVars.getD 0 []).getD 0 none = some (sampleVar ((List.range n).map fun k => x ω k)) := by
  have hok : ∃ e, estimateMean q 1 (asChunks 7 1 (first ω n)) = .ok e := by
    rcases hn with rfl | rfl <;> exact ⟨_, rfl⟩
  obtain ⟨e, he⟩ := hok
  have hf : EstimatesFrom (Ω := Unit) q 7 1 1 0 (fun _ => n) (fun _ k _ => x ω k) (fun _ => first ω n) fun _ => e := by
    refine ⟨fun _ => ?_, fun _ => ?_, fun _ l hl => ?_, fun _ => he⟩
    · intro c hc
      simp only [first, List.mem_cons, List.not_mem_nil, or_false] at hc
      subst hc
      simp [batchOf, Batch.WF]
    · intro c hc
      simp only [first, List.mem_cons, List.not_mem_nil, or_false] at hc
      subst hc; simp
    · obtain rfl : l = 0 := by omega
      rcases hn with rfl | rfl <;> rfl
  obtain ⟨a, _, b⟩ := estimates_values built ids (by decide) (fun _ _ => by rcases hn with rfl | rfl <;> omega) hf ()
  refine ⟨e, he, ?_, b 0 (by omega)⟩
  rw [a]; simp

theorem alloc_zero : Alloc.nSamples (L := 1) (M := 0) (1 / 6) (fun _ _ => 0) (fun _ => 1) 1 0 = 2 := by
  simp [Alloc.nSamples, Alloc.estimateSafe, Alloc.estimate, Alloc.total, Alloc.npRound]

theorem alloc_half : Alloc.nSamples (L := 1) (M := 0) (1 / 6) (fun _ _ => 1 / 2) (fun _ => 1) 1 0 = 3 := by
  have h1 : Real.sqrt (1 / 2 * 1) / 1 * (∑ _k : Fin 1, Real.sqrt (1 / 2 * 1)) / (1 / 6) = ((3 : ℤ) : ℝ) := by
    simp only [Finset.univ_unique, Finset.sum_const, Finset.card_singleton, one_smul, div_one, mul_one]
    rw [Real.mul_self_sqrt (by norm_num)]; norm_num
  have h2 : Alloc.npRound ((3 : ℤ) : ℝ) = 3 := by
    unfold Alloc.npRound
    rw [Int.fract_intCast, Int.floor_intCast]; norm_num
  simp only [Alloc.nSamples, Alloc.estimateSafe, Alloc.estimate, Alloc.total]
  rw [h1, h2]
  norm_num

end ExUnb

open ExUnb in
/-- C87 fails for numbers of samples chosen from the samples themselves: three samples are available, each 1 with probability 1/3 and 0
otherwise (27 equally likely outcomes).  The program stores two, computes from their reported variance the number of samples for the target variance
1/6 with `estimate_n_samples_for_target_variance` (it is two or three), stores that many, and estimates the mean.  The expectation of a sample is 1/3,
the expectation of the reported mean 25/81. -/
theorem C87_adaptive_counterexample :
    ∃ m : Fin 3 × Fin 3 × Fin 3 → ℝ,
      (∀ ω, ∃ e₀ v e, estimateMean q 1 (asChunks 7 1 (first ω 2)) = .ok e₀ ∧ (e₀.lVars.getD 0 []).getD 0 none = some v ∧
        estimateMean q 1 (asChunks 7 1 (first ω (Alloc.nSamples (L := 1) (M := 0) (1 / 6) (fun _ _ => v) (fun _ => 1) 1 0))) = .ok e ∧
        e.mean.getD 0 none = some (m ω)) ∧
      (∀ k < 3, (∑ ω, x ω k) / 27 = 1 / 3) ∧ (∑ ω, m ω) / 27 = 25 / 81 := by
  have h20 : (2 : Fin 3) ≠ 0 := by decide
  refine ⟨fun ω => if x ω 0 = x ω 1 then x ω 0 else (1 + x ω 2) / 3, fun ω => ?_, ?_, ?_⟩
  · obtain ⟨e₀, h1, _, h2⟩ := first_estimate ω 2 (Or.inl rfl)
    have hx : ∀ k, x ω k = 0 ∨ x ω k = 1 := by intro k; unfold x; split_ifs <;> simp
    by_cases h : x ω 0 = x ω 1
    · have hv : sampleVar ((List.range 2).map fun k => x ω k) = 0 := by
        simp [sampleVar, average, List.range_succ, h]
      obtain ⟨e, h3, h4, _⟩ := first_estimate ω 2 (Or.inl rfl)
      refine ⟨e₀, 0, e, h1, by rw [h2, hv], by rw [alloc_zero]; exact h3, ?_⟩
      beta_reduce
      rw [h4, if_pos h]
      simp [average, List.range_succ, h]
    · have hs : x ω 0 + x ω 1 = 1 := by
        rcases hx 0 with a | a <;> rcases hx 1 with b | b <;> rw [a, b] at h ⊢ <;> simp_all
      have hv : sampleVar ((List.range 2).map fun k => x ω k) = 1 / 2 := by
        rcases hx 0 with a | a <;> rcases hx 1 with b | b <;> rw [a, b] at h <;> simp [sampleVar, average, List.range_succ, a, b] at h ⊢ <;> norm_num
      obtain ⟨e, h3, h4, _⟩ := first_estimate ω 3 (Or.inr rfl)
      refine ⟨e₀, 1 / 2, e, h1, by rw [h2, hv], by rw [alloc_half]; exact h3, ?_⟩
      beta_reduce
      rw [h4, if_neg h]
      simp only [average, List.range_succ, List.range_zero, List.nil_append, List.cons_append, List.map_cons, List.map_nil, List.sum_cons, List.sum_nil,
        List.length_cons, List.length_nil]
      rw [← hs]; norm_num; ring
  · intro k hk
    interval_cases k <;> simp only [Fintype.sum_prod_type, Fin.sum_univ_three, x] <;> norm_num [h20]
  · simp only [Fintype.sum_prod_type, Fin.sum_univ_three, x]; norm_num [h20]

end MLMC
