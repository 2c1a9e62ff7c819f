import Verif.Spec.ProgramStats
import Verif.Props.Program
import Verif.Props.Unbiased
import Verif.Props.Consistency
import Verif.Props.Confidence
/-
C132: what whole programs report about random simulations.
-/
namespace MLMC
open MeasureTheory ProbabilityTheory Filter Topology

variable {Cfg C : Type}

theorem usedDiffs_append {F : Type} [Zero F] [Sub F] (q : Quantity (Option F)) (sid W l i : Nat) (xs ys : List (Sample (Option F))) :
    usedDiffs q sid W l i (xs ++ ys) = usedDiffs q sid W l i xs ++ usedDiffs q sid W l i ys := by
  simp only [usedDiffs, usedValues, levelValues, List.filterMap_append, List.filter_append, List.map_append]

theorem simSamples_succ {K : Type} (md5 : SampleId → List UInt8) (sim : PoolSim Cfg K C) (n : Nat) {f c : ResPart K}
    (h : outcome md5 (sampleTag sim.level n) sim = .pair f c) (hw : WellFormed sim.fmt (.pair f c)) :
    simSamples md5 sim (n + 1) = simSamples md5 sim n ++ [if sim.level = 0 then [f.content] else [f.content, c.content]] := by
  simp only [simSamples, goodSamples, List.range_succ, List.filterMap_append, List.map_append]
  simp [h, hw]

/-- The differences of all samples of a level. -/
theorem yields_all {F : Type} [Zero F] [Sub F] {env : ProgEnv Cfg (Option F) C} (he : env.Proper) {q : Quantity (Option F)} {sid W i l : Nat} {d : Nat → F}
    {sim : PoolSim Cfg (Option F) C} (hs : env.sims[l]? = some sim) :
    ∀ N, (∀ k < N, env.Yields q sid W i l k (d k)) → usedDiffs q sid W l i (simSamples env.md5 sim N) = (List.range N).map d ∧ (simSamples env.md5 sim N).length = N
  | 0, _ => ⟨rfl, rfl⟩
  | N + 1, h => by
    obtain ⟨ih, il⟩ := yields_all he hs N fun k hk => h k (by omega)
    obtain ⟨sim', f, c, h1, h2, h3, h4⟩ := h N (by omega)
    rw [hs] at h1; injection h1 with h1; subst h1
    have hl := he.level l sim hs
    rw [simSamples_succ env.md5 sim N (by rw [hl]; exact h2) h3, usedDiffs_append, ih, hl, h4, List.range_succ, List.map_append]
    exact ⟨rfl, by simp [il]⟩

theorem wanted_yields {F : Type} [Zero F] [Sub F] {env : ProgEnv Cfg (Option F) C} (he : env.Proper) {q : Quantity (Option F)} {sid W i l : Nat} {d : Nat → F}
    (hl : l < env.sims.length) (ops : List ProgOp) (h : ∀ k < wantedCount l ops, env.Yields q sid W i l k (d k)) :
    usedDiffs q sid W l i (wantedSamples env ops l) = (List.range (wantedCount l ops)).map d ∧ (wantedSamples env ops l).length = wantedCount l ops := by
  have hs := List.getElem?_eq_getElem hl
  simp only [wantedSamples, hs]
  exact yields_all he hs _ h

/-- What a program reports is an estimate from the differences its simulations yield. -/
theorem reports_estimateOf {env : ProgEnv Cfg (Option ℝ) C} {W L : Nat} {ops : List ProgOp} (hs : env.Sound W L ops) {c : Nat → Nat} (hc : ∀ l, 0 < c l) {sid i : Nat}
    {q : Quantity (Option ℝ)} {e : QuantityMean ℝ} (hr : env.Reports ops c sid q e) (hn : ∀ l < L, 0 < wantedCount l ops) {d : Nat → Nat → ℝ}
    (hy : ∀ l < L, ∀ k < wantedCount l ops, env.Yields q sid W i l k (d l k)) : EstimateOf q sid W L i (fun l => wantedCount l ops) d e := by
  obtain ⟨hp, ha, rfl, ho⟩ := hs
  obtain ⟨debug, hasDir, dirs, t, p, h1, h2⟩ := hr
  have hw := fun l (hl : l < env.sims.length) => wanted_yields hp hl ops (hy l hl)
  obtain ⟨chunks, c1, c2, c3, c4⟩ := program_chunks env hp W ha debug hasDir dirs ops ho t (by
    intro l hl h0
    have := (hw l hl).2
    rw [h0] at this
    have := hn l hl
    simp at *; omega) c hc sid q p h1
  rw [c4] at h2
  exact ⟨chunks, c1, c2, fun l hl => by rw [c3 l hl]; exact (hw l hl).1, h2⟩

section
variable {Ω : Type} [MeasurableSpace Ω] {P : Measure Ω} [IsProbabilityMeasure P]

/-- `C132`: programs with fixed calls on simulations with random results: whatever the calls are, with at least two samples on every level, the mean the program reports has the sum of the
expectations of the level differences as its expectation, its variance is the sum of their variances divided by the numbers of requested samples, and the reported variance has this
variance as its expectation. -/
theorem C132_program_unbiased (sid W L : Nat) (q : Quantity (Option ℝ)) (hq : Built sid .qty q) (hid : IdsIdentify q) (i : Nat) (hi : i < q.size)
    (env : Ω → ProgEnv Cfg (Option ℝ) C) (ops : List ProgOp) (hs : ∀ ω, (env ω).Sound W L ops) (c : Nat → Nat) (hc : ∀ l, 0 < c l) (hn : ∀ l < L, 2 ≤ wantedCount l ops)
    (D : Nat → Nat → Ω → ℝ) (mu var : Nat → ℝ) (hd : RandomDraws P L (fun l => wantedCount l ops) D mu var)
    (hy : ∀ ω, ∀ l < L, ∀ k < wantedCount l ops, (env ω).Yields q sid W i l k (D l k ω))
    (e : Ω → QuantityMean ℝ) (hr : ∀ ω, (env ω).Reports ops c sid q (e ω)) :
    ∃ m v : Ω → ℝ, (∀ ω, (e ω).mean.getD i none = some (m ω)) ∧ (∀ ω, (e ω).var.getD i none = some (v ω)) ∧
      ∫ ω, m ω ∂P = ∑ l ∈ Finset.range L, mu l ∧ Var[m; P] = ∑ l ∈ Finset.range L, var l / wantedCount l ops ∧ ∫ ω, v ω ∂P = Var[m; P] := by
  have h := fun ω => (reports_estimateOf (hs ω) hc (hr ω) (fun l hl => by have := hn l hl; omega) (hy ω)).reads
  choose chunks h1 h2 h3 h4 using h
  obtain ⟨m, v, g1, g2, _, _, g3, g4, g5, _⟩ := C87_unbiased_partial P sid W L q hq hid i hi _ hn D mu var hd chunks e ⟨h1, h2, h3, h4⟩
  exact ⟨m, v, g1, g2, g3, g4, g5⟩

/-- With probability one, the means reported by programs that ask for more and more samples on every level converge to the sum of the expectations of the level differences, and
the reported variances to zero.  The calls of each program may depend on everything seen before (they are chosen after the outcome `ω`). -/
theorem programs_converge (sid W L : Nat) (q : Quantity (Option ℝ)) (hq : Built sid .qty q) (hid : IdsIdentify q) (i : Nat) (hi : i < q.size)
    (env : Ω → ProgEnv Cfg (Option ℝ) C) (c : Nat → Nat) (hc : ∀ l, 0 < c l) (D : Nat → Nat → Ω → ℝ) (mu var : Nat → ℝ) (hd : LevelDraws P L D mu var)
    (hy : ∀ ω, ∀ l < L, ∀ k, (env ω).Yields q sid W i l k (D l k ω)) :
    ∀ᵐ ω ∂P, ∀ (ops : ℕ → List ProgOp) (e : ℕ → QuantityMean ℝ), (∀ r, (env ω).Sound W L (ops r)) → (∀ r, ∀ l < L, 0 < wantedCount l (ops r)) →
      (∀ l < L, Tendsto (fun r => wantedCount l (ops r)) atTop atTop) → (∀ r, (env ω).Reports (ops r) c sid q (e r)) →
      ∃ m v : ℕ → ℝ, (∀ᶠ r in atTop, (e r).mean.getD i none = some (m r) ∧ (e r).var.getD i none = some (v r)) ∧
        Tendsto m atTop (𝓝 (∑ l ∈ Finset.range L, mu l)) ∧ Tendsto v atTop (𝓝 0) := by
  filter_upwards [C124_consistent sid W L q hq hid i hi D mu var hd] with ω hω ops e hs hn ht hr
  obtain ⟨m, v, h1, h2, h3, _⟩ := hω (fun r l => wantedCount l (ops r)) e ht fun r =>
    reports_estimateOf (hs r) hc (hr r) (hn r) fun l hl k _ => hy ω l hl k
  exact ⟨m, v, h1, h2, h3⟩

/-- Programs with fixed calls asking for more and more samples, on simulations whose coarse values have the expectation of the fine values of the level below: the probability that the
reported mean differs from the expectation of the fine values of the last level by at most `z` reported standard deviations converges to the probability of `[-z, z]` for a standard normal
variable. -/
theorem program_interval (sid W L : Nat) (q : Quantity (Option ℝ)) (hq : Built sid .qty q) (hid : IdsIdentify q) (i : Nat) (hi : i < q.size)
    (env : Ω → ProgEnv Cfg (Option ℝ) C) (c : Nat → Nat) (hc : ∀ l, 0 < c l)
    (fine coarse : Nat → Nat → Ω → ℝ) (a mu var : Nat → ℝ)
    (hfine : ∀ l < L + 1, Integrable (fine l 0) P ∧ ∫ ω, fine l 0 ω ∂P = a l)
    (hcoarse : ∀ l < L, Integrable (coarse (l + 1) 0) P ∧ ∫ ω, coarse (l + 1) 0 ω ∂P = a l)
    (hd : LevelDraws P (L + 1) (fun l k ω => if l = 0 then fine l k ω else fine l k ω - coarse l k ω) mu var) (hvar : ∃ l < L + 1, 0 < var l)
    (hy : ∀ ω, ∀ l < L + 1, ∀ k, (env ω).Yields q sid W i l k (if l = 0 then fine l k ω else fine l k ω - coarse l k ω))
    (ops : ℕ → List ProgOp) (hs : ∀ r ω, (env ω).Sound W (L + 1) (ops r)) (hn : ∀ r, ∀ l < L + 1, 2 ≤ wantedCount l (ops r))
    (ht : ∀ l < L + 1, Tendsto (fun r => wantedCount l (ops r)) atTop atTop)
    (e : ℕ → Ω → QuantityMean ℝ) (hr : ∀ r ω, (env ω).Reports (ops r) c sid q (e r ω)) :
    ∃ m v : ℕ → Ω → ℝ, (∀ r ω, (e r ω).mean.getD i none = some (m r ω) ∧ (e r ω).var.getD i none = some (v r ω)) ∧
      ∀ z : ℝ, Tendsto (fun r => P {ω | |m r ω - a L| ≤ z * Real.sqrt (v r ω)}) atTop (𝓝 (gaussianReal 0 1 (Set.Icc (-z) z))) :=
  C125_confidence_interval sid W L q hq hid i hi fine coarse a mu var hfine hcoarse hd hvar (fun r l => wantedCount l (ops r)) ht hn e fun r ω =>
    reports_estimateOf (hs r ω) hc (hr r ω) (fun l hl => by have := hn r l hl; omega) fun l hl k _ => hy ω l hl k

/-! ### Random seeds -/

theorem computeSeed_lt (md5 : SampleId → List UInt8) (id : SampleId) : computeSeed md5 id < seedCount := by
  unfold computeSeed seedCount
  split
  · rename_i a b c d _ _
    have := a.toNat_lt; have := b.toNat_lt; have := c.toNat_lt; have := d.toNat_lt
    omega
  · omega

/-- Expectation of a function of a random seed. -/
theorem integral_seed {md5 : Ω → SampleId → List UInt8} (hr : RandomSeeds P md5) (id : SampleId) (g : Nat → ℝ) :
    Integrable (fun ω => g (computeSeed (md5 ω) id)) P ∧ ∫ ω, g (computeSeed (md5 ω) id) ∂P = seedMean g := by
  have hset : ∀ s, MeasurableSet {ω | computeSeed (md5 ω) id = s} := fun s => hr.measurable id (measurableSet_singleton s)
  have hfun : (fun ω => g (computeSeed (md5 ω) id)) =
      fun ω => ∑ s ∈ Finset.range seedCount, Set.indicator {ω | computeSeed (md5 ω) id = s} (fun _ => g s) ω := by
    funext ω
    rw [Finset.sum_eq_single (computeSeed (md5 ω) id)]
    · simp
    · intro b _ hb
      simp [Set.indicator, Ne.symm hb]
    · intro h
      exact absurd (Finset.mem_range.2 (computeSeed_lt _ _)) h
  have hint : ∀ s, Integrable (Set.indicator {ω | computeSeed (md5 ω) id = s} fun _ => g s) P := fun s =>
    (integrable_const (g s)).indicator (hset s)
  rw [hfun]
  refine ⟨integrable_finsetSum _ fun s _ => hint s, ?_⟩
  rw [integral_finsetSum _ fun s _ => hint s, seedMean, Finset.sum_div]
  refine Finset.sum_congr rfl fun s hs => ?_
  rw [integral_indicator_const _ (hset s), Measure.real, hr.uniform id s (Finset.mem_range.1 hs)]
  simp [div_eq_mul_inv, mul_comm]

theorem seed_draws {md5 : Ω → SampleId → List UInt8} (hr : RandomSeeds P md5) (L : Nat) (g : Nat → Nat → ℝ) :
    LevelDraws P L (fun l k ω => g l (computeSeed (md5 ω) (sampleTag l k))) (fun l => seedMean (g l)) (fun l => seedMean fun s => (g l s - seedMean (g l)) ^ 2) := by
  have hg : ∀ l, Measurable (g l) := fun l => measurable_from_top
  have hmem : ∀ l id, MemLp (fun ω => g l (computeSeed (md5 ω) id)) 2 P := fun l id =>
    (memLp_two_iff_integrable_sq ((hg l).comp (hr.measurable id)).aestronglyMeasurable).2 (integral_seed hr id fun s => g l s ^ 2).1
  have hlaw : ∀ id id', P.map (fun ω => computeSeed (md5 ω) id) = P.map fun ω => computeSeed (md5 ω) id' := by
    intro id id'
    refine Measure.ext_of_singleton fun s => ?_
    rw [Measure.map_apply (hr.measurable _) (measurableSet_singleton s), Measure.map_apply (hr.measurable _) (measurableSet_singleton s)]
    by_cases h : s < seedCount
    · exact (hr.uniform id s h).trans (hr.uniform id' s h).symm
    · have : ∀ j, (fun ω => computeSeed (md5 ω) j) ⁻¹' {s} = ∅ := fun j => Set.eq_empty_of_forall_notMem fun ω hω => h (by
        rw [Set.mem_preimage, Set.mem_singleton_iff] at hω
        rw [← hω]; exact computeSeed_lt _ _)
      rw [this, this]
  constructor
  · have h1 := hr.indep.precomp (g := fun p : Fin L × ℕ => sampleTag p.1 p.2) (by
      rintro ⟨l, k⟩ ⟨l', k'⟩ h
      obtain ⟨a, b⟩ := sampleTag_injective h
      exact Prod.ext (Fin.ext a) b)
    exact h1.comp (fun p : Fin L × ℕ => g p.1) fun p => hg _
  · intro l _ k
    have : IdentDistrib (fun ω => computeSeed (md5 ω) (sampleTag l k)) (fun ω => computeSeed (md5 ω) (sampleTag l 0)) P P :=
      ⟨(hr.measurable _).aemeasurable, (hr.measurable _).aemeasurable, hlaw _ _⟩
    exact this.comp (hg l)
  · intro l _; exact hmem l _
  · intro l _; exact (integral_seed hr _ (g l)).2
  · intro l _
    rw [variance_eq_integral (hmem l _).aestronglyMeasurable.aemeasurable, (integral_seed hr _ (g l)).2]
    exact (integral_seed hr _ fun s => (g l s - seedMean (g l)) ^ 2).2

theorem randomDraws_of_level {L : Nat} {D : Nat → Nat → Ω → ℝ} {mu var : Nat → ℝ} (hd : LevelDraws P L D mu var) (N : Nat → Nat) : RandomDraws P L N D mu var := by
  refine ⟨fun l hl k _ => (hd.ident l hl k).memLp_iff.2 (hd.finite l hl), fun l hl k _ => ?_, fun l hl k _ => ?_, fun l hl k _ l' hl' k' _ hne => ?_⟩
  · rw [(hd.ident l hl k).integral_eq, hd.mean l hl]
  · rw [(hd.ident l hl k).variance_eq, hd.variance l hl]
  · exact hd.indep.indepFun (i := (⟨l, hl⟩, k)) (j := (⟨l', hl'⟩, k')) (by
      intro h
      apply hne
      simp only [Prod.mk.injEq, Fin.mk.injEq] at h
      exact Prod.ext h.1 h.2)

/-- `C132`: programs with fixed calls whose samples get independent, uniformly distributed seeds.  The simulation of level `l` gives the difference `g l s` with the seed `s`.  The mean a program
reports has the sum of the means of `g l` over all seeds as its expectation; its variance is the sum of the variances over all seeds, each divided by the number of requested samples; and the
reported variance has this variance as its expectation. -/
theorem C132_seeds_unbiased (sid W L : Nat) (q : Quantity (Option ℝ)) (hq : Built sid .qty q) (hid : IdsIdentify q) (i : Nat) (hi : i < q.size)
    (md5 : Ω → SampleId → List UInt8) (hm : RandomSeeds P md5) (sims : List (PoolSim Cfg (Option ℝ) C)) (dur : Ω → Nat → ℚ) (ops : List ProgOp)
    (hs : ∀ ω, (⟨md5 ω, sims, dur ω⟩ : ProgEnv Cfg (Option ℝ) C).Sound W L ops) (c : Nat → Nat) (hc : ∀ l, 0 < c l) (hn : ∀ l < L, 2 ≤ wantedCount l ops)
    (g : Nat → Nat → ℝ) (hg : ∀ l < L, ∀ s < seedCount, SeedGives sims q sid W i l s (g l s))
    (e : Ω → QuantityMean ℝ) (hr : ∀ ω, (⟨md5 ω, sims, dur ω⟩ : ProgEnv Cfg (Option ℝ) C).Reports ops c sid q (e ω)) :
    ∃ m v : Ω → ℝ, (∀ ω, (e ω).mean.getD i none = some (m ω)) ∧ (∀ ω, (e ω).var.getD i none = some (v ω)) ∧
      ∫ ω, m ω ∂P = ∑ l ∈ Finset.range L, seedMean (g l) ∧
      Var[m; P] = ∑ l ∈ Finset.range L, (seedMean fun s => (g l s - seedMean (g l)) ^ 2) / wantedCount l ops ∧ ∫ ω, v ω ∂P = Var[m; P] :=
  C132_program_unbiased sid W L q hq hid i hi _ ops hs c hc hn _ _ _ (randomDraws_of_level (seed_draws hm L g) _)
    (fun _ l hl _ _ => hg l hl _ (computeSeed_lt _ _)) e hr

/-- `C132`: with probability one, the means reported by programs that ask for more and more samples on every level converge to the sum of the means of the differences over all seeds, and the
reported variances to zero — also if the calls of each program depend on everything seen before (they are chosen after the outcome `ω`). -/
theorem C132_seeds_converge (sid W L : Nat) (q : Quantity (Option ℝ)) (hq : Built sid .qty q) (hid : IdsIdentify q) (i : Nat) (hi : i < q.size)
    (md5 : Ω → SampleId → List UInt8) (hm : RandomSeeds P md5) (sims : List (PoolSim Cfg (Option ℝ) C)) (dur : Ω → Nat → ℚ) (c : Nat → Nat) (hc : ∀ l, 0 < c l)
    (g : Nat → Nat → ℝ) (hg : ∀ l < L, ∀ s < seedCount, SeedGives sims q sid W i l s (g l s)) :
    ∀ᵐ ω ∂P, ∀ (ops : ℕ → List ProgOp) (e : ℕ → QuantityMean ℝ), (∀ r, (⟨md5 ω, sims, dur ω⟩ : ProgEnv Cfg (Option ℝ) C).Sound W L (ops r)) →
      (∀ r, ∀ l < L, 0 < wantedCount l (ops r)) → (∀ l < L, Tendsto (fun r => wantedCount l (ops r)) atTop atTop) →
      (∀ r, (⟨md5 ω, sims, dur ω⟩ : ProgEnv Cfg (Option ℝ) C).Reports (ops r) c sid q (e r)) →
      ∃ m v : ℕ → ℝ, (∀ᶠ r in atTop, (e r).mean.getD i none = some (m r) ∧ (e r).var.getD i none = some (v r)) ∧
        Tendsto m atTop (𝓝 (∑ l ∈ Finset.range L, seedMean (g l))) ∧ Tendsto v atTop (𝓝 0) :=
  programs_converge sid W L q hq hid i hi (fun ω => ⟨md5 ω, sims, dur ω⟩) c hc _ _ _ (seed_draws hm L g) fun _ l hl _ => hg l hl _ (computeSeed_lt _ _)

/-- `C132`: fine and coarse values as functions of the seed, the coarse values of every level having the mean of the fine values of the level below.  For programs with fixed calls asking for
more and more samples, the probability that the reported mean differs from the mean of the fine values of the last level over all seeds by at most `z` reported standard deviations converges
to the probability of `[-z, z]` for a standard normal variable. -/
theorem C132_seeds_interval (sid W L : Nat) (q : Quantity (Option ℝ)) (hq : Built sid .qty q) (hid : IdsIdentify q) (i : Nat) (hi : i < q.size)
    (md5 : Ω → SampleId → List UInt8) (hm : RandomSeeds P md5) (sims : List (PoolSim Cfg (Option ℝ) C)) (dur : Ω → Nat → ℚ) (c : Nat → Nat) (hc : ∀ l, 0 < c l)
    (fine coarse : Nat → Nat → ℝ) (hfc : ∀ l < L, seedMean (coarse (l + 1)) = seedMean (fine l))
    (hg : ∀ l < L + 1, ∀ s < seedCount, SeedGives sims q sid W i l s (if l = 0 then fine l s else fine l s - coarse l s))
    (hvar : ∃ l < L + 1, ∃ s < seedCount, (if l = 0 then fine l s else fine l s - coarse l s) ≠ seedMean fun s => if l = 0 then fine l s else fine l s - coarse l s)
    (ops : ℕ → List ProgOp) (hs : ∀ r ω, (⟨md5 ω, sims, dur ω⟩ : ProgEnv Cfg (Option ℝ) C).Sound W (L + 1) (ops r)) (hn : ∀ r, ∀ l < L + 1, 2 ≤ wantedCount l (ops r))
    (ht : ∀ l < L + 1, Tendsto (fun r => wantedCount l (ops r)) atTop atTop)
    (e : ℕ → Ω → QuantityMean ℝ) (hr : ∀ r ω, (⟨md5 ω, sims, dur ω⟩ : ProgEnv Cfg (Option ℝ) C).Reports (ops r) c sid q (e r ω)) :
    ∃ m v : ℕ → Ω → ℝ, (∀ r ω, (e r ω).mean.getD i none = some (m r ω) ∧ (e r ω).var.getD i none = some (v r ω)) ∧
      ∀ z : ℝ, Tendsto (fun r => P {ω | |m r ω - seedMean (fine L)| ≤ z * Real.sqrt (v r ω)}) atTop (𝓝 (gaussianReal 0 1 (Set.Icc (-z) z))) := by
  obtain ⟨l₀, hl₀, s, hs₀, hne⟩ := hvar
  refine program_interval sid W L q hq hid i hi (fun ω => ⟨md5 ω, sims, dur ω⟩) c hc (fun l k ω => fine l (computeSeed (md5 ω) (sampleTag l k)))
    (fun l k ω => coarse l (computeSeed (md5 ω) (sampleTag l k))) (fun l => seedMean (fine l)) _ _ (fun l _ => integral_seed hm _ (fine l))
    (fun l hl => ?_) (seed_draws hm (L + 1) fun l s => if l = 0 then fine l s else fine l s - coarse l s) ⟨l₀, hl₀, ?_⟩
    (fun ω l hl k => hg l hl _ (computeSeed_lt _ _)) ops hs hn ht e hr
  · have := integral_seed hm (sampleTag (l + 1) 0) (coarse (l + 1))
    exact ⟨this.1, this.2.trans (hfc l hl)⟩
  · refine div_pos (Finset.sum_pos' (fun _ _ => sq_nonneg _) ⟨s, Finset.mem_range.2 hs₀, ?_⟩) (by unfold seedCount; norm_num)
    exact sq_pos_of_ne_zero (sub_ne_zero.2 hne)

/-- `C132`, what is not true: with the seeds the code computes — a fixed function of the identifier — the samples cannot be independent for long.  If a program asks for more samples of a level
than there are seeds, whatever is random in the simulations, independent differences with the same variance have the variance zero. -/
theorem C132_counterexample_many_samples (sid W L : Nat) (q : Quantity (Option ℝ)) (i : Nat) (md5 : SampleId → List UInt8) (sims : Ω → List (PoolSim Cfg (Option ℝ) C))
    (dur : Ω → Nat → ℚ) (ops : List ProgOp) (D : Nat → Nat → Ω → ℝ) (mu var : Nat → ℝ) (hd : RandomDraws P L (fun l => wantedCount l ops) D mu var)
    (hy : ∀ ω, ∀ l < L, ∀ k < wantedCount l ops, (⟨md5, sims ω, dur ω⟩ : ProgEnv Cfg (Option ℝ) C).Yields q sid W i l k (D l k ω)) (l : Nat) (hl : l < L)
    (hmany : seedCount < wantedCount l ops) : var l = 0 := by
  obtain ⟨a, ha, b, hb, hab, he⟩ := Finset.exists_ne_map_eq_of_card_lt_of_maps_to (s := Finset.range (wantedCount l ops)) (t := Finset.range seedCount)
    (by rw [Finset.card_range, Finset.card_range]; exact hmany) (f := fun k => computeSeed md5 (sampleTag l k))
    (fun k _ => Finset.mem_coe.2 (Finset.mem_range.2 (computeSeed_lt md5 (sampleTag l k))))
  have ha := Finset.mem_range.1 ha; have hb := Finset.mem_range.1 hb
  have hD : D l a = D l b := by
    funext ω
    obtain ⟨sim, f, c, h1, h2, _, h4⟩ := hy ω l hl a ha
    obtain ⟨sim', f', c', g1, g2, _, g4⟩ := hy ω l hl b hb
    have h1 : (sims ω)[l]? = some sim := h1
    have g1 : (sims ω)[l]? = some sim' := g1
    have h2 : sim.calculate sim.cfg (computeSeed md5 (sampleTag l a)) = .pair f c := h2
    have g2 : sim'.calculate sim'.cfg (computeSeed md5 (sampleTag l b)) = .pair f' c' := g2
    have he : computeSeed md5 (sampleTag l a) = computeSeed md5 (sampleTag l b) := he
    rw [h1] at g1; injection g1 with g1; subst g1
    rw [he, g2] at h2; injection h2 with e1 e2; subst e1; subst e2
    rw [h4] at g4
    simpa using g4
  have hind := hd.indep l hl a ha l hl b hb (by simpa using hab)
  rw [← hD] at hind
  rw [← hd.variance l hl a ha, ← covariance_self (hd.finite l hl a ha).aestronglyMeasurable.aemeasurable]
  exact hind.covariance_eq_zero (hd.finite l hl a ha) (hd.finite l hl a ha)

end

namespace ExSeeds

/-- The four bytes of a seed. -/
def bytes (n : Nat) : List UInt8 := [UInt8.ofNat n, UInt8.ofNat (n / 256), UInt8.ofNat (n / 256 ^ 2), UInt8.ofNat (n / 256 ^ 3)]

theorem bytes_seed (f : SampleId → Nat) (id : SampleId) (h : f id < seedCount) : computeSeed (fun id => bytes (f id)) id = f id := by
  unfold seedCount at h
  simp only [computeSeed, bytes, UInt8.toNat_ofNat']
  omega

instance : NeZero seedCount := ⟨by unfold seedCount; norm_num⟩

/-- All functions from identifiers to seeds, all values drawn independently and uniformly. -/
noncomputable def P : Measure (SampleId → Fin seedCount) := Measure.infinitePi fun _ => uniformOn Set.univ

instance : IsProbabilityMeasure (uniformOn (Set.univ : Set (Fin seedCount))) := uniformOn_isProbabilityMeasure Set.finite_univ Set.univ_nonempty

instance : IsProbabilityMeasure P := by unfold P; infer_instance

theorem seeds : RandomSeeds P fun ω id => bytes (ω id) := by
  have e : ∀ id, (fun ω : SampleId → Fin seedCount => computeSeed (fun id => bytes (ω id)) id) = fun ω => ((ω id : Fin seedCount) : ℕ) := fun id => by
    funext ω; exact bytes_seed (fun id => ω id) id (ω id).2
  have hmeas : Measurable fun x : Fin seedCount => (x : ℕ) := measurable_from_top
  refine ⟨fun id => ?_, fun id s hs => ?_, ?_⟩
  · rw [e]; exact hmeas.comp (measurable_pi_apply id)
  · have mp : MeasurePreserving (fun ω : SampleId → Fin seedCount => ω id) P (uniformOn Set.univ) := measurePreserving_eval_infinitePi (fun _ : SampleId => uniformOn Set.univ) id
    have h1 : {ω : SampleId → Fin seedCount | computeSeed (fun id => bytes (ω id)) id = s} = (fun ω => ω id) ⁻¹' {⟨s, hs⟩} := by
      ext ω
      have := congrFun (e id) ω
      simp only [Set.mem_setOf_eq, Set.mem_preimage, Set.mem_singleton_iff]
      rw [this, Fin.ext_iff]
    rw [h1, mp.measure_preimage (measurableSet_singleton _).nullMeasurableSet, uniformOn_univ]
    simp
  · have h := iIndepFun_infinitePi (P := fun _ : SampleId => uniformOn (Set.univ : Set (Fin seedCount))) (X := fun _ x => (x : ℕ)) (fun _ => hmeas)
    have : (fun (id : SampleId) (ω : SampleId → Fin seedCount) => computeSeed (fun id => bytes (ω id)) id) = fun id ω => ((ω id : Fin seedCount) : ℕ) := by
      funext id; exact e id
    rw [this]; exact h

/-- Two levels: the fine value of level 0 is the seed `s`, on level 1 the fine value is `2 s` and the coarse value `s`. -/
noncomputable def sim (l : Nat) : PoolSim Unit (Option ℝ) Unit :=
  { level := l, cfg := (), workspace := false, filesOk := true
    calculate := fun _ s => .pair (.array [some ((l + 1) * s : ℝ)]) (.array [some (l * s : ℝ)])
    files := fun _ _ => (), fmt := [⟨['q'], ['m'], [1], [1], [.name ['a']]⟩] }

noncomputable def env (md5 : SampleId → List UInt8) : ProgEnv Unit (Option ℝ) Unit := ⟨md5, [sim 0, sim 1], fun _ => 1⟩

def ops (r : Nat) : List ProgOp := [.setInitial [(r + 2 : ℕ), (2 * r + 2 : ℕ)], .schedule none [0]]

theorem count (r : Nat) : wantedCount 0 (ops r) = r + 2 ∧ wantedCount 1 (ops r) = 2 * r + 2 := by
  constructor
  · simp only [wantedCount, ops, List.foldl, Want.step, List.getD_cons_zero]
    rw [Int.floor_natCast]; simp; omega
  · simp only [wantedCount, ops, List.foldl, Want.step, List.getD_cons_zero, List.getD_cons_succ]
    rw [Int.floor_natCast]; simp; omega

theorem sound (md5 : SampleId → List UInt8) (r : Nat) : (env md5).Sound 1 2 (ops r) := by
  refine ⟨⟨?_, ?_⟩, ⟨?_, ?_⟩, rfl, ?_⟩
  · intro l s h
    rcases l with _ | _ | l
    · simp [env] at h; subst h; rfl
    · simp [env] at h; subst h; rfl
    · simp [env] at h
  · intro s hs hw
    simp [env] at hs
    rcases hs with rfl | rfl <;> rfl
  · intro s hs
    simp [env] at hs
    rcases hs with rfl | rfl <;> rfl
  · intro s hs seed f c h
    simp [env] at hs
    rcases hs with rfl | rfl <;> · injection h with h1 h2; exact ⟨⟨_, h1.symm⟩, _, h2.symm⟩
  · intro o ho
    simp only [ops, List.mem_cons, List.not_mem_nil, or_false] at ho
    rcases ho with rfl | rfl <;> simp [ProgOp.Proper]

theorem gives (l : Nat) (hl : l < 2) (s : Nat) (_ : s < seedCount) :
    SeedGives [sim 0, sim 1] ExUnb.q 7 1 0 l s (if l = 0 then (fun (l s : Nat) => ((l + 1) * s : ℝ)) l s else (fun (l s : Nat) => ((l + 1) * s : ℝ)) l s - (fun (l s : Nat) => (l * s : ℝ)) l s) := by
  have hl : l = 0 ∨ l = 1 := by omega
  rcases hl with rfl | rfl
  · exact ⟨sim 0, _, _, rfl, rfl, by intro a b h1 h2; cases h1; cases h2; exact ⟨rfl, rfl⟩, rfl⟩
  · exact ⟨sim 1, _, _, rfl, rfl, by intro a b h1 h2; cases h1; cases h2; exact ⟨rfl, rfl⟩, rfl⟩

theorem report (md5 : SampleId → List UInt8) (r : Nat) : ∃ e, (env md5).Reports (ops r) (fun _ => 3) 7 ExUnb.q e := by
  have hs := sound md5 r
  have hy : ∀ l (hl : l < 2), ∀ k < wantedCount l (ops r), (env md5).Yields ExUnb.q 7 1 0 l k _ := fun l hl k _ => gives l hl _ (computeSeed_lt md5 (sampleTag l k))
  have hw := fun l (hl : l < 2) => wanted_yields hs.proper (l := l) hl (ops r) (hy l hl)
  have hpos : ∀ l, l < 2 → 0 < wantedCount l (ops r) := by
    intro l hl
    have : l = 0 ∨ l = 1 := by omega
    rcases this with rfl | rfl
    · rw [(count r).1]; omega
    · rw [(count r).2]; omega
  have hne : ∀ l, l < (env md5).sims.length → wantedSamples (env md5) (ops r) l ≠ [] := by
    intro l hl h0
    have := (hw l hl).2
    rw [h0] at this
    have := hpos l hl
    simp at *; omega
  obtain ⟨p, hp, _⟩ := C85_program_stores_all_results (env md5) hs.proper true true {} (ops r) hs.calls 7
  obtain ⟨e, he⟩ := C86_estimate_returns (env md5) hs.proper 1 hs.arrays true true {} (ops r) hs.calls 7 hne (fun _ => 3) (fun _ => by omega) 7 ExUnb.q ExUnb.built ExUnb.ids
    (.root _ (by decide)) ⟨⟨1, 1, []⟩, by intro s hs; simp at hs, rfl, [], rfl⟩ ⟨0, by simp [env], by
      intro h0
      have := (hw 0 (by omega)).1
      rw [usedDiffs, h0, (count r).1] at this
      simp at this⟩ p hp
  exact ⟨e, true, true, {}, 7, p, hp, he⟩

theorem two_le (r l : Nat) (hl : l < 1 + 1) : 2 ≤ wantedCount l (ops r) := by
  have : l = 0 ∨ l = 1 := by omega
  rcases this with rfl | rfl
  · rw [(count r).1]; omega
  · rw [(count r).2]; omega

/-- The probability that the mean reported from `r + 2` and `2 r + 2` samples differs from the mean of `2 s` over all seeds by at most `z` reported standard deviations converges. -/
example := C132_seeds_interval 7 1 1 ExUnb.q ExUnb.built ExUnb.ids 0 (by decide) _ seeds [sim 0, sim 1] (fun _ _ => 1) (fun _ => 3) (fun _ => by omega)
  (fun l s => ((l + 1) * s : ℝ)) (fun l s => (l * s : ℝ)) (fun l hl => by
    obtain rfl : l = 0 := by omega
    simp [seedMean]) gives
  ⟨0, by omega, 0, by unfold seedCount; norm_num, by
    simp only [if_true]
    refine ne_of_lt ?_
    simp only [Nat.cast_zero, mul_zero]
    refine div_pos (Finset.sum_pos' (fun s _ => by positivity) ⟨1, Finset.mem_range.2 (by unfold seedCount; norm_num), by norm_num⟩) (by unfold seedCount; norm_num)⟩
  ops (fun r ω => sound _ r) two_le (fun l hl => by
    have : l = 0 ∨ l = 1 := by omega
    rcases this with rfl | rfl
    · exact tendsto_atTop_mono (fun r => by rw [(count r).1]; show r ≤ r + 2; omega) tendsto_id
    · exact tendsto_atTop_mono (fun r => by rw [(count r).2]; show r ≤ 2 * r + 2; omega) tendsto_id)
  (fun r ω => (report (fun id => bytes (ω id)) r).choose) (fun r ω => (report (fun id => bytes (ω id)) r).choose_spec)

example (r : Nat) := C132_seeds_unbiased 7 1 2 ExUnb.q ExUnb.built ExUnb.ids 0 (by decide) _ seeds [sim 0, sim 1] (fun _ _ => 1) (ops r) (fun ω => sound _ r) (fun _ => 3)
  (fun _ => by omega) (two_le r) _ gives (fun ω => (report (fun id => bytes (ω id)) r).choose) (fun ω => (report (fun id => bytes (ω id)) r).choose_spec)

/-- One level with a constant simulation and one more sample than there are seeds. -/
noncomputable def constSim : PoolSim Unit (Option ℝ) Unit := { sim 0 with calculate := fun _ _ => .pair (.array [some 5]) (.array [some 0]) }

theorem countMany : wantedCount 0 [.setInitial [((seedCount + 1 : ℕ) : ℚ)], .schedule none [0]] = seedCount + 1 := by
  simp only [wantedCount, List.foldl, Want.step, List.getD_cons_zero]
  rw [Int.floor_natCast]; simp

example : (0 : ℝ) = 0 := C132_counterexample_many_samples (P := P) 7 1 1 ExUnb.q 0 (fun _ => []) (fun _ => [constSim]) (fun _ _ => 1)
  [.setInitial [((seedCount + 1 : ℕ) : ℚ)], .schedule none [0]] (fun _ _ _ => 5) (fun _ => 5) (fun _ => 0)
  ⟨fun _ _ _ _ => memLp_const 5, fun _ _ _ _ => by simp, fun _ _ _ _ => by rw [variance_eq_integral aemeasurable_const]; simp, fun _ _ _ _ _ _ _ _ _ => indepFun_const_left 5 _⟩
  (fun _ l hl _ _ => by
    obtain rfl : l = 0 := by omega
    exact ⟨constSim, _, _, rfl, rfl, by intro a b h1 h2; cases h1; cases h2; exact ⟨rfl, rfl⟩, rfl⟩) 0 (by omega) (by rw [countMany]; omega)

end ExSeeds

end MLMC
