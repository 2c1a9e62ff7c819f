import Mathlib.Algebra.BigOperators.Field
import Verif.Spec.FailingStats
import Verif.Props.ProgramStats
/-
C133: what whole programs report about random simulations that may fail.
-/
namespace MLMC
open MeasureTheory ProbabilityTheory Filter Topology

variable {Cfg C : Type}

theorem simSamples_skip {K : Type} (md5 : SampleId → List UInt8) (sim : PoolSim Cfg K C) (n : Nat)
    (h : ∀ f c, outcome md5 (sampleTag sim.level n) sim = .pair f c → ¬ WellFormed sim.fmt (.pair f c)) : simSamples md5 sim (n + 1) = simSamples md5 sim n := by
  simp only [simSamples, goodSamples, List.range_succ, List.filterMap_append, List.map_append]
  cases ho : outcome md5 (sampleTag sim.level n) sim with
  | raised m => simp [ho]
  | notPair m => simp [ho]
  | pair f c => simp [ho, h f c ho]

/-- The differences of the samples of a level that are used. -/
theorem results_all {F : Type} [Zero F] [Sub F] {env : ProgEnv Cfg (Option F) C} (he : env.Proper) {q : Quantity (Option F)} {sid W i l : Nat} {d : Nat → Option F}
    {sim : PoolSim Cfg (Option F) C} (hs : env.sims[l]? = some sim) :
    ∀ N, (∀ k < N, SeedResult env.sims q sid W i l (computeSeed env.md5 (sampleTag l k)) (d k)) →
      usedDiffs q sid W l i (simSamples env.md5 sim N) = (List.range N).filterMap d
  | 0, _ => rfl
  | N + 1, h => by
    have ih := results_all he hs N fun k hk => h k (by omega)
    have hN := h N (by omega)
    have hl := he.level l sim hs
    rw [List.range_succ, List.filterMap_append]
    cases hd : d N with
    | some x =>
      rw [hd] at hN
      obtain ⟨sim', f, c, h1, h2, h3, h4⟩ := hN
      rw [hs] at h1; injection h1 with h1; subst h1
      rw [simSamples_succ env.md5 sim N (by rw [hl]; exact h2) h3, usedDiffs_append, ih, hl, h4]
      simp [hd]
    | none =>
      rw [hd] at hN
      obtain ⟨sim', h1, h2⟩ := hN
      rw [hs] at h1; injection h1 with h1; subst h1
      have hnil : [N].filterMap d = [] := by simp [hd]
      rw [hnil, List.append_nil]
      by_cases hw : ∃ f c, outcome env.md5 (sampleTag sim.level N) sim = .pair f c ∧ WellFormed sim.fmt (.pair f c)
      · obtain ⟨f, c, w1, w2⟩ := hw
        rw [simSamples_succ env.md5 sim N w1 w2, usedDiffs_append, ih, hl]
        rw [hl] at w1
        rw [h2 f c w1 w2, List.append_nil]
      · rw [simSamples_skip env.md5 sim N fun f c w1 w2 => hw ⟨f, c, w1, w2⟩, ih]

/-- What a program reports is an estimate from the differences its successful simulations yield. -/
theorem reports_estimateOf_failing {env : ProgEnv Cfg (Option ℝ) C} {W L : Nat} {ops : List ProgOp} (hs : env.Sound W L ops) {c : Nat → Nat} (hc : ∀ l, 0 < c l) {sid i : Nat}
    {q : Quantity (Option ℝ)} {e : QuantityMean ℝ} (hr : env.Reports ops c sid q e) {d : Nat → Nat → Option ℝ}
    (hy : ∀ l < L, ∀ k < wantedCount l ops, SeedResult env.sims q sid W i l (computeSeed env.md5 (sampleTag l k)) (d l k)) :
    EstimateOf q sid W L i (fun l => ((List.range (wantedCount l ops)).filterMap (d l)).length) (fun l k => ((List.range (wantedCount l ops)).filterMap (d l)).getD k 0) e := by
  obtain ⟨hp, ha, rfl, ho⟩ := hs
  obtain ⟨debug, hasDir, dirs, t, p, h1, h2⟩ := hr
  obtain ⟨chunks, c1, c2, c3, c4⟩ := program_chunks env hp W ha debug hasDir dirs ops ho t (by
    intro l hl h0
    rw [C86_empty_level env hp debug hasDir dirs ops ho t l hl h0 c sid q p h1] at h2
    simp at h2) c hc sid q p h1
  rw [c4] at h2
  refine ⟨chunks, c1, c2, fun l hl => ?_, h2⟩
  have hsl := List.getElem?_eq_getElem hl
  rw [c3 l hl]
  simp only [wantedSamples, hsl]
  rw [results_all hp hsl _ (hy l hl)]
  refine List.ext_getElem (by simp) fun k h1 h2 => ?_
  simp [List.getD_eq_getElem?_getD, List.getElem?_eq_getElem h1]

theorem range_getD (xs : List ℝ) : ((List.range xs.length).map fun k => xs.getD k 0) = xs := by
  refine List.ext_getElem (by simp) fun k h1 h2 => ?_
  simp [List.getD_eq_getElem?_getD, List.getElem?_eq_getElem h2]

theorem filterMap_sum (d : Nat → Option ℝ) (N : Nat) : ((List.range N).filterMap d).sum = ∑ k ∈ Finset.range N, (d k).getD 0 ∧
    (((List.range N).filterMap d).length : ℝ) = ∑ k ∈ Finset.range N, if (d k).isSome then (1 : ℝ) else 0 := by
  induction N with
  | zero => simp
  | succ N ih =>
    rw [List.range_succ, List.filterMap_append, List.sum_append, List.length_append, Finset.sum_range_succ, Finset.sum_range_succ, ih.1, Nat.cast_add, ih.2]
    cases h : d N <;> simp [h]

section
variable {Ω : Type} [MeasurableSpace Ω] {P : Measure Ω} [IsProbabilityMeasure P]

theorem seedMean_card (g : Nat → Option ℝ) : seedMean (fun s => if (g s).isSome then (1 : ℝ) else 0) = ((Finset.range seedCount).filter fun s => (g s).isSome).card / seedCount := by
  rw [seedMean, Finset.sum_boole]

/-- Averages of the successful values converge to the mean over the successful seeds. -/
theorem failing_limit {md5 : Ω → SampleId → List UInt8} (hm : RandomSeeds P md5) (l : Nat) (g : Nat → Option ℝ) (hg : ∃ s < seedCount, (g s).isSome) :
    ∀ᵐ ω ∂P, Tendsto (fun n : ℕ => average ((List.range n).filterMap fun k => g (computeSeed (md5 ω) (sampleTag l k)))) atTop (𝓝 (seedMeanGiven g)) ∧
      Tendsto (fun n : ℕ => ((List.range n).filterMap fun k => g (computeSeed (md5 ω) (sampleTag l k))).length) atTop atTop := by
  have h1 := level_limits (seed_draws hm (l + 1) fun _ s => (g s).getD 0) (Nat.lt_succ_self l)
  have h2 := level_limits (seed_draws hm (l + 1) fun _ s => if (g s).isSome then (1 : ℝ) else 0) (Nat.lt_succ_self l)
  have hN : (0 : ℝ) < seedCount := by unfold seedCount; norm_num
  have hcard : (0 : ℝ) < ((Finset.range seedCount).filter fun s => (g s).isSome).card := by
    obtain ⟨s, hs, h⟩ := hg
    exact_mod_cast Finset.card_pos.2 ⟨s, Finset.mem_filter.2 ⟨Finset.mem_range.2 hs, h⟩⟩
  filter_upwards [h1, h2] with ω a b
  have a := a.1
  have b := b.1
  simp only [average_range] at a b
  rw [seedMean_card] at b
  constructor
  · have := a.div b (div_pos hcard hN).ne'
    have e : seedMean (fun s => (g s).getD 0) / (((Finset.range seedCount).filter fun s => (g s).isSome).card / seedCount : ℝ) = seedMeanGiven g := by
      rw [seedMean, seedMeanGiven]; field_simp
    rw [e] at this
    refine this.congr' ?_
    filter_upwards [eventually_gt_atTop 0] with n hn
    rw [average, (filterMap_sum _ n).1, (filterMap_sum _ n).2]
    have hn' : (n : ℝ) ≠ 0 := by exact_mod_cast hn.ne'
    simp only [Pi.div_apply]
    rw [div_div_div_cancel_right₀ hn']
  · have hinf := b.pos_mul_atTop (div_pos hcard hN) (tendsto_natCast_atTop_atTop (R := ℝ))
    refine (tendsto_natCast_atTop_iff (R := ℝ)).1 (hinf.congr' ?_)
    filter_upwards [eventually_gt_atTop 0] with n hn
    have hn' : (n : ℝ) ≠ 0 := by exact_mod_cast hn.ne'
    rw [(filterMap_sum _ n).2]
    field_simp

/-- `C133`: simulations that may fail, with independent uniformly distributed seeds; with the seed `s` level `l` gives the difference `g l s`, or fails (`none`), and on every level some seed
succeeds.  With probability one, the means reported by programs asking for more and more samples converge to the sum of the means over the **successful** seeds of each level. -/
theorem C133_failing_converge (sid W L : Nat) (q : Quantity (Option ℝ)) (hq : Built sid .qty q) (hid : IdsIdentify q) (i : Nat) (hi : i < q.size)
    (md5 : Ω → SampleId → List UInt8) (hm : RandomSeeds P md5) (sims : List (PoolSim Cfg (Option ℝ) C)) (dur : Ω → Nat → ℚ) (c : Nat → Nat) (hc : ∀ l, 0 < c l)
    (g : Nat → Nat → Option ℝ) (hg : ∀ l < L, ∀ s < seedCount, SeedResult sims q sid W i l s (g l s)) (hsome : ∀ l < L, ∃ s < seedCount, (g l s).isSome) :
    ∀ᵐ ω ∂P, ∀ (ops : ℕ → List ProgOp) (e : ℕ → QuantityMean ℝ), (∀ r, (⟨md5 ω, sims, dur ω⟩ : ProgEnv Cfg (Option ℝ) C).Sound W L (ops r)) →
      (∀ l < L, Tendsto (fun r => wantedCount l (ops r)) atTop atTop) →
      (∀ r, (⟨md5 ω, sims, dur ω⟩ : ProgEnv Cfg (Option ℝ) C).Reports (ops r) c sid q (e r)) →
      ∃ m : ℕ → ℝ, (∀ᶠ r in atTop, (e r).mean.getD i none = some (m r)) ∧ Tendsto m atTop (𝓝 (∑ l ∈ Finset.range L, seedMeanGiven (g l))) := by
  have hall : ∀ᵐ ω ∂P, ∀ l < L, Tendsto (fun n : ℕ => average ((List.range n).filterMap fun k => g l (computeSeed (md5 ω) (sampleTag l k)))) atTop (𝓝 (seedMeanGiven (g l))) ∧
      Tendsto (fun n : ℕ => ((List.range n).filterMap fun k => g l (computeSeed (md5 ω) (sampleTag l k))).length) atTop atTop := by
    rw [ae_all_iff]; intro l
    by_cases hl : l < L
    · filter_upwards [failing_limit hm l (g l) (hsome l hl)] with ω w _ using w
    · filter_upwards with ω h; exact absurd h hl
  filter_upwards [hall] with ω hω ops e hs ht hr
  have hest := fun r => reports_estimateOf_failing (hs r) hc (hr r) (d := fun l k => g l (computeSeed (md5 ω) (sampleTag l k)))
    fun l hl k _ => hg l hl _ (computeSeed_lt _ _)
  refine ⟨fun r => ∑ l ∈ Finset.range L, average ((List.range (wantedCount l (ops r))).filterMap fun k => g l (computeSeed (md5 ω) (sampleTag l k))), ?_,
    tendsto_finsetSum _ fun l hl => (hω l (Finset.mem_range.1 hl)).1.comp (ht l (Finset.mem_range.1 hl))⟩
  have hbig : ∀ᶠ r in atTop, ∀ l ∈ Finset.range L, 2 ≤ ((List.range (wantedCount l (ops r))).filterMap fun k => g l (computeSeed (md5 ω) (sampleTag l k))).length := by
    rw [Finset.eventually_all]
    intro l hl
    exact ((hω l (Finset.mem_range.1 hl)).2.comp (ht l (Finset.mem_range.1 hl))).eventually_ge_atTop 2
  filter_upwards [hbig] with r hr
  rw [(estimateOf_values hq hid hi (fun l hl => hr l (Finset.mem_range.2 hl)) (hest r)).1]
  simp only [range_getD]

end

namespace ExFail
open ExSeeds

/-- Fine values of the two levels: the parity of the seed, and twice the parity. -/
noncomputable def fine (l s : Nat) : ℝ := if l = 0 then (s % 2 : ℕ) else 2 * (s % 2 : ℕ)

/-- The coarse value of level 1 is the fine value of level 0. -/
noncomputable def coarse (s : Nat) : ℝ := fine 0 s

noncomputable def sim0 : PoolSim Unit (Option ℝ) Unit := { sim 0 with calculate := fun _ s => .pair (.array [some (fine 0 s)]) (.array [some 0]) }

/-- The simulation of level 1 raises for odd seeds. -/
noncomputable def sim1 : PoolSim Unit (Option ℝ) Unit :=
  { sim 1 with calculate := fun _ s => if s % 2 = 1 then .raised ['e'] else .pair (.array [some (fine 1 s)]) (.array [some (coarse s)]) }

noncomputable def env (md5 : SampleId → List UInt8) : ProgEnv Unit (Option ℝ) Unit := ⟨md5, [sim0, sim1], fun _ => 1⟩

noncomputable def diff (l s : Nat) : Option ℝ := if l = 0 then some (fine 0 s) else if s % 2 = 1 then none else some (fine 1 s - coarse s)

theorem result (l : Nat) (hl : l < 2) (s : Nat) (_ : s < seedCount) : SeedResult [sim0, sim1] ExUnb.q 7 1 0 l s (diff l s) := by
  have hl : l = 0 ∨ l = 1 := by omega
  rcases hl with rfl | rfl
  · exact ⟨sim0, _, _, rfl, rfl, by intro a b h1 h2; cases h1; cases h2; exact ⟨rfl, rfl⟩, rfl⟩
  · by_cases h : s % 2 = 1
    · have e : diff 1 s = none := by simp [diff, h]
      rw [e]
      refine ⟨sim1, rfl, fun f c h1 => ?_⟩
      simp only [sim1, if_pos h] at h1
      cases h1
    · have e : diff 1 s = some (fine 1 s - coarse s) := by simp [diff, h]
      rw [e]
      exact ⟨sim1, .array [some (fine 1 s)], .array [some (coarse s)], rfl, by simp only [sim1, if_neg h], by intro a b h1 h2; cases h1; cases h2; exact ⟨rfl, rfl⟩, rfl⟩

theorem sound (md5 : SampleId → List UInt8) (r : Nat) : (env md5).Sound 1 2 (ops r) := by
  refine ⟨⟨?_, ?_⟩, ⟨?_, ?_⟩, rfl, (ExSeeds.sound md5 r).calls⟩
  · intro l s h
    rcases l with _ | _ | l
    · simp [env] at h; subst h; rfl
    · simp [env] at h; subst h; rfl
    · simp [env] at h
  · intro s hs hw
    simp [env] at hs
    rcases hs with rfl | rfl <;> rfl
  · intro s hs
    simp [env] at hs
    rcases hs with rfl | rfl <;> rfl
  · intro s hs seed f c h
    simp [env] at hs
    rcases hs with rfl | rfl
    · injection h with h1 h2; exact ⟨⟨_, h1.symm⟩, _, h2.symm⟩
    · simp only [sim1] at h
      split at h
      · cases h
      · injection h with h1 h2; exact ⟨⟨_, h1.symm⟩, _, h2.symm⟩

/-- A program with a successful sample on every level reports. -/
theorem report (md5 : SampleId → List UInt8) (r : Nat)
    (hpos : ∀ l < 2, 0 < ((List.range (wantedCount l (ops r))).filterMap fun k => diff l (computeSeed md5 (sampleTag l k))).length) :
    ∃ e, (env md5).Reports (ops r) (fun _ => 3) 7 ExUnb.q e := by
  have hs := sound md5 r
  have hw : ∀ l (hl : l < 2), usedDiffs ExUnb.q 7 1 l 0 (wantedSamples (env md5) (ops r) l) =
      (List.range (wantedCount l (ops r))).filterMap fun k => diff l (computeSeed md5 (sampleTag l k)) := by
    intro l hl
    have hsl := List.getElem?_eq_getElem (l := (env md5).sims) (i := l) hl
    simp only [wantedSamples, hsl]
    exact results_all hs.proper hsl _ fun k _ => result l hl _ (computeSeed_lt md5 (sampleTag l k))
  have hne : ∀ l, l < (env md5).sims.length → wantedSamples (env md5) (ops r) l ≠ [] := by
    intro l hl h0
    have h1 := hw l hl
    have h2 := hpos l hl
    rw [← h1, h0] at h2
    exact absurd h2 (by simp [usedDiffs, usedValues, levelValues])
  obtain ⟨p, hp, _⟩ := C85_program_stores_all_results (env md5) hs.proper true true {} (ops r) hs.calls 7
  obtain ⟨e, he⟩ := C86_estimate_returns (env md5) hs.proper 1 hs.arrays true true {} (ops r) hs.calls 7 hne (fun _ => 3) (fun _ => by omega) 7 ExUnb.q ExUnb.built ExUnb.ids
    (.root _ (by decide)) ⟨⟨1, 1, []⟩, by intro s hs; simp at hs, rfl, [], rfl⟩ ⟨0, by simp [env], by
      intro h0
      have h1 := hw 0 (by omega)
      have h2 := hpos 0 (by omega)
      rw [← h1, usedDiffs, h0] at h2
      simp at h2⟩ p hp
  exact ⟨e, true, true, {}, 7, p, hp, he⟩

theorem sum_parity (n : Nat) : ∑ s ∈ Finset.range (2 * n), ((s % 2 : ℕ) : ℝ) = n := by
  induction n with
  | zero => simp
  | succ n ih =>
    rw [show 2 * (n + 1) = 2 * n + 1 + 1 by ring, Finset.sum_range_succ, Finset.sum_range_succ, ih]
    have h1 : (2 * n) % 2 = 0 := by omega
    have h2 : (2 * n + 1) % 2 = 1 := by omega
    rw [h1, h2]; push_cast; ring

theorem mean_parity : seedMean (fun s => ((s % 2 : ℕ) : ℝ)) = 1 / 2 := by
  obtain ⟨n, hn⟩ : ∃ n, seedCount = 2 * n := ⟨128 * 256 ^ 3, by unfold seedCount; norm_num⟩
  have hpos : 0 < n := by have : 0 < seedCount := by unfold seedCount; norm_num
                          omega
  rw [seedMean, hn, sum_parity]
  have : (n : ℝ) ≠ 0 := by exact_mod_cast hpos.ne'
  push_cast; field_simp

theorem given0 : seedMeanGiven (diff 0) = 1 / 2 := by
  rw [← mean_parity, seedMeanGiven, seedMean]
  have : (Finset.range seedCount).filter (fun s => (diff 0 s).isSome) = Finset.range seedCount := Finset.filter_true_of_mem fun s _ => by simp [diff]
  rw [this, Finset.card_range]
  rfl

theorem given1 : seedMeanGiven (diff 1) = 0 := by
  rw [seedMeanGiven, Finset.sum_eq_zero, zero_div]
  intro s _
  unfold diff
  by_cases h : s % 2 = 1
  · simp [h]
  · have h0 : s % 2 = 0 := by omega
    simp [fine, coarse, h0]

end ExFail

open ExSeeds ExFail in
/-- `C133`, what is not true: the mean of the finest level.  Two levels, the coarse values of level 1 are the fine values of level 0 for every seed; the simulation of level 1 raises for odd
seeds.  With probability one there are programs asking for more and more samples, and the means they report converge to 1/2.  The mean of the fine values of level 1 is 1 over all seeds and 0
over the seeds for which level 1 succeeds. -/
theorem C133_counterexample_bias :
    (∀ s, sim0.calculate () s = .pair (.array [some (fine 0 s)]) (.array [some 0])) ∧
    (∀ s, sim1.calculate () s = if s % 2 = 1 then .raised ['e'] else .pair (.array [some (fine 1 s)]) (.array [some (fine 0 s)])) ∧
    (∀ᵐ ω ∂P, ∃ (ops : ℕ → List ProgOp) (e : ℕ → QuantityMean ℝ) (m : ℕ → ℝ), (∀ l < 2, Tendsto (fun r => wantedCount l (ops r)) atTop atTop) ∧
      (∀ r, (⟨fun id => bytes (ω id), [sim0, sim1], fun _ => 1⟩ : ProgEnv Unit (Option ℝ) Unit).Reports (ops r) (fun _ => 3) 7 ExUnb.q (e r)) ∧
      (∀ᶠ r in atTop, (e r).mean.getD 0 none = some (m r)) ∧ Tendsto m atTop (𝓝 (1 / 2))) ∧
    seedMean (fine 1) = 1 ∧ seedMeanGiven (fun s => if s % 2 = 1 then none else some (fine 1 s)) = 0 := by
  have hsome : ∀ l < 2, ∃ s < seedCount, (diff l s).isSome := fun l _ => ⟨0, by unfold seedCount; norm_num, by unfold diff; split <;> simp⟩
  refine ⟨fun _ => rfl, fun _ => rfl, ?_, ?_, ?_⟩
  · filter_upwards [C133_failing_converge 7 1 2 ExUnb.q ExUnb.built ExUnb.ids 0 (by decide) _ seeds [sim0, sim1] (fun _ _ => 1) (fun _ => 3) (fun _ => by omega) diff result hsome,
      failing_limit seeds 0 (diff 0) (hsome 0 (by omega)), failing_limit seeds 1 (diff 1) (hsome 1 (by omega))] with ω hω h0 h1
    have ht : ∀ l < 2, Tendsto (fun r => wantedCount l (ops r)) atTop atTop := by
      intro l hl
      have : l = 0 ∨ l = 1 := by omega
      rcases this with rfl | rfl
      · exact tendsto_atTop_mono (fun r => by rw [(count r).1]; show r ≤ r + 2; omega) tendsto_id
      · exact tendsto_atTop_mono (fun r => by rw [(count r).2]; show r ≤ 2 * r + 2; omega) tendsto_id
    have hev : ∀ᶠ r in atTop, ∀ l < 2, 0 < ((List.range (wantedCount l (ops r))).filterMap fun k => diff l (computeSeed (fun id => bytes (ω id)) (sampleTag l k))).length := by
      filter_upwards [(h0.2.comp (ht 0 (by omega))).eventually_gt_atTop 0, (h1.2.comp (ht 1 (by omega))).eventually_gt_atTop 0] with r a b l hl
      have : l = 0 ∨ l = 1 := by omega
      rcases this with rfl | rfl
      · exact a
      · exact b
    obtain ⟨r₀, hr₀⟩ := eventually_atTop.1 hev
    choose e he using fun r => ExFail.report (fun id => bytes (ω id)) (r + r₀) (hr₀ (r + r₀) (by omega))
    have ht' : ∀ l < 2, Tendsto (fun r => wantedCount l (ops (r + r₀))) atTop atTop := fun l hl => (ht l hl).comp (tendsto_add_atTop_nat r₀)
    obtain ⟨m, m1, m2⟩ := hω (fun r => ops (r + r₀)) e (fun r => ExFail.sound _ _) ht' he
    refine ⟨_, e, m, ht', he, m1, ?_⟩
    rw [Finset.sum_range_succ, Finset.sum_range_succ, Finset.sum_range_zero, given0, given1] at m2
    simpa using m2
  · have h : seedMean (fine 1) = 2 * seedMean (fun s => ((s % 2 : ℕ) : ℝ)) := by
      rw [seedMean, seedMean, ← mul_div_assoc, Finset.mul_sum]; rfl
    rw [h, mean_parity]; norm_num
  · rw [seedMeanGiven, Finset.sum_eq_zero, zero_div]
    intro s _
    by_cases h : s % 2 = 1
    · simp [h]
    · have h0 : s % 2 = 0 := by omega
      simp [fine, h0]

end MLMC
