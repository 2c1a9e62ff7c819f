import Verif.Spec.PoolStats
import Verif.Props.FailingStats
import Verif.Props.ProgramPar
import Verif.Props.ProgramPbs
import Verif.Props.PbsRenew
import Verif.Props.PbsSame
import Verif.Props.ProgramRestart
import Verif.Props.ProgramMem
/-
What programs with workers report about random simulations.
-/
namespace MLMC
open MeasureTheory ProbabilityTheory Filter Topology
variable {Cfg C : Type}

/-- Calls asking a `OneProcessPool` for `n l` samples of each of `L` levels. -/
def askFor (L : Nat) (n : Nat → Nat) : List ProgOp := [.setInitial ((List.range L).map fun l => (n l : ℚ)), .schedule none [0]]

theorem askFor_count (L : Nat) (n : Nat → Nat) (l : Nat) (hl : l < L) : wantedCount l (askFor L n) = n l := by
  have : ((List.range L).map fun l => (n l : ℚ)).getD l 0 = n l := by
    simp [List.getD_eq_getElem?_getD, List.getElem?_range hl]
  simp only [wantedCount, askFor, List.foldl, Want.step, this]
  rw [Int.floor_natCast]; simp

theorem askFor_proper (L : Nat) (n : Nat → Nat) : ∀ o ∈ askFor L n, o.Proper L := by
  intro o ho
  simp only [askFor, List.mem_cons, List.not_mem_nil, or_false] at ho
  rcases ho with rfl | rfl <;> simp [ProgOp.Proper]

theorem sound_of {F : Type} [Field F] {md5 : SampleId → List UInt8} {sims : List (PoolSim Cfg (Option F) C)} {W L : Nat} (h : SimsSound sims W L) (dur : Nat → ℚ) {ops : List ProgOp}
    (ho : ∀ o ∈ ops, o.Proper L) : (⟨md5, sims, dur⟩ : ProgEnv Cfg (Option F) C).Sound W L ops :=
  ⟨⟨h.level, h.files⟩, ⟨h.fmt, h.arrays⟩, h.levels, ho⟩

/-- What any program reports, a program with a `OneProcessPool` asking for the same numbers of samples reports. -/
theorem poolReports_oneProcess {F : Type} [Field F] [CharZero F] {md5 : SampleId → List UInt8} {sims : List (PoolSim Cfg (Option F) C)} {W L : Nat} (h : SimsSound sims W L)
    {n c : Nat → Nat} (hc : ∀ l, 0 < c l) {sid : Nat} {q : Quantity (Option F)} (hq : Built sid .qty q) (hid : IdsIdentify q) {e : QuantityMean F}
    (hr : PoolReports md5 sims n c sid q e) :
    ∀ dur, (⟨md5, sims, dur⟩ : ProgEnv Cfg (Option F) C).Reports (askFor L n) c sid q e := by
  intro dur
  have hs := sound_of (md5 := md5) h dur (askFor_proper L n)
  have hp := hs.proper
  have ho := hs.calls
  have hL := h.levels
  obtain ⟨p1, hp1, -⟩ := C85_program_stores_all_results ⟨md5, sims, dur⟩ hp true true {} (askFor L n) (by rw [show ProgEnv.sims _ = sims from rfl, hL]; exact ho) 7
  refine ⟨true, true, {}, 7, p1, hp1, ?_⟩
  subst hL
  have ha := hs.arrays
  cases hr with
  | oneProcess dur' ops proper asked reports =>
    obtain ⟨debug, hasDir, dirs, t, p, h1, h2⟩ := reports
    have hp' : (⟨md5, sims, dur'⟩ : ProgEnv Cfg (Option F) C).Proper := ⟨h.level, h.files⟩
    rcases holds_same_estimates h.level (ha := ⟨h.fmt, h.arrays⟩) (holds_congr (holds_oneProcess _ hp' debug hasDir dirs ops proper t p h1) asked)
      (holds_congr (holds_oneProcess _ hp true true {} _ ho 7 p1 hp1) fun l hl => askFor_count _ n l hl) c c hc hc sid q hq hid with ⟨e', a, b⟩ | ⟨x, y, a, b⟩
    · rw [h2] at a; injection a with a; rw [b, a]
    · rw [h2] at a; cases a
  | parallel ops rounds p proper asked run reports =>
    rcases C92_same_estimates ⟨md5, sims⟩ h.level W ⟨md5, sims, dur⟩ ⟨rfl, rfl⟩ hp ha ops proper rounds p run true true {} (askFor _ n) ho 7
      (fun l hl => (asked l hl).trans (askFor_count _ n l hl).symm) p1 hp1 c c hc hc sid q hq hid with ⟨e', a, b⟩ | ⟨x, y, a, b⟩
    · rw [reports] at a; injection a with a; rw [b, a]
    · rw [reports] at a; cases a
  | pbs size ops p proper asked run normal noneDies noneWaits reports =>
    rcases C91_same_estimates_partial ⟨md5, sims, size⟩ h.level W ⟨md5, sims, dur⟩ ⟨rfl, rfl⟩ hp ha ops proper p run normal noneDies noneWaits true true {} (askFor _ n) ho 7
      (fun l hl => (asked l hl).trans (askFor_count _ n l hl).symm) p1 hp1 c c hc hc sid q hq hid with ⟨e', a, b⟩ | ⟨x, y, a, b⟩
    · rw [reports] at a; injection a with a; rw [b, a]
    · rw [reports] at a; cases a
  | pbsRenewed size first later cmds pr p proper asked run1 run2 normal noneDies noneWaits reports =>
    rcases C135_same_estimates_partial ⟨md5, sims, size⟩ h.level W ⟨md5, sims, dur⟩ ⟨rfl, rfl⟩ hp ha first later cmds proper pr p run1 run2 normal noneDies noneWaits true true {}
      (askFor _ n) ho 7 (fun l hl => (asked l hl).trans (askFor_count _ n l hl).symm) p1 hp1 c c hc hc sid q hq hid with ⟨e', a, b⟩ | ⟨x, y, a, b⟩
    · rw [reports] at a; injection a with a; rw [b, a]
    · rw [reports] at a; cases a
  | pbsRestarted size es p run gives clean whole honest fails asked all reports =>
    rcases C139_same_estimates_partial ⟨md5, sims, size⟩ h.level W ⟨md5, sims, dur⟩ ⟨rfl, rfl⟩ hp ha es p run gives clean whole honest fails n asked all true true {}
      (askFor _ n) ho 7 (fun l hl => askFor_count _ n l hl) p1 hp1 c c hc hc sid q hq hid with ⟨e', a, b⟩ | ⟨x, y, a, b⟩
    · rw [reports] at a; injection a with a; rw [b, a]
    · rw [reports] at a; cases a
  | sessions dur' ss g proper waits asked run reports =>
    have hp' : (⟨md5, sims, dur'⟩ : ProgEnv Cfg (Option F) C).Proper := ⟨h.level, h.files⟩
    rcases holds_same_estimates h.level (ha := ⟨h.fmt, h.arrays⟩) (holds_congr (holds_sessions _ hp' ss g proper waits run) asked)
      (holds_congr (holds_oneProcess _ hp true true {} _ ho 7 p1 hp1) fun l hl => askFor_count _ n l hl) c c hc hc sid q hq hid with ⟨e', a, b⟩ | ⟨x, y, a, b⟩
    · rw [reports] at a; injection a with a; rw [b, a]
    · rw [reports] at a; cases a
  | memory dur' debug hasDir dirs ops t m proper noRenewal asked results run reports =>
    have hp' : (⟨md5, sims, dur'⟩ : ProgEnv Cfg (Option F) C).Proper := ⟨h.level, h.files⟩
    have ha' : (⟨md5, sims, dur'⟩ : ProgEnv Cfg (Option F) C).Arrays W := ⟨h.fmt, h.arrays⟩
    by_cases h0 : sims = []
    · have := C123_no_results _ hp' debug hasDir dirs ops proper noRenewal t (by intro l; simp [wantedSamples, h0]) sid q m run
      rw [reports] at this; cases this
    · obtain ⟨p, hrun, -⟩ := C85_program_stores_all_results _ hp' debug hasDir dirs ops proper t
      rcases C123_same_as_hdf _ hp' W ha' debug hasDir dirs ops proper noRenewal t h0 results c hc sid q hq hid m run p hrun with ⟨e', a, b⟩ | ⟨x, y, a, b⟩
      · rw [reports] at a; injection a with a; subst a
        rcases holds_same_estimates h.level (ha := ⟨h.fmt, h.arrays⟩) (holds_congr (holds_oneProcess _ hp' debug hasDir dirs ops proper t p hrun) asked)
          (holds_congr (holds_oneProcess _ hp true true {} _ ho 7 p1 hp1) fun l hl => askFor_count _ n l hl) c c hc hc sid q hq hid with ⟨e', a', b'⟩ | ⟨x, y, a', b'⟩
        · rw [b] at a'; injection a' with a'; rw [b', a']
        · rw [b] at a'; cases a'
      · rw [reports] at a; cases a

section
variable {Ω : Type} [MeasurableSpace Ω] {P : Measure Ω} [IsProbabilityMeasure P]

/-- `C134`: programs asking for `n l` samples of level `l` with independent, uniformly distributed seeds, and waiting for them.  The pool is of any kind, and kind, order of finishing and all
moments may depend on the outcome in any way.  The simulation of level `l` gives the difference `g l s` with the seed `s`.  The reported mean has the sum of the means of `g l` over all seeds as
its expectation; its variance is the sum of the variances over all seeds, each divided by the number of samples; and the reported variance has this variance as its expectation. -/
theorem C134_any_pool_unbiased (sid W L : Nat) (q : Quantity (Option ℝ)) (hq : Built sid .qty q) (hid : IdsIdentify q) (i : Nat) (hi : i < q.size)
    (md5 : Ω → SampleId → List UInt8) (hm : RandomSeeds P md5) (sims : List (PoolSim Cfg (Option ℝ) C)) (hs : SimsSound sims W L)
    (n c : Nat → Nat) (hc : ∀ l, 0 < c l) (hn : ∀ l < L, 2 ≤ n l)
    (g : Nat → Nat → ℝ) (hg : ∀ l < L, ∀ s < seedCount, SeedGives sims q sid W i l s (g l s))
    (e : Ω → QuantityMean ℝ) (hr : ∀ ω, PoolReports (md5 ω) sims n c sid q (e ω)) :
    ∃ m v : Ω → ℝ, (∀ ω, (e ω).mean.getD i none = some (m ω)) ∧ (∀ ω, (e ω).var.getD i none = some (v ω)) ∧
      ∫ ω, m ω ∂P = ∑ l ∈ Finset.range L, seedMean (g l) ∧
      Var[m; P] = ∑ l ∈ Finset.range L, (seedMean fun s => (g l s - seedMean (g l)) ^ 2) / n l ∧ ∫ ω, v ω ∂P = Var[m; P] := by
  obtain ⟨m, v, h1, h2, h3, h4, h5⟩ := C132_seeds_unbiased sid W L q hq hid i hi md5 hm sims (fun _ _ => 0) (askFor L n) (fun ω => sound_of hs _ (askFor_proper L n)) c hc
    (fun l hl => by rw [askFor_count L n l hl]; exact hn l hl) g hg e fun ω => poolReports_oneProcess hs hc hq hid (hr ω) _
  refine ⟨m, v, h1, h2, h3, ?_, h5⟩
  rw [h4]
  exact Finset.sum_congr rfl fun l hl => by rw [askFor_count L n l (Finset.mem_range.1 hl)]

/-- `C134`: with probability one, the means reported by programs that ask for more and more samples on every level and wait for them converge to the sum of the means of the differences over all
seeds, and the reported variances to zero — whatever the pools, the order of finishing, and also if the numbers of samples depend on everything seen. -/
theorem C134_any_pool_converge (sid W L : Nat) (q : Quantity (Option ℝ)) (hq : Built sid .qty q) (hid : IdsIdentify q) (i : Nat) (hi : i < q.size)
    (md5 : Ω → SampleId → List UInt8) (hm : RandomSeeds P md5) (sims : List (PoolSim Cfg (Option ℝ) C)) (hs : SimsSound sims W L) (c : Nat → Nat) (hc : ∀ l, 0 < c l)
    (g : Nat → Nat → ℝ) (hg : ∀ l < L, ∀ s < seedCount, SeedGives sims q sid W i l s (g l s)) :
    ∀ᵐ ω ∂P, ∀ (n : ℕ → Nat → Nat) (e : ℕ → QuantityMean ℝ), (∀ r, ∀ l < L, 0 < n r l) → (∀ l < L, Tendsto (fun r => n r l) atTop atTop) →
      (∀ r, PoolReports (md5 ω) sims (n r) c sid q (e r)) →
      ∃ m v : ℕ → ℝ, (∀ᶠ r in atTop, (e r).mean.getD i none = some (m r) ∧ (e r).var.getD i none = some (v r)) ∧
        Tendsto m atTop (𝓝 (∑ l ∈ Finset.range L, seedMean (g l))) ∧ Tendsto v atTop (𝓝 0) := by
  filter_upwards [C132_seeds_converge sid W L q hq hid i hi md5 hm sims (fun _ _ => 0) c hc g hg] with ω hω n e hn ht hr
  refine hω (fun r => askFor L (n r)) e (fun r => sound_of hs _ (askFor_proper L (n r))) (fun r l hl => by rw [askFor_count L _ l hl]; exact hn r l hl) (fun l hl => ?_)
    fun r => poolReports_oneProcess hs hc hq hid (hr r) _
  exact (ht l hl).congr fun r => (askFor_count L (n r) l hl).symm

/-- `C134`: fine and coarse values as functions of the seed, the coarse values of every level having the mean of the fine values of the level below.  The probability that the reported mean
differs from the mean of the fine values of the last level over all seeds by at most `z` reported standard deviations converges to the probability of `[-z, z]` for a standard normal variable. -/
theorem C134_any_pool_interval (sid W L : Nat) (q : Quantity (Option ℝ)) (hq : Built sid .qty q) (hid : IdsIdentify q) (i : Nat) (hi : i < q.size)
    (md5 : Ω → SampleId → List UInt8) (hm : RandomSeeds P md5) (sims : List (PoolSim Cfg (Option ℝ) C)) (hs : SimsSound sims W (L + 1)) (c : Nat → Nat) (hc : ∀ l, 0 < c l)
    (fine coarse : Nat → Nat → ℝ) (hfc : ∀ l < L, seedMean (coarse (l + 1)) = seedMean (fine l))
    (hg : ∀ l < L + 1, ∀ s < seedCount, SeedGives sims q sid W i l s (if l = 0 then fine l s else fine l s - coarse l s))
    (hvar : ∃ l < L + 1, ∃ s < seedCount, (if l = 0 then fine l s else fine l s - coarse l s) ≠ seedMean fun s => if l = 0 then fine l s else fine l s - coarse l s)
    (n : ℕ → Nat → Nat) (hn : ∀ r, ∀ l < L + 1, 2 ≤ n r l) (ht : ∀ l < L + 1, Tendsto (fun r => n r l) atTop atTop)
    (e : ℕ → Ω → QuantityMean ℝ) (hr : ∀ r ω, PoolReports (md5 ω) sims (n r) c sid q (e r ω)) :
    ∃ m v : ℕ → Ω → ℝ, (∀ r ω, (e r ω).mean.getD i none = some (m r ω) ∧ (e r ω).var.getD i none = some (v r ω)) ∧
      ∀ z : ℝ, Tendsto (fun r => P {ω | |m r ω - seedMean (fine L)| ≤ z * Real.sqrt (v r ω)}) atTop (𝓝 (gaussianReal 0 1 (Set.Icc (-z) z))) :=
  C132_seeds_interval sid W L q hq hid i hi md5 hm sims (fun _ _ => 0) c hc fine coarse hfc hg hvar (fun r => askFor (L + 1) (n r))
    (fun r ω => sound_of hs _ (askFor_proper (L + 1) (n r))) (fun r l hl => by rw [askFor_count (L + 1) _ l hl]; exact hn r l hl)
    (fun l hl => (ht l hl).congr fun r => (askFor_count (L + 1) (n r) l hl).symm) e fun r ω => poolReports_oneProcess hs hc hq hid (hr r ω) _

/-- `C134`: the same with simulations that may fail: with probability one the reported means converge to the sum of the means over the seeds for which the simulations succeed. -/
theorem C134_any_pool_failing (sid W L : Nat) (q : Quantity (Option ℝ)) (hq : Built sid .qty q) (hid : IdsIdentify q) (i : Nat) (hi : i < q.size)
    (md5 : Ω → SampleId → List UInt8) (hm : RandomSeeds P md5) (sims : List (PoolSim Cfg (Option ℝ) C)) (hs : SimsSound sims W L) (c : Nat → Nat) (hc : ∀ l, 0 < c l)
    (g : Nat → Nat → Option ℝ) (hg : ∀ l < L, ∀ s < seedCount, SeedResult sims q sid W i l s (g l s)) (hsome : ∀ l < L, ∃ s < seedCount, (g l s).isSome) :
    ∀ᵐ ω ∂P, ∀ (n : ℕ → Nat → Nat) (e : ℕ → QuantityMean ℝ), (∀ l < L, Tendsto (fun r => n r l) atTop atTop) →
      (∀ r, PoolReports (md5 ω) sims (n r) c sid q (e r)) →
      ∃ m : ℕ → ℝ, (∀ᶠ r in atTop, (e r).mean.getD i none = some (m r)) ∧ Tendsto m atTop (𝓝 (∑ l ∈ Finset.range L, seedMeanGiven (g l))) := by
  filter_upwards [C133_failing_converge sid W L q hq hid i hi md5 hm sims (fun _ _ => 0) c hc g hg hsome] with ω hω n e ht hr
  exact hω (fun r => askFor L (n r)) e (fun r => sound_of hs _ (askFor_proper L (n r))) (fun l hl => (ht l hl).congr fun r => (askFor_count L (n r) l hl).symm)
    fun r => poolReports_oneProcess hs hc hq hid (hr r) _

end

namespace ExTimeout
/-- The result is the parity of the seed. -/
noncomputable def sim : PoolSim Unit (Option ℝ) Unit :=
  { level := 0, cfg := (), workspace := false, filesOk := true
    calculate := fun _ s => .pair (.array [some ((s % 2 : ℕ) : ℝ)]) (.array [some 0])
    files := fun _ _ => (), fmt := [⟨['q'], ['m'], [1], [1], [.name ['a']]⟩] }

noncomputable def env (md5 : SampleId → List UInt8) : ParEnv Unit (Option ℝ) Unit := ⟨md5, [sim]⟩

noncomputable def val (md5 : SampleId → List UInt8) (k : Nat) : ResPart (Option ℝ) × ResPart (Option ℝ) := (.array [some ((computeSeed md5 (sampleTag 0 k) % 2 : ℕ) : ℝ)], .array [some 0])

noncomputable def item (md5 : SampleId → List UInt8) (k : Nat) : ParItem (Option ℝ) := ⟨0, sampleTag 0 k, .ok (val md5 k)⟩

theorem item_eq (md5 : SampleId → List UInt8) (k : Nat) : parTask md5 sim (sampleTag 0 k) = some (item md5 k) := by
  rfl

def before : List ParOp := [.setInitial [2], .schedule (some 0) [] (fun _ => [])]

noncomputable def sys0 : Sys (ResPart (Option ℝ) × ResPart (Option ℝ)) := { Sys.fresh _ 1 with target := [2] }
noncomputable def sys2 : Sys (ResPart (Option ℝ) × ResPart (Option ℝ)) := runActs [.begin 0, .hand 0, .hand 0, .save 0] sys0

theorem plan : schedActs 0 (Sys.plan { (Sys.fresh (ResPart (Option ℝ) × ResPart (Option ℝ)) 1) with target := [2] }) = [.begin 0, .hand 0, .hand 0, .save 0] := by
  decide +kernel

theorem scheduled (md5 : SampleId → List UInt8) : (ParProg.start (env md5)).run (env md5) before = some { sys := sys2, pool := { running := 2 }, tasks := [some (item md5 0), some (item md5 1)] } := by
  have h1 : (ParProg.start (env md5)).step (env md5) (.setInitial [2]) = some { sys := sys0 } := rfl
  have h2 : ({ sys := sys0 } : ParProg (Option ℝ)).scheduleSamples (env md5) (fun _ => []) = ({ sys := sys0 } : ParProg (Option ℝ)).acts (env md5) (fun _ => []) 0 [.begin 0, .hand 0, .hand 0, .save 0] := by
    have : sys0.target.length = sys0.nSched.length := rfl
    simp only [ParProg.scheduleSamples, if_pos this]
    rw [← plan]; rfl
  have h3 : ({ sys := sys0 } : ParProg (Option ℝ)).acts (env md5) (fun _ => []) 0 [.begin 0, .hand 0, .hand 0, .save 0] = some { sys := sys2, pool := { running := 2 }, tasks := [some (item md5 0), some (item md5 1)] } := by
    rfl
  have h4 : ({ sys := sys0 } : ParProg (Option ℝ)).step (env md5) (.schedule (some 0) [] (fun _ => [])) = some { sys := sys2, pool := { running := 2 }, tasks := [some (item md5 0), some (item md5 1)] } := by
    simp only [ParProg.step, ParProg.ask, le_refl, if_true, Option.bind_some]
    exact h2.trans h3
  simp only [before, ParProg.run, h1, Option.bind_some, h4]

noncomputable def after (md5 : SampleId → List UInt8) : ParProg (Option ℝ) := { sys := sys2, pool := { running := 2 }, tasks := [some (item md5 0), some (item md5 1)] }

def fast (a b : Bool) : List Nat := (if a then [0] else []) ++ (if b then [if a then 0 else 1] else [])

def steps (a b : Bool) : List (List Nat) := fast a b :: List.replicate (if a || b then 4 else 2) []

noncomputable def got (md5 : SampleId → List UInt8) (a b : Bool) : List (ParItem (Option ℝ)) := (if a then [item md5 0] else []) ++ (if b then [item md5 1] else [])

theorem polled (md5 : SampleId → List UInt8) (a b : Bool) : ∃ q, (after md5).getSteps (steps a b) = some q ∧ q.pool.returned = got md5 a b ∧ q.sys = sys2 ∧ q.pool.running = 2 - (got md5 a b).length := by
  cases a <;> cases b
  · exact ⟨_, rfl, rfl, rfl, rfl⟩
  · exact ⟨_, rfl, rfl, rfl, rfl⟩
  · exact ⟨_, rfl, rfl, rfl, rfl⟩
  · exact ⟨_, rfl, rfl, rfl, rfl⟩

/-- The calls: two samples are requested and asked for with a timeout of one second. -/
def ops (a b : Bool) : List ParOp := before ++ [.ask (some 1) [{ steps := steps a b, time := 2 }]]

/-- The storage after a program in which the workers of the samples with `true` finish. -/
noncomputable def store (md5 : SampleId → List UInt8) (a b : Bool) : HdfLevels (ResPart (Option ℝ) × ResPart (Option ℝ)) :=
  storeSamples sys2.store ⟨groupByLevel (itemSucc (got md5 a b)), groupByLevel (itemFailed (got md5 a b)), 2 - (got md5 a b).length, []⟩

theorem ends (md5 : SampleId → List UInt8) (a b : Bool) : ∃ p, (ParProg.start (env md5)).run (env md5) (ops a b) = some p ∧ p.sys.store = store md5 a b := by
  obtain ⟨q, h1, h2, h3, h4⟩ := polled md5 a b
  have hc := scheduled md5
  have hcol : (after md5).collect { steps := steps a b, time := 2 } = some (q.pool.running, { q with sys := { sys2 with store := store md5 a b } }) := by
    simp only [ParProg.collect, h1, Option.map_some, h2, h3, h4]
    rfl
  refine ⟨{ q with sys := { sys2 with store := store md5 a b } }, ?_, rfl⟩
  rw [ops, parProg_run_append, hc]
  simp only [Option.bind_some, ParProg.run, ParProg.step, ParProg.ask]
  rw [if_neg (by norm_num), show ({ sys := sys2, pool := { running := 2 }, tasks := [some (item md5 0), some (item md5 1)] } : ParProg (Option ℝ)) = after md5 from rfl]
  simp only [ParProg.wait, hcol]
  rw [if_pos (by norm_num)]
  rfl

theorem diffs_one (x : ℝ) : usedDiffs ExUnb.q 7 1 0 0 [[[some x]]] = [x] := rfl

theorem diffs_map (xs : List ℝ) : usedDiffs ExUnb.q 7 1 0 0 (xs.map fun x => [[some x]]) = xs := by
  induction xs with
  | nil => rfl
  | cons x xs ih =>
    rw [List.map_cons, ← List.singleton_append, usedDiffs_append, ih, diffs_one]; rfl

/-- Estimates from a storage with one level. -/
theorem estimate_one (x : LevelGroup (List (Option ℝ) × List (Option ℝ))) (xs : List ℝ) (hxs : xs ≠ []) (hx : x.collectedValues = some (xs.map fun y => ([some y], [some 0]))) :
    ∃ e, estimateFromStorage [x] (fun _ => 3) 7 ExUnb.q = .ok e ∧ e.mean.getD 0 none = some (average xs) := by
  obtain ⟨chunks, c1, c2, c3, c4⟩ := estimateFromStorage_eq [x] (fun _ => 3) (fun _ => by omega) 7 1 ExUnb.q (by
    intro y hy
    rw [List.mem_singleton.1 hy]
    refine ⟨_, hx, ?_⟩
    intro v hv
    obtain ⟨z, -, rfl⟩ := List.mem_map.1 hv
    exact ⟨rfl, rfl⟩)
  have hd : levelData chunks 0 = xs.map fun y => [[some y]] := by
    rw [c3 0 (by simp)]
    simp [valsAt, hx, asSamples]
  have hdiff := diffs_map xs
  rw [← hd] at hdiff
  have hu : usedValues ExUnb.q 7 1 (levelData chunks 0) ≠ [] := by
    intro h
    rw [usedDiffs, h] at hdiff
    exact hxs hdiff.symm
  have hest : ∃ e, estimateMean ExUnb.q 1 (asChunks 7 1 chunks) = .ok e := by
    rcases estimate_cases (F := ℝ) 1 ExUnb.built ExUnb.ids with h | h
    · exfalso
      obtain ⟨e, he⟩ := h 1 [(0, [[[some 1]]])] (by intro c hc; rw [List.mem_singleton.1 hc]; simp [batchOf, Batch.WF]) (by intro c hc; rw [List.mem_singleton.1 hc]; simp)
      have : ∃ e, estimateMean ExUnb.q 1 (asChunks 7 1 [(0, [[[some 1]]])]) = .ok e := ⟨_, rfl⟩
      obtain ⟨e', he'⟩ := this
      rw [he] at he'; simp at he'
    · rcases h 1 chunks c1 c2 with ⟨h0, _⟩ | ⟨_, e, he, _⟩
      · exact absurd (h0 0) hu
      · exact ⟨e, he⟩
  obtain ⟨e, he⟩ := hest
  refine ⟨e, by rw [c4]; exact he, ?_⟩
  have h := C46_textbook_estimators 7 1 1 ExUnb.q ExUnb.built ExUnb.ids chunks c1 c2 e he
  have hm : e.lMeans = [[some (average xs)]] := by
    rw [h.means]
    show [[if usedValues ExUnb.q 7 1 (levelData chunks 0) = [] then none else some (average (usedDiffs ExUnb.q 7 1 0 0 (levelData chunks 0)))]] = _
    rw [if_neg hu, hdiff]
  have hq : e.qtype.size = 1 := by rw [h.qtype]; rfl
  simp [QuantityMean.mean, hq, hm, floatSum]

/-- The values of the samples whose workers finish. -/
noncomputable def values (md5 : SampleId → List UInt8) (a b : Bool) : List ℝ :=
  (if a then [((computeSeed md5 (sampleTag 0 0) % 2 : ℕ) : ℝ)] else []) ++ (if b then [((computeSeed md5 (sampleTag 0 1) % 2 : ℕ) : ℝ)] else [])

theorem estimate (md5 : SampleId → List UInt8) (a b : Bool) :
    if (a || b) = true then ∃ e, estimateFromStorage (storedNumbers (store md5 a b)) (fun _ => 3) 7 ExUnb.q = .ok e ∧ e.mean.getD 0 none = some (average (values md5 a b))
    else ∃ x, estimateFromStorage (storedNumbers (store md5 a b)) (fun _ => 3) 7 ExUnb.q = .error x := by
  obtain ⟨x, hx⟩ : ∃ x, storedNumbers (store md5 a b) = [x] := by cases a <;> cases b <;> exact ⟨_, rfl⟩
  have hv : [x.collectedValues] = [if a || b then some ((values md5 a b).map fun y => ([some y], [some 0])) else none] := by
    rw [show [x.collectedValues] = (storedNumbers (store md5 a b)).map (·.collectedValues) by rw [hx]; rfl]
    cases a <;> cases b <;> rfl
  simp only [List.cons.injEq, and_true] at hv
  rw [hx]
  by_cases hab : (a || b) = true
  · rw [if_pos hab] at hv ⊢
    refine estimate_one x _ ?_ hv
    cases a <;> cases b <;> simp [values] at hab ⊢
  · rw [if_neg hab] at hv ⊢
    refine ⟨.attributeError, ?_⟩
    simp only [estimateFromStorage, hdfAllChunks, List.zipIdx_cons, List.zipIdx_nil, List.mapM_cons, List.mapM_nil, LevelGroup.chunks, hv]
    rfl

theorem sound : SimsSound [sim] 1 1 := by
  refine ⟨rfl, ?_, ?_, ?_, ?_⟩
  · intro l s h
    rcases l with _ | l
    · simp at h; subst h; rfl
    · simp at h
  · intro s hs _
    rw [List.mem_singleton.1 hs]; rfl
  · intro s hs
    rw [List.mem_singleton.1 hs]; rfl
  · intro s hs seed f c h
    rw [List.mem_singleton.1 hs] at h
    injection h with h1 h2
    exact ⟨⟨_, h1.symm⟩, _, h2.symm⟩

theorem gives (l : Nat) (hl : l < 1) (s : Nat) (_ : s < seedCount) : SeedGives [sim] ExUnb.q 7 1 0 l s ((s % 2 : ℕ) : ℝ) := by
  obtain rfl : l = 0 := by omega
  exact ⟨sim, _, _, rfl, rfl, by intro a b h1 h2; cases h1; cases h2; exact ⟨rfl, rfl⟩, rfl⟩

/-- Both workers finish, that of sample 1 first if the seed of sample 0 is odd. -/
def rounds (md5 : SampleId → List UInt8) : List ParRound :=
  [{ steps := (if computeSeed md5 (sampleTag 0 0) % 2 = 1 then [1, 0] else [0, 0]) :: List.replicate 4 [] }]

/-- The samples in the order of finishing. -/
noncomputable def both (md5 : SampleId → List UInt8) (o : Bool) : List (ParItem (Option ℝ)) := if o then [item md5 1, item md5 0] else [item md5 0, item md5 1]

theorem polled_both (md5 : SampleId → List UInt8) (o : Bool) : ∃ q, (after md5).getSteps ((if o = true then [1, 0] else [0, 0]) :: List.replicate 4 []) = some q ∧
    q.pool.returned = both md5 o ∧ q.sys = sys2 ∧ q.pool.running = 0 := by
  cases o
  · exact ⟨_, rfl, rfl, rfl, rfl⟩
  · exact ⟨_, rfl, rfl, rfl, rfl⟩

noncomputable def storeBoth (md5 : SampleId → List UInt8) (o : Bool) : HdfLevels (ResPart (Option ℝ) × ResPart (Option ℝ)) :=
  storeSamples sys2.store ⟨groupByLevel (itemSucc (both md5 o)), groupByLevel (itemFailed (both md5 o)), 0, []⟩

theorem stored_both (md5 : SampleId → List UInt8) (o : Bool) : ∃ x, storedNumbers (storeBoth md5 o) = [x] ∧
    [x.collectedValues] = [some ((if o then (values md5 true true).reverse else values md5 true true).map fun y => ([some y], [some 0]))] := by
  obtain ⟨x, hx⟩ : ∃ x, storedNumbers (storeBoth md5 o) = [x] := by cases o <;> exact ⟨_, rfl⟩
  refine ⟨x, hx, ?_⟩
  rw [show [x.collectedValues] = (storedNumbers (storeBoth md5 o)).map (·.collectedValues) by rw [hx]; rfl]
  cases o <;> rfl

theorem collected (md5 : SampleId → List UInt8) (o : Bool) : ∃ p x, (after md5).collect { steps := (if o = true then [1, 0] else [0, 0]) :: List.replicate 4 [] } = some (0, p) ∧
    storedNumbers p.sys.store = [x] ∧ x.collectedValues = some ((if o then (values md5 true true).reverse else values md5 true true).map fun y => ([some y], [some 0])) := by
  obtain ⟨q, h1, h2, h3, h4⟩ := polled_both md5 o
  obtain ⟨x, h5, h6⟩ := stored_both md5 o
  simp only [List.cons.injEq, and_true] at h6
  refine ⟨{ q with sys := { sys2 with store := storeBoth md5 o } }, x, ?_, h5, h6⟩
  simp only [ParProg.collect, h1, Option.map_some, h2, h3, h4]
  rfl

theorem waited (md5 : SampleId → List UInt8) (o : Bool) : ∃ p x, (after md5).ask none [{ steps := (if o = true then [1, 0] else [0, 0]) :: List.replicate 4 [] }] = some p ∧
    storedNumbers p.sys.store = [x] ∧ x.collectedValues = some ((if o then (values md5 true true).reverse else values md5 true true).map fun y => ([some y], [some 0])) := by
  obtain ⟨p, x, h1, h2, h3⟩ := collected md5 o
  refine ⟨p, x, ?_, h2, h3⟩
  simp only [ParProg.ask, ParProg.wait, h1]
  rw [if_neg (by norm_num), if_neg (by norm_num)]

theorem reports (md5 : SampleId → List UInt8) : ∃ e, PoolReports md5 [sim] (fun _ => 2) (fun _ => 3) 7 ExUnb.q e := by
  obtain ⟨p, x, h1, h2, h3⟩ := waited md5 (decide (computeSeed md5 (sampleTag 0 0) % 2 = 1))
  obtain ⟨e, he, -⟩ := estimate_one x _ (by split <;> simp [values]) h3
  refine ⟨e, .parallel before (rounds md5) p ?_ ?_ ?_ (by rw [h2]; exact he)⟩
  · intro o ho
    simp only [before, List.mem_cons, List.not_mem_nil, or_false] at ho
    rcases ho with rfl | rfl <;> simp [ParOp.Proper]
  · intro l hl
    obtain rfl : l = 0 := by simpa using hl
    decide +kernel
  · have : (ParProg.start ⟨md5, [sim]⟩).run (⟨md5, [sim]⟩ : ParEnv Unit (Option ℝ) Unit) before = some (after md5) := scheduled md5
    rw [parProg_run_append, this]
    simp only [decide_eq_true_eq] at h1
    simp only [Option.bind_some, ParProg.run, ParProg.step, rounds, h1]

/-- Two samples of random simulations with a parallel pool whose workers finish in an order depending on the results. -/
example := C134_any_pool_unbiased 7 1 1 ExUnb.q ExUnb.built ExUnb.ids 0 (by decide) _ ExSeeds.seeds [sim] sound (fun _ => 2) (fun _ => 3) (fun _ => by omega) (fun _ _ => le_rfl)
  (fun _ s => ((s % 2 : ℕ) : ℝ)) gives (fun ω => (reports fun id => ExSeeds.bytes (ω id)).choose) (fun ω => (reports fun id => ExSeeds.bytes (ω id)).choose_spec)

end ExTimeout

/-- `C134`, what is not true: with a timeout the estimates are biased.  A program asks a parallel pool for two samples and polls with a timeout of one second, after which it estimates from what has been
stored.  The simulation returns 0 for even seeds, 1 for odd ones, and the workers need longer than the timeout for odd seeds.  For independent uniformly distributed seeds: the mean over all seeds is 1/2, but
the program reports 0 whenever it reports something, and it does if one of the two seeds is even. -/
theorem C134_counterexample_timeout : ∃ (md5 : (SampleId → Fin seedCount) → SampleId → List UInt8) (sims : List (PoolSim Unit (Option ℝ) Unit)) (g : Nat → ℝ) (ops : Bool → Bool → List ParOp),
    RandomSeeds ExSeeds.P md5 ∧ SimsSound sims 1 1 ∧ (∀ s < seedCount, SeedGives sims ExUnb.q 7 1 0 0 s (g s)) ∧ seedMean g = 1 / 2 ∧
    (∀ a b, (ops a b).map (·.call) = [.setInitial [2], .schedule (some 0) [], .ask (some 1) [2]]) ∧
    ∀ ω, ∃ p, (ParProg.start ⟨md5 ω, sims⟩).run (⟨md5 ω, sims⟩ : ParEnv Unit (Option ℝ) Unit)
        (ops (decide (g (computeSeed (md5 ω) (sampleTag 0 0)) = 0)) (decide (g (computeSeed (md5 ω) (sampleTag 0 1)) = 0))) = some p ∧
      (∀ e, estimateFromStorage (storedNumbers p.sys.store) (fun _ => 3) 7 ExUnb.q = .ok e → e.mean.getD 0 none = some 0) ∧
      (g (computeSeed (md5 ω) (sampleTag 0 0)) = 0 ∨ g (computeSeed (md5 ω) (sampleTag 0 1)) = 0 → ∃ e, estimateFromStorage (storedNumbers p.sys.store) (fun _ => 3) 7 ExUnb.q = .ok e) := by
  classical
  refine ⟨fun ω id => ExSeeds.bytes (ω id), [ExTimeout.sim], fun s => ((s % 2 : ℕ) : ℝ), ExTimeout.ops, ExSeeds.seeds, ExTimeout.sound, ExTimeout.gives 0 (by omega), ExFail.mean_parity,
    fun a b => by cases a <;> cases b <;> rfl, fun ω => ?_⟩
  set md5 := fun id => ExSeeds.bytes (ω id) with hmd5
  set a := decide (((computeSeed md5 (sampleTag 0 0) % 2 : ℕ) : ℝ) = 0) with ha
  set b := decide (((computeSeed md5 (sampleTag 0 1) % 2 : ℕ) : ℝ) = 0) with hb
  obtain ⟨p, h1, h2⟩ := ExTimeout.ends md5 a b
  have he := ExTimeout.estimate md5 a b
  have hz : average (ExTimeout.values md5 a b) = 0 := by
    have : ∀ z ∈ ExTimeout.values md5 a b, z = 0 := by
      intro z hz
      simp only [ExTimeout.values, List.mem_append] at hz
      rcases hz with hz | hz
      · split at hz
        · rename_i h; rw [ha, decide_eq_true_eq] at h; rw [List.mem_singleton.1 hz]; exact h
        · simp at hz
      · split at hz
        · rename_i h; rw [hb, decide_eq_true_eq] at h; rw [List.mem_singleton.1 hz]; exact h
        · simp at hz
    rw [average, List.sum_eq_zero this, zero_div]
  refine ⟨p, h1, ?_, ?_⟩
  · intro e h
    rw [h2] at h
    split at he
    · obtain ⟨e', e1, e2⟩ := he
      rw [h] at e1; injection e1 with e1; rw [e1, e2, hz]
    · obtain ⟨x, hx⟩ := he
      rw [h] at hx; cases hx
  · intro h
    have hab : (a || b) = true := by
      rcases h with h | h
      · rw [ha, decide_eq_true h]; rfl
      · rw [hb, decide_eq_true h]; simp
    rw [if_pos hab] at he
    obtain ⟨e, e1, -⟩ := he
    exact ⟨e, by rw [h2]; exact e1⟩

end MLMC
