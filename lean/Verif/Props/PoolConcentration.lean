import Verif.Props.Concentration
import Verif.Props.PoolStats
/-! # C160 Large errors are exponentially unlikely: whole programs -/
namespace MLMC
open MeasureTheory ProbabilityTheory
variable {Cfg C : Type}

section
variable {Ω : Type} [MeasurableSpace Ω] {P : Measure Ω} [IsProbabilityMeasure P]

theorem seed_bounded {md5 : Ω → SampleId → List UInt8} (hm : RandomSeeds P md5) (L : Nat) (N : Nat → Nat) (g : Nat → Nat → ℝ) (a b : Nat → ℝ)
    (hab : ∀ l < L, ∀ s < seedCount, a l ≤ g l s ∧ g l s ≤ b l) :
    BoundedDraws P L N (fun l k ω => g l (computeSeed (md5 ω) (sampleTag l k))) (fun l => seedMean (g l)) a b where
  random l _ k _ := ((measurable_from_top (f := g l)).comp (hm.measurable _)).aemeasurable
  range l hl k _ := Filter.Eventually.of_forall fun ω => hab l hl _ (computeSeed_lt _ _)
  mean l _ k _ := (integral_seed hm _ (g l)).2
  indep := (seed_draws hm L g).indep.precomp (g := fun p : Σ l : Fin L, Fin (N l) => (p.1, (p.2 : ℕ))) fun p p' h => by
    obtain ⟨l, k, hk⟩ := p
    obtain ⟨l', k', hk'⟩ := p'
    obtain ⟨h1, h2⟩ := Prod.mk.inj h
    simp only at h1 h2
    subst h1
    subst h2
    rfl

/-- C160, whole programs: a program asks for `n l` samples of level `l`, whose seeds are independent and uniformly distributed, and waits for them.  The pool is of any kind, and kind, order of
finishing and all moments may depend on the outcome in any way.  If the difference `g l s` a simulation of level `l` gives with the seed `s` lies between `a l` and `b l`, then the probability that the
reported mean is off the sum of the means of `g l` over all seeds by `d` or more is at most `2 exp (-2 d² / Σ (b l - a l)² / n l)`. -/
theorem C160_any_pool (sid W L : Nat) (q : Quantity (Option ℝ)) (hq : Built sid .qty q) (hid : IdsIdentify q) (i : Nat) (hi : i < q.size)
    (md5 : Ω → SampleId → List UInt8) (hm : RandomSeeds P md5) (sims : List (PoolSim Cfg (Option ℝ) C)) (hs : SimsSound sims W L)
    (n c : Nat → Nat) (hc : ∀ l, 0 < c l) (hn : ∀ l < L, 2 ≤ n l)
    (g : Nat → Nat → ℝ) (hg : ∀ l < L, ∀ s < seedCount, SeedGives sims q sid W i l s (g l s))
    (a b : Nat → ℝ) (hab : ∀ l < L, ∀ s < seedCount, a l ≤ g l s ∧ g l s ≤ b l)
    (e : Ω → QuantityMean ℝ) (hr : ∀ ω, PoolReports (md5 ω) sims n c sid q (e ω)) (d : ℝ) (hd : 0 ≤ d) :
    ∃ m : Ω → ℝ, (∀ ω, (e ω).mean.getD i none = some (m ω)) ∧
      P.real {ω | d ≤ |m ω - ∑ l ∈ Finset.range L, seedMean (g l)|} ≤ 2 * Real.exp (-(2 * d ^ 2 / ∑ l ∈ Finset.range L, (b l - a l) ^ 2 / n l)) := by
  have hw : ∀ l < L, wantedCount l (askFor L n) = n l := fun l hl => askFor_count L n l hl
  have h := fun ω => (reports_estimateOf (sound_of (md5 := md5 ω) hs (fun _ => 0) (askFor_proper L n)) hc (poolReports_oneProcess hs hc hq hid (hr ω) _)
    (fun l hl => by rw [hw l hl]; have := hn l hl; omega) (d := fun l k => g l (computeSeed (md5 ω) (sampleTag l k))) (i := i) fun l hl k _ => hg l hl _ (computeSeed_lt _ _)).reads
  choose chunks h1 h2 h3 h4 using h
  exact C160_error_unlikely P sid W L q hq hid i hi n hn _ _ a b (seed_bounded hm L n g a b hab) chunks e ⟨h1, h2, fun ω l hl => by rw [h3 ω l hl, hw l hl], h4⟩ d hd

/-- One level, the first `n` of its draws. -/
theorem level_tail {L : Nat} {N : Nat → Nat} {D : Nat → Nat → Ω → ℝ} {mu a b : Nat → ℝ} (hd : BoundedDraws P L N D mu a b) {l : Nat} (hl : l < L) {n : Nat} (h0 : 0 < n) (hn : n ≤ N l) {c : ℝ} (hc : 0 ≤ c) :
    P.real {ω | c ≤ |average ((List.range n).map fun k => D l k ω) - mu l|} ≤ 2 * Real.exp (-(2 * n * c ^ 2 / (b l - a l) ^ 2)) := by
  have hd1 : BoundedDraws P 1 (fun _ => n) (fun _ => D l) (fun _ => mu l) (fun _ => a l) fun _ => b l :=
    { random := fun _ _ k hk => hd.random l hl k (by omega)
      range := fun _ _ k hk => hd.range l hl k (by omega)
      mean := fun _ _ k hk => hd.mean l hl k (by omega)
      indep := hd.indep.precomp (g := fun p : Σ _ : Fin 1, Fin n => (⟨⟨l, hl⟩, ⟨p.2, by have := p.2.2; simp only; omega⟩⟩ : Σ l : Fin L, Fin (N l))) fun p p' h => by
        obtain ⟨j, k, hk⟩ := p
        obtain ⟨j', k', hk'⟩ := p'
        have : j = j' := Subsingleton.elim _ _
        subst this
        simpa using h }
  have h := error_tail (fun _ _ => h0) hd1 hc
  simp only [Finset.sum_range_one] at h
  refine h.trans_eq ?_
  congr 3
  rw [div_div_eq_mul_div]
  ring

/-- Numbers of samples chosen after the outcome: the mean is off by more than the sum of the `d l` only if on some level, for some admissible number of samples, the level mean is off by `d l`. -/
theorem adaptive_tail {L : Nat} {lo hi : Nat → Nat} (hlo : ∀ l < L, 0 < lo l) {D : Nat → Nat → Ω → ℝ} {mu a b : Nat → ℝ} (hd : BoundedDraws P L hi D mu a b) (n : Ω → Nat → Nat)
    (hn : ∀ ω, ∀ l < L, lo l ≤ n ω l ∧ n ω l ≤ hi l) (d : Nat → ℝ) (hd0 : ∀ l < L, 0 ≤ d l) :
    P.real {ω | ∑ l ∈ Finset.range L, d l < |∑ l ∈ Finset.range L, average ((List.range (n ω l)).map fun k => D l k ω) - ∑ l ∈ Finset.range L, mu l|} ≤
      ∑ l ∈ Finset.range L, ∑ k ∈ Finset.Icc (lo l) (hi l), 2 * Real.exp (-(2 * k * d l ^ 2 / (b l - a l) ^ 2)) := by
  set B : Nat → Nat → Set Ω := fun l k => {ω | d l ≤ |average ((List.range k).map fun j => D l j ω) - mu l|} with hB
  have hsub : {ω | ∑ l ∈ Finset.range L, d l < |∑ l ∈ Finset.range L, average ((List.range (n ω l)).map fun k => D l k ω) - ∑ l ∈ Finset.range L, mu l|} ⊆
      ⋃ l ∈ Finset.range L, ⋃ k ∈ Finset.Icc (lo l) (hi l), B l k := by
    intro ω hω
    by_contra hno
    simp only [Set.mem_iUnion, not_exists] at hno
    have : |∑ l ∈ Finset.range L, average ((List.range (n ω l)).map fun k => D l k ω) - ∑ l ∈ Finset.range L, mu l| ≤ ∑ l ∈ Finset.range L, d l := by
      rw [← Finset.sum_sub_distrib]
      refine (Finset.abs_sum_le_sum_abs _ _).trans (Finset.sum_le_sum fun l hl => ?_)
      have := hno l hl (n ω l) (Finset.mem_Icc.2 (hn ω l (Finset.mem_range.1 hl)))
      simp only [hB, Set.mem_setOf_eq, not_le] at this
      exact this.le
    exact absurd hω (not_lt.2 this)
  refine (measureReal_mono hsub (measure_ne_top _ _)).trans ((measureReal_biUnion_finset_le _ _).trans (Finset.sum_le_sum fun l hl => (measureReal_biUnion_finset_le _ _).trans (Finset.sum_le_sum fun k hk => ?_)))
  have hl' := Finset.mem_range.1 hl
  obtain ⟨h1, h2⟩ := Finset.mem_Icc.1 hk
  exact level_tail hd hl' (by have := hlo l hl'; omega) h2 (hd0 l hl')

/-- C160, numbers of samples chosen from the results: a program asks for at least `lo l` and at most `hi l` samples of level `l`; how many may depend on everything it has seen (`n ω`), as in the documented
loop that estimates variances and adds samples.  Then the reported mean is off the sum of the means of `g l` over all seeds by more than `Σ d l` with probability at most
`Σ l, Σ k from lo l to hi l, 2 exp (-2 k (d l)² / (b l - a l)²)`. -/
theorem C160_adaptive (sid W L : Nat) (q : Quantity (Option ℝ)) (hq : Built sid .qty q) (hid : IdsIdentify q) (i : Nat) (hi : i < q.size)
    (md5 : Ω → SampleId → List UInt8) (hm : RandomSeeds P md5) (sims : List (PoolSim Cfg (Option ℝ) C)) (hs : SimsSound sims W L)
    (c : Nat → Nat) (hc : ∀ l, 0 < c l) (lo hi' : Nat → Nat) (hlo : ∀ l < L, 2 ≤ lo l) (n : Ω → Nat → Nat) (hn : ∀ ω, ∀ l < L, lo l ≤ n ω l ∧ n ω l ≤ hi' l)
    (g : Nat → Nat → ℝ) (hg : ∀ l < L, ∀ s < seedCount, SeedGives sims q sid W i l s (g l s))
    (a b : Nat → ℝ) (hab : ∀ l < L, ∀ s < seedCount, a l ≤ g l s ∧ g l s ≤ b l)
    (e : Ω → QuantityMean ℝ) (hr : ∀ ω, PoolReports (md5 ω) sims (n ω) c sid q (e ω)) (d : Nat → ℝ) (hd : ∀ l < L, 0 ≤ d l) :
    ∃ m : Ω → ℝ, (∀ ω, (e ω).mean.getD i none = some (m ω)) ∧
      P.real {ω | ∑ l ∈ Finset.range L, d l < |m ω - ∑ l ∈ Finset.range L, seedMean (g l)|} ≤
        ∑ l ∈ Finset.range L, ∑ k ∈ Finset.Icc (lo l) (hi' l), 2 * Real.exp (-(2 * k * d l ^ 2 / (b l - a l) ^ 2)) := by
  refine ⟨_, fun ω => ?_, adaptive_tail (fun l hl => by have := hlo l hl; omega) (seed_bounded hm L hi' g a b hab) n hn d hd⟩
  have hw : ∀ l < L, wantedCount l (askFor L (n ω)) = n ω l := fun l hl => askFor_count L (n ω) l hl
  have h2 : ∀ l < L, 2 ≤ n ω l := fun l hl => (hlo l hl).trans (hn ω l hl).1
  obtain ⟨chunks, c1, c2, c3, c4⟩ := (reports_estimateOf (sound_of (md5 := md5 ω) hs (fun _ => 0) (askFor_proper L (n ω))) hc (poolReports_oneProcess hs hc hq hid (hr ω) _)
    (fun l hl => by rw [hw l hl]; have := h2 l hl; omega) (d := fun l k => g l (computeSeed (md5 ω) (sampleTag l k))) (i := i) fun l hl k _ => hg l hl _ (computeSeed_lt _ _)).reads
  exact (estimates_values (Ω := Unit) (D := fun l k _ => g l (computeSeed (md5 ω) (sampleTag l k))) (chunks := fun _ => chunks) (e := fun _ => e ω) hq hid hi h2
    ⟨fun _ => c1, fun _ => c2, fun _ l hl => by rw [c3 l hl, hw l hl], fun _ => c4⟩ ()).1

end

/-- Two samples of simulations returning 0 for even seeds and 1 for odd ones, with a parallel pool whose workers finish in an order depending on the results. -/
example (d : ℝ) (hd : 0 ≤ d) := C160_any_pool 7 1 1 ExUnb.q ExUnb.built ExUnb.ids 0 (by decide) _ ExSeeds.seeds [ExTimeout.sim] ExTimeout.sound (fun _ => 2) (fun _ => 3) (fun _ => by omega) (fun _ _ => le_rfl)
  (fun _ s => ((s % 2 : ℕ) : ℝ)) ExTimeout.gives (fun _ => 0) (fun _ => 1)
  (fun _ _ s _ => ⟨by positivity, by exact_mod_cast (by have := Nat.mod_lt s (by omega : 0 < 2); omega : s % 2 ≤ 1)⟩)
  (fun ω => (ExTimeout.reports fun id => ExSeeds.bytes (ω id)).choose) (fun ω => (ExTimeout.reports fun id => ExSeeds.bytes (ω id)).choose_spec) d hd

namespace ExAdaptive
open ExSeeds

theorem sound : SimsSound [sim 0, sim 1] 1 2 :=
  have h := ExSeeds.sound (fun _ => []) 0
  ⟨h.levels, h.proper.1, h.proper.2, h.arrays.1, h.arrays.2⟩

/-- 2 and 2 samples of the levels if the first seed is even, 3 and 4 if it is odd. -/
def r (ω : SampleId → Fin seedCount) : Nat := ω (sampleTag 0 0) % 2
def n (ω : SampleId → Fin seedCount) (l : Nat) : Nat := if l = 0 then r ω + 2 else 2 * r ω + 2

theorem reports (ω : SampleId → Fin seedCount) : ∃ e, PoolReports (fun id => bytes (ω id)) [sim 0, sim 1] (n ω) (fun _ => 3) 7 ExUnb.q e := by
  obtain ⟨e, he⟩ := ExSeeds.report (fun id => bytes (ω id)) (r ω)
  refine ⟨e, .oneProcess (fun _ => 1) (ExSeeds.ops (r ω)) (ExSeeds.sound (fun _ => []) (r ω)).calls (fun l hl => ?_) he⟩
  have : l = 0 ∨ l = 1 := by simp at hl; omega
  rcases this with rfl | rfl
  · exact (count _).1
  · exact (count _).2

/-- Numbers of samples that depend on a result; the simulations return multiples of the seed. -/
example (d : Nat → ℝ) (hd : ∀ l < 2, 0 ≤ d l) := C160_adaptive 7 1 2 ExUnb.q ExUnb.built ExUnb.ids 0 (by decide) _ ExSeeds.seeds [sim 0, sim 1] sound (fun _ => 3) (fun _ => by omega)
  (fun _ => 2) (fun _ => 4) (fun _ _ => le_rfl) n (fun ω l _ => by have : r ω < 2 := Nat.mod_lt _ (by omega); unfold n; split <;> omega)
  _ ExSeeds.gives (fun _ => 0) (fun _ => seedCount)
  (fun l hl s hs => by
    have h : (s : ℝ) ≤ seedCount := by exact_mod_cast hs.le
    have : l = 0 ∨ l = 1 := by omega
    rcases this with rfl | rfl
    · simpa using h
    · norm_num
      constructor <;> linarith [Nat.cast_nonneg (α := ℝ) s])
  (fun ω => (reports ω).choose) (fun ω => (reports ω).choose_spec) d hd

end ExAdaptive

end MLMC
