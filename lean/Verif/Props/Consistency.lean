import Verif.Spec.Convergence
import Verif.Props.Unbiased
import Mathlib.Probability.StrongLaw
/-! # C124 Estimates from more and more samples converge -/
namespace MLMC
open MeasureTheory ProbabilityTheory Filter Topology

variable {Ω : Type} [MeasurableSpace Ω] {P : Measure Ω}

theorem estimateOf_values {q : Quantity (Option ℝ)} {sid W L i : Nat} {n : Nat → Nat} {d : Nat → Nat → ℝ} {e : QuantityMean ℝ} (hq : Built sid .qty q)
    (hid : IdsIdentify q) (hi : i < q.size) (hn : ∀ l < L, 2 ≤ n l) (he : EstimateOf q sid W L i n d e) :
    e.mean.getD i none = some (∑ l ∈ Finset.range L, average ((List.range (n l)).map fun k => d l k)) ∧
    e.var.getD i none = some (∑ l ∈ Finset.range L, sampleVar ((List.range (n l)).map fun k => d l k) / (n l : ℝ)) ∧
    ∀ l < L, ((e.lVars.getD l []).getD i none = some (sampleVar ((List.range (n l)).map fun k => d l k))) := by
  obtain ⟨chunks, c1, c2, c3, c4⟩ := he.reads
  exact estimates_values (Ω := Unit) (D := fun l k _ => d l k) (chunks := fun _ => chunks) (e := fun _ => e) hq hid hi hn
    ⟨fun _ => c1, fun _ => c2, fun _ => c3, fun _ => c4⟩ ()

theorem LevelDraws.pairwise {L : Nat} {D : Nat → Nat → Ω → ℝ} {mu var : Nat → ℝ} (h : LevelDraws P L D mu var) {l : Nat} (hl : l < L) :
    Pairwise fun k k' => IndepFun (D l k) (D l k') P := by
  intro k k' hk
  exact h.indep.indepFun (i := (⟨l, hl⟩, k)) (j := (⟨l, hl⟩, k')) (by simpa using hk)

/-- Averages and averages of squares of a level converge. -/
theorem level_limits [IsProbabilityMeasure P] {L : Nat} {D : Nat → Nat → Ω → ℝ} {mu var : Nat → ℝ} (h : LevelDraws P L D mu var) {l : Nat} (hl : l < L) :
    ∀ᵐ ω ∂P, Tendsto (fun n : ℕ => average ((List.range n).map fun k => D l k ω)) atTop (𝓝 (mu l)) ∧
      Tendsto (fun n : ℕ => sampleVar ((List.range n).map fun k => D l k ω)) atTop (𝓝 (var l)) := by
  have h1 := strong_law_ae_real (D l) ((h.finite l hl).integrable (by norm_num)) (h.pairwise hl) (h.ident l hl)
  have h2 := strong_law_ae_real (fun k ω => D l k ω ^ 2) (h.finite l hl).integrable_sq
    (fun k k' hk => (h.pairwise hl hk).comp (φ := fun x => x ^ 2) (ψ := fun x => x ^ 2) (by fun_prop) (by fun_prop))
    (fun k => (h.ident l hl k).comp (u := fun x => x ^ 2) (by fun_prop))
  have hv : ∫ ω, D l 0 ω ^ 2 ∂P = var l + mu l ^ 2 := by
    rw [integral_sq (X := fun _ => D l 0) (h.finite l hl), h.variance l hl, h.mean l hl]
  filter_upwards [h1, h2] with ω w1 w2
  rw [h.mean l hl] at w1
  rw [hv] at w2
  have ha : Tendsto (fun n : ℕ => average ((List.range n).map fun k => D l k ω)) atTop (𝓝 (mu l)) := by
    simpa only [average_range] using w1
  refine ⟨ha, ?_⟩
  have hr : Tendsto (fun n : ℕ => (n : ℝ) / ((n : ℝ) - 1)) atTop (𝓝 1) := by
    have := tendsto_natCast_div_add_atTop (𝕜 := ℝ) (-1)
    simpa [sub_eq_add_neg] using this
  have hlim : Tendsto (fun n : ℕ => (n : ℝ) / ((n : ℝ) - 1) *
      ((∑ k ∈ Finset.range n, D l k ω ^ 2) / n - (average ((List.range n).map fun k => D l k ω)) ^ 2)) atTop (𝓝 (1 * (var l + mu l ^ 2 - mu l ^ 2))) :=
    hr.mul (w2.sub (ha.pow 2))
  rw [one_mul, add_sub_cancel_right] at hlim
  refine hlim.congr' ?_
  filter_upwards [eventually_ge_atTop 2] with n hn
  rw [sampleVar_range n (by omega)]
  have hn0 : (n : ℝ) ≠ 0 := by positivity
  have hn1 : (n : ℝ) - 1 ≠ 0 := by
    have : (2 : ℝ) ≤ n := by exact_mod_cast hn
    linarith
  field_simp

/-- `C124`: with probability one, whatever the numbers of samples are — also if they were chosen from the samples themselves — and however they are divided into chunks: along every sequence of
estimates whose numbers of samples grow on every level, the reported mean converges to the sum of the expected level differences, every reported level variance to the
variance of the level, and the reported variance of the mean to zero. -/
theorem C124_consistent [IsProbabilityMeasure P] (sid W L : Nat) (q : Quantity (Option ℝ)) (hq : Built sid .qty q) (hid : IdsIdentify q) (i : Nat) (hi : i < q.size)
    (D : Nat → Nat → Ω → ℝ) (mu var : Nat → ℝ) (hd : LevelDraws P L D mu var) :
    ∀ᵐ ω ∂P, ∀ (n : ℕ → Nat → Nat) (e : ℕ → QuantityMean ℝ), (∀ l < L, Tendsto (fun r => n r l) atTop atTop) →
      (∀ r, EstimateOf q sid W L i (n r) (fun l k => D l k ω) (e r)) →
      ∃ m v : ℕ → ℝ, (∀ᶠ r in atTop, (e r).mean.getD i none = some (m r) ∧ (e r).var.getD i none = some (v r)) ∧
        Tendsto m atTop (𝓝 (∑ l ∈ Finset.range L, mu l)) ∧ Tendsto v atTop (𝓝 0) ∧
        ∀ l < L, ∃ w : ℕ → ℝ, (∀ᶠ r in atTop, (((e r).lVars.getD l []).getD i none = some (w r))) ∧ Tendsto w atTop (𝓝 (var l)) := by
  have hall : ∀ᵐ ω ∂P, ∀ l < L, Tendsto (fun n : ℕ => average ((List.range n).map fun k => D l k ω)) atTop (𝓝 (mu l)) ∧
      Tendsto (fun n : ℕ => sampleVar ((List.range n).map fun k => D l k ω)) atTop (𝓝 (var l)) := by
    rw [ae_all_iff]; intro l
    by_cases hl : l < L
    · filter_upwards [level_limits hd hl] with ω w _ using w
    · filter_upwards with ω h; exact absurd h hl
  filter_upwards [hall] with ω hω n e hn he
  have hbig : ∀ᶠ r in atTop, ∀ l < L, 2 ≤ n r l := by
    have : ∀ᶠ r in atTop, ∀ l ∈ Finset.range L, 2 ≤ n r l := by
      rw [Finset.eventually_all]
      intro l hl
      exact (hn l (Finset.mem_range.1 hl)).eventually_ge_atTop 2
    filter_upwards [this] with r hr l hl using hr l (Finset.mem_range.2 hl)
  refine ⟨fun r => ∑ l ∈ Finset.range L, average ((List.range (n r l)).map fun k => D l k ω),
    fun r => ∑ l ∈ Finset.range L, sampleVar ((List.range (n r l)).map fun k => D l k ω) / (n r l : ℝ), ?_, ?_, ?_, ?_⟩
  · filter_upwards [hbig] with r hr
    obtain ⟨a, b, _⟩ := estimateOf_values hq hid hi hr (he r)
    exact ⟨a, b⟩
  · refine tendsto_finsetSum _ fun l hl => ?_
    have hl := Finset.mem_range.1 hl
    exact (hω l hl).1.comp (hn l hl)
  · rw [show (0 : ℝ) = ∑ l ∈ Finset.range L, 0 by simp]
    refine tendsto_finsetSum _ fun l hl => ?_
    have hl := Finset.mem_range.1 hl
    exact ((hω l hl).2.comp (hn l hl)).div_atTop (tendsto_natCast_atTop_atTop.comp (hn l hl))
  · intro l hl
    refine ⟨fun r => sampleVar ((List.range (n r l)).map fun k => D l k ω), ?_, (hω l hl).2.comp (hn l hl)⟩
    filter_upwards [hbig] with r hr
    exact (estimateOf_values hq hid hi hr (he r)).2.2 l hl

theorem levelSum_finest [IsProbabilityMeasure P] {L : Nat} {fine coarse : Nat → Nat → Ω → ℝ} {a mu var : Nat → ℝ}
    (hfine : ∀ l < L + 1, Integrable (fine l 0) P ∧ ∫ ω, fine l 0 ω ∂P = a l)
    (hcoarse : ∀ l < L, Integrable (coarse (l + 1) 0) P ∧ ∫ ω, coarse (l + 1) 0 ω ∂P = a l)
    (hd : LevelDraws P (L + 1) (fun l k ω => if l = 0 then fine l k ω else fine l k ω - coarse l k ω) mu var) :
    ∑ l ∈ Finset.range (L + 1), mu l = a L := by
  have e0 : mu 0 = a 0 := by
    rw [← hd.mean 0 (by omega), ← (hfine 0 (by omega)).2]
    simp
  have es : ∀ l ∈ Finset.range L, mu (l + 1) = a (l + 1) - a l := by
    intro l hl
    have hl := Finset.mem_range.1 hl
    obtain ⟨f1, f2⟩ := hfine (l + 1) (by omega)
    obtain ⟨c1, c2⟩ := hcoarse l hl
    rw [← hd.mean (l + 1) (by omega), ← f2, ← c2, ← integral_sub f1 c1]
    simp
  rw [Finset.sum_range_succ', Finset.sum_congr rfl es, Finset.sum_range_sub, e0]
  ring

/-- `C124`: if moreover the differences are fine minus coarse values and the coarse values of every level have the expectation of the fine values of the level below, then the reported mean
converges to the expectation of the fine values of the last level. -/
theorem C124_finest_level [IsProbabilityMeasure P] (sid W L : Nat) (q : Quantity (Option ℝ)) (hq : Built sid .qty q) (hid : IdsIdentify q) (i : Nat) (hi : i < q.size)
    (fine coarse : Nat → Nat → Ω → ℝ) (a mu var : Nat → ℝ)
    (hfine : ∀ l < L + 1, Integrable (fine l 0) P ∧ ∫ ω, fine l 0 ω ∂P = a l)
    (hcoarse : ∀ l < L, Integrable (coarse (l + 1) 0) P ∧ ∫ ω, coarse (l + 1) 0 ω ∂P = a l)
    (hd : LevelDraws P (L + 1) (fun l k ω => if l = 0 then fine l k ω else fine l k ω - coarse l k ω) mu var) :
    ∀ᵐ ω ∂P, ∀ (n : ℕ → Nat → Nat) (e : ℕ → QuantityMean ℝ), (∀ l < L + 1, Tendsto (fun r => n r l) atTop atTop) →
      (∀ r, EstimateOf q sid W (L + 1) i (n r) (fun l k => if l = 0 then fine l k ω else fine l k ω - coarse l k ω) (e r)) →
      ∃ m : ℕ → ℝ, (∀ᶠ r in atTop, (e r).mean.getD i none = some (m r)) ∧ Tendsto m atTop (𝓝 (a L)) := by
  have hsum := levelSum_finest hfine hcoarse hd
  filter_upwards [C124_consistent sid W (L + 1) q hq hid i hi _ mu var hd] with ω hω n e hn he
  obtain ⟨m, v, h1, h2, _⟩ := hω n e hn he
  rw [hsum] at h2
  exact ⟨m, h1.mono fun _ h => h.1, h2⟩

namespace ExCons
open ExUnb

/-- The first `n 0` samples of level 0 and the first `n 1` of level 1, whose differences are the numbers `d`; the fine result of level 1 is twice the number. -/
noncomputable def chunks (n : Nat → Nat) (d : Nat → Nat → ℝ) : List (Nat × List (Sample (Option ℝ))) :=
  [(0, (List.range (n 0)).map fun k => [[some (d 0 k)]]), (1, (List.range (n 1)).map fun k => [[some (2 * d 1 k)], [some (d 1 k)]])]

theorem used (n : Nat → Nat) (d : Nat → Nat → ℝ) (l : Nat) (hl : l < 2) :
    usedDiffs q 7 1 l 0 (levelData (chunks n d) l) = (List.range (n l)).map fun k => d l k := by
  have key : ∀ (xs : List Nat) (f : Nat → Sample (Option ℝ)) (g : Nat → ℝ),
      (∀ k, usedDiffs q 7 1 l 0 [f k] = [g k]) → usedDiffs q 7 1 l 0 (xs.map f) = xs.map g := by
    intro xs f g h
    induction xs with
    | nil => rfl
    | cons a xs ih =>
      have : usedDiffs q 7 1 l 0 ((a :: xs).map f) = usedDiffs q 7 1 l 0 [f a] ++ usedDiffs q 7 1 l 0 (xs.map f) := by
        have e : (a :: xs).map f = [f a] ++ xs.map f := rfl
        rw [e]
        simp only [usedDiffs, usedValues, levelValues, List.filterMap_append, List.filter_append, List.map_append]
      rw [this, h, ih]; rfl
  match l, hl with
  | 0, _ =>
    have e : levelData (chunks n d) 0 = (List.range (n 0)).map fun k => [[some (d 0 k)]] := by simp [levelData, chunks]
    rw [e]
    exact key _ _ _ fun k => rfl
  | 1, _ =>
    have e : levelData (chunks n d) 1 = (List.range (n 1)).map fun k => [[some (2 * d 1 k)], [some (d 1 k)]] := by simp [levelData, chunks]
    rw [e]
    refine key _ _ _ fun k => ?_
    have e2 : usedDiffs q 7 1 1 0 [[[some (2 * d 1 k)], [some (d 1 k)]]] = [2 * d 1 k - d 1 k] := rfl
    rw [e2]; congr 1; ring

theorem wf (n : Nat → Nat) (d : Nat → Nat → ℝ) : ChunksWF 1 (chunks n d) := by
  intro c hc
  simp only [chunks, List.mem_cons, List.not_mem_nil, or_false] at hc
  rcases hc with rfl | rfl <;> simp [batchOf, Batch.WF]

theorem lev (n : Nat → Nat) (d : Nat → Nat → ℝ) : ∀ c ∈ chunks n d, c.1 < 2 := by
  intro c hc
  simp only [chunks, List.mem_cons, List.not_mem_nil, or_false] at hc
  rcases hc with rfl | rfl <;> simp

/-- Whatever the numbers of samples are (at least one on level 0), there is an estimate. -/
theorem exists_estimate (n : Nat → Nat) (hn : 0 < n 0) (d : Nat → Nat → ℝ) : ∃ e, EstimateOf q 7 1 2 0 n d e := by
  have hu : usedValues q 7 1 (levelData (chunks n d) 0) ≠ [] := by
    intro h
    have := used n d 0 (by omega)
    rw [usedDiffs, h] at this
    simp at this
    omega
  rcases estimate_cases (F := ℝ) 1 built ids with h | h
  · exfalso
    obtain ⟨e, he⟩ := h 2 (chunks (fun _ => 1) d) (wf _ _) (lev _ _)
    have : ∃ e, estimateMean q 2 (asChunks 7 1 (chunks (fun _ => 1) d)) = .ok e := ⟨_, rfl⟩
    obtain ⟨e', he'⟩ := this
    rw [he] at he'; simp at he'
  · rcases h 2 (chunks n d) (wf n d) (lev n d) with ⟨h0, _⟩ | ⟨_, e, he, _⟩
    · exact absurd (h0 0) hu
    · exact ⟨e, chunks n d, wf n d, lev n d, used n d, he⟩

variable (ν : Measure ℝ) [IsProbabilityMeasure ν]

/-- Independent numbers, all drawn from `ν`. -/
theorem draws (hν : MemLp id 2 ν) :
    LevelDraws (Measure.infinitePi fun _ : ℕ × ℕ => ν) 2 (fun l k ω => ω (l, k)) (fun _ => ∫ x, x ∂ν) (fun _ => Var[id; ν]) := by
  have mp : ∀ p : ℕ × ℕ, MeasurePreserving (fun ω : ℕ × ℕ → ℝ => ω p) (Measure.infinitePi fun _ : ℕ × ℕ => ν) ν := fun p =>
    measurePreserving_eval_infinitePi (fun _ : ℕ × ℕ => ν) p
  constructor
  · have h := iIndepFun_infinitePi (P := fun _ : ℕ × ℕ => ν) (X := fun _ x => x) (by fun_prop)
    exact h.precomp (g := fun p : Fin 2 × ℕ => ((p.1 : ℕ), p.2)) (by
      intro a b hab
      simp only [Prod.mk.injEq] at hab
      exact Prod.ext (Fin.ext hab.1) hab.2)
  · intro l _ k
    exact ⟨(mp _).aemeasurable, (mp _).aemeasurable, by rw [(mp _).map_eq, (mp _).map_eq]⟩
  · intro l _
    exact hν.comp_measurePreserving (mp (l, 0))
  · intro l _
    have h := integral_map (mp (l, 0)).aemeasurable (f := (id : ℝ → ℝ)) (by fun_prop)
    rw [(mp (l, 0)).map_eq] at h
    exact h.symm
  · intro l _
    exact (mp (l, 0)).variance_fun_comp (f := id) (by fun_prop)

/-- Estimates with `r + 1` and `2 r + 1` samples exist for every outcome, and their means converge. -/
example (hν : MemLp id 2 ν) : ∀ᵐ ω ∂(Measure.infinitePi fun _ : ℕ × ℕ => ν), ∃ (e : ℕ → QuantityMean ℝ) (m : ℕ → ℝ),
    (∀ r, EstimateOf q 7 1 2 0 (fun l => (l + 1) * r + 1) (fun l k => ω (l, k)) (e r)) ∧
    (∀ᶠ r in atTop, (e r).mean.getD 0 none = some (m r)) ∧ Tendsto m atTop (𝓝 (2 * ∫ x, x ∂ν)) := by
  filter_upwards [C124_consistent 7 1 2 q built ids 0 (by decide) _ _ _ (draws ν hν)] with ω hω
  choose e he using fun r : ℕ => exists_estimate (fun l => (l + 1) * r + 1) (by omega) fun l k => ω (l, k)
  obtain ⟨m, v, h1, h2, _⟩ := hω _ e (fun l _ => tendsto_atTop_mono (fun r => by show r ≤ (l + 1) * r + 1; nlinarith) tendsto_id) he
  refine ⟨e, m, he, h1.mono fun _ h => h.1, ?_⟩
  simpa [two_mul, Finset.sum_range_succ] using h2

/-! The level differences of the finest-level theorem: the fine values of level 1 are twice the coarse ones, and both levels use numbers drawn from `ν`. -/

theorem fineOk (hν : MemLp id 2 ν) : ∀ l < 1 + 1, Integrable (fine l 0) (Measure.infinitePi fun _ : ℕ × ℕ => ν) ∧
    ∫ ω, fine l 0 ω ∂(Measure.infinitePi fun _ : ℕ × ℕ => ν) = (l + 1) * ∫ x, x ∂ν := by
  have mp : ∀ p : ℕ × ℕ, MeasurePreserving (fun ω : ℕ × ℕ → ℝ => ω p) (Measure.infinitePi fun _ : ℕ × ℕ => ν) ν := fun p =>
    measurePreserving_eval_infinitePi (fun _ : ℕ × ℕ => ν) p
  have hi : ∀ p : ℕ × ℕ, Integrable (fun ω : ℕ × ℕ → ℝ => ω p) (Measure.infinitePi fun _ : ℕ × ℕ => ν) := fun p =>
    (hν.comp_measurePreserving (mp p)).integrable (by norm_num)
  have hm : ∀ p : ℕ × ℕ, ∫ ω : ℕ × ℕ → ℝ, ω p ∂(Measure.infinitePi fun _ : ℕ × ℕ => ν) = ∫ x, x ∂ν := fun p => by
    have h := integral_map (mp p).aemeasurable (f := (id : ℝ → ℝ)) (by fun_prop)
    rw [(mp p).map_eq] at h
    exact h.symm
  intro l hl
  have : l = 0 ∨ l = 1 := by omega
  rcases this with rfl | rfl
  · exact ⟨(hi (0, 0)).congr (.of_forall fun ω => by simp [fine]), by simpa [fine] using hm (0, 0)⟩
  · refine ⟨((hi (1, 0)).const_mul 2).congr (.of_forall fun ω => by simp [fine]), ?_⟩
    simp only [fine, one_ne_zero, if_false]
    rw [integral_const_mul, hm]; norm_num

theorem coarseOk (hν : MemLp id 2 ν) : ∀ l < 1, Integrable (coarse (l + 1) 0) (Measure.infinitePi fun _ : ℕ × ℕ => ν) ∧
    ∫ ω, coarse (l + 1) 0 ω ∂(Measure.infinitePi fun _ : ℕ × ℕ => ν) = (l + 1) * ∫ x, x ∂ν := by
  intro l hl
  obtain rfl : l = 0 := by omega
  have mp := measurePreserving_eval_infinitePi (fun _ : ℕ × ℕ => ν) (1, 0)
  refine ⟨(hν.comp_measurePreserving mp).integrable (by norm_num), ?_⟩
  have h := integral_map mp.aemeasurable (f := (id : ℝ → ℝ)) (by fun_prop)
  rw [mp.map_eq] at h
  simpa [coarse] using h.symm

theorem drawsOk (hν : MemLp id 2 ν) : LevelDraws (Measure.infinitePi fun _ : ℕ × ℕ => ν) (1 + 1)
    (fun l k ω => if l = 0 then fine l k ω else fine l k ω - coarse l k ω) (fun _ => ∫ x, x ∂ν) (fun _ => Var[id; ν]) := by
  have h := draws ν hν
  have hD : (fun (l k : Nat) (ω : ℕ × ℕ → ℝ) => if l = 0 then fine l k ω else fine l k ω - coarse l k ω) = fun l k ω => ω (l, k) := by
    funext l k ω; exact D_eq l k ω
  rw [hD]; exact h

example (hν : MemLp id 2 ν) :=
  C124_finest_level 7 1 1 q built ids 0 (by decide) fine coarse (fun l => (l + 1) * ∫ x, x ∂ν) _ _ (fineOk ν hν) (coarseOk ν hν) (drawsOk ν hν)

end ExCons

end MLMC
