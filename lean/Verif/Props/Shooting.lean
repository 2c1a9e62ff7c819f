import Verif.Proofs.Shooting
import Mathlib.Analysis.SpecialFunctions.Integrals.Basic
import Mathlib.MeasureTheory.Integral.IntervalIntegral.Basic
import Mathlib.Topology.MetricSpace.Lipschitz
/-
C115: the simulations of the tutorial as levels of a multilevel method.
-/
namespace MLMC.Shoot

section
variable {K : Type} [Field K] [LinearOrder K] [FloorRing K] [IsStrictOrderedRing K]

omit [IsStrictOrderedRing K] in
theorem levels1D_get (c : Config K) : ∀ (steps : List K) (prev : K) (l : Nat) (h p : K), steps[l]? = some h → (prev :: steps)[l]? = some p → (levels1D c prev steps)[l]? = some (levelEntries c h p)
  | [], _, l, h, p, a, _ => by simp at a
  | x :: xs, prev, 0, h, p, a, b => by simp at a b; subst a b; rfl
  | x :: xs, prev, l + 1, h, p, a, b => by
    simp only [List.getElem?_cons_succ] at a b
    simp only [levels1D, List.getElem?_cons_succ]
    exact levels1D_get c xs x l h p a b

omit [IsStrictOrderedRing K] in
theorem levels1D_length (c : Config K) : ∀ (steps : List K) (prev : K), (levels1D c prev steps).length = steps.length
  | [], _ => rfl
  | x :: xs, prev => by simp [levels1D, levels1D_length c xs]

/-- `C115`, one dimension: with positive steps whose numbers of elements grow from level to level, for every realization `φ` of the field a sample of level 0 returns the shot with the elements of
level 0 and 0, and a sample of level `l + 1` returns the shots with the elements of its own level and of level `l`: fine results of a level and coarse results of the next one are
the same function of the realization. -/
theorem C115_levels_share_shots_partial (c : Config K) (hT : 0 < c.maxTime) (steps : List K) (hpos : ∀ h ∈ steps, 0 < h) (h1 : ∀ h ∈ steps, 1 ≤ elements c h)
    (hgrow : ∀ (l : Nat) (h h' : K), steps[l]? = some h → steps[l + 1]? = some h' → elements c h < elements c h') (φ : K → K) (field : List K → List K) (hφ : ∀ pts, field pts = pts.map φ) :
    (levels1D c 0 steps).length = steps.length ∧
    (∀ h lv, steps[0]? = some h → (levels1D c 0 steps)[0]? = some lv → calculate1D c lv field = .ok (shot c (elements c h) φ, some 0)) ∧
    ∀ (l : Nat) (h h' : K) lv, steps[l]? = some h → steps[l + 1]? = some h' → (levels1D c 0 steps)[l + 1]? = some lv →
      calculate1D c lv field = .ok (shot c (elements c h') φ, shot c (elements c h) φ) := by
  have hlen : ∀ (b : K) (n : Nat), (linspace0 b n).length = n := by intro b n; simp [linspace0]
  have hel : ∀ h, nElements c h = elements c h := fun _ => rfl
  simp only [← hel] at h1 hgrow ⊢
  refine ⟨levels1D_length c steps 0, fun h lv a b => ?_, fun l h h' lv a a' b => ?_⟩
  · rw [levels1D_get c steps 0 0 h 0 a rfl] at b
    injection b with b
    subst b
    have hm := h1 h (List.mem_of_getElem? a)
    unfold calculate1D createPoints levelEntries
    simp only [gt_iff_lt, lt_irrefl, if_false, ne_eq, not_true_eq_false]
    rw [if_pos (by omega)]
    simp only [Except.map, hφ, List.map_append]
    rw [List.take_append_of_le_length (by simp [hlen]), List.take_of_length_le (by simp [hlen]), run1D_eq c hT _ (by omega)]
    rfl
  · rw [levels1D_get c steps 0 (l + 1) h' h a' (by simpa using a)] at b
    injection b with b
    subst b
    have hm := h1 h (List.mem_of_getElem? a)
    have hg := hgrow l h h' a a'
    have hp := hpos h (List.mem_of_getElem? a)
    unfold calculate1D createPoints levelEntries
    simp only [gt_iff_lt, hp, if_true, ne_eq, hp.ne', not_false_iff]
    rw [if_pos hg]
    simp only [Except.map, hφ, List.map_append]
    rw [List.take_append_of_le_length (by simp [hlen]), List.take_of_length_le (by simp [hlen]), List.drop_append_of_le_length (by simp [hlen]), List.drop_of_length_le (by simp [hlen]),
      List.nil_append, run1D_eq c hT _ (by omega), run1D_eq c hT _ (by omega)]

/-- `C115` is false if the number of elements does not grow: every sample of such a level raises. -/
theorem C115_counterexample_equal_elements (c : Config K) (steps : List K) (hpos : ∀ h ∈ steps, 0 < h) (l : Nat) (h h' : K) (a : steps[l]? = some h) (a' : steps[l + 1]? = some h')
    (hle : elements c h' ≤ elements c h) (lv : LevelCfg K) (hl : (levels1D c 0 steps)[l + 1]? = some lv) (field : List K → List K) : calculate1D c lv field = .error .assertionError := by
  rw [levels1D_get c steps 0 (l + 1) h' h a' (by simpa using a)] at hl
  injection hl with hl
  subst hl
  unfold calculate1D createPoints levelEntries
  have hel : ∀ h, nElements c h = elements c h := fun _ => rfl
  simp only [gt_iff_lt, hpos h (List.mem_of_getElem? a), if_true, hel]
  rw [if_neg (by omega)]
  rfl

omit [IsStrictOrderedRing K] in
theorem shared2D_last (c : Config K) : ∀ (steps : List K) (cell : Option (LevelCfg K)) (prev : K) (h p : K), steps.getLast? = some h → (prev :: steps)[steps.length - 1]? = some p →
    shared2D c cell prev steps = some (levelEntries c h p)
  | [], _, _, h, p, a, _ => by simp at a
  | [x], cell, prev, h, p, a, b => by simp at a b; subst a b; rfl
  | x :: y :: xs, cell, prev, h, p, a, b => by
    rw [shared2D]
    exact shared2D_last c (y :: xs) _ x h p (by simpa using a) (by simpa using b)

/-- `C115` is false in two dimensions, for all configurations, steps and realizations: a sample of any level computes the finest simulation, and its coarse result is its fine result (also on
level 0): with realizations `φ`, `ψ` of the fields it is the shot with the elements of the last step.  So all differences of levels are zero, and the levels above the first add nothing to the estimates. -/
theorem C115_counterexample_2d (c : Config K) (steps : List K) (lv : LevelCfg K) (l : Nat) (hl : (levels2D c steps)[l]? = some lv) (fieldX fieldY : List K → List K) :
    (∀ h, steps.getLast? = some h → lv.fineStep = h ∧ lv.nFine = elements c h) ∧ ∀ f g, calculate2D c lv fieldX fieldY = .ok (f, g) → g = f ∧
      ∀ h φ ψ, steps.getLast? = some h → 0 < c.maxTime → (∀ pts, fieldX pts = pts.map φ) → (∀ pts, fieldY pts = pts.map ψ) → f = shot2 c (elements c h) φ ψ := by
  have first : ∀ h, steps.getLast? = some h → lv.fineStep = h ∧ lv.nFine = elements c h := by
    intro h hh
    have hne : steps ≠ [] := by rintro rfl; simp at hh
    have hlen : 0 < steps.length := List.length_pos_iff.2 hne
    have hp : (0 :: steps)[steps.length - 1]? = some ((0 :: steps)[steps.length - 1]'(by simp)) := List.getElem?_eq_getElem _
    unfold levels2D at hl
    rw [shared2D_last c steps none 0 h _ hh hp] at hl
    simp only [List.getElem?_map, Option.map_eq_some_iff] at hl
    obtain ⟨_, _, rfl⟩ := hl
    exact ⟨rfl, rfl⟩
  refine ⟨first, ?_⟩
  intro f g h
  unfold calculate2D at h
  cases hc : createPoints c lv with
  | error x => rw [hc] at h; cases h
  | ok pts =>
    rw [hc] at h
    cases h
    refine ⟨rfl, fun h φ ψ hh hT hx hy => ?_⟩
    obtain ⟨-, hn⟩ := first h hh
    have hlen : ∀ (b : K) (n : Nat), (linspace0 b n).length = n := by intro b n; simp [linspace0]
    unfold createPoints at hc
    split at hc
    · rename_i hlt
      injection hc with hc
      rw [← hc, hx, hy, List.map_append, List.map_append, List.take_append_of_le_length (by simp [hlen]), List.take_of_length_le (by simp [hlen]),
        List.take_append_of_le_length (by simp [hlen]), List.take_of_length_le (by simp [hlen]), run2D_eq c hT _ (by omega), hn]
    · cases hc

omit [IsStrictOrderedRing K] in
theorem shot_some {c : Config K} {n : Nat} {φ : K → K} {y : K} (h : shot c n φ = some y) :
    (∀ k, 1 ≤ k → k ≤ n → Inside c (position c.startX c.velX (c.maxTime / n) (fun i => φ (if n = 1 then 0 else (i : K) * (c.velX * c.maxTime / ((n : K) - 1)))) k)
      (position c.startY c.velY (c.maxTime / n) (fun i => φ (if n = 1 then 0 else (i : K) * (c.velX * c.maxTime / ((n : K) - 1)))) k)) ∧
    y = position c.startY c.velY (c.maxTime / n) (fun i => φ (if n = 1 then 0 else (i : K) * (c.velX * c.maxTime / ((n : K) - 1)))) n := by
  unfold shot at h
  rcases Classical.em (∀ k, 1 ≤ k → k ≤ n → Inside c (position c.startX c.velX (c.maxTime / n) (fun i => φ (if n = 1 then 0 else (i : K) * (c.velX * c.maxTime / ((n : K) - 1)))) k)
      (position c.startY c.velY (c.maxTime / n) (fun i => φ (if n = 1 then 0 else (i : K) * (c.velX * c.maxTime / ((n : K) - 1)))) k)) with h1 | h1
  · replace h := (if_pos h1).symm.trans h
    injection h with h
    exact ⟨h1, h.symm⟩
  · replace h := (if_neg h1).symm.trans h
    cases h

end

/-! ### Convergence of the levels -/

theorem cell_bound {T B L : ℝ} {n : Nat} (hn : 2 ≤ n) (hT : 0 < T) (g : ℝ → ℝ) (hB : ∀ s, 0 ≤ s → s ≤ T → |g s| ≤ B) (hL : ∀ s t, 0 ≤ s → s ≤ T → 0 ≤ t → t ≤ T → |g s - g t| ≤ L * |s - t|) (hL0 : 0 ≤ L)
    (i : Nat) (hi : i < n) (s : ℝ) (h1 : (i : ℝ) * (T / n) ≤ s) (h2 : s ≤ ((i : ℝ) + 1) * (T / n)) :
    |T / n * ((n : ℝ) - 1 - i) * g (i * (T / ((n : ℝ) - 1))) - (T - s) * g s| ≤ T / n * (B + T * L) := by
  have hn0 : (0 : ℝ) < n := by exact_mod_cast (by omega : 0 < n)
  have hn1 : (0 : ℝ) < (n : ℝ) - 1 := by
    have : (2 : ℝ) ≤ n := by exact_mod_cast hn
    linarith
  have hi1 : (i : ℝ) + 1 ≤ n := by exact_mod_cast hi
  have hi0 : (0 : ℝ) ≤ i := Nat.cast_nonneg i
  have hd : 0 < T / n := by positivity
  have hTn : T = n * (T / n) := by field_simp
  have hs0 : 0 ≤ s := le_trans (by positivity) h1
  have hsT : s ≤ T := by
    refine le_trans h2 ?_
    conv_rhs => rw [hTn]
    exact mul_le_mul_of_nonneg_right hi1 hd.le
  set p := (i : ℝ) * (T / ((n : ℝ) - 1)) with hp
  have hp1 : (i : ℝ) * (T / n) ≤ p := by
    rw [hp]
    apply mul_le_mul_of_nonneg_left _ hi0
    apply div_le_div_of_nonneg_left hT.le hn1
    linarith
  have hp2 : p ≤ ((i : ℝ) + 1) * (T / n) := by
    rw [hp, mul_div_assoc', mul_div_assoc', div_le_div_iff₀ hn1 hn0]
    nlinarith
  have hp0 : 0 ≤ p := le_trans (by positivity) hp1
  have hpT : p ≤ T := by
    refine le_trans hp2 ?_
    conv_rhs => rw [hTn]
    exact mul_le_mul_of_nonneg_right hi1 hd.le
  have hps : |p - s| ≤ T / n := by rw [abs_le]; constructor <;> nlinarith
  have e : T / n * ((n : ℝ) - 1 - i) * g p - (T - s) * g s = (T / n * ((n : ℝ) - 1 - i) - (T - s)) * g p + (T - s) * (g p - g s) := by ring
  have ha : |T / n * ((n : ℝ) - 1 - i) - (T - s)| ≤ T / n := by
    have : T / n * ((n : ℝ) - 1 - i) - (T - s) = s - ((i : ℝ) + 1) * (T / n) := by
      have : T / n * (n : ℝ) = T := by field_simp
      linear_combination this
    rw [this, abs_le]
    constructor <;> nlinarith
  rw [e]
  calc _ ≤ |(T / n * ((n : ℝ) - 1 - i) - (T - s)) * g p| + |(T - s) * (g p - g s)| := abs_add_le _ _
    _ ≤ T / n * B + T * (L * (T / n)) := by
      rw [abs_mul, abs_mul]
      apply add_le_add
      · exact mul_le_mul ha (hB p hp0 hpT) (abs_nonneg _) hd.le
      · apply mul_le_mul _ _ (abs_nonneg _) hT.le
        · rw [abs_of_nonneg (by linarith)]; linarith
        · exact (hL p s hp0 hpT hs0 hsT).trans (mul_le_mul_of_nonneg_left hps hL0)
    _ = T / n * (B + T * L) := by ring

open MeasureTheory in
/-- `C115`, convergence: if the field along the way is bounded by `B` and Lipschitz with constant `L`, the shot with `n` elements differs from the exact position at the end by at most
`T² (B + T L) / n`. -/
theorem C115_shot_converges (c : Config ℝ) (hT : 0 < c.maxTime) (n : Nat) (hn : 2 ≤ n) (φ : ℝ → ℝ) (B L : ℝ) (hL0 : 0 ≤ L) (hB : ∀ s, 0 ≤ s → s ≤ c.maxTime → |φ (c.velX * s)| ≤ B)
    (hL : ∀ s t, 0 ≤ s → s ≤ c.maxTime → 0 ≤ t → t ≤ c.maxTime → |φ (c.velX * s) - φ (c.velX * t)| ≤ L * |s - t|) (y : ℝ) (hy : shot c n φ = some y) :
    |y - (c.startY + c.maxTime * c.velY + ∫ s in (0 : ℝ)..c.maxTime, (c.maxTime - s) * φ (c.velX * s))| ≤ c.maxTime ^ 2 * (B + c.maxTime * L) / n := by
  set T := c.maxTime with hTdef
  set g : ℝ → ℝ := fun s => φ (c.velX * s) with hg
  have hn0 : (0 : ℝ) < n := by exact_mod_cast (by omega : 0 < n)
  have hn1 : (n : ℝ) - 1 ≠ 0 := by
    have : (2 : ℝ) ≤ n := by exact_mod_cast hn
    linarith
  have hd : 0 < T / n := by positivity
  -- the position as a sum over cells
  have hyeq : y = c.startY + T * c.velY + ∑ i ∈ Finset.range n, T / n * (T / n * ((n : ℝ) - 1 - i) * g (i * (T / ((n : ℝ) - 1)))) := by
    obtain ⟨_, hy⟩ := shot_some hy
    rw [hy]
    unfold position
    rw [Finset.mul_sum]
    congr 1
    · rw [← hTdef]; field_simp
    · refine Finset.sum_congr rfl fun i _ => ?_
      simp only [if_neg (show n ≠ 1 by omega), hg, ← hTdef]
      rw [show (i : ℝ) * (c.velX * T / ((n : ℝ) - 1)) = c.velX * ((i : ℝ) * (T / ((n : ℝ) - 1))) by ring]
      ring
  have hcont : ContinuousOn g (Set.Icc 0 T) := by
    have : LipschitzOnWith ⟨L, hL0⟩ g (Set.Icc 0 T) := by
      apply LipschitzOnWith.of_dist_le_mul
      intro s hs t ht
      rw [Real.dist_eq, Real.dist_eq]
      exact hL s t hs.1 hs.2 ht.1 ht.2
    exact this.continuousOn
  have hint : ∀ a b : ℝ, 0 ≤ a → a ≤ b → b ≤ T → IntervalIntegrable (fun s => (T - s) * g s) volume a b := by
    intro a b h0 h1 h2
    apply ContinuousOn.intervalIntegrable
    rw [Set.uIcc_of_le h1]
    exact (continuousOn_const.sub continuousOn_id).mul (hcont.mono (Set.Icc_subset_Icc h0 h2))
  have hTn : (n : ℝ) * (T / n) = T := by field_simp
  have hsum : ∫ s in (0 : ℝ)..T, (T - s) * g s = ∑ i ∈ Finset.range n, ∫ s in ((i : ℝ) * (T / n))..(((i : ℝ) + 1) * (T / n)), (T - s) * g s := by
    have := intervalIntegral.sum_integral_adjacent_intervals (f := fun s => (T - s) * g s) (μ := volume) (a := fun i : ℕ => (i : ℝ) * (T / n)) (n := n) (by
      intro k hk
      have hk1 : (k : ℝ) + 1 ≤ n := by exact_mod_cast hk
      refine hint _ _ (by positivity) (by push_cast; nlinarith) ?_
      push_cast
      calc ((k : ℝ) + 1) * (T / n) ≤ n * (T / n) := mul_le_mul_of_nonneg_right hk1 hd.le
        _ = T := hTn)
    simp only [Nat.cast_zero, zero_mul, hTn] at this
    rw [← this]
    refine Finset.sum_congr rfl fun i _ => ?_
    push_cast
    rfl
  have hcell : ∀ i ∈ Finset.range n, |T / n * (T / n * ((n : ℝ) - 1 - i) * g (i * (T / ((n : ℝ) - 1)))) - ∫ s in ((i : ℝ) * (T / n))..(((i : ℝ) + 1) * (T / n)), (T - s) * g s| ≤
      T / n * (T / n * (B + T * L)) := by
    intro i hi
    have hin := Finset.mem_range.1 hi
    have hi1 : (i : ℝ) + 1 ≤ n := by exact_mod_cast hin
    have hle : (i : ℝ) * (T / n) ≤ ((i : ℝ) + 1) * (T / n) := by nlinarith
    have hend : ((i : ℝ) + 1) * (T / n) ≤ T := by
      calc ((i : ℝ) + 1) * (T / n) ≤ n * (T / n) := mul_le_mul_of_nonneg_right hi1 hd.le
        _ = T := hTn
    have hc : T / n * (T / n * ((n : ℝ) - 1 - i) * g (i * (T / ((n : ℝ) - 1)))) =
        ∫ s in ((i : ℝ) * (T / n))..(((i : ℝ) + 1) * (T / n)), T / n * ((n : ℝ) - 1 - i) * g (i * (T / ((n : ℝ) - 1))) := by
      rw [intervalIntegral.integral_const, smul_eq_mul]
      ring
    rw [hc, ← intervalIntegral.integral_sub (by simp) (hint _ _ (by positivity) hle hend)]
    have := intervalIntegral.norm_integral_le_of_norm_le_const (a := (i : ℝ) * (T / n)) (b := ((i : ℝ) + 1) * (T / n)) (C := T / n * (B + T * L))
      (f := fun s => T / n * ((n : ℝ) - 1 - i) * g (i * (T / ((n : ℝ) - 1))) - (T - s) * g s) (by
        intro s hs
        rw [Set.uIoc_of_le hle] at hs
        exact cell_bound hn hT g hB hL hL0 i hin s hs.1.le hs.2)
    rw [Real.norm_eq_abs] at this
    refine this.trans (le_of_eq ?_)
    rw [abs_of_nonneg (by linarith)]
    ring
  rw [hyeq, hsum]
  rw [show c.startY + T * c.velY + ∑ i ∈ Finset.range n, T / n * (T / n * ((n : ℝ) - 1 - i) * g (i * (T / ((n : ℝ) - 1)))) -
      (c.startY + T * c.velY + ∑ i ∈ Finset.range n, ∫ s in ((i : ℝ) * (T / n))..(((i : ℝ) + 1) * (T / n)), (T - s) * g s) =
    ∑ i ∈ Finset.range n, (T / n * (T / n * ((n : ℝ) - 1 - i) * g (i * (T / ((n : ℝ) - 1)))) - ∫ s in ((i : ℝ) * (T / n))..(((i : ℝ) + 1) * (T / n)), (T - s) * g s) by
      rw [Finset.sum_sub_distrib]; ring]
  calc _ ≤ ∑ i ∈ Finset.range n, T / n * (T / n * (B + T * L)) := (Finset.abs_sum_le_sum_abs _ _).trans (Finset.sum_le_sum hcell)
    _ = T ^ 2 * (B + T * L) / n := by
      rw [Finset.sum_const, Finset.card_range, nsmul_eq_mul]
      field_simp

/-! ### A concrete case: the configuration of the tutorial with two levels -/

/-- /repo/examples/shooting/shooting_1D.py:71-78. -/
def exConfig : Config ℚ := ⟨0, 0, 10, 0, -100, 200, -300, 400, 10, 2⟩

/-- Steps 1 and 1/2 have 2 and 4 elements; the hypotheses of `C115_levels_share_shots_partial` are met. -/
example (φ : ℚ → ℚ) : (levels1D exConfig 0 [1, 1 / 2]).length = 2 :=
  (C115_levels_share_shots_partial exConfig (by decide +kernel) [1, 1 / 2] (by decide +kernel) (by decide +kernel) (by
    intro l h h' a a'
    rcases l with _ | l
    · simp at a a'
      subst a a'
      decide +kernel
    · simp at a') φ (fun pts => pts.map φ) (fun _ => rfl)).1

/-- With the force `x / 10` level 0 returns 0 and level 1 returns 250/3 and 0. -/
example : (levels1D exConfig 0 [1, 1 / 2]).map (fun lv => calculate1D exConfig lv fun pts => pts.map fun x => x / 10) = [.ok (some 0, some 0), .ok (some (250 / 3), some 0)] := by
  decide +kernel

/-- In two dimensions both levels return the shot of the finest level twice; the coarse result of level 1 and the fine result of level 0 should be the shot with two elements, which ends at (100, 0). -/
example : (levels2D exConfig [1, 1 / 2]).map (fun lv => calculate2D exConfig lv (fun pts => pts.map fun x => x / 10) fun pts => pts.map fun x => x / 10) =
      [.ok (some (550 / 3, 250 / 3), some (550 / 3, 250 / 3)), .ok (some (550 / 3, 250 / 3), some (550 / 3, 250 / 3))] ∧
    run2D exConfig [(0, 0), (10, 10)] = some (100, 0) := by
  decide +kernel

/-- Steps 1 and 9/10 have the same number of elements: all samples of level 1 raise. -/
example : (levels1D exConfig 0 [1, 9 / 10]).map (fun lv => calculate1D exConfig lv fun pts => pts) = [.ok (some 0, some 0), .error .assertionError] := by
  decide +kernel

/-- The hypotheses of `C115_shot_converges` are met by the configuration of the tutorial and a constant force: the exact position is 50, the one with 4 elements 75/2. -/
example : ∃ c : Config ℝ, shot c 4 (fun _ => 1) = some (75 / 2) ∧ |(75 / 2 : ℝ) - 50| ≤ 25 := by
  refine ⟨⟨0, 0, 10, 0, -100, 200, -300, 400, 10, 2⟩, ?_, by norm_num [abs_le]⟩
  unfold shot
  rw [if_pos]
  · norm_num [position, Finset.sum_range_succ]
  · intro k h1 h2
    have : k = 1 ∨ k = 2 ∨ k = 3 ∨ k = 4 := by omega
    rcases this with rfl | rfl | rfl | rfl <;> norm_num [Inside, position, Finset.sum_range_succ]

end MLMC.Shoot
