import Verif.Props.FloatVander
import Verif.Props.FloatEstimate
import Verif.Proofs.LegendreBound
/-! # C166: estimated moments in doubles -/
namespace MLMC.Fl
open MLMC.Mom (leg)

/-- The exact position of a value in the domain of moment functions, from 0 to 1; `a` and `b` are the bounds, all of them after the logarithm if there is one. -/
def exactPosition (log : Option (ℚ → ℚ)) (a b x : ℚ) : ℚ := ((linArg log x).getD 0 - a) / (b - a)

/-- Rows of moment functions for the samples (fine and coarse value) of the chunks of a scalar quantity, level 0 without coarse values.
/repo/mlmc/quantity/quantity_estimate.py:105-110. -/
def momentChunks (row : ℚ → List (Option ℚ)) (chunks : List (Nat × List (ℚ × ℚ))) : List (Nat × List (Sample (Option ℚ))) :=
  chunks.map fun c => (c.1, c.2.map fun s => if c.1 = 0 then [row s.1] else [row s.1, row s.2])

/-- The samples of a level. -/
def rawLevel (chunks : List (Nat × List (ℚ × ℚ))) (l : Nat) : List (ℚ × ℚ) := (chunks.filter fun c => decide (c.1 = l)).flatMap (·.2)

/-- The differences of function `n` for the samples of a level (values on level 0). -/
noncomputable def exactDiffs (φ : ℚ → Nat → ℝ) (chunks : List (Nat × List (ℚ × ℚ))) (l n : Nat) : List ℝ :=
  (rawLevel chunks l).map fun s => φ s.1 n - if l = 0 then 0 else φ s.2 n

/-- The errors of the computed functions of degree `n`, as in `C165_legendre` and `C165_monomial`. -/
noncomputable def legErr (n : Nat) : ℝ := 21 * n * (5 / 2) ^ n / 2 ^ 53
noncomputable def powErr (n : Nat) : ℝ := 8 * n / 2 ^ 53

/-! ## Helpers -/

theorem average_cast (xs : List ℚ) : ((average xs : ℚ) : ℝ) = average (xs.map fun x : ℚ => (x : ℝ)) := by
  unfold average
  push_cast
  rw [List.length_map]

theorem abs_sum_le {α : Type} (L : List α) (f : α → ℝ) (δ : ℝ) (h : ∀ s ∈ L, |f s| ≤ δ) : |(L.map f).sum| ≤ L.length * δ := by
  induction L with
  | nil => simp
  | cons x L ih =>
    have i := ih fun s hs => h s (by simp [hs])
    have hx := h x (by simp)
    simp only [List.map_cons, List.sum_cons, List.length_cons]
    refine (abs_add_le _ _).trans ?_
    push_cast
    linarith

theorem sum_map_sub' {α : Type} (L : List α) (f g : α → ℝ) : (L.map fun s => f s - g s).sum = (L.map f).sum - (L.map g).sum := by
  induction L with
  | nil => simp
  | cons x L ih => simp only [List.map_cons, List.sum_cons, ih]; ring

theorem average_near {α : Type} (L : List α) (hL : L ≠ []) (f g : α → ℝ) (δ : ℝ) (h : ∀ s ∈ L, |f s - g s| ≤ δ) : |average (L.map f) - average (L.map g)| ≤ δ := by
  have hl : (0 : ℝ) < L.length := by exact_mod_cast List.length_pos_of_ne_nil hL
  unfold average
  rw [List.length_map, List.length_map, ← sub_div, ← sum_map_sub', abs_div, abs_of_pos hl, div_le_iff₀ hl, mul_comm]
  exact abs_sum_le L _ δ h

theorem levelData_momentChunks (row : ℚ → List (Option ℚ)) (chunks : List (Nat × List (ℚ × ℚ))) (l : Nat) :
    levelData (momentChunks row chunks) l = (rawLevel chunks l).map fun s => if l = 0 then [row s.1] else [row s.1, row s.2] := by
  unfold levelData momentChunks rawLevel
  induction chunks with
  | nil => rfl
  | cons c cs ih =>
    by_cases hc : c.1 = l
    · simp only [List.map_cons, List.filter_cons, hc, decide_true, if_true, List.flatMap_cons, List.map_append, ih]
    · simp only [List.map_cons, List.filter_cons, hc, decide_false, Bool.false_eq_true, if_false, ih]

theorem row_legendre {lo hi : ℚ} {log : Option (ℚ → ℚ)} (hlog : LogMono log) {t : Transform} (h : Transform.new double tiny (-1) 1 log lo hi = .ok t) {a b : ℚ} (ha : linArg log lo = some a)
    (hb : linArg log hi = some b) (hwide : tiny ≤ double (b - a)) (R : Nat) (hR : 0 < R) (hRmax : R ≤ 2 ^ 51) (row : ℚ → List (Option ℚ)) (hrow : ∀ x, t.evalAll legCol x R = .ok (row x)) :
    ∀ x, lo ≤ x → x ≤ hi → ∃ r : List ℚ, row x = r.map some ∧ ∀ n < R, |leg ((2 * exactPosition log a b x - 1 : ℚ) : ℝ) n| ≤ 1 ∧ |((((row x).getD n none).getD 0 : ℚ) : ℝ) - leg ((2 * exactPosition log a b x - 1 : ℚ) : ℝ) n| ≤ legErr n := by
  intro x h1 h2
  obtain ⟨c, hc, -⟩ := linArg_mono hlog h1 ha
  obtain ⟨r, q1, q2, -, q4⟩ := C165_legendre hlog h ha hb hwide h1 h2 hc R hR hRmax
  rw [hrow x] at q1
  injection q1 with q1
  obtain ⟨-, y, -, -, -, e0, e1, -⟩ := position (k := 1) (by norm_num) (by decide +kernel) (by decide +kernel) hlog h ha hb hwide h1 h2 hc
  have hp : exactPosition log a b x = (c - a) / (b - a) := by rw [exactPosition, hc]; rfl
  have hτ : (c - a) / (b - a) * (1 - -1) + -1 = 2 * ((c - a) / (b - a)) - 1 := by ring
  have hτ' : 2 * (c - a) / (b - a) - 1 = 2 * ((c - a) / (b - a)) - 1 := by ring
  rw [hτ] at e0 e1
  refine ⟨r, q1, fun n hn => ⟨?_, ?_⟩⟩
  · rw [hp]
    refine Mom.abs_leg_le_one _ ?_ n
    have : |2 * ((c - a) / (b - a)) - 1| ≤ 1 := abs_le.2 ⟨e0, e1⟩
    have := (Rat.cast_le (K := ℝ)).2 this
    rwa [Rat.cast_abs, Rat.cast_one] at this
  · have hn' : n < r.length := by omega
    have := q4 n r[n] (List.getElem?_eq_getElem hn')
    rw [hτ'] at this
    rw [q1, hp]
    simpa [List.getD_eq_getElem?_getD, hn', legErr] using this

theorem row_monomial {lo hi : ℚ} {log : Option (ℚ → ℚ)} (hlog : LogMono log) {t : Transform} (h : Transform.new double tiny 0 1 log lo hi = .ok t) {a b : ℚ} (ha : linArg log lo = some a)
    (hb : linArg log hi = some b) (hwide : tiny ≤ double (b - a)) (R : Nat) (hR : 0 < R) (hRmax : R ≤ 2 ^ 53) (row : ℚ → List (Option ℚ)) (hrow : ∀ x, t.evalAll powCol x R = .ok (row x)) :
    ∀ x, lo ≤ x → x ≤ hi → ∃ r : List ℚ, row x = r.map some ∧ ∀ n < R, |((exactPosition log a b x : ℚ) : ℝ) ^ n| ≤ 1 ∧ |((((row x).getD n none).getD 0 : ℚ) : ℝ) - ((exactPosition log a b x : ℚ) : ℝ) ^ n| ≤ powErr n := by
  intro x h1 h2
  obtain ⟨c, hc, -⟩ := linArg_mono hlog h1 ha
  obtain ⟨r, q1, q2, -, q4⟩ := C165_monomial hlog h ha hb hwide h1 h2 hc R hR hRmax
  rw [hrow x] at q1
  injection q1 with q1
  obtain ⟨-, y, -, -, -, e0, e1, -⟩ := position (k := 0) (by norm_num) (by decide +kernel) (by decide +kernel) hlog h ha hb hwide h1 h2 hc
  have hp : exactPosition log a b x = (c - a) / (b - a) := by rw [exactPosition, hc]; rfl
  have hτ : (c - a) / (b - a) * (1 - 0) + 0 = (c - a) / (b - a) := by ring
  rw [hτ] at e0 e1
  refine ⟨r, q1, fun n hn => ⟨?_, ?_⟩⟩
  · rw [hp, abs_pow]
    refine pow_le_one₀ (abs_nonneg _) ?_
    have : |(c - a) / (b - a)| ≤ 1 := abs_le.2 ⟨by linarith, e1⟩
    have := (Rat.cast_le (K := ℝ)).2 this
    rwa [Rat.cast_abs, Rat.cast_one] at this
  · have hn' : n < r.length := by omega
    have := (Rat.cast_le (K := ℝ)).2 (q4 n r[n] (List.getElem?_eq_getElem hn'))
    rw [Rat.cast_abs] at this
    rw [q1, hp]
    push_cast at this ⊢
    simpa [List.getD_eq_getElem?_getD, hn', powErr] using this

theorem absMean_nonneg' (xs : List ℚ) : 0 ≤ absMean xs := by
  unfold absMean average
  refine div_nonneg (List.sum_nonneg fun x hx => ?_) (Nat.cast_nonneg _)
  obtain ⟨y, -, rfl⟩ := List.mem_map.1 hx
  exact abs_nonneg y

theorem combine (x av am : ℚ) (N : Nat) (ex B : ℝ) {δ : ℝ} (h3 : |x - av| ≤ gamma (1 / 2 ^ 53) N * am) (habs : (am : ℝ) ≤ B) (havg : |(av : ℝ) - ex| ≤ δ) :
    |(x : ℝ) - ex| ≤ δ + ((1 + 1 / 2 ^ 53) ^ N - 1) * B := by
  have g0 : (0 : ℚ) ≤ gamma (1 / 2 ^ 53) N := by
    unfold gamma
    have : (1 : ℚ) ≤ (1 + 1 / 2 ^ 53) ^ N := one_le_pow₀ (by norm_num)
    linarith
  have hg : ((gamma (1 / 2 ^ 53) N : ℚ) : ℝ) = (1 + 1 / 2 ^ 53) ^ N - 1 := by unfold gamma; push_cast; rfl
  rw [← hg]
  generalize gamma (1 / 2 ^ 53 : ℚ) N = γ at *
  have cast := (Rat.cast_le (K := ℝ)).2 h3
  rw [Rat.cast_abs] at cast
  push_cast at cast
  have g1 : (0 : ℝ) ≤ γ := by exact_mod_cast g0
  have r : (x : ℝ) - ex = ((x : ℝ) - av) + ((av : ℝ) - ex) := by ring
  rw [r]
  refine (abs_add_le _ _).trans ?_
  have := cast.trans (mul_le_mul_of_nonneg_left habs g1)
  linarith

theorem secondMoment_le {α : Type} (L : List α) (hL : 2 ≤ L.length) (f : α → ℝ) (B : ℝ) (h : ∀ s ∈ L, |f s| ≤ B) : secondMoment (L.map f) ≤ 2 * B ^ 2 := by
  have hl : (2 : ℝ) ≤ L.length := by exact_mod_cast hL
  unfold secondMoment
  rw [List.length_map, div_le_iff₀ (by linarith), List.map_map]
  have := (le_abs_self _).trans (abs_sum_le L ((fun x => x ^ 2) ∘ f) (B ^ 2) fun s hs => by
    rw [Function.comp_apply, abs_pow]
    exact pow_le_pow_left₀ (abs_nonneg _) (h s hs) 2)
  have b : 0 ≤ B ^ 2 := sq_nonneg B
  nlinarith

theorem average_le {α : Type} (L : List α) (hL : L ≠ []) (f : α → ℝ) (B : ℝ) (h : ∀ s ∈ L, |f s| ≤ B) : |average (L.map f)| ≤ B := by
  have hl : (0 : ℝ) < L.length := by exact_mod_cast List.length_pos_of_ne_nil hL
  unfold average
  rw [List.length_map, abs_div, abs_of_pos hl, div_le_iff₀ hl, mul_comm]
  exact abs_sum_le L f B h

theorem square_near (F G B δ : ℝ) (h1 : |F - G| ≤ 2 * δ) (h2 : |G| ≤ 2 * B) : |F ^ 2 - G ^ 2| ≤ 2 * δ * (4 * B + 2 * δ) := by
  have r : F ^ 2 - G ^ 2 = (F - G) * ((F - G) + 2 * G) := by ring
  rw [r, abs_mul]
  have h0 := abs_nonneg (F - G)
  refine mul_le_mul h1 ((abs_add_le _ _).trans ?_) (abs_nonneg _) (by linarith)
  rw [abs_mul, abs_two]
  linarith

theorem sampleVar_near {α : Type} (L : List α) (hL : 2 ≤ L.length) (f g : α → ℝ) (B δ : ℝ) (h : ∀ s ∈ L, |f s - g s| ≤ δ) (hg : ∀ s ∈ L, |g s| ≤ B) :
    |sampleVar (L.map f) - sampleVar (L.map g)| ≤ 2 * (2 * δ * (4 * B + 2 * δ)) := by
  have hne : L ≠ [] := by rintro rfl; simp at hL
  have hl : (2 : ℝ) ≤ L.length := by exact_mod_cast hL
  have ha := average_near L hne f g δ h
  have hb := average_le L hne g B hg
  have pt : ∀ s ∈ L, |(f s - average (L.map f)) ^ 2 - (g s - average (L.map g)) ^ 2| ≤ 2 * δ * (4 * B + 2 * δ) := by
    intro s hs
    refine square_near _ _ B δ ?_ ?_
    · have r : f s - average (L.map f) - (g s - average (L.map g)) = (f s - g s) - (average (L.map f) - average (L.map g)) := by ring
      rw [r]
      refine (abs_sub _ _).trans ?_
      linarith [h s hs]
    · refine (abs_sub _ _).trans ?_
      linarith [hg s hs]
  have hs := abs_sum_le L _ _ pt
  obtain ⟨s0, hs0⟩ := List.exists_mem_of_ne_nil L hne
  have hB := (abs_nonneg _).trans (pt s0 hs0)
  unfold sampleVar
  rw [List.length_map, List.length_map, List.map_map, List.map_map, ← sub_div, abs_div, abs_of_pos (by linarith : (0 : ℝ) < L.length - 1), div_le_iff₀ (by linarith)]
  have e : (L.map ((fun x => (x - average (L.map f)) ^ 2) ∘ f)).sum - (L.map ((fun x => (x - average (L.map g)) ^ 2) ∘ g)).sum
      = (L.map fun s => (f s - average (L.map f)) ^ 2 - (g s - average (L.map g)) ^ 2).sum := (sum_map_sub' L _ _).symm
  rw [e]
  refine hs.trans ?_
  nlinarith

theorem levels {lo hi : ℚ} (R : Nat) (row : ℚ → List (Option ℚ)) (φ : ℚ → Nat → ℝ) (err : Nat → ℝ) (herr : ∀ n, 0 ≤ err n)
    (val : ∀ x, lo ≤ x → x ≤ hi → ∃ r : List ℚ, row x = r.map some ∧ ∀ n < R, |φ x n| ≤ 1 ∧ |((((row x).getD n none).getD 0 : ℚ) : ℝ) - φ x n| ≤ err n)
    (chunks : List (Nat × List (ℚ × ℚ))) (hin : ∀ c ∈ chunks, ∀ s ∈ c.2, (lo ≤ s.1 ∧ s.1 ≤ hi) ∧ (c.1 ≠ 0 → lo ≤ s.2 ∧ s.2 ≤ hi)) :
    (∀ l, ∀ s ∈ levelData (momentChunks row chunks) l, hasNan s = false) ∧ (∀ l, (used (momentChunks row chunks) l).length = (rawLevel chunks l).length) ∧
    ∀ l, rawLevel chunks l ≠ [] → ∀ n < R, ((absMean (diffs (momentChunks row chunks) l n) : ℚ) : ℝ) ≤ 2 + 2 * err n ∧
      |((average (diffs (momentChunks row chunks) l n) : ℚ) : ℝ) - average (exactDiffs φ chunks l n)| ≤ 2 * err n ∧
      (2 ≤ (rawLevel chunks l).length → ((secondMoment (diffs (momentChunks row chunks) l n) : ℚ) : ℝ) ≤ 2 * (2 + 2 * err n) ^ 2 ∧
        |((sampleVar (diffs (momentChunks row chunks) l n) : ℚ) : ℝ) - sampleVar (exactDiffs φ chunks l n)| ≤ 64 * err n + 32 * err n ^ 2) := by
  have mem : ∀ l, ∀ s ∈ rawLevel chunks l, (lo ≤ s.1 ∧ s.1 ≤ hi) ∧ (l ≠ 0 → lo ≤ s.2 ∧ s.2 ≤ hi) := by
    intro l s hs
    unfold rawLevel at hs
    obtain ⟨c, hc, hs'⟩ := List.mem_flatMap.1 hs
    obtain ⟨hc', hl⟩ := List.mem_filter.1 hc
    obtain rfl : c.1 = l := by simpa using hl
    exact hin c hc' s hs'
  have nonan : ∀ x, lo ≤ x → x ≤ hi → ∀ v ∈ row x, v.isNone = false := by
    intro x h1 h2 v hv
    obtain ⟨r, hr, -⟩ := val x h1 h2
    rw [hr] at hv
    obtain ⟨w, -, rfl⟩ := List.mem_map.1 hv
    rfl
  have clean : ∀ l, ∀ s ∈ levelData (momentChunks row chunks) l, hasNan s = false := by
    intro l s hs
    rw [levelData_momentChunks] at hs
    obtain ⟨p, hp, rfl⟩ := List.mem_map.1 hs
    obtain ⟨m1, m2⟩ := mem l p hp
    rw [Bool.eq_false_iff]
    intro hn
    unfold hasNan at hn
    obtain ⟨part, hpart, hn⟩ := List.any_eq_true.1 hn
    obtain ⟨v, hv, hn⟩ := List.any_eq_true.1 hn
    have : v.isNone = false := by
      split at hpart
      · simp only [List.mem_singleton] at hpart
        subst hpart
        exact nonan _ m1.1 m1.2 v hv
      · rename_i hl
        simp only [List.mem_cons, List.not_mem_nil, or_false] at hpart
        rcases hpart with rfl | rfl
        · exact nonan _ m1.1 m1.2 v hv
        · exact nonan _ (m2 hl).1 (m2 hl).2 v hv
    rw [this] at hn
    cases hn
  have hused : ∀ l, used (momentChunks row chunks) l = (rawLevel chunks l).map fun s => if l = 0 then [row s.1] else [row s.1, row s.2] := by
    intro l
    unfold used
    rw [List.filter_eq_self.2 fun s hs => by rw [clean l s hs]; rfl, levelData_momentChunks]
  have hlen : ∀ l, (used (momentChunks row chunks) l).length = (rawLevel chunks l).length := fun l => by rw [hused, List.length_map]
  refine ⟨clean, hlen, fun l hne n hn => ?_⟩
  -- the differences
  let f : ℚ × ℚ → ℚ := fun s => ((row s.1).getD n none).getD 0 - if l = 0 then 0 else ((row s.2).getD n none).getD 0
  let g : ℚ × ℚ → ℝ := fun s => φ s.1 n - if l = 0 then 0 else φ s.2 n
  have hd : diffs (momentChunks row chunks) l n = (rawLevel chunks l).map f := by
    unfold diffs
    rw [hused, List.map_map]
    refine List.map_congr_left fun s _ => ?_
    simp only [Function.comp_apply, f]
    split <;> rfl
  have e0 : 0 ≤ err n := herr n
  have near : ∀ s ∈ rawLevel chunks l, |((f s : ℚ) : ℝ) - g s| ≤ 2 * err n := by
    intro s hs
    obtain ⟨m1, m2⟩ := mem l s hs
    obtain ⟨-, -, v1⟩ := val _ m1.1 m1.2
    have v1 := (v1 n hn).2
    simp only [f, g]
    split
    · push_cast
      rw [sub_zero, sub_zero]
      linarith
    · rename_i hl0
      obtain ⟨-, -, v2⟩ := val _ (m2 hl0).1 (m2 hl0).2
      have v2 := (v2 n hn).2
      push_cast
      have r : ∀ p q p' q' : ℝ, p - q - (p' - q') = (p - p') - (q - q') := fun p q p' q' => by ring
      rw [r]
      refine (abs_sub _ _).trans ?_
      linarith
  have gle : ∀ s ∈ rawLevel chunks l, |g s| ≤ 2 := by
    intro s hs
    obtain ⟨m1, m2⟩ := mem l s hs
    obtain ⟨-, -, p1⟩ := val _ m1.1 m1.2
    have b1 := (p1 n hn).1
    simp only [g]
    split
    · rw [sub_zero]; linarith
    · rename_i hl0
      obtain ⟨-, -, p2⟩ := val _ (m2 hl0).1 (m2 hl0).2
      have b2 := (p2 n hn).1
      refine (abs_sub _ _).trans ?_
      linarith
  have fle : ∀ s ∈ rawLevel chunks l, |((f s : ℚ) : ℝ)| ≤ 2 + 2 * err n := by
    intro s hs
    have := abs_add_le (((f s : ℚ) : ℝ) - g s) (g s)
    rw [sub_add_cancel] at this
    linarith [near s hs, gle s hs]
  have hL : (0 : ℝ) < (rawLevel chunks l).length := by exact_mod_cast List.length_pos_of_ne_nil hne
  have habs : ((absMean (diffs (momentChunks row chunks) l n) : ℚ) : ℝ) ≤ 2 + 2 * err n := by
    unfold absMean
    rw [average_cast, hd, List.map_map, List.map_map]
    unfold average
    rw [List.length_map, div_le_iff₀ hL, mul_comm]
    refine (le_abs_self _).trans (abs_sum_le _ _ _ fun s hs => ?_)
    simp only [Function.comp_apply, Rat.cast_abs, abs_abs]
    exact fle s hs
  have havg : |((average (diffs (momentChunks row chunks) l n) : ℚ) : ℝ) - average (exactDiffs φ chunks l n)| ≤ 2 * err n := by
    rw [average_cast, hd, List.map_map]
    exact average_near _ hne _ g _ near
  refine ⟨habs, havg, fun h2 => ⟨?_, ?_⟩⟩
  · rw [hd]
    have hc : ((secondMoment ((rawLevel chunks l).map f) : ℚ) : ℝ) = secondMoment ((rawLevel chunks l).map fun s => ((f s : ℚ) : ℝ)) := by
      unfold secondMoment
      push_cast
      simp only [List.map_map, List.length_map]
      congr 3
      funext s
      simp
    rw [hc]
    exact secondMoment_le _ h2 _ _ fle
  · rw [hd]
    have hc : ((sampleVar ((rawLevel chunks l).map f) : ℚ) : ℝ) = sampleVar ((rawLevel chunks l).map fun s => ((f s : ℚ) : ℝ)) := by
      have ha : average ((rawLevel chunks l).map fun s => ((f s : ℚ) : ℝ)) = ((average ((rawLevel chunks l).map f) : ℚ) : ℝ) := by rw [average_cast, List.map_map]; rfl
      unfold sampleVar
      rw [ha]
      push_cast
      simp only [List.map_map, List.length_map]
      congr 3
      funext s
      simp
    rw [hc]
    refine (sampleVar_near _ h2 _ g 2 (2 * err n) near gle).trans (le_of_eq ?_)
    ring

theorem estimated {lo hi : ℚ} (R : Nat) (row : ℚ → List (Option ℚ)) (φ : ℚ → Nat → ℝ) (err : Nat → ℝ) (herr : ∀ n, 0 ≤ err n)
    (val : ∀ x, lo ≤ x → x ≤ hi → ∃ r : List ℚ, row x = r.map some ∧ ∀ n < R, |φ x n| ≤ 1 ∧ |((((row x).getD n none).getD 0 : ℚ) : ℝ) - φ x n| ≤ err n)
    (chunks : List (Nat × List (ℚ × ℚ))) (hin : ∀ c ∈ chunks, ∀ s ∈ c.2, (lo ≤ s.1 ∧ s.1 ≤ hi) ∧ (c.1 ≠ 0 → lo ≤ s.2 ∧ s.2 ≤ hi)) (nLevels : Nat) (e : QuantityMean ℚ)
    (he : float64.estimate (.array [R] .scalar) nLevels (momentChunks row chunks) = .ok e) :
    e.nRm = List.replicate nLevels 0 ∧ e.nSamples = ((List.range nLevels).map fun l => (rawLevel chunks l).length) ∧
    ∀ l < nLevels, rawLevel chunks l ≠ [] → ∀ n < R, ∃ (m : List (Option ℚ)) (x : ℚ), e.lMeans[l]? = some m ∧ m[n]? = some (some x) ∧
      |(x : ℝ) - average (exactDiffs φ chunks l n)| ≤ 2 * err n + ((1 + 1 / 2 ^ 53) ^ ((rawLevel chunks l).length + 2) - 1) * (2 + 2 * err n) := by
  obtain ⟨c1, c2, c3⟩ := C105_accuracy float64 (1 / 2 ^ 53) float64_valid (.array [R] .scalar) nLevels _ e he
  obtain ⟨clean, hlen, lev⟩ := levels R row φ err herr val chunks hin
  refine ⟨?_, ?_, fun l hl hne n hn => ?_⟩
  · rw [c2]
    refine List.eq_replicate_iff.2 ⟨by simp, fun k hk => ?_⟩
    obtain ⟨l, -, rfl⟩ := List.mem_map.1 hk
    rw [List.length_eq_zero_iff, List.filter_eq_nil_iff]
    intro s hs
    rw [clean l s hs]
    simp
  · rw [c1]
    exact List.map_congr_left fun l _ => hlen l
  · obtain ⟨m, v, hm, -, h3, -⟩ := c3 l hl n (by simpa [QType.size] using hn)
    have hne' : used (momentChunks row chunks) l ≠ [] := fun hc => hne (List.eq_nil_of_length_eq_zero (by rw [← hlen, hc]; rfl))
    rcases hmn : m[n]? with _ | (_ | x)
    · rw [hmn] at h3; exact h3.elim
    · rw [hmn] at h3; exact absurd h3 hne'
    · rw [hmn] at h3
      refine ⟨m, x, hm, hmn, ?_⟩
      obtain ⟨-, h3⟩ := h3
      obtain ⟨habs, havg, -⟩ := lev l hne n hn
      rw [hlen] at h3
      exact combine x _ _ _ _ _ h3 habs havg

theorem estimated_total {lo hi : ℚ} (R : Nat) (row : ℚ → List (Option ℚ)) (φ : ℚ → Nat → ℝ) (err : Nat → ℝ) (herr : ∀ n, 0 ≤ err n)
    (val : ∀ x, lo ≤ x → x ≤ hi → ∃ r : List ℚ, row x = r.map some ∧ ∀ n < R, |φ x n| ≤ 1 ∧ |((((row x).getD n none).getD 0 : ℚ) : ℝ) - φ x n| ≤ err n)
    (chunks : List (Nat × List (ℚ × ℚ))) (hin : ∀ c ∈ chunks, ∀ s ∈ c.2, (lo ≤ s.1 ∧ s.1 ≤ hi) ∧ (c.1 ≠ 0 → lo ≤ s.2 ∧ s.2 ≤ hi)) (nLevels : Nat) (e : QuantityMean ℚ)
    (he : float64.estimate (.array [R] .scalar) nLevels (momentChunks row chunks) = .ok e)
    (hL : 0 < nLevels) (N : Nat) (hN : ∀ l < nLevels, rawLevel chunks l ≠ [] ∧ (rawLevel chunks l).length ≤ N) (n : Nat) (hn : n < R) :
    |((float64.mean e n : ℚ) : ℝ) - ((List.range nLevels).map fun l => average (exactDiffs φ chunks l n)).sum| ≤
      nLevels * (2 * err n) + ((1 + 1 / 2 ^ 53) ^ (N + nLevels + 1) - 1) * (nLevels * (2 + 2 * err n)) := by
  obtain ⟨-, hlen, lev⟩ := levels R row φ err herr val chunks hin
  have ne : ∀ l, rawLevel chunks l ≠ [] → used (momentChunks row chunks) l ≠ [] := fun l hne hc => hne (List.eq_nil_of_length_eq_zero (by rw [← hlen, hc]; rfl))
  have h3 := C105_mean_accuracy float64 (1 / 2 ^ 53) float64_valid (.array [R] .scalar) nLevels hL _ e he N (fun l hl => ⟨ne l (hN l hl).1, by rw [hlen]; exact (hN l hl).2⟩) n (by simpa [QType.size] using hn)
  refine combine _ _ _ _ _ _ h3 ?_ ?_
  · rw [Rat.cast_list_sum, List.map_map]
    refine (le_abs_self _).trans ?_
    have := abs_sum_le (List.range nLevels) ((fun x : ℚ => (x : ℝ)) ∘ fun l => absMean (diffs (momentChunks row chunks) l n)) (2 + 2 * err n) fun l hl => by
      rw [Function.comp_apply, abs_of_nonneg (by exact_mod_cast absMean_nonneg' _)]
      exact (lev l (hN l (List.mem_range.1 hl)).1 n hn).1
    rwa [List.length_range] at this
  · rw [Rat.cast_list_sum, List.map_map, ← sum_map_sub']
    have := abs_sum_le (List.range nLevels) (fun l => ((average (diffs (momentChunks row chunks) l n) : ℚ) : ℝ) - average (exactDiffs φ chunks l n)) (2 * err n) fun l hl =>
      (lev l (hN l (List.mem_range.1 hl)).1 n hn).2.1
    rw [List.length_range] at this
    exact this

theorem estimated_var {lo hi : ℚ} (R : Nat) (row : ℚ → List (Option ℚ)) (φ : ℚ → Nat → ℝ) (err : Nat → ℝ) (herr : ∀ n, 0 ≤ err n)
    (val : ∀ x, lo ≤ x → x ≤ hi → ∃ r : List ℚ, row x = r.map some ∧ ∀ n < R, |φ x n| ≤ 1 ∧ |((((row x).getD n none).getD 0 : ℚ) : ℝ) - φ x n| ≤ err n)
    (chunks : List (Nat × List (ℚ × ℚ))) (hin : ∀ c ∈ chunks, ∀ s ∈ c.2, (lo ≤ s.1 ∧ s.1 ≤ hi) ∧ (c.1 ≠ 0 → lo ≤ s.2 ∧ s.2 ≤ hi)) (nLevels : Nat) (e : QuantityMean ℚ)
    (he : float64.estimate (.array [R] .scalar) nLevels (momentChunks row chunks) = .ok e)
    (l : Nat) (hl : l < nLevels) (h2 : 2 ≤ (rawLevel chunks l).length) (n : Nat) (hn : n < R) :
    ∃ (v : List (Option ℚ)) (x : ℚ), e.lVars[l]? = some v ∧ v[n]? = some (some x) ∧
      |(x : ℝ) - sampleVar (exactDiffs φ chunks l n)| ≤
        64 * err n + 32 * err n ^ 2 + ((1 + 1 / 2 ^ 53) ^ (2 * (rawLevel chunks l).length + 6) - 1) * (2 * (2 * (2 + 2 * err n) ^ 2)) := by
  obtain ⟨-, hlen, lev⟩ := levels R row φ err herr val chunks hin
  have hne : rawLevel chunks l ≠ [] := by intro hc; rw [hc] at h2; simp at h2
  obtain ⟨-, -, hv⟩ := lev l hne n hn
  obtain ⟨hm, hs⟩ := hv h2
  obtain ⟨m, v, -, hv, -, h4⟩ := (C105_accuracy float64 (1 / 2 ^ 53) float64_valid (.array [R] .scalar) nLevels _ e he).2.2 l hl n (by simpa [QType.size] using hn)
  rw [hlen] at h4
  rcases hvn : v[n]? with _ | (_ | x)
  · rw [hvn] at h4; exact h4.elim
  · rw [hvn] at h4; exact absurd h2 (by have : (rawLevel chunks l).length ≤ 1 := h4; omega)
  · rw [hvn] at h4
    refine ⟨v, x, hv, hvn, ?_⟩
    obtain ⟨-, h4⟩ := h4
    refine combine x _ (2 * secondMoment (diffs (momentChunks row chunks) l n)) _ _ _ (h4.trans (le_of_eq (by ring))) ?_ hs
    rw [Rat.cast_mul, Rat.cast_ofNat]
    linarith

/-! ## C166 -/

/-- C166: Legendre moments of a quantity whose stored values are all in the domain, everything computed in doubles: no sample is dropped, and every estimated level mean of the polynomial of degree `n` is the
average of the exact differences of this polynomial over the samples of the level, up to the error of the polynomials and that of adding `N` numbers. -/
theorem C166_legendre {lo hi : ℚ} {log : Option (ℚ → ℚ)} (hlog : LogMono log) {t : Transform} (h : Transform.new double tiny (-1) 1 log lo hi = .ok t) {a b : ℚ} (ha : linArg log lo = some a)
    (hb : linArg log hi = some b) (hwide : tiny ≤ double (b - a)) (R : Nat) (hR : 0 < R) (hRmax : R ≤ 2 ^ 51) (row : ℚ → List (Option ℚ)) (hrow : ∀ x, t.evalAll legCol x R = .ok (row x))
    (chunks : List (Nat × List (ℚ × ℚ))) (hin : ∀ c ∈ chunks, ∀ s ∈ c.2, (lo ≤ s.1 ∧ s.1 ≤ hi) ∧ (c.1 ≠ 0 → lo ≤ s.2 ∧ s.2 ≤ hi)) (nLevels : Nat) (e : QuantityMean ℚ)
    (he : float64.estimate (.array [R] .scalar) nLevels (momentChunks row chunks) = .ok e) :
    e.nRm = List.replicate nLevels 0 ∧ e.nSamples = ((List.range nLevels).map fun l => (rawLevel chunks l).length) ∧
    ∀ l < nLevels, rawLevel chunks l ≠ [] → ∀ n < R, ∃ (m : List (Option ℚ)) (x : ℚ), e.lMeans[l]? = some m ∧ m[n]? = some (some x) ∧
      |(x : ℝ) - average (exactDiffs (fun x n => leg ((2 * exactPosition log a b x - 1 : ℚ) : ℝ) n) chunks l n)| ≤ 2 * legErr n + ((1 + 1 / 2 ^ 53) ^ ((rawLevel chunks l).length + 2) - 1) * (2 + 2 * legErr n) :=
  estimated R row _ legErr (fun n => by unfold legErr; positivity) (row_legendre hlog h ha hb hwide R hR hRmax row hrow) chunks hin nLevels e he

/-- C166: the same for monomials. -/
theorem C166_monomial {lo hi : ℚ} {log : Option (ℚ → ℚ)} (hlog : LogMono log) {t : Transform} (h : Transform.new double tiny 0 1 log lo hi = .ok t) {a b : ℚ} (ha : linArg log lo = some a)
    (hb : linArg log hi = some b) (hwide : tiny ≤ double (b - a)) (R : Nat) (hR : 0 < R) (hRmax : R ≤ 2 ^ 53) (row : ℚ → List (Option ℚ)) (hrow : ∀ x, t.evalAll powCol x R = .ok (row x))
    (chunks : List (Nat × List (ℚ × ℚ))) (hin : ∀ c ∈ chunks, ∀ s ∈ c.2, (lo ≤ s.1 ∧ s.1 ≤ hi) ∧ (c.1 ≠ 0 → lo ≤ s.2 ∧ s.2 ≤ hi)) (nLevels : Nat) (e : QuantityMean ℚ)
    (he : float64.estimate (.array [R] .scalar) nLevels (momentChunks row chunks) = .ok e) :
    e.nRm = List.replicate nLevels 0 ∧ e.nSamples = ((List.range nLevels).map fun l => (rawLevel chunks l).length) ∧
    ∀ l < nLevels, rawLevel chunks l ≠ [] → ∀ n < R, ∃ (m : List (Option ℚ)) (x : ℚ), e.lMeans[l]? = some m ∧ m[n]? = some (some x) ∧
      |(x : ℝ) - average (exactDiffs (fun x n => ((exactPosition log a b x : ℚ) : ℝ) ^ n) chunks l n)| ≤ 2 * powErr n + ((1 + 1 / 2 ^ 53) ^ ((rawLevel chunks l).length + 2) - 1) * (2 + 2 * powErr n) :=
  estimated R row _ powErr (fun n => by unfold powErr; positivity) (row_monomial hlog h ha hb hwide R hR hRmax row hrow) chunks hin nLevels e he

/-- C166: the estimated mean of the Legendre polynomial of degree `n`, if every level has at least one and at most `N` samples: the sum of the exact averages of differences over all levels, up to these errors. -/
theorem C166_legendre_mean {lo hi : ℚ} {log : Option (ℚ → ℚ)} (hlog : LogMono log) {t : Transform} (h : Transform.new double tiny (-1) 1 log lo hi = .ok t) {a b : ℚ} (ha : linArg log lo = some a)
    (hb : linArg log hi = some b) (hwide : tiny ≤ double (b - a)) (R : Nat) (hR : 0 < R) (hRmax : R ≤ 2 ^ 51) (row : ℚ → List (Option ℚ)) (hrow : ∀ x, t.evalAll legCol x R = .ok (row x))
    (chunks : List (Nat × List (ℚ × ℚ))) (hin : ∀ c ∈ chunks, ∀ s ∈ c.2, (lo ≤ s.1 ∧ s.1 ≤ hi) ∧ (c.1 ≠ 0 → lo ≤ s.2 ∧ s.2 ≤ hi)) (nLevels : Nat) (e : QuantityMean ℚ)
    (he : float64.estimate (.array [R] .scalar) nLevels (momentChunks row chunks) = .ok e)
    (hL : 0 < nLevels) (N : Nat) (hN : ∀ l < nLevels, rawLevel chunks l ≠ [] ∧ (rawLevel chunks l).length ≤ N) (n : Nat) (hn : n < R) :
    |((float64.mean e n : ℚ) : ℝ) - ((List.range nLevels).map fun l => average (exactDiffs (fun x n => leg ((2 * exactPosition log a b x - 1 : ℚ) : ℝ) n) chunks l n)).sum| ≤
      nLevels * (2 * legErr n) + ((1 + 1 / 2 ^ 53) ^ (N + nLevels + 1) - 1) * (nLevels * (2 + 2 * legErr n)) :=
  estimated_total R row _ legErr (fun n => by unfold legErr; positivity) (row_legendre hlog h ha hb hwide R hR hRmax row hrow) chunks hin nLevels e he hL N hN n hn

/-- C166: the same for monomials. -/
theorem C166_monomial_mean {lo hi : ℚ} {log : Option (ℚ → ℚ)} (hlog : LogMono log) {t : Transform} (h : Transform.new double tiny 0 1 log lo hi = .ok t) {a b : ℚ} (ha : linArg log lo = some a)
    (hb : linArg log hi = some b) (hwide : tiny ≤ double (b - a)) (R : Nat) (hR : 0 < R) (hRmax : R ≤ 2 ^ 53) (row : ℚ → List (Option ℚ)) (hrow : ∀ x, t.evalAll powCol x R = .ok (row x))
    (chunks : List (Nat × List (ℚ × ℚ))) (hin : ∀ c ∈ chunks, ∀ s ∈ c.2, (lo ≤ s.1 ∧ s.1 ≤ hi) ∧ (c.1 ≠ 0 → lo ≤ s.2 ∧ s.2 ≤ hi)) (nLevels : Nat) (e : QuantityMean ℚ)
    (he : float64.estimate (.array [R] .scalar) nLevels (momentChunks row chunks) = .ok e)
    (hL : 0 < nLevels) (N : Nat) (hN : ∀ l < nLevels, rawLevel chunks l ≠ [] ∧ (rawLevel chunks l).length ≤ N) (n : Nat) (hn : n < R) :
    |((float64.mean e n : ℚ) : ℝ) - ((List.range nLevels).map fun l => average (exactDiffs (fun x n => ((exactPosition log a b x : ℚ) : ℝ) ^ n) chunks l n)).sum| ≤
      nLevels * (2 * powErr n) + ((1 + 1 / 2 ^ 53) ^ (N + nLevels + 1) - 1) * (nLevels * (2 + 2 * powErr n)) :=
  estimated_total R row _ powErr (fun n => by unfold powErr; positivity) (row_monomial hlog h ha hb hwide R hR hRmax row hrow) chunks hin nLevels e he hL N hN n hn

/-- C166: the estimated variance of the Legendre polynomial of degree `n` on a level with at least two samples: the sample variance of the exact differences up to the errors. -/
theorem C166_legendre_var {lo hi : ℚ} {log : Option (ℚ → ℚ)} (hlog : LogMono log) {t : Transform} (h : Transform.new double tiny (-1) 1 log lo hi = .ok t) {a b : ℚ} (ha : linArg log lo = some a)
    (hb : linArg log hi = some b) (hwide : tiny ≤ double (b - a)) (R : Nat) (hR : 0 < R) (hRmax : R ≤ 2 ^ 51) (row : ℚ → List (Option ℚ)) (hrow : ∀ x, t.evalAll legCol x R = .ok (row x))
    (chunks : List (Nat × List (ℚ × ℚ))) (hin : ∀ c ∈ chunks, ∀ s ∈ c.2, (lo ≤ s.1 ∧ s.1 ≤ hi) ∧ (c.1 ≠ 0 → lo ≤ s.2 ∧ s.2 ≤ hi)) (nLevels : Nat) (e : QuantityMean ℚ)
    (he : float64.estimate (.array [R] .scalar) nLevels (momentChunks row chunks) = .ok e)
    (l : Nat) (hl : l < nLevels) (h2 : 2 ≤ (rawLevel chunks l).length) (n : Nat) (hn : n < R) :
    ∃ (v : List (Option ℚ)) (x : ℚ), e.lVars[l]? = some v ∧ v[n]? = some (some x) ∧
      |(x : ℝ) - sampleVar (exactDiffs (fun x n => leg ((2 * exactPosition log a b x - 1 : ℚ) : ℝ) n) chunks l n)| ≤
        64 * legErr n + 32 * legErr n ^ 2 + ((1 + 1 / 2 ^ 53) ^ (2 * (rawLevel chunks l).length + 6) - 1) * (2 * (2 * (2 + 2 * legErr n) ^ 2)) :=
  estimated_var R row _ legErr (fun n => by unfold legErr; positivity) (row_legendre hlog h ha hb hwide R hR hRmax row hrow) chunks hin nLevels e he l hl h2 n hn

/-- C166: the same for monomials. -/
theorem C166_monomial_var {lo hi : ℚ} {log : Option (ℚ → ℚ)} (hlog : LogMono log) {t : Transform} (h : Transform.new double tiny 0 1 log lo hi = .ok t) {a b : ℚ} (ha : linArg log lo = some a)
    (hb : linArg log hi = some b) (hwide : tiny ≤ double (b - a)) (R : Nat) (hR : 0 < R) (hRmax : R ≤ 2 ^ 53) (row : ℚ → List (Option ℚ)) (hrow : ∀ x, t.evalAll powCol x R = .ok (row x))
    (chunks : List (Nat × List (ℚ × ℚ))) (hin : ∀ c ∈ chunks, ∀ s ∈ c.2, (lo ≤ s.1 ∧ s.1 ≤ hi) ∧ (c.1 ≠ 0 → lo ≤ s.2 ∧ s.2 ≤ hi)) (nLevels : Nat) (e : QuantityMean ℚ)
    (he : float64.estimate (.array [R] .scalar) nLevels (momentChunks row chunks) = .ok e)
    (l : Nat) (hl : l < nLevels) (h2 : 2 ≤ (rawLevel chunks l).length) (n : Nat) (hn : n < R) :
    ∃ (v : List (Option ℚ)) (x : ℚ), e.lVars[l]? = some v ∧ v[n]? = some (some x) ∧
      |(x : ℝ) - sampleVar (exactDiffs (fun x n => ((exactPosition log a b x : ℚ) : ℝ) ^ n) chunks l n)| ≤
        64 * powErr n + 32 * powErr n ^ 2 + ((1 + 1 / 2 ^ 53) ^ (2 * (rawLevel chunks l).length + 6) - 1) * (2 * (2 * (2 + 2 * powErr n) ^ 2)) :=
  estimated_var R row _ powErr (fun n => by unfold powErr; positivity) (row_monomial hlog h ha hb hwide R hR hRmax row hrow) chunks hin nLevels e he l hl h2 n hn

/-! ## Example: two levels, the domain (1/10, 7/10), three moments -/

def ExMM.t : Transform := match Transform.new double tiny (-1) 1 none (1 / 10) (7 / 10) with | .ok t => t | .error _ => ⟨double, 0, 0, 0, 0, none⟩
def ExMM.row (x : ℚ) : List (Option ℚ) := match ExMM.t.evalAll legCol x 3 with | .ok r => r | .error _ => []
def ExMM.chunks : List (Nat × List (ℚ × ℚ)) := [(0, [(1 / 3, 0), (1 / 2, 0)]), (1, [(1 / 5, 1 / 4)])]

/-- All hypotheses of `C166_legendre`, `C166_legendre_mean` and `C166_legendre_var` are met. -/
example : Transform.new double tiny (-1) 1 none (1 / 10) (7 / 10) = .ok ExMM.t ∧ (∀ x, ExMM.t.evalAll legCol x 3 = .ok (ExMM.row x)) ∧ tiny ≤ double (7 / 10 - 1 / 10) ∧ (∀ l < 2, rawLevel ExMM.chunks l ≠ [] ∧ (rawLevel ExMM.chunks l).length ≤ 2) ∧ 2 ≤ (rawLevel ExMM.chunks 0).length ∧
    (∀ c ∈ ExMM.chunks, ∀ s ∈ c.2, ((1 / 10 : ℚ) ≤ s.1 ∧ s.1 ≤ 7 / 10) ∧ (c.1 ≠ 0 → (1 / 10 : ℚ) ≤ s.2 ∧ s.2 ≤ 7 / 10)) ∧
    (match float64.estimate (.array [3] .scalar) 2 (momentChunks ExMM.row ExMM.chunks) with | .ok e => e.nSamples = [2, 1] ∧ e.nRm = [0, 0] | .error _ => False) := by
  refine ⟨?_, fun x => rfl, by decide +kernel, by decide +kernel, by decide +kernel, by decide +kernel, ?_⟩
  · unfold ExMM.t
    simp only [Transform.new, linArg]
    rw [if_neg (by decide +kernel)]
  · split
    · rename_i e he
      have := C166_legendre (log := none) (lo := 1 / 10) (hi := 7 / 10) (t := ExMM.t) (by intro f hf; cases hf) (by unfold ExMM.t; simp only [Transform.new, linArg]; rw [if_neg (by decide +kernel)]) rfl rfl
        (by decide +kernel) 3 (by norm_num) (by norm_num) ExMM.row (fun x => rfl) ExMM.chunks (by decide +kernel) 2 e he
      exact ⟨this.2.1, this.1⟩
    · rename_i e he
      have : (float64.estimate (.array [3] .scalar) 2 (momentChunks ExMM.row ExMM.chunks)).isOk = true := by decide +kernel
      rw [he] at this
      cases this

def ExMM.t1 : Transform := match Transform.new double tiny 0 1 none (1 / 10) (7 / 10) with | .ok t => t | .error _ => ⟨double, 0, 0, 0, 0, none⟩
def ExMM.row1 (x : ℚ) : List (Option ℚ) := match ExMM.t1.evalAll powCol x 3 with | .ok r => r | .error _ => []

/-- All hypotheses of `C166_monomial` are met (the ranges of values are above). -/
example : Transform.new double tiny 0 1 none (1 / 10) (7 / 10) = .ok ExMM.t1 ∧ (∀ x, ExMM.t1.evalAll powCol x 3 = .ok (ExMM.row1 x)) ∧
    (float64.estimate (.array [3] .scalar) 2 (momentChunks ExMM.row1 ExMM.chunks)).isOk = true := by
  refine ⟨?_, fun x => rfl, by decide +kernel⟩
  unfold ExMM.t1
  simp only [Transform.new, linArg]
  rw [if_neg (by decide +kernel)]

end MLMC.Fl
