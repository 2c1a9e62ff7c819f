import Verif.Model.Initial
import Mathlib.Tactic.Linarith
import Mathlib.Tactic.FieldSimp
/-! Property C08: default and geometric sample numbers. -/
namespace MLMC

theorem npRound_intCast (z : ℤ) : npRound z = z := by simp [npRound]

theorem npRound_bounds (x : ℝ) : ⌊x⌋ ≤ npRound x ∧ npRound x ≤ ⌊x⌋ + 1 := by
  unfold npRound; split_ifs <;> constructor <;> omega

theorem npRound_mono {x y : ℝ} (h : x ≤ y) : npRound x ≤ npRound y := by
  rcases lt_or_eq_of_le (Int.floor_mono h) with hf | hf
  · have := (npRound_bounds x).2
    have := (npRound_bounds y).1
    omega
  · unfold npRound
    rw [hf]
    split_ifs <;> first | omega | (exfalso; linarith)

theorem linspace_first (a b : ℝ) (n : Nat) : linspace a b n 0 = a := by
  unfold linspace; split <;> simp

theorem linspace_last (a b : ℝ) (n : Nat) (hn : 2 ≤ n) : linspace a b n (n - 1) = b := by
  unfold linspace
  have h1 : n ≠ 1 := by omega
  have h2 : ((n - 1 : Nat) : ℝ) = (n : ℝ) - 1 := by
    rw [Nat.cast_sub (by omega)]; simp
  have h3 : (n : ℝ) - 1 ≠ 0 := by
    have : (2 : ℝ) ≤ n := by exact_mod_cast hn
    linarith
  rw [if_neg h1, h2]; field_simp; ring

theorem linspace_mono {a b : ℝ} (hab : a ≤ b) (n : Nat) (hn : 1 ≤ n) {i j : Nat} (hij : i ≤ j) :
    linspace a b n i ≤ linspace a b n j := by
  unfold linspace
  split
  · exact le_rfl
  · have h1 : (0 : ℝ) ≤ (n : ℝ) - 1 := by
      have : (1 : ℝ) ≤ n := by exact_mod_cast hn
      linarith
    have h2 : 0 ≤ (b - a) / ((n : ℝ) - 1) := div_nonneg (by linarith) h1
    have h3 : (i : ℝ) ≤ j := by exact_mod_cast hij
    nlinarith

theorem linspace_anti {a b : ℝ} (hab : b ≤ a) (n : Nat) (hn : 1 ≤ n) {i j : Nat} (hij : i ≤ j) :
    linspace a b n j ≤ linspace a b n i := by
  unfold linspace
  split
  · exact le_rfl
  · have h1 : (0 : ℝ) ≤ (n : ℝ) - 1 := by
      have : (1 : ℝ) ≤ n := by exact_mod_cast hn
      linarith
    have h2 : 0 ≤ (a - b) / ((n : ℝ) - 1) := div_nonneg (by linarith) h1
    have h3 : (i : ℝ) ≤ j := by exact_mod_cast hij
    have h4 : (b - a) / ((n : ℝ) - 1) = - ((a - b) / ((n : ℝ) - 1)) := by ring
    rw [h4]; nlinarith

theorem sampleRange_get (L : Nat) (n0 nL : ℝ) (i : Nat) (hi : i < L) :
    (sampleRange L n0 nL)[i]? = some (npRound ((2 : ℝ) ^ linspace (Real.logb 2 n0) (Real.logb 2 nL) L i)) := by
  simp [sampleRange, List.getElem?_map, List.getElem?_range hi]

/-- C08: the vector of targets that `set_initial_n_samples` stores for `L` levels.
* three or more numbers are kept; one number `n` means `(n, 10)`; `None` means `(100, 10)`;
* a pair of positive numbers gives one number for each level, starting with `n0`, for two or more levels ending with
  `nL`, and monotone in between. -/
theorem C08_initial_numbers (L : Nat) :
    (∀ v : List ℤ, 3 ≤ v.length → initialTarget L (some v) = v) ∧
    (∀ n : ℤ, initialTarget L (some [n]) = initialTarget L (some [n, 10])) ∧
    (initialTarget L none = initialTarget L (some [100, 10])) ∧
    (∀ n0 nL : ℤ, 0 < n0 → 0 < nL →
      (initialTarget L (some [n0, nL])).length = L ∧
      (0 < L → (initialTarget L (some [n0, nL]))[0]? = some n0) ∧
      (2 ≤ L → (initialTarget L (some [n0, nL]))[L - 1]? = some nL) ∧
      (nL ≤ n0 → ∀ (i j : Nat) (x y : ℤ), i ≤ j → (initialTarget L (some [n0, nL]))[i]? = some x →
        (initialTarget L (some [n0, nL]))[j]? = some y → y ≤ x) ∧
      (n0 ≤ nL → ∀ (i j : Nat) (x y : ℤ), i ≤ j → (initialTarget L (some [n0, nL]))[i]? = some x →
        (initialTarget L (some [n0, nL]))[j]? = some y → x ≤ y)) := by
  refine ⟨?_, ?_, ?_, ?_⟩
  · intro v hv
    match v, hv with
    | a :: b :: c :: v, _ => rfl
  · intro n; rfl
  · rfl
  · intro n0 nL h0 hL
    have e : initialTarget L (some [n0, nL]) = sampleRange L n0 nL := rfl
    have hr0 : (0 : ℝ) < n0 := by exact_mod_cast h0
    have hrL : (0 : ℝ) < nL := by exact_mod_cast hL
    have lt_of : ∀ {i : Nat} {x : ℤ}, (sampleRange L n0 nL)[i]? = some x → i < L := by
      intro i x h
      rcases Nat.lt_or_ge i L with h' | h'
      · exact h'
      · rw [List.getElem?_eq_none (by simpa [sampleRange] using h')] at h; simp at h
    have pow2 : ∀ {a b : ℝ}, a ≤ b → (2 : ℝ) ^ a ≤ (2 : ℝ) ^ b := fun h =>
      Real.rpow_le_rpow_of_exponent_le (by norm_num) h
    rw [e]
    refine ⟨by simp [sampleRange], ?_, ?_, ?_, ?_⟩
    · intro h
      rw [sampleRange_get L _ _ 0 h, linspace_first, Real.rpow_logb (by norm_num) (by norm_num) hr0, npRound_intCast]
    · intro h
      rw [sampleRange_get L _ _ (L - 1) (by omega), linspace_last _ _ _ h,
        Real.rpow_logb (by norm_num) (by norm_num) hrL, npRound_intCast]
    · intro hle i j x y hij hx hy
      have hi := lt_of hx
      have hj := lt_of hy
      rw [sampleRange_get L _ _ i hi] at hx
      rw [sampleRange_get L _ _ j hj] at hy
      simp only [Option.some.injEq] at hx hy
      rw [← hx, ← hy]
      apply npRound_mono
      apply pow2
      refine linspace_anti ?_ L (by omega) hij
      exact Real.logb_le_logb_of_le (by norm_num) hrL (by exact_mod_cast hle)
    · intro hle i j x y hij hx hy
      have hi := lt_of hx
      have hj := lt_of hy
      rw [sampleRange_get L _ _ i hi] at hx
      rw [sampleRange_get L _ _ j hj] at hy
      simp only [Option.some.injEq] at hx hy
      rw [← hx, ← hy]
      apply npRound_mono
      apply pow2
      refine linspace_mono ?_ L (by omega) hij
      exact Real.logb_le_logb_of_le (by norm_num) hr0 (by exact_mod_cast hle)

theorem npRound_nearest (x : ℝ) : |(npRound x : ℝ) - x| ≤ 1 / 2 ∧ (|(npRound x : ℝ) - x| = 1 / 2 → Even (npRound x)) := by
  have h := Int.floor_add_fract x
  have h0 := Int.fract_nonneg x
  have h1 := Int.fract_lt_one x
  unfold npRound
  split_ifs with a b c
  · refine ⟨by rw [abs_le]; constructor <;> linarith, fun e => ?_⟩
    rw [abs_of_nonpos (by linarith)] at e; linarith
  · rw [Int.cast_add, Int.cast_one]
    refine ⟨by rw [abs_le]; constructor <;> linarith, fun e => ?_⟩
    rw [abs_of_nonneg (by linarith)] at e; linarith
  · exact ⟨by rw [abs_le]; constructor <;> linarith, fun _ => c⟩
  · refine ⟨by push_cast; rw [abs_le]; constructor <;> linarith, fun _ => ?_⟩
    rw [Int.not_even_iff_odd] at c
    exact Odd.add_one c

/-- C08, `Sampler.sample_range(n0, nL)`: the numbers between are those of a geometric sequence from `n0` to `nL`, rounded to the nearest integer, a number in the middle of two integers
to the even one. -/
theorem C08_geometric_sequence (L : Nat) (hL : 2 ≤ L) (n0 nL : ℝ) (h0 : 0 < n0) (h1 : 0 < nL) (i : Nat) (hi : i < L) (z : ℤ) (hz : (sampleRange L n0 nL)[i]? = some z) :
    |(z : ℝ) - n0 * (nL / n0) ^ ((i : ℝ) / ((L : ℝ) - 1))| ≤ 1 / 2 ∧
    (|(z : ℝ) - n0 * (nL / n0) ^ ((i : ℝ) / ((L : ℝ) - 1))| = 1 / 2 → Even z) := by
  have e : (2 : ℝ) ^ linspace (Real.logb 2 n0) (Real.logb 2 nL) L i = n0 * (nL / n0) ^ ((i : ℝ) / ((L : ℝ) - 1)) := by
    rw [linspace, if_neg (by omega), Real.rpow_add (by norm_num), Real.rpow_logb (by norm_num) (by norm_num) h0]
    congr 1
    rw [← Real.logb_div h1.ne' h0.ne', show (i : ℝ) * (Real.logb 2 (nL / n0) / ((L : ℝ) - 1)) = Real.logb 2 (nL / n0) * ((i : ℝ) / ((L : ℝ) - 1)) by ring,
      Real.rpow_mul (by norm_num), Real.rpow_logb (by norm_num) (by norm_num) (by positivity)]
  rw [sampleRange_get L _ _ i hi, e] at hz
  injection hz with hz
  subst hz
  exact npRound_nearest _

/-- With one level the number is `n0` rounded: 5/2 gives 2. -/
example : sampleRange 1 (5 / 2) 1 = [2] := by
  have h := npRound_nearest (5 / 2)
  have : npRound (5 / 2) = 2 := by
    unfold npRound
    have : ⌊(5 / 2 : ℝ)⌋ = 2 := by rw [Int.floor_eq_iff]; norm_num
    rw [this]; norm_num
  simp only [sampleRange, List.range_one, List.map_cons, List.map_nil, linspace_first]
  rw [Real.rpow_logb (by norm_num) (by norm_num) (by norm_num), this]

/-- Non-vacuity: for three levels the pair (100, 1) gives (100, 10, 1). -/
example : initialTarget 3 (some [100, 1]) = [100, 10, 1] := by
  have h := (C08_initial_numbers 3).2.2.2 100 1 (by norm_num) (by norm_num)
  have h0 := h.2.1 (by norm_num)
  have h2 := h.2.2.1 (by norm_num)
  have h1 : (initialTarget 3 (some [100, 1]))[1]? = some 10 := by
    show (sampleRange 3 _ _)[1]? = _
    rw [sampleRange_get 3 _ _ 1 (by norm_num)]
    have : (2 : ℝ) ^ linspace (Real.logb 2 ((100 : ℤ) : ℝ)) (Real.logb 2 ((1 : ℤ) : ℝ)) 3 1 = ((10 : ℤ) : ℝ) := by
      have e1 : linspace (Real.logb 2 ((100 : ℤ) : ℝ)) (Real.logb 2 ((1 : ℤ) : ℝ)) 3 1 = Real.logb 2 10 := by
        have : Real.logb 2 ((100 : ℤ) : ℝ) = 2 * Real.logb 2 10 := by
          rw [show (((100 : ℤ) : ℝ)) = (10 : ℝ) ^ (2 : ℕ) by norm_num, Real.logb_pow]; norm_num
        rw [linspace, this]; norm_num; ring
      rw [e1, Real.rpow_logb (by norm_num) (by norm_num) (by norm_num)]; norm_num
    rw [this, npRound_intCast]
  have hl := h.1
  match hv : initialTarget 3 (some [100, 1]), hl with
  | [a, b, c], _ =>
    rw [hv] at h0 h1 h2
    simp at h0 h1 h2
    rw [h0, h1, h2]

end MLMC
