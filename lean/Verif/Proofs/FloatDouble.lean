import Verif.Model.FloatMoments
import Verif.Proofs.FloatEstimate
/-! Rounding to doubles is monotone and does not pass powers of two. -/
namespace MLMC.Fl

theorem nearest_mono {p q : ℚ} (h : p ≤ q) : nearest p ≤ nearest q := by
  have hf : ⌊p⌋ ≤ ⌊q⌋ := Int.floor_mono h
  have hp : p = ⌊p⌋ + Int.fract p := (Int.floor_add_fract p).symm
  have hq : q = ⌊q⌋ + Int.fract q := (Int.floor_add_fract q).symm
  by_cases e : ⌊p⌋ = ⌊q⌋
  · have hfr : Int.fract p ≤ Int.fract q := by rw [e] at hp; linarith
    unfold nearest
    rw [e]
    split_ifs <;> first | omega | (exfalso; linarith)
  · have h1 : nearest p ≤ ⌊p⌋ + 1 := by unfold nearest; split_ifs <;> omega
    have h2 : ⌊q⌋ ≤ nearest q := by unfold nearest; split_ifs <;> omega
    omega

theorem nearest_int (n : ℤ) : nearest (n : ℚ) = n := by
  unfold nearest
  rw [Int.fract_intCast, Int.floor_intCast, if_pos (by norm_num)]

theorem double_zero : double 0 = 0 := by simp [double]

theorem double_of_pos {x : ℚ} (hx : 0 < x) : double x = nearest (x * 2 ^ (52 - Int.log 2 x)) * 2 ^ (Int.log 2 x - 52) := by
  unfold double
  rw [if_neg (ne_of_gt hx)]
  simp only [if_pos hx, abs_of_pos hx, two_eq]
  rw [show -(Int.log 2 x - 52) = 52 - Int.log 2 x by ring]

theorem double_neg (x : ℚ) : double (-x) = -double x := by
  unfold double
  by_cases h0 : x = 0
  · simp [h0]
  rw [if_neg h0, if_neg (by simpa using h0), abs_neg]
  by_cases hx : 0 < x
  · simp only [if_pos hx, if_neg (show ¬ 0 < -x by linarith), neg_neg]
  · have : 0 < -x := by
      have := lt_of_le_of_ne (not_lt.1 hx) h0
      linarith
    simp only [if_neg hx, if_pos this, neg_neg]

theorem zpow_split (L : ℤ) (k : ℤ) : (2 : ℚ) ^ (k + L) * 2 ^ (52 - L) = 2 ^ (52 + k) := by
  rw [← zpow_add₀ (by norm_num)]; congr 1; ring

theorem zpow_back (L : ℤ) (k : ℤ) : (2 : ℚ) ^ (52 + k) * 2 ^ (L - 52) = 2 ^ (L + k) := by
  rw [← zpow_add₀ (by norm_num)]; congr 1; ring

/-- The rounded number is in the same binade. -/
theorem double_binade {x : ℚ} (hx : 0 < x) : (2 : ℚ) ^ Int.log 2 x ≤ double x ∧ double x ≤ 2 ^ (Int.log 2 x + 1) := by
  have h1 : (2 : ℚ) ^ Int.log 2 x ≤ x := by exact_mod_cast Int.zpow_log_le_self (b := 2) (by norm_num) hx
  have h2 : x < (2 : ℚ) ^ (Int.log 2 x + 1) := by exact_mod_cast Int.lt_zpow_succ_log_self (b := 2) (by norm_num) x
  rw [double_of_pos hx]
  generalize Int.log 2 x = L at *
  have hp : (0 : ℚ) < 2 ^ (52 - L) := zpow_pos (by norm_num) _
  have hq : (0 : ℚ) < 2 ^ (L - 52) := zpow_pos (by norm_num) _
  have z0 := zpow_split L 0
  have z1 := zpow_split L 1
  have b0 := zpow_back L 0
  have b1 := zpow_back L 1
  rw [zero_add] at z0
  rw [add_comm 1 L] at z1
  constructor
  · have : (2 : ℚ) ^ (52 + 0 : ℤ) ≤ x * 2 ^ (52 - L) := by rw [← z0]; exact mul_le_mul_of_nonneg_right h1 hp.le
    have h3 : ((2 ^ 52 : ℤ) : ℚ) ≤ x * 2 ^ (52 - L) := by push_cast; exact_mod_cast this
    have h4 := nearest_mono h3
    rw [nearest_int] at h4
    have h5 : ((2 : ℚ) ^ (52 + 0 : ℤ)) ≤ (nearest (x * 2 ^ (52 - L)) : ℚ) := by
      rw [show (2 : ℚ) ^ (52 + 0 : ℤ) = ((2 ^ 52 : ℤ) : ℚ) by norm_num]
      exact Int.cast_le.2 h4
    calc (2 : ℚ) ^ L = 2 ^ (52 + 0 : ℤ) * 2 ^ (L - 52) := by rw [b0, add_zero]
      _ ≤ _ := mul_le_mul_of_nonneg_right h5 hq.le
  · have : x * 2 ^ (52 - L) ≤ (2 : ℚ) ^ (52 + 1 : ℤ) := by rw [← z1]; exact mul_le_mul_of_nonneg_right h2.le hp.le
    have h3 : x * 2 ^ (52 - L) ≤ ((2 ^ 53 : ℤ) : ℚ) := by push_cast; exact_mod_cast this
    have h4 := nearest_mono h3
    rw [nearest_int] at h4
    have h5 : (nearest (x * 2 ^ (52 - L)) : ℚ) ≤ ((2 : ℚ) ^ (52 + 1 : ℤ)) := by
      rw [show (2 : ℚ) ^ (52 + 1 : ℤ) = ((2 ^ 53 : ℤ) : ℚ) by norm_num]
      exact Int.cast_le.2 h4
    rw [← b1]
    exact mul_le_mul_of_nonneg_right h5 hq.le

theorem double_pos' {x : ℚ} (hx : 0 < x) : 0 < double x := lt_of_lt_of_le (zpow_pos (by norm_num) _) (double_binade hx).1

theorem double_mono_pos {x y : ℚ} (hx : 0 < x) (h : x ≤ y) : double x ≤ double y := by
  have hy : 0 < y := lt_of_lt_of_le hx h
  have hl : Int.log 2 x ≤ Int.log 2 y := Int.log_mono_right hx h
  rcases eq_or_lt_of_le hl with e | e
  · rw [double_of_pos hx, double_of_pos hy, e]
    refine mul_le_mul_of_nonneg_right ?_ (zpow_nonneg (by norm_num) _)
    exact_mod_cast nearest_mono (mul_le_mul_of_nonneg_right h (zpow_nonneg (by norm_num) _))
  · refine (double_binade hx).2.trans (le_trans ?_ (double_binade hy).1)
    exact zpow_le_zpow_right₀ (by norm_num) (by omega)

/-- Rounding is monotone. -/
theorem double_mono {x y : ℚ} (h : x ≤ y) : double x ≤ double y := by
  rcases lt_trichotomy 0 x with hx | hx | hx
  · exact double_mono_pos hx h
  · rw [← hx, double_zero]
    rcases eq_or_lt_of_le (hx ▸ h : 0 ≤ y) with e | e
    · rw [← e, double_zero]
    · exact (double_pos' e).le
  · have h1 : double x < 0 := by
      have := double_pos' (show 0 < -x by linarith)
      rw [double_neg] at this
      linarith
    rcases lt_or_ge y 0 with hy | hy
    · have := double_mono_pos (x := -y) (y := -x) (by linarith) (by linarith)
      rw [double_neg, double_neg] at this
      linarith
    · rcases eq_or_lt_of_le hy with e | e
      · rw [← e, double_zero]; exact h1.le
      · exact (h1.trans (double_pos' e)).le

/-- Powers of two are doubles. -/
theorem double_two (k : ℤ) : double ((2 : ℚ) ^ k) = 2 ^ k := by
  have hk : (0 : ℚ) < 2 ^ k := zpow_pos (by norm_num) _
  have hl : Int.log 2 ((2 : ℚ) ^ k) = k := by
    have := Int.log_zpow (R := ℚ) (b := 2) (by norm_num) k
    exact_mod_cast this
  have z := zpow_split k 0
  rw [double_of_pos hk, hl]
  have e : (2 : ℚ) ^ k * 2 ^ (52 - k) = ((2 ^ 52 : ℤ) : ℚ) := by
    rw [zero_add] at z
    rw [z]
    norm_num
  rw [e, nearest_int]
  have b := zpow_back k 0
  rw [add_zero, add_zero] at b
  rw [← b]
  norm_num

/-- Numbers that exceed a power of two by at most half of the distance to the next double are rounded to it. -/
theorem double_le_two {x : ℚ} {k : ℤ} (h : x ≤ 2 ^ k * (1 + 1 / 2 ^ 53)) : double x ≤ 2 ^ k := by
  have hk : (0 : ℚ) < 2 ^ k := zpow_pos (by norm_num) _
  rcases le_or_gt x (2 ^ k) with h1 | h1
  · exact (double_mono h1).trans (double_two k).le
  have hx : 0 < x := hk.trans h1
  have hl : Int.log 2 x = k := by
    apply le_antisymm
    · have : x < (2 : ℚ) ^ (k + 1) := by
        rw [zpow_add₀ (by norm_num)]
        refine lt_of_le_of_lt h (mul_lt_mul_of_pos_left (by norm_num) hk)
      have := (Int.lt_zpow_iff_log_lt (b := 2) (by norm_num) hx).1 (by exact_mod_cast this)
      omega
    · exact (Int.zpow_le_iff_le_log (b := 2) (by norm_num) hx).1 (by exact_mod_cast h1.le)
  rw [double_of_pos hx, hl]
  have z := zpow_split k 0
  rw [zero_add] at z
  have e : x * 2 ^ (52 - k) ≤ 2 ^ 52 + 1 / 2 := by
    calc x * 2 ^ (52 - k) ≤ 2 ^ k * (1 + 1 / 2 ^ 53) * 2 ^ (52 - k) := mul_le_mul_of_nonneg_right h (zpow_nonneg (by norm_num) _)
      _ = (2 ^ k * 2 ^ (52 - k)) * (1 + 1 / 2 ^ 53) := by ring
      _ = 2 ^ 52 + 1 / 2 := by rw [z]; norm_num
  have hn : nearest ((2 : ℚ) ^ 52 + 1 / 2) = 2 ^ 52 := by decide +kernel
  have h3 := nearest_mono e
  rw [hn] at h3
  have b := zpow_back k 0
  rw [add_zero, add_zero] at b
  rw [← b]
  refine mul_le_mul_of_nonneg_right ?_ (zpow_nonneg (by norm_num) _)
  rw [show (2 : ℚ) ^ (52 : ℤ) = ((2 ^ 52 : ℤ) : ℚ) by norm_num]
  exact Int.cast_le.2 h3

theorem double_err (x : ℚ) : |double x - x| ≤ 1 / 2 ^ 53 * |x| := float64_valid.rnd x

end MLMC.Fl
