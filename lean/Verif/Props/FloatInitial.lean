import Verif.Model.FloatInitial
import Verif.Props.Allocation
import Verif.Proofs.FloatEstimate
import Mathlib.Analysis.Convex.SpecificFunctions.Basic
/-! # C163 Initial numbers of samples in floating-point arithmetic -/
namespace MLMC.Alloc
open Fl

/-- Every operation has a relative error of at most `u`. -/
structure Machine.Valid (M : Machine) (u : ℝ) : Prop where
  nonneg : 0 ≤ u
  rnd : ∀ x, |M.rnd x - x| ≤ u * |x|
  log2 : ∀ x, 0 < x → |M.log2 x - Real.logb 2 x| ≤ u * |Real.logb 2 x|
  exp2 : ∀ x, |M.exp2 x - 2 ^ x| ≤ u * 2 ^ x

/-- The relative error of the numbers before they are rounded to integers, for numbers up to `N`: 3 times 5 roundings of logarithms up to `log2 N`, and one of `exp2`. -/
noncomputable def relErr (u : ℝ) (N : Nat) : ℝ := (1 + 3 * Real.logb 2 N * gamma u 5) * (1 + u) - 1

/-- Geometric interpolation: entry `i` of `L`. -/
noncomputable def between (n0 nL L i : Nat) : ℝ := (n0 : ℝ) ^ (1 - (i : ℝ) / (L - 1)) * (nL : ℝ) ^ ((i : ℝ) / (L - 1))

/-! ## Helpers -/

theorem two_rpow_near {y z ε : ℝ} (h : |y - z| ≤ ε) (h1 : ε ≤ 1) : |(2 : ℝ) ^ y - 2 ^ z| ≤ ε * 2 ^ z := by
  have hz : (0 : ℝ) < 2 ^ z := Real.rpow_pos_of_pos (by norm_num) z
  have hd : (2 : ℝ) ^ y = 2 ^ z * 2 ^ (y - z) := by rw [← Real.rpow_add (by norm_num)]; congr 1; ring
  have bern : ∀ p : ℝ, 0 ≤ p → p ≤ 1 → (2 : ℝ) ^ p ≤ 1 + p := by
    intro p h0 h1
    have := rpow_one_add_le_one_add_mul_self (s := 1) (by norm_num) h0 h1
    rw [mul_one] at this
    norm_num at this
    exact this
  set d := y - z with hdd
  have hab := abs_le.1 h
  have key : |(2 : ℝ) ^ d - 1| ≤ ε := by
    rcases le_total 0 d with h0 | h0
    · have hb := bern d h0 (by linarith)
      have ho : (1 : ℝ) ≤ 2 ^ d := Real.one_le_rpow (by norm_num) h0
      rw [abs_le]; constructor <;> linarith
    · have hb := bern (-d) (by linarith) (by linarith)
      have hp : (0 : ℝ) < 2 ^ d := Real.rpow_pos_of_pos (by norm_num) d
      have hm : (2 : ℝ) ^ d * 2 ^ (-d) = 1 := by rw [← Real.rpow_add (by norm_num)]; simp
      have ho : (2 : ℝ) ^ d ≤ 1 := Real.rpow_le_one_of_one_le_of_nonpos (by norm_num) h0
      have : 1 ≤ (2 : ℝ) ^ d * (1 + -d) := by
        have := mul_le_mul_of_nonneg_left hb hp.le
        rwa [hm] at this
      rw [abs_le]; constructor <;> nlinarith
  calc |(2 : ℝ) ^ y - 2 ^ z| = |2 ^ z * (2 ^ d - 1)| := by rw [hd]; congr 1; ring
    _ = 2 ^ z * |(2 : ℝ) ^ d - 1| := by rw [abs_mul, abs_of_pos hz]
    _ ≤ 2 ^ z * ε := mul_le_mul_of_nonneg_left key hz.le
    _ = ε * 2 ^ z := mul_comm _ _

variable {M : Machine} {u : ℝ}

theorem log_near (hM : M.Valid u) {n N : Nat} (h0 : 0 < n) (hN : n ≤ N) : Near u 1 (Real.logb 2 n) (M.log2 n) (Real.logb 2 N) := by
  have hn : (0 : ℝ) < n := by exact_mod_cast h0
  have hpos : 0 ≤ Real.logb 2 n := Real.logb_nonneg (by norm_num) (by exact_mod_cast h0)
  have hle : Real.logb 2 n ≤ Real.logb 2 N := Real.logb_le_logb_of_le (by norm_num) hn (by exact_mod_cast hN)
  have hg : gamma u 1 = u := by unfold gamma; ring
  refine ⟨by rwa [abs_of_nonneg hpos], ?_⟩
  rw [hg]
  refine (hM.log2 n hn).trans ?_
  rw [abs_of_nonneg hpos]
  exact mul_le_mul_of_nonneg_left hle hM.nonneg

/-- The logarithm of the interpolation. -/
theorem between_eq {n0 nL : Nat} (h0 : 0 < n0) (hL : 0 < nL) (L i : Nat) :
    between n0 nL L i = 2 ^ (Real.logb 2 n0 + (i : ℝ) / (L - 1) * (Real.logb 2 nL - Real.logb 2 n0)) := by
  have a0 : (0 : ℝ) < n0 := by exact_mod_cast h0
  have aL : (0 : ℝ) < nL := by exact_mod_cast hL
  unfold between
  set t := (i : ℝ) / (L - 1)
  have e0 : (n0 : ℝ) ^ (1 - t) = 2 ^ (Real.logb 2 n0 * (1 - t)) := by rw [Real.rpow_mul (by norm_num), Real.rpow_logb (by norm_num) (by norm_num) a0]
  have eL : (nL : ℝ) ^ t = 2 ^ (Real.logb 2 nL * t) := by rw [Real.rpow_mul (by norm_num), Real.rpow_logb (by norm_num) (by norm_num) aL]
  rw [e0, eL, ← Real.rpow_add (by norm_num)]
  congr 1
  ring

/-- The points of `linspace`. -/
theorem linspace_near (hM : M.Valid u) {n0 nL N : Nat} (h0 : 0 < n0) (hL : 0 < nL) (h0N : n0 ≤ N) (hLN : nL ≤ N) {L i : Nat} (hi : i < L) :
    |flLinspace M (M.log2 n0) (M.log2 nL) L i - (Real.logb 2 n0 + (i : ℝ) / (L - 1) * (Real.logb 2 nL - Real.logb 2 n0))| ≤ 3 * Real.logb 2 N * gamma u 5 := by
  have hu := hM.nonneg
  have na := log_near hM h0 h0N
  have nb := log_near hM hL hLN
  set B := Real.logb 2 N with hB
  have hB0 : 0 ≤ B := na.nonneg
  have g5 := gamma_nonneg hu 5
  unfold flLinspace
  by_cases h1 : L = 1
  · subst h1
    obtain rfl : i = 0 := by omega
    rw [if_pos rfl]
    simp only [Nat.cast_zero, zero_div, zero_mul, add_zero, zero_add]
    have := ((na.rnd hu hM.rnd).mono hu (by norm_num : 1 + 1 ≤ 5)).2
    nlinarith [mul_nonneg g5 hB0]
  · rw [if_neg h1]
    have hL1 : (0 : ℝ) < (L : ℝ) - 1 := by
      have : (2 : ℝ) ≤ L := by exact_mod_cast (by omega : 2 ≤ L)
      linarith
    by_cases hlast : i + 1 = L
    · rw [if_pos hlast]
      have ht : (i : ℝ) / (L - 1) = 1 := by
        rw [← hlast]
        push_cast
        rw [add_sub_cancel_right, div_self]
        have : (i : ℝ) + 1 = L := by exact_mod_cast hlast
        linarith
      rw [ht]
      have e : Real.logb 2 n0 + 1 * (Real.logb 2 nL - Real.logb 2 n0) = Real.logb 2 nL := by ring
      rw [e]
      have := (nb.mono hu (by norm_num : 1 ≤ 5)).2
      nlinarith [mul_nonneg g5 hB0]
    · rw [if_neg hlast]
      have nneg : Near u 1 (-Real.logb 2 n0) (-M.log2 n0) B := ⟨by rw [abs_neg]; exact na.1, by
        have : -M.log2 n0 - -Real.logb 2 n0 = -(M.log2 n0 - Real.logb 2 n0) := by ring
        rw [this, abs_neg]; exact na.2⟩
      have nd := ((nb.add nneg).rnd hu hM.rnd)
      have ns := (nd.div hL1).rnd hu hM.rnd
      have hi0 : (0 : ℝ) ≤ i := Nat.cast_nonneg i
      have ni := (((Near.refl hu 0 (i : ℝ)).mul hu ns).rnd hu hM.rnd)
      rw [abs_of_nonneg hi0] at ni
      have ny := ((ni.mono hu (by norm_num : 0 + (1 + 1 + 1) + 1 ≤ 4)).add (na.mono hu (by norm_num : 1 ≤ 4))).rnd hu hM.rnd
      have e1 : M.log2 nL + -M.log2 n0 = M.log2 nL - M.log2 n0 := by ring
      rw [e1] at ny
      have e2 : (i : ℝ) * ((Real.logb 2 nL + -Real.logb 2 n0) / ((L : ℝ) - 1)) + Real.logb 2 n0 = Real.logb 2 n0 + (i : ℝ) / (L - 1) * (Real.logb 2 nL - Real.logb 2 n0) := by
        field_simp
        ring
      rw [e2] at ny
      refine ny.2.trans ?_
      have hiL : (i : ℝ) ≤ (L : ℝ) - 1 := by
        have : (i : ℝ) + 1 ≤ L := by exact_mod_cast hi
        linarith
      have e3 : (i : ℝ) * ((B + B) / ((L : ℝ) - 1)) ≤ 2 * B := by
        rw [mul_div_assoc', div_le_iff₀ hL1]
        nlinarith
      have : gamma u (4 + 1) * ((i : ℝ) * ((B + B) / ((L : ℝ) - 1)) + B) ≤ gamma u 5 * (3 * B) := mul_le_mul_of_nonneg_left (by linarith) g5
      calc gamma u (4 + 1) * ((i : ℝ) * ((B + B) / ((L : ℝ) - 1)) + B) ≤ gamma u 5 * (3 * B) := this
        _ = 3 * B * gamma u 5 := by ring

theorem exp2_near (hM : M.Valid u) {y z ε : ℝ} (h : |y - z| ≤ ε) (h1 : ε ≤ 1) : |M.exp2 y - 2 ^ z| ≤ ((1 + ε) * (1 + u) - 1) * 2 ^ z := by
  have hz : (0 : ℝ) < 2 ^ z := Real.rpow_pos_of_pos (by norm_num) z
  have a := abs_le.1 (two_rpow_near h h1)
  have b := abs_le.1 (hM.exp2 y)
  have hu := hM.nonneg
  have he : 0 ≤ ε := (abs_nonneg _).trans h
  have c : u * (2 : ℝ) ^ y ≤ u * ((1 + ε) * 2 ^ z) := mul_le_mul_of_nonneg_left (by linarith [a.2]) hu
  rw [abs_le]
  constructor <;> nlinarith [a.1, a.2, b.1, b.2]

theorem between_bounds {n0 nL : Nat} (h0 : 0 < n0) (hL : 0 < nL) {L i : Nat} (hi : i < L) :
    ((min n0 nL : Nat) : ℝ) ≤ between n0 nL L i ∧ between n0 nL L i ≤ ((max n0 nL : Nat) : ℝ) := by
  have a0 : (0 : ℝ) < n0 := by exact_mod_cast h0
  have aL : (0 : ℝ) < nL := by exact_mod_cast hL
  set t := (i : ℝ) / ((L : ℝ) - 1) with ht
  have ht01 : 0 ≤ t ∧ t ≤ 1 := by
    rcases Nat.lt_or_ge 1 L with h | h
    · have hL1 : (0 : ℝ) < (L : ℝ) - 1 := by
        have : (2 : ℝ) ≤ L := by exact_mod_cast (by omega : 2 ≤ L)
        linarith
      have hiL : (i : ℝ) ≤ (L : ℝ) - 1 := by
        have : (i : ℝ) + 1 ≤ L := by exact_mod_cast hi
        linarith
      exact ⟨div_nonneg (Nat.cast_nonneg i) hL1.le, (div_le_one hL1).2 hiL⟩
    · obtain rfl : i = 0 := by omega
      rw [ht]; simp
  have hs : 0 ≤ 1 - t := by linarith [ht01.2]
  have split : ∀ m : ℝ, 0 < m → m = m ^ (1 - t) * m ^ t := by
    intro m hm
    rw [← Real.rpow_add hm]; simp
  have hmin : (0 : ℝ) < ((min n0 nL : Nat) : ℝ) := by exact_mod_cast (by omega : 0 < min n0 nL)
  have hmax : (0 : ℝ) < ((max n0 nL : Nat) : ℝ) := by exact_mod_cast (by omega : 0 < max n0 nL)
  have c1 : ((min n0 nL : Nat) : ℝ) ≤ n0 := by exact_mod_cast min_le_left _ _
  have c2 : ((min n0 nL : Nat) : ℝ) ≤ nL := by exact_mod_cast min_le_right _ _
  have c3 : (n0 : ℝ) ≤ ((max n0 nL : Nat) : ℝ) := by exact_mod_cast le_max_left _ _
  have c4 : (nL : ℝ) ≤ ((max n0 nL : Nat) : ℝ) := by exact_mod_cast le_max_right _ _
  unfold between
  rw [← ht]
  constructor
  · rw [split _ hmin]
    exact mul_le_mul (Real.rpow_le_rpow hmin.le c1 hs) (Real.rpow_le_rpow hmin.le c2 ht01.1) (Real.rpow_nonneg hmin.le _) (Real.rpow_nonneg a0.le _)
  · rw [split _ hmax]
    exact mul_le_mul (Real.rpow_le_rpow a0.le c3 hs) (Real.rpow_le_rpow aL.le c4 ht01.1) (Real.rpow_nonneg aL.le _) (Real.rpow_nonneg hmax.le _)

theorem npRound_between {x : ℝ} {a b : Nat} {v η : ℝ} (ha : (a : ℝ) ≤ v) (hb : v ≤ b) (h : |x - v| ≤ η) (hη : η < 1 / 2) :
    (a : ℤ) ≤ npRound x ∧ npRound x ≤ b ∧ |(npRound x : ℝ) - v| ≤ 1 / 2 + η := by
  have hr := abs_le.1 (npRound_rounded x).1
  have hx := abs_le.1 h
  refine ⟨?_, ?_, ?_⟩
  · have : ((a : ℤ) : ℝ) < npRound x + 1 := by push_cast; linarith [hr.1, hx.1]
    have : (a : ℤ) < npRound x + 1 := by exact_mod_cast this
    omega
  · have : (npRound x : ℝ) < ((b : ℤ) : ℝ) + 1 := by push_cast; linarith [hr.2, hx.2]
    have : npRound x < (b : ℤ) + 1 := by exact_mod_cast this
    omega
  · rw [abs_le]; constructor <;> linarith [hr.1, hr.2, hx.1, hx.2]

/-- The entries before they are rounded to integers. -/
theorem flNumbers_entry (hM : M.Valid u) {N : Nat} (hε : 3 * Real.logb 2 N * gamma u 5 ≤ 1) (last : Nat) {L n0 nL : Nat} (h0 : 0 < n0) (hL : 0 < nL) (h0N : n0 ≤ N) (hLN : nL ≤ N) {i : Nat} (hi : i < L) :
    ∃ x, (flNumbers M last L (some [n0, nL]))[i]? = some (npRound x) ∧ |x - between n0 nL L i| ≤ N * relErr u N := by
  have hu := hM.nonneg
  have hrel0 : 0 ≤ relErr u N := by
    unfold relErr
    have : 0 ≤ 3 * Real.logb 2 N * gamma u 5 := by
      have h := (log_near hM h0 h0N).nonneg
      exact mul_nonneg (by linarith) (gamma_nonneg hu 5)
    nlinarith
  refine ⟨M.exp2 (flLinspace M (M.log2 n0) (M.log2 nL) L i), by simp [flNumbers, flSampleRange, hi], ?_⟩
  have h := exp2_near hM (linspace_near hM h0 hL h0N hLN hi) hε
  rw [← between_eq h0 hL] at h
  refine h.trans ?_
  have hb := (between_bounds h0 hL hi).2
  have hNb : between n0 nL L i ≤ N := hb.trans (by exact_mod_cast max_le h0N hLN)
  rw [mul_comm]
  exact mul_le_mul_of_nonneg_right hNb hrel0

/-! ## C163 -/

/-- C163: two given numbers up to `N`, if the relative error is small against `1 / N`: there is one number of samples for each level, the first and the last number are exactly the given ones, all numbers are
between them, and each one is the geometric interpolation rounded to an integer, up to the error `N * relErr u N`. -/
theorem C163_numbers (M : Machine) (u : ℝ) (hM : M.Valid u) (N : Nat) (hN : N * relErr u N < 1 / 2) (hε : 3 * Real.logb 2 N * gamma u 5 ≤ 1) (last L n0 nL : Nat) (h0 : 0 < n0) (hL : 0 < nL)
    (h0N : n0 ≤ N) (hLN : nL ≤ N) :
    (flNumbers M last L (some [n0, nL])).length = L ∧
    (0 < L → (flNumbers M last L (some [n0, nL])).head? = some (n0 : ℤ)) ∧
    (2 ≤ L → (flNumbers M last L (some [n0, nL])).getLast? = some (nL : ℤ)) ∧
    ∀ (i : Nat) (k : ℤ), (flNumbers M last L (some [n0, nL]))[i]? = some k → ((min n0 nL : Nat) : ℤ) ≤ k ∧ k ≤ ((max n0 nL : Nat) : ℤ) ∧ |(k : ℝ) - between n0 nL L i| ≤ 1 / 2 + N * relErr u N := by
  have hlen : (flNumbers M last L (some [n0, nL])).length = L := by simp [flNumbers, flSampleRange]
  have entry := fun i (hi : i < L) => flNumbers_entry hM hε last h0 hL h0N hLN hi
  refine ⟨hlen, ?_, ?_, ?_⟩
  · intro hpos
    obtain ⟨x, hx, hb⟩ := entry 0 hpos
    have e : between n0 nL L 0 = n0 := by unfold between; simp
    rw [e] at hb
    obtain ⟨h1, h2, -⟩ := npRound_between (le_refl (n0 : ℝ)) (le_refl (n0 : ℝ)) hb hN
    rw [List.head?_eq_getElem?, hx]
    congr 1
    omega
  · intro h2L
    obtain ⟨x, hx, hb⟩ := entry (L - 1) (by omega)
    have e : between n0 nL L (L - 1) = nL := by
      have hc : ((L - 1 : Nat) : ℝ) = (L : ℝ) - 1 := by rw [Nat.cast_sub (by omega)]; simp
      have hne : (L : ℝ) - 1 ≠ 0 := by
        have : (2 : ℝ) ≤ L := by exact_mod_cast h2L
        linarith
      unfold between
      rw [hc, div_self hne]
      simp
    rw [e] at hb
    obtain ⟨h1, h2, -⟩ := npRound_between (le_refl (nL : ℝ)) (le_refl (nL : ℝ)) hb hN
    rw [List.getLast?_eq_getElem?, hlen, hx]
    congr 1
    omega
  · intro i k hk
    have hi : i < L := by
      rcases Nat.lt_or_ge i L with h | h
      · exact h
      · rw [List.getElem?_eq_none (by rw [hlen]; exact h)] at hk; cases hk
    obtain ⟨x, hx, hb⟩ := entry i hi
    rw [hk] at hx
    obtain rfl : k = npRound x := by simpa using hx
    obtain ⟨b1, b2⟩ := between_bounds h0 hL hi
    exact npRound_between b1 b2 hb hN

/-- C163: a level does not get more samples than the one before if the geometric interpolation falls between them by at least twice the error. -/
theorem C163_order (M : Machine) (u : ℝ) (hM : M.Valid u) (N : Nat) (hε : 3 * Real.logb 2 N * gamma u 5 ≤ 1) (last L n0 nL : Nat) (h0 : 0 < n0) (hL : 0 < nL) (h0N : n0 ≤ N) (hLN : nL ≤ N)
    (i j : Nat) (k k' : ℤ) (hk : (flNumbers M last L (some [n0, nL]))[i]? = some k) (hk' : (flNumbers M last L (some [n0, nL]))[j]? = some k')
    (hgap : between n0 nL L j + 2 * (N * relErr u N) ≤ between n0 nL L i) : k' ≤ k := by
  have hlen : (flNumbers M last L (some [n0, nL])).length = L := by simp [flNumbers, flSampleRange]
  have lt : ∀ {i : Nat} {k : ℤ}, (flNumbers M last L (some [n0, nL]))[i]? = some k → i < L := by
    intro i k hk
    rcases Nat.lt_or_ge i L with h | h
    · exact h
    · rw [List.getElem?_eq_none (by rw [hlen]; exact h)] at hk; cases hk
  obtain ⟨x, hx, hb⟩ := flNumbers_entry hM hε last h0 hL h0N hLN (lt hk)
  obtain ⟨x', hx', hb'⟩ := flNumbers_entry hM hε last h0 hL h0N hLN (lt hk')
  rw [hk] at hx
  rw [hk'] at hx'
  obtain rfl : k = npRound x := by simpa using hx
  obtain rfl : k' = npRound x' := by simpa using hx'
  exact npRound_mono (by linarith [(abs_le.1 hb).1, (abs_le.1 hb').2])

/-- C163: this holds for up to `2^32` samples if the functions are accurate to `2^-50` (doubles: `2^-53` for the operations, at most 4 units in the last place for `log2` and `exp2`); the numbers then differ
from the geometric interpolation by less than 51/100. -/
theorem C163_doubles : (2 ^ 32 : Nat) * relErr (1 / 2 ^ 50) (2 ^ 32) < 1 / 100 ∧ 3 * Real.logb 2 (2 ^ 32 : Nat) * gamma (1 / 2 ^ 50 : ℝ) 5 ≤ 1 := by
  have hlog : Real.logb 2 ((2 ^ 32 : Nat) : ℝ) = 32 := by
    rw [show ((2 ^ 32 : Nat) : ℝ) = 2 ^ (32 : ℝ) by norm_num, Real.logb_rpow (by norm_num) (by norm_num)]
  unfold relErr
  rw [hlog]
  unfold gamma
  constructor <;> norm_num

/-- C163: the defaults, 100 samples on the first level and 10 (`set_initial_n_samples`) or 3 (`determine_n_samples`) on the last one, one number is completed by the default; three and more numbers are taken as
they are. -/
theorem C163_other (M : Machine) (last L n : Nat) (ns : List Nat) (hlen : 3 ≤ ns.length) :
    flNumbers M last L none = flNumbers M last L (some [100, last]) ∧ flNumbers M last L (some [n]) = flNumbers M last L (some [n, last]) ∧
    flNumbers M last L (some ns) = ns.map fun k => (k : ℤ) := by
  refine ⟨rfl, rfl, ?_⟩
  match ns, hlen with
  | _ :: _ :: _ :: _, _ => rfl

/-! ## The hypotheses are met -/

/-- Every result is too large by the relative error `2^-50`. -/
noncomputable def offMachine : Machine :=
  ⟨fun x => x * (1 + 1 / 2 ^ 50), fun x => Real.logb 2 x * (1 + 1 / 2 ^ 50), fun x => 2 ^ x * (1 + 1 / 2 ^ 50)⟩

theorem offMachine_valid : offMachine.Valid (1 / 2 ^ 50) := by
  have h : ∀ x : ℝ, |x * (1 + 1 / 2 ^ 50) - x| ≤ 1 / 2 ^ 50 * |x| := by
    intro x
    rw [show x * (1 + 1 / 2 ^ 50) - x = 1 / 2 ^ 50 * x by ring, abs_mul, abs_of_nonneg (by norm_num)]
  refine ⟨by norm_num, h, fun x _ => h _, fun x => ?_⟩
  have := h (2 ^ x)
  rwa [abs_of_nonneg (Real.rpow_nonneg (by norm_num) x)] at this

/-- A thousand samples on the first of five levels, 10 on the last one. -/
example := C163_numbers offMachine (1 / 2 ^ 50) offMachine_valid (2 ^ 32) (C163_doubles.1.trans (by norm_num)) C163_doubles.2 10 5 1000 10 (by norm_num) (by norm_num) (by norm_num) (by norm_num)

/-- 10000 samples on the first of five levels, 1 on the last one. -/
example (k k' : ℤ) := C163_order offMachine (1 / 2 ^ 50) offMachine_valid (2 ^ 32) C163_doubles.2 10 5 10000 1 (by norm_num) (by norm_num) (by norm_num) (by norm_num) 0 4 k k'

example : between 10000 1 5 4 + 2 * ((2 ^ 32 : Nat) * relErr (1 / 2 ^ 50) (2 ^ 32)) ≤ between 10000 1 5 0 := by
  have h1 : between 10000 1 5 4 = 1 := by unfold between; norm_num
  have h2 : between 10000 1 5 0 = 10000 := by unfold between; norm_num
  rw [h1, h2]
  linarith [C163_doubles.1]

end MLMC.Alloc
