import Verif.Model.FloatAdding
import Verif.Proofs.Adding
import Verif.Proofs.FloatEstimate
/-! Helper lemmas about `process_adding_samples` in doubles. -/
namespace MLMC
open Fl
variable {V : Type}

theorem double_err (x : ℚ) : |double x - x| ≤ 1 / 2 ^ 53 * |x| := float64_valid.rnd x

theorem double_ge {x : ℚ} (h : 0 ≤ x) : x * (1 - 1 / 2 ^ 53) ≤ double x := by
  have := abs_le.1 (double_err x)
  rw [abs_of_nonneg h] at this
  linarith [this.1]

theorem double_zero : double 0 = 0 := by unfold double; rw [if_pos rfl]

theorem nearest_le {q : ℚ} {z : ℤ} (h : q ≤ z) : nearest q ≤ z := by
  have h1 : ⌊q⌋ ≤ z := by
    have := Int.floor_mono h
    rwa [Int.floor_intCast] at this
  rcases h1.lt_or_eq with h1 | h1
  · unfold nearest
    split_ifs <;> omega
  · have hq : Int.fract q = 0 := by
      have := Int.self_sub_floor q
      have h2 := Int.fract_nonneg q
      rw [h1] at this
      linarith
    unfold nearest
    rw [if_pos (by rw [hq]; norm_num)]
    exact h1.le

/-- Doubles do not round beyond integers below 2^53. -/
theorem double_le_nat {x : ℚ} {n : Nat} (h0 : 0 ≤ x) (h : x ≤ n) (hn : n < 2 ^ 53) : double x ≤ n := by
  rcases h0.eq_or_lt with h0 | h0
  · rw [← h0, double_zero]; positivity
  unfold double
  rw [if_neg h0.ne']
  simp only [if_pos h0, abs_of_pos h0]
  set e := Int.log 2 x - 52 with he
  have hx : x < 2 ^ 53 := h.trans_lt (by exact_mod_cast hn)
  have hlog : Int.log 2 x < 53 := (Int.lt_zpow_iff_log_lt (by norm_num) h0).1 (by exact_mod_cast hx)
  have he0 : e ≤ 0 := by omega
  have hm : two (-e) * two e = 1 := by rw [two_eq, two_eq, ← zpow_add₀ (by norm_num)]; simp
  have h2 : (0 : ℚ) < two e := by rw [two_eq]; exact zpow_pos (by norm_num) e
  have h2' : (0 : ℚ) < two (-e) := by rw [two_eq]; exact zpow_pos (by norm_num) _
  have hint : (n : ℚ) * two (-e) = (((n * 2 ^ (-e).toNat : Nat) : ℤ) : ℚ) := by
    unfold two
    rw [if_pos (by omega)]
    push_cast
    rfl
  have hle : nearest (x * two (-e)) ≤ ((n * 2 ^ (-e).toNat : Nat) : ℤ) := nearest_le (by rw [← hint]; exact mul_le_mul_of_nonneg_right h h2'.le)
  have hle' : (nearest (x * two (-e)) : ℚ) ≤ n * two (-e) := by rw [hint]; exact_mod_cast hle
  calc (nearest (x * two (-e)) : ℚ) * two e ≤ n * two (-e) * two e := mul_le_mul_of_nonneg_right hle' h2.le
    _ = n := by rw [mul_assoc, hm, mul_one]

theorem flAddSamples_gt (e : ℚ) (s : Nat) (c : ℚ) (hc : 1 / 2 ^ 26 ≤ c) (h : (s : ℚ) < e) : (s : ℤ) < flAddSamples e s c := by
  unfold flAddSamples
  rw [Int.lt_ceil]
  push_cast
  have hs : (0 : ℚ) ≤ s := Nat.cast_nonneg s
  have hc0 : 0 < c := lt_of_lt_of_le (by norm_num) hc
  have he : 0 < e := hs.trans_lt h
  rw [if_neg (not_lt.2 h.le)]
  split
  · exact h
  rename_i hn
  have hn := not_lt.1 hn
  set w : ℚ := 1 - 1 / 2 ^ 53 with hw
  have hw0 : (0 : ℚ) < w := by rw [hw]; norm_num
  have a1 : (e - s) * w ≤ double (e - s) := double_ge (by linarith)
  have hd0 : 0 < double (e - s) := lt_of_lt_of_le (mul_pos (by linarith) hw0) a1
  have a2 : e * c * w ≤ double (e - s) := (double_ge (mul_pos he hc0).le).trans hn
  have a3 : s * c * w ≤ double (e - s) := le_trans (mul_le_mul_of_nonneg_right (mul_le_mul_of_nonneg_right h.le hc0.le) hw0.le) a2
  set d := double (e - s) with hd
  have a4 : d * c * w ≤ double (d * c) := double_ge (mul_pos hd0 hc0).le
  have hd1 : 0 < double (d * c) := lt_of_lt_of_le (mul_pos (mul_pos hd0 hc0) hw0) a4
  set δ := double (d * c) with hδ
  have a5 : (s + δ) * w ≤ double (s + δ) := double_ge (by linarith)
  refine lt_of_lt_of_le ?_ a5
  have a6 : s * c * w * c * w ≤ δ := le_trans (mul_le_mul_of_nonneg_right (mul_le_mul_of_nonneg_right a3 hc0.le) hw0.le) a4
  have hcc : 1 / 2 ^ 52 ≤ c * c := by
    calc (1 : ℚ) / 2 ^ 52 = 1 / 2 ^ 26 * (1 / 2 ^ 26) := by norm_num
      _ ≤ c * c := mul_le_mul hc hc (by norm_num) hc0.le
  rcases hs.eq_or_lt with h0 | h0
  · rw [← h0, zero_add]
    exact mul_pos hd1 hw0
  · have a7 : s * (1 / 2 ^ 52 * w * w) ≤ δ := by
      calc (s : ℚ) * (1 / 2 ^ 52 * w * w) ≤ s * (c * c * w * w) := by
            refine mul_le_mul_of_nonneg_left ?_ hs
            exact mul_le_mul_of_nonneg_right (mul_le_mul_of_nonneg_right hcc hw0.le) hw0.le
        _ = s * c * w * c * w := by ring
        _ ≤ δ := a6
    have a8 : s * (1 / 2 ^ 52 * w * w * w) ≤ δ * w := by
      calc (s : ℚ) * (1 / 2 ^ 52 * w * w * w) = s * (1 / 2 ^ 52 * w * w) * w := by ring
        _ ≤ δ * w := mul_le_mul_of_nonneg_right a7 hw0.le
    have a9 : (1 : ℚ) / 2 ^ 53 < 1 / 2 ^ 52 * w * w * w := by rw [hw]; norm_num
    have a10 := mul_lt_mul_of_pos_left a9 h0
    have : (s + δ) * w = s - s * (1 / 2 ^ 53) + δ * w := by rw [hw]; ring
    rw [this]
    linarith

theorem flAddSamples_above (e : ℚ) (s : Nat) (c : ℚ) (hc : 0 < c) (h : e ≤ s) : flAddSamples e s c = s := by
  unfold flAddSamples
  have : (if e < s then (s : ℚ) else if double (e * c) > double (e - s) then e else double (s + double (double (e - s) * c))) = s := by
    split
    · rfl
    · rename_i h'
      have he : e = s := by linarith
      split
      · exact he
      · rename_i hn
        have hn := not_lt.1 hn
        rw [he, sub_self, double_zero] at hn
        have h1 := double_ge (x := (s : ℚ) * c) (by positivity)
        have hs0 : (s : ℚ) = 0 := by
          by_contra hne
          have : 0 < (s : ℚ) := lt_of_le_of_ne (Nat.cast_nonneg s) (Ne.symm hne)
          have : 0 < (s : ℚ) * c * (1 - 1 / 2 ^ 53) := mul_pos (mul_pos this hc) (by norm_num)
          linarith
        rw [he, hs0, sub_self, double_zero, zero_mul, double_zero, zero_add, double_zero]
  simp only [this]; simp

theorem flAddSamples_ge (e : ℚ) (s : Nat) (c : ℚ) (hc : 1 / 2 ^ 26 ≤ c) : (s : ℤ) ≤ flAddSamples e s c := by
  rcases lt_or_ge (s : ℚ) e with h | h
  · exact (flAddSamples_gt e s c hc h).le
  · exact (flAddSamples_above e s c (lt_of_lt_of_le (by norm_num) hc) h).ge

theorem flAddSamples_le (e : ℚ) (s : Nat) (c : ℚ) (hc0 : 0 < c) (hc : c ≤ 1) (h : (s : ℚ) ≤ e) (he : e < 2 ^ 53 - 1) : flAddSamples e s c ≤ ⌈e⌉ := by
  unfold flAddSamples
  have hs : (0 : ℚ) ≤ s := Nat.cast_nonneg s
  have hce : 0 ≤ ⌈e⌉ := Int.ceil_nonneg (hs.trans h)
  obtain ⟨n, hn⟩ := Int.eq_ofNat_of_zero_le hce
  have hen : e ≤ n := by
    have := Int.le_ceil e
    rw [hn] at this
    exact_mod_cast this
  have hn53 : n < 2 ^ 53 := by
    have h1 : (n : ℚ) < e + 1 := by
      have := Int.ceil_lt_add_one e
      rw [hn] at this
      exact_mod_cast this
    have : (n : ℚ) < 2 ^ 53 := by linarith
    exact_mod_cast this
  have hsn : s ≤ n := by
    have : (s : ℚ) ≤ n := h.trans hen
    exact_mod_cast this
  simp only [if_neg (not_lt.2 h)]
  split
  · exact le_rfl
  rw [Int.ceil_le, hn]
  push_cast
  have b1 : double (e - s) ≤ ((n - s : Nat) : ℚ) := double_le_nat (by linarith) (by rw [Nat.cast_sub hsn]; linarith) (by omega)
  have b0 : 0 ≤ double (e - s) := le_trans (mul_nonneg (by linarith) (by norm_num)) (double_ge (x := e - s) (by linarith))
  have b2 : double (double (e - s) * c) ≤ ((n - s : Nat) : ℚ) := double_le_nat (mul_nonneg b0 hc0.le) ((mul_le_of_le_one_right b0 hc).trans b1) (by omega)
  have b3 : 0 ≤ double (double (e - s) * c) := le_trans (mul_nonneg (mul_nonneg b0 hc0.le) (by norm_num)) (double_ge (mul_nonneg b0 hc0.le))
  refine double_le_nat (by linarith) ?_ hn53
  rw [Nat.cast_sub hsn] at b2
  linarith

/-- Closed form of one call: counts per level. -/
theorem flProcessAdding_get (s : Sys V) (est : List ℚ) (c : ℚ) (he : est.length = s.nSched.length)
    (ht : s.target.length = s.nSched.length) (l : Nat) (e t : ℚ) (k : Nat)
    (hel : est[l]? = some e) (htl : s.target[l]? = some t) (hkl : s.nSched[l]? = some k) :
    (s.flProcessAdding est c).1.nSched[l]? = some (max k ⌊max t (flAddSamples e k c)⌋.toNat) ∧
    (s.flProcessAdding est c).1.target[l]? = some (max t (flAddSamples e k c)) := by
  simp only [Sys.flProcessAdding, he, if_true]
  have hlen : ((flAddSamplesVec est s.nSched c).map (fun z : ℤ => (z : ℚ))).length = s.target.length := by
    simp [flAddSamplesVec, he, ht]
  have hvl : ((flAddSamplesVec est s.nSched c).map (fun z : ℤ => (z : ℚ)))[l]? = some ((flAddSamples e k c : ℤ) : ℚ) := by
    simp [flAddSamplesVec, List.getElem?_map, List.getElem?_zipWith, hel, hkl]
  have htgt := setLevelTarget_get s.target _ hlen l t _ htl hvl
  have hcl := schedule_closed
    { s with target := setLevelTarget s.target ((flAddSamplesVec est s.nSched c).map (fun z : ℤ => (z : ℚ))) }
    (Or.inl (by simp only; rw [setLevelTarget_length _ _ hlen, ht]))
  obtain ⟨h1, _, _, _, h5, _, _⟩ := hcl
  constructor
  · rw [h5 l]
    have hp := plan_get
      { s with target := setLevelTarget s.target ((flAddSamplesVec est s.nSched c).map (fun z : ℤ => (z : ℚ))) } l
    simp only [htgt, hkl] at hp
    rw [hp]
    simp only [hkl, Option.map_some, Option.getD_some, add_planCount]
  · rw [h1]; exact htgt

theorem flProcessAdding_lengths (s : Sys V) (est : List ℚ) (c : ℚ) (he : est.length = s.nSched.length)
    (ht : s.target.length = s.nSched.length) :
    (s.flProcessAdding est c).1.nSched.length = s.nSched.length ∧
    (s.flProcessAdding est c).1.target.length = s.nSched.length := by
  simp only [Sys.flProcessAdding, he, if_true]
  have hlen : ((flAddSamplesVec est s.nSched c).map (fun z : ℤ => (z : ℚ))).length = s.target.length := by
    simp [flAddSamplesVec, he, ht]
  have hcl := schedule_closed
    { s with target := setLevelTarget s.target ((flAddSamplesVec est s.nSched c).map (fun z : ℤ => (z : ℚ))) }
    (Or.inl (by simp only; rw [setLevelTarget_length _ _ hlen, ht]))
  obtain ⟨h1, _, h3, _⟩ := hcl
  exact ⟨h3, by rw [h1]; simp only; rw [setLevelTarget_length _ _ hlen, ht]⟩

end MLMC
