import Verif.Model.FloatVander
import Verif.Model.Moments
import Verif.Props.FloatMoments
/-! # C165 Values of moment functions in floating-point arithmetic -/
namespace MLMC.Fl
open MLMC.Mom (leg)

/-! ## Helpers -/

/-- The recurrence of the Legendre polynomials without rounding. -/
def legQ (t : ℚ) : Nat → ℚ
  | 0 => 1
  | 1 => t
  | n + 2 => (legQ t (n + 1) * t * (2 * (n + 2) - 1) - legQ t n * (n + 1)) / (n + 2)

theorem legQ_cast (t : ℚ) : ∀ n, ((legQ t n : ℚ) : ℝ) = leg (t : ℝ) n
  | 0 => by simp [legQ, leg]
  | 1 => by simp [legQ, leg]
  | n + 2 => by
    have h1 := legQ_cast t (n + 1)
    have h0 := legQ_cast t n
    simp only [legQ, leg]
    push_cast
    rw [h1, h0]

/-- The coefficients of the recurrence are at most 2 and 1. -/
theorem comb_le {n : Nat} {t a b A B : ℚ} (ht : |t| ≤ 1) (ha : |a| ≤ A) (hb : |b| ≤ B) : |(a * t * (2 * ((n : ℚ) + 2) - 1) - b * (n + 1)) / (n + 2)| ≤ 2 * A + B := by
  have hn : (0 : ℚ) ≤ n := Nat.cast_nonneg n
  have h2 : (0 : ℚ) < (n : ℚ) + 2 := by linarith
  have hA : 0 ≤ A := (abs_nonneg a).trans ha
  have hB : 0 ≤ B := (abs_nonneg b).trans hb
  rw [abs_div, abs_of_pos h2, div_le_iff₀ h2]
  have e1 : |a * t * (2 * ((n : ℚ) + 2) - 1)| ≤ A * (2 * (n + 2)) := by
    rw [abs_mul, abs_mul, abs_of_pos (by linarith : (0 : ℚ) < 2 * ((n : ℚ) + 2) - 1)]
    have : |a| * |t| ≤ A := (mul_le_mul ha ht (abs_nonneg t) hA).trans (by linarith)
    exact mul_le_mul this (by linarith) (by linarith) hA
  have e2 : |b * ((n : ℚ) + 1)| ≤ B * (n + 2) := by
    rw [abs_mul, abs_of_pos (by linarith : (0 : ℚ) < (n : ℚ) + 1)]
    exact mul_le_mul hb (by linarith) (by linarith) hB
  calc |a * t * (2 * ((n : ℚ) + 2) - 1) - b * (n + 1)| ≤ |a * t * (2 * ((n : ℚ) + 2) - 1)| + |b * (n + 1)| := abs_sub _ _
    _ ≤ A * (2 * (n + 2)) + B * (n + 2) := add_le_add e1 e2
    _ = (2 * A + B) * (n + 2) := by ring

theorem grow (n : Nat) : 2 * (5 / 2 : ℚ) ^ (n + 1) + (5 / 2) ^ n ≤ (5 / 2) ^ (n + 2) := by
  have : (0 : ℚ) ≤ (5 / 2) ^ n := by positivity
  rw [pow_succ, pow_succ, pow_succ]
  linarith

theorem legQ_le {t : ℚ} (ht : |t| ≤ 1) : ∀ n, |legQ t n| ≤ (5 / 2) ^ n
  | 0 => by simp [legQ]
  | 1 => by simp only [legQ, pow_one]; linarith
  | n + 2 => by
    have := comb_le (n := n) ht (legQ_le ht (n + 1)) (legQ_le ht n)
    simp only [legQ]
    exact this.trans (grow n)

/-- The Legendre polynomials at neighbouring points. -/
theorem legQ_sub {s t : ℚ} (hs : |s| ≤ 1) (ht : |t| ≤ 1) : ∀ n, |legQ s n - legQ t n| ≤ n * (5 / 2) ^ n * |s - t|
  | 0 => by simp [legQ]
  | 1 => by simp only [legQ, pow_one, Nat.cast_one, one_mul]; linarith [abs_nonneg (s - t)]
  | n + 2 => by
    have h1 := legQ_sub hs ht (n + 1)
    have h0 := legQ_sub hs ht n
    have hb := legQ_le ht (n + 1)
    have hn : (0 : ℚ) ≤ n := Nat.cast_nonneg n
    have e : legQ s (n + 2) - legQ t (n + 2)
        = ((legQ s (n + 1) - legQ t (n + 1)) * s * (2 * ((n : ℚ) + 2) - 1) - (legQ s n - legQ t n) * (n + 1)) / (n + 2)
          + (legQ t (n + 1) * (s - t) * (2 * ((n : ℚ) + 2) - 1)) / (n + 2) := by
      simp only [legQ]; ring
    have h2 : (0 : ℚ) < (n : ℚ) + 2 := by linarith
    have c1 := comb_le (n := n) hs h1 h0
    have c2 : |(legQ t (n + 1) * (s - t) * (2 * ((n : ℚ) + 2) - 1)) / (n + 2)| ≤ 2 * ((5 / 2) ^ (n + 1) * |s - t|) := by
      rw [abs_div, abs_of_pos h2, div_le_iff₀ h2, abs_mul, abs_mul, abs_of_pos (by linarith : (0 : ℚ) < 2 * ((n : ℚ) + 2) - 1)]
      have : |legQ t (n + 1)| * |s - t| ≤ (5 / 2) ^ (n + 1) * |s - t| := mul_le_mul_of_nonneg_right hb (abs_nonneg _)
      calc |legQ t (n + 1)| * |s - t| * (2 * ((n : ℚ) + 2) - 1) ≤ (5 / 2) ^ (n + 1) * |s - t| * (2 * (n + 2)) := mul_le_mul this (by linarith) (by linarith) (by positivity)
        _ = 2 * ((5 / 2) ^ (n + 1) * |s - t|) * (n + 2) := by ring
    rw [e]
    refine (abs_add_le _ _).trans ((add_le_add c1 c2).trans ?_)
    have g := grow n
    have p0 : (0 : ℚ) ≤ (5 / 2) ^ n := by positivity
    have key : 2 * (((n + 1 : Nat) : ℚ) * (5 / 2) ^ (n + 1)) + n * (5 / 2) ^ n + 2 * (5 / 2) ^ (n + 1) ≤ ((n + 2 : Nat) : ℚ) * (5 / 2) ^ (n + 2) := by
      have := mul_le_mul_of_nonneg_left g (by linarith : (0 : ℚ) ≤ (n : ℚ) + 2)
      push_cast
      linarith
    have := mul_le_mul_of_nonneg_right key (abs_nonneg (s - t))
    linarith

/-- One rounding of something that is `x` up to the relative error `(1 + u) ^ k - 1` of a bound `B`. -/
theorem rnd_step {rnd : ℚ → ℚ} {u : ℚ} (hu : 0 ≤ u) (hr : ∀ x, |rnd x - x| ≤ u * |x|) {x y B : ℚ} {k : Nat} (hx : |x| ≤ B) (h : |y - x| ≤ ((1 + u) ^ k - 1) * B) :
    |rnd y - x| ≤ ((1 + u) ^ (k + 1) - 1) * B := by
  have hy : |y| ≤ (1 + u) ^ k * B := by
    have : |y| ≤ |y - x| + |x| := by simpa using abs_add_le (y - x) x
    linarith
  have e : rnd y - x = (rnd y - y) + (y - x) := by ring
  rw [e]
  refine (abs_add_le _ _).trans ?_
  have := (hr y).trans (mul_le_mul_of_nonneg_left hy hu)
  rw [pow_succ]
  linarith

theorem legCol_step {rnd : ℚ → ℚ} {u : ℚ} (hu : 0 ≤ u) (hr : ∀ x, |rnd x - x| ≤ u * |x|) {n : Nat} {t a b A B : ℚ} (ht : |t| ≤ 1) (ha : |a| ≤ A) (hb : |b| ≤ B) :
    |rnd (rnd (rnd (rnd (a * t) * (2 * ((n : ℚ) + 2) - 1)) - rnd (b * (n + 1))) / (n + 2)) - (a * t * (2 * ((n : ℚ) + 2) - 1) - b * (n + 1)) / (n + 2)|
      ≤ ((1 + u) ^ 4 - 1) * (2 * A + B) := by
  have hn : (0 : ℚ) ≤ n := Nat.cast_nonneg n
  have hA : 0 ≤ A := (abs_nonneg a).trans ha
  have hB : 0 ≤ B := (abs_nonneg b).trans hb
  have h2 : (0 : ℚ) < (n : ℚ) + 2 := by linarith
  set c : ℚ := 2 * ((n : ℚ) + 2) - 1 with hc
  have hc0 : 0 < c := by rw [hc]; linarith
  set d : ℚ := (n : ℚ) + 1 with hd
  have hd0 : 0 < d := by rw [hd]; linarith
  have hat : |a * t| ≤ A := by rw [abs_mul]; exact (mul_le_mul ha ht (abs_nonneg t) hA).trans (by linarith)
  have s1 : |rnd (a * t) - a * t| ≤ ((1 + u) ^ 1 - 1) * A := rnd_step (k := 0) hu hr hat (by simp)
  have s2 : |rnd (rnd (a * t) * c) - a * t * c| ≤ ((1 + u) ^ 2 - 1) * (A * c) := by
    refine rnd_step (k := 1) hu hr ?_ ?_
    · rw [abs_mul, abs_of_pos hc0]; exact mul_le_mul_of_nonneg_right hat hc0.le
    · rw [← sub_mul, abs_mul, abs_of_pos hc0, ← mul_assoc]; exact mul_le_mul_of_nonneg_right s1 hc0.le
  have hbd : |b * d| ≤ B * d := by rw [abs_mul, abs_of_pos hd0]; exact mul_le_mul_of_nonneg_right hb hd0.le
  have s3 : |rnd (b * d) - b * d| ≤ ((1 + u) ^ 2 - 1) * (B * d) := by
    refine (rnd_step (k := 0) hu hr hbd (by simp)).trans (mul_le_mul_of_nonneg_right ?_ (by positivity))
    have : (1 + u) ^ (0 + 1) ≤ (1 + u) ^ 2 := pow_le_pow_right₀ (by linarith) (by norm_num)
    linarith
  have hatc : |a * t * c| ≤ A * c := by rw [abs_mul, abs_of_pos hc0]; exact mul_le_mul_of_nonneg_right hat hc0.le
  have hsum : |a * t * c - b * d| ≤ A * c + B * d := (abs_sub _ _).trans (add_le_add hatc hbd)
  have s4 : |rnd (rnd (rnd (a * t) * c) - rnd (b * d)) - (a * t * c - b * d)| ≤ ((1 + u) ^ 3 - 1) * (A * c + B * d) := by
    refine rnd_step (k := 2) hu hr hsum ?_
    have e : rnd (rnd (a * t) * c) - rnd (b * d) - (a * t * c - b * d) = (rnd (rnd (a * t) * c) - a * t * c) - (rnd (b * d) - b * d) := by ring
    rw [e]
    refine (abs_sub _ _).trans ?_
    linarith
  have s5 : |rnd (rnd (rnd (rnd (a * t) * c) - rnd (b * d)) / ((n : ℚ) + 2)) - (a * t * c - b * d) / ((n : ℚ) + 2)| ≤ ((1 + u) ^ 4 - 1) * ((A * c + B * d) / (n + 2)) := by
    refine rnd_step (k := 3) hu hr ?_ ?_
    · rw [abs_div, abs_of_pos h2]; exact div_le_div_of_nonneg_right hsum h2.le
    · rw [← sub_div, abs_div, abs_of_pos h2, ← mul_div_assoc]; exact div_le_div_of_nonneg_right s4 h2.le
  refine s5.trans (mul_le_mul_of_nonneg_left ?_ ?_)
  · rw [div_le_iff₀ h2]
    have : A * c ≤ A * (2 * ((n : ℚ) + 2)) := mul_le_mul_of_nonneg_left (by rw [hc]; linarith) hA
    have : B * d ≤ B * ((n : ℚ) + 2) := mul_le_mul_of_nonneg_left (by rw [hd]; linarith) hB
    linarith
  · have : 1 ≤ (1 + u) ^ 4 := one_le_pow₀ (by linarith)
    linarith

/-- Rounding errors of `legvander`. -/
theorem legCol_err {rnd : ℚ → ℚ} {u : ℚ} (hu : 0 ≤ u) (hr : ∀ x, |rnd x - x| ≤ u * |x|) {t : ℚ} (ht : |t| ≤ 1) : ∀ n, |legCol rnd t n - legQ t n| ≤ ((1 + u) ^ (4 * n) - 1) * (5 / 2) ^ n
  | 0 => by simp [legCol, legQ]
  | 1 => by
    simp only [legCol, legQ, sub_self, abs_zero]
    have : 1 ≤ (1 + u) ^ (4 * 1) := one_le_pow₀ (by linarith)
    exact mul_nonneg (by linarith) (by norm_num)
  | n + 2 => by
    have h1 := legCol_err hu hr ht (n + 1)
    have h0 := legCol_err hu hr ht n
    have b1 := legQ_le ht (n + 1)
    have b0 := legQ_le ht n
    set K1 : ℚ := (5 / 2) ^ (n + 1) with hK1
    set K0 : ℚ := (5 / 2) ^ n with hK0
    have p1 : 0 ≤ K1 := by rw [hK1]; positivity
    have p0 : 0 ≤ K0 := by rw [hK0]; positivity
    set G : ℚ := (1 + u) ^ (4 * (n + 1)) with hG
    have hG0 : (1 + u) ^ (4 * n) ≤ G := pow_le_pow_right₀ (by linarith) (by omega)
    have hG1 : 1 ≤ G := one_le_pow₀ (by linarith)
    have h0' : |legCol rnd t n - legQ t n| ≤ (G - 1) * K0 := h0.trans (mul_le_mul_of_nonneg_right (by linarith) p0)
    have a1 : |legCol rnd t (n + 1)| ≤ G * K1 := by
      have : |legCol rnd t (n + 1)| ≤ |legCol rnd t (n + 1) - legQ t (n + 1)| + |legQ t (n + 1)| := by simpa using abs_add_le (legCol rnd t (n + 1) - legQ t (n + 1)) (legQ t (n + 1))
      linarith
    have a0 : |legCol rnd t n| ≤ G * K0 := by
      have : |legCol rnd t n| ≤ |legCol rnd t n - legQ t n| + |legQ t n| := by simpa using abs_add_le (legCol rnd t n - legQ t n) (legQ t n)
      linarith
    have s := legCol_step hu hr (n := n) ht a1 a0
    have c := comb_le (n := n) ht h1 h0'
    have e : legCol rnd t (n + 2) - legQ t (n + 2)
        = (legCol rnd t (n + 2) - (legCol rnd t (n + 1) * t * (2 * ((n : ℚ) + 2) - 1) - legCol rnd t n * (n + 1)) / (n + 2))
          + ((legCol rnd t (n + 1) - legQ t (n + 1)) * t * (2 * ((n : ℚ) + 2) - 1) - (legCol rnd t n - legQ t n) * (n + 1)) / (n + 2) := by
      simp only [legQ]; ring
    rw [e]
    have hl : legCol rnd t (n + 2) = rnd (rnd (rnd (rnd (legCol rnd t (n + 1) * t) * (2 * ((n : ℚ) + 2) - 1)) - rnd (legCol rnd t n * (n + 1))) / (n + 2)) := rfl
    rw [← hl] at s
    refine (abs_add_le _ _).trans ((add_le_add s c).trans ?_)
    have g := grow n
    rw [← hK1, ← hK0] at g
    have e4 : (1 + u) ^ (4 * (n + 2)) = (1 + u) ^ 4 * G := by rw [hG, ← pow_add]; congr 1; ring
    rw [e4]
    have hv : 1 ≤ (1 + u) ^ 4 := one_le_pow₀ (by linarith)
    have : ((1 + u) ^ 4 - 1) * (2 * (G * K1) + G * K0) + (2 * ((G - 1) * K1) + (G - 1) * K0) = ((1 + u) ^ 4 * G - 1) * (2 * K1 + K0) := by ring
    rw [this]
    refine mul_le_mul_of_nonneg_left g ?_
    have : 1 * 1 ≤ (1 + u) ^ 4 * G := mul_le_mul hv hG1 (by norm_num) (by linarith)
    linarith

/-- Rounding errors of `polyvander`. -/
theorem powCol_err {rnd : ℚ → ℚ} {u : ℚ} (hu : 0 ≤ u) (hr : ∀ x, |rnd x - x| ≤ u * |x|) {t : ℚ} (ht : |t| ≤ 1) : ∀ n, |powCol rnd t n - t ^ n| ≤ (1 + u) ^ n - 1
  | 0 => by simp [powCol]
  | 1 => by simp only [powCol, pow_one, sub_self, abs_zero]; linarith
  | n + 2 => by
    have h := powCol_err hu hr ht (n + 1)
    have hp : ∀ m, |t ^ m| ≤ 1 := fun m => by rw [abs_pow]; exact pow_le_one₀ (abs_nonneg t) ht
    have h' : |powCol rnd t (n + 1) * t - t ^ (n + 2)| ≤ ((1 + u) ^ (n + 1) - 1) * 1 := by
      rw [pow_succ t (n + 1), ← sub_mul, abs_mul]
      exact mul_le_mul h ht (abs_nonneg t) ((abs_nonneg _).trans h)
    simpa [powCol] using rnd_step (k := n + 1) hu hr (hp (n + 2)) h'

theorem pow_sub_le {s t : ℚ} (hs : |s| ≤ 1) (ht : |t| ≤ 1) : ∀ n : Nat, |s ^ n - t ^ n| ≤ n * |s - t|
  | 0 => by simp
  | n + 1 => by
    have h := pow_sub_le hs ht n
    have e : s ^ (n + 1) - t ^ (n + 1) = (s ^ n - t ^ n) * s + t ^ n * (s - t) := by ring
    rw [e]
    refine (abs_add_le _ _).trans ?_
    rw [abs_mul, abs_mul]
    have h1 : |s ^ n - t ^ n| * |s| ≤ n * |s - t| := (mul_le_mul h hs (abs_nonneg s) ((abs_nonneg _).trans h)).trans (by linarith)
    have h2 : |t ^ n| * |s - t| ≤ 1 * |s - t| := mul_le_mul_of_nonneg_right (by rw [abs_pow]; exact pow_le_one₀ (abs_nonneg t) ht) (abs_nonneg _)
    push_cast
    linarith

/-- `(1 + u) ^ m - 1` is at most `2 m u` while `m u` is at most 1. -/
theorem pow_one_add_le {u : ℚ} (hu : 0 ≤ u) : ∀ m : Nat, (m : ℚ) * u ≤ 1 → (1 + u) ^ m - 1 ≤ 2 * (m * u)
  | 0, _ => by simp
  | m + 1, h => by
    have hm : (m : ℚ) * u + u ≤ 1 := by push_cast at h; linarith
    have ih := pow_one_add_le hu m (by linarith)
    have m0 : 0 ≤ (m : ℚ) * u := by positivity
    -- a sharper bound: (1 + u)^m ≤ 1 + m u + (m u)^2
    have sharp : ∀ k : Nat, (k : ℚ) * u ≤ 1 → (1 + u) ^ k ≤ 1 + k * u + (k * u) ^ 2 := by
      intro k
      induction k with
      | zero => intro _; simp
      | succ k ih =>
        intro hk
        push_cast at hk
        have k0 : 0 ≤ (k : ℚ) * u := by positivity
        have hk' : (k : ℚ) * u ≤ 1 := by linarith
        have i := mul_le_mul_of_nonneg_right (ih hk') (by linarith : (0 : ℚ) ≤ 1 + u)
        rw [pow_succ]
        refine i.trans ?_
        push_cast
        set y := (k : ℚ) * u with hy
        have e : ((k : ℚ) + 1) * u = y + u := by rw [hy]; ring
        rw [e]
        have : y ^ 2 * u ≤ y * u := by
          have : y * y ≤ y * 1 := mul_le_mul_of_nonneg_left hk' k0
          have := mul_le_mul_of_nonneg_right this hu
          rw [pow_two]; linarith
        nlinarith
    have s := sharp (m + 1) h
    have z0 : 0 ≤ ((m + 1 : Nat) : ℚ) * u := by positivity
    have : (((m + 1 : Nat) : ℚ) * u) ^ 2 ≤ ((m + 1 : Nat) : ℚ) * u := by
      rw [pow_two]
      exact (mul_le_mul_of_nonneg_left h z0).trans (by linarith)
    linarith

/-- The exact position of a value in the reference domain, the computed one, and the distance between them. -/
theorem position {r0 r1 lo hi : ℚ} {k : ℤ} (hk : r1 - r0 = 2 ^ k) (h0 : double r0 = r0) (h1 : double r1 = r1) {log : Option (ℚ → ℚ)} (hlog : LogMono log) {t : Transform}
    (h : Transform.new double tiny r0 r1 log lo hi = .ok t) {a b : ℚ} (ha : linArg log lo = some a) (hb : linArg log hi = some b) (hwide : tiny ≤ double (b - a)) {x c : ℚ}
    (hlo : lo ≤ x) (hhi : x ≤ hi) (hc : linArg log x = some c) :
    t.rnd = double ∧ ∃ y, t.apply x = some y ∧ r0 ≤ y ∧ y ≤ r1 ∧ r0 ≤ (c - a) / (b - a) * (r1 - r0) + r0 ∧ (c - a) / (b - a) * (r1 - r0) + r0 ≤ r1 ∧
      |y - ((c - a) / (b - a) * (r1 - r0) + r0)| ≤ (6 * (r1 - r0) + |r0|) / 2 ^ 53 := by
  obtain ⟨y, hy, y0, y1, -⟩ := (C158_inside_partial hk h0 h1 hlog h).2 x hlo hhi
  obtain ⟨c', hc', hac⟩ := linArg_mono hlog hlo ha
  obtain ⟨b', hb', hcb⟩ := linArg_mono hlog hhi hc
  rw [hc] at hc'; injection hc' with hc'; subst hc'
  rw [hb] at hb'; injection hb' with hb'; subst hb'
  have hr : 0 ≤ r1 - r0 := by rw [hk]; positivity
  obtain ⟨a', b', -, -, hd, ht⟩ := new_ok h
  refine ⟨by rw [ht], y, hy, y0, y1, ?_, ?_, C158_error hk h ha hb hwide hc hac hcb hy⟩
  · have := mul_nonneg (div_nonneg (sub_nonneg.2 hac) (by linarith : 0 ≤ b - a)) hr
    linarith
  · have := mul_le_mul_of_nonneg_right (div_le_one_of_le₀ (by linarith : c - a ≤ b - a) (by linarith)) hr
    linarith

/-! ## C165 -/

/-- C165: a value in the domain gets a row with one number for each Legendre moment; number `n` is the Legendre polynomial of degree `n` at the exact position of the value (or of its logarithm `c` between
those of the domain, `a` and `b`) up to `21 n (5/2)^n / 2^53`; the first one is exactly 1. -/
theorem C165_legendre {lo hi : ℚ} {log : Option (ℚ → ℚ)} (hlog : LogMono log) {t : Transform} (h : Transform.new double tiny (-1) 1 log lo hi = .ok t) {a b : ℚ} (ha : linArg log lo = some a)
    (hb : linArg log hi = some b) (hwide : tiny ≤ double (b - a)) {x c : ℚ} (hlo : lo ≤ x) (hhi : x ≤ hi) (hc : linArg log x = some c) (size : Nat) (hs : 0 < size) (hs51 : size ≤ 2 ^ 51) :
    ∃ row : List ℚ, t.evalAll legCol x size = .ok (row.map some) ∧ row.length = size ∧ row.head? = some 1 ∧
      ∀ (n : Nat) (v : ℚ), row[n]? = some v → |(v : ℝ) - leg ((2 * (c - a) / (b - a) - 1 : ℚ) : ℝ) n| ≤ 21 * n * (5 / 2) ^ n / 2 ^ 53 := by
  obtain ⟨hrnd, y, hy, y0, y1, e0, e1, herr⟩ := position (k := 1) (by norm_num) (by decide +kernel) (by decide +kernel) hlog h ha hb hwide hlo hhi hc
  have hτ : (c - a) / (b - a) * (1 - -1) + -1 = 2 * (c - a) / (b - a) - 1 := by ring
  rw [hτ] at e0 e1 herr
  set τ : ℚ := 2 * (c - a) / (b - a) - 1 with hτ'
  refine ⟨(List.range size).map (legCol double y), ?_, by simp, ?_, ?_⟩
  · rw [Transform.evalAll, if_neg (by omega), hy, hrnd, List.map_map]; rfl
  · obtain ⟨m, rfl⟩ : ∃ m, size = m + 1 := ⟨size - 1, by omega⟩
    rw [List.head?_eq_getElem?]; simp [legCol]
  · intro n v hv
    have hn : n < size := by
      rcases Nat.lt_or_ge n size with h | h
      · exact h
      · rw [List.getElem?_eq_none (by simpa using h)] at hv; cases hv
    obtain rfl : legCol double y n = v := by simpa [hn] using hv
    have ya : |y| ≤ 1 := abs_le.2 ⟨y0, y1⟩
    have τa : |τ| ≤ 1 := abs_le.2 ⟨e0, e1⟩
    have r1 := legCol_err (u := 1 / 2 ^ 53) (by norm_num) float64_valid.rnd ya n
    have r2 := legQ_sub ya τa n
    have hn' : (n : ℚ) ≤ 2 ^ 51 := by exact_mod_cast hn.le.trans hs51
    have r3 := pow_one_add_le (u := 1 / 2 ^ 53) (by norm_num) (4 * n) (by
      push_cast
      linarith)
    have herr' : |y - τ| ≤ 13 / 2 ^ 53 := herr.trans (by norm_num)
    have p0 : (0 : ℚ) ≤ (5 / 2) ^ n := by positivity
    have n0 : (0 : ℚ) ≤ n := Nat.cast_nonneg n
    have q1 := mul_le_mul_of_nonneg_right r3 p0
    have q2 := mul_le_mul_of_nonneg_left herr' (mul_nonneg n0 p0)
    have r1' : |legCol double y n - legQ y n| ≤ ((1 + 1 / 2 ^ 53) ^ (4 * n) - 1) * (5 / 2) ^ n := r1
    have tot : |legCol double y n - legQ τ n| ≤ 21 * n * (5 / 2) ^ n / 2 ^ 53 := by
      have e : legCol double y n - legQ τ n = (legCol double y n - legQ y n) + (legQ y n - legQ τ n) := by ring
      rw [e]
      refine (abs_add_le _ _).trans ((add_le_add (r1'.trans q1) (r2.trans q2)).trans (le_of_eq ?_))
      push_cast
      ring
    have cast := (Rat.cast_le (K := ℝ)).2 tot
    rw [Rat.cast_abs] at cast
    push_cast at cast
    rw [legQ_cast] at cast
    exact cast

/-- C165: the same for monomials on their reference domain (0, 1), up to `8 n / 2^53`. -/
theorem C165_monomial {lo hi : ℚ} {log : Option (ℚ → ℚ)} (hlog : LogMono log) {t : Transform} (h : Transform.new double tiny 0 1 log lo hi = .ok t) {a b : ℚ} (ha : linArg log lo = some a)
    (hb : linArg log hi = some b) (hwide : tiny ≤ double (b - a)) {x c : ℚ} (hlo : lo ≤ x) (hhi : x ≤ hi) (hc : linArg log x = some c) (size : Nat) (hs : 0 < size) (hs53 : size ≤ 2 ^ 53) :
    ∃ row : List ℚ, t.evalAll powCol x size = .ok (row.map some) ∧ row.length = size ∧ row.head? = some 1 ∧
      ∀ (n : Nat) (v : ℚ), row[n]? = some v → |v - ((c - a) / (b - a)) ^ n| ≤ 8 * n / 2 ^ 53 := by
  obtain ⟨hrnd, y, hy, y0, y1, e0, e1, herr⟩ := position (k := 0) (by norm_num) (by decide +kernel) (by decide +kernel) hlog h ha hb hwide hlo hhi hc
  have hτ : (c - a) / (b - a) * (1 - 0) + 0 = (c - a) / (b - a) := by ring
  rw [hτ] at e0 e1 herr
  set τ : ℚ := (c - a) / (b - a) with hτ'
  refine ⟨(List.range size).map (powCol double y), ?_, by simp, ?_, ?_⟩
  · rw [Transform.evalAll, if_neg (by omega), hy, hrnd, List.map_map]; rfl
  · obtain ⟨m, rfl⟩ : ∃ m, size = m + 1 := ⟨size - 1, by omega⟩
    rw [List.head?_eq_getElem?]; simp [powCol]
  · intro n v hv
    have hn : n < size := by
      rcases Nat.lt_or_ge n size with h | h
      · exact h
      · rw [List.getElem?_eq_none (by simpa using h)] at hv; cases hv
    obtain rfl : powCol double y n = v := by simpa [hn] using hv
    have ya : |y| ≤ 1 := abs_le.2 ⟨by linarith, y1⟩
    have τa : |τ| ≤ 1 := abs_le.2 ⟨by linarith, e1⟩
    have r1 : |powCol double y n - y ^ n| ≤ (1 + 1 / 2 ^ 53) ^ n - 1 := powCol_err (u := 1 / 2 ^ 53) (by norm_num) float64_valid.rnd ya n
    have r2 := pow_sub_le ya τa n
    have hn' : (n : ℚ) ≤ 2 ^ 53 := by exact_mod_cast hn.le.trans hs53
    have r3 := pow_one_add_le (u := 1 / 2 ^ 53) (by norm_num) n (by linarith)
    have herr' : |y - τ| ≤ 6 / 2 ^ 53 := herr.trans (by norm_num)
    have q2 := mul_le_mul_of_nonneg_left herr' (Nat.cast_nonneg (α := ℚ) n)
    have e : powCol double y n - τ ^ n = (powCol double y n - y ^ n) + (y ^ n - τ ^ n) := by ring
    rw [e]
    refine (abs_add_le _ _).trans ((add_le_add (r1.trans r3) (r2.trans q2)).trans (le_of_eq ?_))
    ring

/-- C165: a value that `transform` makes NaN gets a row of NaN, and a size 0 is refused. -/
theorem C165_outside (t : Transform) (col : (ℚ → ℚ) → ℚ → Nat → ℚ) (x : ℚ) (size : Nat) :
    t.evalAll col x 0 = .error .valueError ∧ (t.apply x = none → t.evalAll col x (size + 1) = .ok (List.replicate (size + 1) none)) := by
  refine ⟨rfl, fun h => ?_⟩
  rw [Transform.evalAll, if_neg (by omega), h]
  congr 1
  exact List.eq_replicate_iff.2 ⟨by simp, by simp⟩

/-! ## The hypotheses are met -/

/-- Legendre polynomials up to degree 10 on the domain (1/10, 7/10), the value 1/3: errors below 10^-10. -/
example : ∃ t, Transform.new double tiny (-1) 1 none (1 / 10) (7 / 10) = .ok t ∧ ∃ row : List ℚ, t.evalAll legCol (1 / 3) 11 = .ok (row.map some) ∧ row.length = 11 ∧
    ∀ (v : ℚ), row[10]? = some v → |(v : ℝ) - leg ((2 * (1 / 3 - 1 / 10) / (7 / 10 - 1 / 10) - 1 : ℚ) : ℝ) 10| ≤ 1 / 4 * (1 / 10 ^ 9) := by
  refine ⟨_, by simp only [Transform.new, linArg]; rw [if_neg (by decide +kernel)], ?_⟩
  obtain ⟨row, h1, h2, -, h4⟩ := C165_legendre (lo := 1 / 10) (hi := 7 / 10) (log := none) (by intro f hf; cases hf) (by simp only [Transform.new, linArg]; rw [if_neg (by decide +kernel)]) rfl rfl (by decide +kernel)
    (x := 1 / 3) (by norm_num) (by norm_num) rfl 11 (by norm_num) (by norm_num)
  exact ⟨row, h1, h2, fun v hv => (h4 10 v hv).trans (by norm_num)⟩

end MLMC.Fl
