import Verif.Proofs.FloatDouble
import Verif.Proofs.MomentsLinear
import Verif.Props.Central
import Mathlib.Analysis.Real.Pi.Bounds
/-! # C158 Rounding and the domain of moment functions -/
namespace MLMC.Fl

/-! ## Helpers -/

/-- Logarithms of machine numbers are monotone. -/
def LogMono (log : Option (ℚ → ℚ)) : Prop := ∀ f, log = some f → ∀ x y, 0 < x → x ≤ y → f x ≤ f y

theorem new_ok {rnd : ℚ → ℚ} {tiny r0 r1 lo hi : ℚ} {log : Option (ℚ → ℚ)} {t : Transform} (h : Transform.new rnd tiny r0 r1 log lo hi = .ok t) :
    ∃ a b, linArg log lo = some a ∧ linArg log hi = some b ∧ 0 < rnd (b - a) ∧ t = ⟨rnd, r0, r1, rnd (rnd (r1 - r0) / max (rnd (b - a)) tiny), a, log⟩ := by
  unfold Transform.new at h
  split at h
  · rename_i a b ha hb
    dsimp only at h
    split at h
    · cases h
    · rename_i hd
      injection h with h
      exact ⟨a, b, ha, hb, not_not.1 hd, h.symm⟩
  · cases h

theorem linArg_mono {log : Option (ℚ → ℚ)} (hlog : LogMono log) {x y a : ℚ} (h : x ≤ y) (hx : linArg log x = some a) : ∃ b, linArg log y = some b ∧ a ≤ b := by
  unfold linArg at hx ⊢
  cases log with
  | none => injection hx with hx; exact ⟨y, rfl, hx ▸ h⟩
  | some f =>
    dsimp only at hx ⊢
    split at hx
    · rename_i h0
      injection hx with hx
      exact ⟨f y, if_pos (lt_of_lt_of_le h0 h), hx ▸ hlog f rfl x y h0 h⟩
    · cases hx

theorem double_bounds {x : ℚ} (hx : 0 ≤ x) : x * (1 - 1 / 2 ^ 53) ≤ double x ∧ double x ≤ x * (1 + 1 / 2 ^ 53) := by
  have h := double_err x
  rw [abs_of_nonneg hx, abs_le] at h
  constructor <;> linarith [h.1, h.2]

theorem double_nonneg {x : ℚ} (hx : 0 ≤ x) : 0 ≤ double x := by
  have := double_mono hx
  rwa [double_zero] at this

/-- The value before the reference domain is added: `0 ≤ p ≤ w` for a width that is a power of two. -/
theorem part_le {s S d : ℚ} {k : ℤ} (hs : 0 ≤ s) (hS : s ≤ S) (hd : 0 < d) (hSd : double S ≤ d) :
    0 ≤ double (double s * double (2 ^ k / d)) ∧ double (double s * double (2 ^ k / d)) ≤ 2 ^ k := by
  have hk : (0 : ℚ) < 2 ^ k := zpow_pos (by norm_num) _
  have h1 := double_nonneg hs
  have h2 := double_nonneg (div_nonneg hk.le hd.le)
  refine ⟨double_nonneg (mul_nonneg h1 h2), double_le_two ?_⟩
  have h3 := (double_bounds (div_nonneg hk.le hd.le)).2
  calc double s * double (2 ^ k / d) ≤ d * (2 ^ k / d * (1 + 1 / 2 ^ 53)) := mul_le_mul ((double_mono hS).trans hSd) h3 h2 hd.le
    _ = 2 ^ k * (1 + 1 / 2 ^ 53) := by field_simp

/-- Relative error of the value before the reference domain is added. -/
theorem part_near {s S w : ℚ} (hs : 0 ≤ s) (hS : 0 < S) (hw : 0 ≤ w) :
    w * (s / S) * (1 - 4 / 2 ^ 53) ≤ double (double s * double (w / double S)) ∧ double (double s * double (w / double S)) ≤ w * (s / S) * (1 + 5 / 2 ^ 53) := by
  have b1 := double_bounds hs
  have b2 := double_bounds hS.le
  have hD : 0 < double S := double_pos' hS
  have hq : 0 ≤ w / double S := div_nonneg hw hD.le
  have b3 := double_bounds hq
  have hp : 0 ≤ double s * double (w / double S) := mul_nonneg (double_nonneg hs) (double_nonneg hq)
  have b4 := double_bounds hp
  have u1 : (0 : ℚ) < 1 - 1 / 2 ^ 53 := by norm_num
  have hws : 0 ≤ w * (s / S) := mul_nonneg hw (div_nonneg hs hS.le)
  have q1 : w / double S ≤ w / (S * (1 - 1 / 2 ^ 53)) := div_le_div_of_nonneg_left hw (mul_pos hS u1) b2.1
  have q2 : w / (S * (1 + 1 / 2 ^ 53)) ≤ w / double S := div_le_div_of_nonneg_left hw hD b2.2
  constructor
  · have h : s * (1 - 1 / 2 ^ 53) * (w / (S * (1 + 1 / 2 ^ 53)) * (1 - 1 / 2 ^ 53)) ≤ double s * double (w / double S) := by
      refine mul_le_mul b1.1 ((mul_le_mul_of_nonneg_right q2 u1.le).trans b3.1) ?_ (double_nonneg hs)
      exact mul_nonneg (div_nonneg hw (mul_pos hS (by norm_num)).le) u1.le
    refine le_trans ?_ ((mul_le_mul_of_nonneg_right h u1.le).trans b4.1)
    have e : s * (1 - 1 / 2 ^ 53) * (w / (S * (1 + 1 / 2 ^ 53)) * (1 - 1 / 2 ^ 53)) * (1 - 1 / 2 ^ 53) = w * (s / S) * ((1 - 1 / 2 ^ 53) ^ 3 / (1 + 1 / 2 ^ 53)) := by
      field_simp
    rw [e]
    exact mul_le_mul_of_nonneg_left (by norm_num) hws
  · have h : double s * double (w / double S) ≤ s * (1 + 1 / 2 ^ 53) * (w / (S * (1 - 1 / 2 ^ 53)) * (1 + 1 / 2 ^ 53)) :=
      mul_le_mul b1.2 (b3.2.trans (mul_le_mul_of_nonneg_right q1 (by norm_num))) (double_nonneg hq) (mul_nonneg hs (by norm_num))
    refine le_trans (b4.2.trans (mul_le_mul_of_nonneg_right h (by norm_num))) ?_
    have e : s * (1 + 1 / 2 ^ 53) * (w / (S * (1 - 1 / 2 ^ 53)) * (1 + 1 / 2 ^ 53)) * (1 + 1 / 2 ^ 53) = w * (s / S) * ((1 + 1 / 2 ^ 53) ^ 3 / (1 - 1 / 2 ^ 53)) := by
      field_simp
    rw [e]
    exact mul_le_mul_of_nonneg_left (by norm_num) hws

/-! ## C158 -/

/-- C158: in double arithmetic no value of the domain is moved out of the reference domain by rounding, if the width of the reference domain is a power of two (Legendre
polynomials: (-1, 1), monomials: (0, 1)), for every domain, also for logarithms: `transform` gives a number of the reference domain, not NaN, and it keeps the order of values.
The lower bound of the domain is mapped to that of the reference domain.
Missing: other reference domains, see `C158_fourier_counterexample`. -/
theorem C158_inside_partial {r0 r1 lo hi : ℚ} {k : ℤ} (hk : r1 - r0 = 2 ^ k) (h0 : double r0 = r0) (h1 : double r1 = r1) {log : Option (ℚ → ℚ)} (hlog : LogMono log) {t : Transform}
    (h : Transform.new double tiny r0 r1 log lo hi = .ok t) :
    t.apply lo = some r0 ∧ ∀ x, lo ≤ x → x ≤ hi → ∃ y, t.apply x = some y ∧ r0 ≤ y ∧ y ≤ r1 ∧ ∀ x', x ≤ x' → x' ≤ hi → ∃ y', t.apply x' = some y' ∧ y ≤ y' := by
  obtain ⟨a, b, ha, hb, hd, rfl⟩ := new_ok h
  have hw : double (r1 - r0) = 2 ^ k := by rw [hk, double_two]
  have hdpos : 0 < max (double (b - a)) tiny := lt_max_of_lt_left hd
  have hrr : r0 ≤ r1 := by
    have : (0 : ℚ) < 2 ^ k := zpow_pos (by norm_num) _
    linarith
  have key : ∀ x, lo ≤ x → x ≤ hi → ∃ c, linArg log x = some c ∧ a ≤ c ∧ c ≤ b := by
    intro x hx hx'
    obtain ⟨c, hc, hac⟩ := linArg_mono hlog hx ha
    obtain ⟨b', hb', hcb⟩ := linArg_mono hlog hx' hc
    rw [hb] at hb'
    injection hb' with hb'
    exact ⟨c, hc, hac, hb' ▸ hcb⟩
  have val : ∀ c, a ≤ c → c ≤ b → r0 ≤ double (double (double (c - a) * double (2 ^ k / max (double (b - a)) tiny)) + r0) ∧
      double (double (double (c - a) * double (2 ^ k / max (double (b - a)) tiny)) + r0) ≤ r1 := by
    intro c hac hcb
    obtain ⟨p1, p2⟩ := part_le (k := k) (sub_nonneg.2 hac) (sub_le_sub_right hcb a) hdpos (le_max_left (double (b - a)) tiny)
    constructor
    · conv_lhs => rw [← h0]
      exact double_mono (by linarith)
    · conv_rhs => rw [← h1]
      exact double_mono (by linarith)
  refine ⟨?_, fun x hx hx' => ?_⟩
  · simp only [Transform.apply, ha, Option.bind_some, Transform.linear, Transform.clip, hw, sub_self, double_zero, zero_mul, zero_add, h0]
    rw [if_neg (by rintro (h | h) <;> linarith)]
  · obtain ⟨c, hc, hac, hcb⟩ := key x hx hx'
    obtain ⟨v1, v2⟩ := val c hac hcb
    refine ⟨_, ?_, v1, v2, fun x' hxx hxh => ?_⟩
    · simp only [Transform.apply, hc, Option.bind_some, Transform.linear, Transform.clip, hw]
      rw [if_neg (by rintro (h | h) <;> linarith)]
    · obtain ⟨c', hc', hcc⟩ := linArg_mono hlog hxx hc
      obtain ⟨c'', hc'', hac', hcb'⟩ := key x' (hx.trans hxx) hxh
      rw [hc'] at hc''
      injection hc'' with hc''
      subst hc''
      obtain ⟨v1', v2'⟩ := val c' hac' hcb'
      refine ⟨double (double (double (c' - a) * double (2 ^ k / max (double (b - a)) tiny)) + r0), ?_, ?_⟩
      · simp only [Transform.apply, hc', Option.bind_some, Transform.linear, Transform.clip, hw]
        rw [if_neg (by rintro (h | h) <;> linarith)]
      · refine double_mono (add_le_add_left (double_mono (mul_le_mul_of_nonneg_right (double_mono (by linarith)) ?_)) _)
        exact double_nonneg (div_nonneg (zpow_nonneg (by norm_num) _) hdpos.le)

/-- C158: the computed position in the reference domain is that of exact arithmetic up to `(6 w + |r0|) 2^-53` (`w` the width of the reference domain, a power of two), on domains
of width at least `1e-15`. -/
theorem C158_error {r0 r1 lo hi : ℚ} {k : ℤ} (hk : r1 - r0 = 2 ^ k) {log : Option (ℚ → ℚ)} {t : Transform}
    (h : Transform.new double tiny r0 r1 log lo hi = .ok t) {a b : ℚ} (ha : linArg log lo = some a) (hb : linArg log hi = some b) (hwide : tiny ≤ double (b - a)) {x c y : ℚ}
    (hc : linArg log x = some c) (hac : a ≤ c) (hcb : c ≤ b) (hy : t.apply x = some y) :
    |y - ((c - a) / (b - a) * (r1 - r0) + r0)| ≤ (6 * (r1 - r0) + |r0|) / 2 ^ 53 := by
  obtain ⟨a', b', ha', hb', hd, rfl⟩ := new_ok h
  rw [ha] at ha'
  rw [hb] at hb'
  injection ha' with ha'
  injection hb' with hb'
  subst ha' hb'
  have hS : 0 < b - a := by
    by_contra hn
    have := double_mono (not_lt.1 hn)
    rw [double_zero] at this
    linarith
  have hw : double (r1 - r0) = 2 ^ k := by rw [hk, double_two]
  have hkp : (0 : ℚ) < 2 ^ k := zpow_pos (by norm_num) _
  simp only [Transform.apply, hc, Option.bind_some, Transform.linear, Transform.clip, hw, max_eq_left hwide] at hy
  split at hy
  · cases hy
  injection hy with hy
  obtain ⟨p1, p2⟩ := part_le (k := k) (sub_nonneg.2 hac) (sub_le_sub_right hcb a) hd le_rfl
  have pn := part_near (sub_nonneg.2 hac) hS hkp.le
  rw [hk]
  generalize double (double (c - a) * double (2 ^ k / double (b - a))) = p at *
  have hθ0 : 0 ≤ (c - a) / (b - a) := div_nonneg (sub_nonneg.2 hac) hS.le
  have hθ : (c - a) / (b - a) ≤ 1 := (div_le_one hS).2 (by linarith)
  have hm : 0 ≤ 2 ^ k * ((c - a) / (b - a)) := mul_nonneg hkp.le hθ0
  have hm1 : 2 ^ k * ((c - a) / (b - a)) ≤ 2 ^ k := mul_le_of_le_one_right hkp.le hθ
  rw [mul_comm ((c - a) / (b - a))]
  have e1 : |p - 2 ^ k * ((c - a) / (b - a))| ≤ 5 / 2 ^ 53 * 2 ^ k := by
    rw [abs_le]
    constructor <;> linarith [pn.1, pn.2]
  have e2 := double_err (p + r0)
  have e3 : |p + r0| ≤ 2 ^ k + |r0| := (abs_add_le _ _).trans (by rw [abs_of_nonneg p1]; linarith)
  rw [hy] at e2
  have e4 : |y - (2 ^ k * ((c - a) / (b - a)) + r0)| ≤ |y - (p + r0)| + |p - 2 ^ k * ((c - a) / (b - a))| := by
    refine (le_of_eq ?_).trans (abs_add_le _ _)
    congr 1
    ring
  refine e4.trans ?_
  have e5 : 1 / 2 ^ 53 * |p + r0| ≤ 1 / 2 ^ 53 * (2 ^ k + |r0|) := mul_le_mul_of_nonneg_left e3 (by norm_num)
  linarith

/-- C158: values outside of the domain by more than `8 * 2^-53` of its width are NaN after `transform`, for reference domains between `-w` and `w`, `w` their width, a power of two. -/
theorem C158_outside {r0 r1 lo hi : ℚ} {k : ℤ} (hk : r1 - r0 = 2 ^ k) (hr0 : |r0| ≤ 2 ^ k) (hr1 : |r1| ≤ 2 ^ k) {log : Option (ℚ → ℚ)} {t : Transform}
    (h : Transform.new double tiny r0 r1 log lo hi = .ok t) {a b : ℚ} (ha : linArg log lo = some a) (hb : linArg log hi = some b) (hwide : tiny ≤ double (b - a)) {x c : ℚ}
    (hc : linArg log x = some c) (hout : c < a - 8 / 2 ^ 53 * (b - a) ∨ b + 8 / 2 ^ 53 * (b - a) < c) : t.apply x = none := by
  obtain ⟨a', b', ha', hb', hd, rfl⟩ := new_ok h
  rw [ha] at ha'
  rw [hb] at hb'
  injection ha' with ha'
  injection hb' with hb'
  subst ha' hb'
  have hS : 0 < b - a := by
    by_contra hn
    have := double_mono (not_lt.1 hn)
    rw [double_zero] at this
    linarith
  have hw : double (r1 - r0) = 2 ^ k := by rw [hk, double_two]
  have hkp : (0 : ℚ) < 2 ^ k := zpow_pos (by norm_num) _
  simp only [Transform.apply, hc, Option.bind_some, Transform.linear, Transform.clip, hw, max_eq_left hwide]
  rw [if_pos]
  rcases hout with ho | ho
  · left
    have hs : 0 ≤ a - c := by nlinarith
    have pn := (part_near hs hS hkp.le).1
    have e : double (double (c - a) * double (2 ^ k / double (b - a))) = -double (double (a - c) * double (2 ^ k / double (b - a))) := by
      rw [show c - a = -(a - c) by ring, double_neg, neg_mul, double_neg]
    rw [e]
    generalize double (double (a - c) * double (2 ^ k / double (b - a))) = p at *
    have hθ : 8 / 2 ^ 53 ≤ (a - c) / (b - a) := (le_div_iff₀ hS).2 (by linarith)
    have hp : 2 ^ k * (7 / 2 ^ 53) ≤ p := by
      refine le_trans ?_ pn
      rw [mul_assoc]
      refine mul_le_mul_of_nonneg_left ?_ hkp.le
      refine le_trans ?_ (mul_le_mul_of_nonneg_right hθ (by norm_num))
      norm_num
    have hp0 : 0 ≤ p := le_trans (by positivity) hp
    have e2 := double_err (-p + r0)
    have e3 : |-p + r0| ≤ p + |r0| := (abs_add_le _ _).trans (by rw [abs_neg, abs_of_nonneg hp0])
    have e4 : 1 / 2 ^ 53 * |-p + r0| ≤ 1 / 2 ^ 53 * (p + 2 ^ k) := mul_le_mul_of_nonneg_left (by linarith) (by norm_num)
    have e5 := (abs_le.1 e2).2
    linarith
  · right
    have hs : 0 ≤ c - a := by nlinarith
    have pn := (part_near hs hS hkp.le).1
    generalize double (double (c - a) * double (2 ^ k / double (b - a))) = p at *
    have hθ : 1 + 8 / 2 ^ 53 ≤ (c - a) / (b - a) := (le_div_iff₀ hS).2 (by linarith)
    have hp : 2 ^ k * (1 + 3 / 2 ^ 53) ≤ p := by
      refine le_trans ?_ pn
      rw [mul_assoc]
      refine mul_le_mul_of_nonneg_left ?_ hkp.le
      refine le_trans ?_ (mul_le_mul_of_nonneg_right hθ (by norm_num))
      norm_num
    have e2 := double_err (p + r0)
    have er : p + r0 = (p - 2 ^ k) + r1 := by linarith
    have e3 : |p + r0| ≤ (p - 2 ^ k) + |r1| := by
      rw [er]
      refine (abs_add_le _ _).trans ?_
      rw [abs_of_nonneg (by linarith)]
    have e4 : 1 / 2 ^ 53 * |p + r0| ≤ 1 / 2 ^ 53 * (p - 2 ^ k + 2 ^ k) := mul_le_mul_of_nonneg_left (by linarith) (by norm_num)
    have e5 := (abs_le.1 e2).1
    linarith

/-- C158: for a reference domain from 0 of any width (Fourier functions: (0, 2π)) values farther than `8 * 2^-53` of the width from the upper bound of the domain are kept. -/
theorem C158_interior {r1 lo hi : ℚ} (hr : 0 < r1) (h1 : double r1 = r1) {log : Option (ℚ → ℚ)} {t : Transform} (h : Transform.new double tiny 0 r1 log lo hi = .ok t) {a b : ℚ}
    (ha : linArg log lo = some a) (hb : linArg log hi = some b) (hwide : tiny ≤ double (b - a)) {x c : ℚ} (hc : linArg log x = some c) (hac : a ≤ c)
    (hin : c ≤ b - 8 / 2 ^ 53 * (b - a)) : ∃ y, t.apply x = some y ∧ 0 ≤ y ∧ y ≤ r1 := by
  obtain ⟨a', b', ha', hb', hd, rfl⟩ := new_ok h
  rw [ha] at ha'
  rw [hb] at hb'
  injection ha' with ha'
  injection hb' with hb'
  subst ha' hb'
  have hS : 0 < b - a := by
    by_contra hn
    have := double_mono (not_lt.1 hn)
    rw [double_zero] at this
    linarith
  have hs : 0 ≤ c - a := sub_nonneg.2 hac
  have pn := part_near hs hS hr.le
  have hθ0 : 0 ≤ (c - a) / (b - a) := div_nonneg hs hS.le
  have hθ : (c - a) / (b - a) ≤ 1 - 8 / 2 ^ 53 := (div_le_iff₀ hS).2 (by linarith)
  simp only [Transform.apply, hc, Option.bind_some, Transform.linear, Transform.clip, sub_zero, h1, max_eq_left hwide, add_zero]
  generalize double (double (c - a) * double (r1 / double (b - a))) = p at *
  have p0 : 0 ≤ p := le_trans (mul_nonneg (mul_nonneg hr.le hθ0) (by norm_num)) pn.1
  have p1 : p ≤ r1 := by
    refine pn.2.trans ?_
    calc r1 * ((c - a) / (b - a)) * (1 + 5 / 2 ^ 53) ≤ r1 * (1 - 8 / 2 ^ 53) * (1 + 5 / 2 ^ 53) :=
          mul_le_mul_of_nonneg_right (mul_le_mul_of_nonneg_left hθ hr.le) (by norm_num)
      _ = r1 * ((1 - 8 / 2 ^ 53) * (1 + 5 / 2 ^ 53)) := by ring
      _ ≤ r1 * 1 := mul_le_mul_of_nonneg_left (by norm_num) hr.le
      _ = r1 := mul_one r1
  have q0 := double_nonneg p0
  have q1 : double p ≤ r1 := by conv_rhs => rw [← h1]
                                exact double_mono p1
  exact ⟨_, by rw [if_neg (by rintro (h | h) <;> linarith)], q0, q1⟩

/-- C158, constants: `1e-15` and `2 * np.pi` are doubles within half a unit in the last place of 1e-15 and 2π. -/
theorem C158_constants : double tiny = tiny ∧ |tiny - 1 / 10 ^ 15| ≤ 1 / 2 ^ 53 * (1 / 10 ^ 15) ∧ double twoPi = twoPi ∧ |(twoPi : ℝ) - 2 * Real.pi| ≤ 1 / 2 ^ 51 := by
  refine ⟨by decide +kernel, by decide +kernel, by decide +kernel, ?_⟩
  have h1 := Real.pi_gt_d20
  have h2 := Real.pi_lt_d20
  rw [abs_le]
  constructor <;> norm_num [twoPi] <;> norm_num at h1 h2 <;> linarith

/-- C158: Fourier functions (reference domain from 0 to the double nearest to 2π) on the domain (0, 25) drop the sample 25 at the bound of their domain: its rounded position is above
the upper bound of the reference domain. -/
theorem C158_fourier_counterexample : ∃ t, Transform.new double tiny 0 twoPi none 0 25 = .ok t ∧ t.apply 25 = none ∧ twoPi < t.linear 25 ∧ t.apply 24 ≠ none := by
  refine ⟨⟨double, 0, twoPi, double (double (twoPi - 0) / max (double (25 - 0)) tiny), 0, none⟩, ?_, ?_, ?_, ?_⟩
  · simp only [Transform.new, linArg]
    rw [if_neg (by decide +kernel)]
  all_goals decide +kernel

/-- C158: if moment functions are NaN only where `transform` is, and all values of a quantity are in the domain, no sample is dropped from the estimate of its moments: rounding
costs no sample (reference domains as in `C158_inside_partial`). -/
theorem C158_no_sample_dropped_partial {r0 r1 lo hi : ℚ} {k : ℤ} (hk : r1 - r0 = 2 ^ k) (h0 : double r0 = r0) (h1 : double r1 = r1) {log : Option (ℚ → ℚ)} (hlog : LogMono log) {t : Transform}
    (h : Transform.new double tiny r0 r1 log lo hi = .ok t) (fn : MomentFn (Option ℚ)) (hR : 0 < fn.size) (f : Nat → ℚ → ℚ) (hf : ∀ i < fn.size, ∀ v, fn.ev i v = (v.bind t.apply).map (f i))
    (sid W nLevels : Nat) (q r : Quantity (Option ℚ)) (hq : Built sid .qty q) (hid : IdsIdentify q) (bottom : Bool) (o : Nat) (hr : q.moments o fn bottom = .ok r)
    (chunks : List (Nat × List (Sample (Option ℚ)))) (hwf : ChunksWF W chunks) (hl : ∀ c ∈ chunks, c.1 < nLevels) (e : QuantityMean ℚ)
    (he : estimateMean r nLevels (asChunks sid W chunks) = .ok e)
    (hin : ∀ l < nLevels, ∀ s ∈ levelValues q sid W (levelData chunks l), ∀ part ∈ s, ∀ v ∈ part, ∃ x, v = some x ∧ lo ≤ x ∧ x ≤ hi) :
    e.nRm = List.replicate nLevels 0 ∧ e.nSamples = (List.range nLevels).map fun l => (levelValues q sid W (levelData chunks l)).length := by
  obtain ⟨M, g, hres⟩ := mom_res hq hid hr hwf he
  obtain ⟨hbr, hidr, _, rfl, hgr, hkr⟩ := mom_good hq hid hres hR hr hwf he
  have E := C46_textbook_estimators sid W nLevels r hbr hidr chunks hwf hl e he
  have lv : ∀ l, levelValues q sid W (levelData chunks l) = ((levelData chunks l).filter (keep sid W q)).map (·.map g) := fun l => levelValues_good hres (levelData_wf hwf l)
  have lr : ∀ l, levelValues r sid W (levelData chunks l) = ((levelData chunks l).filter (keep sid W q)).map (·.map fun v => momVec fn bottom (g v)) := fun l => by
    rw [levelValues_good hgr (levelData_wf hwf l)]
    congr 1
    exact List.filter_congr fun x _ => hkr x
  have hno : ∀ l < nLevels, ∀ s ∈ levelValues r sid W (levelData chunks l), hasNan s = false := by
    intro l hl' s hs
    rw [lr] at hs
    obtain ⟨x, hx, rfl⟩ := List.mem_map.1 hs
    by_contra hn
    rw [Bool.not_eq_false, hasNan_iff] at hn
    obtain ⟨u, hu, hn⟩ := hn
    rw [mem_momVec] at hn
    obtain ⟨v, hv, i, hi, hn⟩ := hn
    obtain ⟨y, rfl, hy1, hy2⟩ := hin l hl' (x.map g) (by rw [lv]; exact List.mem_map.2 ⟨x, hx, rfl⟩) (g u) (List.mem_map.2 ⟨u, hu, rfl⟩) v hv
    obtain ⟨z, hz, _⟩ := (C158_inside_partial hk h0 h1 hlog h).2 y hy1 hy2
    rw [hf i hi, Option.bind_some, hz] at hn
    cases hn
  constructor
  · rw [E.dropped]
    refine List.eq_replicate_iff.2 ⟨by simp, fun n hn => ?_⟩
    obtain ⟨l, hl', rfl⟩ := List.mem_map.1 hn
    rw [List.length_eq_zero_iff, List.filter_eq_nil_iff]
    intro s hs
    rw [hno l (List.mem_range.1 hl') s hs]
    simp
  · rw [E.used]
    refine List.map_congr_left fun l hl' => ?_
    unfold usedValues
    rw [List.filter_eq_self.2 fun s hs => by rw [hno l (List.mem_range.1 hl') s hs]; rfl, lr, lv, List.length_map, List.length_map]

namespace ExFloatMoments

/-- Legendre polynomials and monomials on the domain (1/10, 7/10), whose bounds are not doubles and whose width is rounded. -/
example : ∃ t, Transform.new double tiny (-1) 1 none (1 / 10) (7 / 10) = .ok t ∧ ∀ x, 1 / 10 ≤ x → x ≤ 7 / 10 → ∃ y, t.apply x = some y ∧ -1 ≤ y ∧ y ≤ 1 := by
  refine ⟨_, by simp only [Transform.new, linArg]; rw [if_neg (by decide +kernel)], fun x h1 h2 => ?_⟩
  obtain ⟨y, hy, a, b, _⟩ := (C158_inside_partial (r0 := -1) (r1 := 1) (k := 1) (lo := 1 / 10) (hi := 7 / 10) (by norm_num) (by decide +kernel) (by decide +kernel) (log := none)
    (by intro f hf; cases hf) (by simp only [Transform.new, linArg]; rw [if_neg (by decide +kernel)])).2 x h1 h2
  exact ⟨y, hy, a, b⟩

example : (1 : ℚ) - 0 = 2 ^ (0 : ℤ) ∧ double 0 = 0 ∧ double 1 = 1 := by
  refine ⟨by norm_num, ?_, ?_⟩ <;> decide +kernel

/-- At the upper bound the position may be smaller than the bound of the reference domain. -/
example : ((Transform.new double tiny (-1) 1 none 0 49).toOption.bind fun t => t.apply 49) = some (1 - 1 / 2 ^ 52) := by decide +kernel

/-- Logarithms. -/
example : LogMono (some fun x => x / 2) := by
  intro f hf x y _ h
  cases hf
  linarith

end ExFloatMoments

end MLMC.Fl
