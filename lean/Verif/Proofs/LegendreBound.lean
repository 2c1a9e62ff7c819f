import Verif.Model.Moments
import Mathlib.RingTheory.PowerSeries.Derivative
import Mathlib.Analysis.Complex.Norm
import Mathlib.Tactic.LinearCombination
import Mathlib.Tactic.FieldSimp
import Mathlib.Tactic.Ring
/-! Helper lemmas: Legendre polynomials are bounded by one on `[-1, 1]`.  With `x = cos θ`, `P_n(x) = Σ c_k c_{n-k} exp(i (n - 2 k) θ)` with positive
coefficients `c`, whose sum is `P_n(1) = 1`. -/
namespace MLMC.Mom
open PowerSeries Finset

/-- Coefficients of `(1 - t)^(-1/2)`. -/
noncomputable def cf : Nat → ℝ
  | 0 => 1
  | k + 1 => cf k * (k + 1 / 2) / (k + 1)

theorem cf_nonneg : ∀ k, 0 ≤ cf k
  | 0 => by norm_num [cf]
  | k + 1 => by have := cf_nonneg k; rw [cf]; positivity

theorem cf_succ (k : Nat) : ((k : ℝ) + 1) * cf (k + 1) = (k + 1 / 2) * cf k := by
  rw [cf]; field_simp

/-- `(1 - z t)^(-1/2)`. -/
noncomputable def ser (z : ℂ) : PowerSeries ℂ := PowerSeries.mk fun k => (cf k : ℂ) * z ^ k

theorem ser_ode (z : ℂ) : (1 - C z * X) * d⁄dX ℂ (ser z) = C (z / 2) * ser z := by
  ext n
  have hc : ((n : ℂ) + 1) * (cf (n + 1) : ℂ) = (n + 1 / 2) * (cf n : ℂ) := by
    have := cf_succ n
    have h := congrArg Complex.ofReal this
    push_cast at h
    exact h
  rw [sub_mul, one_mul, map_sub, mul_assoc, coeff_C_mul, coeff_C_mul, coeff_derivative, ser, coeff_mk]
  cases n with
  | zero =>
    simp only [coeff_zero_X_mul, coeff_mk]
    simp only [Nat.cast_zero] at hc ⊢
    linear_combination z * hc
  | succ n =>
    rw [coeff_succ_X_mul, coeff_derivative, coeff_mk]
    push_cast at hc ⊢
    linear_combination z ^ (n + 2) * hc

theorem prod_ode (z w x : ℂ) (h1 : z * w = 1) (h2 : z + w = 2 * x) :
    (1 - C (2 * x) * X + X * X) * d⁄dX ℂ (ser z * ser w) = (C x - X) * (ser z * ser w) := by
  have hz := ser_ode z
  have hw := ser_ode w
  rw [Derivation.leibniz, smul_eq_mul, smul_eq_mul]
  have e1 : (C z : PowerSeries ℂ) * C w = 1 := by rw [← map_mul, h1, map_one]
  have e2 : (C z : PowerSeries ℂ) + C w = C (2 * x) := by rw [← map_add, h2]
  have e3 : (C z : PowerSeries ℂ) = 2 * C (z / 2) := by
    rw [show (2 : PowerSeries ℂ) = C 2 from (map_ofNat _ 2).symm, ← map_mul]; congr 1; ring
  have e4 : (C w : PowerSeries ℂ) = 2 * C (w / 2) := by
    rw [show (2 : PowerSeries ℂ) = C 2 from (map_ofNat _ 2).symm, ← map_mul]; congr 1; ring
  have e5 : (C (z / 2) : PowerSeries ℂ) + C (w / 2) = C x := by rw [← map_add]; congr 1; linear_combination h2 / 2
  have e6 : (1 - C (2 * x) * X + X * X : PowerSeries ℂ) = (1 - C z * X) * (1 - C w * X) := by
    rw [← e2]; linear_combination (-(X * X : PowerSeries ℂ)) * e1
  have e7 : (C w : PowerSeries ℂ) * C (z / 2) + C z * C (w / 2) = 1 := by
    rw [← map_mul, ← map_mul, ← map_add]
    rw [show w * (z / 2) + z * (w / 2) = 1 by linear_combination h1, map_one]
  rw [e6]
  linear_combination (1 - C w * X) * ser w * hz + (1 - C z * X) * ser z * hw + ser z * ser w * e5 - X * ser z * ser w * e7

theorem leg_eq_coeff (x : ℝ) (z w : ℂ) (h1 : z * w = 1) (h2 : z + w = 2 * x) :
    ∀ n, (leg x n : ℂ) = coeff n (ser z * ser w)
  | 0 => by simp [leg, ser, cf]
  | 1 => by
    have h := congrArg (coeff 0) (prod_ode z w x h1 h2)
    simp only [sub_mul, add_mul, map_sub, map_add, one_mul, mul_assoc, coeff_zero_X_mul, coeff_C_mul, coeff_derivative] at h
    have h0 : coeff 0 (ser z * ser w) = 1 := by simp [ser, cf]
    rw [h0] at h
    simp only [leg]
    simp at h
    rw [h]
  | n + 2 => by
    have i1 := leg_eq_coeff x z w h1 h2 (n + 1)
    have i0 := leg_eq_coeff x z w h1 h2 n
    have h := congrArg (coeff (n + 1)) (prod_ode z w x h1 h2)
    simp only [sub_mul, add_mul, map_sub, map_add, one_mul, mul_assoc, coeff_C_mul, coeff_succ_X_mul, coeff_derivative] at h
    have h3 : coeff n (X * d⁄dX ℂ (ser z * ser w)) = (n : ℂ) * coeff n (ser z * ser w) := by
      cases n with
      | zero => simp
      | succ n => rw [coeff_succ_X_mul, coeff_derivative]; push_cast; ring
    rw [h3] at h
    have hn : ((n : ℂ) + 2) ≠ 0 := by exact_mod_cast Nat.succ_ne_zero (n + 1)
    have : (leg x (n + 2) : ℂ) = ((leg x (n + 1) : ℂ) * x * (2 * (n + 2) - 1) - (leg x n : ℂ) * (n + 1)) / (n + 2) := by
      rw [leg]; push_cast; rfl
    rw [this, div_eq_iff hn, i1, i0]
    push_cast at h
    linear_combination -h

theorem leg_one : ∀ n, leg 1 n = 1
  | 0 => rfl
  | 1 => rfl
  | n + 2 => by
    rw [leg, leg_one (n + 1), leg_one n]
    have : ((n : ℝ) + 2) ≠ 0 := by positivity
    field_simp
    ring

theorem cf_sum (n : Nat) : ∑ p ∈ antidiagonal n, cf p.1 * cf p.2 = 1 := by
  have h := leg_eq_coeff 1 1 1 (by norm_num) (by norm_num) n
  rw [leg_one, coeff_mul] at h
  simp only [ser, coeff_mk, one_pow, mul_one] at h
  exact_mod_cast h.symm

/-- Legendre polynomials are bounded by one on `[-1, 1]`. -/
theorem abs_leg_le_one (x : ℝ) (hx : |x| ≤ 1) (n : Nat) : |leg x n| ≤ 1 := by
  have hs : 0 ≤ 1 - x ^ 2 := by nlinarith [abs_nonneg x, sq_abs x]
  set z : ℂ := ⟨x, Real.sqrt (1 - x ^ 2)⟩ with hz
  set w : ℂ := ⟨x, -Real.sqrt (1 - x ^ 2)⟩ with hw
  have hsq := Real.mul_self_sqrt hs
  have h1 : z * w = 1 := by
    apply Complex.ext
    · simp [hz, hw]; nlinarith
    · simp [hz, hw]; ring
  have h2 : z + w = 2 * x := by
    apply Complex.ext
    · simp [hz, hw]; ring
    · simp [hz, hw]
  have nz : ‖z‖ = 1 := by
    rw [Complex.norm_def, Complex.normSq_mk, hsq, show x * x + (1 - x ^ 2) = 1 by ring, Real.sqrt_one]
  have nw : ‖w‖ = 1 := by
    rw [Complex.norm_def, Complex.normSq_mk, neg_mul_neg, hsq, show x * x + (1 - x ^ 2) = 1 by ring, Real.sqrt_one]
  have h := leg_eq_coeff x z w h1 h2 n
  have e : |leg x n| = ‖(leg x n : ℂ)‖ := by rw [Complex.norm_real]; rfl
  rw [e, h, coeff_mul, ← cf_sum n]
  refine (norm_sum_le _ _).trans (Finset.sum_le_sum fun p _ => ?_)
  simp only [ser, coeff_mk, norm_mul, norm_pow, nz, nw, one_pow, mul_one, Complex.norm_real, Real.norm_eq_abs, abs_of_nonneg (cf_nonneg _)]
  exact le_rfl

end MLMC.Mom
