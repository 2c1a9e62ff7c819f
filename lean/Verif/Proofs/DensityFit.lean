import Verif.Model.DensityFit
import Mathlib.Analysis.SpecialFunctions.ExpDeriv
import Mathlib.Analysis.Calculus.Deriv.Pow
import Mathlib.Analysis.Calculus.Deriv.Abs
import Mathlib.Topology.Order.LeftRightLim
import Mathlib.Tactic.Ring
import Mathlib.Tactic.Linarith
import Mathlib.Tactic.FieldSimp
import Mathlib.Tactic.NormNum
/-
Helper lemmas about the functional of the density approximation.
-/
namespace MLMC.Fit
variable {n Q : Nat}

/-- The point reached from `m` in the direction `v` after the step `t`. -/
def line (m v : Fin (n + 1) → ℝ) (t : ℝ) : Fin (n + 1) → ℝ := fun i => m i + t * v i

@[simp] theorem line_zero (m v : Fin (n + 1) → ℝ) : line m v 0 = m := by funext i; simp [line]

theorem hasDerivAt_line (m v : Fin (n + 1) → ℝ) (t : ℝ) (i : Fin (n + 1)) : HasDerivAt (fun t => line m v t i) (v i) t := by
  simpa [line] using ((hasDerivAt_id t).mul_const (v i)).const_add (m i)

theorem hasDerivAt_dot (a m v : Fin (n + 1) → ℝ) (t : ℝ) : HasDerivAt (fun t => ∑ i, a i * line m v t i) (∑ i, a i * v i) t :=
  HasDerivAt.fun_sum fun i _ => (hasDerivAt_line m v t i).const_mul (a i)

theorem power_eq (d : Data n Q) (m : Fin (n + 1) → ℝ) (q : Fin Q) : power d m q = ∑ i, (-(d.mom q i / d.errs i)) * m i := by
  unfold power
  rw [← Finset.sum_neg_distrib]
  exact Finset.sum_congr rfl fun i _ => by ring

theorem lin_eq (d : Data n Q) (m : Fin (n + 1) → ℝ) : lin d m = ∑ i, (d.means i / d.errs i) * m i :=
  Finset.sum_congr rfl fun i _ => by ring

theorem hasDerivAt_power (d : Data n Q) (m v : Fin (n + 1) → ℝ) (q : Fin Q) (t : ℝ) : HasDerivAt (fun t => power d (line m v t) q) (∑ i, (-(d.mom q i / d.errs i)) * v i) t := by
  simp only [power_eq]
  exact hasDerivAt_dot _ m v t

theorem clip_eq {p : ℝ} (h : |p| ≤ 200) : min (max p (-200)) 200 = p := by
  rw [abs_le] at h
  rw [max_eq_left h.1, min_eq_left h.2]

theorem dens_eq {d : Data n Q} {m : Fin (n + 1) → ℝ} {q : Fin Q} (h : |power d m q| ≤ 200) : dens d m q = Real.exp (power d m q) := by
  unfold dens; rw [clip_eq h]

theorem hasDerivAt_dens {d : Data n Q} {m : Fin (n + 1) → ℝ} {q : Fin Q} (h : |power d m q| < 200) (v : Fin (n + 1) → ℝ) :
    HasDerivAt (fun t => dens d (line m v t) q) (dens d m q * ∑ i, (-(d.mom q i / d.errs i)) * v i) 0 := by
  have hp := hasDerivAt_power d m v q 0
  have he := hp.exp
  simp only [line_zero] at he
  rw [dens_eq h.le]
  refine he.congr_of_eventuallyEq ?_
  have hc : ContinuousAt (fun t => |power d (line m v t) q|) 0 := hp.continuousAt.abs
  have : ∀ᶠ t in nhds (0 : ℝ), |power d (line m v t) q| < 200 := by
    apply hc.eventually_lt continuousAt_const
    simpa using h
  filter_upwards [this] with t ht using dens_eq ht.le

theorem hasDerivAt_lin (d : Data n Q) (m v : Fin (n + 1) → ℝ) (t : ℝ) : HasDerivAt (fun t => lin d (line m v t)) (∑ i, (d.means i / d.errs i) * v i) t := by
  simp only [lin_eq]
  exact hasDerivAt_dot _ m v t

theorem hasDerivAt_endDiff (d : Data n Q) (m v : Fin (n + 1) → ℝ) (s : Fin 2) (t : ℝ) : HasDerivAt (fun t => endDiff d (line m v t) s) (∑ i, d.ends s i * v i) t :=
  hasDerivAt_dot _ m v t

theorem hasDerivAt_base {d : Data n Q} {m : Fin (n + 1) → ℝ} (h : ∀ q, |power d m q| < 200) (v : Fin (n + 1) → ℝ) :
    HasDerivAt (fun t => base d (line m v t)) (∑ i, (d.means i / d.errs i - integral d (dens d m) i) * v i) 0 := by
  have h1 := (hasDerivAt_lin d m v 0).add (HasDerivAt.fun_sum (u := Finset.univ) fun q _ => (hasDerivAt_dens (h q) v).mul_const (d.weights q))
  refine h1.congr_deriv ?_
  simp only [integral, sub_mul, Finset.sum_sub_distrib]
  rw [sub_eq_add_neg]
  congr 1
  simp only [Finset.mul_sum, Finset.sum_mul, Finset.sum_div]
  rw [Finset.sum_comm, ← Finset.sum_neg_distrib]
  refine Finset.sum_congr rfl fun i _ => ?_
  rw [← Finset.sum_neg_distrib]
  exact Finset.sum_congr rfl fun q _ => by ring

/-- The square of the positive part is differentiable everywhere. -/
theorem hasDerivAt_posSq (x : ℝ) : HasDerivAt (fun x : ℝ => max x 0 ^ 2) (2 * max x 0) x := by
  rcases lt_trichotomy x 0 with h | h | h
  · rw [max_eq_right h.le, mul_zero]
    refine (hasDerivAt_const x (0 : ℝ)).congr_of_eventuallyEq ?_
    filter_upwards [eventually_lt_nhds h] with y hy
    simp [max_eq_right hy.le]
  · subst h
    rw [max_self, mul_zero]
    rw [hasDerivAt_iff_isLittleO]
    simp only [sub_zero, smul_zero, max_self, ne_eq, OfNat.ofNat_ne_zero, not_false_eq_true, zero_pow]
    have h1 : (fun x : ℝ => max x 0 ^ 2) =O[nhds 0] (fun x : ℝ => x ^ 2) := by
      refine Asymptotics.isBigO_of_le _ fun x => ?_
      simp only [norm_pow, Real.norm_eq_abs]
      refine pow_le_pow_left₀ (abs_nonneg _) ?_ 2
      rw [abs_of_nonneg (le_max_right x 0)]
      exact max_le (le_abs_self x) (abs_nonneg x)
    refine h1.trans_isLittleO ?_
    simpa using Asymptotics.isLittleO_pow_pow (𝕜 := ℝ) (m := 1) (n := 2) (by norm_num)
  · rw [max_eq_left h.le]
    have := hasDerivAt_pow 2 x
    refine (this.congr_deriv (by ring)).congr_of_eventuallyEq ?_
    filter_upwards [eventually_gt_nhds h] with y hy
    simp [max_eq_left hy.le]

theorem hasDerivAt_penalty (d : Data n Q) (m v : Fin (n + 1) → ℝ) : HasDerivAt (fun t => penalty d (line m v t)) (∑ i, (2 * ∑ s, max (endDiff d m s) 0 * d.ends s i) * v i) 0 := by
  have h := HasDerivAt.fun_sum (u := Finset.univ) fun (s : Fin 2) _ => by
    have h1 := hasDerivAt_endDiff d m v s 0
    have h2 := hasDerivAt_posSq (endDiff d (line m v 0) s)
    exact h2.comp (0 : ℝ) h1
  refine h.congr_deriv ?_
  simp only [line_zero, Finset.mul_sum, Finset.sum_mul]
  rw [Finset.sum_comm]
  exact Finset.sum_congr rfl fun i _ => Finset.sum_congr rfl fun s _ => by ring

/-- A continuous factor times a function that vanishes with its derivative. -/
theorem hasDerivAt_mul_zero {f g : ℝ → ℝ} {x : ℝ} (hf : ContinuousAt f x) (hg : HasDerivAt g 0 x) (h0 : g x = 0) : HasDerivAt (fun t => f t * g t) 0 x := by
  rw [hasDerivAt_iff_isLittleO] at hg ⊢
  simp only [h0, sub_zero, smul_zero, mul_zero] at hg ⊢
  have := (hf.isBigO_one ℝ).mul_isLittleO hg
  simpa using this

theorem penalty_zero_iff (d : Data n Q) (m : Fin (n + 1) → ℝ) : penalty d m = 0 ↔ ∀ s, max (endDiff d m s) 0 = 0 := by
  unfold penalty
  rw [Finset.sum_eq_zero_iff_of_nonneg fun s _ => sq_nonneg _]
  simp

theorem hasDerivAt_stab (d : Data n Q) (m v : Fin (n + 1) → ℝ) :
    HasDerivAt (fun t => 1 / 2 * d.stab * ∑ i : Fin (n + 1), if i.val < d.lastSize then (d.last i - line m v t i) ^ 2 else 0)
      (∑ i : Fin (n + 1), (if i.val < d.lastSize then d.stab * (m i - d.last i) else 0) * v i) 0 := by
  have h := (HasDerivAt.fun_sum (u := Finset.univ) (A := fun (i : Fin (n + 1)) (t : ℝ) => if i.val < d.lastSize then (d.last i - line m v t i) ^ 2 else 0)
    (A' := fun i => if i.val < d.lastSize then 2 * (m i - d.last i) * v i else 0) (x := 0) fun i _ => by
      by_cases hi : i.val < d.lastSize
      · simp only [hi, if_true]
        have h1 := ((hasDerivAt_line m v 0 i).const_sub (d.last i)).fun_pow 2
        refine h1.congr_deriv ?_
        simp; ring
      · simp only [hi, if_false]
        exact hasDerivAt_const _ _).const_mul (1 / 2 * d.stab)
  refine h.congr_deriv ?_
  rw [Finset.mul_sum]
  refine Finset.sum_congr rfl fun i _ => ?_
  split
  · ring
  · ring

theorem dens_pos (d : Data n Q) (m : Fin (n + 1) → ℝ) (q : Fin Q) : 0 < dens d m q := Real.exp_pos _

theorem gradient'_eq {d : Data n Q} {m : Fin (n + 1) → ℝ} (h : ∀ q, |power d m q| ≤ 200) : gradient' d m = gradient d m := by
  unfold gradient' gradient
  congr 1
  funext q
  rw [dens_eq (h q)]
end MLMC.Fit
