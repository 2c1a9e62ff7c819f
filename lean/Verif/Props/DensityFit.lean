import Verif.Proofs.DensityFit
import Mathlib.Data.Fin.VecNotation
import Mathlib.Algebra.BigOperators.Fin
import Mathlib.Analysis.Complex.ExponentialBounds
/-
C82: the functional, the gradient and the second derivatives handed to the optimizer belong to one function.
C83: what a solution of the fit is: the prescribed moments, a minimum, unique, of maximal entropy.
-/
namespace MLMC.Fit
variable {n Q : Nat}

/-- No exponent reaches the limits ±200 in any quadrature point. -/
def Unclipped (d : Data n Q) (m : Fin (n + 1) → ℝ) : Prop := ∀ q, |power d m q| < 200

/-- The `i`-th moment of the fitted density, by the quadrature. -/
noncomputable def fittedMoment (d : Data n Q) (m : Fin (n + 1) → ℝ) (i : Fin (n + 1)) : ℝ := ∑ q, d.weights q * (d.mom q i * dens d m q)

/-- A fit with two moments `1, x` in the quadrature points ±1. -/
noncomputable def sample : Data 1 2 where
  weights := ![1, 1]
  mom := ![![1, -1], ![1, 1]]
  means := ![2, 0]
  errs := ![1, 2]
  ends := fun _ _ => 0
  coef := 0
  stab := 0
  lastSize := 0
  last := fun _ => 0

/-- C82 (first derivatives).  In every direction `v` the returned gradient gives the derivative of the functional.  Missing, see the counterexamples: multipliers whose exponent reaches ±200, and an active end point penalty with a nonzero coefficient. -/
theorem C82_gradient_partial (d : Data n Q) (m v : Fin (n + 1) → ℝ) (hu : Unclipped d m) (hp : d.coef = 0 ∨ penalty d m = 0) :
    HasDerivAt (fun t => functional d (fun i => m i + t * v i)) (∑ i, gradient d m i * v i) 0 := by
  have hb := hasDerivAt_base hu v
  have hs := hasDerivAt_stab d m v
  have hmid : HasDerivAt (fun t => |base d (line m v t)| * d.coef * penalty d (line m v t))
      (∑ i, (|lin d m + integral d (dens d m) 0 * d.errs 0| * d.coef * (2 * ∑ s, max (endDiff d m s) 0 * d.ends s i)) * v i) 0 := by
    rcases hp with hc | hp
    · simp only [hc, mul_zero, zero_mul, Finset.sum_const_zero]
      exact hasDerivAt_const _ _
    · have hz := (penalty_zero_iff d m).1 hp
      have hd := hasDerivAt_penalty d m v
      simp only [hz, zero_mul, Finset.sum_const_zero, mul_zero] at hd ⊢
      refine hasDerivAt_mul_zero ?_ hd (by simpa using hp)
      exact (hb.continuousAt.abs).mul continuousAt_const
  refine ((hb.add hmid).add hs).congr_deriv ?_
  rw [← Finset.sum_add_distrib, ← Finset.sum_add_distrib]
  refine Finset.sum_congr rfl fun i _ => ?_
  unfold gradient gradientOf
  ring

/-- C82.  The same for `Distribution`, whose gradient does not clip. -/
theorem C82_gradient_distribution_partial (d : Data n Q) (m v : Fin (n + 1) → ℝ) (hu : Unclipped d m) (hp : d.coef = 0 ∨ penalty d m = 0) :
    HasDerivAt (fun t => functional d (fun i => m i + t * v i)) (∑ i, gradient' d m i * v i) 0 := by
  rw [gradient'_eq fun q => (hu q).le]
  exact C82_gradient_partial d m v hu hp

/-- C82 (second derivatives).  In every direction `v` the rows of the returned matrix give the derivatives of the gradient.  Missing, see the counterexamples: exponents that reach ±200, an active end point penalty, and a stage of the stabilized fit that added moments. -/
theorem C82_hessian_partial (d : Data n Q) (m v : Fin (n + 1) → ℝ) (hu : Unclipped d m) (hp : d.coef = 0 ∨ ∀ s, endDiff d m s < 0 ∨ d.ends s = 0)
    (hs : d.stab = 0 ∨ n < d.lastSize) (i : Fin (n + 1)) :
    HasDerivAt (fun t => gradient d (fun i => m i + t * v i) i) (∑ j, jacobian d m i j * v j) 0 := by
  have h1 : HasDerivAt (fun t => d.means i / d.errs i - integral d (dens d (line m v t)) i) (∑ j, jac0 d m i j * v j) 0 := by
    have h := ((HasDerivAt.fun_sum (u := Finset.univ) fun q _ => ((hasDerivAt_dens (hu q) v).const_mul (d.mom q i)).mul_const (d.weights q)).div_const (d.errs i)).const_sub (d.means i / d.errs i)
    refine h.congr_deriv ?_
    simp only [jac0, Finset.mul_sum, Finset.sum_mul, Finset.sum_div]
    rw [Finset.sum_comm, ← Finset.sum_neg_distrib]
    refine Finset.sum_congr rfl fun j _ => ?_
    rw [← Finset.sum_neg_distrib]
    exact Finset.sum_congr rfl fun q _ => by ring
  have h2 : HasDerivAt (fun t => |lin d (line m v t) + integral d (dens d (line m v t)) 0 * d.errs 0| * d.coef * (2 * ∑ s, max (endDiff d (line m v t) s) 0 * d.ends s i))
      (∑ j, (∑ s, if 0 < endDiff d m s then |lin d m + jac0 d m 0 0 * d.errs 0 ^ 2| * d.coef * (2 * (d.ends s i * d.ends s j)) else 0) * v j) 0 := by
    rcases hp with hc | hp
    · simp only [hc, mul_zero, zero_mul, ite_self, Finset.sum_const_zero]
      exact hasDerivAt_const _ _
    · have hz : (fun t => |lin d (line m v t) + integral d (dens d (line m v t)) 0 * d.errs 0| * d.coef * (2 * ∑ s, max (endDiff d (line m v t) s) 0 * d.ends s i)) =ᶠ[nhds 0] fun _ => 0 := by
        have hev : ∀ᶠ t in nhds (0 : ℝ), ∀ s, max (endDiff d (line m v t) s) 0 * d.ends s i = 0 := by
          rw [Filter.eventually_all]
          intro s
          rcases hp s with hneg | hzero
          · have hc := (hasDerivAt_endDiff d m v s 0).continuousAt
            have : ∀ᶠ t in nhds (0 : ℝ), endDiff d (line m v t) s < 0 := by
              apply hc.eventually_lt continuousAt_const
              simpa using hneg
            filter_upwards [this] with t ht
            rw [max_eq_right ht.le, zero_mul]
          · exact Filter.Eventually.of_forall fun t => by rw [hzero]; simp
        filter_upwards [hev] with t ht
        rw [Finset.sum_eq_zero fun s _ => ht s]
        ring
      refine ((hasDerivAt_const (0 : ℝ) (0 : ℝ)).congr_of_eventuallyEq hz).congr_deriv ?_
      symm
      refine Finset.sum_eq_zero fun j _ => ?_
      rw [Finset.sum_eq_zero, zero_mul]
      intro s _
      rcases hp s with hneg | hzero
      · rw [if_neg (not_lt.2 hneg.le)]
      · rw [hzero]; simp
  have h3 : HasDerivAt (fun t => if i.val < d.lastSize then d.stab * (line m v t i - d.last i) else 0) (∑ j, (if i = j then d.stab else 0) * v j) 0 := by
    have e : (∑ j, (if i = j then d.stab else 0) * v j) = d.stab * v i := by simp
    rw [e]
    rcases hs with hs | hs
    · simp only [hs, zero_mul, ite_self]
      exact hasDerivAt_const _ _
    · have hi : i.val < d.lastSize := by omega
      simp only [hi, if_true]
      exact ((hasDerivAt_line m v 0 i).sub_const (d.last i)).const_mul d.stab
  refine ((h1.add h2).add h3).congr_deriv ?_
  rw [← Finset.sum_add_distrib, ← Finset.sum_add_distrib]
  refine Finset.sum_congr rfl fun j _ => ?_
  unfold jacobian
  ring

/-- C82.  The matrix of second derivatives is symmetric, for every input. -/
theorem C82_symmetric (d : Data n Q) (m : Fin (n + 1) → ℝ) (i j : Fin (n + 1)) : jacobian d m i j = jacobian d m j i := by
  have h0 : jac0 d m i j = jac0 d m j i := Finset.sum_congr rfl fun q _ => by ring
  unfold jacobian
  rw [h0]
  congr 1
  · congr 1
    exact Finset.sum_congr rfl fun s _ => by rw [mul_comm (d.ends s i)]
  · simp only [eq_comm]

theorem jac0_quad (d : Data n Q) (m v : Fin (n + 1) → ℝ) : ∑ i, ∑ j, v i * jac0 d m i j * v j = ∑ q, dens d m q * d.weights q * (∑ i, d.mom q i / d.errs i * v i) ^ 2 := by
  simp only [jac0, sq, Finset.mul_sum, Finset.sum_mul]
  rw [Finset.sum_comm' (t' := Finset.univ) (s' := fun _ => Finset.univ) (by simp)]
  calc _ = ∑ j, ∑ q, ∑ i, v i * (d.mom q i / d.errs i * (dens d m q * d.weights q) * (d.mom q j / d.errs j)) * v j := Finset.sum_congr rfl fun j _ => Finset.sum_comm
    _ = ∑ q, ∑ j, ∑ i, v i * (d.mom q i / d.errs i * (dens d m q * d.weights q) * (d.mom q j / d.errs j)) * v j := Finset.sum_comm
    _ = _ := Finset.sum_congr rfl fun q _ => by
        refine Finset.sum_congr rfl fun j _ => ?_
        exact Finset.sum_congr rfl fun i _ => by ring

/-- C82.  With positive quadrature weights (those of Gauss are) and nonnegative coefficients the matrix is positive semidefinite, for all multipliers, clipped or not. -/
theorem C82_positive_semidefinite (d : Data n Q) (m v : Fin (n + 1) → ℝ) (hw : ∀ q, 0 ≤ d.weights q) (hc : 0 ≤ d.coef) (hs : 0 ≤ d.stab) :
    0 ≤ ∑ i, ∑ j, v i * jacobian d m i j * v j := by
  have key : ∑ i, ∑ j, v i * jacobian d m i j * v j = (∑ i, ∑ j, v i * jac0 d m i j * v j)
      + (∑ s, if 0 < endDiff d m s then |lin d m + jac0 d m 0 0 * d.errs 0 ^ 2| * d.coef * 2 * (∑ i, d.ends s i * v i) ^ 2 else 0) + d.stab * ∑ i, v i ^ 2 := by
    have e1 : (∑ s, if 0 < endDiff d m s then |lin d m + jac0 d m 0 0 * d.errs 0 ^ 2| * d.coef * 2 * (∑ i, d.ends s i * v i) ^ 2 else 0)
        = ∑ i, ∑ j, v i * (∑ s, if 0 < endDiff d m s then |lin d m + jac0 d m 0 0 * d.errs 0 ^ 2| * d.coef * (2 * (d.ends s i * d.ends s j)) else 0) * v j := by
      simp only [Fin.sum_univ_two, mul_add, add_mul, Finset.sum_add_distrib]
      congr 1 <;>
      · split
        · simp only [sq, Finset.mul_sum, Finset.sum_mul]
          rw [Finset.sum_comm]
          exact Finset.sum_congr rfl fun i _ => Finset.sum_congr rfl fun j _ => by ring
        · simp
    have e2 : d.stab * ∑ i, v i ^ 2 = ∑ i, ∑ j, v i * (if i = j then d.stab else 0) * v j := by
      rw [Finset.mul_sum]
      exact Finset.sum_congr rfl fun i _ => by simp; ring
    rw [e1, e2, ← Finset.sum_add_distrib, ← Finset.sum_add_distrib]
    refine Finset.sum_congr rfl fun i _ => ?_
    rw [← Finset.sum_add_distrib, ← Finset.sum_add_distrib]
    refine Finset.sum_congr rfl fun j _ => ?_
    unfold jacobian
    ring
  rw [key, jac0_quad]
  have a1 : 0 ≤ ∑ q, dens d m q * d.weights q * (∑ i, d.mom q i / d.errs i * v i) ^ 2 :=
    Finset.sum_nonneg fun q _ => mul_nonneg (mul_nonneg (dens_pos d m q).le (hw q)) (sq_nonneg _)
  have a2 : 0 ≤ ∑ s, if 0 < endDiff d m s then |lin d m + jac0 d m 0 0 * d.errs 0 ^ 2| * d.coef * 2 * (∑ i, d.ends s i * v i) ^ 2 else 0 :=
    Finset.sum_nonneg fun s _ => by
      split
      · exact mul_nonneg (mul_nonneg (mul_nonneg (abs_nonneg _) hc) (by norm_num)) (sq_nonneg _)
      · exact le_rfl
  have a3 : 0 ≤ d.stab * ∑ i, v i ^ 2 := mul_nonneg hs (Finset.sum_nonneg fun i _ => sq_nonneg _)
  linarith

theorem sample_unclipped : Unclipped sample (fun _ => 0) := by
  intro q
  simp [power]

example : Unclipped sample (fun _ => 0) ∧ (sample.coef = 0 ∨ penalty sample (fun _ => 0) = 0) ∧ (sample.stab = 0 ∨ 1 < sample.lastSize) ∧ (∀ q, 0 ≤ sample.weights q) :=
  ⟨sample_unclipped, Or.inl rfl, Or.inl rfl, by intro q; fin_cases q <;> simp [sample]⟩

/-- One moment in one quadrature point. -/
noncomputable def onePoint : Data 0 1 where
  weights := fun _ => 1
  mom := fun _ _ => 1
  means := fun _ => 1
  errs := fun _ => 1
  ends := fun _ _ => 0
  coef := 0
  stab := 0
  lastSize := 0
  last := fun _ => 0

/-- C82 fails where an exponent is clipped: the functional there grows with slope 1 while the returned gradient is `1 - exp 200`. -/
theorem C82_counterexample_clipped : ∃ m v : Fin 1 → ℝ, ¬ HasDerivAt (fun t => functional onePoint (fun i => m i + t * v i)) (∑ i, gradient onePoint m i * v i) 0 := by
  refine ⟨fun _ => -300, fun _ => 1, fun h => ?_⟩
  have hf : (fun t : ℝ => functional onePoint (fun _ => -300 + t * 1)) =ᶠ[nhds 0] fun t => (-300 + t) + Real.exp 200 := by
    filter_upwards [eventually_lt_nhds (show (0 : ℝ) < 1 by norm_num)] with t ht
    have : power onePoint (fun _ => -300 + t * 1) 0 = 300 - t := by simp [power, onePoint]; ring
    have hd : dens onePoint (fun _ => -300 + t * 1) 0 = Real.exp 200 := by
      unfold dens
      rw [this, max_eq_left (by linarith), min_eq_right (by linarith)]
    unfold functional base
    rw [Fin.sum_univ_one (fun q => _ * _), hd]
    simp [lin, onePoint]
  have h1 : HasDerivAt (fun t : ℝ => (-300 + t) + Real.exp 200) 1 0 := by
    simpa using ((hasDerivAt_id (0 : ℝ)).const_add (-300)).add_const (Real.exp 200)
  have h2 := h.unique (h1.congr_of_eventuallyEq hf)
  have hd : dens onePoint (fun _ => -300) 0 = Real.exp 200 := by
    have : power onePoint (fun _ => -300) 0 = 300 := by simp [power, onePoint]
    unfold dens
    rw [this, max_eq_left (by norm_num), min_eq_right (by norm_num)]
  have hg : gradient onePoint (fun _ => -300) 0 = 1 - Real.exp 200 := by
    simp [gradient, gradientOf, integral, hd, endDiff]
    simp [onePoint]
  simp [hg] at h2

/-- One moment in one quadrature point, with the end point penalty of `Distribution` (coefficient 10). -/
noncomputable def onePenalty : Data 0 1 where
  weights := fun _ => 0
  mom := fun _ _ => 1
  means := fun _ => 1
  errs := fun _ => 1
  ends := fun _ _ => 1
  coef := 10
  stab := 0
  lastSize := 0
  last := fun _ => 0

/-- C82 fails with an active end point penalty: the gradient of `|F| c P` leaves out the derivative of `|F|`. -/
theorem C82_counterexample_penalty : ∃ m v : Fin 1 → ℝ, Unclipped onePenalty m ∧ ¬ HasDerivAt (fun t => functional onePenalty (fun i => m i + t * v i)) (∑ i, gradient' onePenalty m i * v i) 0 := by
  refine ⟨fun _ => 1, fun _ => 1, fun q => by simp [power, onePenalty], fun h => ?_⟩
  have hf : (fun t : ℝ => functional onePenalty (fun _ => 1 + t * 1)) =ᶠ[nhds 0] fun t => (1 + t) + 20 * (1 + t) ^ 3 := by
    filter_upwards [eventually_gt_nhds (show (-1 : ℝ) < 0 by norm_num)] with t ht
    have hb : base onePenalty (fun _ => 1 + t * 1) = 1 + t := by simp [base, lin, onePenalty]
    have he : ∀ s, endDiff onePenalty (fun _ => 1 + t * 1) s = 1 + t := by intro s; simp [endDiff, onePenalty]
    unfold functional penalty
    rw [hb, abs_of_nonneg (by linarith)]
    simp only [he]
    rw [max_eq_left (by linarith)]
    simp [onePenalty]
    ring
  have h1 : HasDerivAt (fun t : ℝ => (1 + t) + 20 * (1 + t) ^ 3) 61 0 := by
    have ha : HasDerivAt (fun t : ℝ => 1 + t) 1 0 := (hasDerivAt_id (0 : ℝ)).const_add 1
    refine (ha.add ((ha.fun_pow 3).const_mul 20)).congr_deriv ?_
    norm_num
  have h2 := h.unique (h1.congr_of_eventuallyEq hf)
  have hg : gradient' onePenalty (fun _ => 1) 0 = 41 := by
    simp [gradient', gradientOf, integral, endDiff, lin]
    simp [onePenalty]
    norm_num
  simp [hg] at h2

/-- A stage of the stabilized fit that added one moment: one of its two multipliers was solved before (a growing size in small). -/
noncomputable def oneGrown : Data 1 1 where
  weights := fun _ => 0
  mom := fun _ _ => 1
  means := fun _ => 1
  errs := fun _ => 1
  ends := fun _ _ => 0
  coef := 10
  stab := 1
  lastSize := 1
  last := fun _ => 0

/-- C82 fails for the second derivatives when a stage added moments: the diagonal of the added ones is stabilized, their gradient is not. -/
theorem C82_counterexample_grown : ∃ (m v : Fin 2 → ℝ) (i : Fin 2), Unclipped oneGrown m ∧ penalty oneGrown m = 0 ∧
    ¬ HasDerivAt (fun t => gradient' oneGrown (fun i => m i + t * v i) i) (∑ j, jacobian oneGrown m i j * v j) 0 := by
  refine ⟨fun _ => 0, fun _ => 1, 1, fun q => by simp [power], by simp [penalty, endDiff], fun h => ?_⟩
  have hf : (fun t : ℝ => gradient' oneGrown (fun _ => 0 + t * 1) 1) = fun _ => 1 := by
    funext t
    simp [gradient', gradientOf, integral, endDiff]
    simp [oneGrown]
  rw [hf] at h
  have h2 := h.unique (hasDerivAt_const _ _)
  simp [jacobian, jac0, endDiff, Fin.sum_univ_two] at h2
  simp [oneGrown] at h2

/-- C83.  Without penalties the gradient vanishes exactly when the fitted density has the prescribed moments (by the quadrature in use). -/
theorem C83_stationary_iff_moments (d : Data n Q) (m : Fin (n + 1) → ℝ) (hc : d.coef = 0) (hs : d.stab = 0) (he : ∀ i, d.errs i ≠ 0) :
    gradient d m = 0 ↔ ∀ i, fittedMoment d m i = d.means i := by
  have key : ∀ i, gradient d m i = (d.means i - fittedMoment d m i) / d.errs i := by
    intro i
    have : (∑ q, d.mom q i * dens d m q * d.weights q) = fittedMoment d m i := Finset.sum_congr rfl fun q _ => by ring
    simp only [gradient, gradientOf, integral, hc, hs, this]
    split <;> ring
  rw [funext_iff]
  refine forall_congr' fun i => ?_
  rw [key, Pi.zero_apply, div_eq_zero_iff, or_iff_left (he i), sub_eq_zero, eq_comm]

/-- C83.  A component of the gradient is the error of that moment in units of its `errs`: a fit stopped at a gradient of size `tol` has every moment within `tol * errs i`. -/
theorem C83_moment_error (d : Data n Q) (m : Fin (n + 1) → ℝ) (hc : d.coef = 0) (hs : d.stab = 0) (he : ∀ i, 0 < d.errs i) (tol : ℝ) (ht : ∀ i, |gradient d m i| ≤ tol) (i : Fin (n + 1)) :
    |fittedMoment d m i - d.means i| ≤ tol * d.errs i := by
  have key : gradient d m i = (d.means i - fittedMoment d m i) / d.errs i := by
    have : (∑ q, d.mom q i * dens d m q * d.weights q) = fittedMoment d m i := Finset.sum_congr rfl fun q _ => by ring
    simp only [gradient, gradientOf, integral, hc, hs, this]
    split <;> ring
  have h := ht i
  rw [key, abs_div, abs_of_pos (he i), div_le_iff₀ (he i)] at h
  rwa [abs_sub_comm]

/-- C83.  With the stabilization of `Distribution` a stationary point misses the prescribed moments by the stabilization force. -/
theorem C83_stabilized_moments (d : Data n Q) (m : Fin (n + 1) → ℝ) (hp : penalty d m = 0) (he : ∀ i, d.errs i ≠ 0) (hg : gradient d m = 0) (i : Fin (n + 1)) :
    fittedMoment d m i - d.means i = if i.val < d.lastSize then d.stab * (m i - d.last i) * d.errs i else 0 := by
  have hz := (penalty_zero_iff d m).1 hp
  have h : gradient d m i = 0 := by rw [hg]; rfl
  have : (∑ q, d.mom q i * dens d m q * d.weights q) = fittedMoment d m i := Finset.sum_congr rfl fun q _ => by ring
  simp only [gradient, gradientOf, integral, hz, this] at h
  have := he i
  split
  · rename_i hi
    simp [hi] at h
    field_simp at h
    linarith
  · rename_i hi
    simp [hi] at h
    field_simp at h
    linarith

theorem functional_simple (d : Data n Q) (m : Fin (n + 1) → ℝ) (hc : d.coef = 0) (hs : d.stab = 0) : functional d m = base d m := by
  simp [functional, hc, hs]

theorem gradient_simple (d : Data n Q) (m : Fin (n + 1) → ℝ) (hc : d.coef = 0) (hs : d.stab = 0) (i : Fin (n + 1)) : gradient d m i = d.means i / d.errs i - integral d (dens d m) i := by
  simp [gradient, gradientOf, hc, hs]

theorem base_gap (d : Data n Q) (m m' : Fin (n + 1) → ℝ) (hc : d.coef = 0) (hs : d.stab = 0) (hu : Unclipped d m) (hu' : Unclipped d m') :
    functional d m' - functional d m - ∑ i, gradient d m i * (m' i - m i) =
      ∑ q, d.weights q * (Real.exp (power d m' q) - Real.exp (power d m q) - Real.exp (power d m q) * (power d m' q - power d m q)) := by
  rw [functional_simple _ _ hc hs, functional_simple _ _ hc hs]
  simp only [gradient_simple _ _ hc hs]
  have hd : ∀ q, dens d m q = Real.exp (power d m q) := fun q => dens_eq (hu q).le
  have hd' : ∀ q, dens d m' q = Real.exp (power d m' q) := fun q => dens_eq (hu' q).le
  have hpow : ∀ q, power d m' q - power d m q = ∑ i, (-(d.mom q i / d.errs i)) * (m' i - m i) := by
    intro q
    rw [power_eq, power_eq, ← Finset.sum_sub_distrib]
    exact Finset.sum_congr rfl fun i _ => by ring
  have hswap : ∑ i, integral d (dens d m) i * (m' i - m i) = -∑ q, d.weights q * (Real.exp (power d m q) * (power d m' q - power d m q)) := by
    simp only [hpow, integral, Finset.mul_sum, Finset.sum_mul, Finset.sum_div, hd]
    rw [Finset.sum_comm, ← Finset.sum_neg_distrib]
    refine Finset.sum_congr rfl fun q _ => ?_
    rw [← Finset.sum_neg_distrib]
    exact Finset.sum_congr rfl fun i _ => by ring
  have hlin : lin d m' - lin d m = ∑ i, d.means i / d.errs i * (m' i - m i) := by
    rw [lin_eq, lin_eq, ← Finset.sum_sub_distrib]
    exact Finset.sum_congr rfl fun i _ => by ring
  have hsplit : ∑ i, (d.means i / d.errs i - integral d (dens d m) i) * (m' i - m i) = (lin d m' - lin d m) - ∑ i, integral d (dens d m) i * (m' i - m i) := by
    rw [hlin, ← Finset.sum_sub_distrib]
    exact Finset.sum_congr rfl fun i _ => by ring
  rw [hsplit, hswap]
  unfold base
  simp only [hd, hd', mul_sub, Finset.sum_sub_distrib]
  have c : ∀ f : Fin Q → ℝ, ∑ q, f q * d.weights q = ∑ q, d.weights q * f q := fun f => Finset.sum_congr rfl fun q _ => mul_comm _ _
  rw [c, c]
  ring

theorem exp_gap_nonneg (a b : ℝ) : 0 ≤ Real.exp b - Real.exp a - Real.exp a * (b - a) := by
  have h := mul_le_mul_of_nonneg_left (Real.add_one_le_exp (b - a)) (Real.exp_pos a).le
  rw [← Real.exp_add] at h
  have : a + (b - a) = b := by ring
  rw [this] at h
  nlinarith

theorem exp_gap_pos {a b : ℝ} (hab : b ≠ a) : 0 < Real.exp b - Real.exp a - Real.exp a * (b - a) := by
  have h := mul_lt_mul_of_pos_left (Real.add_one_lt_exp (sub_ne_zero.2 hab)) (Real.exp_pos a)
  rw [← Real.exp_add] at h
  have : a + (b - a) = b := by ring
  rw [this] at h
  nlinarith

/-- C83 (convexity).  The functional lies above its tangent planes.  Missing: exponents that reach ±200. -/
theorem C83_convex_partial (d : Data n Q) (m m' : Fin (n + 1) → ℝ) (hc : d.coef = 0) (hs : d.stab = 0) (hw : ∀ q, 0 ≤ d.weights q) (hu : Unclipped d m) (hu' : Unclipped d m') :
    functional d m + ∑ i, gradient d m i * (m' i - m i) ≤ functional d m' := by
  have h := base_gap d m m' hc hs hu hu'
  have : 0 ≤ ∑ q, d.weights q * (Real.exp (power d m' q) - Real.exp (power d m q) - Real.exp (power d m q) * (power d m' q - power d m q)) :=
    Finset.sum_nonneg fun q _ => mul_nonneg (hw q) (exp_gap_nonneg _ _)
  linarith

/-- C83.  Multipliers that reproduce the prescribed moments minimize the functional.  Missing: comparison with multipliers whose exponent reaches ±200, for which it is false (`C83_counterexample_no_minimum`). -/
theorem C83_moments_minimize_partial (d : Data n Q) (m m' : Fin (n + 1) → ℝ) (hc : d.coef = 0) (hs : d.stab = 0) (hw : ∀ q, 0 ≤ d.weights q) (he : ∀ i, d.errs i ≠ 0)
    (hu : Unclipped d m) (hu' : Unclipped d m') (hm : ∀ i, fittedMoment d m i = d.means i) : functional d m ≤ functional d m' := by
  have h := C83_convex_partial d m m' hc hs hw hu hu'
  have hg := (C83_stationary_iff_moments d m hc hs he).2 hm
  simpa [hg] using h

/-- C83 is false for the functional of the code as a whole: because exponents are clipped at 200 the integral is bounded, the linear term is not, so whatever the data, no
multipliers minimize it.  (The comparison of `C83_moments_minimize_partial` with multipliers that reach ±200 is missing for this reason.) -/
theorem C83_counterexample_no_minimum (d : Data n Q) (hc : d.coef = 0) (hs : d.stab = 0) (hw : ∀ q, 0 ≤ d.weights q) (h0 : d.means 0 ≠ 0) (he : d.errs 0 ≠ 0) :
    (∀ B : ℝ, ∃ m, functional d m < B) ∧ ¬ ∃ m, ∀ m', functional d m ≤ functional d m' := by
  have hb : ∀ B : ℝ, ∃ m, functional d m < B := by
    intro B
    let c := ∑ q, Real.exp 200 * d.weights q
    refine ⟨Pi.single 0 (d.errs 0 * (B - c - 1) / d.means 0), ?_⟩
    have hl : lin d (Pi.single 0 (d.errs 0 * (B - c - 1) / d.means 0)) = B - c - 1 := by
      unfold lin
      rw [Finset.sum_eq_single 0]
      · rw [Pi.single_eq_same]
        field_simp
      · intro i _ hi
        rw [Pi.single_eq_of_ne hi]
        simp
      · simp
    have hi : ∑ q, dens d (Pi.single 0 (d.errs 0 * (B - c - 1) / d.means 0)) q * d.weights q ≤ c :=
      Finset.sum_le_sum fun q _ => mul_le_mul_of_nonneg_right (Real.exp_le_exp.2 (min_le_right _ _)) (hw q)
    unfold functional base
    rw [hl, hc, hs]
    simp only [mul_zero, zero_mul, add_zero]
    linarith
  refine ⟨hb, ?_⟩
  rintro ⟨m, hm⟩
  obtain ⟨m', h'⟩ := hb (functional d m)
  exact absurd (hm m') (not_le.2 h')

/-- C83.  Two fits with the prescribed moments are the same multipliers, when no combination of the moments vanishes in all quadrature points. -/
theorem C83_unique_partial (d : Data n Q) (m m' : Fin (n + 1) → ℝ) (hc : d.coef = 0) (hs : d.stab = 0) (hw : ∀ q, 0 < d.weights q) (he : ∀ i, d.errs i ≠ 0)
    (hind : ∀ v : Fin (n + 1) → ℝ, (∀ q, ∑ i, d.mom q i * v i = 0) → v = 0) (hu : Unclipped d m) (hu' : Unclipped d m')
    (hm : ∀ i, fittedMoment d m i = d.means i) (hm' : ∀ i, fittedMoment d m' i = d.means i) : m = m' := by
  have h1 := C83_moments_minimize_partial d m m' hc hs (fun q => (hw q).le) he hu hu' hm
  have h2 := C83_moments_minimize_partial d m' m hc hs (fun q => (hw q).le) he hu' hu hm'
  have h := base_gap d m m' hc hs hu hu'
  have hg := (C83_stationary_iff_moments d m hc hs he).2 hm
  simp only [hg, Pi.zero_apply, zero_mul, Finset.sum_const_zero, le_antisymm h2 h1, sub_self] at h
  have hz := (Finset.sum_eq_zero_iff_of_nonneg fun q _ => mul_nonneg (hw q).le (exp_gap_nonneg (power d m q) (power d m' q))).1 h.symm
  have hp : ∀ q, power d m' q = power d m q := by
    intro q
    by_contra hne
    exact absurd (hz q (Finset.mem_univ q)) (mul_pos (hw q) (exp_gap_pos hne)).ne'
  have hv : (fun i => m i / d.errs i - m' i / d.errs i) = 0 := by
    refine hind _ fun q => ?_
    have := hp q
    unfold power at this
    simp only [mul_sub, Finset.sum_sub_distrib]
    linarith
  funext i
  have := congrFun hv i
  simp only [Pi.zero_apply] at this
  have hi := he i
  field_simp at this
  linarith

/-- C83 (maximal entropy).  Among all nonnegative densities on the quadrature points with the prescribed moments the fitted one has the largest entropy.  The moment functions start with the constant 1, as those of the library do. -/
theorem C83_maximal_entropy_partial (d : Data n Q) (m : Fin (n + 1) → ℝ) (hw : ∀ q, 0 ≤ d.weights q) (h1 : ∀ q, d.mom q 0 = 1)
    (hu : Unclipped d m) (hm : ∀ i, fittedMoment d m i = d.means i) (p : Fin Q → ℝ) (hp : ∀ q, 0 ≤ p q) (hpm : ∀ i, ∑ q, d.weights q * (d.mom q i * p q) = d.means i) :
    -∑ q, d.weights q * (p q * Real.log (p q)) ≤ -∑ q, d.weights q * (dens d m q * Real.log (dens d m q)) := by
  have hd : ∀ q, dens d m q = Real.exp (power d m q) := fun q => dens_eq (hu q).le
  have hcross : ∀ r : Fin Q → ℝ, (∀ i, ∑ q, d.weights q * (d.mom q i * r q) = d.means i) → ∑ q, d.weights q * (r q * power d m q) = -∑ i, d.means i * (m i / d.errs i) := by
    intro r hr
    simp only [← hr, power, Finset.sum_mul, Finset.mul_sum, mul_neg, Finset.sum_neg_distrib]
    rw [Finset.sum_comm]
    congr 1
    exact Finset.sum_congr rfl fun i _ => Finset.sum_congr rfl fun q _ => by ring
  have hmass : ∀ r : Fin Q → ℝ, (∀ i, ∑ q, d.weights q * (d.mom q i * r q) = d.means i) → ∑ q, d.weights q * r q = d.means 0 := by
    intro r hr
    rw [← hr 0]
    exact Finset.sum_congr rfl fun q _ => by rw [h1 q, one_mul]
  have hpt : ∀ q, p q - dens d m q ≤ p q * Real.log (p q) - p q * power d m q := by
    intro q
    rcases (hp q).eq_or_lt with h0 | hpos
    · rw [← h0]
      have := (dens_pos d m q).le
      simp [this]
    · have hr : 0 < dens d m q / p q := div_pos (dens_pos d m q) hpos
      have hlog := Real.log_le_sub_one_of_pos hr
      rw [Real.log_div (dens_pos d m q).ne' hpos.ne', hd, Real.log_exp] at hlog
      have := mul_le_mul_of_nonneg_left hlog hpos.le
      rw [hd]
      have e : p q * (Real.exp (power d m q) / p q - 1) = Real.exp (power d m q) - p q := by field_simp
      rw [e] at this
      nlinarith
  have hsum : ∑ q, d.weights q * (p q - dens d m q) ≤ ∑ q, d.weights q * (p q * Real.log (p q) - p q * power d m q) :=
    Finset.sum_le_sum fun q _ => mul_le_mul_of_nonneg_left (hpt q) (hw q)
  simp only [mul_sub, Finset.sum_sub_distrib] at hsum
  have e1 := hmass p hpm
  have e2 := hmass (dens d m) hm
  have e3 := hcross p hpm
  have e4 := hcross (dens d m) hm
  have e5 : ∑ q, d.weights q * (dens d m q * Real.log (dens d m q)) = ∑ q, d.weights q * (dens d m q * power d m q) :=
    Finset.sum_congr rfl fun q _ => by rw [hd, Real.log_exp]
  rw [e5]
  linarith

theorem sample_moments : ∀ i, fittedMoment sample (fun _ => 0) i = sample.means i := by
  intro i
  fin_cases i <;> simp [fittedMoment, dens, power, Fin.sum_univ_two] <;> simp [sample]
  norm_num

theorem sample_independent : ∀ v : Fin 2 → ℝ, (∀ q, ∑ i, sample.mom q i * v i = 0) → v = 0 := by
  intro v h
  have a := h 0
  have b := h 1
  simp [sample, Fin.sum_univ_two] at a b
  funext i
  fin_cases i <;> simp <;> linarith

example : (∀ q, 0 < sample.weights q) ∧ (∀ i, sample.errs i ≠ 0) ∧ (∀ i, fittedMoment sample (fun _ => 0) i = sample.means i) ∧ Unclipped sample (fun _ => 0)
    ∧ (∀ v : Fin 2 → ℝ, (∀ q, ∑ i, sample.mom q i * v i = 0) → v = 0) ∧ (∀ q, sample.mom q 0 = 1) :=
  ⟨by intro q; fin_cases q <;> simp [sample], by intro q; fin_cases q <;> simp [sample], sample_moments, sample_unclipped, sample_independent, by intro q; fin_cases q <;> simp [sample]⟩

/-- C83.  `Distribution` starts from the uniform density on the domain (`moment 0` is the constant 1). -/
theorem C83_start_uniform (d : Data n Q) (h1 : ∀ q, d.mom q 0 = 1) (a b : ℝ) (hab : a < b) (he : d.errs 0 ≠ 0) (hsmall : |Real.log (b - a)| ≤ 200) (q : Fin Q) :
    dens d (initialMultipliers' a b (d.errs 0)) q = 1 / (b - a) := by
  have hp : power d (initialMultipliers' a b (d.errs 0)) q = -Real.log (b - a) := by
    unfold power
    rw [Finset.sum_eq_single 0]
    · simp only [initialMultipliers', h1, if_true, one_div, Real.log_inv]
      field_simp
    · intro i _ hi
      simp [initialMultipliers', hi]
    · simp
  have hlt : |power d (initialMultipliers' a b (d.errs 0)) q| ≤ 200 := by rw [hp, abs_neg]; exact hsmall
  rw [dens_eq hlt, hp, Real.exp_neg, Real.exp_log (by linarith), one_div]

/-- C83.  `SimpleDistribution` starts from the uniform density when the error of moment 0 is 1 (what `construct_density` passes). -/
theorem C83_start_uniform_simple_partial (d : Data n Q) (h1 : ∀ q, d.mom q 0 = 1) (a b : ℝ) (hab : a < b) (he : d.errs 0 = 1) (hsmall : |Real.log (b - a)| ≤ 200) (q : Fin Q) :
    dens d (initialMultipliers a b) q = 1 / (b - a) := by
  have : (initialMultipliers a b : Fin (n + 1) → ℝ) = initialMultipliers' a b (d.errs 0) := by
    funext i
    simp [initialMultipliers, initialMultipliers', he]
  rw [this]
  exact C83_start_uniform d h1 a b hab (by rw [he]; norm_num) hsmall q

example : sample.coef = 0 ∧ sample.stab = 0 ∧ (∀ q, 0 ≤ sample.weights q) ∧ sample.means 0 ≠ 0 ∧ sample.errs 0 ≠ 0 :=
  ⟨rfl, rfl, by intro q; fin_cases q <;> simp [sample], by simp [sample], by simp [sample]⟩

example : (∀ q, sample.mom q 0 = 1) ∧ (0 : ℝ) < 1 ∧ sample.errs 0 = 1 ∧ |Real.log (1 - 0)| ≤ 200 :=
  ⟨by intro q; fin_cases q <;> simp [sample], by norm_num, by simp [sample], by simp⟩

/-- With another error of moment 0 the starting density of `SimpleDistribution` has a different mass. -/
theorem C83_counterexample_start : ∃ (d : Data 0 1) (a b : ℝ), a < b ∧ (∀ q, d.mom q 0 = 1) ∧ d.errs 0 ≠ 0 ∧ dens d (initialMultipliers a b) 0 ≠ 1 / (b - a) := by
  refine ⟨{ onePoint with errs := fun _ => 2 }, 0, 4, by norm_num, fun _ => rfl, by norm_num, ?_⟩
  have hp : power { onePoint with errs := fun _ => 2 } (initialMultipliers 0 4) 0 = -(Real.log 4 / 2) := by
    simp [power, onePoint, initialMultipliers]
  have hl : Real.log 4 / 2 = Real.log 2 := by
    have : (4 : ℝ) = 2 ^ 2 := by norm_num
    rw [this, Real.log_pow]; norm_num
  rw [hl] at hp
  have h2 : |power { onePoint with errs := fun _ => 2 } (initialMultipliers 0 4) 0| ≤ 200 := by
    rw [hp, abs_neg, abs_of_pos (Real.log_pos (by norm_num))]
    have := Real.log_two_lt_d9
    linarith
  rw [dens_eq h2, hp, Real.exp_neg, Real.exp_log (by norm_num)]
  norm_num
end MLMC.Fit
