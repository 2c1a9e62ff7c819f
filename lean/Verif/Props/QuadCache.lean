import Verif.Model.QuadCache
import Mathlib.Algebra.Order.BigOperators.Ring.Finset
import Mathlib.Algebra.BigOperators.Field
import Mathlib.Analysis.SpecialFunctions.Exp
import Mathlib.Tactic.Linarith
import Mathlib.Tactic.FieldSimp
import Mathlib.Data.Fin.VecNotation
import Mathlib.Algebra.BigOperators.Fin
import Mathlib.Tactic.NormNum
/-
C121: the quadrature that a density fit uses for given multipliers.
-/
namespace MLMC.Fit
variable {n : Nat}

/-- Where the exponents are not clipped. -/
def NotClipped (q : Quad n) (errs m : Fin (n + 1) → ℝ) : Prop := ∀ k, -200 ≤ q.power errs m k ∧ q.power errs m k ≤ 200

theorem abs_vdot_le (u v : Fin (n + 1) → ℝ) : |vdot u v| ≤ vnorm u * vnorm v := by
  unfold vdot vnorm
  rw [← Real.sqrt_mul (Finset.sum_nonneg fun i _ => sq_nonneg _)]
  exact Real.abs_le_sqrt (Finset.sum_mul_sq_le_sq_mul_sq _ _ _)

/-- **C121**: the quadrature is renewed exactly if the first order change of the integral since the last renewal is not below the tolerance (the first test of the code never decides
anything else than the second one). -/
theorem C121_renewed_iff (build : (Fin (n + 1) → ℝ) → Quad n) (errs : Fin (n + 1) → ℝ) (tol : ℝ) (s : QState n) (m : Fin (n + 1) → ℝ) :
    (|∑ i, s.grad i * (m i - s.last i)| < tol → update build errs tol s m = s) ∧
    (tol ≤ |∑ i, s.grad i * (m i - s.last i)| → update build errs tol s m = ⟨m, (build m).grad errs m, build m⟩) := by
  have e : vdot s.grad (m - s.last) = ∑ i, s.grad i * (m i - s.last i) := rfl
  rw [← e]
  unfold update
  constructor
  · intro h
    by_cases h1 : vnorm s.grad * vnorm (m - s.last) < tol
    · rw [if_pos h1]
    · rw [if_neg h1, if_pos h]
  · intro h
    rw [if_neg (not_lt.2 (h.trans (abs_vdot_le _ _))), if_neg (not_lt.2 h)]
    rfl

/-- What holds after any evaluations. -/
theorem evaluations_inv (build : (Fin (n + 1) → ℝ) → Quad n) (errs : Fin (n + 1) → ℝ) (tol : ℝ) (start : Fin (n + 1) → ℝ) :
    ∀ ms : List (Fin (n + 1) → ℝ), ∃ m0 ∈ start :: ms, evaluations build errs tol start ms = renew build errs m0 := by
  intro ms
  induction ms using List.reverseRecOn with
  | nil => exact ⟨start, by simp, rfl⟩
  | append_singleton ms m ih =>
    obtain ⟨m0, hm, h⟩ := ih
    unfold evaluations at h ⊢
    rw [List.foldl_append, List.foldl_cons, List.foldl_nil, h]
    rcases lt_or_ge |∑ i, (renew build errs m0).grad i * (m i - (renew build errs m0).last i)| tol with hl | hl
    · rw [(C121_renewed_iff build errs tol _ m).1 hl]
      refine ⟨m0, ?_, rfl⟩
      rcases List.mem_cons.1 hm with rfl | hm
      · simp
      · simp [hm]
    · rw [(C121_renewed_iff build errs tol _ m).2 hl]
      exact ⟨m, by simp, rfl⟩

/-- **C121**: in every fit and at every evaluation, the quadrature used for the multipliers `m` was made for multipliers `m₀` that were evaluated before in this fit (or for `m` itself), and the first
order change of the integral from `m₀` to `m` is below the tolerance. -/
theorem C121_quadrature_partial (build : (Fin (n + 1) → ℝ) → Quad n) (errs : Fin (n + 1) → ℝ) (tol : ℝ) (ht : 0 < tol) (start : Fin (n + 1) → ℝ) (ms : List (Fin (n + 1) → ℝ)) (m : Fin (n + 1) → ℝ) :
    ∃ m0 ∈ start :: (ms ++ [m]), (evaluations build errs tol start (ms ++ [m])).quad = build m0 ∧ |∑ i, (build m0).grad errs m0 i * (m i - m0 i)| < tol := by
  obtain ⟨m0, hm, h⟩ := evaluations_inv build errs tol start ms
  have e : evaluations build errs tol start (ms ++ [m]) = update build errs tol (evaluations build errs tol start ms) m := by
    simp [evaluations]
  rw [e, h]
  rcases lt_or_ge |∑ i, (renew build errs m0).grad i * (m i - (renew build errs m0).last i)| tol with hl | hl
  · rw [(C121_renewed_iff build errs tol _ m).1 hl]
    refine ⟨m0, ?_, rfl, hl⟩
    rcases List.mem_cons.1 hm with rfl | hm
    · simp
    · simp [hm]
  · rw [(C121_renewed_iff build errs tol _ m).2 hl]
    exact ⟨m, by simp, rfl, by simpa using ht⟩

theorem dens_unclipped (q : Quad n) (errs m : Fin (n + 1) → ℝ) (h : NotClipped q errs m) (k : Fin q.Q) : q.dens errs m k = Real.exp (q.power errs m k) := by
  unfold Quad.dens
  rw [max_eq_left (h k).1, min_eq_left (h k).2]

/-- The sum is convex. -/
theorem total_ge (q : Quad n) (errs m0 m : Fin (n + 1) → ℝ) (hw : ∀ k, 0 ≤ q.weights k) (h0 : NotClipped q errs m0) (h : NotClipped q errs m) :
    q.total errs m0 - ∑ i, q.grad errs m0 i * (m i - m0 i) ≤ q.total errs m := by
  have e : ∑ i, q.grad errs m0 i * (m i - m0 i) = ∑ k, q.dens errs m0 k * q.weights k * (q.power errs m0 k - q.power errs m k) := by
    have h1 : ∀ k, q.power errs m0 k - q.power errs m k = ∑ i, q.mom k i * ((m i - m0 i) / errs i) := by
      intro k
      unfold Quad.power
      rw [neg_sub_neg, ← Finset.sum_sub_distrib]
      exact Finset.sum_congr rfl fun i _ => by ring
    simp only [h1, Quad.grad, Finset.sum_div, Finset.sum_mul, Finset.mul_sum]
    rw [Finset.sum_comm]
    exact Finset.sum_congr rfl fun k _ => Finset.sum_congr rfl fun i _ => by ring
  rw [e]
  unfold Quad.total
  rw [← Finset.sum_sub_distrib]
  refine Finset.sum_le_sum fun k _ => ?_
  have h1 := Real.add_one_le_exp (q.power errs m k - q.power errs m0 k)
  have h2 : q.dens errs m k = q.dens errs m0 k * Real.exp (q.power errs m k - q.power errs m0 k) := by
    rw [dens_unclipped q errs m h, dens_unclipped q errs m0 h0, ← Real.exp_add]
    congr 1
    ring
  rw [h2]
  have h3 : 0 ≤ q.dens errs m0 k * q.weights k := mul_nonneg (Real.exp_pos _).le (hw k)
  nlinarith [mul_le_mul_of_nonneg_left h1 h3]

/-- **C121**: the integral seen by the minimizer is never more than the tolerance below the integral for the multipliers the quadrature was made for, if the weights are positive and no
exponent is clipped. -/
theorem C121_lower_bound_partial (build : (Fin (n + 1) → ℝ) → Quad n) (hw : ∀ m k, 0 ≤ (build m).weights k) (errs : Fin (n + 1) → ℝ) (tol : ℝ) (ht : 0 < tol) (start : Fin (n + 1) → ℝ)
    (ms : List (Fin (n + 1) → ℝ)) (m : Fin (n + 1) → ℝ) (hc : ∀ m0 ∈ start :: (ms ++ [m]), NotClipped (build m0) errs m0 ∧ NotClipped (build m0) errs m) :
    ∃ m0 ∈ start :: (ms ++ [m]), (evaluations build errs tol start (ms ++ [m])).quad = build m0 ∧ (build m0).total errs m0 - tol < (build m0).total errs m := by
  obtain ⟨m0, hm, h1, h2⟩ := C121_quadrature_partial build errs tol ht start ms m
  refine ⟨m0, hm, h1, ?_⟩
  have := total_ge (build m0) errs m0 m (hw m0) (hc m0 hm).1 (hc m0 hm).2
  have := (abs_lt.1 h2).2
  linarith

/-- **C121** fails at the start of every fit with moments whose integrals vanish (Legendre polynomials): the quadrature made for the uniform density is kept for all multipliers with the same
first component, however far they are. -/
theorem C121_counterexample_far (build : (Fin (n + 1) → ℝ) → Quad n) (errs : Fin (n + 1) → ℝ) (tol : ℝ) (ht : 0 < tol) (start : Fin (n + 1) → ℝ) (hs : ∀ i, i ≠ 0 → start i = 0)
    (h0 : ∀ k, (build start).mom k 0 = 1) (hz : ∀ i, i ≠ 0 → ∑ k, (build start).mom k i * (build start).weights k = 0)
    (ms : List (Fin (n + 1) → ℝ)) (hm : ∀ m ∈ ms, m 0 = start 0) : (evaluations build errs tol start ms).quad = build start := by
  have hg : ∀ i, i ≠ 0 → (build start).grad errs start i = 0 := by
    intro i hi
    have hp : ∀ k, (build start).power errs start k = -(start 0 / errs 0) := by
      intro k
      unfold Quad.power
      rw [Fin.sum_univ_succ]
      simp only [h0 k, one_mul]
      rw [Finset.sum_eq_zero, add_zero]
      intro j _
      rw [hs j.succ (Fin.succ_ne_zero j)]
      simp
    unfold Quad.grad Quad.dens
    simp only [hp]
    have : ∑ k, (build start).mom k i * Real.exp (min (max (-(start 0 / errs 0)) (-200)) 200) * (build start).weights k =
        Real.exp (min (max (-(start 0 / errs 0)) (-200)) 200) * ∑ k, (build start).mom k i * (build start).weights k := by
      rw [Finset.mul_sum]
      refine Finset.sum_congr rfl fun k _ => ?_
      ring
    rw [this, hz i hi, mul_zero, zero_div]
  have key : evaluations build errs tol start ms = renew build errs start := by
    unfold evaluations
    induction ms with
    | nil => rfl
    | cons m ms ih =>
      have h1 : update build errs tol (renew build errs start) m = renew build errs start := by
        apply (C121_renewed_iff build errs tol _ m).1
        have : ∑ i, (renew build errs start).grad i * (m i - (renew build errs start).last i) = 0 := by
          refine Finset.sum_eq_zero fun i _ => ?_
          by_cases hi : i = 0
          · subst hi
            have : m 0 - (renew build errs start).last 0 = 0 := sub_eq_zero.2 (hm m (by simp))
            rw [this, mul_zero]
          · have : (renew build errs start).grad i = 0 := hg i hi
            rw [this, zero_mul]
        rw [this, abs_zero]
        exact ht
      rw [List.foldl_cons, h1]
      exact ih fun m' h' => hm m' (List.mem_cons_of_mem _ h')
  rw [key]
  rfl

/-- For the examples: the moments `1, x` on (-1, 1) and rules that are exact for polynomials of degree 1; the interval is halved if the second multiplier is not zero. -/
noncomputable def exBuild (m : Fin 2 → ℝ) : Quad 1 := by
  classical exact if m 1 = 0 then ⟨2, ![1, 1], ![![1, -1 / 2], ![1, 1 / 2]]⟩ else ⟨4, ![1 / 2, 1 / 2, 1 / 2, 1 / 2], ![![1, -3 / 4], ![1, -1 / 4], ![1, 1 / 4], ![1, 3 / 4]]⟩

/-- The hypotheses of `C121_counterexample_far` hold for them. -/
theorem exBuild_far (tol : ℝ) (ht : 0 < tol) (t : ℝ) : (evaluations exBuild ![1, 1] tol ![0, 0] [![0, t]]).quad = exBuild ![0, 0] := by
  have e : exBuild ![0, 0] = ⟨2, ![1, 1], ![![1, -1 / 2], ![1, 1 / 2]]⟩ := if_pos rfl
  refine C121_counterexample_far exBuild _ tol ht _ ?_ ?_ ?_ _ ?_
  · intro i hi
    fin_cases i
    · exact absurd rfl hi
    · rfl
  · rw [e]
    intro k
    fin_cases k <;> rfl
  · rw [e]
    intro i hi
    fin_cases i
    · exact absurd rfl hi
    · simp [Fin.sum_univ_succ]
      norm_num
  · intro m hm
    rw [List.mem_singleton.1 hm]
    rfl

/-- **C121** fails: the value of the functional for given multipliers depends on what was evaluated before.  For the multipliers (0, 4) the integral is that of two points, `e² + e⁻²`, after an
evaluation at the start only, and that of four points, `(e³ + e + e⁻¹ + e⁻³) / 2`, if (1, 4) was evaluated between. -/
theorem C121_counterexample_history :
    (evaluations exBuild ![1, 1] (1 / 10) ![0, 0] [![0, 4]]).quad.total ![1, 1] ![0, 4] = Real.exp 2 + Real.exp (-2) ∧
    (evaluations exBuild ![1, 1] (1 / 10) ![0, 0] [![1, 4], ![0, 4]]).quad.total ![1, 1] ![0, 4] = (Real.exp 3 + Real.exp 1 + Real.exp (-1) + Real.exp (-3)) / 2 := by
  have e0 : exBuild ![0, 0] = ⟨2, ![1, 1], ![![1, -1 / 2], ![1, 1 / 2]]⟩ := if_pos rfl
  have e1 : ∀ t : ℝ, exBuild ![t, 4] = ⟨4, ![1 / 2, 1 / 2, 1 / 2, 1 / 2], ![![1, -3 / 4], ![1, -1 / 4], ![1, 1 / 4], ![1, 3 / 4]]⟩ := fun t => if_neg (by norm_num)
  constructor
  · rw [exBuild_far _ (by norm_num), e0]
    simp [Quad.total, Quad.dens, Quad.power, Fin.sum_univ_succ]
    norm_num
  · have h1 : (evaluations exBuild ![1, 1] (1 / 10) ![0, 0] [![1, 4]]) = renew exBuild ![1, 1] ![1, 4] := by
      refine (C121_renewed_iff exBuild ![1, 1] (1 / 10) (renew exBuild ![1, 1] ![0, 0]) ![1, 4]).2 ?_
      simp only [renew, e0]
      simp [Quad.grad, Quad.dens, Quad.power, Fin.sum_univ_succ]
      norm_num
    have h2 : (evaluations exBuild ![1, 1] (1 / 10) ![0, 0] [![1, 4], ![0, 4]]).quad = exBuild ![1, 4] := by
      obtain ⟨m0, hm, h⟩ := evaluations_inv exBuild ![1, 1] (1 / 10) ![0, 0] [![1, 4]]
      have e : evaluations exBuild ![1, 1] (1 / 10) ![0, 0] [![1, 4], ![0, 4]] = update exBuild ![1, 1] (1 / 10) (evaluations exBuild ![1, 1] (1 / 10) ![0, 0] [![1, 4]]) ![0, 4] := rfl
      rw [e, h1]
      rcases lt_or_ge |∑ i, (renew exBuild ![1, 1] ![1, 4]).grad i * ((![0, 4] : Fin 2 → ℝ) i - (renew exBuild ![1, 1] ![1, 4]).last i)| (1 / 10) with hl | hl
      · rw [(C121_renewed_iff exBuild _ _ _ _).1 hl]
        rfl
      · rw [(C121_renewed_iff exBuild _ _ _ _).2 hl, e1, e1]
    rw [h2, e1]
    simp [Quad.total, Quad.dens, Quad.power, Fin.sum_univ_succ]
    norm_num
    ring

end MLMC.Fit
