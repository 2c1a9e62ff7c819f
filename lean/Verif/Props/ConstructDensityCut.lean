import Verif.Proofs.ConstructDensityExamples
import Mathlib.Analysis.SpecialFunctions.Integrals.Basic
/-! # C103 Examples, and the moments of a density after a cut -/
namespace MLMC.Dens
open Mom Ex

theorem log6 : Real.log 6 ≤ 200 := by
  have := Real.log_le_sub_one_of_pos (show (0 : ℝ) < 6 by norm_num)
  linarith

theorem exp6 : Real.exp (min (max (-Real.log 6) (-200)) 200) = 1 / 6 := by
  have h := log6
  have h0 : 0 ≤ Real.log 6 := Real.log_nonneg (by norm_num)
  rw [max_eq_left (by linarith), min_eq_left (by linarith), Real.exp_neg, Real.exp_log (by norm_num)]
  norm_num

theorem value2 (x : ℝ) : value (s2.obj (.base (mono 2))) 0 x = 1 ∧ value (s2.obj (.base (mono 2))) 1 x = -x / 2 := by
  have h := fun i : Fin 2 => value_trans (mono 2) (by norm_num [mono]) (w := 2) L2 x x (mono_transform 2 x) i
  have v : ∀ i : Fin 2, value (.base (mono 2)) i.val x = Mom.pow x i.val := by
    intro i
    unfold value
    rw [row_mono 2 (by norm_num), getD_lt _ _ _ (by simpa using i.isLt)]
    simp
  simp only [v, Fin.sum_univ_two] at h
  refine ⟨(h 0).trans ?_, (h 1).trans ?_⟩
  · simp [L2, Mom.pow]
  · simp [L2, Mom.pow]; ring

theorem value3 (x : ℝ) : value (s3.obj (.base (mono 3))) 0 x = x / 2 ∧ value (s3.obj (.base (mono 3))) 1 x = -1 := by
  have h := fun i : Fin 2 => value_trans (mono 3) (by norm_num [mono]) (w := 3) L3 x x (mono_transform 3 x) i
  have v : ∀ i : Fin 3, value (.base (mono 3)) i.val x = Mom.pow x i.val := by
    intro i
    unfold value
    rw [row_mono 3 (by norm_num), getD_lt _ _ _ (by simpa using i.isLt)]
    simp
  simp only [v, Fin.sum_univ_three] at h
  refine ⟨(h 0).trans ?_, (h 1).trans ?_⟩
  · simp [L3, Mom.pow]; ring
  · simp [L3, Mom.pow]

/-- Multipliers of the uniform density. -/
noncomputable def mult2 : Fin (s2.n - s2.th.val + 1) → ℝ := fun i => if i.val = 0 then Real.log 6 else 0
noncomputable def mult3 : Fin (s3.n - s3.th.val + 1) → ℝ := fun i => if i.val = 0 then 0 else -Real.log 6

theorem density2 (x : ℝ) : s2.density (.base (mono 2)) mult2 x = 1 / 6 := by
  unfold Setup.density
  rw [← exp6]
  have : ∑ i : Fin 2, value (s2.obj (.base (mono 2))) i.val x * (if i.val = 0 then Real.log 6 else 0) = Real.log 6 := by
    rw [Fin.sum_univ_two]
    simp [(value2 x).1]
  exact congrArg (fun y => Real.exp (min (max (-y) (-200)) 200)) this

theorem density3 (x : ℝ) : s3.density (.base (mono 3)) mult3 x = 1 / 6 := by
  unfold Setup.density
  rw [← exp6]
  have : ∑ i : Fin 2, value (s3.obj (.base (mono 3))) i.val x * (if i.val = 0 then 0 else -Real.log 6) = Real.log 6 := by
    rw [Fin.sum_univ_two]
    simp [(value3 x).2]
  exact congrArg (fun y => Real.exp (min (max (-y) (-200)) 200)) this

theorem gradient2 : Fit.gradient (s2.data (.base (mono 2)) gauss fun _ _ => 0) mult2 = 0 := by
  funext i
  rw [gradient_eq]
  simp only [density2, Fin.sum_univ_two]
  have hi : i.val = 0 ∨ i.val = 1 := by have : i.val < 2 := i.isLt; omega
  rcases hi with hi | hi
  · rw [hi, (value2 _).1, (value2 _).1]
    simp [s2, gauss]
    norm_num
  · rw [hi, (value2 _).2, (value2 _).2]
    simp [s2, gauss]
    ring

theorem gradient3 : Fit.gradient (s3.data (.base (mono 3)) gauss fun _ _ => 0) mult3 = 0 := by
  funext i
  rw [gradient_eq]
  simp only [density3, Fin.sum_univ_two]
  have hi : i.val = 0 ∨ i.val = 1 := by have : i.val < 2 := i.isLt; omega
  rcases hi with hi | hi
  · rw [hi, (value3 _).1, (value3 _).1]
    simp [s3, gauss]
    ring
  · rw [hi, (value3 _).2, (value3 _).2]
    simp [s3, gauss]
    norm_num

theorem ids : IdsIdentify q := by intro a ha; simp [q, Quantity.selections] at ha

example : (∀ i < 2, [some 1, some 0].getD i none = some (fitted s2 (mono 2) gauss mult2 i)) ∧ finish mult2 1 = some mult2 := by
  have h := C103_all_moments_partial (by norm_num) built ids (by norm_num [mono]) twoWf lev call2 rfl gauss (fun k => ⟨_, mono_transform 2 _⟩) _ mult2 gradient2
  refine ⟨h.1, h.2 1 ?_⟩
  simp [Setup.integrand0, density2, Fin.sum_univ_two, gauss, (value2 _).1]
  norm_num

example : ∑ k, gauss.weights k * s3.density (.base (mono 3)) mult3 (gauss.points k) = 1 :=
  C103_mass (by norm_num) built ids (by norm_num [mono]) twoWf lev call3 gauss (fun k => ⟨_, mono_transform 3 _⟩) _ mult3 gradient3

/-- C103 fails after a cut.  Samples 2 and -2 and the monomials 1, t, t²: the gradient vanishes for the uniform density, whose second moment is 3 (by the quadrature and exactly), the estimated one is 4.
The normalization, made through the first constructed moment, here t/2, takes the logarithm of 0. -/
theorem C103_counterexample_cut : ∃ (s : Setup) (mu : List (Option ℝ)) (mult : Fin (s.n - s.th.val + 1) → ℝ),
    construct .monomial 3 (-3, 3) (.pair (-3) 3) false false = .ok (mono 3) ∧
    Call q (mono 3) 1 (asChunks 7 1 two) lib (1 / 10) s mu ∧ Fit.gradient (s.data (.base (mono 3)) gauss fun _ _ => 0) mult = 0 ∧
    (∀ x, s.density (.base (mono 3)) mult x = 1 / 6) ∧ fitted s (mono 3) gauss mult 2 = 3 ∧ ∫ x in (-3 : ℝ)..3, x ^ 2 * s.density (.base (mono 3)) mult x = 3 ∧ mu.getD 2 none = some 4 ∧
    finish mult (∫ x in (-3 : ℝ)..3, s.integrand0 (.base (mono 3)) mult x) = none := by
  refine ⟨s3, _, mult3, mono_ok 3 (by norm_num), call3, gradient3, density3, ?_, ?_, rfl, ?_⟩
  · have v : ∀ x, value (.base (mono 3)) 2 x = x * x := by
      intro x
      unfold value
      rw [row_mono 3 (by norm_num), getD_lt _ _ _ (by simp)]
      simp [Mom.pow]
    simp only [fitted, v, density3, Fin.sum_univ_two, gauss]
    simp
    norm_num
  · simp only [density3]
    rw [intervalIntegral.integral_mul_const, integral_pow]
    norm_num
  · have : ∫ x in (-3 : ℝ)..3, s3.integrand0 (.base (mono 3)) mult3 x = 0 := by
      have e : ∀ x, s3.integrand0 (.base (mono 3)) mult3 x = 1 / 12 * x := by
        intro x
        unfold Setup.integrand0
        rw [density3, (value3 x).1]
        ring
      simp only [e]
      rw [intervalIntegral.integral_const_mul, integral_id]
      norm_num
    rw [this]
    unfold finish
    rw [if_pos (le_refl _)]

/-- C103.  What the call refuses: quantities that are not scalars, and (after the work) a single kept moment. -/
theorem C103_refuses (lib : Lib) (q : Quantity (Option ℝ)) (o : Obj) (oid : Nat) (tol : ℝ) (nLevels : Nat) (chunks : List (Nat × (Nat → Except PyErr (Arr (Option ℝ)))))
    (s : Setup) (h : setup lib q o oid tol nLevels chunks = .ok s) : q.qtype = .scalar ∧ s.th.val < s.n := by
  obtain ⟨h1, -, h2, -⟩ := setup_ok h
  refine ⟨h1, ?_⟩
  unfold Ortho.kept at h2
  omega
end MLMC.Dens
