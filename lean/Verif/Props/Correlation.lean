import Verif.Model.KarhunenLoeve
import Verif.Proofs.PosDef
/-! # C88 Correlation matrices are covariance matrices -/
namespace MLMC.RF

theorem sqDist {d n : Nat} {K : Fin d → Fin d → ℝ} (hK : IsCovariance K) (x : Fin n → Fin d → ℝ) :
    IsSqDist fun i j => ∑ b, (∑ a, (x j a - x i a) * K a b) * (x j b - x i b) := by
  have hq : ∀ v : Fin d → ℝ, ∑ b, (∑ a, v a * K a b) * v b = ∑ a, ∑ b, v a * v b * K a b := by
    intro v
    rw [Finset.sum_comm]
    refine Finset.sum_congr rfl fun b _ => ?_
    rw [Finset.sum_mul]
    exact Finset.sum_congr rfl fun a _ => by ring
  refine ⟨⟨fun i => ∑ a, ∑ b, x i a * x i b * K a b, fun i j => ∑ a, ∑ b, x i a * x j b * K a b, ⟨?_, ?_⟩, ?_⟩, ?_, ?_⟩
  · intro i j
    rw [Finset.sum_comm]
    exact Finset.sum_congr rfl fun b _ => Finset.sum_congr rfl fun a _ => by rw [hK.symm a b]; ring
  · intro c
    have := hK.nonneg fun a => ∑ i, c i * x i a
    refine this.trans_eq ?_
    have e : ∀ a b, (∑ i, c i * x i a) * (∑ i, c i * x i b) * K a b = ∑ i, ∑ j, c i * c j * (x i a * x j b * K a b) := by
      intro a b
      rw [Finset.sum_mul_sum, Finset.sum_mul]
      refine Finset.sum_congr rfl fun i _ => ?_
      rw [Finset.sum_mul]
      exact Finset.sum_congr rfl fun j _ => by ring
    calc ∑ a, ∑ b, (∑ i, c i * x i a) * (∑ i, c i * x i b) * K a b
        = ∑ a, ∑ b, ∑ i, ∑ j, c i * c j * (x i a * x j b * K a b) :=
          Finset.sum_congr rfl fun a _ => Finset.sum_congr rfl fun b _ => e a b
      _ = ∑ a, ∑ i, ∑ b, ∑ j, c i * c j * (x i a * x j b * K a b) := Finset.sum_congr rfl fun a _ => Finset.sum_comm
      _ = ∑ i, ∑ a, ∑ b, ∑ j, c i * c j * (x i a * x j b * K a b) := Finset.sum_comm
      _ = ∑ i, ∑ a, ∑ j, ∑ b, c i * c j * (x i a * x j b * K a b) :=
          Finset.sum_congr rfl fun i _ => Finset.sum_congr rfl fun a _ => Finset.sum_comm
      _ = ∑ i, ∑ j, ∑ a, ∑ b, c i * c j * (x i a * x j b * K a b) := Finset.sum_congr rfl fun i _ => Finset.sum_comm
      _ = ∑ i, ∑ j, c i * c j * ∑ a, ∑ b, x i a * x j b * K a b := by simp only [Finset.mul_sum]
  · intro i j
    rw [hq]
    have e : ∑ a, ∑ b, x i a * x j b * K a b = ∑ a, ∑ b, x j a * x i b * K a b := by
      rw [Finset.sum_comm]
      exact Finset.sum_congr rfl fun b _ => Finset.sum_congr rfl fun a _ => by rw [hK.symm a b]; ring
    have e2 : ∀ a b, (x j a - x i a) * (x j b - x i b) * K a b =
        x i a * x i b * K a b + x j a * x j b * K a b - x i a * x j b * K a b - x j a * x i b * K a b := fun a b => by ring
    simp only [e2, Finset.sum_sub_distrib, Finset.sum_add_distrib]
    rw [← e]; ring
  · intro i j; rw [hq]; exact hK.nonneg _
  · intro i; simp

/-- C88: for every positive semidefinite tensor, every correlation exponent between 0 (excluded) and 2, and any points, the matrix filled by `cov_matrix`
is symmetric and positive semidefinite, with ones on the diagonal and entries between 0 and 1. -/
theorem C88_correlation_matrix_partial {d n : Nat} (K : Fin d → Fin d → ℝ) (hK : IsCovariance K) (alpha : ℝ) (h0 : 0 < alpha) (h2 : alpha ≤ 2)
    (x : Fin n → Fin d → ℝ) :
    IsCovariance (fun i j => correlation K alpha (x i) (x j)) ∧ (∀ i, correlation K alpha (x i) (x i) = 1) ∧
    ∀ i j, 0 < correlation K alpha (x i) (x j) ∧ correlation K alpha (x i) (x j) ≤ 1 := by
  have hs := sqDist hK x
  refine ⟨exp_pow_cov hs (by linarith) (by linarith), ?_, fun i j => ⟨Real.exp_pos _, ?_⟩⟩
  · intro i
    unfold correlation
    rw [hs.self i, Real.zero_rpow (by positivity)]; simp
  · unfold correlation
    rw [Real.exp_le_one_iff, neg_nonpos]
    exact Real.rpow_nonneg (hs.nonneg i j) _

/-- C88 for a scalar correlation length: the tensor is positive semidefinite. -/
theorem C88_correlation_length (d : Nat) (corrLength : ℝ) (K : Fin d → Fin d → ℝ) (h : isotropicTensor d corrLength = .ok K) :
    IsCovariance K ∧ ∀ p q : Fin d → ℝ, ∑ b, (∑ a, (q a - p a) * K a b) * (q b - p b) = (∑ a, (q a - p a) ^ 2) / corrLength ^ 2 := by
  unfold isotropicTensor at h
  split at h
  · obtain rfl := Except.ok.inj h
    have e : ∀ v : Fin d → ℝ, ∑ b, (∑ a, v a * if a = b then 1 / corrLength ^ 2 else 0) * v b = (∑ a, v a ^ 2) / corrLength ^ 2 := by
      intro v
      rw [Finset.sum_div]
      refine Finset.sum_congr rfl fun b _ => ?_
      simp; ring
    refine ⟨⟨fun i j => by simp [eq_comm], fun c => ?_⟩, fun p q => e fun a => q a - p a⟩
    have : ∑ i, ∑ j, c i * c j * (if i = j then 1 / corrLength ^ 2 else 0) = (∑ a, c a ^ 2) / corrLength ^ 2 := by
      rw [Finset.sum_div]
      refine Finset.sum_congr rfl fun b _ => ?_
      simp; ring
    rw [this]; positivity
  · simp at h

/-- C88 fails for every correlation exponent above 2, although the constructor accepts "a float (should be >= 1)": some three points on a line have
a matrix that is not positive semidefinite. -/
theorem C88_counterexample_exponent (alpha : ℝ) (h : 2 < alpha) :
    ∃ x : Fin 3 → Fin 1 → ℝ, ¬ IsCovariance fun i j => correlation (fun _ _ => 1) alpha (x i) (x j) := by
  set c : ℝ := 2 ^ alpha with hc
  have hc4 : 4 < c := by
    have : (2 : ℝ) ^ (2 : ℝ) < 2 ^ alpha := Real.rpow_lt_rpow_of_exponent_lt (by norm_num) h
    norm_num at this; exact this
  set z : ℝ := (c - 4) / c ^ 2 with hz
  have hz0 : 0 < z := by rw [hz]; apply div_pos <;> [linarith; positivity]
  set δ : ℝ := z ^ (1 / alpha) with hδ
  have hδ0 : 0 ≤ δ := by rw [hδ]; positivity
  have hpow : ∀ r : ℝ, 0 ≤ r → ((r * δ) * (r * δ)) ^ (alpha / 2) = r ^ alpha * z := by
    intro r hr
    rw [← sq, ← Real.rpow_natCast, ← Real.rpow_mul (by positivity), Real.mul_rpow hr hδ0]
    have e1 : ((2 : ℕ) : ℝ) * (alpha / 2) = alpha := by push_cast; ring
    rw [e1, hδ, ← Real.rpow_mul hz0.le, one_div, inv_mul_cancel₀ (by linarith), Real.rpow_one]
  refine ⟨fun i _ => i.val * δ, fun hcov => ?_⟩
  have v : ∀ i j : Fin 3, ∀ r : ℝ, 0 ≤ r → ((j.val : ℝ) - i.val = r ∨ (j.val : ℝ) - i.val = -r) →
      correlation (fun _ _ => 1) alpha (fun _ : Fin 1 => (i.val : ℝ) * δ) (fun _ => (j.val : ℝ) * δ) = Real.exp (-(r ^ alpha * z)) := by
    intro i j r hr hij
    unfold correlation
    rw [← hpow r hr]
    simp only [Finset.univ_unique, Finset.sum_const, Finset.card_singleton, one_smul, mul_one, ← sub_mul]
    rcases hij with e | e <;> rw [e]
    congr 3; ring
  have z0 : (0 : ℝ) ^ alpha = 0 := Real.zero_rpow (by linarith)
  have hn := hcov.nonneg ![1, -2 * Real.exp (-z), 1]
  simp only [Fin.sum_univ_three, Matrix.cons_val_zero, Matrix.cons_val_one, Matrix.cons_val] at hn
  rw [v 0 0 0 le_rfl (by norm_num), v 0 1 1 (by norm_num) (by norm_num), v 0 2 2 (by norm_num) (by norm_num),
    v 1 0 1 (by norm_num) (by norm_num), v 1 1 0 le_rfl (by norm_num), v 1 2 1 (by norm_num) (by norm_num),
    v 2 0 2 (by norm_num) (by norm_num), v 2 1 1 (by norm_num) (by norm_num), v 2 2 0 le_rfl (by norm_num)] at hn
  rw [z0, Real.one_rpow] at hn
  simp only [zero_mul, neg_zero, Real.exp_zero, one_mul] at hn
  have e1 : 1 - z ≤ Real.exp (-z) := by have := Real.add_one_le_exp (-z); linarith
  have hcz : 0 < c * z := by positivity
  have e2 : Real.exp (-(c * z)) ≤ 1 / (1 + c * z) := by
    rw [Real.exp_neg, one_div]
    apply inv_anti₀ (by positivity)
    have := Real.add_one_le_exp (c * z); linarith
  rw [← hc] at hn
  have hz1 : c ^ 2 * z = c - 4 := by rw [hz]; field_simp
  have e3 : 1 / (1 + c * z) < 1 - 4 * z := by
    rw [div_lt_iff₀ (by positivity)]
    have h1 : c * (c - 4 - 4 * (c * z)) = (c - 4) ^ 2 := by linear_combination -4 * hz1
    have h2 : 0 < c - 4 - 4 * (c * z) := by
      have : 0 < c * (c - 4 - 4 * (c * z)) := by rw [h1]; apply pow_pos; linarith
      exact (mul_pos_iff_of_pos_left (by linarith)).1 this
    nlinarith [mul_pos hz0 h2]
  have e4 : 1 - 2 * z ≤ Real.exp (-z) ^ 2 := by
    rw [← Real.exp_nat_mul]
    have := Real.add_one_le_exp (((2 : ℕ) : ℝ) * -z); push_cast at this ⊢; linarith
  nlinarith

/-! ## The hypotheses are met -/

example : IsCovariance fun i j : Fin 2 => correlation (fun a b : Fin 2 => if a = b then (4 : ℝ) else 0) 1 (![![0, 0], ![1, 1 / 2]] i) (![![0, 0], ![1, 1 / 2]] j) := by
  obtain ⟨K, hK⟩ : ∃ K, isotropicTensor 2 (1 / 2) = .ok K := by
    unfold isotropicTensor; rw [if_pos (by norm_num)]; exact ⟨_, rfl⟩
  have e : K = fun a b : Fin 2 => if a = b then (4 : ℝ) else 0 := by
    unfold isotropicTensor at hK
    rw [if_pos (by norm_num)] at hK
    rw [← Except.ok.inj hK]; norm_num
  rw [← e]
  exact (C88_correlation_matrix_partial K (C88_correlation_length 2 (1 / 2) K hK).1 1 (by norm_num) (by norm_num) _).1

end MLMC.RF
