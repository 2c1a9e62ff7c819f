import Mathlib.Analysis.Matrix.Order
import Mathlib.Analysis.SpecialFunctions.ContinuousFunctionalCalculus.Rpow.IntegralRepresentation
import Mathlib.Analysis.SpecialFunctions.ImproperIntegrals
import Verif.Spec.Covariance
/-! Positive definite functions: Gaussians, powers of negative definite functions, exponentials. -/
namespace MLMC
open Matrix MeasureTheory

variable {ι : Type} [Fintype ι]

theorem isCov_iff (A : ι → ι → ℝ) : IsCovariance A ↔ (Matrix.of A).PosSemidef := by
  classical
  have q : ∀ c : ι → ℝ, star c ⬝ᵥ (Matrix.of A).mulVec c = ∑ i, ∑ j, c i * c j * A i j := by
    intro c
    simp only [dotProduct, mulVec, Matrix.of_apply, star_trivial, Finset.mul_sum]
    exact Finset.sum_congr rfl fun i _ => Finset.sum_congr rfl fun j _ => by ring
  rw [Matrix.posSemidef_iff_dotProduct_mulVec]
  constructor
  · intro h
    refine ⟨?_, fun c => by rw [q]; exact h.nonneg c⟩
    ext i j; simp [h.symm i j]
  · rintro ⟨h1, h2⟩
    refine ⟨fun i j => ?_, fun c => by rw [← q]; exact h2 c⟩
    have := congrFun (congrFun h1 j) i
    simpa using this

theorem isCov_mul {A B : ι → ι → ℝ} (ha : IsCovariance A) (hb : IsCovariance B) : IsCovariance fun i j => A i j * B i j := by
  rw [isCov_iff] at *
  exact ha.hadamard hb

theorem isCov_rank1 (f : ι → ℝ) : IsCovariance fun i j => f i * f j := by
  refine ⟨fun i j => mul_comm _ _, fun c => ?_⟩
  have : ∑ i, ∑ j, c i * c j * (f i * f j) = (∑ i, c i * f i) ^ 2 := by
    rw [sq, Finset.sum_mul_sum]
    exact Finset.sum_congr rfl fun i _ => Finset.sum_congr rfl fun j _ => by ring
  rw [this]; positivity

theorem isCov_pow {A : ι → ι → ℝ} (ha : IsCovariance A) (k : ℕ) : IsCovariance fun i j => A i j ^ k := by
  induction k with
  | zero => simpa using isCov_rank1 (fun _ : ι => (1 : ℝ))
  | succ k ih => simpa [pow_succ] using isCov_mul ih ha

theorem isCov_smul {A : ι → ι → ℝ} (ha : IsCovariance A) {r : ℝ} (hr : 0 ≤ r) : IsCovariance fun i j => r * A i j := by
  refine ⟨fun i j => by rw [ha.symm], fun c => ?_⟩
  have : ∑ i, ∑ j, c i * c j * (r * A i j) = r * ∑ i, ∑ j, c i * c j * A i j := by
    rw [Finset.mul_sum]
    refine Finset.sum_congr rfl fun i _ => ?_
    rw [Finset.mul_sum]
    exact Finset.sum_congr rfl fun j _ => by ring
  rw [this]; exact mul_nonneg hr (ha.nonneg c)

theorem isCov_exp {A : ι → ι → ℝ} (ha : IsCovariance A) : IsCovariance fun i j => Real.exp (A i j) := by
  refine ⟨fun i j => by rw [ha.symm], fun c => ?_⟩
  have h : HasSum (fun k : ℕ => ∑ i, ∑ j, c i * c j * (A i j ^ k / (k.factorial : ℝ))) (∑ i, ∑ j, c i * c j * Real.exp (A i j)) := by
    refine hasSum_sum fun i _ => hasSum_sum fun j _ => HasSum.mul_left _ ?_
    rw [Real.exp_eq_exp_ℝ]
    exact NormedSpace.expSeries_div_hasSum_exp (A i j)
  refine h.nonneg fun k => ?_
  have := (isCov_smul (isCov_pow ha k) (r := ((k.factorial : ℝ))⁻¹) (by positivity)).nonneg c
  simpa [div_eq_inv_mul] using this

/-- Squared distances, in the sense that matters: `s i j = |y i|² + |y j|² - 2 (y i, y j)`. -/
structure IsSqDist (s : ι → ι → ℝ) : Prop where
  rep : ∃ (d : ι → ℝ) (g : ι → ι → ℝ), IsCovariance g ∧ ∀ i j, s i j = d i + d j - 2 * g i j
  nonneg : ∀ i j, 0 ≤ s i j
  self : ∀ i, s i i = 0

theorem IsSqDist.symm {s : ι → ι → ℝ} (h : IsSqDist s) (i j : ι) : s i j = s j i := by
  obtain ⟨d, g, hg, e⟩ := h.rep
  rw [e, e, hg.symm i j]; ring

theorem gauss_cov {s : ι → ι → ℝ} (h : IsSqDist s) {u : ℝ} (hu : 0 ≤ u) : IsCovariance fun i j => Real.exp (-(u * s i j)) := by
  obtain ⟨d, g, hg, e⟩ := h.rep
  have := isCov_mul (isCov_rank1 fun i => Real.exp (-(u * d i))) (isCov_exp (isCov_smul hg (r := 2 * u) (by positivity)))
  have e' : (fun i j => Real.exp (-(u * s i j))) = fun i j => Real.exp (-(u * d i)) * Real.exp (-(u * d j)) * Real.exp (2 * u * g i j) := by
    funext i j
    rw [← Real.exp_add, ← Real.exp_add, e]; congr 1; ring
  rw [e']; exact this

theorem inv_cov {s : ι → ι → ℝ} (h : IsSqDist s) {t : ℝ} (ht : 0 < t) : IsCovariance fun i j => (t + s i j)⁻¹ := by
  refine ⟨fun i j => by rw [h.symm], fun c => ?_⟩
  have hneg : ∀ i j, -(t + s i j) < 0 := fun i j => by have := h.nonneg i j; linarith
  have hI : ∀ i j, IntegrableOn (fun u : ℝ => Real.exp (-(t + s i j) * u)) (Set.Ioi 0) := fun i j => integrableOn_exp_mul_Ioi (hneg i j) 0
  have hv : ∀ i j, (t + s i j)⁻¹ = ∫ u in Set.Ioi (0 : ℝ), Real.exp (-(t + s i j) * u) := by
    intro i j
    rw [integral_exp_mul_Ioi (hneg i j) 0]
    rw [mul_zero, Real.exp_zero, neg_div_neg_eq, one_div]
  have : ∑ i, ∑ j, c i * c j * (t + s i j)⁻¹ = ∫ u in Set.Ioi (0 : ℝ), ∑ i, ∑ j, c i * c j * Real.exp (-(t + s i j) * u) := by
    rw [integral_finsetSum _ fun i _ => integrable_finsetSum _ fun j _ => (hI i j).const_mul _]
    refine Finset.sum_congr rfl fun i _ => ?_
    rw [integral_finsetSum _ fun j _ => (hI i j).const_mul _]
    refine Finset.sum_congr rfl fun j _ => ?_
    rw [integral_const_mul, hv]
  rw [this]
  refine setIntegral_nonneg measurableSet_Ioi fun u hu => ?_
  have hu : (0 : ℝ) ≤ u := le_of_lt hu
  have := (isCov_smul (gauss_cov h hu) (r := Real.exp (-(t * u))) (Real.exp_pos _).le).nonneg c
  convert this using 6 with i _ j _
  rw [← Real.exp_add]; congr 1; ring

theorem pow_negdef {s : ι → ι → ℝ} (h : IsSqDist s) {p : ℝ} (hp : p ∈ Set.Ioo (0 : ℝ) 1) (c : ι → ℝ) (hc : ∑ i, c i = 0) :
    ∑ i, ∑ j, c i * c j * s i j ^ p ≤ 0 := by
  have hI : ∀ i j, IntegrableOn (fun t : ℝ => Real.rpowIntegrand₀₁ p t (s i j)) (Set.Ioi 0) := fun i j =>
    Real.integrableOn_rpowIntegrand₀₁_Ioi hp (h.nonneg i j)
  have hpos := Real.integral_rpowIntegrand₀₁_one_pos hp
  have e : ∑ i, ∑ j, c i * c j * s i j ^ p = (∫ t in Set.Ioi (0 : ℝ), Real.rpowIntegrand₀₁ p t 1)⁻¹ *
      ∫ t in Set.Ioi (0 : ℝ), ∑ i, ∑ j, c i * c j * Real.rpowIntegrand₀₁ p t (s i j) := by
    rw [integral_finsetSum _ fun i _ => integrable_finsetSum _ fun j _ => (hI i j).const_mul _, Finset.mul_sum]
    refine Finset.sum_congr rfl fun i _ => ?_
    rw [integral_finsetSum _ fun j _ => (hI i j).const_mul _, Finset.mul_sum]
    refine Finset.sum_congr rfl fun j _ => ?_
    rw [integral_const_mul, Real.rpow_eq_const_mul_integral hp (h.nonneg i j)]; ring
  rw [e]
  refine mul_nonpos_of_nonneg_of_nonpos (by positivity) ?_
  refine setIntegral_nonpos measurableSet_Ioi fun t ht => ?_
  have ht : (0 : ℝ) < t := ht
  have e2 : ∑ i, ∑ j, c i * c j * Real.rpowIntegrand₀₁ p t (s i j) =
      t ^ p * (t⁻¹ * ((∑ i, c i) * ∑ j, c j) - ∑ i, ∑ j, c i * c j * (t + s i j)⁻¹) := by
    rw [Finset.sum_mul_sum, Finset.mul_sum, ← Finset.sum_sub_distrib, Finset.mul_sum]
    refine Finset.sum_congr rfl fun i _ => ?_
    rw [Finset.mul_sum, ← Finset.sum_sub_distrib, Finset.mul_sum]
    refine Finset.sum_congr rfl fun j _ => ?_
    unfold Real.rpowIntegrand₀₁; ring
  rw [e2, hc]
  have := (inv_cov h ht).nonneg c
  have h2 : 0 ≤ t ^ p := by positivity
  nlinarith

/-- Schoenberg: `exp(-s^p)` for squared distances `s` and `0 < p ≤ 1`. -/
theorem exp_pow_cov {s : ι → ι → ℝ} (h : IsSqDist s) {p : ℝ} (h0 : 0 < p) (h1 : p ≤ 1) : IsCovariance fun i j => Real.exp (-(s i j ^ p)) := by
  classical
  rcases h1.eq_or_lt with rfl | h1
  · simpa using gauss_cov h (u := 1) zero_le_one
  rcases isEmpty_or_nonempty ι with he | ⟨⟨o⟩⟩
  · exact ⟨fun i => he.elim i, fun c => by simp⟩
  have hB : IsCovariance fun i j => s i o ^ p + s j o ^ p - s i j ^ p := by
    refine ⟨fun i j => by rw [h.symm i j]; ring, fun c => ?_⟩
    have hn := pow_negdef h ⟨h0, h1⟩ (fun i => c i - if i = o then ∑ k, c k else 0) (by simp)
    have h00 : s o o ^ p = 0 := by rw [h.self, Real.zero_rpow h0.ne']
    have e : ∑ i, ∑ j, (c i - if i = o then ∑ k, c k else 0) * (c j - if j = o then ∑ k, c k else 0) * s i j ^ p =
        ∑ i, ∑ j, c i * c j * s i j ^ p - (∑ k, c k) * ∑ i, c i * s i o ^ p - (∑ k, c k) * ∑ j, c j * s j o ^ p := by
      have e1 : ∀ i j, (c i - if i = o then ∑ k, c k else 0) * (c j - if j = o then ∑ k, c k else 0) * s i j ^ p =
          c i * c j * s i j ^ p - (if j = o then c i * (∑ k, c k) * s i j ^ p else 0) - (if i = o then (∑ k, c k) * c j * s i j ^ p else 0)
          + (if i = o then if j = o then (∑ k, c k) * (∑ k, c k) * s i j ^ p else 0 else 0) := by
        intro i j; split_ifs <;> ring
      simp only [e1, Finset.sum_add_distrib, Finset.sum_sub_distrib, Finset.sum_ite_eq', Finset.mem_univ, if_true]
      have e2 : ∑ i, ∑ j, (if i = o then (∑ k, c k) * c j * s i j ^ p else 0) = ∑ j, (∑ k, c k) * c j * s j o ^ p := by
        rw [Finset.sum_comm]
        refine Finset.sum_congr rfl fun j _ => ?_
        rw [Finset.sum_ite_eq' _ o]; simp [h.symm o j]
      have e3 : ∑ i, ∑ j, (if i = o then if j = o then (∑ k, c k) * (∑ k, c k) * s i j ^ p else 0 else 0) = 0 := by
        rw [Finset.sum_comm]
        simp [h00]
      rw [e2, e3, Finset.mul_sum, add_zero]
      congr 1
      · congr 1
        exact Finset.sum_congr rfl fun i _ => by ring
      · exact Finset.sum_congr rfl fun i _ => by ring
    rw [e] at hn
    have e4 : ∑ i, ∑ j, c i * c j * (s i o ^ p + s j o ^ p - s i j ^ p) =
        (∑ k, c k) * ∑ i, c i * s i o ^ p + (∑ k, c k) * ∑ j, c j * s j o ^ p - ∑ i, ∑ j, c i * c j * s i j ^ p := by
      have e5 : ∑ i, ∑ j, (c i * s i o ^ p) * c j = (∑ i, c i * s i o ^ p) * ∑ j, c j := (Finset.sum_mul_sum _ _ _ _).symm
      have e6 : ∑ i, ∑ j, c i * (c j * s j o ^ p) = (∑ i, c i) * ∑ j, c j * s j o ^ p := (Finset.sum_mul_sum _ _ _ _).symm
      have e7 : ∑ i, ∑ j, c i * c j * (s i o ^ p + s j o ^ p - s i j ^ p) =
          ∑ i, ∑ j, (c i * s i o ^ p) * c j + ∑ i, ∑ j, c i * (c j * s j o ^ p) - ∑ i, ∑ j, c i * c j * s i j ^ p := by
        rw [← Finset.sum_add_distrib, ← Finset.sum_sub_distrib]
        refine Finset.sum_congr rfl fun i _ => ?_
        rw [← Finset.sum_add_distrib, ← Finset.sum_sub_distrib]
        exact Finset.sum_congr rfl fun j _ => by ring
      rw [e7, e5, e6]; ring
    rw [e4]; linarith
  have := isCov_mul (isCov_rank1 fun i => Real.exp (-(s i o ^ p))) (isCov_exp hB)
  have e' : (fun i j => Real.exp (-(s i j ^ p))) = fun i j => Real.exp (-(s i o ^ p)) * Real.exp (-(s j o ^ p)) * Real.exp (s i o ^ p + s j o ^ p - s i j ^ p) := by
    funext i j
    rw [← Real.exp_add, ← Real.exp_add]; congr 1; ring
  rw [e']; exact this

end MLMC
