import Mathlib.Analysis.Matrix.Order
import Mathlib.Data.Fin.Tuple.Sort
import Mathlib.Probability.Distributions.Gaussian.Real
import Mathlib.Probability.Independence.InfinitePi
import Mathlib.Analysis.SpecialFunctions.ContinuousFunctionalCalculus.Rpow.Basic
import Verif.Proofs.PosDef
import Verif.Model.KarhunenLoeve
/-! Singular value decompositions of covariance matrices, truncation, and linear images of noise. -/
namespace MLMC
open MeasureTheory ProbabilityTheory

section svd
open Matrix MatrixOrder
variable {n : Nat} {C U V : Nat → Nat → ℝ} {ev : Nat → ℝ}

/-- A function of two numbers as a matrix. -/
def mat (n : Nat) (A : Nat → Nat → ℝ) : Matrix (Fin n) (Fin n) ℝ := Matrix.of fun i j => A i j

theorem IsSvd.orth (h : IsSvd n C U V ev) : (mat n U)ᵀ * mat n U = 1 := by
  ext k k'
  rw [mul_apply, one_apply]
  have := h.left k k.2 k' k'.2
  rw [Finset.sum_range] at this
  simp only [mat, transpose_apply, of_apply, this, Fin.ext_iff]

theorem IsSvd.orthV (h : IsSvd n C U V ev) : (mat n V)ᵀ * mat n V = 1 := by
  ext k k'
  rw [mul_apply, one_apply]
  have := h.right k k.2 k' k'.2
  rw [Finset.sum_range] at this
  simp only [mat, transpose_apply, of_apply, this, Fin.ext_iff]

theorem IsSvd.mat_eq (h : IsSvd n C U V ev) : mat n C = mat n U * diagonal (fun k : Fin n => ev k) * (mat n V)ᵀ := by
  ext i j
  rw [mul_apply]
  simp only [mul_diagonal, mat, transpose_apply, of_apply]
  rw [h.product i i.2 j j.2, Finset.sum_range]

/-- For a covariance matrix the right factor is not needed. -/
theorem IsSvd.cov (h : IsSvd n C U V ev) (hC : IsCovariance fun i j : Fin n => C i j) :
    ∀ i < n, ∀ j < n, C i j = ∑ k ∈ Finset.range n, ev k * U i k * U j k := by
  have hpsd : (mat n C).PosSemidef := (isCov_iff _).1 hC
  have hsym : (mat n C)ᵀ = mat n C := by
    have := hpsd.isHermitian
    rwa [IsHermitian, conjTranspose_eq_transpose_of_trivial] at this
  have hA : (mat n U * diagonal (fun k : Fin n => ev k) * (mat n U)ᵀ).PosSemidef := by
    have hd : (diagonal (fun k : Fin n => ev k)).PosSemidef := PosSemidef.diagonal fun k => h.nonneg k k.2
    have := hd.mul_mul_conjTranspose_same (mat n U)
    rwa [conjTranspose_eq_transpose_of_trivial] at this
  have e : mat n C * mat n C =
      (mat n U * diagonal (fun k : Fin n => ev k) * (mat n U)ᵀ) * (mat n U * diagonal (fun k : Fin n => ev k) * (mat n U)ᵀ) := by
    have e1 : mat n C * mat n C = mat n C * (mat n C)ᵀ := by rw [hsym]
    rw [e1, h.mat_eq]
    simp only [transpose_mul, transpose_transpose, diagonal_transpose, Matrix.mul_assoc]
    rw [← Matrix.mul_assoc (mat n V)ᵀ, h.orthV, ← Matrix.mul_assoc (mat n U)ᵀ (mat n U), h.orth]
  have := (CFC.mul_self_eq_mul_self_iff _ _ (nonneg_iff_posSemidef.2 hpsd) (nonneg_iff_posSemidef.2 hA)).1 e
  intro i hi j hj
  have e2 := congrFun (congrFun this ⟨i, hi⟩) ⟨j, hj⟩
  rw [mul_apply] at e2
  simp only [mul_diagonal, mat, transpose_apply, of_apply] at e2
  rw [e2, Finset.sum_range]
  exact Finset.sum_congr rfl fun k _ => by ring

/-- Singular values as quadratic forms. -/
theorem IsSvd.form (h : IsSvd n C U V ev) (hC : IsCovariance fun i j : Fin n => C i j) :
    ∀ k < n, ∑ i ∈ Finset.range n, ∑ j ∈ Finset.range n, U i k * U j k * C i j = ev k := by
  intro k hk
  have e1 : ∀ i ∈ Finset.range n, ∀ j ∈ Finset.range n, U i k * U j k * C i j = ∑ l ∈ Finset.range n, ev l * ((U i k * U i l) * (U j k * U j l)) := by
    intro i hi j hj
    rw [h.cov hC i (Finset.mem_range.1 hi) j (Finset.mem_range.1 hj), Finset.mul_sum]
    exact Finset.sum_congr rfl fun l _ => by ring
  calc ∑ i ∈ Finset.range n, ∑ j ∈ Finset.range n, U i k * U j k * C i j
      = ∑ i ∈ Finset.range n, ∑ j ∈ Finset.range n, ∑ l ∈ Finset.range n, ev l * ((U i k * U i l) * (U j k * U j l)) :=
        Finset.sum_congr rfl fun i hi => Finset.sum_congr rfl fun j hj => e1 i hi j hj
    _ = ∑ i ∈ Finset.range n, ∑ l ∈ Finset.range n, ∑ j ∈ Finset.range n, ev l * ((U i k * U i l) * (U j k * U j l)) :=
        Finset.sum_congr rfl fun i _ => Finset.sum_comm
    _ = ∑ l ∈ Finset.range n, ∑ i ∈ Finset.range n, ∑ j ∈ Finset.range n, ev l * ((U i k * U i l) * (U j k * U j l)) := Finset.sum_comm
    _ = ∑ l ∈ Finset.range n, ev l * ((∑ i ∈ Finset.range n, U i k * U i l) * (∑ j ∈ Finset.range n, U j k * U j l)) := by
        refine Finset.sum_congr rfl fun l _ => ?_
        rw [Finset.sum_mul_sum, Finset.mul_sum]
        exact Finset.sum_congr rfl fun i _ => by rw [Finset.mul_sum]
    _ = ∑ l ∈ Finset.range n, if k = l then ev l else 0 := by
        refine Finset.sum_congr rfl fun l hl => ?_
        rw [h.left k hk l (Finset.mem_range.1 hl)]
        split_ifs <;> simp
    _ = ev k := by rw [Finset.sum_ite_eq, if_pos (Finset.mem_range.2 hk)]

/-- The rows of the left factor are orthonormal, too. -/
theorem IsSvd.rows (h : IsSvd n C U V ev) : ∀ i < n, ∑ k ∈ Finset.range n, U i k ^ 2 = 1 := by
  intro i hi
  have h1 : mat n U * (mat n U)ᵀ = 1 := mul_eq_one_comm.1 h.orth
  have := congrFun (congrFun h1 ⟨i, hi⟩) ⟨i, hi⟩
  rw [mul_apply, one_apply_eq] at this
  simp only [mat, transpose_apply, of_apply] at this
  rw [Finset.sum_range, ← this]
  exact Finset.sum_congr rfl fun k _ => by ring

theorem IsSvd.tail (h : IsSvd n C U V ev) (m : Nat) (hm : m < n) (i j : Nat) (hi : i < n) (hj : j < n) :
    |∑ k ∈ Finset.Ico m n, ev k * U i k * U j k| ≤ ev m := by
  have h0 := h.nonneg m hm
  have hs : ∀ i < n, ∑ k ∈ Finset.Ico m n, U i k ^ 2 ≤ 1 := by
    intro i hi
    rw [← h.rows i hi]
    refine Finset.sum_le_sum_of_subset_of_nonneg ?_ fun k _ _ => sq_nonneg _
    intro k hk; rw [Finset.mem_Ico] at hk; exact Finset.mem_range.2 hk.2
  calc |∑ k ∈ Finset.Ico m n, ev k * U i k * U j k|
      ≤ ∑ k ∈ Finset.Ico m n, |ev k * U i k * U j k| := Finset.abs_sum_le_sum_abs _ _
    _ ≤ ∑ k ∈ Finset.Ico m n, ev m * ((U i k ^ 2 + U j k ^ 2) / 2) := by
        refine Finset.sum_le_sum fun k hk => ?_
        rw [Finset.mem_Ico] at hk
        rw [mul_assoc, abs_mul, abs_of_nonneg (h.nonneg k hk.2)]
        refine mul_le_mul (h.decreasing m k hk.1 hk.2) ?_ (abs_nonneg _) h0
        rw [abs_le]
        constructor <;> nlinarith [sq_nonneg (U i k + U j k), sq_nonneg (U i k - U j k)]
    _ = ev m * ((∑ k ∈ Finset.Ico m n, U i k ^ 2 + ∑ k ∈ Finset.Ico m n, U j k ^ 2) / 2) := by
        rw [← Finset.mul_sum, ← Finset.sum_div, Finset.sum_add_distrib]
    _ ≤ ev m * 1 := by
        refine mul_le_mul_of_nonneg_left ?_ h0
        have := hs i hi; have := hs j hj; linarith
    _ = ev m := mul_one _

/-- Every covariance matrix has a decomposition. -/
theorem exists_svd (hC : IsCovariance fun i j : Fin n => C i j) : ∃ U ev, IsSvd n C U U ev := by
  have hpsd : (mat n C).PosSemidef := (isCov_iff _).1 hC
  have hA := hpsd.isHermitian
  set W : Matrix (Fin n) (Fin n) ℝ := hA.eigenvectorUnitary.val with hW
  have hsp : mat n C = W * diagonal hA.eigenvalues * Wᵀ := by
    have := hA.spectral_theorem
    rw [Unitary.conjStarAlgAut_apply] at this
    rw [star_eq_conjTranspose, conjTranspose_eq_transpose_of_trivial] at this
    exact this
  have hU : Wᵀ * W = 1 := by
    have := Unitary.coe_star_mul_self hA.eigenvectorUnitary
    rw [star_eq_conjTranspose, conjTranspose_eq_transpose_of_trivial] at this
    exact this
  set σ : Fin n ≃ Fin n := Fin.revPerm.trans (Tuple.sort hA.eigenvalues) with hσ
  have hmono := Tuple.monotone_sort hA.eigenvalues
  have horth : ∀ k k' : Fin n, ∑ i, W i (σ k) * W i (σ k') = if k = k' then 1 else 0 := by
    intro k k'
    have := congrFun (congrFun hU (σ k)) (σ k')
    rw [mul_apply, one_apply] at this
    simpa using this
  have hprod : ∀ i j : Fin n, C i j = ∑ k, W i (σ k) * hA.eigenvalues (σ k) * W j (σ k) := by
    intro i j
    have := congrFun (congrFun hsp i) j
    rw [mul_apply] at this
    simp only [mul_diagonal, mat, transpose_apply, of_apply] at this
    rw [this]
    exact (Equiv.sum_comp σ fun k => W i k * hA.eigenvalues k * W j k).symm
  refine ⟨fun i k => if h : i < n ∧ k < n then W ⟨i, h.1⟩ (σ ⟨k, h.2⟩) else 0, fun k => if h : k < n then hA.eigenvalues (σ ⟨k, h⟩) else 0, ?_⟩
  have hl : ∀ k < n, ∀ k' < n, ∑ i ∈ Finset.range n, (if h : i < n ∧ k < n then W ⟨i, h.1⟩ (σ ⟨k, h.2⟩) else 0) *
      (if h : i < n ∧ k' < n then W ⟨i, h.1⟩ (σ ⟨k', h.2⟩) else 0) = if k = k' then 1 else 0 := by
    intro k hk k' hk'
    rw [Finset.sum_range]
    have := horth ⟨k, hk⟩ ⟨k', hk'⟩
    simp only [Fin.mk.injEq] at this
    rw [← this]
    exact Finset.sum_congr rfl fun i _ => by simp [hk, hk']
  refine ⟨hl, hl, ?_, ?_, ?_⟩
  · intro i hi j hj
    rw [Finset.sum_range]
    have := hprod ⟨i, hi⟩ ⟨j, hj⟩
    rw [this]
    exact Finset.sum_congr rfl fun k _ => by simp [hi, hj]
  · intro k hk; simp only [hk, dif_pos]; exact hpsd.eigenvalues_nonneg _
  · intro k k' hkk hk'
    have hk : k < n := lt_of_le_of_lt hkk hk'
    simp only [hk, hk', dif_pos]
    apply hmono
    rw [Fin.le_def]
    simp only [Fin.revPerm_apply, Fin.val_rev]
    omega

end svd

section noise
variable {Ω : Type} [MeasurableSpace Ω] {P : Measure Ω} [IsProbabilityMeasure P] {m : Nat} {Z : Nat → Ω → ℝ}

omit [IsProbabilityMeasure P] in
theorem IsNoise.cov_eq (h : IsNoise P m Z) : ∀ k < m, ∀ k' < m, cov[Z k, Z k'; P] = if k = k' then 1 else 0 := by
  intro k hk k' hk'
  split_ifs with e
  · subst e; rw [covariance_self (h.finite k hk).aemeasurable, h.variance k hk]
  · exact h.uncorrelated k hk k' hk' e

theorem memLp_comb (h : IsNoise P m Z) (s u : ℝ) (f : Nat → ℝ) : MemLp (fun ω => s * (∑ k ∈ Finset.range m, f k * Z k ω) + u) 2 P :=
  ((memLp_finset_sum _ fun k hk => (h.finite k (Finset.mem_range.1 hk)).const_mul (f k)).const_mul s).add (memLp_const u)

theorem integral_comb (h : IsNoise P m Z) (s u : ℝ) (f : Nat → ℝ) : ∫ ω, (s * (∑ k ∈ Finset.range m, f k * Z k ω) + u) ∂P = u := by
  have hI : ∀ k ∈ Finset.range m, Integrable (fun ω => f k * Z k ω) P := fun k hk =>
    ((h.finite k (Finset.mem_range.1 hk)).integrable (by norm_num)).const_mul _
  rw [integral_add ((integrable_finsetSum _ hI).const_mul s) (integrable_const _), integral_const_mul, integral_finsetSum _ hI]
  have : ∑ k ∈ Finset.range m, ∫ ω, f k * Z k ω ∂P = 0 :=
    Finset.sum_eq_zero fun k hk => by rw [integral_const_mul, h.mean k (Finset.mem_range.1 hk), mul_zero]
  rw [this]; simp

theorem cov_comb (h : IsNoise P m Z) (s u s' u' : ℝ) (f f' : Nat → ℝ) :
    cov[fun ω => s * (∑ k ∈ Finset.range m, f k * Z k ω) + u, fun ω => s' * (∑ k ∈ Finset.range m, f' k * Z k ω) + u'; P] =
      s * s' * ∑ k ∈ Finset.range m, f k * f' k := by
  have hL : ∀ (f : Nat → ℝ), ∀ k ∈ Finset.range m, MemLp (fun ω => f k * Z k ω) 2 P := fun f k hk =>
    (h.finite k (Finset.mem_range.1 hk)).const_mul (f k)
  have hS : ∀ f : Nat → ℝ, MemLp (fun ω => ∑ k ∈ Finset.range m, f k * Z k ω) 2 P := fun f => memLp_finset_sum _ (hL f)
  rw [covariance_add_const_left (((hS f).const_mul s).integrable (by norm_num)), covariance_add_const_right (((hS f').const_mul s').integrable (by norm_num)),
    covariance_const_mul_left, covariance_const_mul_right, covariance_fun_sum_fun_sum' (hL f) (hL f')]
  have : ∀ k ∈ Finset.range m, ∑ k' ∈ Finset.range m, cov[fun ω => f k * Z k ω, fun ω => f' k' * Z k' ω; P] = f k * f' k := by
    intro k hk
    rw [Finset.sum_eq_single k]
    · rw [covariance_const_mul_left, covariance_const_mul_right, h.cov_eq k (Finset.mem_range.1 hk) k (Finset.mem_range.1 hk), if_pos rfl]; ring
    · intro k' hk' hne
      rw [covariance_const_mul_left, covariance_const_mul_right, h.cov_eq k (Finset.mem_range.1 hk) k' (Finset.mem_range.1 hk'), if_neg hne.symm]; ring
    · intro hn; exact absurd hk hn
  rw [Finset.sum_congr rfl this]; ring

end noise

/-- Independent standard normal numbers. -/
theorem normal_noise (m : Nat) : IsNoise (Measure.infinitePi fun _ : Nat => gaussianReal 0 1) m fun k (ω : Nat → ℝ) => ω k := by
  have mp : ∀ k : Nat, MeasurePreserving (fun ω : Nat → ℝ => ω k) (Measure.infinitePi fun _ : Nat => gaussianReal 0 1) (gaussianReal 0 1) :=
    fun k => measurePreserving_eval_infinitePi (fun _ : Nat => gaussianReal 0 1) k
  have hL : ∀ k : Nat, MemLp (fun ω : Nat → ℝ => ω k) 2 (Measure.infinitePi fun _ : Nat => gaussianReal 0 1) := fun k =>
    (memLp_id_gaussianReal' 2 (by norm_num)).comp_measurePreserving (mp k)
  have hi : iIndepFun (fun k (ω : Nat → ℝ) => ω k) (Measure.infinitePi fun _ : Nat => gaussianReal 0 1) :=
    iIndepFun_infinitePi (P := fun _ : Nat => gaussianReal 0 1) (X := fun _ x => x) (by fun_prop)
  refine ⟨fun k _ => hL k, fun k _ => ?_, fun k _ => ?_, fun k _ k' _ hne => (hi.indepFun hne).covariance_eq_zero (hL k) (hL k')⟩
  · have h := integral_map (mp k).aemeasurable (f := (id : ℝ → ℝ)) (by fun_prop)
    rw [(mp k).map_eq] at h
    exact h.symm.trans integral_id_gaussianReal
  · have := (mp k).variance_fun_comp (f := (id : ℝ → ℝ)) (by fun_prop)
    exact this.trans (by simp)

end MLMC
