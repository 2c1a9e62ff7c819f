import Verif.Proofs.ConstructDensity
import Mathlib.Algebra.Order.BigOperators.Ring.Finset
import Mathlib.Algebra.Order.Chebyshev
/-! # C103 The density `construct_density` makes from stored samples has the estimated moments -/
namespace MLMC.Dens
open Mom
open scoped Matrix

/-- What `numpy` and `scipy` promise about the two calls made for the covariances `cov`. -/
structure Lib.Keeps (lib : Lib) (n : Nat) (cov : Matrix (Fin (n + 1)) (Fin (n + 1)) ℝ) (th : Fin (n + 1)) : Prop where
  eigh : Ortho.IsEigh (Ortho.centered cov) (lib.eigh n (Ortho.centered cov)).1 (lib.eigh n (Ortho.centered cov)).2
  rq : Ortho.IsRQ (Ortho.icovSqrtT cov (lib.eigh n (Ortho.centered cov)).1 (lib.eigh n (Ortho.centered cov)).2 th)
    (lib.rq n (Ortho.kept th) (Ortho.icovSqrtT cov (lib.eigh n (Ortho.centered cov)).1 (lib.eigh n (Ortho.centered cov)).2 th)).1
    (lib.rq n (Ortho.kept th) (Ortho.icovSqrtT cov (lib.eigh n (Ortho.centered cov)).1 (lib.eigh n (Ortho.centered cov)).2 th)).2

/-- A call of `construct_density` for a quantity `q` over stored samples that came to the fit, and of `estimate_moments` for the same moment functions. -/
structure Call (q : Quantity (Option ℝ)) (m : Moments) (nLevels : Nat) (stored : List (Nat × (Nat → Except PyErr (Arr (Option ℝ))))) (lib : Lib) (tol : ℝ) (s : Setup) (mu : List (Option ℝ)) : Prop where
  setup : ∃ oid, setup lib q (.base m) oid tol nLevels stored = .ok s
  keeps : lib.Keeps s.n s.cov s.th
  tol0 : 0 ≤ tol
  tol1 : tol < 1
  moments : ∃ oid vars, (⟨q, some (fn (.base m))⟩ : Estimator ℝ).estimateMoments oid none nLevels stored = .ok (mu, vars)

/-- The `i`-th moment of the density with multipliers `mult`, by the quadrature. -/
noncomputable def fitted (s : Setup) (m : Moments) {Q : Nat} (rule : Rule Q) (mult : Fin (s.n - s.th.val + 1) → ℝ) (i : Nat) : ℝ :=
  ∑ k, rule.weights k * (value (.base m) i (rule.points k) * s.density (.base m) mult (rule.points k))

section
variable {sid W nLevels : Nat} {q : Quantity (Option ℝ)} {m : Moments} {chunks : List (Nat × List (Sample (Option ℝ)))} {lib : Lib} {tol : ℝ} {s : Setup} {mu : List (Option ℝ)}

theorem Call.constructs (h : Call q m nLevels (asChunks sid W chunks) lib tol s mu) : Ortho.ConstructsTol s.cov tol s.th s.L := by
  obtain ⟨oid, hset⟩ := h.setup
  obtain ⟨-, -, -, -, -, hth, hL⟩ := setup_ok hset
  exact ⟨_, _, _, _, h.keeps.eigh, hth, h.keeps.rq, hL⟩

/-- The gradient, in terms of the given moment functions. -/
theorem Call.gradient (hn : 0 < nLevels) (hq : Built sid .qty q) (hid : IdsIdentify q) (hs : 0 < m.size) (hwf : ChunksWF W chunks) (hl : ∀ c ∈ chunks, c.1 < nLevels)
    (h : Call q m nLevels (asChunks sid W chunks) lib tol s mu) {Q : Nat} (rule : Rule Q) (hin : ∀ k, ∃ t, m.transform (rule.points k) = some t)
    (ends : Fin 2 → Fin (s.n - s.th.val + 1) → ℝ) (mult : Fin (s.n - s.th.val + 1) → ℝ) (j : Fin (Ortho.kept s.th)) (hj : j.val < s.n - s.th.val + 1) :
    Fit.gradient (s.data (.base m) rule ends) mult ⟨j.val, hj⟩ = ∑ i, s.L j i * (s.cov i 0 - fitted s m rule mult i.val) := by
  obtain ⟨oid, hset⟩ := h.setup
  obtain ⟨oid', vars, hest⟩ := h.moments
  obtain ⟨-, -, -, hmeans⟩ := setup_facts hn hq hid hs hwf hl hset hest
  rw [gradient_eq, hmeans j]
  simp only [Option.getD_some, mul_sub, Finset.sum_sub_distrib]
  congr 1
  have hv : ∀ k, value (s.obj (.base m)) j.val (rule.points k) = ∑ i, s.L j i * value (.base m) i.val (rule.points k) := by
    intro k
    obtain ⟨t, ht⟩ := hin k
    exact value_trans m hs s.L _ t ht j
  simp only [hv, fitted, Finset.mul_sum, Finset.sum_mul]
  rw [Finset.sum_comm]
  exact Finset.sum_congr rfl fun i _ => Finset.sum_congr rfl fun k _ => by ring

/-- C103.  If the optimizer has found a stationary point, the density has the mass one in the quadrature, whichever eigenvalues were cut off. -/
theorem C103_mass (hn : 0 < nLevels) (hq : Built sid .qty q) (hid : IdsIdentify q) (hs : 0 < m.size) (hwf : ChunksWF W chunks) (hl : ∀ c ∈ chunks, c.1 < nLevels)
    (h : Call q m nLevels (asChunks sid W chunks) lib tol s mu) {Q : Nat} (rule : Rule Q) (hin : ∀ k, ∃ t, m.transform (rule.points k) = some t)
    (ends : Fin 2 → Fin (s.n - s.th.val + 1) → ℝ) (mult : Fin (s.n - s.th.val + 1) → ℝ) (hg : Fit.gradient (s.data (.base m) rule ends) mult = 0) :
    ∑ k, rule.weights k * s.density (.base m) mult (rule.points k) = 1 := by
  obtain ⟨oid, hset⟩ := h.setup
  obtain ⟨oid', vars, hest⟩ := h.moments
  obtain ⟨hsym, h00, -, -⟩ := setup_facts hn hq hid hs hwf hl hset hest
  obtain ⟨a, ha⟩ := constant_kept hsym h00 h.tol1 h.constructs
  have hz : ∀ j, ∑ i, s.L j i * (s.cov i 0 - fitted s m rule mult i.val) = 0 := by
    intro j
    have hj : j.val < s.n - s.th.val + 1 := by have := j.isLt; unfold Ortho.kept at this; omega
    rw [← h.gradient hn hq hid hs hwf hl rule hin ends mult j hj, hg]
    rfl
  have hsum : ∑ i, (∑ j, a j * s.L j i) * (s.cov i 0 - fitted s m rule mult i.val) = 0 := by
    simp only [Finset.sum_mul]
    rw [Finset.sum_comm]
    calc _ = ∑ j, a j * ∑ i, s.L j i * (s.cov i 0 - fitted s m rule mult i.val) := Finset.sum_congr rfl fun j _ => by
            rw [Finset.mul_sum]; exact Finset.sum_congr rfl fun i _ => by ring
      _ = 0 := by simp only [hz, mul_zero, Finset.sum_const_zero]
  simp only [ha, ite_mul, one_mul, zero_mul, Finset.sum_ite_eq', Finset.mem_univ, if_true, h00] at hsum
  have hf : fitted s m rule mult (0 : Fin (s.n + 1)).val = ∑ k, rule.weights k * s.density (.base m) mult (rule.points k) := by
    unfold fitted
    refine Finset.sum_congr rfl fun k _ => ?_
    obtain ⟨t, ht⟩ := hin k
    rw [Fin.val_zero, value_zero m hs _ t ht, one_mul]
  rw [← hf]
  linarith

/-- C103.  The combinations of moments that were kept have in the fitted density the mean values that follow from the estimated moments. -/
theorem C103_kept_combinations (hn : 0 < nLevels) (hq : Built sid .qty q) (hid : IdsIdentify q) (hs : 0 < m.size) (hwf : ChunksWF W chunks) (hl : ∀ c ∈ chunks, c.1 < nLevels)
    (h : Call q m nLevels (asChunks sid W chunks) lib tol s mu) {Q : Nat} (rule : Rule Q) (hin : ∀ k, ∃ t, m.transform (rule.points k) = some t)
    (ends : Fin 2 → Fin (s.n - s.th.val + 1) → ℝ) (mult : Fin (s.n - s.th.val + 1) → ℝ) (hg : Fit.gradient (s.data (.base m) rule ends) mult = 0) :
    ∃ est : Fin (s.n + 1) → ℝ, (∀ i : Fin (s.n + 1), mu.getD i.val none = some (est i)) ∧ ∀ j, ∑ i, s.L j i * fitted s m rule mult i.val = ∑ i, s.L j i * est i := by
  obtain ⟨oid, hset⟩ := h.setup
  obtain ⟨oid', vars, hest⟩ := h.moments
  obtain ⟨-, -, hcol, -⟩ := setup_facts hn hq hid hs hwf hl hset hest
  refine ⟨fun i => s.cov i 0, hcol, fun j => ?_⟩
  have hj : j.val < s.n - s.th.val + 1 := by have := j.isLt; unfold Ortho.kept at this; omega
  have hz := h.gradient hn hq hid hs hwf hl rule hin ends mult j hj
  rw [hg] at hz
  simp only [mul_sub, Finset.sum_sub_distrib, Pi.zero_apply] at hz
  linarith

/-- C103.  If no eigenvalue was cut off, the error of every moment of the density, relative to the estimated one, is at most the root of the estimated second moment times the norm of the gradient where the
optimizer stopped. -/
theorem C103_error_partial (hn : 0 < nLevels) (hq : Built sid .qty q) (hid : IdsIdentify q) (hs : 0 < m.size) (hwf : ChunksWF W chunks) (hl : ∀ c ∈ chunks, c.1 < nLevels)
    (h : Call q m nLevels (asChunks sid W chunks) lib tol s mu) (hth : s.th = 0) {Q : Nat} (rule : Rule Q) (hin : ∀ k, ∃ t, m.transform (rule.points k) = some t)
    (ends : Fin 2 → Fin (s.n - s.th.val + 1) → ℝ) (mult : Fin (s.n - s.th.val + 1) → ℝ) (i : Fin (s.n + 1)) :
    ∃ est, mu.getD i.val none = some est ∧
      (fitted s m rule mult i.val - est) ^ 2 ≤ s.cov i i * ∑ j, Fit.gradient (s.data (.base m) rule ends) mult j ^ 2 := by
  obtain ⟨oid, hset⟩ := h.setup
  obtain ⟨oid', vars, hest⟩ := h.moments
  obtain ⟨hsym, h00, hcol, -⟩ := setup_facts hn hq hid hs hwf hl hset hest
  have hon := Ortho.C84_orthonormal s.cov hsym h00 tol h.tol0 h.tol1 s.th s.L h.constructs
  have hinv := full_inverse hth hon
  refine ⟨_, hcol i, ?_⟩
  have hcard : s.n - s.th.val + 1 = Ortho.kept s.th := by unfold Ortho.kept; omega
  set δ : Fin (s.n + 1) → ℝ := fun a => s.cov a 0 - fitted s m rule mult a.val with hδ
  have hgr : ∑ j, Fit.gradient (s.data (.base m) rule ends) mult j ^ 2 = ∑ j, (∑ a, s.L j a * δ a) ^ 2 := by
    refine Fintype.sum_equiv (finCongr hcard) _ _ fun j => ?_
    rw [← h.gradient hn hq hid hs hwf hl rule hin ends mult (finCongr hcard j) j.isLt]
    rfl
  have hrec : δ i = ∑ j, (s.cov * s.Lᵀ) i j * ∑ a, s.L j a * δ a := by
    have : δ i = ∑ a, (s.cov * s.Lᵀ * s.L) i a * δ a := by
      rw [hinv]
      simp [Matrix.one_apply]
    rw [this]
    simp only [Matrix.mul_apply (M := s.cov * s.Lᵀ), Finset.sum_mul, Finset.mul_sum]
    rw [Finset.sum_comm]
    exact Finset.sum_congr rfl fun j _ => Finset.sum_congr rfl fun a _ => by ring
  have hsq : ∑ j, (s.cov * s.Lᵀ) i j ^ 2 = s.cov i i := by
    have e : (s.cov * s.Lᵀ * s.L * s.cov) i i = s.cov i i := by rw [hinv, Matrix.one_mul]
    rw [← e, Matrix.mul_assoc, Matrix.mul_apply]
    refine Finset.sum_congr rfl fun j _ => ?_
    have : (s.L * s.cov) j i = (s.cov * s.Lᵀ) i j := by
      have h2 : (s.L * s.cov)ᵀ = s.cov * s.Lᵀ := by rw [Matrix.transpose_mul, hsym]
      rw [← h2, Matrix.transpose_apply]
    rw [this, sq]
  have hcs := Finset.sum_mul_sq_le_sq_mul_sq Finset.univ (fun j => (s.cov * s.Lᵀ) i j) fun j => ∑ a, s.L j a * δ a
  rw [← hrec, hsq, ← hgr] at hcs
  have : (fitted s m rule mult i.val - s.cov i 0) ^ 2 = δ i ^ 2 := by rw [hδ]; ring
  rw [this]
  exact hcs

/-- C103.  If no eigenvalue was cut off and the optimizer has found a stationary point, all the moments of the density in the quadrature are the estimated ones; for an exact quadrature the "fix of the normalization" changes nothing then.
Missing: a construction that cuts eigenvalues off, see the counterexample (for it, `C103_mass` and `C103_kept_combinations`). -/
theorem C103_all_moments_partial (hn : 0 < nLevels) (hq : Built sid .qty q) (hid : IdsIdentify q) (hs : 0 < m.size) (hwf : ChunksWF W chunks) (hl : ∀ c ∈ chunks, c.1 < nLevels)
    (h : Call q m nLevels (asChunks sid W chunks) lib tol s mu) (hth : s.th = 0) {Q : Nat} (rule : Rule Q) (hin : ∀ k, ∃ t, m.transform (rule.points k) = some t)
    (ends : Fin 2 → Fin (s.n - s.th.val + 1) → ℝ) (mult : Fin (s.n - s.th.val + 1) → ℝ) (hg : Fit.gradient (s.data (.base m) rule ends) mult = 0) :
    (∀ i < m.size, mu.getD i none = some (fitted s m rule mult i)) ∧
    ∀ moment0, moment0 = ∑ k, rule.weights k * s.integrand0 (.base m) mult (rule.points k) → finish mult moment0 = some mult := by
  obtain ⟨oid, hset⟩ := h.setup
  obtain ⟨oid', vars, hest⟩ := h.moments
  obtain ⟨-, hsz, -⟩ := setup_ok hset
  obtain ⟨hsym, h00, -, -⟩ := setup_facts hn hq hid hs hwf hl hset hest
  constructor
  · intro i hi
    have hi' : i < s.n + 1 := by rw [← hsz]; exact hi
    obtain ⟨est, he, hb⟩ := C103_error_partial hn hq hid hs hwf hl h hth rule hin ends mult ⟨i, hi'⟩
    rw [he]
    simp only [hg, Pi.zero_apply, ne_eq, OfNat.ofNat_ne_zero, not_false_eq_true, zero_pow, Finset.sum_const_zero, mul_zero] at hb
    have := pow_eq_zero_iff (two_ne_zero) |>.1 (le_antisymm hb (sq_nonneg _))
    rw [sub_eq_zero.1 this]
  · intro moment0 h0
    have hk : 0 < Ortho.kept s.th := by unfold Ortho.kept; omega
    have hfirst := Ortho.C84_first_moment_partial s.cov h00 s.th hth s.L (Ortho.constructs_of_tol s.cov hsym h00 tol h.tol0 h.tol1 s.th s.L h.constructs)
    have hone : moment0 = 1 := by
      rw [h0, ← C103_mass hn hq hid hs hwf hl h rule hin ends mult hg]
      refine Finset.sum_congr rfl fun k _ => ?_
      obtain ⟨t, ht⟩ := hin k
      have hv := value_trans m hs s.L _ t ht ⟨0, hk⟩
      simp only [hfirst ⟨0, hk⟩ _ rfl, ite_mul, one_mul, zero_mul, Finset.sum_ite_eq', Finset.mem_univ, if_true, Fin.val_zero, value_zero m hs _ t ht] at hv
      unfold Setup.integrand0
      rw [show value (s.obj (.base m)) 0 (rule.points k) = 1 from hv, mul_one]
    unfold finish
    rw [hone, if_neg (by norm_num), Real.log_one]
    congr 1
    funext i
    split
    · rename_i h; rw [h, sub_zero]
    · rfl
end
end MLMC.Dens
