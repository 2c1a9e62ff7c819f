import Verif.Model.Orthogonal
import Mathlib.Tactic.Ring
import Mathlib.Tactic.Linarith
import Mathlib.Tactic.FieldSimp
import Mathlib.Tactic.NormNum
import Mathlib.Data.Matrix.Diagonal
import Mathlib.Algebra.BigOperators.Fin
import Mathlib.LinearAlgebra.Matrix.NonsingularInverse
/-
C84: moments constructed to be orthogonal are orthonormal for the covariance they were constructed from, the first one is the constant 1 and the others have mean 0.
-/
namespace MLMC.Ortho
open Matrix
variable {n : Nat}

theorem column_inj (th : Fin (n + 1)) : Function.Injective (column th) := by
  intro a b h
  have h1 := congrArg Fin.val h
  have ha := a.isLt
  have hb := b.isLt
  simp only [column, kept] at h1 ha hb
  apply Fin.ext
  omega

theorem column_ge (th : Fin (n + 1)) (j : Fin (kept th)) : th ≤ column th j := by
  have hj := j.isLt
  simp only [column, kept] at hj ⊢
  rw [Fin.le_def]
  simp only
  omega

theorem gram_of_eigh {C V : Matrix (Fin (n + 1)) (Fin (n + 1)) ℝ} {ev : Fin (n + 1) → ℝ} (h : IsEigh C ev V) : Vᵀ * C * V = Matrix.diagonal ev := by
  rw [h.decomposes]
  calc Vᵀ * (V * Matrix.diagonal ev * Vᵀ) * V = (Vᵀ * V) * Matrix.diagonal ev * (Vᵀ * V) := by simp only [Matrix.mul_assoc]
    _ = _ := by rw [h.orthogonal, Matrix.one_mul, Matrix.mul_one]

theorem icov_gram {cov V : Matrix (Fin (n + 1)) (Fin (n + 1)) ℝ} {ev : Fin (n + 1) → ℝ} (h : IsEigh (centered cov) ev V) (th : Fin (n + 1)) (hpos : ∀ i, th ≤ i → 0 < ev i) :
    (icovSqrtT cov ev V th)ᵀ * cov * icovSqrtT cov ev V th = 1 := by
  have hA : icovSqrtT cov ev V th = Matrix.of fun i j => ((centering cov)ᵀ * V) i (column th j) * (1 / √(ev (column th j))) := rfl
  have hg := gram_of_eigh h
  have hmid : ((centering cov)ᵀ * V)ᵀ * cov * ((centering cov)ᵀ * V) = Matrix.diagonal ev := by
    rw [← hg, Matrix.transpose_mul, Matrix.transpose_transpose]
    unfold centered
    simp only [Matrix.mul_assoc]
  ext a b
  have hab := congrFun (congrFun hmid (column th a)) (column th b)
  have hexp : ((icovSqrtT cov ev V th)ᵀ * cov * icovSqrtT cov ev V th) a b = (1 / √(ev (column th a))) * ((((centering cov)ᵀ * V)ᵀ * cov * ((centering cov)ᵀ * V)) (column th a) (column th b)) * (1 / √(ev (column th b))) := by
    rw [hA]
    rw [Matrix.mul_apply, Matrix.mul_apply (M := (((centering cov)ᵀ * V)ᵀ * cov)), Finset.mul_sum, Finset.sum_mul]
    refine Finset.sum_congr rfl fun k _ => ?_
    rw [Matrix.mul_apply, Matrix.mul_apply (M := ((centering cov)ᵀ * V)ᵀ), Finset.sum_mul, Finset.sum_mul, Finset.mul_sum, Finset.sum_mul]
    refine Finset.sum_congr rfl fun l _ => ?_
    simp only [Matrix.transpose_apply, Matrix.of_apply]
    ring
  rw [hexp, hab]
  by_cases e : a = b
  · subst e
    rw [Matrix.diagonal_apply_eq, Matrix.one_apply_eq]
    have hp := hpos _ (column_ge th a)
    have hs := Real.sqrt_pos.2 hp
    have hq := Real.mul_self_sqrt hp.le
    field_simp
    rw [sq, hq]
  · rw [Matrix.diagonal_apply_ne _ (fun hc => e (column_inj th hc)), Matrix.one_apply_ne e]
    ring

theorem transform_cases {m : Nat} (R : Matrix (Fin (n + 1)) (Fin m) ℝ) (hm : 0 < m) : transform R hm = Rᵀ ∨ transform R hm = -Rᵀ := by
  unfold transform
  split
  · exact Or.inr rfl
  · exact Or.inl rfl

theorem transform_first_nonneg {m : Nat} (R : Matrix (Fin (n + 1)) (Fin m) ℝ) (hm : 0 < m) : 0 ≤ transform R hm ⟨0, hm⟩ 0 := by
  unfold transform
  split
  · rename_i h
    simp only [Matrix.neg_apply]
    linarith
  · rename_i h
    exact not_lt.1 h

/-- C84.  The constructed moments are orthonormal: with `cov` the matrix of the mean products of the given moments, the mean products of the new ones form the identity matrix.  For every threshold above which the eigenvalues are positive. -/
theorem C84_orthonormal_threshold (cov : Matrix (Fin (n + 1)) (Fin (n + 1)) ℝ) (th : Fin (n + 1)) (L : Matrix (Fin (kept th)) (Fin (n + 1)) ℝ) (h : Constructs cov th L) : L * cov * Lᵀ = 1 := by
  obtain ⟨ev, V, R, Q, he, hpos, hrq, rfl⟩ := h
  have hQ : Q * Qᵀ = 1 := mul_eq_one_comm.1 hrq.orthogonal
  have hR : R = icovSqrtT cov ev V th * Qᵀ := by
    rw [hrq.factors, Matrix.mul_assoc, hQ, Matrix.mul_one]
  have hRR : Rᵀ * cov * R = 1 := by
    rw [hR, Matrix.transpose_mul, Matrix.transpose_transpose]
    calc Q * (icovSqrtT cov ev V th)ᵀ * cov * (icovSqrtT cov ev V th * Qᵀ) = Q * ((icovSqrtT cov ev V th)ᵀ * cov * icovSqrtT cov ev V th) * Qᵀ := by simp only [Matrix.mul_assoc]
      _ = 1 := by rw [icov_gram he th hpos, Matrix.mul_one, hQ]
  rcases transform_cases R (show 0 < kept th by unfold kept; omega) with e | e
  · rw [e, Matrix.transpose_transpose]
    exact hRR
  · rw [e, Matrix.transpose_neg, Matrix.transpose_transpose, Matrix.neg_mul, Matrix.neg_mul, Matrix.mul_neg, neg_neg]
    exact hRR

theorem centered_first (cov : Matrix (Fin (n + 1)) (Fin (n + 1)) ℝ) (hsym : covᵀ = cov) (h00 : cov 0 0 = 1) (i : Fin (n + 1)) : centered cov i 0 = if i = 0 then 1 else 0 := by
  have hs : ∀ i j, cov i j = cov j i := fun i j => by rw [← hsym, Matrix.transpose_apply, hsym]
  have hM0 : ∀ j, centering cov 0 j = if j = 0 then -1 else 0 := by
    intro j
    simp only [centering, Matrix.of_apply, h00]
    by_cases hj : j = 0
    · simp [hj]
    · simp [hj, Ne.symm hj]
  have h1 : centered cov i 0 = -(centering cov * cov) i 0 := by
    simp [centered, Matrix.mul_apply (M := _ * cov), hM0]
  rw [h1, Matrix.mul_apply]
  by_cases hi : i = 0
  · subst hi
    simp [hM0, h00]
  · rw [if_neg hi]
    have : ∀ j, centering cov i j * cov j 0 = (if j = 0 then -cov i 0 else 0) + (if i = j then cov j 0 else 0) := by
      intro j
      simp only [centering, Matrix.of_apply]
      by_cases hj : j = 0
      · subst hj
        simp [h00, hi]
      · by_cases hij : i = j
        · simp [hj, hij]
        · simp [hj, hij]
    simp only [this, Finset.sum_add_distrib, Finset.sum_ite_eq, Finset.sum_ite_eq', Finset.mem_univ, if_true]
    ring

/-- The value 1 is always among the eigenvalues. -/
theorem exists_eigenvalue_one {cov V : Matrix (Fin (n + 1)) (Fin (n + 1)) ℝ} {ev : Fin (n + 1) → ℝ} (hsym : covᵀ = cov) (h00 : cov 0 0 = 1) (h : IsEigh (centered cov) ev V) : ∃ i, ev i = 1 := by
  have hV : V * Vᵀ = 1 := mul_eq_one_comm.1 h.orthogonal
  have hd : Vᵀ * centered cov = Matrix.diagonal ev * Vᵀ := by
    rw [h.decomposes, ← Matrix.mul_assoc, ← Matrix.mul_assoc, h.orthogonal, Matrix.one_mul]
  have hrow : ∀ k, ev k * V 0 k = V 0 k := by
    intro k
    have := congrFun (congrFun hd k) 0
    rw [Matrix.diagonal_mul, Matrix.transpose_apply, Matrix.mul_apply] at this
    simp only [centered_first cov hsym h00, Matrix.transpose_apply] at this
    simpa using this.symm
  by_contra hne
  have hne' : ∀ k, ev k ≠ 1 := fun k hk => hne ⟨k, hk⟩
  have hz : ∀ k, V 0 k = 0 := by
    intro k
    have : (ev k - 1) * V 0 k = 0 := by rw [sub_mul, hrow k]; ring
    rcases mul_eq_zero.1 this with h1 | h1
    · exact absurd (by linarith) (hne' k)
    · exact h1
  have h1 := congrFun (congrFun hV 0) 0
  rw [Matrix.mul_apply, Matrix.one_apply_eq] at h1
  simp [hz] at h1

theorem threshold_spec {ev : Fin (n + 1) → ℝ} (hm : Monotone ev) {tol : ℝ} (hex : ∃ i, tol < ev i) (i : Fin (n + 1)) (hi : threshold ev tol ≤ i) : tol < ev i := by
  classical
  unfold threshold at hi
  cases hf : (List.finRange (n + 1)).find? fun i => decide (tol < ev i) with
  | none =>
    obtain ⟨k, hk⟩ := hex
    have := List.find?_eq_none.1 hf k (List.mem_finRange k)
    simp [hk] at this
  | some k =>
    have hk : tol < ev k := by simpa using List.find?_some hf
    have hi' : k ≤ i := by
      have e : (Option.getD (some k) 0 : Fin (n + 1)) = k := rfl
      rw [← e, ← hf]
      convert hi
    exact lt_of_lt_of_le hk (hm hi')

/-- With a tolerance between 0 and 1 (the default of `construct_density` is 1e-4) the kept eigenvalues are positive. -/
theorem constructs_of_tol (cov : Matrix (Fin (n + 1)) (Fin (n + 1)) ℝ) (hsym : covᵀ = cov) (h00 : cov 0 0 = 1) (tol : ℝ) (h0 : 0 ≤ tol) (h1 : tol < 1) (th : Fin (n + 1))
    (L : Matrix (Fin (kept th)) (Fin (n + 1)) ℝ) (h : ConstructsTol cov tol th L) : Constructs cov th L := by
  obtain ⟨ev, V, R, Q, he, hth, hrq, hL⟩ := h
  refine ⟨ev, V, R, Q, he, fun i hi => ?_, hrq, hL⟩
  obtain ⟨k, hk⟩ := exists_eigenvalue_one hsym h00 he
  have := threshold_spec he.increasing ⟨k, by rw [hk]; exact h1⟩ i (hth ▸ hi)
  linarith

/-- C84.  For every symmetric covariance matrix of moments that start with the constant 1 and every tolerance in `[0, 1)` the constructed moments are orthonormal. -/
theorem C84_orthonormal (cov : Matrix (Fin (n + 1)) (Fin (n + 1)) ℝ) (hsym : covᵀ = cov) (h00 : cov 0 0 = 1) (tol : ℝ) (h0 : 0 ≤ tol) (h1 : tol < 1) (th : Fin (n + 1))
    (L : Matrix (Fin (kept th)) (Fin (n + 1)) ℝ) (h : ConstructsTol cov tol th L) : L * cov * Lᵀ = 1 :=
  C84_orthonormal_threshold cov th L (constructs_of_tol cov hsym h00 tol h0 h1 th L h)

/-- The first constructed moment is the constant 1. -/
def FirstIsOne {m : Nat} (L : Matrix (Fin m) (Fin (n + 1)) ℝ) : Prop := ∀ (j : Fin m) (i : Fin (n + 1)), j.val = 0 → L j i = if i = 0 then 1 else 0

/-- C84.  When no eigenvalue is cut off, the first constructed moment is the constant 1, as `TransformedMoments` assumes.  Missing: a construction that cuts eigenvalues off, see the counterexample. -/
theorem C84_first_moment_partial (cov : Matrix (Fin (n + 1)) (Fin (n + 1)) ℝ) (h00 : cov 0 0 = 1) (th : Fin (n + 1)) (hth : th = 0) (L : Matrix (Fin (kept th)) (Fin (n + 1)) ℝ) (h : Constructs cov th L) : FirstIsOne L := by
  have hon := C84_orthonormal_threshold cov th L h
  obtain ⟨ev, V, R, Q, he, hpos, hrq, hL⟩ := h
  have hk : 0 < kept th := by unfold kept; omega
  intro j i hj
  have ej : j = ⟨0, hk⟩ := Fin.ext hj
  subst ej
  have hz : ∀ i : Fin (n + 1), i ≠ 0 → L ⟨0, hk⟩ i = 0 := by
    intro i hi
    have hR : R i ⟨0, hk⟩ = 0 := by
      refine hrq.trapezoidal i _ ?_
      have : i.val ≠ 0 := fun e => hi (Fin.ext e)
      subst hth
      simp only [kept, Fin.val_zero]
      omega
    rcases transform_cases R hk with e | e <;> rw [hL, e] <;> simp [hR]
  by_cases hi : i = 0
  · subst hi
    rw [if_pos rfl]
    have h1 := congrFun (congrFun hon ⟨0, hk⟩) ⟨0, hk⟩
    rw [Matrix.one_apply_eq, Matrix.mul_apply, Finset.sum_eq_single 0 (fun b _ hb => by rw [Matrix.transpose_apply, hz b hb, mul_zero]) (by simp),
      Matrix.mul_apply, Finset.sum_eq_single 0 (fun b _ hb => by rw [hz b hb, zero_mul]) (by simp), h00, mul_one, Matrix.transpose_apply] at h1
    have hn : 0 ≤ L ⟨0, hk⟩ 0 := by rw [hL]; exact transform_first_nonneg R hk
    nlinarith
  · rw [if_neg hi, hz i hi]

/-- C84.  The means of the constructed moments, when the first one is the constant 1: `(1, 0, …, 0)`.  The means of the given moments are the first column of `cov`, their products with the constant. -/
theorem C84_means (cov : Matrix (Fin (n + 1)) (Fin (n + 1)) ℝ) (hsym : covᵀ = cov) (h00 : cov 0 0 = 1) (th : Fin (n + 1)) (L : Matrix (Fin (kept th)) (Fin (n + 1)) ℝ) (h : Constructs cov th L) (h1 : FirstIsOne L) (j : Fin (kept th)) :
    ∑ i, L j i * cov i 0 = if j.val = 0 then 1 else 0 := by
  have hon := C84_orthonormal_threshold cov th L h
  have hk : 0 < kept th := by unfold kept; omega
  have e := congrFun (congrFun hon j) ⟨0, hk⟩
  rw [Matrix.mul_apply] at e
  simp only [Matrix.transpose_apply, h1 ⟨0, hk⟩ _ rfl] at e
  simp only [mul_ite, mul_one, mul_zero, Finset.sum_ite_eq', Finset.mem_univ, if_true] at e
  rw [← Matrix.mul_apply, e, Matrix.one_apply]
  simp [Fin.ext_iff]

/-- Mean products of three moments `1, φ₁, φ₂` with means 0, variances 4 and 1/16, uncorrelated. -/
noncomputable def cov3 : Matrix (Fin 3) (Fin 3) ℝ := Matrix.diagonal ![1, 4, 1 / 16]

noncomputable def ev3 : Fin 3 → ℝ := ![1 / 16, 1, 4]
def V3 : Matrix (Fin 3) (Fin 3) ℝ := !![0, 1, 0; 0, 0, 1; 1, 0, 0]

theorem eigh3 : IsEigh (centered cov3) ev3 V3 := by
  refine ⟨?_, ?_, ?_⟩
  · intro a b hab
    fin_cases a <;> fin_cases b <;> simp [ev3] at hab ⊢ <;> norm_num
  · ext a b
    fin_cases a <;> fin_cases b <;> simp [V3, Matrix.mul_apply, Fin.sum_univ_three]
  · ext a b
    have hs : ∀ f : Fin (2 + 1) → ℝ, ∑ i, f i = f 0 + f 1 + f 2 := Fin.sum_univ_three
    simp only [centered, Matrix.mul_apply, Matrix.transpose_apply, hs]
    fin_cases a <;> fin_cases b <;> simp [V3, centering, cov3, ev3, Matrix.diagonal_apply]

theorem sqrt4 : √(4 : ℝ) = 2 := by
  rw [show (4 : ℝ) = 2 ^ 2 by norm_num]; exact Real.sqrt_sq (by norm_num)

theorem sqrt16 : √(1 / 16 : ℝ) = 1 / 4 := by
  rw [show (1 / 16 : ℝ) = (1 / 4) ^ 2 by norm_num]; exact Real.sqrt_sq (by norm_num)

theorem ev3_sqrt : √(ev3 0) = 1 / 4 ∧ √(ev3 1) = 1 ∧ √(ev3 2) = 2 := by
  refine ⟨?_, ?_, ?_⟩
  · simpa [ev3] using sqrt16
  · simp [ev3]
  · simpa [ev3] using sqrt4

theorem MV3 (i j : Fin 3) : ((centering cov3)ᵀ * V3) i j = !![0, -1, 0; 0, 0, 1; 1, 0, 0] i j := by
  simp only [Matrix.mul_apply, Matrix.transpose_apply, Fin.sum_univ_three]
  fin_cases i <;> fin_cases j <;> simp [V3, centering, cov3, Matrix.diagonal_apply]

theorem icov3_full : icovSqrtT cov3 ev3 V3 0 = (!![0, -1, 0; 1 / 2, 0, 0; 0, 0, 4] : Matrix (Fin 3) (Fin 3) ℝ) := by
  funext i j
  change ((centering cov3)ᵀ * V3) i (column 0 j) * (1 / √(ev3 (column 0 j))) = _
  rw [MV3]
  obtain ⟨h0, h1, h2⟩ := ev3_sqrt
  change Fin 3 at j
  have c0 : column (0 : Fin 3) (0 : Fin 3) = 2 := rfl
  have c1 : column (0 : Fin 3) (1 : Fin 3) = 1 := rfl
  have c2 : column (0 : Fin 3) (2 : Fin 3) = 0 := rfl
  fin_cases i <;> fin_cases j <;> simp [c0, c1, c2, h0, h1, h2]

theorem icov3_cut : icovSqrtT cov3 ev3 V3 1 = (!![0, -1; 1 / 2, 0; 0, 0] : Matrix (Fin 3) (Fin 2) ℝ) := by
  funext i j
  change ((centering cov3)ᵀ * V3) i (column 1 j) * (1 / √(ev3 (column 1 j))) = _
  rw [MV3]
  obtain ⟨h0, h1, h2⟩ := ev3_sqrt
  change Fin 2 at j
  have c0 : column (1 : Fin 3) (0 : Fin 2) = 2 := rfl
  have c1 : column (1 : Fin 3) (1 : Fin 2) = 1 := rfl
  fin_cases i <;> fin_cases j <;> simp [c0, c1, h1, h2]

theorem rq_full : IsRQ (n := 2) (m := 3) (!![0, -1, 0; 1 / 2, 0, 0; 0, 0, 4] : Matrix (Fin 3) (Fin 3) ℝ) !![-1, 0, 0; 0, 1 / 2, 0; 0, 0, 4] !![0, 1, 0; 1, 0, 0; 0, 0, 1] := by
  refine ⟨?_, ?_, ?_⟩
  · ext i j
    simp only [Matrix.mul_apply, Fin.sum_univ_three]
    fin_cases i <;> fin_cases j <;> simp
  · ext i j
    simp only [Matrix.mul_apply, Matrix.transpose_apply, Fin.sum_univ_three]
    fin_cases i <;> fin_cases j <;> simp
  · intro i j h
    fin_cases i <;> fin_cases j <;> simp at h ⊢

theorem rq_cut : IsRQ (n := 2) (m := 2) (!![0, -1; 1 / 2, 0; 0, 0] : Matrix (Fin 3) (Fin 2) ℝ) !![0, -1; 1 / 2, 0; 0, 0] 1 := by
  refine ⟨by simp, by simp, ?_⟩
  intro i j h
  fin_cases i <;> fin_cases j <;> simp at h ⊢

/-- The construction without cut for `cov3`. -/
theorem constructs_full : ∃ L, Constructs cov3 0 L := by
  refine ⟨_, ev3, V3, (!![-1, 0, 0; 0, 1 / 2, 0; 0, 0, 4] : Matrix (Fin 3) (Fin 3) ℝ), (!![0, 1, 0; 1, 0, 0; 0, 0, 1] : Matrix (Fin 3) (Fin 3) ℝ), eigh3, ?_, ?_, rfl⟩
  · intro i _
    fin_cases i <;> simp [ev3]
  · rw [icov3_full]
    exact rq_full

theorem threshold3 : threshold ev3 (1 / 10) = 1 := by
  classical
  have h0 : ¬ (1 / 10 : ℝ) < ev3 0 := by simp [ev3]; norm_num
  have h1 : (1 / 10 : ℝ) < ev3 1 := by simp [ev3]; norm_num
  have e : List.finRange (2 + 1) = [0, 1, 2] := rfl
  simp only [threshold, e, List.find?, h0, h1, decide_true, decide_false]
  rfl

/-- The construction with a cut for `cov3`, tolerance 1/10. -/
theorem constructs_cut : ConstructsTol cov3 (1 / 10) 1 (transform (!![0, -1; 1 / 2, 0; 0, 0] : Matrix (Fin 3) (Fin 2) ℝ) (show 0 < 2 by norm_num)) := by
  refine ⟨ev3, V3, (!![0, -1; 1 / 2, 0; 0, 0] : Matrix (Fin 3) (Fin 2) ℝ), (1 : Matrix (Fin 2) (Fin 2) ℝ), eigh3, threshold3.symm, ?_, rfl⟩
  rw [icov3_cut]
  exact rq_cut

example : cov3ᵀ = cov3 ∧ cov3 0 0 = 1 ∧ (∃ L, Constructs cov3 0 L) ∧ ∃ L, ConstructsTol cov3 (1 / 10) 1 L := ⟨by simp [cov3], by simp [cov3], constructs_full, _, constructs_cut⟩

/-- C84 fails when an eigenvalue is cut off: the first constructed moment is `φ₁ / 2`, not the constant 1.  The density fit normalizes through the first moment. -/
theorem C84_counterexample_cut : ∃ (cov : Matrix (Fin 3) (Fin 3) ℝ) (tol : ℝ) (th : Fin 3) (L : Matrix (Fin (kept th)) (Fin 3) ℝ),
    covᵀ = cov ∧ cov 0 0 = 1 ∧ 0 < tol ∧ tol < 1 ∧ ConstructsTol cov tol th L ∧ ¬ FirstIsOne L := by
  refine ⟨cov3, 1 / 10, 1, _, by simp [cov3], by simp [cov3], by norm_num, by norm_num, constructs_cut, fun h => ?_⟩
  have h1 := h (0 : Fin 2) 1 rfl
  have ht : transform (n := 2) (!![0, -1; 1 / 2, 0; 0, 0] : Matrix (Fin 3) (Fin 2) ℝ) (show 0 < 2 by norm_num) = (!![0, -1; 1 / 2, 0; 0, 0] : Matrix (Fin 3) (Fin 2) ℝ)ᵀ := by
    unfold transform
    rw [if_neg]
    simp
  have h2 := (congrFun (congrFun ht 0) 1).symm.trans h1
  simp at h2
end MLMC.Ortho
