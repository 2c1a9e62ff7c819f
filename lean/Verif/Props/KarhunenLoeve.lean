import Verif.Proofs.KarhunenLoeve
import Verif.Props.Correlation
/-! # C89 A sampled random field has the prescribed mean and covariance -/
namespace MLMC.RF
open MeasureTheory ProbabilityTheory

/-! ## The number of terms -/

theorem klLoop_spec (ev : Nat → ℝ) (precision : ℝ) (M : Nat) : ∀ (fuel : Nat) (thr : ℝ) (m : Nat) (last : Option Nat) (r : Nat), 1 ≤ m → M < fuel + m →
    klLoop ev precision M fuel thr m last = some r →
    (last = some r ∧ ¬ (thr ≥ precision ∧ m ≤ M)) ∨ (m ≤ r ∧ r ≤ M ∧ (ev (r - 1) / ev 0 < precision ∨ M < (3 * r + 1) / 2))
  | 0, thr, m, last, r, _, hf, h => Or.inl ⟨h, by omega⟩
  | fuel + 1, thr, m, last, r, h1, hf, h => by
    unfold klLoop at h
    split_ifs at h with hc
    · rcases klLoop_spec ev precision M fuel _ _ _ r (by omega) (by omega) h with ⟨e, hn⟩ | ⟨a, b, c⟩
      · obtain rfl := Option.some.inj e
        refine Or.inr ⟨le_rfl, hc.2, ?_⟩
        by_contra hcon
        push Not at hcon
        exact hn ⟨hcon.1, hcon.2⟩
      · exact Or.inr ⟨by omega, b, c⟩
    · exact Or.inl ⟨h, hc⟩

/-- C89: the number of terms is in the given range, and either the last singular value kept is smaller than `precision` times the largest one, or half
as many terms more would exceed the upper end of the range (the number of points by default). -/
theorem C89_terms (ev est : Nat → ℝ) (precision : ℝ) (hp : 0 < precision) (n lo : Nat) (hi : Option Nat) (m : Nat)
    (h : klTerms ev est precision n lo hi = .ok m) :
    m ≤ n ∧ (n ≤ lo → m = n) ∧
    (lo < n → lo ≤ m ∧ 1 ≤ m ∧ (∀ x, hi = some x → m ≤ x) ∧ (ev (m - 1) / ev 0 < precision ∨ n < (3 * m + 1) / 2 ∨ ∃ x, hi = some x ∧ x < (3 * m + 1) / 2)) := by
  unfold klTerms at h
  split_ifs at h with hlo
  · obtain rfl := Except.ok.inj h
    exact ⟨le_rfl, fun _ => rfl, fun h => by omega⟩
  · set r1 : Nat := klUpper n hi with hr1
    have hr1n : r1 ≤ n := by rw [hr1]; cases hi <;> simp [klUpper]
    have hr1h : ∀ x, hi = some x → r1 ≤ x := by rintro x rfl; simp [hr1, klUpper]
    have hr1' : r1 = n ∨ ∃ x, hi = some x ∧ r1 = x := by
      rw [hr1]; cases hi with
      | none => exact Or.inl rfl
      | some x => rcases min_choice n x with e | e
                  · exact Or.inl e
                  · exact Or.inr ⟨x, rfl, e⟩
    simp only at h
    split at h
    · simp at h
    · rename_i m0 _
      split at h
      · simp at h
      · rename_i r hr
        have hm := Except.ok.inj h
        rcases klLoop_spec ev precision r1 (r1 + 1) (2 * precision) (max m0 (max 1 lo)) none r (by omega) (by omega) hr with ⟨e, _⟩ | ⟨a, b, c⟩
        · simp at e
        · rw [min_eq_left b] at hm
          subst hm
          refine ⟨by omega, fun h => by omega, fun _ => ⟨by omega, by omega, fun x hx => le_trans b (hr1h x hx), ?_⟩⟩
          rcases c with c | c
          · exact Or.inl c
          · rcases hr1' with e | ⟨x, e, e'⟩
            · exact Or.inr (Or.inl (e ▸ c))
            · exact Or.inr (Or.inr ⟨x, e, e' ▸ c⟩)

/-- C89: when the number of terms is not given and the range is not empty, `svd_dcmp` returns exactly if the wanted precision is below the estimated
singular value of the lower end of the range or above that of the upper end; otherwise it raises `AttributeError` (the misspelled `sp.optmize`). -/
theorem C89_returns_exactly (ev est : Nat → ℝ) (precision : ℝ) (hp : 0 < precision) (n lo : Nat) (hi : Option Nat) (hlo : lo < n) (hn : ∀ x, hi = some x → 1 ≤ x ∧ lo ≤ x) :
    ((∃ m, klTerms ev est precision n lo hi = .ok m) ↔ precision < est (max 1 lo) ∨ est (klUpper n hi) < precision) ∧
    (¬ (precision < est (max 1 lo) ∨ est (klUpper n hi) < precision) → klTerms ev est precision n lo hi = .error .attributeError) := by
  have hr : max 1 lo ≤ klUpper n hi := by
    cases hi with
    | none => simp [klUpper]; omega
    | some x => have := hn x rfl; simp [klUpper]; omega
  have hloop : ∀ m0, m0 ≤ klUpper n hi → ∃ r, klLoop ev precision (klUpper n hi) (klUpper n hi + 1) (2 * precision) (max m0 (max 1 lo)) none = some r := by
    intro m0 hm0
    rw [klLoop, if_pos ⟨by linarith, by omega⟩]
    have : ∀ (fuel : Nat) (t : ℝ) (k r : Nat), ∃ r', klLoop ev precision (klUpper n hi) fuel t k (some r) = some r' := by
      intro fuel
      induction fuel with
      | zero => intro t k r; exact ⟨r, rfl⟩
      | succ fuel ih =>
        intro t k r
        rw [klLoop]
        split_ifs
        · exact ih _ _ _
        · exact ⟨r, rfl⟩
    exact this _ _ _ _
  unfold klTerms
  rw [if_neg (by omega)]
  simp only
  by_cases h1 : precision < est (max 1 lo)
  · obtain ⟨r, hr'⟩ := hloop _ hr
    rw [max_self] at hr'
    simp [h1, hr']
  · by_cases h2 : precision > est (klUpper n hi)
    · obtain ⟨r, hr'⟩ := hloop _ le_rfl
      simp [h1, h2, hr']
    · have h2' : ¬ est (klUpper n hi) < precision := h2
      simp [h1, h2']

/-! ## Mean and covariance -/

theorem dot_factor (S : Svd) (n m : Nat) (z : Nat → ℝ) :
    Spatial.dot (klFactor S n m) ((List.range m).map z) = (List.range n).map fun i => ∑ k ∈ Finset.range m, S.U i k * Real.sqrt (S.ev k) * z k := by
  unfold Spatial.dot klFactor
  rw [List.map_map]
  refine List.map_congr_left fun i _ => ?_
  simp only [Function.comp]
  rw [List.zipWith_map, List.zipWith_self]
  rfl

section
variable {Ω : Type} [MeasurableSpace Ω] (P : Measure Ω) [IsProbabilityMeasure P]

/-- The value at point number `i` of a scalar or array given for the points. -/
def Arr.at (a : Arr ℝ) (i : Nat) : ℝ := (a.get i).getD 0

/-- Correlation of the points number `i` and `j`. -/
noncomputable def corrOf {d : Nat} (K : Fin d → Fin d → ℝ) (alpha : ℝ) (pts : List (Fin d → ℝ)) (i j : Nat) : ℝ :=
  correlation K alpha (pts.getD i 0) (pts.getD j 0)

/-- The random field that `sample` returns has at point `i` mean `mu i` and variance at most `sigma i ^ 2`; the covariance of two points is the product of
the standard deviations and the correlation, exactly if as many terms are used as there are points, with an error of at most the largest dropped
singular value otherwise. -/
structure FieldLaw (n m : Nat) (mu sigma : Nat → ℝ) (C : Nat → Nat → ℝ) (ev : Nat → ℝ) (field : Nat → Ω → ℝ) : Prop where
  finite : ∀ i < n, MemLp (field i) 2 P
  mean : ∀ i < n, ∫ ω, field i ω ∂P = mu i
  variance : ∀ i < n, Var[field i; P] ≤ sigma i ^ 2
  full : m = n → ∀ i < n, ∀ j < n, cov[field i, field j; P] = sigma i * sigma j * C i j
  truncated : m < n → ∀ i < n, ∀ j < n, |cov[field i, field j; P] - sigma i * sigma j * C i j| ≤ |sigma i * sigma j| * ev m

theorem sample_eq {d : Nat} (K : Fin d → Fin d → ℝ) (alpha : ℝ) (svd : List (List ℝ) → Svd) (est : Nat → ℝ) (precision : ℝ) (lo : Nat) (hi : Option Nat)
    (s : Spatial ℝ (Fin d → ℝ)) (pts : List (Fin d → ℝ)) (hne : pts ≠ []) (hs : s.points = some pts) (hl : s.lFactor = none) (hc : s.covMat = none)
    (hmu : s.mu.fits pts.length) (hsi : s.sigma.fits pts.length) (m : Nat)
    (hm : klTerms (svd (pts.map fun p => pts.map (correlation K alpha p))).ev est precision pts.length lo hi = .ok m) (z : Nat → ℝ) :
    (s.sample (klNumerics K alpha svd est precision lo hi) ((List.range m).map z)).1 = .ok ((List.range pts.length).map fun i =>
      s.sigma.at i * (∑ k ∈ Finset.range m, (svd (pts.map fun p => pts.map (correlation K alpha p))).U i k *
        Real.sqrt ((svd (pts.map fun p => pts.map (correlation K alpha p))).ev k) * z k) + s.mu.at i) := by
  have hcm : s.covMatrix (klNumerics K alpha svd est precision lo hi) =
      (.ok (), { s with covMat := some (pts.map fun p => pts.map (correlation K alpha p)) }) := by
    unfold Spatial.covMatrix
    rw [hs]
    cases pts with
    | nil => exact absurd rfl hne
    | cons q qs => rfl
  simp only [Spatial.sample, hl, Spatial.svdDcmp, hc, hcm]
  simp only [Option.getD_some, klNumerics, klDcmp, List.length_map, hm, dot_factor]
  unfold Spatial.scale
  rw [if_pos (by simpa using ⟨hsi, hmu⟩)]
  simp only [Except.map, List.length_map, List.length_range, Bool.false_eq_true, if_false]
  congr 1
  refine List.map_congr_left fun i hi => ?_
  have hi' := List.mem_range.1 hi
  simp [Arr.at, hi']

/-- C89: for every positive semidefinite tensor, exponent in (0, 2], non-empty set of points, mean and deviation in the points, and every decomposition, the field
returned by the first `sample` after `set_points` has the law `FieldLaw`, if the drawn numbers are uncorrelated with mean 0 and variance 1.  `m` is the
number of terms chosen (`C89_terms`). -/
theorem C89_mean_covariance_partial {d : Nat} (K : Fin d → Fin d → ℝ) (hK : IsCovariance K) (alpha : ℝ) (h0 : 0 < alpha) (h2 : alpha ≤ 2)
    (svd : List (List ℝ) → Svd) (est : Nat → ℝ) (precision : ℝ) (hp : 0 < precision) (lo : Nat) (hi : Option Nat)
    (s : Spatial ℝ (Fin d → ℝ)) (pts : List (Fin d → ℝ)) (hne : pts ≠ []) (hs : s.points = some pts) (hl : s.lFactor = none) (hc : s.covMat = none)
    (hmu : s.mu.fits pts.length) (hsi : s.sigma.fits pts.length) (S : Svd) (hS : svd (pts.map fun p => pts.map (correlation K alpha p)) = S)
    (V : Nat → Nat → ℝ) (hsvd : IsSvd pts.length (corrOf K alpha pts) S.U V S.ev)
    (m : Nat) (hm : klTerms S.ev est precision pts.length lo hi = .ok m) (Z : Nat → Ω → ℝ) (hZ : IsNoise P m Z) :
    ∃ field : Nat → Ω → ℝ,
      (∀ ω, (s.sample (klNumerics K alpha svd est precision lo hi) ((List.range m).map fun k => Z k ω)).1 =
        .ok ((List.range pts.length).map fun i => field i ω)) ∧
      FieldLaw P pts.length m s.mu.at s.sigma.at (corrOf K alpha pts) S.ev field := by
  subst hS
  set S := svd (pts.map fun p => pts.map (correlation K alpha p)) with hS
  refine ⟨fun i ω => s.sigma.at i * (∑ k ∈ Finset.range m, S.U i k * Real.sqrt (S.ev k) * Z k ω) + s.mu.at i,
    fun ω => sample_eq K alpha svd est precision lo hi s pts hne hs hl hc hmu hsi m hm fun k => Z k ω, ?_⟩
  have hmn : m ≤ pts.length := (C89_terms _ _ _ hp _ _ _ _ hm).1
  have hC : IsCovariance fun i j : Fin pts.length => corrOf K alpha pts i j :=
    (C88_correlation_matrix_partial K hK alpha h0 h2 fun i : Fin pts.length => pts.getD i 0).1
  have hone : ∀ i < pts.length, corrOf K alpha pts i i = 1 := fun i hi =>
    (C88_correlation_matrix_partial K hK alpha h0 h2 fun i : Fin pts.length => pts.getD i 0).2.1 ⟨i, hi⟩
  have hCeq := hsvd.cov hC
  have hcov : ∀ i j, cov[fun ω => s.sigma.at i * (∑ k ∈ Finset.range m, S.U i k * Real.sqrt (S.ev k) * Z k ω) + s.mu.at i,
      fun ω => s.sigma.at j * (∑ k ∈ Finset.range m, S.U j k * Real.sqrt (S.ev k) * Z k ω) + s.mu.at j; P] =
      s.sigma.at i * s.sigma.at j * ∑ k ∈ Finset.range m, S.ev k * S.U i k * S.U j k := by
    intro i j
    rw [cov_comb hZ]
    congr 1
    refine Finset.sum_congr rfl fun k hk => ?_
    have := Real.mul_self_sqrt (hsvd.nonneg k (lt_of_lt_of_le (Finset.mem_range.1 hk) hmn))
    linear_combination S.U i k * S.U j k * this
  have hsplit : ∀ i < pts.length, ∀ j < pts.length, corrOf K alpha pts i j =
      ∑ k ∈ Finset.range m, S.ev k * S.U i k * S.U j k + ∑ k ∈ Finset.Ico m pts.length, S.ev k * S.U i k * S.U j k := by
    intro i hi j hj
    rw [hCeq i hi j hj, Finset.sum_range_add_sum_Ico _ hmn]
  refine ⟨fun i _ => memLp_comb hZ _ _ _, fun i _ => integral_comb hZ _ _ _, ?_, ?_, ?_⟩
  · intro i hi
    rw [← covariance_self (memLp_comb hZ _ _ _).aemeasurable, hcov]
    have h1 := hsplit i hi i hi
    rw [hone i hi] at h1
    have : 0 ≤ ∑ k ∈ Finset.Ico m pts.length, S.ev k * S.U i k * S.U i k := Finset.sum_nonneg fun k hk => by
      rw [mul_assoc]; exact mul_nonneg (hsvd.nonneg k (Finset.mem_Ico.1 hk).2) (mul_self_nonneg _)
    nlinarith [mul_nonneg (mul_self_nonneg (s.sigma.at i)) this]
  · intro e i hi j hj
    rw [hcov, hsplit i hi j hj, e]; simp
  · intro hlt i hi j hj
    rw [hcov, hsplit i hi j hj]
    have : s.sigma.at i * s.sigma.at j * ∑ k ∈ Finset.range m, S.ev k * S.U i k * S.U j k -
        s.sigma.at i * s.sigma.at j * (∑ k ∈ Finset.range m, S.ev k * S.U i k * S.U j k + ∑ k ∈ Finset.Ico m pts.length, S.ev k * S.U i k * S.U j k) =
        -(s.sigma.at i * s.sigma.at j * ∑ k ∈ Finset.Ico m pts.length, S.ev k * S.U i k * S.U j k) := by ring
    rw [this, abs_neg, abs_mul]
    exact mul_le_mul_of_nonneg_left (hsvd.tail m hlt i j hi hj) (abs_nonneg _)

/-- C89: if at least as many terms are asked for as there are points (`n_terms_range[0] ≥ n`), all terms are used, whatever the precision, and all
covariances are exact. -/
theorem C89_all_terms {d : Nat} (K : Fin d → Fin d → ℝ) (hK : IsCovariance K) (alpha : ℝ) (h0 : 0 < alpha) (h2 : alpha ≤ 2)
    (svd : List (List ℝ) → Svd) (est : Nat → ℝ) (precision : ℝ) (hp : 0 < precision) (lo : Nat) (hi : Option Nat)
    (s : Spatial ℝ (Fin d → ℝ)) (pts : List (Fin d → ℝ)) (hne : pts ≠ []) (hlo : pts.length ≤ lo) (hs : s.points = some pts) (hl : s.lFactor = none) (hc : s.covMat = none)
    (hmu : s.mu.fits pts.length) (hsi : s.sigma.fits pts.length) (S : Svd) (hS : svd (pts.map fun p => pts.map (correlation K alpha p)) = S)
    (V : Nat → Nat → ℝ) (hsvd : IsSvd pts.length (corrOf K alpha pts) S.U V S.ev) (Z : Nat → Ω → ℝ) (hZ : IsNoise P pts.length Z) :
    ∃ field : Nat → Ω → ℝ,
      (∀ ω, (s.sample (klNumerics K alpha svd est precision lo hi) ((List.range pts.length).map fun k => Z k ω)).1 =
        .ok ((List.range pts.length).map fun i => field i ω)) ∧
      (∀ i < pts.length, ∫ ω, field i ω ∂P = s.mu.at i) ∧
      ∀ i < pts.length, ∀ j < pts.length, cov[field i, field j; P] = s.sigma.at i * s.sigma.at j * corrOf K alpha pts i j := by
  obtain ⟨f, h1, hf⟩ := C89_mean_covariance_partial P K hK alpha h0 h2 svd est precision hp lo hi s pts hne hs hl hc hmu hsi S hS V hsvd pts.length
    (by unfold klTerms; rw [if_pos hlo]) Z hZ
  exact ⟨f, h1, hf.mean, hf.full rfl⟩

/-- C89: when the loop was ended by the precision, the error of every covariance is smaller than `precision` times the largest singular value times the
deviations. -/
theorem C89_precision {n m : Nat} {mu sigma : Nat → ℝ} {C U V : Nat → Nat → ℝ} {ev : Nat → ℝ} {field : Nat → Ω → ℝ} (hsvd : IsSvd n C U V ev)
    (h : FieldLaw P n m mu sigma C ev field) (hm0 : 1 ≤ m) (hm : m < n) (precision : ℝ) (hpos : 0 < ev 0) (hp : ev (m - 1) / ev 0 < precision) :
    ∀ i < n, ∀ j < n, |cov[field i, field j; P] - sigma i * sigma j * C i j| ≤ |sigma i * sigma j| * (precision * ev 0) := by
  intro i hi j hj
  refine (h.truncated hm i hi j hj).trans (mul_le_mul_of_nonneg_left ?_ (abs_nonneg _))
  rw [div_lt_iff₀ hpos] at hp
  exact (hsvd.decreasing (m - 1) m (by omega) hm).trans hp.le

end

/-! ## The loop stops before the precision is reached -/

namespace ExKL

/-- The points 0, 10, 20, 30 on a line. -/
def pts : List (Fin 1 → ℝ) := [fun _ => 0, fun _ => 10, fun _ => 20, fun _ => 30]
/-- The field with correlation length 1, mean 0 and deviation 1 after `set_points`. -/
def field : Spatial ℝ (Fin 1 → ℝ) := { points := some pts, mu := .scalar 0, sigma := .scalar 1 }
/-- The estimate of the singular values, for the diameter 30. -/
noncomputable def est : Nat → ℝ := eigenEstimate 1 (1 / 30) 2 1
/-- The correlation tensor for the length 1. -/
def tensor : Fin 1 → Fin 1 → ℝ := fun _ _ => 1

theorem tensor_cov : IsCovariance tensor := ⟨fun _ _ => rfl, fun c => by simp [tensor]; exact mul_self_nonneg _⟩

theorem diag (i : Nat) (hi : i < 4) : corrOf tensor 2 pts i i = 1 := by simp [corrOf, correlation]

theorem off (i j : Nat) (hi : i < 4) (hj : j < 4) (h : i ≠ j) : 0 ≤ corrOf tensor 2 pts i j ∧ corrOf tensor 2 pts i j ≤ 1 / 101 := by
  refine ⟨(Real.exp_pos _).le, ?_⟩
  have key : ∀ x : ℝ, 100 ≤ x → Real.exp (-x) ≤ 1 / 101 := by
    intro x hx
    rw [Real.exp_neg, one_div]
    apply inv_anti₀ (by norm_num)
    have := Real.add_one_le_exp x; linarith
  unfold corrOf correlation
  apply key
  interval_cases i <;> interval_cases j <;> simp [pts, tensor] at h ⊢ <;> norm_num

variable {U V : Nat → Nat → ℝ} {ev : Nat → ℝ}

theorem cov4 : IsCovariance fun i j : Fin 4 => corrOf tensor 2 pts i j :=
  (C88_correlation_matrix_partial tensor tensor_cov 2 (by norm_num) le_rfl fun i : Fin 4 => pts.getD i 0).1

theorem values (h : IsSvd 4 (corrOf tensor 2 pts) U V ev) : 98 / 101 ≤ ev 3 ∧ ev 0 + ev 1 + ev 2 + ev 3 = 4 := by
  constructor
  · have e := h.form cov4 3 (by norm_num)
    have o := h.left 3 (by norm_num) 3 (by norm_num)
    simp only [Finset.sum_range_succ, Finset.range_zero, Finset.sum_empty, zero_add, if_true] at e o
    rw [diag 0 (by norm_num), diag 1 (by norm_num), diag 2 (by norm_num), diag 3 (by norm_num)] at e
    have pair : ∀ i < 4, ∀ j < 4, i ≠ j → -((U i 3 * U i 3 + U j 3 * U j 3) / 202) ≤ U i 3 * U j 3 * corrOf tensor 2 pts i j := by
      intro i hi j hj hne
      obtain ⟨h1, h2⟩ := off i j hi hj hne
      nlinarith [mul_self_nonneg (U i 3 + U j 3), mul_self_nonneg (U i 3 - U j 3),
        mul_nonneg h1 (mul_self_nonneg (U i 3 + U j 3)), mul_nonneg (sub_nonneg.2 h2) (add_nonneg (mul_self_nonneg (U i 3)) (mul_self_nonneg (U j 3)))]
    have p01 := pair 0 (by norm_num) 1 (by norm_num) (by norm_num)
    have p02 := pair 0 (by norm_num) 2 (by norm_num) (by norm_num)
    have p03 := pair 0 (by norm_num) 3 (by norm_num) (by norm_num)
    have p10 := pair 1 (by norm_num) 0 (by norm_num) (by norm_num)
    have p12 := pair 1 (by norm_num) 2 (by norm_num) (by norm_num)
    have p13 := pair 1 (by norm_num) 3 (by norm_num) (by norm_num)
    have p20 := pair 2 (by norm_num) 0 (by norm_num) (by norm_num)
    have p21 := pair 2 (by norm_num) 1 (by norm_num) (by norm_num)
    have p23 := pair 2 (by norm_num) 3 (by norm_num) (by norm_num)
    have p30 := pair 3 (by norm_num) 0 (by norm_num) (by norm_num)
    have p31 := pair 3 (by norm_num) 1 (by norm_num) (by norm_num)
    have p32 := pair 3 (by norm_num) 2 (by norm_num) (by norm_num)
    linarith
  · have hd : ∀ i < 4, ∑ k ∈ Finset.range 4, ev k * U i k * U i k = 1 := fun i hi => (h.cov cov4 i hi i hi).symm.trans (diag i hi)
    have h0 := hd 0 (by norm_num)
    have h1 := hd 1 (by norm_num)
    have h2 := hd 2 (by norm_num)
    have h3 := hd 3 (by norm_num)
    have o0 := h.left 0 (by norm_num) 0 (by norm_num)
    have o1 := h.left 1 (by norm_num) 1 (by norm_num)
    have o2 := h.left 2 (by norm_num) 2 (by norm_num)
    have o3 := h.left 3 (by norm_num) 3 (by norm_num)
    simp only [Finset.sum_range_succ, Finset.range_zero, Finset.sum_empty, zero_add, if_true] at h0 h1 h2 h3 o0 o1 o2 o3
    linear_combination h0 + h1 + h2 + h3 - ev 0 * o0 - ev 1 * o1 - ev 2 * o2 - ev 3 * o3

theorem terms (h : IsSvd 4 (corrOf tensor 2 pts) U V ev) : klTerms ev est (1 / 100) 4 1 none = .ok 3 := by
  obtain ⟨h3, hs⟩ := values h
  have d01 := h.decreasing 0 1 (by norm_num) (by norm_num)
  have d12 := h.decreasing 1 2 (by norm_num) (by norm_num)
  have d23 := h.decreasing 2 3 (by norm_num) (by norm_num)
  have he : (1 / 100 : ℝ) < est 1 := by
    have hg : Real.Gamma (0.5 * ((1 : Nat) : ℝ) ^ (1 / ((1 : Nat) : ℝ))) = Real.sqrt Real.pi := by
      rw [← Real.Gamma_one_half_eq]; norm_num
    have hpi : Real.sqrt Real.pi ≤ 4 := by
      rw [Real.sqrt_le_left (by norm_num)]; linarith [Real.pi_le_four]
    have hpos : 0 < Real.sqrt Real.pi := Real.sqrt_pos.2 Real.pi_pos
    unfold est eigenEstimate
    rw [hg, lt_div_iff₀ hpos]
    have : ((1 : ℝ) ^ 2 * (1 / (1 / 30)) ^ (((1 : Nat) : ℝ) ^ (1 / ((1 : Nat) : ℝ)) + 2)) = 27000 := by
      norm_num
    rw [this]; linarith
  have r : ∀ k, k = 0 ∨ k = 1 → (1 / 100 : ℝ) ≤ ev k / ev 0 := by
    rintro k (rfl | rfl) <;> rw [le_div_iff₀ (by linarith)] <;> linarith
  have l1 : klLoop ev (1 / 100) 4 5 (2 * (1 / 100)) (max 1 (max 1 1)) none = some 3 := by
    simp only [klLoop]
    rw [if_pos (by norm_num), if_pos (by simpa using r 0 (Or.inl rfl)), if_pos (by simpa using r 1 (Or.inr rfl)), if_neg (by simp)]
    simp
  unfold klTerms
  simp only [klUpper]
  rw [if_neg (by norm_num), show max 1 1 = 1 from rfl, if_pos he]
  simp only [max_self] at l1
  simp only [max_self, l1]
  rfl

end ExKL

open ExKL in
/-- C89 without the restriction fails: for the points 0, 10, 20, 30, correlation length 1, the model `gauss`, and the default arguments of `svd_dcmp`, the loop goes
through 1, 2 and 3 terms and stops because the next number, 5, exceeds the number of points.  Whatever decomposition and noise, one of the four
values has a variance of at most 4/5 instead of 1, although the precision is 1/100 and the largest singular value is at most 1.1. -/
theorem C89_counterexample_precision {Ω : Type} [MeasurableSpace Ω] (P : Measure Ω) [IsProbabilityMeasure P] (svd : List (List ℝ) → Svd) (S : Svd)
    (hS : svd (pts.map fun p => pts.map (correlation tensor 2 p)) = S) (V : Nat → Nat → ℝ) (hsvd : IsSvd 4 (corrOf tensor 2 pts) S.U V S.ev)
    (Z : Nat → Ω → ℝ) (hZ : IsNoise P 3 Z) :
    klTerms S.ev est (1 / 100) 4 1 none = .ok 3 ∧ S.ev 0 ≤ 11 / 10 ∧ ∃ f : Nat → Ω → ℝ,
      (∀ ω, (field.sample (klNumerics tensor 2 svd est (1 / 100) 1 none) ((List.range 3).map fun k => Z k ω)).1 = .ok ((List.range 4).map fun i => f i ω)) ∧
      ∃ i < 4, Var[f i; P] ≤ 4 / 5 := by
  subst hS
  have ht := terms hsvd
  obtain ⟨h3, hs⟩ := values hsvd
  have d01 := hsvd.decreasing 0 1 (by norm_num) (by norm_num)
  have d12 := hsvd.decreasing 1 2 (by norm_num) (by norm_num)
  have d23 := hsvd.decreasing 2 3 (by norm_num) (by norm_num)
  set S := svd (pts.map fun p => pts.map (correlation tensor 2 p)) with hS
  refine ⟨ht, by linarith, fun i ω => 1 * (∑ k ∈ Finset.range 3, S.U i k * Real.sqrt (S.ev k) * Z k ω) + 0,
    fun ω => sample_eq tensor 2 svd est (1 / 100) 1 none field pts (List.cons_ne_nil _ _) rfl rfl rfl trivial trivial 3 ht fun k => Z k ω, ?_⟩
  have hv : ∀ i, Var[fun ω => 1 * (∑ k ∈ Finset.range 3, S.U i k * Real.sqrt (S.ev k) * Z k ω) + 0; P] = ∑ k ∈ Finset.range 3, S.ev k * S.U i k * S.U i k := by
    intro i
    rw [← covariance_self (memLp_comb hZ _ _ _).aemeasurable, cov_comb hZ, one_mul, one_mul]
    refine Finset.sum_congr rfl fun k hk => ?_
    have := Real.mul_self_sqrt (hsvd.nonneg k (by have := Finset.mem_range.1 hk; omega))
    linear_combination S.U i k * S.U i k * this
  have o0 := hsvd.left 0 (by norm_num) 0 (by norm_num)
  have o1 := hsvd.left 1 (by norm_num) 1 (by norm_num)
  have o2 := hsvd.left 2 (by norm_num) 2 (by norm_num)
  simp only [Finset.sum_range_succ, Finset.range_zero, Finset.sum_empty, zero_add, if_true] at o0 o1 o2
  by_contra hcon
  push Not at hcon
  have b0 := hcon 0 (by norm_num)
  have b1 := hcon 1 (by norm_num)
  have b2 := hcon 2 (by norm_num)
  have b3 := hcon 3 (by norm_num)
  rw [hv] at b0 b1 b2 b3
  simp only [Finset.sum_range_succ, Finset.range_zero, Finset.sum_empty, zero_add] at b0 b1 b2 b3
  have : S.ev 0 + S.ev 1 + S.ev 2 > 16 / 5 := by
    have e : S.ev 0 + S.ev 1 + S.ev 2 = S.ev 0 * (S.U 0 0 * S.U 0 0 + S.U 1 0 * S.U 1 0 + S.U 2 0 * S.U 2 0 + S.U 3 0 * S.U 3 0) +
        S.ev 1 * (S.U 0 1 * S.U 0 1 + S.U 1 1 * S.U 1 1 + S.U 2 1 * S.U 2 1 + S.U 3 1 * S.U 3 1) +
        S.ev 2 * (S.U 0 2 * S.U 0 2 + S.U 1 2 * S.U 1 2 + S.U 2 2 * S.U 2 2 + S.U 3 2 * S.U 3 2) := by rw [o0, o1, o2]; ring
    rw [e]; linarith
  linarith

/-! ## The hypotheses are met -/

/-- A decomposition of the matrix of the four points, and independent normal numbers. -/
example : ∃ (svd : List (List ℝ) → Svd) (f : Nat → (Nat → ℝ) → ℝ),
    (∀ ω, (ExKL.field.sample (klNumerics ExKL.tensor 2 svd ExKL.est (1 / 100) 1 none) ((List.range 3).map fun k => ω k)).1 = .ok ((List.range 4).map fun i => f i ω)) ∧
    ∃ i < 4, Var[f i; Measure.infinitePi fun _ : Nat => gaussianReal 0 1] ≤ 4 / 5 := by
  obtain ⟨U, ev, h⟩ := exists_svd ExKL.cov4
  obtain ⟨_, _, f, h1, h2⟩ := C89_counterexample_precision (Measure.infinitePi fun _ : Nat => gaussianReal 0 1) (fun _ => ⟨U, ev⟩) ⟨U, ev⟩ rfl U h _ (normal_noise 3)
  exact ⟨_, f, h1, h2⟩

/-- With `n_terms_range = (4, np.inf)` all terms are used and the covariances are exact. -/
example : ∃ (svd : List (List ℝ) → Svd) (f : Nat → (Nat → ℝ) → ℝ),
    (∀ ω, (ExKL.field.sample (klNumerics ExKL.tensor 2 svd ExKL.est (1 / 100) 4 none) ((List.range 4).map fun k => ω k)).1 = .ok ((List.range 4).map fun i => f i ω)) ∧
    ∀ i < 4, ∀ j < 4, cov[f i, f j; Measure.infinitePi fun _ : Nat => gaussianReal 0 1] = correlation ExKL.tensor 2 (ExKL.pts.getD i 0) (ExKL.pts.getD j 0) := by
  obtain ⟨U, ev, h⟩ := exists_svd ExKL.cov4
  obtain ⟨f, h1, h2⟩ := C89_mean_covariance_partial (Measure.infinitePi fun _ : Nat => gaussianReal 0 1) ExKL.tensor ExKL.tensor_cov 2 (by norm_num) le_rfl
    (fun _ => ⟨U, ev⟩) ExKL.est (1 / 100) (by norm_num) 4 none ExKL.field ExKL.pts (List.cons_ne_nil _ _) rfl rfl rfl trivial trivial ⟨U, ev⟩ rfl U h 4
    (by unfold klTerms; rw [if_pos (by decide)]; rfl) _ (normal_noise 4)
  refine ⟨_, f, h1, fun i hi j hj => ?_⟩
  rw [h2.full rfl i hi j hj]
  simp [ExKL.field, Arr.at, Arr.get, corrOf]

end MLMC.RF
