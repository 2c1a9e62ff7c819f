import Verif.Model.Regression
import Mathlib.Analysis.InnerProductSpace.Projection.Minimal
import Mathlib.Analysis.InnerProductSpace.PiL2
import Mathlib.LinearAlgebra.Lagrange
/-
C80: regression of level variances.
-/
namespace MLMC.Reg
open Classical

/-- Sum of squared residuals of the system `X p = y`. -/
noncomputable def residual {n : Nat} (X : Fin n → Fin 3 → ℝ) (y : Fin n → ℝ) (p : Fin 3 → ℝ) : ℝ := ∑ l, (∑ j, X l j * p j - y l) ^ 2

/-- The function returns a least squares solution of every system (one of them, if there are more). -/
def IsLstSq (lstsq : LstSq) : Prop := ∀ n X y p, residual X y (lstsq n X y) ≤ residual X y p

/-- Such functions exist. -/
theorem exists_lstSq : ∃ f : LstSq, IsLstSq f := by
  have key : ∀ (n : Nat) (X : Fin n → Fin 3 → ℝ) (y : Fin n → ℝ), ∃ p, ∀ q, residual X y p ≤ residual X y q := by
    intro n X y
    let T : (Fin 3 → ℝ) →ₗ[ℝ] EuclideanSpace ℝ (Fin n) :=
      { toFun := fun p => WithLp.toLp 2 fun l => ∑ j, X l j * p j
        map_add' := fun p q => by ext l; simp [mul_add, Finset.sum_add_distrib]
        map_smul' := fun c p => by ext l; simp only [Pi.smul_apply, smul_eq_mul, RingHom.id_apply, PiLp.smul_apply, Finset.mul_sum]; exact Finset.sum_congr rfl fun j _ => by ring }
    obtain ⟨v, hv, hmin⟩ := Submodule.exists_norm_eq_iInf_of_complete_subspace (LinearMap.range T)
      (Submodule.complete_of_finiteDimensional _) (WithLp.toLp 2 y)
    obtain ⟨p, rfl⟩ := hv
    have hres : ∀ q, residual X y q = ‖WithLp.toLp 2 y - T q‖ ^ 2 := fun q => by
      rw [EuclideanSpace.norm_sq_eq, residual]
      refine Finset.sum_congr rfl fun l _ => ?_
      simp [T]
      ring
    refine ⟨p, fun q => ?_⟩
    rw [hres, hres]
    have : ‖WithLp.toLp 2 y - T p‖ ≤ ‖WithLp.toLp 2 y - T q‖ := by
      rw [hmin]
      exact ciInf_le ⟨0, by rintro _ ⟨w, rfl⟩; exact norm_nonneg _⟩ (⟨T q, ⟨q, rfl⟩⟩ : LinearMap.range T)
    exact pow_le_pow_left₀ (norm_nonneg _) this 2
  choose f hf using key
  exact ⟨f, hf⟩

variable {n M : Nat} {lstsq : LstSq} {nCreated : Fin (n + 1) → Nat} {steps : Fin (n + 1) → ℝ} {raw : Fin (n + 1) → Fin (M + 1) → ℝ}
  {r : Fin (n + 1) → Fin (M + 1) → ℝ}

theorem all_ok (h : all lstsq nCreated steps raw = .ok r) :
    AllClose (fun l => raw l 0) ∧ (∀ l, r l 0 = raw l 0) ∧
    ∀ m, m ≠ 0 → moment lstsq nCreated steps (fun l => raw l m) = .ok fun l => r l m := by
  rw [all] at h
  split at h
  · cases h
  rename_i h1
  split at h
  · rename_i h2
    cases h
    refine ⟨h2, fun l => by simp, fun m hm => ?_⟩
    simp only [if_neg hm]
    cases hc : moment lstsq nCreated steps (fun l => raw l m) with
    | ok v => rfl
    | error e => exact absurd ⟨m, hm, by simp only [hc]; rfl⟩ h1
  · cases h

theorem moment_cases {x y : Fin (n + 1) → ℝ} (h : moment lstsq nCreated steps x = .ok y) :
    ((n + 1 < 3 ∨ AllClose x) ∧ y = x) ∨
    (¬ (n + 1 < 3 ∨ AllClose x) ∧ (∀ l : Fin n, 0 < x l.succ ∧ 0 < steps l.succ) ∧ y 0 = x 0 ∧
      ∀ l : Fin n, y l.succ = Real.exp (∑ j, row (steps l.succ) j * lstsq n (fun l => row (steps l.succ)) (fun l => Real.log (x l.succ)) j)) := by
  rw [moment] at h
  split at h
  · rename_i h1; cases h; exact .inl ⟨h1, rfl⟩
  rename_i h1
  split at h
  · cases h
  split at h
  · cases h
  · rename_i h3
    cases h
    push Not at h3
    exact .inr ⟨h1, h3, rfl, fun l => rfl⟩

theorem not_allClose {ι : Type} {x : ι → ℝ} (h : ∃ i, 1 / 10 ^ 8 < |x i|) : ¬ AllClose x := by
  unfold AllClose
  push Not
  exact h

/-- **C80**, (nearly) zero variances: variances of a moment that are at most `10⁻⁸` on all levels are not changed, and a zeroth moment with a variance above `10⁻⁸` is an error. -/
theorem C80_nearly_zero :
    (all lstsq nCreated steps raw = .ok r → ∀ m, (∀ l, |raw l m| ≤ 1 / 10 ^ 8) → ∀ l, r l m = raw l m) ∧
    ((∃ l, 1 / 10 ^ 8 < |raw l 0|) → ∃ e, all lstsq nCreated steps raw = .error e) := by
  constructor
  · intro h m hs l
    obtain ⟨_, h0, hm⟩ := all_ok h
    by_cases hz : m = 0
    · rw [hz, h0]
    rcases moment_cases (hm m hz) with ⟨_, h2⟩ | ⟨h1, _⟩
    · exact congrFun h2 l
    · exact absurd (.inr hs) h1
  · intro hz
    cases hx : all lstsq nCreated steps raw with
    | error e => exact ⟨e, rfl⟩
    | ok r => exact absurd (all_ok hx).1 (not_allClose hz)

/-- **C80**, what does not change: the variances of the first level and of the zeroth moment; all of them for less than three levels. -/
theorem C80_unchanged (h : all lstsq nCreated steps raw = .ok r) :
    (∀ m, r 0 m = raw 0 m) ∧ (∀ l, r l 0 = raw l 0) ∧ (n + 1 < 3 → r = raw) := by
  obtain ⟨_, h0, hm⟩ := all_ok h
  refine ⟨fun m => ?_, h0, fun hn => ?_⟩
  · by_cases hz : m = 0
    · rw [hz, h0]
    rcases moment_cases (hm m hz) with ⟨_, h2⟩ | ⟨_, _, h2, _⟩
    · exact congrFun h2 0
    · exact h2
  · ext l m
    by_cases hz : m = 0
    · rw [hz, h0]
    rcases moment_cases (hm m hz) with ⟨_, h2⟩ | ⟨h1, _⟩
    · exact congrFun h2 l
    · exact absurd (.inl hn) h1

/-- **C80**, positive: with at least three levels the variances of each moment that are not all (nearly) zero become positive on the levels
above the first. -/
theorem C80_positive (h : all lstsq nCreated steps raw = .ok r) (hn : 3 ≤ n + 1) (m : Fin (M + 1)) (hm : m ≠ 0)
    (hz : ∃ l, 1 / 10 ^ 8 < |raw l m|) (l : Fin n) : 0 < r l.succ m := by
  replace hz : ¬ AllClose fun l => raw l m := not_allClose hz
  obtain ⟨_, _, hall⟩ := all_ok h
  rcases moment_cases (hall m hm) with ⟨h1, _⟩ | ⟨_, _, _, h2⟩
  · rcases h1 with h1 | h1
    · omega
    · exact absurd h1 hz
  · rw [h2]; exact Real.exp_pos _

theorem log_eq (h : all lstsq nCreated steps raw = .ok r) (hn : 3 ≤ n + 1) (m : Fin (M + 1)) (hm : m ≠ 0) (hz : ¬ AllClose fun l => raw l m) :
    (∀ l : Fin n, 0 < raw l.succ m ∧ 0 < steps l.succ) ∧ ∃ p : Fin 3 → ℝ, p = lstsq n (fun l => row (steps l.succ)) (fun l => Real.log (raw l.succ m)) ∧
      ∀ l : Fin n, Real.log (r l.succ m) = ∑ j, row (steps l.succ) j * p j := by
  obtain ⟨_, _, hall⟩ := all_ok h
  rcases moment_cases (hall m hm) with ⟨h1, _⟩ | ⟨_, hp, _, h2⟩
  · rcases h1 with h1 | h1
    · omega
    · exact absurd h1 hz
  · exact ⟨hp, _, rfl, fun l => by rw [h2, Real.log_exp]⟩

/-- **C80**, least squares: on the levels above the first the logarithms of the new variances are a quadratic polynomial of `log h`, and no
quadratic polynomial is closer to the logarithms of the given variances in the sum of squares. -/
theorem C80_least_squares (hl : IsLstSq lstsq) (h : all lstsq nCreated steps raw = .ok r) (hn : 3 ≤ n + 1) (m : Fin (M + 1)) (hm : m ≠ 0)
    (hz : ∃ l, 1 / 10 ^ 8 < |raw l m|) :
    (∃ a b c : ℝ, ∀ l : Fin n, Real.log (r l.succ m) = a + b * Real.log (steps l.succ) + c * Real.log (steps l.succ) ^ 2) ∧
    ∀ a b c : ℝ, ∑ l : Fin n, (Real.log (r l.succ m) - Real.log (raw l.succ m)) ^ 2 ≤
      ∑ l : Fin n, (a + b * Real.log (steps l.succ) + c * Real.log (steps l.succ) ^ 2 - Real.log (raw l.succ m)) ^ 2 := by
  replace hz : ¬ AllClose fun l => raw l m := not_allClose hz
  obtain ⟨_, p, hp, hlog⟩ := log_eq h hn m hm hz
  have hrow : ∀ (h : ℝ) (p : Fin 3 → ℝ), ∑ j, row h j * p j = p 0 + p 1 * Real.log h + p 2 * Real.log h ^ 2 := fun h p => by
    rw [Fin.sum_univ_three]; simp [row]; ring
  refine ⟨⟨p 0, p 1, p 2, fun l => by rw [hlog, hrow]⟩, fun a b c => ?_⟩
  have := hl n (fun l => row (steps l.succ)) (fun l => Real.log (raw l.succ m)) ![a, b, c]
  rw [← hp, residual, residual] at this
  simp only [← hlog, hrow] at this
  simpa using this

/-- **C80**, exact data: variances that follow `log v = a + b log h + c log² h` on the levels above the first are not changed. -/
theorem C80_exact_data (hl : IsLstSq lstsq) (h : all lstsq nCreated steps raw = .ok r) (hn : 3 ≤ n + 1) (m : Fin (M + 1)) (hm : m ≠ 0)
    (a b c : ℝ) (hex : ∀ l : Fin n, Real.log (raw l.succ m) = a + b * Real.log (steps l.succ) + c * Real.log (steps l.succ) ^ 2) :
    ∀ l, r l m = raw l m := by
  by_cases hz : AllClose fun l => raw l m
  · obtain ⟨_, _, hall⟩ := all_ok h
    rcases moment_cases (hall m hm) with ⟨_, h2⟩ | ⟨h1, _⟩
    · exact fun l => congrFun h2 l
    · exact absurd (.inr hz) h1
  intro l
  refine Fin.cases ((C80_unchanged h).1 m) (fun l => ?_) l
  have hz' : ∃ l, 1 / 10 ^ 8 < |raw l m| := by unfold AllClose at hz; push Not at hz; exact hz
  have h1 := (C80_least_squares hl h hn m hm hz').2 a b c
  have hzero : ∑ l : Fin n, (a + b * Real.log (steps l.succ) + c * Real.log (steps l.succ) ^ 2 - Real.log (raw l.succ m)) ^ 2 = 0 :=
    Finset.sum_eq_zero fun l _ => by rw [hex l]; ring
  rw [hzero] at h1
  have h2 := (Finset.sum_eq_zero_iff_of_nonneg fun l _ => sq_nonneg _).mp (le_antisymm h1 (Finset.sum_nonneg fun l _ => sq_nonneg _)) l (Finset.mem_univ l)
  have h3 : Real.log (r l.succ m) = Real.log (raw l.succ m) := by
    have := pow_eq_zero_iff (two_ne_zero) |>.mp h2
    linarith
  exact Real.log_injOn_pos (C80_positive h hn m hm hz' l) ((log_eq h hn m hm hz).1 l).1 h3

/-- Three points with different abscissae lie on a parabola. -/
theorem parabola {k : Nat} (hk : k ≤ 3) (x y : Fin k → ℝ) (hx : Function.Injective x) :
    ∃ a b c : ℝ, ∀ l, y l = a + b * x l + c * x l ^ 2 := by
  let P := Lagrange.interpolate Finset.univ x y
  have hd : P.degree < (3 : ℕ) := lt_of_lt_of_le (Lagrange.degree_interpolate_lt y (fun i _ j _ h => hx h)) (by simpa using hk)
  refine ⟨P.coeff 0, P.coeff 1, P.coeff 2, fun l => ?_⟩
  rw [← Lagrange.eval_interpolate_at_node y (fun i _ j _ h => hx h) (Finset.mem_univ l)]
  have hn : P.natDegree < 3 := by
    by_cases h0 : P = 0
    · simp [h0]
    · rw [Polynomial.degree_eq_natDegree h0] at hd; exact_mod_cast hd
  rw [Polynomial.eval_eq_sum_range' hn, Finset.sum_range_succ, Finset.sum_range_succ, Finset.sum_range_one]
  simp [P]

/-- **C80**, few levels: with at most four levels and different positive steps above the first level the regression changes nothing. -/
theorem C80_up_to_four_levels (hl : IsLstSq lstsq) (h : all lstsq nCreated steps raw = .ok r) (hn : n + 1 ≤ 4)
    (hs : ∀ l : Fin n, 0 < steps l.succ) (hd : ∀ i j : Fin n, steps i.succ = steps j.succ → i = j) : r = raw := by
  by_cases h3 : n + 1 < 3
  · exact (C80_unchanged h).2.2 h3
  ext l m
  by_cases hm : m = 0
  · rw [hm, (C80_unchanged h).2.1]
  obtain ⟨a, b, c, habc⟩ := parabola (by omega : n ≤ 3) (fun l : Fin n => Real.log (steps l.succ)) (fun l => Real.log (raw l.succ m))
    fun i j hij => hd i j (Real.log_injOn_pos (hs i) (hs j) hij)
  exact C80_exact_data hl h (by omega) m hm a b c habc l

/-- **C80** (partial), success: with positive variances of the moments above the zeroth and positive steps on the levels above the first, no
level with a single sample, and zero variance of the zeroth moment, the regression succeeds.  Missing: variances that are zero on some
levels only, and levels with one sample, for which it fails (below). -/
theorem C80_succeeds_partial (h0 : ∀ l, raw l 0 = 0) (hpos : ∀ (l : Fin n) (m : Fin (M + 1)), m ≠ 0 → 0 < raw l.succ m)
    (hs : ∀ l : Fin n, 0 < steps l.succ) (hc : ∀ l, nCreated l ≠ 1) : ∃ r, all lstsq nCreated steps raw = .ok r := by
  rw [all, if_neg, if_pos (show AllClose (fun l => raw l 0) from fun l => by simp only [h0]; norm_num)]
  · exact ⟨_, rfl⟩
  · rintro ⟨m, hm, hf⟩
    simp only [moment] at hf
    split at hf
    · cases hf
    rw [if_neg (by push Not; exact hc), if_neg (by push Not; exact fun l => ⟨hpos l m hm, hs l⟩)] at hf
    cases hf

/-- **C80** is false if the variance of a moment is zero on one level above the first but not on all levels: the regression fails. -/
theorem C80_counterexample_zero (hn : 3 ≤ n + 1) (m : Fin (M + 1)) (hm : m ≠ 0) (hz : ∃ l, 1 / 10 ^ 8 < |raw l m|) (l : Fin n)
    (hl : raw l.succ m = 0) : ∃ e, all lstsq nCreated steps raw = .error e := by
  replace hz : ¬ AllClose fun l => raw l m := not_allClose hz
  refine ⟨.other, ?_⟩
  rw [all, if_pos]
  refine ⟨m, hm, ?_⟩
  simp only [moment]
  rw [if_neg (not_or.mpr ⟨by omega, hz⟩)]
  split
  · rfl
  · rw [if_pos ⟨l, .inl (le_of_eq hl)⟩]; rfl

/-- **C80** is false if a level was created with a single sample, although the weights computed from the numbers of samples are not used. -/
theorem C80_counterexample_single (hn : 3 ≤ n + 1) (m : Fin (M + 1)) (hm : m ≠ 0) (hz : ∃ l, 1 / 10 ^ 8 < |raw l m|) (l : Fin (n + 1))
    (hl : nCreated l = 1) : ∃ e, all lstsq nCreated steps raw = .error e := by
  replace hz : ¬ AllClose fun l => raw l m := not_allClose hz
  refine ⟨.other, ?_⟩
  rw [all, if_pos]
  refine ⟨m, hm, ?_⟩
  simp only [moment]
  rw [if_neg (not_or.mpr ⟨by omega, hz⟩), if_pos ⟨l, hl⟩]
  rfl

/-! ### A concrete case: four levels with steps 1, 1/2, 1/4, 1/8 and variances 4, 1, 1/2, 1/3 of the first moment -/

/-- Variances of the zeroth and first moment. -/
noncomputable def exRaw : Fin 4 → Fin 2 → ℝ := ![![0, 4], ![0, 1], ![0, 1 / 2], ![0, 1 / 3]]
/-- Steps. -/
noncomputable def exSteps : Fin 4 → ℝ := ![1, 1 / 2, 1 / 4, 1 / 8]

example : ∃ lstsq r, IsLstSq lstsq ∧ all lstsq (fun _ => 10) exSteps exRaw = .ok r ∧ r = exRaw ∧ ¬ AllClose fun l => exRaw l 1 := by
  obtain ⟨f, hf⟩ := exists_lstSq
  have hs : ∀ l : Fin 3, 0 < exSteps l.succ := fun l => by fin_cases l <;> simp [exSteps]
  obtain ⟨r, hr⟩ := C80_succeeds_partial (lstsq := f) (nCreated := fun _ => 10) (steps := exSteps) (raw := exRaw)
    (fun l => by fin_cases l <;> simp [exRaw]) (fun l m hm => by
      fin_cases m
      · exact absurd rfl hm
      · fin_cases l <;> simp [exRaw]) hs (by simp)
  refine ⟨f, r, hf, hr, C80_up_to_four_levels hf hr (le_refl _) hs (fun i j h => ?_), fun h => ?_⟩
  · fin_cases i <;> fin_cases j <;> first | rfl | (exfalso; revert h; simp [exSteps]; try norm_num)
  · have := h 0; norm_num [exRaw] at this

end MLMC.Reg
