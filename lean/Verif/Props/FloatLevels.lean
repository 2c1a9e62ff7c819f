import Verif.Model.FloatLevels
import Verif.Props.FloatInitial
/-! # C164 Level parameters in floating-point arithmetic -/
namespace MLMC.Alloc
open Fl

/-- Every operation has a relative error of at most `u`; 0 and 1 are numbers of the machine; powers with exponents 0 and 1 are exact (C99, annex F, for the exponent 0; any faithful `pow` for the exponent 1). -/
structure PowMachine.Valid (M : PowMachine) (u : ℝ) : Prop where
  nonneg : 0 ≤ u
  rnd : ∀ x, |M.rnd x - x| ≤ u * |x|
  one : M.rnd 1 = 1
  pow : ∀ x y, 0 < x → |M.pow x y - x ^ y| ≤ u * x ^ y
  pow_zero : ∀ x, 0 < x → M.pow x 0 = 1
  pow_one : ∀ x, 0 < x → M.pow x 1 = x

/-- The relative error of a step if the logarithms of the ends of the step range are at most `Λ`. -/
noncomputable def stepErr (u Λ : ℝ) : ℝ := Real.exp (3 * u * Λ) * (1 + u) ^ 3 - 1

/-- Step `i` of `L` exactly. -/
noncomputable def exactStep (coarsest finest : ℝ) (L i : Nat) : ℝ := coarsest ^ (1 - (i : ℝ) / (L - 1)) * finest ^ ((i : ℝ) / (L - 1))

/-! ## Helpers -/

theorem within_rel {u x y : ℝ} (hu : 0 ≤ u) (hx : 0 ≤ x) (h : |y - x| ≤ u * x) : (1 - u) * x ≤ y ∧ y ≤ (1 + u) * x := by
  have := abs_le.1 h
  constructor <;> linarith [this.1, this.2]

/-- An error of the exponent. -/
theorem rpow_exponent {x y z ε Λ : ℝ} (hx : 0 < x) (hΛ : |Real.log x| ≤ Λ) (h : |y - z| ≤ ε) : Real.exp (-(ε * Λ)) * x ^ z ≤ x ^ y ∧ x ^ y ≤ Real.exp (ε * Λ) * x ^ z := by
  have hz : 0 < x ^ z := Real.rpow_pos_of_pos hx z
  have e : x ^ y = Real.exp (Real.log x * (y - z)) * x ^ z := by
    rw [Real.rpow_def_of_pos hx, Real.rpow_def_of_pos hx, ← Real.exp_add]
    congr 1
    ring
  have hb : |Real.log x * (y - z)| ≤ ε * Λ := by
    rw [abs_mul, mul_comm ε]
    exact mul_le_mul hΛ h (abs_nonneg _) ((abs_nonneg _).trans hΛ)
  have hb := abs_le.1 hb
  rw [e]
  exact ⟨mul_le_mul_of_nonneg_right (Real.exp_le_exp.2 hb.1) hz.le, mul_le_mul_of_nonneg_right (Real.exp_le_exp.2 hb.2) hz.le⟩

theorem lower_factor {u E : ℝ} (hu : 0 ≤ u) (hE : 1 ≤ E) : E * (2 - E * (1 + u) ^ 3) ≤ (1 - u) ^ 3 := by
  have h1 : 1 ≤ (1 + u) ^ 3 := one_le_pow₀ (by linarith)
  have hc : 2 - (1 + u) ^ 3 ≤ (1 - u) ^ 3 := by
    have : (1 - u) ^ 3 + (1 + u) ^ 3 = 2 + 6 * u ^ 2 := by ring
    linarith [sq_nonneg u]
  generalize (1 + u) ^ 3 = k at h1 hc
  refine le_trans ?_ hc
  have : 0 ≤ (E - 1) * (k * (E + 1) - 2) := mul_nonneg (by linarith) (by nlinarith)
  linarith

theorem step_near {M : PowMachine} {u Λ : ℝ} (hM : M.Valid u) (hu1 : u ≤ 1) {coarsest finest : ℝ} (hc : 0 < coarsest) (hf : 0 < finest) (hΛc : |Real.log coarsest| ≤ Λ) (hΛf : |Real.log finest| ≤ Λ)
    {p p' : ℝ} (hp0 : 0 ≤ p) (hp1 : p ≤ 1) (hp : |p' - p| ≤ u * p) :
    |flStep M coarsest finest p' - coarsest ^ (1 - p) * finest ^ p| ≤ stepErr u Λ * (coarsest ^ (1 - p) * finest ^ p) := by
  have hu := hM.nonneg
  have hΛ : 0 ≤ Λ := (abs_nonneg _).trans hΛc
  -- exponents
  have hq : |M.rnd (1 - p') - (1 - p)| + |p' - p| ≤ 3 * u := by
    have h1 := hM.rnd (1 - p')
    have h2 : |1 - p'| ≤ 1 - p + u * p := by
      have e : 1 - p' = (1 - p) - (p' - p) := by ring
      rw [e]
      refine (abs_sub _ _).trans ?_
      rw [abs_of_nonneg (by linarith : 0 ≤ 1 - p)]
      linarith
    have h3 : |M.rnd (1 - p') - (1 - p)| ≤ u * (1 - p + u * p) + u * p := by
      have e : M.rnd (1 - p') - (1 - p) = (M.rnd (1 - p') - (1 - p')) - (p' - p) := by ring
      rw [e]
      refine (abs_sub _ _).trans ?_
      have := mul_le_mul_of_nonneg_left h2 hu
      linarith
    have h4 : u * (1 - p + u * p) ≤ u := by
      have : 1 - p + u * p ≤ 1 := by nlinarith
      nlinarith
    have h5 : u * p ≤ u := by nlinarith
    linarith
  set a := |M.rnd (1 - p') - (1 - p)| with ha
  set b := |p' - p| with hb
  obtain ⟨c1, c2⟩ := rpow_exponent hc hΛc (le_refl a)
  obtain ⟨f1, f2⟩ := rpow_exponent hf hΛf (le_refl b)
  set X := coarsest ^ (1 - p) with hX
  set Y := finest ^ p with hY
  have hX0 : 0 < X := Real.rpow_pos_of_pos hc _
  have hY0 : 0 < Y := Real.rpow_pos_of_pos hf _
  set X' := coarsest ^ M.rnd (1 - p') with hX'
  set Y' := finest ^ p' with hY'
  have hX'0 : 0 < X' := Real.rpow_pos_of_pos hc _
  have hY'0 : 0 < Y' := Real.rpow_pos_of_pos hf _
  set E := Real.exp (3 * u * Λ) with hE
  have hE1 : 1 ≤ E := Real.one_le_exp (by positivity)
  have hexp : Real.exp (a * Λ) * Real.exp (b * Λ) ≤ E := by
    rw [← Real.exp_add, ← add_mul]
    exact Real.exp_le_exp.2 (mul_le_mul_of_nonneg_right hq hΛ)
  have up : X' * Y' ≤ E * (X * Y) := by
    calc X' * Y' ≤ (Real.exp (a * Λ) * X) * (Real.exp (b * Λ) * Y) := mul_le_mul c2 f2 hY'0.le (mul_pos (Real.exp_pos _) hX0).le
      _ = Real.exp (a * Λ) * Real.exp (b * Λ) * (X * Y) := by ring
      _ ≤ E * (X * Y) := mul_le_mul_of_nonneg_right hexp (mul_pos hX0 hY0).le
  have down : X * Y ≤ E * (X' * Y') := by
    have c1' : X ≤ Real.exp (a * Λ) * X' := by
      have := mul_le_mul_of_nonneg_left c1 (Real.exp_pos (a * Λ)).le
      rwa [← mul_assoc, ← Real.exp_add, add_neg_cancel, Real.exp_zero, one_mul] at this
    have f1' : Y ≤ Real.exp (b * Λ) * Y' := by
      have := mul_le_mul_of_nonneg_left f1 (Real.exp_pos (b * Λ)).le
      rwa [← mul_assoc, ← Real.exp_add, add_neg_cancel, Real.exp_zero, one_mul] at this
    calc X * Y ≤ (Real.exp (a * Λ) * X') * (Real.exp (b * Λ) * Y') := mul_le_mul c1' f1' hY0.le (mul_pos (Real.exp_pos _) hX'0).le
      _ = Real.exp (a * Λ) * Real.exp (b * Λ) * (X' * Y') := by ring
      _ ≤ E * (X' * Y') := mul_le_mul_of_nonneg_right hexp (mul_pos hX'0 hY'0).le
  -- roundings
  obtain ⟨p1, p2⟩ := within_rel hu hX'0.le (hM.pow coarsest (M.rnd (1 - p')) hc)
  obtain ⟨q1, q2⟩ := within_rel hu hY'0.le (hM.pow finest p' hf)
  have h1u : 0 ≤ 1 - u := by linarith
  set P := M.pow coarsest (M.rnd (1 - p')) with hP
  set Q := M.pow finest p' with hQ
  have hP0 : 0 ≤ P := (mul_nonneg h1u hX'0.le).trans p1
  have hQ0 : 0 ≤ Q := (mul_nonneg h1u hY'0.le).trans q1
  have pq0 : 0 ≤ P * Q := mul_nonneg hP0 hQ0
  have hr := hM.rnd (P * Q)
  rw [abs_of_nonneg pq0] at hr
  obtain ⟨r1, r2⟩ := within_rel hu pq0 hr
  set R := M.rnd (P * Q) with hR
  have top : R ≤ (1 + u) ^ 3 * (X' * Y') := by
    calc R ≤ (1 + u) * (P * Q) := r2
      _ ≤ (1 + u) * (((1 + u) * X') * ((1 + u) * Y')) := mul_le_mul_of_nonneg_left (mul_le_mul p2 q2 hQ0 (by positivity)) (by linarith)
      _ = (1 + u) ^ 3 * (X' * Y') := by ring
  have bot : (1 - u) ^ 3 * (X' * Y') ≤ R := by
    calc (1 - u) ^ 3 * (X' * Y') = (1 - u) * (((1 - u) * X') * ((1 - u) * Y')) := by ring
      _ ≤ (1 - u) * (P * Q) := mul_le_mul_of_nonneg_left (mul_le_mul p1 q1 (mul_nonneg h1u hY'0.le) hP0) h1u
      _ ≤ R := r1
  set Z := X * Y with hZ
  have hZ0 : 0 < Z := mul_pos hX0 hY0
  set Z' := X' * Y' with hZ'
  have hZ'0 : 0 < Z' := mul_pos hX'0 hY'0
  have k3 : 0 ≤ (1 + u) ^ 3 := by positivity
  have hstep : flStep M coarsest finest p' = R := rfl
  rw [hstep, stepErr, ← hE, abs_le]
  constructor
  · -- (1 - u)^3 / E ≥ 2 - E (1 + u)^3
    have hlow : (1 - u) ^ 3 * Z ≤ E * R := by
      calc (1 - u) ^ 3 * Z ≤ (1 - u) ^ 3 * (E * Z') := mul_le_mul_of_nonneg_left down (by positivity)
        _ = E * ((1 - u) ^ 3 * Z') := by ring
        _ ≤ E * R := mul_le_mul_of_nonneg_left bot (by linarith)
    have hgoal : E * ((2 - E * (1 + u) ^ 3) * Z) ≤ E * R := by
      refine le_trans ?_ hlow
      have := lower_factor hu hE1
      calc E * ((2 - E * (1 + u) ^ 3) * Z) = E * (2 - E * (1 + u) ^ 3) * Z := by ring
        _ ≤ (1 - u) ^ 3 * Z := mul_le_mul_of_nonneg_right this hZ0.le
    have := le_of_mul_le_mul_left hgoal (by linarith)
    linarith
  · have : R ≤ (1 + u) ^ 3 * (E * Z) := top.trans (mul_le_mul_of_nonneg_left up k3)
    linarith

theorem rnd_zero_pow {M : PowMachine} {u : ℝ} (hM : M.Valid u) : M.rnd 0 = 0 := by
  have := hM.rnd 0
  rw [abs_zero, mul_zero, sub_zero] at this
  exact abs_nonpos_iff.1 this

/-! ## C164 -/

/-- C164: a step range that does not decrease is refused; one level has the finest step. -/
theorem C164_refused_one_level (M : PowMachine) (u : ℝ) (hM : M.Valid u) (n : Nat) (coarsest finest : ℝ) :
    (¬ coarsest > finest → flLevelParameters M n coarsest finest = .error .assertionError) ∧
    (coarsest > finest → 0 < finest → M.rnd finest = finest → flLevelParameters M 1 coarsest finest = .ok [[finest]]) := by
  refine ⟨fun h => by rw [flLevelParameters, if_neg h], fun h hf hr => ?_⟩
  have hs : flStep M coarsest finest 1 = finest := by
    rw [flStep, sub_self, rnd_zero_pow hM, hM.pow_zero _ (hf.trans h), hM.pow_one _ hf, one_mul, hr]
  rw [flLevelParameters, if_pos h]
  simp [flLevelParam, hs]

/-- C164: for two and more levels the first and the last step are exactly the ends of the step range (numbers of the machine), and every step is the one of the geometric sequence up to the relative error
`stepErr`. -/
theorem C164_steps (M : PowMachine) (u Λ : ℝ) (hM : M.Valid u) (hu1 : u ≤ 1) (n : Nat) (coarsest finest : ℝ) (hf : 0 < finest) (h : coarsest > finest) (hrc : M.rnd coarsest = coarsest)
    (hrf : M.rnd finest = finest) (hΛc : |Real.log coarsest| ≤ Λ) (hΛf : |Real.log finest| ≤ Λ) :
    ∃ steps : List ℝ, flLevelParameters M (n + 2) coarsest finest = .ok (steps.map fun s => [s]) ∧ steps.length = n + 2 ∧ steps.head? = some coarsest ∧ steps.getLast? = some finest ∧
      ∀ (i : Nat) (s : ℝ), steps[i]? = some s → |s - exactStep coarsest finest (n + 2) i| ≤ stepErr u Λ * exactStep coarsest finest (n + 2) i := by
  have hc : 0 < coarsest := hf.trans h
  have hn1 : (0 : ℝ) < ((n + 2 : Nat) : ℝ) - 1 := by push_cast; linarith [Nat.cast_nonneg (α := ℝ) n]
  refine ⟨(List.range (n + 2)).map fun i => flStep M coarsest finest (flLevelParam M (n + 2) i), ?_, by simp, ?_, ?_, ?_⟩
  · rw [flLevelParameters, if_pos h, List.map_map]; rfl
  · rw [List.head?_eq_getElem?]
    have hp : flLevelParam M (n + 2) 0 = 0 := by rw [flLevelParam, if_neg (by omega), Nat.cast_zero, zero_div, rnd_zero_pow hM]
    simp [hp, flStep, hM.one, hM.pow_zero _ hf, hM.pow_one _ hc, hrc]
  · rw [List.getLast?_eq_getElem?]
    have hp : flLevelParam M (n + 2) (n + 1) = 1 := by
      rw [flLevelParam, if_neg (by omega)]
      have e : ((n + 1 : Nat) : ℝ) = ((n + 2 : Nat) : ℝ) - 1 := by push_cast; ring
      rw [e, div_self hn1.ne', hM.one]
    simp [hp, flStep, rnd_zero_pow hM, hM.pow_zero _ hc, hM.pow_one _ hf, hrf]
  · intro i s hs
    have hi : i < n + 2 := by
      rcases Nat.lt_or_ge i (n + 2) with h | h
      · exact h
      · rw [List.getElem?_eq_none (by simpa using h)] at hs; cases hs
    obtain rfl : flStep M coarsest finest (flLevelParam M (n + 2) i) = s := by simpa [hi] using hs
    have hp0 : 0 ≤ (i : ℝ) / (((n + 2 : Nat) : ℝ) - 1) := div_nonneg (Nat.cast_nonneg i) hn1.le
    have hp1 : (i : ℝ) / (((n + 2 : Nat) : ℝ) - 1) ≤ 1 := by
      rw [div_le_one hn1]
      have : (i : ℝ) + 1 ≤ ((n + 2 : Nat) : ℝ) := by exact_mod_cast hi
      linarith
    refine step_near hM hu1 hc hf hΛc hΛf hp0 hp1 ?_
    rw [flLevelParam, if_neg (by omega)]
    have := hM.rnd ((i : ℝ) / (((n + 2 : Nat) : ℝ) - 1))
    rwa [abs_of_nonneg hp0] at this

/-- C164: the steps decrease strictly if the ratio of neighbours is below `(1 - η) / (1 + η)`, `η` being the relative error. -/
theorem C164_decreasing (M : PowMachine) (u Λ : ℝ) (hM : M.Valid u) (hu1 : u ≤ 1) (n : Nat) (coarsest finest : ℝ) (hf : 0 < finest) (h : coarsest > finest) (hrc : M.rnd coarsest = coarsest)
    (hrf : M.rnd finest = finest) (hΛc : |Real.log coarsest| ≤ Λ) (hΛf : |Real.log finest| ≤ Λ)
    (hratio : (1 + stepErr u Λ) * (finest / coarsest) ^ (1 / ((n : ℝ) + 1)) < 1 - stepErr u Λ) :
    ∃ steps : List ℝ, flLevelParameters M (n + 2) coarsest finest = .ok (steps.map fun s => [s]) ∧ ∀ (i : Nat) (s t : ℝ), steps[i]? = some s → steps[i + 1]? = some t → t < s := by
  obtain ⟨steps, h1, -, -, -, h5⟩ := C164_steps M u Λ hM hu1 n coarsest finest hf h hrc hrf hΛc hΛf
  refine ⟨steps, h1, fun i s t hs ht => ?_⟩
  have hc : 0 < coarsest := hf.trans h
  have a := abs_le.1 (h5 i s hs)
  have b := abs_le.1 (h5 (i + 1) t ht)
  have hx : 0 < exactStep coarsest finest (n + 2) i := mul_pos (Real.rpow_pos_of_pos hc _) (Real.rpow_pos_of_pos hf _)
  have hn1 : ((n + 2 : Nat) : ℝ) - 1 = n + 1 := by push_cast; ring
  have hn0 : (0 : ℝ) < (n : ℝ) + 1 := by linarith [Nat.cast_nonneg (α := ℝ) n]
  have e : exactStep coarsest finest (n + 2) (i + 1) = (finest / coarsest) ^ (1 / ((n : ℝ) + 1)) * exactStep coarsest finest (n + 2) i := by
    unfold exactStep
    rw [hn1, Real.div_rpow hf.le hc.le]
    have e1 : (1 : ℝ) - ((i + 1 : Nat) : ℝ) / ((n : ℝ) + 1) = (1 - (i : ℝ) / ((n : ℝ) + 1)) - 1 / ((n : ℝ) + 1) := by push_cast; ring
    have e2 : ((i + 1 : Nat) : ℝ) / ((n : ℝ) + 1) = (i : ℝ) / ((n : ℝ) + 1) + 1 / ((n : ℝ) + 1) := by push_cast; ring
    rw [e1, e2, Real.rpow_sub hc, Real.rpow_add hf]
    field_simp
  have h6 : t ≤ (1 + stepErr u Λ) * (finest / coarsest) ^ (1 / ((n : ℝ) + 1)) * exactStep coarsest finest (n + 2) i := by
    rw [e] at b
    linarith [b.2]
  calc t ≤ _ := h6
    _ < (1 - stepErr u Λ) * exactStep coarsest finest (n + 2) i := mul_lt_mul_of_pos_right hratio hx
    _ ≤ s := by linarith [a.1]

/-- C164: the error for doubles with powers accurate to `2^-52` and steps between `e^-10` and `e^10` is below `2^-45`. -/
theorem C164_doubles : stepErr (1 / 2 ^ 52) 10 < 1 / 2 ^ 45 := by
  have h : Real.exp (3 * (1 / 2 ^ 52) * 10) ≤ 1 + 2 * (3 * (1 / 2 ^ 52) * 10) := by
    have := Real.abs_exp_sub_one_le (x := 3 * (1 / 2 ^ 52) * 10) (by rw [abs_of_pos (by norm_num)]; norm_num)
    rw [abs_of_pos (by norm_num : (0 : ℝ) < 3 * (1 / 2 ^ 52) * 10)] at this
    linarith [(abs_le.1 this).2]
  unfold stepErr
  have h2 : Real.exp (3 * (1 / 2 ^ 52) * 10) * (1 + 1 / 2 ^ 52) ^ 3 ≤ (1 + 2 * (3 * (1 / 2 ^ 52) * 10)) * (1 + 1 / 2 ^ 52) ^ 3 := mul_le_mul_of_nonneg_right h (by norm_num)
  refine lt_of_le_of_lt (sub_le_sub_right h2 1) ?_
  norm_num

/-! ## The hypotheses are met -/

open Classical in
/-- All results but 0, 1 and the steps 1/2 and 1/8 are too large by the relative error `2^-52`. -/
noncomputable def offPow : PowMachine :=
  ⟨fun x => if x = 1 ∨ x = 1 / 2 ∨ x = 1 / 8 then x else x * (1 + 1 / 2 ^ 52), fun x y => if y = 0 then 1 else if y = 1 then x else x ^ y * (1 + 1 / 2 ^ 52)⟩

theorem offPow_valid : offPow.Valid (1 / 2 ^ 52) := by
  have h : ∀ x : ℝ, |x * (1 + 1 / 2 ^ 52) - x| ≤ 1 / 2 ^ 52 * |x| := by
    intro x
    rw [show x * (1 + 1 / 2 ^ 52) - x = 1 / 2 ^ 52 * x by ring, abs_mul, abs_of_nonneg (by norm_num)]
  refine ⟨by norm_num, fun x => ?_, by simp [offPow], fun x y hx => ?_, fun x _ => by simp [offPow], fun x _ => by simp [offPow]⟩
  · simp only [offPow]
    split
    · rw [sub_self, abs_zero]; positivity
    · exact h x
  · have hp : 0 < x ^ y := Real.rpow_pos_of_pos hx y
    simp only [offPow]
    split
    · rename_i h0; rw [h0, Real.rpow_zero, sub_self, abs_zero]; norm_num
    · split
      · rename_i h1; rw [h1, Real.rpow_one, sub_self, abs_zero]; positivity
      · have := h (x ^ y)
        rwa [abs_of_pos hp] at this

theorem log_half_eighth : |Real.log (1 / 2)| ≤ 10 ∧ |Real.log (1 / 8)| ≤ 10 := by
  have h2 := Real.log_le_sub_one_of_pos (show (0 : ℝ) < 2 by norm_num)
  have h0 := Real.log_pos (show (1 : ℝ) < 2 by norm_num)
  have e1 : Real.log (1 / 2) = - Real.log 2 := by rw [one_div, Real.log_inv]
  have e2 : Real.log (1 / 8) = - (3 * Real.log 2) := by
    rw [one_div, Real.log_inv, show (8 : ℝ) = 2 ^ 3 by norm_num, Real.log_pow]; norm_num
  rw [e1, e2, abs_neg, abs_neg, abs_of_pos (by linarith), abs_of_pos (by linarith)]
  constructor <;> linarith

/-- Steps from 1/2 to 1/8 on three levels. -/
example := C164_steps offPow (1 / 2 ^ 52) 10 offPow_valid (by norm_num) 1 (1 / 2) (1 / 8) (by norm_num) (by norm_num) (by simp [offPow]) (by simp [offPow]) log_half_eighth.1 log_half_eighth.2

example := (C164_refused_one_level offPow (1 / 2 ^ 52) offPow_valid 3 (1 / 2) (1 / 8)).2 (by norm_num) (by norm_num) (by simp [offPow])

/-- Steps from 1/2 to 1/8 on three levels decrease. -/
example := C164_decreasing offPow (1 / 2 ^ 52) 10 offPow_valid (by norm_num) 1 (1 / 2) (1 / 8) (by norm_num) (by norm_num) (by simp [offPow]) (by simp [offPow]) log_half_eighth.1 log_half_eighth.2 (by
  have h := C164_doubles
  have e : ((1 / 8 : ℝ) / (1 / 2)) ^ (1 / (((1 : Nat) : ℝ) + 1)) = 1 / 2 := by
    rw [show (1 / 8 : ℝ) / (1 / 2) = (1 / 2) ^ (2 : ℝ) by norm_num, ← Real.rpow_mul (by norm_num)]
    norm_num
  rw [e]
  norm_num at h ⊢
  linarith)

end MLMC.Alloc
