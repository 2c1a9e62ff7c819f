import Verif.Model.Distribution
import Mathlib.Analysis.SpecialFunctions.Pow.Real
import Mathlib.MeasureTheory.Integral.IntervalIntegral.FundThmCalculus
import Mathlib.Algebra.Order.Ring.Rat
import Mathlib.Analysis.Complex.ExponentialBounds
import Mathlib.Tactic.Linarith
import Mathlib.Tactic.NormNum
import Mathlib.Tactic.FinCases
/-
C70, C78: approximated distributions.
-/
namespace MLMC.Dist
section
variable {K : Type} [Field K] [LinearOrder K] [IsStrictOrderedRing K]

theorem cdfLoop_length (quad : K → K → K) (lo hi : K) : ∀ (vs : List K) (x y : K), (cdfLoop quad lo hi vs x y).length = vs.length
  | [], _, _ => rfl
  | v :: vs, x, y => by
    unfold cdfLoop
    split_ifs <;> simp [cdfLoop_length quad lo hi vs]

theorem cdfLoop_bounds (quad : K → K → K) (lo hi : K) : ∀ (vs : List K) (x y : K) (i : Nat) (v w : K), vs[i]? = some v → (cdfLoop quad lo hi vs x y)[i]? = some w →
    (v ≤ lo → w = 0) ∧ (lo < v → hi ≤ v → w = 1)
  | [], x, y, i, v, w, h, _ => by simp at h
  | u :: vs, x, y, i, v, w, h, h' => by
    cases i with
    | zero =>
      simp only [List.getElem?_cons_zero, Option.some.injEq] at h
      subst h
      unfold cdfLoop at h'
      split_ifs at h' with h1 h2
      · simp only [List.getElem?_cons_zero, Option.some.injEq] at h'
        exact ⟨fun _ => h'.symm, fun h3 => absurd h1 (not_le.2 h3)⟩
      · simp only [List.getElem?_cons_zero, Option.some.injEq] at h'
        exact ⟨fun h3 => absurd h3 h1, fun _ _ => h'.symm⟩
      · exact ⟨fun h3 => absurd h3 h1, fun _ h3 => absurd h3 h2⟩
    | succ i =>
      unfold cdfLoop at h'
      rw [List.getElem?_cons_succ] at h
      split_ifs at h' <;> rw [List.getElem?_cons_succ] at h' <;> exact cdfLoop_bounds quad lo hi vs _ _ i v w h h'

/-- C70: one value for each argument; 0 for an argument at or below the lower bound, 1 at or above the upper bound.  For all lists of arguments in any order. -/
theorem C70_bounds (quad : K → K → K) (lo hi : K) (values : List K) : (cdf quad lo hi values).length = values.length ∧
    ∀ (i : Nat) (v w : K), values[i]? = some v → (cdf quad lo hi values)[i]? = some w → (v ≤ lo → w = 0) ∧ (lo < v → hi ≤ v → w = 1) :=
  ⟨cdfLoop_length quad lo hi values lo 0, cdfLoop_bounds quad lo hi values lo 0⟩

/-- The exact distribution function for the integral `I`. -/
def exactCdf (I : K → K → K) (lo hi v : K) : K := if v ≤ lo then 0 else if hi ≤ v then 1 else I lo v

theorem cdfLoop_sorted (I : K → K → K) (hI : ∀ a b c, I a b + I b c = I a c) (lo hi : K) : ∀ (vs : List K) (x y : K), vs.Pairwise (· ≤ ·) →
    (x = lo ∧ y = 0 ∨ lo < x ∧ y = I lo x ∧ (∀ v ∈ vs, x ≤ v) ∨ ∀ v ∈ vs, hi ≤ v ∧ lo < v) → cdfLoop I lo hi vs x y = vs.map (exactCdf I lo hi)
  | [], _, _, _, _ => rfl
  | v :: vs, x, y, hs, h => by
    obtain ⟨h1, h2⟩ := List.pairwise_cons.1 hs
    have hII : I lo lo = 0 := by have := hI lo lo lo; linarith
    unfold cdfLoop
    rw [List.map_cons]
    by_cases c1 : v ≤ lo
    · rw [if_pos c1, exactCdf, if_pos c1]
      rcases h with ⟨rfl, rfl⟩ | ⟨a, b, c⟩ | h
      · rw [cdfLoop_sorted I hI x hi vs x 0 h2 (.inl ⟨rfl, rfl⟩)]
      · exact absurd (a.trans_le ((c v (by simp)).trans c1)) (lt_irrefl _)
      · exact absurd c1 (not_le.2 (h v (by simp)).2)
    · rw [if_neg c1]
      by_cases c2 : hi ≤ v
      · rw [if_pos c2, exactCdf, if_neg c1, if_pos c2]
        rw [cdfLoop_sorted I hI lo hi vs x 1 h2 (.inr (.inr fun u hu => ⟨c2.trans (h1 u hu), (not_le.1 c1).trans_le (h1 u hu)⟩))]
      · rw [if_neg c2, exactCdf, if_neg c1, if_neg c2]
        have e : y + I x v = I lo v := by
          rcases h with ⟨rfl, rfl⟩ | ⟨a, rfl, c⟩ | h
          · rw [zero_add]
          · exact hI lo x v
          · exact absurd (h v (by simp)).1 c2
        rw [e, cdfLoop_sorted I hI lo hi vs v (I lo v) h2 (.inr (.inl ⟨not_le.1 c1, rfl, h1⟩))]

/-- C70: for sorted arguments and exact integration, each value is the integral of the density up to the argument, whatever the other arguments are. -/
theorem C70_sorted_partial (I : K → K → K) (hI : ∀ a b c, I a b + I b c = I a c) (lo hi : K) (values : List K) (hs : values.Pairwise (· ≤ ·)) :
    cdf I lo hi values = values.map (exactCdf I lo hi) := cdfLoop_sorted I hI lo hi values lo 0 hs (.inl ⟨rfl, rfl⟩)

/-- C70: for sorted arguments, a non-negative density and an integral of at most 1, the values are sorted and between 0 and 1. -/
theorem C70_monotone_partial (I : K → K → K) (hI : ∀ a b c, I a b + I b c = I a c) (hp : ∀ a b, a ≤ b → 0 ≤ I a b) (lo hi : K) (h1 : I lo hi ≤ 1)
    (values : List K) (hs : values.Pairwise (· ≤ ·)) : (cdf I lo hi values).Pairwise (· ≤ ·) ∧ ∀ w ∈ cdf I lo hi values, 0 ≤ w ∧ w ≤ 1 := by
  rw [C70_sorted_partial I hI lo hi values hs]
  have bound : ∀ v, 0 ≤ exactCdf I lo hi v ∧ exactCdf I lo hi v ≤ 1 := by
    intro v
    unfold exactCdf
    split_ifs with a b
    · exact ⟨le_refl _, zero_le_one⟩
    · exact ⟨zero_le_one, le_refl _⟩
    · have h2 := hI lo v hi
      have h3 := hp v hi (not_le.1 b).le
      exact ⟨hp lo v (not_le.1 a).le, by linarith⟩
  have mono : ∀ v w, v ≤ w → exactCdf I lo hi v ≤ exactCdf I lo hi w := by
    intro v w hvw
    unfold exactCdf
    split_ifs with a b c d e f
    · exact le_refl _
    · exact zero_le_one
    · exact hp lo w (not_le.1 b).le
    · exact absurd (hvw.trans e) a
    · exact le_refl _
    · exact absurd (d.trans hvw) f
    · exact absurd (hvw.trans ‹w ≤ lo›) a
    · have h2 := hI lo v hi
      have h3 := hp v hi (not_le.1 d).le
      linarith
    · have h2 := hI lo v w
      have h3 := hp v w hvw
      linarith
  refine ⟨?_, ?_⟩
  · rw [List.pairwise_map]
    exact hs.imp fun {a b} h => mono a b h
  · intro w hw
    obtain ⟨v, _, rfl⟩ := List.mem_map.1 hw
    exact bound v

/-- C70 for any quadrature that is not negative on intervals (as Gauss quadrature of a density is): sorted arguments inside the domain get sorted values. -/
theorem C70_interior_monotone_partial (quad : K → K → K) (hq : ∀ a b, a ≤ b → 0 ≤ quad a b) (lo hi : K) (values : List K) (hs : values.Pairwise (· ≤ ·))
    (hb : ∀ v ∈ values, v < hi) : (cdf quad lo hi values).Pairwise (· ≤ ·) := by
  suffices h : ∀ (vs : List K) (x y : K), vs.Pairwise (· ≤ ·) → (∀ v ∈ vs, v < hi) → 0 ≤ y → (∀ v ∈ vs, v ≤ lo ∨ x ≤ v) → ((∃ v ∈ vs, v ≤ lo) → y = 0) →
      (cdfLoop quad lo hi vs x y).Pairwise (· ≤ ·) ∧ ∀ w ∈ cdfLoop quad lo hi vs x y, y ≤ w by
    exact (h values lo 0 hs hb (le_refl _) (fun v _ => le_total v lo) (fun _ => rfl)).1
  intro vs
  induction vs with
  | nil => intro x y _ _ _ _ _; exact ⟨List.Pairwise.nil, fun w hw => by simp [cdfLoop] at hw⟩
  | cons v vs ih =>
    intro x y hs hb hy hx hz
    obtain ⟨h1, h2⟩ := List.pairwise_cons.1 hs
    have hb' : ∀ u ∈ vs, u < hi := fun u hu => hb u (by simp [hu])
    unfold cdfLoop
    by_cases c1 : v ≤ lo
    · have : y = 0 := hz ⟨v, by simp, c1⟩
      subst this
      rw [if_pos c1]
      obtain ⟨i1, i2⟩ := ih x 0 h2 hb' (le_refl _) (fun u hu => hx u (by simp [hu])) (fun _ => rfl)
      refine ⟨List.pairwise_cons.2 ⟨i2, i1⟩, fun w hw => ?_⟩
      rcases List.mem_cons.1 hw with rfl | hw
      · exact le_refl _
      · exact i2 w hw
    · rw [if_neg c1, if_neg (not_le.2 (hb v (by simp)))]
      have hv : x ≤ v := (hx v (by simp)).resolve_left c1
      have hq' := hq x v hv
      obtain ⟨i1, i2⟩ := ih v (y + quad x v) h2 hb' (by linarith) (fun u hu => .inr (h1 u hu)) (by
        rintro ⟨u, hu, hlo⟩
        exact absurd ((h1 u hu).trans hlo) c1)
      refine ⟨List.pairwise_cons.2 ⟨i2, i1⟩, fun w hw => ?_⟩
      rcases List.mem_cons.1 hw with rfl | hw
      · linarith
      · exact (by linarith : y ≤ y + quad x v).trans (i2 w hw)

end

/-- The hypotheses hold for the uniform density on the unit interval. -/
example : cdf (fun a b : ℚ => b - a) 0 1 [-1, 1 / 4, 1 / 2, 2] = [0, 1 / 4, 1 / 2, 1] ∧
    (cdf (fun a b : ℚ => b - a) 0 1 [-1, 1 / 4, 1 / 2, 2]).Pairwise (· ≤ ·) :=
  ⟨by decide +kernel, (C70_monotone_partial (fun a b : ℚ => b - a) (fun a b c => by ring) (fun a b h => by linarith) 0 1 (by norm_num) _ (by decide +kernel)).1⟩

/-- C70 fails for arguments that are not sorted (the method throws away the sorted array): with the uniform density on the unit interval an argument after one above the upper
bound gets a value above 1, an argument after one below the lower bound a value that is too small. -/
theorem C70_counterexample_order : cdf (fun a b : ℚ => b - a) 0 1 [2, 1 / 2] = [1, 3 / 2] ∧ cdf (fun a b : ℚ => b - a) 0 1 [1 / 2, -1, 3 / 4] = [1 / 2, 0, 1 / 4] := by
  decide +kernel

/-- C70 fails for a density with an integral above 1: the function decreases at the upper bound. -/
theorem C70_counterexample_normalization : cdf (fun a b : ℚ => 2 * (b - a)) 0 1 [3 / 4, 1] = [3 / 2, 1] := by decide +kernel

/-! ### C78 -/

section
open MeasureTheory
variable {n : Nat}

theorem power_fix (moms : Fin (n + 1) → ℝ → ℝ) (h0 : ∀ x, moms 0 x = 1) (errs mult : Fin (n + 1) → ℝ) (d x : ℝ) :
    power moms errs (Function.update mult 0 (mult 0 - d)) x = power moms errs mult x + d / errs 0 := by
  unfold power
  rw [Fin.sum_univ_succ, Fin.sum_univ_succ]
  simp only [Function.update_self, h0, Fin.succ_ne_zero, Function.update_of_ne, ne_eq, not_false_eq_true]
  ring

theorem density_noclip (moms : Fin (n + 1) → ℝ → ℝ) (errs mult : Fin (n + 1) → ℝ) (x : ℝ) (h : |power moms errs mult x| ≤ 200) :
    density moms errs mult x = Real.exp (power moms errs mult x) := by
  obtain ⟨h1, h2⟩ := abs_le.1 h
  rw [density, max_eq_left h1, min_eq_left h2]

/-- The integral of the density after "fix normalization" (where exponents are not clipped): a power of the integral before. -/
theorem C78_integral_after (moms : Fin (n + 1) → ℝ → ℝ) (h0 : ∀ x, moms 0 x = 1) (errs mult : Fin (n + 1) → ℝ) (a b : ℝ)
    (hc : ∀ x ∈ Set.uIcc a b, |power moms errs mult x| ≤ 200) (hc' : ∀ x ∈ Set.uIcc a b, |power moms errs (fixNormalization moms errs mult a b) x| ≤ 200)
    (hm : 0 < ∫ x in a..b, density moms errs mult x) :
    ∫ x in a..b, density moms errs (fixNormalization moms errs mult a b) x = (∫ x in a..b, density moms errs mult x) ^ (1 + 1 / errs 0) := by
  have e0 : moment0 moms errs mult a b = ∫ x in a..b, density moms errs mult x := by simp only [moment0, h0, mul_one]
  set m := ∫ x in a..b, density moms errs mult x with hmdef
  have e1 : ∀ x ∈ Set.uIcc a b, density moms errs (fixNormalization moms errs mult a b) x = density moms errs mult x * m ^ (1 / errs 0) := by
    intro x hx
    rw [density_noclip _ _ _ _ (hc' x hx), density_noclip _ _ _ _ (hc x hx), fixNormalization, power_fix moms h0, e0, Real.exp_add, Real.rpow_def_of_pos hm]
    congr 2
    ring
  rw [intervalIntegral.integral_congr e1, intervalIntegral.integral_mul_const, ← hmdef, Real.rpow_add hm, Real.rpow_one]

/-- C78 fails: after "fix normalization" the density integrates to 1 only if it did so before. -/
theorem C78_counterexample (moms : Fin (n + 1) → ℝ → ℝ) (h0 : ∀ x, moms 0 x = 1) (errs mult : Fin (n + 1) → ℝ) (he : 0 < errs 0) (a b : ℝ)
    (hc : ∀ x ∈ Set.uIcc a b, |power moms errs mult x| ≤ 200) (hc' : ∀ x ∈ Set.uIcc a b, |power moms errs (fixNormalization moms errs mult a b) x| ≤ 200)
    (hm : 0 < ∫ x in a..b, density moms errs mult x) :
    ∫ x in a..b, density moms errs (fixNormalization moms errs mult a b) x = 1 ↔ ∫ x in a..b, density moms errs mult x = 1 := by
  rw [C78_integral_after moms h0 errs mult a b hc hc' hm]
  have : 0 < 1 + 1 / errs 0 := by positivity
  constructor
  · intro h
    have h' := congrArg Real.log h
    rw [Real.log_rpow hm, Real.log_one, mul_eq_zero] at h'
    exact Real.eq_one_of_pos_of_log_eq_zero hm (h'.resolve_left this.ne')
  · intro h; rw [h, Real.one_rpow]

/-- A constant density 2 on the unit interval, one moment, error 1. -/
theorem const_power (c x : ℝ) : power (n := 0) (fun _ _ => 1) (fun _ => 1) (fun _ => -c) x = c := by simp [power]

theorem log_two_small : |Real.log 2| ≤ 200 ∧ |Real.log 2 + Real.log 2| ≤ 200 := by
  have h1 := Real.log_two_lt_d9
  have h2 := Real.log_two_gt_d9
  constructor <;> rw [abs_le] <;> constructor <;> linarith

theorem const_two (x : ℝ) : density (n := 0) (fun _ _ => 1) (fun _ => 1) (fun _ => -Real.log 2) x = 2 := by
  rw [density_noclip _ _ _ _ (by rw [const_power]; exact log_two_small.1), const_power, Real.exp_log (by norm_num)]

/-- A concrete case: the density 2 on the unit interval becomes the density 4. -/
theorem C78_counterexample_concrete : ∫ x in (0 : ℝ)..1, density (n := 0) (fun _ _ => 1) (fun _ => 1) (fixNormalization (fun _ _ => 1) (fun _ => 1) (fun _ => -Real.log 2) 0 1) x = 4 := by
  have hi : ∫ x in (0 : ℝ)..1, density (n := 0) (fun _ _ => 1) (fun _ => 1) (fun _ => -Real.log 2) x = 2 := by simp only [const_two]; simp
  have hf : fixNormalization (n := 0) (fun _ _ => 1) (fun _ => 1) (fun _ => -Real.log 2) 0 1 = fun _ => -(Real.log 2 + Real.log 2) := by
    funext i
    have : i = 0 := by fin_cases i; rfl
    subst this
    simp only [fixNormalization, moment0, mul_one, hi, Function.update_self]
    ring
  rw [C78_integral_after _ (fun _ => rfl) _ _ 0 1 (fun x _ => by rw [const_power]; exact log_two_small.1) (fun x _ => by rw [hf, const_power]; exact log_two_small.2) (by rw [hi]; norm_num), hi]
  norm_num

/-- The class `Distribution` divides the multipliers by the integral instead: the density 2 on the unit interval becomes the density √2. -/
theorem C78_counterexample_distribution :
    (∫ x in (0 : ℝ)..1, density' (n := 0) (fun _ _ => 1) (fun _ => 1) (fixNormalization' (fun _ _ => 1) (fun _ => 1) (fun _ => -Real.log 2) 0 1) x) ^ 2 = 2 := by
  have hi : moment0 (n := 0) (fun _ _ => 1) (fun _ => 1) (fun _ => -Real.log 2) 0 1 = 2 := by simp only [moment0, const_two, mul_one]; simp
  have hf : ∀ x, density' (n := 0) (fun _ _ => 1) (fun _ => 1) (fixNormalization' (fun _ _ => 1) (fun _ => 1) (fun _ => -Real.log 2) 0 1) x = Real.exp (Real.log 2 / 2) := by
    intro x
    have : fixNormalization' (n := 0) (fun _ _ => 1) (fun _ => 1) (fun _ => -Real.log 2) 0 1 = fun _ => -(Real.log 2 / 2) := by
      funext i
      simp only [fixNormalization', hi]
      ring
    rw [this, density', const_power]
  simp only [hf]
  rw [intervalIntegral.integral_const, sub_zero, one_smul, ← Real.exp_nat_mul]
  norm_num
  rw [mul_div_cancel₀ _ (by norm_num : (2 : ℝ) ≠ 0), Real.exp_log (by norm_num)]

end
end MLMC.Dist
