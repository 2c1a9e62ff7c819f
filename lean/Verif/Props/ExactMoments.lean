import Verif.Spec.ExactMoments
import Verif.Model.ExactMoments
import Verif.Props.Divergence
import Mathlib.Algebra.BigOperators.Ring.Finset
import Mathlib.Algebra.Polynomial.Eval.Degree
import Mathlib.Topology.Algebra.Polynomial
/-! # C97 Moments and covariances of a given density -/
namespace MLMC.Dist
open MeasureTheory

theorem covRow_entry (quad : (ℝ → Option ℝ) → ℝ → ℝ → Option ℝ) (moms : Nat → ℝ → ℝ) (density : ℝ → ℝ) (a b : ℝ) (i : Nat) (k : Nat) (m : Nat → Nat → Option ℝ) (i' j' : Nat) :
    (List.range k).foldl (fun m j =>
      let v := quad (fun x => some ((moms i x * moms j x) * density x)) a b
      setEntry (setEntry m j i v) i j v) m i' j' =
      if i' = i ∧ j' < k then quad (fun x => some ((moms i x * moms j' x) * density x)) a b
      else if j' = i ∧ i' < k then quad (fun x => some ((moms i x * moms i' x) * density x)) a b else m i' j' := by
  induction k with
  | zero => simp
  | succ k ih =>
    rw [List.range_succ, List.foldl_append, List.foldl_cons, List.foldl_nil]
    simp only [setEntry, ih]
    by_cases h1 : i' = i ∧ j' = k
    · obtain ⟨rfl, rfl⟩ := h1
      simp
    · rw [if_neg h1]
      by_cases h2 : i' = k ∧ j' = i
      · obtain ⟨rfl, rfl⟩ := h2
        by_cases h3 : i' = j'
        · subst h3; simp at h1
        · simp [h3]
      · rw [if_neg h2]
        have e1 : (i' = i ∧ j' < k) ↔ (i' = i ∧ j' < k + 1) := by constructor <;> rintro ⟨h, h'⟩ <;> refine ⟨h, ?_⟩ <;> omega
        have e2 : (j' = i ∧ i' < k) ↔ (j' = i ∧ i' < k + 1) := by constructor <;> rintro ⟨h, h'⟩ <;> refine ⟨h, ?_⟩ <;> omega
        simp only [e1, e2]

theorem cov_entry (quad) (moms : Nat → ℝ → ℝ) (density : ℝ → ℝ) (a b : ℝ) (size : Nat) (i j : Nat) (hi : i < size) (hj : j < size) :
    exactCov quad size moms density a b i j = quad (fun x => some ((moms (max i j) x * moms (min i j) x) * density x)) a b := by
  unfold exactCov
  induction size with
  | zero => omega
  | succ n ih =>
    rw [List.range_succ, List.foldl_append, List.foldl_cons, List.foldl_nil]
    rw [exactCovRow, covRow_entry]
    by_cases h1 : i = n ∧ j < n + 1
    · rw [if_pos h1, max_eq_left (by omega), min_eq_right (by omega), h1.1]
    · rw [if_neg h1]
      by_cases h2 : j = n ∧ i < n + 1
      · rw [if_pos h2, max_eq_right (by omega), min_eq_left (by omega), h2.1]
      · rw [if_neg h2]
        exact ih (by omega) (by omega)

theorem quad_form_integral {size : Nat} {moms : Nat → ℝ → ℝ} {density : ℝ → ℝ} {a b : ℝ} (hab : a < b) (hm : ∀ i < size, ContinuousOn (moms i) (Set.Icc a b))
    (hd : ContinuousOn density (Set.Icc a b)) (w : Nat → ℝ) :
    ∑ i ∈ Finset.range size, ∑ j ∈ Finset.range size, w i * (∫ x in a..b, (moms i x * moms j x) * density x) * w j =
      ∫ x in a..b, (∑ i ∈ Finset.range size, w i * moms i x) ^ 2 * density x := by
  have hint : ∀ i ∈ Finset.range size, ∀ j ∈ Finset.range size, IntervalIntegrable (fun x => w i * w j * ((moms i x * moms j x) * density x)) volume a b := by
    intro i hi j hj
    refine ContinuousOn.intervalIntegrable_of_Icc hab.le (continuousOn_const.mul ?_)
    exact ((hm i (Finset.mem_range.1 hi)).mul (hm j (Finset.mem_range.1 hj))).mul hd
  have e : (fun x => (∑ i ∈ Finset.range size, w i * moms i x) ^ 2 * density x) =
      fun x => ∑ i ∈ Finset.range size, ∑ j ∈ Finset.range size, w i * w j * ((moms i x * moms j x) * density x) := by
    funext x
    rw [sq, Finset.sum_mul_sum, Finset.sum_mul]
    refine Finset.sum_congr rfl fun i _ => ?_
    rw [Finset.sum_mul]
    exact Finset.sum_congr rfl fun j _ => by ring
  rw [e, intervalIntegral.integral_finsetSum]
  · refine Finset.sum_congr rfl fun i hi => ?_
    rw [intervalIntegral.integral_finsetSum fun j hj => hint i hi j hj]
    refine Finset.sum_congr rfl fun j _ => ?_
    rw [intervalIntegral.integral_const_mul]
    ring
  · intro i hi
    have := IntervalIntegrable.sum (Finset.range size) fun j hj => hint i hi j hj
    refine this.congr fun x _ => ?_
    simp only [Finset.sum_apply]

/-- `C97`: with exact integration of continuous moment functions and a continuous density `compute_exact_cov` gives the matrix of the integrals of products of
two moments, for a nonnegative density it is symmetric and positive semidefinite, for a positive one its quadratic form vanishes only for combinations of
moments that are 0 on the domain; if the zeroth moment is 1, row and column 0 are `compute_exact_moments`. -/
theorem C97_exact_covariance (quad) (hquad : Exact quad) (size : Nat) (moms : Nat → ℝ → ℝ) (density : ℝ → ℝ) (a b : ℝ) (hab : a < b)
    (hm : ∀ i < size, ContinuousOn (moms i) (Set.Icc a b)) (hd : ContinuousOn density (Set.Icc a b)) (h0 : ∀ x ∈ Set.Icc a b, 0 ≤ density x) :
    ∃ c : Nat → Nat → ℝ, (∀ i < size, ∀ j < size, exactCov quad size moms density a b i j = some (c i j) ∧
        c i j = ∫ x in a..b, (moms i x * moms j x) * density x) ∧
      (∀ i < size, ∀ j < size, c i j = c j i) ∧ Semidefinite size c ∧
      ((∀ x ∈ Set.Icc a b, 0 < density x) → ∀ w : Nat → ℝ, ∑ i ∈ Finset.range size, ∑ j ∈ Finset.range size, w i * c i j * w j = 0 →
        ∀ x ∈ Set.Icc a b, ∑ i ∈ Finset.range size, w i * moms i x = 0) ∧
      ((∀ x ∈ Set.Icc a b, moms 0 x = 1) → ∀ i < size,
        (exactMoments quad size moms density a b)[i]? = some (some (c i 0)) ∧ c 0 i = c i 0) := by
  have hsym : ∀ i j, (∫ x in a..b, (moms i x * moms j x) * density x) = ∫ x in a..b, (moms j x * moms i x) * density x := by
    intro i j; congr 1; funext x; ring
  have hsum : ∀ w : Nat → ℝ, ContinuousOn (fun x => ∑ i ∈ Finset.range size, w i * moms i x) (Set.Icc a b) := fun w =>
    continuousOn_finset_sum _ fun i hi => continuousOn_const.mul (hm i (Finset.mem_range.1 hi))
  refine ⟨fun i j => ∫ x in a..b, (moms i x * moms j x) * density x, ?_, fun i _ j _ => hsym i j, ?_, ?_, ?_⟩
  · intro i hi j hj
    refine ⟨?_, rfl⟩
    rw [cov_entry quad moms density a b size i j hi hj,
      hquad _ (fun x => (moms (max i j) x * moms (min i j) x) * density x) a b hab (((hm _ (by omega)).mul (hm _ (by omega))).mul hd) fun x _ => rfl]
    rcases le_total i j with h | h
    · rw [max_eq_right h, min_eq_left h, hsym]
    · rw [max_eq_left h, min_eq_right h]
  · intro w
    rw [quad_form_integral hab hm hd]
    exact intervalIntegral.integral_nonneg hab.le fun x hx => mul_nonneg (sq_nonneg _) (h0 x hx)
  · intro hpos w hw x hx
    rw [quad_form_integral hab hm hd] at hw
    have := (integral_zero_iff (g := fun x => (∑ i ∈ Finset.range size, w i * moms i x) ^ 2 * density x) hab (((hsum w).pow 2).mul hd)
      fun x hx => mul_nonneg (sq_nonneg _) (h0 x hx)).1 hw x hx
    exact pow_eq_zero_iff two_ne_zero |>.1 ((mul_eq_zero.1 this).resolve_right (hpos x hx).ne')
  · intro h1 i hi
    refine ⟨?_, hsym 0 i⟩
    unfold exactMoments
    rw [List.getElem?_map, List.getElem?_range hi]
    simp only [Option.map_some, Option.some.injEq]
    rw [hquad _ (fun x => moms i x * density x) a b hab ((hm i hi).mul hd) fun x _ => rfl]
    congr 1
    refine intervalIntegral.integral_congr fun x hx => ?_
    rw [Set.uIcc_of_le hab.le] at hx
    simp only [h1 x hx, mul_one]

/-- `C97`: whatever the integration rule and its error, the matrix of `compute_exact_cov` is symmetric. -/
theorem C97_exact_symmetric (quad) (size : Nat) (moms : Nat → ℝ → ℝ) (density : ℝ → ℝ) (a b : ℝ) (i j : Nat) (hi : i < size) (hj : j < size) :
    exactCov quad size moms density a b i j = exactCov quad size moms density a b j i := by
  rw [cov_entry quad moms density a b size i j hi hj, cov_entry quad moms density a b size j i hj hi, max_comm, min_comm]

theorem cut_pos {a b : ℝ} {l : List (ℝ × ℝ)} (h : Cut a b l) : ∀ x ∈ l, x.1 ≤ x.2 := by
  induction h with
  | whole a b hab => simpa using hab
  | join _ _ h1 h2 =>
    intro x hx
    rcases List.mem_append.1 hx with hx | hx
    exacts [h1 x hx, h2 x hx]
  | order _ hp h => exact fun x hx => h x (hp.mem_iff.2 hx)

theorem points_pos {rule : List (ℝ × ℝ)} {d : Nat} (hr : GaussRule rule d) {a b : ℝ} {l : List (ℝ × ℝ)} (h : Cut a b l) : ∀ n ∈ quadPoints rule l, 0 ≤ n.2 := by
  intro n hn
  simp only [quadPoints, List.mem_flatMap, List.mem_map] at hn
  obtain ⟨ab, hab, r, hr', rfl⟩ := hn
  have h1 := cut_pos h ab hab
  have h2 := hr.pos r hr'
  simp only
  have : 0 ≤ ab.2 - ab.1 := by linarith
  positivity

/-- `C97`: the matrix of `compute_semiexact_cov` is symmetric and positive semidefinite for every nonnegative density, whatever the intervals of the
adaptive integration are. -/
theorem C97_semiexact_semidefinite (rule : List (ℝ × ℝ)) (d : Nat) (hr : GaussRule rule d) (a b : ℝ) (intervals : List (ℝ × ℝ)) (hc : Cut a b intervals)
    (size : Nat) (moms : Nat → ℝ → ℝ) (density : ℝ → ℝ) (h0 : ∀ x, 0 ≤ density x) :
    (∀ i j, semiexactCov rule intervals moms density i j = semiexactCov rule intervals moms density j i) ∧
    Semidefinite size (semiexactCov rule intervals moms density) := by
  constructor
  · intro i j
    unfold semiexactCov
    congr 1
    refine List.map_congr_left fun n _ => by ring
  · intro w
    have hw := points_pos hr hc
    unfold semiexactCov
    generalize quadPoints rule intervals = l at hw
    have e : ∑ i ∈ Finset.range size, ∑ j ∈ Finset.range size, w i * (l.map fun n => moms i n.1 * (density n.1 * n.2) * moms j n.1).sum * w j =
        (l.map fun n => (∑ i ∈ Finset.range size, w i * moms i n.1) ^ 2 * (density n.1 * n.2)).sum := by
      clear hw
      induction l with
      | nil => simp
      | cons n l ih =>
        simp only [List.map_cons, List.sum_cons, mul_add, add_mul, Finset.sum_add_distrib, ih]
        congr 1
        rw [sq, Finset.sum_mul_sum, Finset.sum_mul]
        refine Finset.sum_congr rfl fun i _ => ?_
        rw [Finset.sum_mul]
        exact Finset.sum_congr rfl fun j _ => by ring
    rw [e]
    apply List.sum_nonneg
    intro x hx
    obtain ⟨n, hn, rfl⟩ := List.mem_map.1 hx
    exact mul_nonneg (sq_nonneg _) (mul_nonneg (h0 _) (hw n hn))

theorem rule_interval {rule : List (ℝ × ℝ)} {d : Nat} (hr : GaussRule rule d) (p : Polynomial ℝ) (hp : p.natDegree ≤ d) (a b : ℝ) :
    (rule.map fun n => n.2 * (b - a) / 2 * p.eval ((n.1 + 1) / 2 * (b - a) + a)).sum = ∫ x in a..b, p.eval x := by
  set q : Polynomial ℝ := Polynomial.C ((b - a) / 2) * Polynomial.X + Polynomial.C ((b - a) / 2 + a) with hq
  have hq1 : q.natDegree ≤ 1 := Polynomial.natDegree_linear_le
  have hdeg : (p.comp q).natDegree ≤ d := by
    refine Polynomial.natDegree_comp_le.trans ?_
    calc p.natDegree * q.natDegree ≤ p.natDegree * 1 := Nat.mul_le_mul_left _ hq1
      _ ≤ d := by omega
  have h := hr.exact _ hdeg
  have e1 : (rule.map fun n => n.2 * (b - a) / 2 * p.eval ((n.1 + 1) / 2 * (b - a) + a)).sum =
      (b - a) / 2 * (rule.map fun n => n.2 * (p.comp q).eval n.1).sum := by
    rw [← List.sum_map_mul_left]
    congr 1
    refine List.map_congr_left fun n _ => ?_
    rw [Polynomial.eval_comp, hq]
    simp only [Polynomial.eval_add, Polynomial.eval_mul, Polynomial.eval_C, Polynomial.eval_X]
    rw [show (n.1 + 1) / 2 * (b - a) + a = (b - a) / 2 * n.1 + ((b - a) / 2 + a) by ring]
    ring
  rw [e1, h]
  have e2 : ∀ x, (p.comp q).eval x = p.eval ((b - a) / 2 * x + ((b - a) / 2 + a)) := by
    intro x; rw [Polynomial.eval_comp, hq]; simp
  simp only [e2]
  have := intervalIntegral.smul_integral_comp_mul_add (a := (-1 : ℝ)) (b := 1) (fun x => p.eval x) ((b - a) / 2) ((b - a) / 2 + a)
  rw [smul_eq_mul] at this
  rw [this]
  congr 1 <;> ring

theorem points_polynomial {rule : List (ℝ × ℝ)} {d : Nat} (hr : GaussRule rule d) (p : Polynomial ℝ) (hp : p.natDegree ≤ d) {a b : ℝ} {l : List (ℝ × ℝ)}
    (h : Cut a b l) : ((quadPoints rule l).map fun n => n.2 * p.eval n.1).sum = ∫ x in a..b, p.eval x := by
  have hi : ∀ a b, IntervalIntegrable (fun x => p.eval x) volume a b := fun a b => p.continuous.intervalIntegrable a b
  induction h with
  | whole a b hab => simpa [quadPoints, List.map_map, Function.comp_def] using rule_interval hr p hp a b
  | join _ _ h1 h2 =>
    rw [quadPoints, List.flatMap_append, List.map_append, List.sum_append]
    exact (congrArg₂ (· + ·) h1 h2).trans (intervalIntegral.integral_add_adjacent_intervals (hi _ _) (hi _ _))
  | order _ hp' h =>
    rw [← h]
    exact (((hp'.flatMap_right _).map _).sum_eq).symm

/-- `C97`: `compute_semiexact_cov` and `compute_semiexact_moments` are exact where products of moments and density are polynomials up to the degree of the
rule (41 for the 21 points used): with a uniform density for Legendre moments up to degree 20. -/
theorem C97_semiexact_polynomial (rule : List (ℝ × ℝ)) (d : Nat) (hr : GaussRule rule d) (a b : ℝ) (intervals : List (ℝ × ℝ)) (hc : Cut a b intervals)
    (moms : Nat → ℝ → ℝ) (density : ℝ → ℝ) (i j : Nat) (p : Polynomial ℝ) (hp : p.natDegree ≤ d) :
    ((∀ x, moms i x * moms j x * density x = p.eval x) → semiexactCov rule intervals moms density i j = ∫ x in a..b, moms i x * moms j x * density x) ∧
    ((∀ x, moms i x * density x = p.eval x) → semiexactMoment rule intervals moms density i = ∫ x in a..b, moms i x * density x) := by
  have h := points_polynomial hr p hp hc
  constructor <;> intro he <;> simp only [he] <;> rw [← h]
  · unfold semiexactCov
    congr 1
    refine List.map_congr_left fun n _ => ?_
    rw [← he]; ring
  · unfold semiexactMoment
    congr 1
    refine List.map_congr_left fun n _ => ?_
    rw [← he]; ring

/-- The midpoint rule (one Gauss point) is exact for polynomials of degree one. -/
theorem gauss_one : GaussRule [((0 : ℝ), (2 : ℝ))] 1 where
  pos := by simp
  exact p hp := by
    rw [Polynomial.eq_X_add_C_of_natDegree_le_one hp]
    simp only [List.map_cons, List.map_nil, List.sum_cons, List.sum_nil, Polynomial.eval_add, Polynomial.eval_mul, Polynomial.eval_C, Polynomial.eval_X]
    rw [intervalIntegral.integral_add (by apply Continuous.intervalIntegrable; fun_prop) (by simp), intervalIntegral.integral_const_mul, integral_id]
    simp only [intervalIntegral.integral_const, smul_eq_mul, mul_zero, zero_add, add_zero]
    ring

/-- Moments 1, x on (0, 1), cut into three parts given in another order. -/
theorem cut_example : Cut 0 1 [(1 / 2, 1), (0, 1 / 4), (1 / 4, 1 / 2)] :=
  .order (.join (.join (.whole 0 (1 / 4) (by norm_num)) (.whole (1 / 4) (1 / 2) (by norm_num))) (.whole (1 / 2) 1 (by norm_num)))
    (by
      rw [List.cons_append, List.nil_append, List.cons_append]
      exact (List.perm_append_comm (l₁ := [((0 : ℝ), (1 / 4 : ℝ)), (1 / 4, 1 / 2)]) (l₂ := [(1 / 2, 1)])))

example := C97_semiexact_semidefinite _ 1 gauss_one 0 1 _ cut_example 2 (fun i x => x ^ i) (fun _ => 1) (fun _ => zero_le_one)
example : semiexactMoment [(0, 2)] [(1 / 2, 1), (0, 1 / 4), (1 / 4, 1 / 2)] (fun i x => x ^ i) (fun _ => 1) 1 = ∫ x in (0 : ℝ)..1, x ^ 1 * 1 :=
  (C97_semiexact_polynomial _ 1 gauss_one 0 1 _ cut_example (fun i x => x ^ i) (fun _ => 1) 1 0 Polynomial.X (by simp)).2 (by simp)
example : ∃ quad, Exact quad ∧ ∃ c : Nat → Nat → ℝ, Semidefinite 3 c ∧ ∀ i < 3, ∀ j < 3, exactCov quad 3 (fun i x => x ^ i) (fun _ => 1) 0 1 i j = some (c i j) := by
  obtain ⟨quad, hq⟩ := exact_exists
  obtain ⟨c, h1, -, h2, -⟩ := C97_exact_covariance quad hq 3 (fun i x => x ^ i) (fun _ => 1) 0 1 (by norm_num) (fun i _ => by fun_prop) continuousOn_const (by simp)
  exact ⟨quad, hq, c, h2, fun i hi j hj => (h1 i hi j hj).1⟩

end MLMC.Dist
