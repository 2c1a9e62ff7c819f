import Verif.Model.MomentsDer
import Verif.Props.MomentsDiff
import Mathlib.Analysis.Calculus.IteratedDeriv.Defs
import Mathlib.Analysis.Calculus.Deriv.Polynomial
/-! # C57, C58: derivatives of any degree -/
namespace MLMC.Mom
open Polynomial

/-- The polynomial with these Legendre coefficients. -/
noncomputable def legSum (c : List ℝ) : ℝ[X] := ∑ i ∈ Finset.range c.length, C (c.getD i 0) * legPoly i

theorem legSum_eval (t : ℝ) (c : List ℝ) : (legSum c).eval t = legval t c := by
  rw [legSum, legval, eval_finsetSum]
  exact Finset.sum_congr rfl fun i _ => by rw [eval_mul, eval_C, legPoly_eval]

theorem legSum_der (c : List ℝ) : derivative (legSum c) = legSum (legder1 c) := by
  have h : ∀ m ∈ Finset.range c.length, derivative (C (c.getD m 0) * legPoly m) = ∑ n ∈ Finset.range c.length, C (diffMat c.length n m * c.getD m 0) * legPoly n := by
    intro m hm
    rw [derivative_C_mul, diff_column c.length m (Finset.mem_range.1 hm), Finset.mul_sum]
    exact Finset.sum_congr rfl fun n _ => by rw [C_mul]; ring
  rw [legSum, derivative_sum, Finset.sum_congr rfl h, Finset.sum_comm]
  have hlen : (legder1 c).length = c.length - 1 := by simp [legder1]
  rw [legSum, hlen]
  have hz : ∀ n ∈ Finset.range c.length, n ∉ Finset.range (c.length - 1) → ∑ m ∈ Finset.range c.length, C (diffMat c.length n m * c.getD m 0) * legPoly n = 0 := by
    intro n hn hn'
    rw [Finset.mem_range] at hn hn'
    refine Finset.sum_eq_zero fun m hm => ?_
    rw [Finset.mem_range] at hm
    rw [diffMat, if_neg (by omega)]
    simp
  rw [← Finset.sum_subset (Finset.range_mono (Nat.sub_le _ _)) hz]
  refine Finset.sum_congr rfl fun n hn => ?_
  rw [Finset.mem_range] at hn
  rw [← Finset.sum_mul, ← map_sum]
  congr 2
  have : (legder1 c).getD n 0 = (2 * n + 1) * ∑ m ∈ Finset.range c.length, if n < m ∧ (m - (n + 1)) % 2 = 0 then c.getD m 0 else 0 := by
    rw [List.getD_eq_getElem?_getD, legder1, List.getElem?_map, List.getElem?_range hn]; rfl
  rw [this, Finset.mul_sum]
  refine Finset.sum_congr rfl fun m _ => ?_
  unfold diffMat
  by_cases h : n < m ∧ (m - (n + 1)) % 2 = 0
  · rw [if_pos ⟨by omega, h⟩, if_pos h]
  · rw [if_neg fun h' => h h'.2, if_neg h]; ring

theorem legSum_iterate (c : List ℝ) (k : Nat) : legSum (legder1^[k] c) = derivative^[k] (legSum c) ∧ (legder1^[k] c).length = c.length - k := by
  induction k with
  | zero => simp
  | succ k ih =>
    rw [Function.iterate_succ_apply', Function.iterate_succ_apply', ← legSum_der, ih.1]
    refine ⟨rfl, ?_⟩
    simp only [legder1, List.length_map, List.length_range, ih.2]
    omega

theorem legSum_legder (c : List ℝ) (k : Nat) : legSum (legder c k) = derivative^[k] (legSum c) := by
  unfold legder
  by_cases h0 : k = 0
  · rw [if_pos h0, h0]; rfl
  rw [if_neg h0]
  obtain ⟨h1, h2⟩ := legSum_iterate c k
  by_cases hk : c.length ≤ k
  · rw [if_pos hk, ← h1]
    have : legder1^[k] c = [] := List.eq_nil_of_length_eq_zero (by omega)
    rw [this]
    simp [legSum]
  · rw [if_neg hk, h1]

theorem legSum_unit (s : Nat) : legSum (unitCoef s) = legPoly s := by
  have hl : (unitCoef s).length = s + 1 := by
    unfold unitCoef; split_ifs with h <;> simp [h]
  rw [legSum, hl, Finset.sum_range_succ, Finset.sum_eq_zero, zero_add]
  · have : (unitCoef s).getD s 0 = 1 := by
      unfold unitCoef; split_ifs with h
      · subst h; rfl
      · rw [List.getD_eq_getElem?_getD, List.getElem?_append_right (by simp)]; simp
    rw [this]; simp
  · intro i hi
    rw [Finset.mem_range] at hi
    have : (unitCoef s).getD i 0 = 0 := by
      unfold unitCoef
      rw [if_neg (by omega), List.getD_eq_getElem?_getD, List.getElem?_append_left (by simpa using hi), List.getElem?_replicate]
      simp [hi]
    rw [this]; simp

theorem iteratedDeriv_poly (p : ℝ[X]) (k : Nat) : iteratedDeriv k (fun u => p.eval u) = fun u => (derivative^[k] p).eval u := by
  induction k with
  | zero => rw [iteratedDeriv_zero]; rfl
  | succ k ih =>
    rw [iteratedDeriv_succ, ih]
    funext u
    rw [Polynomial.deriv, Function.iterate_succ_apply']

/-- C57: `eval_all_der` gives the derivatives of the degree asked for of the Legendre moments with respect to the transformed variable `t`, for any size and degree. -/
theorem C57_any_degree (m : Moments) (hf : m.family = .legendre) (x t : ℝ) (ht : m.transform x = some t) (size degree : Nat) :
    m.evalAllDer x size degree = .ok ((List.range size).map fun s => some (iteratedDeriv degree (fun u => col .legendre u s) t)) := by
  unfold Moments.evalAllDer
  rw [if_pos hf, ht]
  simp only
  congr 1
  refine List.map_congr_left fun s _ => ?_
  congr 1
  have e : (fun u => col .legendre u s) = fun u => (legPoly s).eval u := by funext u; rw [legPoly_eval]; rfl
  rw [e, iteratedDeriv_poly, ← legSum_eval, legSum_legder, legSum_unit]

/-- C57: so degree 1 is `eval_diff` and degree 2 is `eval_diff2`, at points outside the domain as well. -/
theorem C57_degree_one_two (m : Moments) (x : ℝ) :
    m.evalAllDer x m.size 1 = m.evalDiff x m.size ∧ m.evalAllDer x m.size 2 = m.evalDiff2 x m.size := by
  by_cases hf : m.family = .legendre
  · cases ht : m.transform x with
    | none =>
      unfold Moments.evalAllDer Moments.evalDiff Moments.evalDiff2 Moments.evalMat
      simp only [if_pos hf, ne_eq, not_true_eq_false, if_false, ht]
      exact ⟨rfl, rfl⟩
    | some t =>
      obtain ⟨d, d2, h1, h2, h3⟩ := C57_derivatives m hf x t ht
      rw [h1, h2, C57_any_degree m hf x t ht, C57_any_degree m hf x t ht]
      constructor
      · congr 1
        refine List.map_congr_left fun i hi => ?_
        rw [List.mem_range] at hi
        rw [iteratedDeriv_one, (h3 i hi t).1.deriv]
      · congr 1
        refine List.map_congr_left fun i hi => ?_
        rw [List.mem_range] at hi
        rw [iteratedDeriv_succ, iteratedDeriv_one, show deriv (fun u => col .legendre u i) = d i from funext fun y => (h3 i hi y).1.deriv, (h3 i hi t).2.deriv]
  · unfold Moments.evalAllDer Moments.evalDiff Moments.evalDiff2
    simp only [if_neg hf]
    trivial

/-- C58: derivatives of any degree of transformed moments are the matrix times the derivatives of the base moments. -/
theorem C58_any_degree {n m : Nat} (o p : Obj) (A : Matrix (Fin n) (Fin m) ℝ) (h : o.mkTrans n m A = .ok p) (x : ℝ) (degree : Nat) (v : Fin m → ℝ)
    (hv : o.evalAllDer x m degree = .ok (List.ofFn fun j => some (v j))) (size : Nat) :
    p.evalAllDer x size degree = .ok ((List.ofFn fun i => some (A.mulVec v i)).take size) := by
  unfold Obj.mkTrans at h
  split at h
  · rename_i hm
    injection h with h; subst h
    show (o.evalAllDer x o.size degree).map (fun row => (Obj.combine A row).take size) = _
    rw [← hm, hv]
    simp only [Except.map, combine_valid]
  · cases h

example : ∃ m, construct .legendre 4 (2, 4) .none false true = .ok m ∧ (Obj.base m).evalAllDer 2 4 3 =
    .ok (List.ofFn fun j : Fin 4 => some (iteratedDeriv 3 (fun u => col .legendre u j) (-1))) := by
  obtain ⟨m, h, hf, -, ht, -⟩ := ex_base 3
  refine ⟨m, h, (C57_any_degree m hf 2 (-1) ht 4 3).trans ?_⟩
  rw [List.ofFn_eq_map, ← List.map_coe_finRange_eq_range, List.map_map]
  rfl

end MLMC.Mom
