import Verif.Props.Moments
/-
C57: derivatives of Legendre moments.  C58: transformed moments.  C59: equality and change of size.
-/
namespace MLMC.Mom
open Polynomial

/-- Legendre polynomials by the three-term recurrence. -/
noncomputable def legPoly : Nat → ℝ[X]
  | 0 => 1
  | 1 => X
  | n + 2 => C (((n : ℝ) + 2)⁻¹) * (C (2 * (n : ℝ) + 3) * X * legPoly (n + 1) - C ((n : ℝ) + 1) * legPoly n)

theorem legPoly_eval (x : ℝ) (n : Nat) : (legPoly n).eval x = leg x n := by
  induction n using Nat.strong_induction_on with
  | _ n ih =>
    match n with
    | 0 => simp [legPoly, leg]
    | 1 => simp [legPoly, leg]
    | n + 2 =>
      have : (n : ℝ) + 2 ≠ 0 := by positivity
      simp only [legPoly, leg, eval_mul, eval_sub, eval_C, eval_X, ih (n + 1) (by omega), ih n (by omega)]
      field_simp; ring

theorem legPoly_rec (n : Nat) : C ((n : ℝ) + 2) * legPoly (n + 2) = C (2 * (n : ℝ) + 3) * X * legPoly (n + 1) - C ((n : ℝ) + 1) * legPoly n := by
  have : (n : ℝ) + 2 ≠ 0 := by positivity
  rw [legPoly, ← mul_assoc, ← C_mul, mul_inv_cancel₀ this, C_1, one_mul]

/-- The two first-order relations. -/
theorem legPoly_deriv (n : Nat) :
    derivative (legPoly (n + 1)) = X * derivative (legPoly n) + C ((n : ℝ) + 1) * legPoly n ∧
    X * derivative (legPoly (n + 1)) - derivative (legPoly n) = C ((n : ℝ) + 1) * legPoly (n + 1) := by
  induction n with
  | zero => simp [legPoly]
  | succ n ih =>
    obtain ⟨hA, hB⟩ := ih
    have hn : (n : ℝ) + 2 ≠ 0 := by positivity
    have hC : (C ((n : ℝ) + 2) : ℝ[X]) ≠ 0 := C_ne_zero.2 hn
    have hrec := legPoly_rec n
    have hd : C ((n : ℝ) + 2) * derivative (legPoly (n + 2)) =
        C (2 * (n : ℝ) + 3) * (legPoly (n + 1) + X * derivative (legPoly (n + 1))) - C ((n : ℝ) + 1) * derivative (legPoly n) := by
      have := congrArg derivative hrec
      simp only [derivative_mul, derivative_C, derivative_sub, derivative_X, zero_mul, zero_add, mul_one] at this
      rw [this]; ring
    simp only [C_add, C_mul, map_ofNat, map_one] at hA hB hrec hd hC
    have h1 : derivative (legPoly (n + 2)) = X * derivative (legPoly (n + 1)) + (C (n : ℝ) + 2) * legPoly (n + 1) := by
      apply mul_left_cancel₀ hC
      rw [hd]
      linear_combination (C (n : ℝ) + 1) * hB
    have e : (C (((n + 1 : Nat) : ℝ) + 1) : ℝ[X]) = C (n : ℝ) + 2 := by
      push_cast; simp only [C_add, map_one]; ring
    rw [e]
    refine ⟨h1, ?_⟩
    rw [h1, hrec]
    linear_combination X * hB - hA

theorem legPoly_deriv_step (n : Nat) :
    derivative (legPoly (n + 2)) = derivative (legPoly n) + C (2 * ((n : ℝ) + 1) + 1) * legPoly (n + 1) := by
  have hA := (legPoly_deriv (n + 1)).1
  have hB := (legPoly_deriv n).2
  have e : (C (((n + 1 : Nat) : ℝ) + 1) : ℝ[X]) = C (n : ℝ) + 2 := by
    push_cast; simp only [C_add, map_one]; ring
  rw [e] at hA
  simp only [C_add, C_mul, map_ofNat, map_one] at hB ⊢
  linear_combination hA + hB

theorem diffMat_step (size n m : Nat) (hm : m + 2 < size) : diffMat size n (m + 2) = diffMat size n m + if n = m + 1 then 2 * (n : ℝ) + 1 else 0 := by
  unfold diffMat
  rcases lt_trichotomy n (m + 1) with h | h | h
  · rw [if_neg (show n ≠ m + 1 by omega), add_zero]
    by_cases h1 : n < m
    · simp only [show (m + 2 - (n + 1)) % 2 = (m - (n + 1)) % 2 by omega, show (n < m + 2 ↔ n < m) by omega]
    · have : n = m := by omega
      subst this
      rw [if_neg (by omega), if_neg (by omega)]
  · subst h
    rw [if_pos (by omega), if_neg (by omega), if_pos rfl, zero_add]
  · rw [if_neg (by omega), if_neg (by omega), if_neg (by omega), add_zero]

/-- The columns of the matrix are the coefficients of the derivatives. -/
theorem diff_column (size m : Nat) (hm : m < size) :
    derivative (legPoly m) = ∑ n ∈ Finset.range size, C (diffMat size n m) * legPoly n := by
  induction m using Nat.strong_induction_on with
  | _ m ih =>
    match m with
    | 0 =>
      rw [Finset.sum_eq_zero]
      · simp [legPoly]
      · intro n _
        rw [diffMat, if_neg (by omega)]; simp
    | 1 =>
      rw [Finset.sum_eq_single 0]
      · rw [diffMat, if_pos (by omega)]; simp [legPoly]
      · intro n _ hn
        rw [diffMat, if_neg (by omega)]; simp
      · intro h; exact absurd (Finset.mem_range.2 (by omega)) h
    | m + 2 =>
      rw [legPoly_deriv_step, ih m (by omega) (by omega)]
      have : ∀ n ∈ Finset.range size, C (diffMat size n (m + 2)) * legPoly n =
          C (diffMat size n m) * legPoly n + if n = m + 1 then C (2 * ((m : ℝ) + 1) + 1) * legPoly (m + 1) else 0 := by
        intro n _
        rw [diffMat_step size n m hm, C_add, add_mul]
        congr 1
        split
        · rename_i h; subst h; push_cast; rfl
        · simp
      rw [Finset.sum_congr rfl this, Finset.sum_add_distrib, Finset.sum_ite_eq' (Finset.range size) (m + 1), if_pos (Finset.mem_range.2 (by omega))]

theorem diff2_column (size m : Nat) (hm : m < size) :
    derivative (derivative (legPoly m)) = ∑ n ∈ Finset.range size, C (diff2Mat size n m) * legPoly n := by
  rw [diff_column size m hm, derivative_sum]
  have h : ∀ k ∈ Finset.range size, derivative (C (diffMat size k m) * legPoly k) =
      ∑ n ∈ Finset.range size, C (diffMat size n k * diffMat size k m) * legPoly n := by
    intro k hk
    rw [derivative_C_mul, diff_column size k (Finset.mem_range.1 hk), Finset.mul_sum]
    apply Finset.sum_congr rfl
    intro n _
    rw [C_mul]; ring
  rw [Finset.sum_congr rfl h, Finset.sum_comm]
  apply Finset.sum_congr rfl
  intro n _
  rw [diff2Mat, map_sum, Finset.sum_mul]

/-- C57: at every valid point `eval_diff` gives the derivatives, `eval_diff2` the second derivatives of the Legendre moments with respect to the transformed
variable `t`. -/
theorem C57_derivatives (m : Moments) (hf : m.family = .legendre) (x t : ℝ) (ht : m.transform x = some t) :
    ∃ d d2 : Nat → ℝ → ℝ, m.evalDiff x m.size = .ok ((List.range m.size).map fun i => some (d i t)) ∧
      m.evalDiff2 x m.size = .ok ((List.range m.size).map fun i => some (d2 i t)) ∧
      ∀ i, i < m.size → ∀ y, HasDerivAt (fun s => col .legendre s i) (d i y) y ∧ HasDerivAt (d i) (d2 i y) y := by
  refine ⟨fun i y => ∑ n ∈ Finset.range m.size, leg y n * diffMat m.size n i, fun i y => ∑ n ∈ Finset.range m.size, leg y n * diff2Mat m.size n i, ?_, ?_, ?_⟩
  · unfold Moments.evalDiff Moments.evalMat
    rw [if_pos hf, if_neg (by simp), ht]; rfl
  · unfold Moments.evalDiff2 Moments.evalMat
    rw [if_pos hf, if_neg (by simp), ht]; rfl
  · intro i hi y
    have e0 : (fun s => col .legendre s i) = fun s => (legPoly i).eval s := by funext s; rw [legPoly_eval]; rfl
    have e1 : ∀ z, (derivative (legPoly i)).eval z = ∑ n ∈ Finset.range m.size, leg z n * diffMat m.size n i := by
      intro z
      rw [diff_column m.size i hi, eval_finsetSum]
      exact Finset.sum_congr rfl fun n _ => by rw [eval_mul, eval_C, legPoly_eval, mul_comm]
    have e2 : (derivative (derivative (legPoly i))).eval y = ∑ n ∈ Finset.range m.size, leg y n * diff2Mat m.size n i := by
      rw [diff2_column m.size i hi, eval_finsetSum]
      exact Finset.sum_congr rfl fun n _ => by rw [eval_mul, eval_C, legPoly_eval, mul_comm]
    constructor
    · simp only
      rw [e0, ← e1 y]
      exact (legPoly i).hasDerivAt y
    · simp only
      rw [← e2, show (fun y => ∑ n ∈ Finset.range m.size, leg y n * diffMat m.size n i) = fun y => (derivative (legPoly i)).eval y from
        funext fun z => (e1 z).symm]
      exact (derivative (legPoly i)).hasDerivAt y

/-- C57: a size different from the number of moments is refused. -/
theorem C57_other_size (m : Moments) (hf : m.family = .legendre) (x : ℝ) (size : Nat) (h : size ≠ m.size) :
    m.evalDiff x size = .error .valueError ∧ m.evalDiff2 x size = .error .valueError := by
  unfold Moments.evalDiff Moments.evalDiff2 Moments.evalMat
  rw [if_pos hf, if_pos h, if_pos hf, if_pos h]
  exact ⟨rfl, rfl⟩

/-- The variable is the transformed one: with respect to the original variable the derivative is larger by the scale of the transform, so it differs from
`eval_diff` when the domain is not as long as the reference domain. -/
theorem C57_original_variable (m : Moments) (hl : m.isLog = false) (i : Nat) (x d : ℝ)
    (h : HasDerivAt (fun s => col .legendre s i) d (m.linear x)) : HasDerivAt (fun y => col .legendre (m.linear y) i) (d * m.scale) x := by
  have h1 : HasDerivAt m.linear m.scale x := by
    have := (((hasDerivAt_id x).sub_const m.shift).mul_const m.scale).add_const m.ref.1
    rw [one_mul] at this
    exact this
  exact HasDerivAt.comp x h h1

example : ∃ m t, construct .legendre 4 (2, 4) .none false true = .ok m ∧ m.family = .legendre ∧ m.transform 2 = some t := by
  obtain ⟨m, h, hf, -⟩ := construct_linear .legendre 4 (by omega) 2 4 (-1) 1 (by norm_num) true
  exact ⟨m, -1, by rw [construct_none]; exact h, hf, (C55_bounds h (by norm_num) (by unfold linBound; norm_num)).1⟩

/-! ## C58 -/

/-- The vector of base moments at a point where they are all numbers. -/
theorem combine_valid {n m : Nat} (A : Matrix (Fin n) (Fin m) ℝ) (v : Fin m → ℝ) :
    Obj.combine A (List.ofFn fun j => some (v j)) = List.ofFn fun i => some (A.mulVec v i) := by
  unfold Obj.combine
  congr 1
  funext i
  rw [if_neg (by simp [List.mem_ofFn])]
  congr 1
  unfold Matrix.mulVec dotProduct
  apply Finset.sum_congr rfl
  intro j _
  rw [List.getD_eq_getElem?_getD]
  simp [mul_comm]

/-- C58: transformed moments are the matrix times the base moments: values. -/
theorem C58_values {n m : Nat} (o p : Obj) (A : Matrix (Fin n) (Fin m) ℝ) (h : o.mkTrans n m A = .ok p) (x : ℝ) (v : Fin m → ℝ)
    (hv : o.evalAll x m = .ok (List.ofFn fun j => some (v j))) (size : Nat) :
    p.size = n ∧ p.evalAll x size = .ok ((List.ofFn fun i => some (A.mulVec v i)).take size) := by
  unfold Obj.mkTrans at h
  split at h
  · rename_i hm
    injection h with h; subst h
    refine ⟨rfl, ?_⟩
    show (o.evalAll x o.size).map (fun row => (Obj.combine A row).take size) = _
    rw [← hm, hv]
    simp only [Except.map, combine_valid]
  · cases h

/-- C58: and first and second derivatives. -/
theorem C58_derivatives {n m : Nat} (o p : Obj) (A : Matrix (Fin n) (Fin m) ℝ) (h : o.mkTrans n m A = .ok p) (x : ℝ) (v v2 : Fin m → ℝ)
    (hv : o.evalDiff x m = .ok (List.ofFn fun j => some (v j))) (hv2 : o.evalDiff2 x m = .ok (List.ofFn fun j => some (v2 j))) (size : Nat) :
    p.evalDiff x size = .ok ((List.ofFn fun i => some (A.mulVec v i)).take size) ∧
    p.evalDiff2 x size = .ok ((List.ofFn fun i => some (A.mulVec v2 i)).take size) := by
  unfold Obj.mkTrans at h
  split at h
  · rename_i hm
    injection h with h; subst h
    show (o.evalDiff x o.size).map (fun row => (Obj.combine A row).take size) = _ ∧
      (o.evalDiff2 x o.size).map (fun row => (Obj.combine A row).take size) = _
    rw [← hm, hv, hv2]
    simp only [Except.map, combine_valid]
    exact ⟨trivial, trivial⟩
  · cases h

/-- C58 at points outside the domain of safe moments: if a base moment is NaN, every transformed moment (value or derivative) is
NaN, whatever its coefficient; where the base raises, the transform raises. -/
theorem C58_nan {n m : Nat} (o p : Obj) (A : Matrix (Fin n) (Fin m) ℝ) (h : o.mkTrans n m A = .ok p) (x : ℝ) (size : Nat) :
    (∀ row, o.evalAll x m = .ok row → none ∈ row → p.evalAll x size = .ok (List.replicate (min size n) none)) ∧
    (∀ row, o.evalDiff x m = .ok row → none ∈ row → p.evalDiff x size = .ok (List.replicate (min size n) none)) ∧
    (∀ row, o.evalDiff2 x m = .ok row → none ∈ row → p.evalDiff2 x size = .ok (List.replicate (min size n) none)) ∧
    (∀ e, o.evalAll x m = .error e → p.evalAll x size = .error e) ∧
    (∀ e, o.evalDiff x m = .error e → p.evalDiff x size = .error e) ∧
    (∀ e, o.evalDiff2 x m = .error e → p.evalDiff2 x size = .error e) := by
  have hc : ∀ row : List (Option ℝ), none ∈ row → (Obj.combine A row).take size = List.replicate (min size n) none := by
    intro row hrow
    unfold Obj.combine
    simp only [if_pos hrow]
    rw [List.ofFn_const, List.take_replicate]
  unfold Obj.mkTrans at h
  split at h
  · rename_i hm
    injection h with h; subst h
    subst hm
    refine ⟨?_, ?_, ?_, ?_, ?_, ?_⟩
    · intro row e hn
      show (o.evalAll x o.size).map (fun row => (Obj.combine A row).take size) = _
      rw [e]; simp only [Except.map, hc row hn]
    · intro row e hn
      show (o.evalDiff x o.size).map (fun row => (Obj.combine A row).take size) = _
      rw [e]; simp only [Except.map, hc row hn]
    · intro row e hn
      show (o.evalDiff2 x o.size).map (fun row => (Obj.combine A row).take size) = _
      rw [e]; simp only [Except.map, hc row hn]
    · intro er e
      show (o.evalAll x o.size).map (fun row => (Obj.combine A row).take size) = _
      rw [e]; rfl
    · intro er e
      show (o.evalDiff x o.size).map (fun row => (Obj.combine A row).take size) = _
      rw [e]; rfl
    · intro er e
      show (o.evalDiff2 x o.size).map (fun row => (Obj.combine A row).take size) = _
      rw [e]; rfl
  · cases h

/-- C58: a matrix with another number of columns than base moments is refused. -/
theorem C58_shape {n m : Nat} (o : Obj) (A : Matrix (Fin n) (Fin m) ℝ) (h : m ≠ o.size) : o.mkTrans n m A = .error .assertionError := by
  unfold Obj.mkTrans; rw [if_neg h]

/-- C58: composing transforms is the transform by the product of the matrices. -/
theorem C58_composition {n m k : Nat} (o p r s : Obj) (A : Matrix (Fin n) (Fin m) ℝ) (B : Matrix (Fin k) (Fin n) ℝ) (hp : o.mkTrans n m A = .ok p)
    (hr : p.mkTrans k n B = .ok r) (hs : o.mkTrans k m (B * A) = .ok s) (x : ℝ) (v : Fin m → ℝ)
    (hv : o.evalAll x m = .ok (List.ofFn fun j => some (v j))) (size : Nat) : r.evalAll x size = s.evalAll x size := by
  have h1 := C58_values o p A hp x v hv n
  have h1' : p.evalAll x n = .ok (List.ofFn fun i => some (A.mulVec v i)) := by
    rw [h1.2]; congr 1
    apply List.take_of_length_le; simp
  rw [(C58_values p r B hr x (A.mulVec v) h1' size).2, (C58_values o s (B * A) hs x v hv size).2, Matrix.mulVec_mulVec]

/-- C58: if the first row of the matrix is (1, 0, ...) the zeroth moment stays one. -/
theorem C58_zeroth {n m : Nat} (o p : Obj) (A : Matrix (Fin (n + 1)) (Fin (m + 1)) ℝ) (h : o.mkTrans (n + 1) (m + 1) A = .ok p)
    (hrow : ∀ j, A 0 j = if j = 0 then 1 else 0) (x : ℝ) (v : Fin (m + 1) → ℝ) (h0 : v 0 = 1)
    (hv : o.evalAll x (m + 1) = .ok (List.ofFn fun j => some (v j))) (size : Nat) :
    ∃ row, p.evalAll x (size + 1) = .ok row ∧ row.head? = some (some 1) := by
  refine ⟨_, (C58_values o p A h x v hv (size + 1)).2, ?_⟩
  rw [List.ofFn_succ, List.take_succ_cons, List.head?_cons]
  congr 2
  unfold Matrix.mulVec dotProduct
  simp [hrow, h0]

/-- A base object and a valid point: Legendre moments on (2, 4) at 2. -/
theorem ex_base (n : Nat) : ∃ m, construct .legendre (n + 1) (2, 4) .none false true = .ok m ∧ m.family = .legendre ∧ m.size = n + 1 ∧
    m.transform 2 = some (-1) ∧ m.evalAll 2 (n + 1) = .ok (List.ofFn fun j : Fin (n + 1) => some (leg (-1) j)) := by
  obtain ⟨m, h, hf, hsz, -⟩ := construct_linear .legendre (n + 1) (by omega) 2 4 (-1) 1 (by norm_num) true
  have ht := (C55_bounds h (by norm_num) (by unfold linBound; norm_num)).1
  refine ⟨m, by rw [construct_none]; exact h, hf, hsz, ht, ?_⟩
  unfold Moments.evalAll
  rw [if_neg (by omega), ht, hf]
  simp only [col]
  congr 1
  apply List.ext_getElem
  · simp
  · intro i h1 h2; rw [List.getElem_map, List.getElem_ofFn, List.getElem_range]

/-- The hypotheses are met. -/
example : ∃ o p : Obj, ∃ (A : Matrix (Fin 2) (Fin 3) ℝ) (v : Fin 3 → ℝ), o.mkTrans 2 3 A = .ok p ∧
    o.evalAll 2 3 = .ok (List.ofFn fun j => some (v j)) ∧ v 0 = 1 ∧ (∀ j, A 0 j = if j = 0 then 1 else 0) ∧ A 1 2 = 5 := by
  obtain ⟨m, -, -, hs, -, he⟩ := ex_base 2
  refine ⟨.base m, .trans (.base m) 2 3 fun i j => if i = 0 then (if j = 0 then 1 else 0) else 5, fun i j => if i = 0 then (if j = 0 then 1 else 0) else 5, fun j => leg (-1) j, ?_, he, rfl, ?_, ?_⟩
  · unfold Obj.mkTrans; rw [if_pos (by rw [Obj.size, hs])]
  · intro j; rfl
  · rfl

/-- The point 5 outside of the domain (2, 4): a NaN row, and so a NaN in the transform, also with the coefficients (1, 0, 0). -/
example : ∃ o p : Obj, ∃ A : Matrix (Fin 2) (Fin 3) ℝ, o.mkTrans 2 3 A = .ok p ∧ (∀ j, A 0 j = if j = 0 then 1 else 0) ∧
    p.evalAll 5 2 = .ok [none, none] := by
  obtain ⟨m, h, hf, hsz, -⟩ := construct_linear .legendre 3 (by omega) 2 4 (-1) 1 (by norm_num) true
  have ht := (C55_safe_eval h (by norm_num) (by unfold linBound; norm_num) 5).2 (.inr (by norm_num))
  have hm : (Obj.base m).mkTrans 2 3 (fun i j => if i = 0 then (if j = 0 then 1 else 0) else 5) =
      .ok (.trans (.base m) 2 3 fun i j => if i = 0 then (if j = 0 then 1 else 0) else 5) := by
    unfold Obj.mkTrans; rw [if_pos (by rw [Obj.size, hsz])]
  refine ⟨.base m, _, _, hm, fun j => rfl, ?_⟩
  have he : ∃ row, (Obj.base m).evalAll 5 3 = .ok row ∧ none ∈ row := by
    refine ⟨[none, none, none], ?_, by simp⟩
    show m.evalAll 5 3 = _
    unfold Moments.evalAll
    rw [if_neg (by omega), ht]
    simp [List.range_succ, hf]
  obtain ⟨row, he, hn⟩ := he
  exact (C58_nan _ _ _ hm 5 2).1 row he hn

/-! ## C59 -/

/-- Same reference domains everywhere. -/
def Obj.SameRef : Obj → Obj → Prop
  | .base m, .base m' => m.ref = m'.ref
  | .trans o _ _ _, .trans o' _ _ _ => SameRef o o'
  | _, _ => False

/-- The object was made by the constructors. -/
inductive Obj.Made : Obj → Prop
  | base {f : Family} {size : Nat} {d : ℝ × ℝ} {r : RefArg} {log clip : Bool} {m : Moments} (h : construct f size d r log clip = .ok m) : Made (.base m)
  | trans {o p : Obj} {n m : Nat} {A : Fin n → Fin m → ℝ} (ho : Made o) (h : o.mkTrans n m A = .ok p) : Made p

theorem construct_bool (f : Family) (size : Nat) (d : ℝ × ℝ) (b log clip : Bool) :
    construct f size d (.bool b) log clip = .error .assertionError ∨ construct f size d (.bool b) log clip = .error .typeError := by
  unfold construct
  by_cases h1 : size = 0
  · rw [if_pos h1]; exact .inl rfl
  rw [if_neg h1]
  by_cases h2 : log = true ∧ (d.1 ≤ 0 ∨ d.2 ≤ 0)
  · rw [if_pos h2]; exact .inl rfl
  rw [if_neg h2]
  simp only
  generalize (if log = true then (Real.log d.1, Real.log d.2) else d) = lin
  by_cases h3 : ¬ lin.2 - lin.1 > 0
  · rw [if_pos h3]; exact .inl rfl
  · rw [if_neg h3]; exact .inr rfl

theorem construct_det {f : Family} {size : Nat} {d : ℝ × ℝ} {r : RefArg} {log clip : Bool} {m : Moments} (h : construct f size d r log clip = .ok m) :
    m.scale = (m.ref.2 - m.ref.1) / max (linBound m.isLog m.domain.2 - linBound m.isLog m.domain.1) (1 / 10 ^ 15) ∧
    m.shift = linBound m.isLog m.domain.1 := by
  obtain ⟨a, b⟩ := d
  cases r with
  | none =>
    rw [construct_none] at h
    obtain ⟨_, _, _, rfl⟩ := construct_ok h
    exact ⟨rfl, rfl⟩
  | pair lo hi =>
    obtain ⟨_, _, _, rfl⟩ := construct_ok h
    exact ⟨rfl, rfl⟩
  | bool c => rcases construct_bool f size (a, b) c log clip with h' | h' <;> (rw [h'] at h; cases h)

theorem made_base {m : Moments} (h : Obj.Made (.base m)) :
    m.scale = (m.ref.2 - m.ref.1) / max (linBound m.isLog m.domain.2 - linBound m.isLog m.domain.1) (1 / 10 ^ 15) ∧
    m.shift = linBound m.isLog m.domain.1 := by
  generalize ho : Obj.base m = o at h
  cases h with
  | base h => injection ho with ho; subst ho; exact construct_det h
  | trans _ h =>
    unfold Obj.mkTrans at h
    split at h
    · injection h with h; rw [← h] at ho; cases ho
    · cases h

theorem made_trans {o : Obj} {n m : Nat} {A : Fin n → Fin m → ℝ} (h : Obj.Made (.trans o n m A)) : Obj.Made o := by
  generalize ho : Obj.trans o n m A = p at h
  cases h with
  | base h => cases ho
  | trans hm h =>
    unfold Obj.mkTrans at h
    split at h
    · injection h with h; rw [← h] at ho; cases ho; exact hm
    · cases h

/-- C59 (partial): equal objects with the same reference domains are indistinguishable: same size and same values everywhere.
Missing: the comparison ignores the reference domain, see `C59_ref_domain_counterexample`. -/
theorem C59_equal_objects_partial : ∀ o o' : Obj, o.Made → o'.Made → o.Equal o' → o.SameRef o' → o = o'
  | .base m, .base m', h, h', he, hr => by
    obtain ⟨e1, e2, e3, e4, e5⟩ := he
    obtain ⟨s1, s2⟩ := made_base h
    obtain ⟨s1', s2'⟩ := made_base h'
    have hr' : m.ref = m'.ref := hr
    have hs : m.scale = m'.scale := by rw [s1, s1', hr', e3, e4]
    have hsh : m.shift = m'.shift := by rw [s2, s2', e3, e4]
    congr 1
    cases m; cases m'
    simp only at e1 e2 e3 e4 e5 hr' hs hsh
    subst e1 e2 e3 e4 e5 hr' hs hsh
    rfl
  | .trans o n m A, .trans o' n' m' A', h, h', he, hr => by
    obtain ⟨hn, heq, ⟨hn', hm⟩, hA⟩ := he
    have := C59_equal_objects_partial o o' (made_trans h) (made_trans h') heq hr
    subst hn hm this
    congr 1
    funext i j
    exact hA i j
  | .base _, .trans .., _, _, he, _ => he.elim
  | .trans .., .base _, _, _, he, _ => he.elim

/-- C59 fails: two Legendre objects that differ only in the reference domain are equal but evaluate differently. -/
theorem C59_ref_domain_counterexample : ∃ m m', construct .legendre 2 (0, 1) .none false true = .ok m ∧
    construct .legendre 2 (0, 1) (.pair 0 1) false true = .ok m' ∧ (Obj.base m).Equal (.base m') ∧
    m.evalAll 0 2 = .ok [some 1, some (-1)] ∧ m'.evalAll 0 2 = .ok [some 1, some 0] := by
  obtain ⟨m, h, a1, a2, a3, a4, a5, a6⟩ := construct_linear .legendre 2 (by omega) 0 1 (-1) 1 (by norm_num) true
  obtain ⟨m', h', b1, b2, b3, b4, b5, b6⟩ := construct_linear .legendre 2 (by omega) 0 1 0 1 (by norm_num) true
  have hw : (1 : ℝ) / 10 ^ 15 ≤ linBound false 1 - linBound false 0 := by unfold linBound; norm_num
  refine ⟨m, m', by rw [construct_none]; exact h, h', ⟨by rw [a1, b1], by rw [a2, b2], by rw [a3, b3], by rw [a5, b5], by rw [a6, b6]⟩, ?_, ?_⟩
  · unfold Moments.evalAll
    rw [if_neg (by omega), (C55_bounds h (by norm_num) hw).1, a1]
    simp [List.range_succ, col, leg]
  · unfold Moments.evalAll
    rw [if_neg (by omega), (C55_bounds h' (by norm_num) hw).1, b1]
    simp [List.range_succ, col, leg]

/-- C59 fails: `change_size` never returns an object. -/
theorem C59_change_size_counterexample (o : Obj) (size : Nat) :
    o.changeSize size = .error .assertionError ∨ o.changeSize size = .error .typeError ∨ o.changeSize size = .error .attributeError := by
  cases o with
  | trans => exact .inr (.inr rfl)
  | base m =>
    rcases construct_bool m.family size m.domain m.isLog m.isClip true with h | h
    · exact .inl h
    · exact .inr (.inl h)

example : ∃ m, (Obj.base m).Made ∧ (Obj.base m).Equal (.base m) ∧ (Obj.base m).SameRef (.base m) := by
  obtain ⟨m, h, -⟩ := ex_base 3
  exact ⟨m, .base h, ⟨rfl, rfl, rfl, rfl, rfl⟩, rfl⟩

end MLMC.Mom
