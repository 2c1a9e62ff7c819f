import Verif.Props.Units
import Verif.Props.Central
import Mathlib.Algebra.Polynomial.Degree.Operations
import Mathlib.Algebra.Polynomial.Eval.Degree
/-! # C157 Estimated moments in another polynomial basis -/
namespace MLMC
open Polynomial

/-! ## Helpers -/

namespace Mom

/-- The columns of a family are polynomials of degree `i`. -/
theorem col_polynomial {f : Family} (hf : f ≠ .fourier) (i : Nat) : ∃ P : ℝ[X], P.natDegree ≤ i ∧ P.coeff i ≠ 0 ∧ ∀ t, P.eval t = col f t i := by
  cases f with
  | fourier => exact absurd rfl hf
  | monomial => exact ⟨X ^ i, natDegree_X_pow_le i, by simp, fun t => by simp [col, pow_eq]⟩
  | legendre =>
    suffices h : ∀ n, (∃ P : ℝ[X], P.natDegree ≤ n ∧ P.coeff n ≠ 0 ∧ ∀ t, P.eval t = leg t n) ∧
        ∃ P : ℝ[X], P.natDegree ≤ n + 1 ∧ P.coeff (n + 1) ≠ 0 ∧ ∀ t, P.eval t = leg t (n + 1) from (h i).1
    intro n
    induction n with
    | zero => exact ⟨⟨1, by simp, by simp, fun t => by simp [leg]⟩, X, by simp, by simp, fun t => by simp [leg]⟩
    | succ n ih =>
      obtain ⟨⟨P, hP, _, eP⟩, Q, hQ, cQ, eQ⟩ := ih
      refine ⟨⟨Q, hQ, cQ, eQ⟩, C (1 / ((n : ℝ) + 2)) * (C (2 * ((n : ℝ) + 2) - 1) * (Q * X) - C ((n : ℝ) + 1) * P), ?_, ?_, ?_⟩
      · refine natDegree_C_mul_le _ _ |>.trans ((natDegree_sub_le _ _).trans (max_le ?_ ?_))
        · refine (natDegree_C_mul_le _ _).trans (natDegree_mul_le.trans ?_)
          rw [natDegree_X]
          omega
        · exact (natDegree_C_mul_le _ _).trans (by omega)
      · rw [coeff_C_mul, coeff_sub, coeff_C_mul, coeff_C_mul, coeff_mul_X, coeff_eq_zero_of_natDegree_lt (show P.natDegree < n + 1 + 1 by omega)]
        have h1 : (0 : ℝ) < n + 2 := by positivity
        have h2 : (2 * ((n : ℝ) + 2) - 1) ≠ 0 := by
          have : (0 : ℝ) ≤ n := Nat.cast_nonneg n
          linarith
        simp only [mul_zero, sub_zero]
        exact mul_ne_zero (by positivity) (mul_ne_zero h2 cQ)
      · intro t
        simp only [eval_mul, eval_C, eval_sub, eval_X, eP, eQ, leg]
        ring

/-- Every polynomial of degree at most `i` is a combination of the first `i + 1` of polynomials with rising degrees. -/
theorem poly_combination (P : Nat → ℝ[X]) (hd : ∀ i, (P i).natDegree ≤ i) (hc : ∀ i, (P i).coeff i ≠ 0) :
    ∀ (n : Nat) (p : ℝ[X]), p.natDegree < n → ∃ a : Nat → ℝ, p = ∑ j ∈ Finset.range n, C (a j) * P j
  | 0, _, h => by omega
  | n + 1, p, h => by
    by_cases h0 : p = C (p.coeff n / (P n).coeff n) * P n
    · refine ⟨fun j => if j = n then p.coeff n / (P n).coeff n else 0, ?_⟩
      rw [Finset.sum_range_succ]
      dsimp only
      rw [if_pos rfl, Finset.sum_eq_zero, zero_add]
      · exact h0
      · intro j hj
        rw [if_neg (by have := Finset.mem_range.1 hj; omega)]
        simp
    · have hr : (p - C (p.coeff n / (P n).coeff n) * P n).natDegree < n := by
        have hle : (p - C (p.coeff n / (P n).coeff n) * P n).natDegree ≤ n :=
          (natDegree_sub_le _ _).trans (max_le (by omega) ((natDegree_C_mul_le _ _).trans (hd n)))
        refine lt_of_le_of_ne hle fun e => ?_
        have hz : (p - C (p.coeff n / (P n).coeff n) * P n).coeff n = 0 := by
          rw [coeff_sub, coeff_C_mul, div_mul_cancel₀ _ (hc n), sub_self]
        have := leadingCoeff_eq_zero.1 (show (p - C (p.coeff n / (P n).coeff n) * P n).leadingCoeff = 0 by rw [leadingCoeff, e, hz])
        exact h0 (sub_eq_zero.1 this)
      obtain ⟨a, ha⟩ := poly_combination P hd hc n _ hr
      refine ⟨fun j => if j = n then p.coeff n / (P n).coeff n else a j, ?_⟩
      rw [Finset.sum_range_succ]
      dsimp only
      rw [if_pos rfl]
      have e : ∑ j ∈ Finset.range n, C (if j = n then p.coeff n / (P n).coeff n else a j) * P j = ∑ j ∈ Finset.range n, C (a j) * P j := by
        refine Finset.sum_congr rfl fun j hj => ?_
        rw [if_neg (by have := Finset.mem_range.1 hj; omega)]
      rw [e, ← ha]
      ring

/-- Columns at `α * t + β` are combinations of the columns of another family at `t`, with a lower triangular matrix. -/
theorem col_combination {f f' : Family} (hf : f ≠ .fourier) (hf' : f' ≠ .fourier) (α β : ℝ) :
    ∃ A : Nat → Nat → ℝ, (∀ i j, i < j → A i j = 0) ∧ ∀ i R, i < R → ∀ t, col f' (α * t + β) i = ∑ j ∈ Finset.range R, A i j * col f t j := by
  choose P hd hc he using fun i => col_polynomial hf i
  choose P' hd' _ he' using fun i => col_polynomial hf' i
  have h : ∀ i, ∃ a : Nat → ℝ, (P' i).comp (C α * X + C β) = ∑ j ∈ Finset.range (i + 1), C (a j) * P j := by
    intro i
    refine poly_combination P hd hc (i + 1) _ ?_
    refine Nat.lt_succ_of_le (natDegree_comp_le.trans ?_)
    calc (P' i).natDegree * (C α * X + C β).natDegree ≤ i * 1 := Nat.mul_le_mul (hd' i) (natDegree_linear_le)
      _ = i := mul_one i
  choose a ha using h
  refine ⟨fun i j => if j ≤ i then a i j else 0, fun i j hij => if_neg (by omega), fun i R hi t => ?_⟩
  have e := congrArg (Polynomial.eval t) (ha i)
  rw [eval_comp, eval_finset_sum] at e
  simp only [eval_mul, eval_C, eval_add, eval_X, he, he'] at e
  rw [e]
  rw [← Finset.sum_subset (s₁ := Finset.range (i + 1)) (s₂ := Finset.range R) (f := fun j => (if j ≤ i then a i j else 0) * col f t j)
    (fun j hj => Finset.mem_range.2 (by have := Finset.mem_range.1 hj; omega))]
  · refine Finset.sum_congr rfl fun j hj => ?_
    rw [if_pos (by have := Finset.mem_range.1 hj; omega)]
  · intro j _ hj
    rw [if_neg (by rw [Finset.mem_range] at hj; omega), zero_mul]

end Mom

/-- Objects without a Fourier family are NaN together. -/
theorem poly_nan {m : Mom.Moments} (hf : m.family ≠ .fourier) (hs : 0 < m.size) {i : Nat} (hi : i < m.size) (x : Option ℝ) :
    (Dens.fn (.base m)).ev i x = (x.bind m.transform).map fun t => Mom.col m.family t i := by
  cases x with
  | none => simp [Dens.fn, Dens.row, hf, hi]
  | some x =>
    have e : m.evalAll x m.size = .ok ((List.range m.size).map fun i => (m.transform x).map fun t => Mom.col m.family t i) := by
      unfold Mom.Moments.evalAll
      rw [if_neg (by omega)]
      cases m.transform x <;> simp [hf]
    change (Dens.row (.base m) (some x)).getD i none = _
    simp only [Dens.row, Mom.Obj.evalAll, Mom.Obj.size, e, Option.bind_some]
    simp [hi]

theorem combines_of {m m' : Mom.Moments} (hf : m.family ≠ .fourier) (hf' : m'.family ≠ .fourier) (hs : 0 < m.size) (hs' : m'.size ≤ m.size) {A : Nat → Nat → ℝ} {α β : ℝ}
    (hA : ∀ i < m'.size, ∀ t, Mom.col m'.family (α * t + β) i = ∑ j ∈ Finset.range m.size, A i j * Mom.col m.family t j)
    (ht : ∀ x, m'.transform x = (m.transform x).map fun t => α * t + β) : Combines A (Dens.fn (.base m)) (Dens.fn (.base m')) := by
  constructor
  · rintro x ⟨i, hi, he⟩ j hj
    rw [poly_nan hf hs hi, Option.map_eq_none_iff] at he
    rw [poly_nan hf' (Nat.zero_lt_of_lt hj) hj, Option.map_eq_none_iff]
    cases x with
    | none => rfl
    | some x => rw [Option.bind_some] at he ⊢; rw [ht, he]; rfl
  · intro x hx i hi
    have h0 : x.bind m.transform ≠ none := fun h => hx ⟨0, hs, by rw [poly_nan hf hs hs, h]; rfl⟩
    cases x with
    | none => exact absurd rfl h0
    | some x =>
      rw [Option.bind_some] at h0
      obtain ⟨t, h⟩ := Option.ne_none_iff_exists'.1 h0
      rw [poly_nan hf' (Nat.zero_lt_of_lt hi) hi, Option.bind_some, ht, h]
      simp only [Option.map_some]
      rw [hA i hi]
      congr 1
      refine Finset.sum_congr rfl fun j hj => ?_
      rw [poly_nan hf hs (Finset.mem_range.1 hj), Option.bind_some, h]
      rfl

/-- The transformation of one object is an affine function of that of the other. -/
theorem transform_affine {f f' : Mom.Family} {size size' : Nat} {lo hi lo' hi' r0 r1 r0' r1' : ℝ} {log clip : Bool} {m m' : Mom.Moments}
    (h : Mom.construct f size (lo, hi) (.pair r0 r1) log clip = .ok m) (h' : Mom.construct f' size' (lo', hi') (.pair r0' r1') log clip = .ok m') (hr : r0 < r1) (hr' : r0' < r1')
    (hdom : clip = true → lo' = lo ∧ hi' = hi ∧ 1 / 10 ^ 15 ≤ Mom.linBound log hi - Mom.linBound log lo) (x : ℝ) :
    m'.transform x = (m.transform x).map fun t => m'.scale / m.scale * t + m'.linear (m.invLinear 0) := by
  have hsc : m.scale ≠ 0 := by
    obtain ⟨_, _, hd, rfl⟩ := Mom.construct_ok h
    exact div_ne_zero (by linarith) (ne_of_gt (lt_of_lt_of_le hd (le_max_left _ _)))
  have hlog : m.isLog = log := by obtain ⟨_, _, _, rfl⟩ := Mom.construct_ok h; rfl
  have hlog' : m'.isLog = log := by obtain ⟨_, _, _, rfl⟩ := Mom.construct_ok h'; rfl
  have hcl : m.isClip = clip := by obtain ⟨_, _, _, rfl⟩ := Mom.construct_ok h; rfl
  have hcl' : m'.isClip = clip := by obtain ⟨_, _, _, rfl⟩ := Mom.construct_ok h'; rfl
  have lin : ∀ y, m'.linear y = m'.scale / m.scale * m.linear y + m'.linear (m.invLinear 0) := by
    intro y
    unfold Mom.Moments.linear Mom.Moments.invLinear
    field_simp
    ring
  cases clip with
  | false =>
    unfold Mom.Moments.transform
    rw [hlog, hlog', hcl, hcl']
    simp only [Bool.false_eq_true, if_false]
    generalize (if log = true then if 0 < x then some (Real.log x) else none else some x) = y
    cases y with
    | none => rfl
    | some y => simp only [Option.bind_some, Option.map_some]; rw [lin]
  | true =>
    obtain ⟨rfl, rfl, hw⟩ := hdom rfl
    have e := Mom.C55_safe_eval h hr hw x
    have e' := Mom.C55_safe_eval h' hr' hw x
    cases ht : m.transform x with
    | none => exact e'.2 (e.1 ht)
    | some t =>
      cases ht' : m'.transform x with
      | none => rw [e.2 (e'.1 ht')] at ht; cases ht
      | some t' =>
        simp only [Option.map_some]
        unfold Mom.Moments.transform at ht ht'
        rw [hlog, hcl] at ht
        rw [hlog', hcl'] at ht'
        generalize (if log = true then if 0 < x then some (Real.log x) else none else some x) = y at ht ht'
        cases y with
        | none => cases ht
        | some y =>
          simp only [Option.bind_some, if_true, Mom.Moments.clip] at ht ht'
          split at ht
          · cases ht
          split at ht'
          · cases ht'
          injection ht with ht
          injection ht' with ht'
          rw [← ht, ← ht', lin]

/-! ## C157 -/

/-- C157: estimated moments in one family of polynomials (powers or Legendre polynomials), on one domain, determine those in another one with no more functions: there is a
lower triangular matrix, depending only on the two objects, that turns the estimated moments of every component of every quantity from all data into
those with the other functions.  The objects agree in `log` and `safe_eval`; with `safe_eval` they have the same domain.
Missing: with `safe_eval` and different domains it is false, see `C157_domain_counterexample`. -/
theorem C157_change_of_basis_partial {f f' : Mom.Family} (hf : f ≠ .fourier) (hf' : f' ≠ .fourier) {size size' : Nat} (hs : size' ≤ size) {lo hi lo' hi' r0 r1 r0' r1' : ℝ}
    {log clip : Bool} {m m' : Mom.Moments} (h : Mom.construct f size (lo, hi) (.pair r0 r1) log clip = .ok m)
    (h' : Mom.construct f' size' (lo', hi') (.pair r0' r1') log clip = .ok m') (hr : r0 < r1) (hr' : r0' < r1')
    (hdom : clip = true → lo' = lo ∧ hi' = hi ∧ 1 / 10 ^ 15 ≤ Mom.linBound log hi - Mom.linBound log lo) :
    ∃ A : Nat → Nat → ℝ, (∀ i j, i < j → A i j = 0) ∧
      ∀ (sid W nLevels : Nat) (q r r' : Quantity (Option ℝ)), Built sid .qty q → IdsIdentify q → ∀ (bottom : Bool) (o o' : Nat),
        q.moments o (Dens.fn (.base m)) bottom = .ok r → q.moments o' (Dens.fn (.base m')) bottom = .ok r' →
        ∀ chunks, ChunksWF W chunks → (∀ c ∈ chunks, c.1 < nLevels) → ∀ e e', estimateMean r nLevels (asChunks sid W chunks) = .ok e →
          estimateMean r' nLevels (asChunks sid W chunks) = .ok e' →
          ∀ k < q.size, ∀ mu : Nat → ℝ, (∀ j < size, e.mean.getD (momRow bottom q.size size k j) none = some (mu j)) →
            ∀ i < size', e'.mean.getD (momRow bottom q.size size' k i) none = some (∑ j ∈ Finset.range size, A i j * mu j) := by
  have hm : m.family = f ∧ m.size = size ∧ 0 < size := by obtain ⟨h0, _, _, rfl⟩ := Mom.construct_ok h; exact ⟨rfl, rfl, h0⟩
  have hm' : m'.family = f' ∧ m'.size = size' ∧ 0 < size' := by obtain ⟨h0, _, _, rfl⟩ := Mom.construct_ok h'; exact ⟨rfl, rfl, h0⟩
  obtain ⟨A, hlow, hA⟩ := Mom.col_combination hf hf' (m'.scale / m.scale) (m'.linear (m.invLinear 0))
  refine ⟨A, hlow, ?_⟩
  intro sid W nLevels q r r' hq hid bottom o o' hmr hmr' chunks hwf hl e e' he he' k hk mu hmu i hi
  have hc : Combines A (Dens.fn (.base m)) (Dens.fn (.base m')) := by
    refine combines_of (by rw [hm.1]; exact hf) (by rw [hm'.1]; exact hf') (by rw [hm.2.1]; exact hm.2.2) (by rw [hm.2.1, hm'.2.1]; exact hs) ?_
      (transform_affine h h' hr hr' hdom)
    intro i hi t
    rw [hm.1, hm'.1, hm.2.1]
    exact hA i size (by rw [hm'.2.1] at hi; omega) t
  have hsz : (Dens.fn (.base m)).size = size := hm.2.1
  have hsz' : (Dens.fn (.base m')).size = size' := hm'.2.1
  have key := mean_linear hq hid hc (by rw [hsz]; exact hm.2.2) (by rw [hsz']; exact hm'.2.2) hmr hmr' hwf hl he he' hk (i := i) (by rw [hsz']; exact hi)
  rw [hsz, hsz'] at key
  rcases key with ⟨_, mu', h1, h2⟩ | ⟨h1, _⟩
  · rw [h2]
    congr 1
    refine Finset.sum_congr rfl fun j hj => ?_
    have := (hmu j (Finset.mem_range.1 hj)).symm.trans (h1 j (Finset.mem_range.1 hj))
    injection this with this
    rw [this]
  · have := (h1 0 hm.2.2).symm.trans (hmu 0 hm.2.2)
    cases this

/-- `Monomial(2, (0, b), safe_eval=True)` on rational numbers: powers of `x / b` inside of the domain, NaN outside. -/
def unitPowers (b : ℚ) : MomentFn (Option ℚ) := ⟨2, fun i v => v.bind fun x => if 0 ≤ x ∧ x ≤ b then some ((x / b) ^ i) else none⟩

/-- These are the values of the library's monomials at rational numbers. -/
theorem unitPowers_library {b : ℚ} (hb : 1 / 10 ^ 15 ≤ (b : ℝ)) {m : Mom.Moments} (h : Mom.construct .monomial 2 (0, (b : ℝ)) (.pair 0 1) false true = .ok m) (i : Nat) (hi : i < 2) (x : ℚ) :
    (Dens.fn (.base m)).ev i (some (x : ℝ)) = ((unitPowers b).ev i (some x)).map fun y => ((y : ℚ) : ℝ) := by
  have e := Mom.C55_safe_eval h one_pos (by simpa [Mom.linBound] using hb) (x : ℝ)
  obtain ⟨h0, _, hd, rfl⟩ := Mom.construct_ok h
  have hd' : (0 : ℝ) < b := by simpa [Mom.linBound] using hd
  rw [poly_nan (by simp) h0 hi]
  simp only [Option.bind_some, unitPowers]
  by_cases hx : 0 ≤ x ∧ x ≤ b
  · rw [if_pos hx]
    have hx1 : (0 : ℝ) ≤ x := by exact_mod_cast hx.1
    have hx2 : (x : ℝ) ≤ b := by exact_mod_cast hx.2
    generalize ht : Mom.Moments.transform _ (x : ℝ) = t at e ⊢
    cases t with
    | none =>
      rcases e.1 rfl with h | h
      · exact absurd h (not_lt.2 hx1)
      · exact absurd h (not_lt.2 hx2)
    | some t =>
      simp only [Mom.Moments.transform, Mom.Moments.linear, Mom.Moments.clip, Mom.linBound, Bool.false_eq_true, if_false, if_true, Option.bind_some, sub_zero, add_zero, max_eq_left hb] at ht
      split at ht
      · cases ht
      · injection ht with ht
        simp only [Option.map_some, Mom.col, Mom.pow_eq, ← ht]
        push_cast
        congr 2
        ring
  · rw [if_neg hx]
    have : (x : ℝ) < 0 ∨ (b : ℝ) < x := by
      rcases not_and_or.1 hx with h | h
      · exact Or.inl (by exact_mod_cast not_le.1 h)
      · exact Or.inr (by exact_mod_cast not_le.1 h)
    rw [e.2 this]
    rfl

namespace ExBasis

def q : Quantity (Option ℚ) := .storage 7 .scalar
def data (xs : List ℚ) : List (Nat × List (Sample (Option ℚ))) := [(0, xs.map fun x => [[some x]])]
/-- The estimated moments of the stored samples `xs` with the functions on `(0, b)`. -/
def estimated (b : ℚ) (xs : List ℚ) : Option (List (Option ℚ)) :=
  ((q.moments 10 (unitPowers b) true).toOption.bind fun r => (estimateMean r 1 (asChunks 7 1 (data xs))).toOption).map (·.mean)

end ExBasis

/-- C157: with `safe_eval` and different domains the estimated moments do not determine each other: the samples 1/2 and 1/2, 3/2 have the same estimated moments with `Monomial(2, (0, 1))`,
which drops 3/2, but different ones with `Monomial(2, (0, 2))`. -/
theorem C157_domain_counterexample : ExBasis.estimated 1 [1 / 2] = some [some 1, some (1 / 2)] ∧ ExBasis.estimated 1 [1 / 2, 3 / 2] = some [some 1, some (1 / 2)] ∧
    ExBasis.estimated 2 [1 / 2] = some [some 1, some (1 / 4)] ∧ ExBasis.estimated 2 [1 / 2, 3 / 2] = some [some 1, some (1 / 2)] := by
  refine ⟨?_, ?_, ?_, ?_⟩ <;> decide +kernel

/-- Powers and Legendre polynomials on one domain, with `safe_eval`. -/
example : ∃ m m', Mom.construct .monomial 3 (1, 6) (.pair 0 1) false true = .ok m ∧ Mom.construct .legendre 3 (1, 6) (.pair (-1) 1) false true = .ok m' :=
  ⟨_, _, by rw [Mom.construct]; norm_num; rfl, by rw [Mom.construct]; norm_num; rfl⟩

end MLMC
