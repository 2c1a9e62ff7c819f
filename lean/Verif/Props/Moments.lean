import Verif.Model.Moments
import Mathlib.Analysis.Calculus.Deriv.Polynomial
import Mathlib.Analysis.Calculus.Deriv.Comp
import Mathlib.Data.Matrix.Mul
import Mathlib.Tactic.Linarith
import Mathlib.Tactic.LinearCombination
import Mathlib.Tactic.FieldSimp
import Mathlib.Tactic.Positivity
/-
C55 - C59: moment functions.
-/
namespace MLMC.Mom

/-- The (logarithm of the) bounds of the domain. -/
noncomputable def linBound (log : Bool) (b : ℝ) : ℝ := if log then Real.log b else b

theorem construct_ok {f : Family} {size : Nat} {a b r0 r1 : ℝ} {log clip : Bool} {m : Moments}
    (h : construct f size (a, b) (.pair r0 r1) log clip = .ok m) :
    0 < size ∧ (log = true → 0 < a ∧ 0 < b) ∧ 0 < linBound log b - linBound log a ∧
    m = ⟨f, size, (a, b), (r0, r1), log, clip, (r1 - r0) / max (linBound log b - linBound log a) (1 / 10 ^ 15), linBound log a⟩ := by
  unfold construct at h
  split at h
  · cases h
  rename_i hs
  split at h
  · cases h
  rename_i hl
  have e : (if log = true then (Real.log (a, b).1, Real.log (a, b).2) else (a, b)) = (linBound log a, linBound log b) := by
    cases log <;> rfl
  simp only [e] at h
  split at h
  · cases h
  rename_i hd
  refine ⟨Nat.pos_of_ne_zero hs, fun hlog => ?_, not_not.1 hd, ?_⟩
  · have : ¬ (a ≤ 0 ∨ b ≤ 0) := fun hh => hl ⟨hlog, hh⟩
    exact ⟨not_le.1 fun h => this (.inl h), not_le.1 fun h => this (.inr h)⟩
  · injection h with h; exact h.symm

theorem construct_none (f : Family) (size : Nat) (d : ℝ × ℝ) (log clip : Bool) :
    construct f size d .none log clip = construct f size d (.pair (defaultRef f).1 (defaultRef f).2) log clip := by
  unfold construct
  split
  · rfl
  split
  · rfl
  · rfl

theorem linear_strict (m : Moments) (hs : 0 < m.scale) {x y : ℝ} (h : x < y) : m.linear x < m.linear y := by
  unfold Moments.linear
  have := mul_lt_mul_of_pos_right (show x - m.shift < y - m.shift by linarith) hs
  linarith

theorem inv_linear_linear (m : Moments) (hs : 0 < m.scale) (x : ℝ) : m.invLinear (m.linear x) = x := by
  unfold Moments.invLinear Moments.linear
  field_simp; ring

theorem linear_inv_linear (m : Moments) (hs : 0 < m.scale) (x : ℝ) : m.linear (m.invLinear x) = x := by
  unfold Moments.invLinear Moments.linear
  field_simp; ring

theorem clip_some {m : Moments} {v u : ℝ} (h : m.clip v = some u) : u = v := by
  unfold Moments.clip at h
  split at h
  · cases h
  · injection h with h; exact h.symm

/-- What `transform` is, when it gives a number. -/
theorem transform_some {m : Moments} {x u : ℝ} (h : m.transform x = some u) :
    u = m.linear (linBound m.isLog x) ∧ (m.isLog = true → 0 < x) := by
  unfold Moments.transform at h
  unfold linBound
  cases hl : m.isLog with
  | true =>
    rw [hl] at h
    simp only [if_true] at h ⊢
    by_cases hx : 0 < x
    · rw [if_pos hx] at h
      simp only [Option.bind_some] at h
      refine ⟨?_, fun _ => hx⟩
      split at h
      · exact clip_some h
      · injection h with h; exact h.symm
    · rw [if_neg hx] at h; cases h
  | false =>
    rw [hl] at h
    simp only [Bool.false_eq_true, if_false, Option.bind_some] at h ⊢
    refine ⟨?_, fun hh => absurd hh (by simp)⟩
    split at h
    · exact clip_some h
    · injection h with h; exact h.symm

theorem linBound_lt {log : Bool} {x y : ℝ} (hx : log = true → 0 < x) (h : x < y) : linBound log x < linBound log y := by
  unfold linBound
  cases log with
  | true => exact Real.log_lt_log (hx rfl) h
  | false => exact h

theorem linBound_inj {log : Bool} {x y : ℝ} (hx : log = true → 0 < x) (hy : log = true → 0 < y) :
    linBound log x < linBound log y ↔ x < y := by
  constructor
  · intro h
    unfold linBound at h
    cases log with
    | true => exact (Real.log_lt_log_iff (hx rfl) (hy rfl)).1 h
    | false => exact h
  · exact linBound_lt hx

/-- Facts about a constructed object whose domain is not degenerate. -/
theorem constructed {f : Family} {size : Nat} {a b r0 r1 : ℝ} {log clip : Bool} {m : Moments}
    (h : construct f size (a, b) (.pair r0 r1) log clip = .ok m) (hr : r0 < r1) (hw : 1 / 10 ^ 15 ≤ linBound log b - linBound log a) :
    0 < m.scale ∧ m.linear (linBound log a) = r0 ∧ m.linear (linBound log b) = r1 ∧ m.ref = (r0, r1) ∧ m.isLog = log ∧ m.isClip = clip := by
  obtain ⟨_, _, hd, rfl⟩ := construct_ok h
  rw [max_eq_left hw]
  refine ⟨div_pos (by linarith) hd, ?_, ?_, rfl, rfl, rfl⟩
  · simp [Moments.linear]
  · simp only [Moments.linear]
    rw [mul_div_cancel₀ _ hd.ne']; ring

/-- C55: the bounds of the domain map to the bounds of the reference domain. -/
theorem C55_bounds {f : Family} {size : Nat} {a b r0 r1 : ℝ} {log clip : Bool} {m : Moments}
    (h : construct f size (a, b) (.pair r0 r1) log clip = .ok m) (hr : r0 < r1) (hw : 1 / 10 ^ 15 ≤ linBound log b - linBound log a) :
    m.transform a = some r0 ∧ m.transform b = some r1 := by
  obtain ⟨hs, ha, hb, href, hlog, hclip⟩ := constructed h hr hw
  obtain ⟨_, hpos, _, _⟩ := construct_ok h
  have key : ∀ x, (log = true → 0 < x) → ∀ r, r0 ≤ r → r ≤ r1 → m.linear (linBound log x) = r → m.transform x = some r := by
    intro x hx r h0 h1 hr'
    unfold Moments.transform
    have hy : (if m.isLog = true then (if 0 < x then some (Real.log x) else none) else some x) = some (linBound log x) := by
      rw [hlog]; unfold linBound
      cases log with
      | true => simp [hx rfl]
      | false => simp
    simp only [hy, Option.bind_some, hr']
    split
    · unfold Moments.clip
      rw [if_neg]
      rw [href]
      simp only [min_eq_left hr.le, max_eq_right hr.le]
      push Not; exact ⟨h0, h1⟩
    · rfl
  exact ⟨key a (fun hl => (hpos hl).1) r0 le_rfl hr.le ha, key b (fun hl => (hpos hl).2) r1 hr.le le_rfl hb⟩

/-- C55: the transform is strictly increasing. -/
theorem C55_strictly_increasing {f : Family} {size : Nat} {a b r0 r1 : ℝ} {log clip : Bool} {m : Moments}
    (h : construct f size (a, b) (.pair r0 r1) log clip = .ok m) (hr : r0 < r1) (x y u v : ℝ) (hx : m.transform x = some u)
    (hy : m.transform y = some v) (hxy : x < y) : u < v := by
  obtain ⟨_, _, hd, rfl⟩ := construct_ok h
  obtain ⟨hu, hx0⟩ := transform_some hx
  obtain ⟨hv, _⟩ := transform_some hy
  rw [hu, hv]
  exact linear_strict _ (div_pos (by linarith) (lt_max_of_lt_left hd)) (linBound_lt hx0 hxy)

/-- C55: the inverse transform undoes the transform. -/
theorem C55_inverse {f : Family} {size : Nat} {a b r0 r1 : ℝ} {log clip : Bool} {m : Moments}
    (h : construct f size (a, b) (.pair r0 r1) log clip = .ok m) (hr : r0 < r1) (x u : ℝ) (hx : m.transform x = some u) :
    m.invTransform u = x := by
  obtain ⟨_, _, hd, hm⟩ := construct_ok h
  have hs : 0 < m.scale := by rw [hm]; exact div_pos (by linarith) (lt_max_of_lt_left hd)
  obtain ⟨hu, hx0⟩ := transform_some hx
  unfold Moments.invTransform
  rw [hu, inv_linear_linear m hs]
  unfold linBound
  cases hl : m.isLog with
  | true => simp only [if_true]; exact Real.exp_log (hx0 hl)
  | false => rfl

/-- C55: with `safe_eval` exactly the points outside the domain become NaN. -/
theorem C55_safe_eval {f : Family} {size : Nat} {a b r0 r1 : ℝ} {log : Bool} {m : Moments}
    (h : construct f size (a, b) (.pair r0 r1) log true = .ok m) (hr : r0 < r1) (hw : 1 / 10 ^ 15 ≤ linBound log b - linBound log a) (x : ℝ) :
    m.transform x = none ↔ x < a ∨ b < x := by
  obtain ⟨hs, ha, hb, href, hlog, hclip⟩ := constructed h hr hw
  obtain ⟨_, hpos, _, _⟩ := construct_ok h
  unfold Moments.transform
  rw [hclip, hlog]
  by_cases hx : log = true → 0 < x
  · have hy : (if log = true then (if 0 < x then some (Real.log x) else none) else some x) = some (linBound log x) := by
      unfold linBound
      cases log with
      | true => simp [hx rfl]
      | false => simp
    simp only [hy, Option.bind_some, if_true]
    unfold Moments.clip
    rw [href]
    simp only [min_eq_left hr.le, max_eq_right hr.le]
    have h1 : m.linear (linBound log x) < r0 ↔ x < a := by
      rw [← ha]
      constructor
      · intro hh
        by_contra hc
        rcases lt_or_eq_of_le (not_lt.1 hc) with hc | hc
        · exact absurd hh (not_lt.2 (linear_strict m hs (linBound_lt (fun hl => (hpos hl).1) hc)).le)
        · rw [hc] at hh; exact lt_irrefl _ hh
      · intro hh; exact linear_strict m hs (linBound_lt hx hh)
    have h2 : m.linear (linBound log x) > r1 ↔ b < x := by
      rw [← hb]
      constructor
      · intro hh
        by_contra hc
        rcases lt_or_eq_of_le (not_lt.1 hc) with hc | hc
        · exact absurd hh (not_lt.2 (linear_strict m hs (linBound_lt hx hc)).le)
        · rw [hc] at hh; exact lt_irrefl _ hh
      · intro hh; exact linear_strict m hs (linBound_lt (fun hl => (hpos hl).2) hh)
    by_cases hc : x < a ∨ b < x
    · rw [if_pos (by rw [h1, h2]; exact hc)]; simp [hc]
    · rw [if_neg (by rw [h1, h2]; exact hc)]; simp [hc]
  · push Not at hx
    obtain ⟨hl, hx⟩ := hx
    subst hl
    simp only [if_true, if_neg (not_lt.2 hx), Option.bind_none, true_iff]
    exact .inl (lt_of_le_of_lt hx (hpos rfl).1)

/-- C55: without `safe_eval` no point becomes NaN, except points without a logarithm. -/
theorem C55_unsafe_eval {f : Family} {size : Nat} {a b r0 r1 : ℝ} {log : Bool} {m : Moments}
    (h : construct f size (a, b) (.pair r0 r1) log false = .ok m) (x : ℝ) : m.transform x = none ↔ log = true ∧ x ≤ 0 := by
  obtain ⟨_, _, _, rfl⟩ := construct_ok h
  unfold Moments.transform
  cases log with
  | true =>
    simp only [if_true]
    by_cases hx : 0 < x
    · simp [hx]
    · simp [hx, not_lt.1 hx]
  | false => simp

/-- C55: every point of the reference domain is reached. -/
theorem C55_onto {f : Family} {size : Nat} {a b r0 r1 : ℝ} {log clip : Bool} {m : Moments}
    (h : construct f size (a, b) (.pair r0 r1) log clip = .ok m) (hr : r0 < r1) (u : ℝ) (h0 : r0 ≤ u) (h1 : u ≤ r1) :
    m.transform (m.invTransform u) = some u := by
  obtain ⟨_, _, hd, hm⟩ := construct_ok h
  have hs : 0 < m.scale := by rw [hm]; exact div_pos (by linarith) (lt_max_of_lt_left hd)
  have hclip : m.clip u = some u := by
    unfold Moments.clip
    rw [if_neg]
    rw [hm]
    simp only [min_eq_left hr.le, max_eq_right hr.le]
    push Not; exact ⟨h0, h1⟩
  unfold Moments.transform Moments.invTransform
  cases hl : m.isLog with
  | true =>
    simp only [if_true, if_pos (Real.exp_pos _), Option.bind_some, Real.log_exp, linear_inv_linear m hs, hclip]
    split <;> rfl
  | false =>
    simp only [Bool.false_eq_true, if_false, Option.bind_some, linear_inv_linear m hs, hclip]
    split <;> rfl

/-- The hypotheses hold for a usual domain, linear and logarithmic. -/
theorem construct_linear (f : Family) (size : Nat) (hs : 0 < size) (a b r0 r1 : ℝ) (hab : a < b) (clip : Bool) :
    ∃ m, construct f size (a, b) (.pair r0 r1) false clip = .ok m ∧ m.family = f ∧ m.size = size ∧ m.domain = (a, b) ∧ m.ref = (r0, r1) ∧
      m.isLog = false ∧ m.isClip = clip := by
  unfold construct
  rw [if_neg hs.ne', if_neg (by simp)]
  simp only [Bool.false_eq_true, if_false, if_neg (show ¬ ¬ b - a > 0 from not_not.2 (by linarith))]
  exact ⟨_, rfl, rfl, rfl, rfl, rfl, rfl, rfl⟩

example : ∃ m, construct .legendre 5 (2, 4) (.pair (-1) 1) false true = .ok m ∧ m.transform 3 = some 0 := by
  obtain ⟨m, h, -⟩ := construct_linear .legendre 5 (by omega) 2 4 (-1) 1 (by norm_num) true
  refine ⟨m, h, ?_⟩
  obtain ⟨_, _, _, rfl⟩ := construct_ok h
  have e : max (linBound false 4 - linBound false 2) (1 / 10 ^ 15) = (2 : ℝ) := by
    unfold linBound; rw [max_eq_left] <;> norm_num
  simp only [Moments.transform, Moments.clip, Moments.linear, e]
  norm_num [linBound]
example : (1 : ℝ) / 10 ^ 15 ≤ linBound false 4 - linBound false 2 := by unfold linBound; norm_num

/-- C55 needs domains that are not too small: below a width of 1e-15 the upper bound is not mapped to the upper reference bound. -/
theorem C55_tiny_domain_counterexample : ∃ m, construct .legendre 3 (0, 1 / 10 ^ 16) .none false true = .ok m ∧
    m.transform (1 / 10 ^ 16) = some (-4 / 5) := by
  obtain ⟨m, h, -⟩ := construct_linear .legendre 3 (by omega) 0 (1 / 10 ^ 16) (-1) 1 (by norm_num) true
  refine ⟨m, by rw [construct_none]; exact h, ?_⟩
  obtain ⟨_, _, _, rfl⟩ := construct_ok h
  have e : max (linBound false (1 / 10 ^ 16) - linBound false 0) (1 / 10 ^ 15) = (1 / 10 ^ 15 : ℝ) := by
    unfold linBound; rw [max_eq_right]; norm_num
  simp only [Moments.transform, Moments.clip, Moments.linear, e]
  norm_num [linBound]

/-! ## C56 -/

/-- C56: evaluating with a larger size only appends columns. -/
theorem C56_nested (m : Moments) (x : ℝ) (size k : Nat) (row row' : List (Option ℝ)) (h : m.evalAll x size = .ok row)
    (h' : m.evalAll x (size + k) = .ok row') : row'.take size = row ∧ row.length = size ∧ row'.length = size + k := by
  unfold Moments.evalAll at h h'
  have hs : size ≠ 0 := by
    rintro rfl
    rw [if_pos rfl] at h
    split at h <;> cases h
  rw [if_neg hs] at h
  rw [if_neg (by omega)] at h'
  have tk : (List.range (size + k)).take size = List.range size := by
    rw [List.take_range]; congr 1; omega
  cases ht : m.transform x with
  | some t =>
    rw [ht] at h h'
    injection h with h; injection h' with h'
    subst h h'
    rw [← List.map_take, tk]; simp
  | none =>
    rw [ht] at h h'
    injection h with h; injection h' with h'
    subst h h'
    rw [← List.map_take, tk]; simp

/-- C56: the zeroth moment is one at every valid point. -/
theorem C56_zeroth_is_one (m : Moments) (x t : ℝ) (ht : m.transform x = some t) (size : Nat) :
    ∃ row, m.evalAll x (size + 1) = .ok row ∧ row.head? = some (some 1) := by
  unfold Moments.evalAll
  rw [if_neg (by omega), ht]
  refine ⟨_, rfl, ?_⟩
  rw [List.range_succ_eq_map]
  cases m.family <;> simp [col, pow, four, leg]

/-- C56: a single moment is the column of `eval_all`. -/
theorem C56_single_is_column (m : Moments) (x : ℝ) (i size : Nat) (hi : i < size) (row : List (Option ℝ)) (h : m.evalAll x size = .ok row) :
    m.evalSingle i x = .ok (row.getD i none) := by
  unfold Moments.evalSingle
  unfold Moments.evalAll at h ⊢
  rw [if_neg (by omega)] at h ⊢
  cases ht : m.transform x with
  | some t =>
    rw [ht] at h
    injection h with h; subst h
    simp only [Except.map]
    rw [List.getD_eq_getElem?_getD, List.getD_eq_getElem?_getD]
    simp [hi]
  | none =>
    rw [ht] at h
    injection h with h; subst h
    simp only [Except.map]
    rw [List.getD_eq_getElem?_getD, List.getD_eq_getElem?_getD]
    simp [hi]

theorem pow_eq (x : ℝ) (n : Nat) : pow x n = x ^ n := by
  induction n with
  | zero => rfl
  | succ n ih => rw [pow, ih, pow_succ]

/-- C56 (partial): `eval` agrees with the column of `eval_all` for Legendre polynomials and, at valid points, for monomials.
Missing: Fourier functions, see `C56_fourier_counterexample`. -/
theorem C56_eval_is_column_partial (m : Moments) (x t : ℝ) (ht : m.transform x = some t) (hf : m.family ≠ .fourier) (i size : Nat) (hi : i < size)
    (row : List (Option ℝ)) (h : m.evalAll x size = .ok row) : m.eval i x = .ok (row.getD i none) := by
  unfold Moments.evalAll at h
  rw [if_neg (by omega), ht] at h
  injection h with h; subst h
  unfold Moments.eval
  cases hm : m.family with
  | fourier => exact absurd hm hf
  | legendre =>
    simp only [Moments.evalAll]
    rw [if_neg (by omega), ht]
    simp only [Except.map, hm]
    rw [List.range_succ, List.map_append, List.getD_eq_getElem?_getD]
    simp [hi]
  | monomial =>
    simp only [ht, List.getD_eq_getElem?_getD]
    rw [List.getElem?_map, List.getElem?_range hi]
    simp only [Option.map_some, Option.getD_some, col, pow_eq]
    split
    · rename_i h0; rw [h0]; simp
    · rfl

/-- Fourier moments on their default domain. -/
theorem ex_fourier : ∃ m, construct .fourier 3 (0, 2 * Real.pi) .none false true = .ok m ∧ m.transform 0 = some 0 ∧ m.family = .fourier := by
  have hpi := Real.two_le_pi
  obtain ⟨m, h, hf, -⟩ := construct_linear .fourier 3 (by omega) 0 (2 * Real.pi) 0 (2 * Real.pi) (by linarith) true
  refine ⟨m, by rw [construct_none]; exact h, ?_, hf⟩
  refine (C55_bounds h (by linarith) ?_).1
  unfold linBound
  have : (1 : ℝ) / 10 ^ 15 ≤ 1 := by norm_num
  simp; linarith

/-- C56 fails for Fourier functions: `eval(1, 0)` is `sin(0) = 0`, column 1 of `eval_all` is `cos(0) = 1`. -/
theorem C56_fourier_counterexample : ∃ m row, construct .fourier 3 (0, 2 * Real.pi) .none false true = .ok m ∧ m.evalAll 0 3 = .ok row ∧
    row.getD 1 none = some 1 ∧ m.eval 1 0 = .ok (some 0) := by
  obtain ⟨m, h, ht, hf⟩ := ex_fourier
  refine ⟨m, _, h, by unfold Moments.evalAll; rw [if_neg (by omega), ht], ?_, ?_⟩
  · simp [List.range_succ, hf, col, four]
  · unfold Moments.eval; rw [hf]; simp [ht]

/-- C56: what the columns are: powers, Legendre polynomials given by the three-term recurrence, and cosines and sines in turn. -/
theorem C56_columns (t : ℝ) (n : Nat) :
    col .monomial t n = t ^ n ∧ col .legendre t 0 = 1 ∧ col .legendre t 1 = t ∧
    (n + 2 : ℝ) * col .legendre t (n + 2) = (2 * n + 3) * t * col .legendre t (n + 1) - (n + 1) * col .legendre t n ∧
    col .fourier t (2 * n + 1) = Real.cos ((n + 1) * t) ∧ col .fourier t (2 * n + 2) = Real.sin ((n + 1) * t) := by
  refine ⟨pow_eq t n, rfl, rfl, ?_, ?_, ?_⟩
  · have : (n + 2 : ℝ) ≠ 0 := by positivity
    simp only [col, leg]
    field_simp; ring
  · simp only [col, four]
    rw [if_neg (by omega), if_pos (by omega), show (2 * n + 1 + 1) / 2 = n + 1 by omega]; push_cast; rfl
  · simp only [col, four]
    rw [if_neg (by omega), if_neg (by omega), show (2 * n + 2) / 2 = n + 1 by omega]; push_cast; rfl

end MLMC.Mom
