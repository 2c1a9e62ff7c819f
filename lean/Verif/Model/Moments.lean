import Verif.Model.Storage
import Mathlib.Analysis.SpecialFunctions.Log.Basic
import Mathlib.Analysis.SpecialFunctions.Trigonometric.Basic
import Mathlib.Data.Fintype.BigOperators
/-
Moment functions: /repo/mlmc/moments.py.  Floating point numbers are real numbers, NaN is `none`.  A value array is treated point by
point: `value` is one number, a row of the returned array is a list.
-/
namespace MLMC.Mom

/-- The classes of /repo/mlmc/moments.py:111, 133, 174. -/
inductive Family | monomial | fourier | legendre
  deriving DecidableEq

/-- The argument `ref_domain`: `None`, a pair, or (as passed by `change_size`) a bool. /repo/mlmc/moments.py:51-56, 115-120, 137-143, 179-190. -/
inductive RefArg
  | none
  | pair (lo hi : ℝ)
  | bool (b : Bool)

/-- Attributes of a `Moments` object, /repo/mlmc/moments.py:10-28. -/
structure Moments where
  family : Family
  size : Nat
  domain : ℝ × ℝ
  ref : ℝ × ℝ
  isLog : Bool
  isClip : Bool
  scale : ℝ
  shift : ℝ

/-- Default reference domains, /repo/mlmc/moments.py:115-118, 137-141, 179-183. -/
noncomputable def defaultRef : Family → ℝ × ℝ
  | .monomial => (0, 1)
  | .fourier => (0, 2 * Real.pi)
  | .legendre => (-1, 1)

/-- The constructors, /repo/mlmc/moments.py:10-28, 115-119, 137-143, 179-190.  With `log`, bounds that are not positive make the difference NaN and
the assertion fails (the lower bound 0, whose logarithm is minus infinity, is treated the same way).  Indexing a bool is a `TypeError`. -/
noncomputable def construct (family : Family) (size : Nat) (domain : ℝ × ℝ) (ref : RefArg) (log clip : Bool) : Except PyErr Moments :=
  if size = 0 then .error .assertionError else
  if log = true ∧ (domain.1 ≤ 0 ∨ domain.2 ≤ 0) then .error .assertionError else
  let lin : ℝ × ℝ := if log then (Real.log domain.1, Real.log domain.2) else domain
  if ¬ lin.2 - lin.1 > 0 then .error .assertionError else
  let diff := max (lin.2 - lin.1) (1 / 10 ^ 15)
  match ref with
  | .bool _ => .error .typeError
  | .none => .ok ⟨family, size, domain, defaultRef family, log, clip, ((defaultRef family).2 - (defaultRef family).1) / diff, lin.1⟩
  | .pair lo hi => .ok ⟨family, size, domain, (lo, hi), log, clip, (hi - lo) / diff, lin.1⟩

namespace Moments

/-- `linear`, /repo/mlmc/moments.py:69-70. -/
noncomputable def linear (m : Moments) (v : ℝ) : ℝ := (v - m.shift) * m.scale + m.ref.1

/-- `inv_linear`, /repo/mlmc/moments.py:72-73. -/
noncomputable def invLinear (m : Moments) (v : ℝ) : ℝ := (v - m.ref.1) / m.scale + m.shift

/-- `clip`, /repo/mlmc/moments.py:58-67; `masked_outside` orders its bounds. -/
noncomputable def clip (m : Moments) (v : ℝ) : Option ℝ :=
  if v < min m.ref.1 m.ref.2 ∨ v > max m.ref.1 m.ref.2 then none else some v

/-- `transform`, /repo/mlmc/moments.py:30-40.  The logarithm of a negative number is NaN; the one of 0 is minus infinity, which is treated like
NaN here (`clip` makes it NaN). -/
noncomputable def transform (m : Moments) (x : ℝ) : Option ℝ :=
  let y : Option ℝ := if m.isLog then (if 0 < x then some (Real.log x) else none) else some x
  y.bind fun y => if m.isClip then m.clip (m.linear y) else some (m.linear y)

/-- `inv_transform`, /repo/mlmc/moments.py:30-40. -/
noncomputable def invTransform (m : Moments) (r : ℝ) : ℝ := if m.isLog then Real.exp (m.invLinear r) else m.invLinear r

/-- `__eq__`, /repo/mlmc/moments.py:41-49, of two objects of the three families. -/
def Eq (m m' : Moments) : Prop :=
  m.family = m'.family ∧ m.size = m'.size ∧ m.domain = m'.domain ∧ m.isLog = m'.isLog ∧ m.isClip = m'.isClip

/-- `change_size`, /repo/mlmc/moments.py:51-56: the arguments are passed by position, `_is_log` as `ref_domain`, `_is_clip` as `log`. -/
noncomputable def changeSize (m : Moments) (size : Nat) : Except PyErr Moments :=
  construct m.family size m.domain (.bool m.isLog) m.isClip true

end Moments

/-- Columns of `polyvander`: `v[0] = 1`, `v[i] = v[i-1] * x`.  Used in /repo/mlmc/moments.py:125. -/
def pow (x : ℝ) : Nat → ℝ
  | 0 => 1
  | n + 1 => pow x n * x

/-- Columns of `legvander`: `v[0] = 1`, `v[1] = x`, `v[i] = (v[i-1] * x * (2 i - 1) - v[i-2] * (i - 1)) / i`.  Used in
/repo/mlmc/moments.py:193-198. -/
noncomputable def leg (x : ℝ) : Nat → ℝ
  | 0 => 1
  | 1 => x
  | n + 2 => (leg x (n + 1) * x * (2 * (n + 2) - 1) - leg x n * (n + 1)) / (n + 2)

/-- Columns of `Fourier._eval_all`, /repo/mlmc/moments.py:148-163: `cos(k t)` in column `2 k - 1`, `sin(k t)` in column `2 k`. -/
noncomputable def four (t : ℝ) (i : Nat) : ℝ :=
  if i = 0 then 1 else if i % 2 = 1 then Real.cos (((i + 1) / 2 : Nat) * t) else Real.sin ((i / 2 : Nat) * t)

/-- Column of a family, /repo/mlmc/moments.py:122-125, 145-163, 195-197. -/
noncomputable def col : Family → ℝ → Nat → ℝ
  | .monomial => pow
  | .fourier => four
  | .legendre => leg

namespace Moments

/-- `_eval_all`, /repo/mlmc/moments.py:121-125, 145-163, 196-198.  The column 0 of `polyvander` and `legvander` is `0 * x + 1`, NaN for NaN; the
one of the Fourier functions is 1.  Degree -1 is a `ValueError`; `Fourier` with size 0 fails when column 0 is set. -/
noncomputable def evalAll (m : Moments) (x : ℝ) (size : Nat) : Except PyErr (List (Option ℝ)) :=
  if size = 0 then (if m.family = .fourier then .error .indexError else .error .valueError) else
  match m.transform x with
  | some t => .ok ((List.range size).map fun i => some (col m.family t i))
  | none => .ok ((List.range size).map fun i => if m.family = .fourier ∧ i = 0 then some 1 else none)

/-- `eval`, /repo/mlmc/moments.py:78-79 (Legendre: the last column of `i + 1`), 127-129, 165-171.  `nan ** 0` is 1. -/
noncomputable def eval (m : Moments) (i : Nat) (x : ℝ) : Except PyErr (Option ℝ) :=
  match m.family with
  | .legendre => (m.evalAll x (i + 1)).map fun row => row.getLastD none
  | .monomial => .ok (if i = 0 then some 1 else (m.transform x).map fun t => t ^ i)
  | .fourier => .ok (if i = 0 then some 1 else
      if i % 2 = 1 then (m.transform x).map fun t => Real.sin (((i : ℝ) - 1) / 2 * t) else (m.transform x).map fun t => Real.cos ((i : ℝ) / 2 * t))

/-- `eval_single_moment`, /repo/mlmc/moments.py:81-88. -/
noncomputable def evalSingle (m : Moments) (i : Nat) (x : ℝ) : Except PyErr (Option ℝ) :=
  (m.evalAll x (i + 1)).map fun row => row.getD i none

end Moments

/-- `diff_mat`, /repo/mlmc/moments.py:185-187: row `n` is `2 n + 1` in columns `n + 1, n + 3, ...` (the last row is zero). -/
def diffMat (size n m : Nat) : ℝ := if n + 1 < size ∧ n < m ∧ (m - (n + 1)) % 2 = 0 then 2 * n + 1 else 0

/-- `diff2_mat`, /repo/mlmc/moments.py:188. -/
noncomputable def diff2Mat (size n m : Nat) : ℝ := ∑ k ∈ Finset.range size, diffMat size n k * diffMat size k m

namespace Moments

/-- `P_n @ mat`, /repo/mlmc/moments.py:221-229: the number of columns of `P_n` must be the size of the matrix. -/
noncomputable def evalMat (mat : Nat → Nat → Nat → ℝ) (m : Moments) (x : ℝ) (size : Nat) : Except PyErr (List (Option ℝ)) :=
  if size ≠ m.size then .error .valueError else
  .ok ((List.range m.size).map fun j => (m.transform x).map fun t => ∑ n ∈ Finset.range size, leg t n * mat m.size n j)

/-- `eval_diff`, /repo/mlmc/moments.py:100-103, 221-224; only Legendre moments have it.  The size must be positive (`legvander`). -/
noncomputable def evalDiff (m : Moments) (x : ℝ) (size : Nat) : Except PyErr (List (Option ℝ)) :=
  if m.family = .legendre then m.evalMat diffMat x size else .error .attributeError

/-- `eval_diff2`, /repo/mlmc/moments.py:105-108, 226-229. -/
noncomputable def evalDiff2 (m : Moments) (x : ℝ) (size : Nat) : Except PyErr (List (Option ℝ)) :=
  if m.family = .legendre then m.evalMat diff2Mat x size else .error .attributeError

end Moments

/-- Objects of the classes: the families and `TransformedMoments`, whose matrix has shape `(n, m)`. /repo/mlmc/moments.py:232-247. -/
inductive Obj
  | base (m : Moments)
  | trans (origin : Obj) (n m : Nat) (A : Fin n → Fin m → ℝ)

namespace Obj

/-- The attribute `size`, /repo/mlmc/moments.py:11, 233-247. -/
def size : Obj → Nat
  | base m => m.size
  | trans _ n _ _ => n

/-- `TransformedMoments.__init__`, /repo/mlmc/moments.py:233-247. -/
def mkTrans (origin : Obj) (n m : Nat) (A : Fin n → Fin m → ℝ) : Except PyErr Obj :=
  if m = origin.size then .ok (.trans origin n m A) else .error .assertionError

/-- A row of `np.matmul(orig_moments, transform.T)`; NaN spreads to all columns, also with zero coefficients. /repo/mlmc/moments.py:256-259. -/
noncomputable def combine {n m : Nat} (A : Fin n → Fin m → ℝ) (orig : List (Option ℝ)) : List (Option ℝ) :=
  List.ofFn fun i => if none ∈ orig then none else some (∑ j : Fin m, (orig.getD j.val none).getD 0 * A i j)

/-- `_eval_all`, /repo/mlmc/moments.py:255-258. -/
noncomputable def evalAll : Obj → ℝ → Nat → Except PyErr (List (Option ℝ))
  | base m, x, size => m.evalAll x size
  | trans o _ _ A, x, size => (o.evalAll x o.size).map fun row => (combine A row).take size

/-- `eval`, /repo/mlmc/moments.py:78-79: the last column, of `i + 1` columns. -/
noncomputable def eval : Obj → Nat → ℝ → Except PyErr (Option ℝ)
  | base m, i, x => m.eval i x
  | trans o n m A, i, x => (evalAll (trans o n m A) x (i + 1)).bind fun row => match row.getLast? with | some v => .ok v | none => .error .indexError

/-- `_eval_diff`, /repo/mlmc/moments.py:265-268. -/
noncomputable def evalDiff : Obj → ℝ → Nat → Except PyErr (List (Option ℝ))
  | base m, x, size => m.evalDiff x size
  | trans o _ _ A, x, size => (o.evalDiff x o.size).map fun row => (combine A row).take size

/-- `_eval_diff2`, /repo/mlmc/moments.py:270-273. -/
noncomputable def evalDiff2 : Obj → ℝ → Nat → Except PyErr (List (Option ℝ))
  | base m, x, size => m.evalDiff2 x size
  | trans o _ _ A, x, size => (o.evalDiff2 x o.size).map fun row => (combine A row).take size

/-- `__eq__`, /repo/mlmc/moments.py:41-49, 249-253. -/
def Equal : Obj → Obj → Prop
  | base m, base m' => m.Eq m'
  | trans o n m A, trans o' n' m' A' => n = n' ∧ o.Equal o' ∧ ∃ h : n = n' ∧ m = m', ∀ i j, A i j = A' (Fin.cast h.1 i) (Fin.cast h.2 j)
  | _, _ => False

/-- `change_size`, /repo/mlmc/moments.py:51-56; a `TransformedMoments` has no attribute `_is_log`. -/
noncomputable def changeSize : Obj → Nat → Except PyErr Moments
  | base m, size => m.changeSize size
  | trans .., _ => .error .attributeError

end Obj

end MLMC.Mom
