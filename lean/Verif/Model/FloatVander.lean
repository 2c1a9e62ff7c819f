import Verif.Model.FloatMoments
/-
Values of the moment functions `Legendre` and `Monomial` in floating-point arithmetic: /repo/mlmc/moments.py:122-126, 183-185, with the rounding of every operation of NumPy's recurrences
(`legvander`, `polyvander`).
-/
namespace MLMC.Fl

/-- A column of `np.polynomial.legendre.legvander`: `v[i] = (v[i-1]*x*(2*i - 1) - v[i-2]*(i - 1))/i`.  /repo/mlmc/moments.py:185. -/
def legCol (rnd : ℚ → ℚ) (t : ℚ) : Nat → ℚ
  | 0 => 1
  | 1 => t
  | n + 2 => rnd (rnd (rnd (rnd (legCol rnd t (n + 1) * t) * (2 * (n + 2) - 1)) - rnd (legCol rnd t n * (n + 1))) / (n + 2))

/-- A column of `np.polynomial.polynomial.polyvander`: `v[i] = v[i-1]*x`.  /repo/mlmc/moments.py:126. -/
def powCol (rnd : ℚ → ℚ) (t : ℚ) : Nat → ℚ
  | 0 => 1
  | 1 => t
  | n + 2 => rnd (powCol rnd t (n + 1) * t)

/-- `_eval_all` for one value, with the columns `col`: a value outside of the domain gives a row of NaN (also in column 0, `x*0 + 1`); the degree -1 is refused.
/repo/mlmc/moments.py:122-126, 183-185. -/
def Transform.evalAll (t : Transform) (col : (ℚ → ℚ) → ℚ → Nat → ℚ) (x : ℚ) (size : Nat) : Except PyErr (List (Option ℚ)) :=
  if size = 0 then .error .valueError else .ok ((List.range size).map fun n => (t.apply x).map fun y => col t.rnd y n)

end MLMC.Fl
