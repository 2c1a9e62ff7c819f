import Verif.Model.Moments
/-
Derivatives of moment functions of any degree: /repo/mlmc/moments.py:95-98, 199-219, 261-264.
-/
namespace MLMC.Mom

/-- `np.polynomial.legendre.legval(t, c)`, used in /repo/mlmc/moments.py:218: the sum of the Legendre polynomials with these coefficients. -/
noncomputable def legval (t : ℝ) (c : List ℝ) : ℝ := ∑ i ∈ Finset.range c.length, c.getD i 0 * leg t i

/-- One step of `np.polynomial.legendre.legder`, used in /repo/mlmc/moments.py:217: coefficient `n` is `2 n + 1` times the sum of the coefficients `n + 1, n + 3, ...`
(NumPy keeps this sum while it goes down). -/
noncomputable def legder1 (c : List ℝ) : List ℝ :=
  (List.range (c.length - 1)).map fun n => (2 * n + 1) * ∑ m ∈ Finset.range c.length, if n < m ∧ (m - (n + 1)) % 2 = 0 then c.getD m 0 else 0

/-- `np.polynomial.legendre.legder(c, degree)`, used in /repo/mlmc/moments.py:217; `[0]` if the degree is not smaller than the number of coefficients. -/
noncomputable def legder (c : List ℝ) (degree : Nat) : List ℝ :=
  if degree = 0 then c else if c.length ≤ degree then [0] else legder1^[degree] c

/-- The coefficients of moment `s`, /repo/mlmc/moments.py:211-215. -/
def unitCoef (s : Nat) : List ℝ := if s = 0 then [1] else List.replicate s 0 ++ [1]

/-- `eval_all_der`, /repo/mlmc/moments.py:95-98, 199-219; only Legendre moments have it.  `legval` of NaN is NaN, also of a constant. -/
noncomputable def Moments.evalAllDer (m : Moments) (x : ℝ) (size degree : Nat) : Except PyErr (List (Option ℝ)) :=
  if m.family = .legendre then
    match m.transform x with
    | some t => .ok ((List.range size).map fun s => some (legval t (legder (unitCoef s) degree)))
    | none => .ok ((List.range size).map fun _ => none)
  else .error .attributeError

/-- `TransformedMoments._eval_all_der`, /repo/mlmc/moments.py:261-264, and `eval_all_der` of the other classes. -/
noncomputable def Obj.evalAllDer : Obj → ℝ → Nat → Nat → Except PyErr (List (Option ℝ))
  | base m, x, size, degree => m.evalAllDer x size degree
  | trans o _ _ A, x, size, degree => (Obj.evalAllDer o x o.size degree).map fun row => (Obj.combine A row).take size

end MLMC.Mom
