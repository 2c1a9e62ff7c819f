import Verif.Model.Storage
import Mathlib.Algebra.Order.Floor.Ring
import Mathlib.Data.Rat.Floor
import Mathlib.Analysis.SpecialFunctions.Log.Basic
import Mathlib.Analysis.Real.Sqrt
/-
The fit in stages of `Distribution.estimate_density_minimize`, /repo/mlmc/tool/distribution.py:85-181, 216-249.
The minimization of one stage (`sc.optimize.minimize`) is an argument; the functional it minimizes is in `Verif.Model.DensityFit`.  Numbers are rationals
and reals; an infinite or undefined number is `none`.
-/
namespace MLMC.Staged

/-- Python's `round`: to the nearest integer, halves to the even one. Used in /repo/mlmc/tool/distribution.py:106. -/
def pyRound (x : ℚ) : ℤ :=
  if x - ⌊x⌋ < 1 / 2 then ⌊x⌋ else if 1 / 2 < x - ⌊x⌋ then ⌊x⌋ + 1 else if ⌊x⌋ % 2 = 0 then ⌊x⌋ else ⌊x⌋ + 1

/-- `odd_size`, /repo/mlmc/tool/distribution.py:106. -/
def oddSize (size : ℚ) : Nat := (2 * pyRound ((size - 1) / 2) + 1).toNat

/-- The loop, /repo/mlmc/tool/distribution.py:104-109, with the list in reversed order (line 109).  `fuel` bounds the number of rounds
(`2 * size` is enough). -/
def sizeLoop : Nat → ℚ → List Nat → List Nat
  | 0, _, acc => acc
  | fuel + 1, size, acc =>
    if 4 < size then
      sizeLoop fuel (size / (6 / 5)) (if acc.head? = some (oddSize (size / (6 / 5))) then acc else oddSize (size / (6 / 5)) :: acc)
    else acc

/-- `sizes`, /repo/mlmc/tool/distribution.py:98-109, for `n` moments. -/
def sizes (n : Nat) : List Nat := if n ≤ 5 then [n] else sizeLoop (2 * n) n [n]

/-- `tolerances`, /repo/mlmc/tool/distribution.py:117-123; `initErr` is the norm of the gradient at the start. -/
noncomputable def tolerances (tol initErr : ℝ) (ss : List Nat) : List ℝ :=
  if ss.length = 1 then [tol] else
  ss.map fun s : Nat =>
    let t : ℝ := ((s : ℝ) - (ss.headD 0 : ℝ)) / ((ss.getLastD 0 : ℝ) - (ss.headD 0 : ℝ))
    Real.exp (Real.log tol * t + Real.log (max tol (initErr / 10)) * (1 - t))

/-- `np.linalg.norm`, /repo/mlmc/tool/distribution.py:236. -/
noncomputable def norm (m : List ℝ) : ℝ := Real.sqrt (m.map fun x => x ^ 2).sum

/-- Multipliers, `_last_solved_multipliers` and `_stab_penalty`: /repo/mlmc/tool/distribution.py:234-241. -/
structure St where
  mult : List ℝ
  last : List ℝ
  stab : Option ℝ

/-- `extend_size`, /repo/mlmc/tool/distribution.py:234-249: a division by the norm zero gives an infinite or undefined penalty; shorter sizes do not take the
multipliers (`ValueError`). -/
noncomputable def extendSize (reg : ℝ) (s : St) (new : Nat) : Except PyErr St :=
  if new < s.mult.length then .error .valueError else
  .ok ⟨s.mult ++ List.replicate (new - s.mult.length) 0, s.mult, open Classical in if norm s.mult = 0 then none else some (reg / norm s.mult)⟩

/-- `_initialize_params`, /repo/mlmc/tool/distribution.py:216-231, for the domain `(a, b)` and `_moment_errs = errs`; returns the multipliers and the new
error of the zeroth moment.  `np.min` of nothing raises `ValueError`. -/
noncomputable def initParams (a b : ℝ) (errs : List ℝ) (size : Nat) (tol : Option ℝ) : Except PyErr (List ℝ × ℝ) :=
  match tol with
  | none => .error .assertionError
  | some _ => match errs.tail with
    | [] => .error .valueError
    | e :: es => .ok ((-Real.log (1 / (b - a)) * (es.foldl min e / 8)) :: List.replicate (size - 1) 0, es.foldl min e / 8)

/-- What the minimization of one stage is given: number of moments, tolerance, start, and the stabilization.
/repo/mlmc/tool/distribution.py:127-140. -/
structure Problem where
  size : Nat
  tol : ℝ
  start : List ℝ
  last : List ℝ
  stab : Option ℝ

/-- The loop over the stages, /repo/mlmc/tool/distribution.py:126-145: the problems that were solved with their solutions, and the multipliers at the end. -/
noncomputable def stages (opt : Problem → List ℝ) (reg : ℝ) : List (Nat × ℝ) → St → Except PyErr (List (Problem × List ℝ) × List ℝ)
  | [], s => .ok ([], s.mult)
  | (size, tol) :: rest, s =>
    (extendSize reg s size).bind fun s =>
      (stages opt reg rest { s with mult := opt ⟨size, tol, s.mult, s.last, s.stab⟩ }).map fun r =>
        ((⟨size, tol, s.mult, s.last, s.stab⟩, opt ⟨size, tol, s.mult, s.last, s.stab⟩) :: r.1, r.2)

/-- `estimate_density_minimize` up to the normalization, /repo/mlmc/tool/distribution.py:85-145 (the normalization is `fixNormalization'` of
`Verif.Model.Distribution`): `n` moments with errors `errs`, on the domain `(a, b)`. -/
noncomputable def estimate (opt : Problem → List ℝ) (initErr a b : ℝ) (errs : List ℝ) (n : Nat) (tol reg : ℝ) :
    Except PyErr (List (Problem × List ℝ) × List ℝ) :=
  (initParams a b errs ((sizes n).headD 0) (some tol)).bind fun i =>
  (extendSize reg ⟨i.1, [], none⟩ ((sizes n).headD 0)).bind fun s =>
  stages opt reg ((sizes n).zip (tolerances tol initErr (sizes n))) s

/-- `estimate_density`, /repo/mlmc/tool/distribution.py:159-181, up to the solver: the tolerance is passed as the size, and no tolerance. -/
noncomputable def estimateRoot (a b : ℝ) (errs : List ℝ) (tolAsSize : Nat) : Except PyErr (List ℝ × ℝ) := initParams a b errs tolAsSize none

end MLMC.Staged
