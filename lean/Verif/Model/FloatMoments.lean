import Verif.Model.FloatEstimate
/-
The transformation of values by moment functions in floating-point arithmetic: /repo/mlmc/moments.py:10-40, 58-70, with the rounding of every operation.

Numbers are rational; the bounds of the domain and of the reference domain and the values are arguments; there is no overflow or underflow.  `np.log` is an arbitrary function.
-/
namespace MLMC.Fl

/-- What a moment object knows for its transformation: rounding, bounds of the reference domain, scale and shift, and the logarithm (or the identity).
/repo/mlmc/moments.py:10-28. -/
structure Transform where
  rnd : ℚ → ℚ
  r0 : ℚ
  r1 : ℚ
  scale : ℚ
  shift : ℚ
  log : Option (ℚ → ℚ)

/-- The argument of `linear`: the value or its logarithm; the logarithm of a number that is not positive is NaN or minus infinity, both are NaN after `clip`.
/repo/mlmc/moments.py:16-19, 27-32. -/
def linArg (log : Option (ℚ → ℚ)) (x : ℚ) : Option ℚ :=
  match log with
  | none => some x
  | some f => if 0 < x then some (f x) else none

/-- The constructor with `safe_eval=True`; `tiny` is the float nearest to `1e-15`.  /repo/mlmc/moments.py:10-28. -/
def Transform.new (rnd : ℚ → ℚ) (tiny r0 r1 : ℚ) (log : Option (ℚ → ℚ)) (lo hi : ℚ) : Except PyErr Transform :=
  match linArg log lo, linArg log hi with
  | some a, some b =>
    let diff := rnd (b - a)
    if ¬ 0 < diff then .error .assertionError else
    let diff := max diff tiny
    .ok ⟨rnd, r0, r1, rnd (rnd (r1 - r0) / diff), a, log⟩
  | _, _ => .error .assertionError

/-- `linear`.  /repo/mlmc/moments.py:69-70. -/
def Transform.linear (t : Transform) (y : ℚ) : ℚ := t.rnd (t.rnd (t.rnd (y - t.shift) * t.scale) + t.r0)

/-- `clip`: NaN outside of the reference domain.  /repo/mlmc/moments.py:58-67. -/
def Transform.clip (t : Transform) (y : ℚ) : Option ℚ := if y < t.r0 ∨ t.r1 < y then none else some y

/-- `transform` with `safe_eval=True`.  /repo/mlmc/moments.py:27-32. -/
def Transform.apply (t : Transform) (x : ℚ) : Option ℚ := (linArg t.log x).bind fun y => t.clip (t.linear y)

/-- `1e-15` as a float.  /repo/mlmc/moments.py:23. -/
def tiny : ℚ := 2535301200456459 / 2535301200456458802993406410752

/-- `2 * np.pi` as a float.  /repo/mlmc/moments.py:139. -/
def twoPi : ℚ := 884279719003555 / 140737488355328

end MLMC.Fl
