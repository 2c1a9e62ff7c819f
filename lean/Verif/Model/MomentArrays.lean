import Verif.Model.MomentsDer
import Verif.Model.Constant
/-
Moment functions of whole arrays of values: /repo/mlmc/moments.py:75-108, 121-125, 145-163, 196-219, 255-264, and their use in
/repo/mlmc/quantity/quantity_estimate.py:96-119.  Floating point numbers are real numbers, NaN is `none`.
-/
namespace MLMC.Mom
open MLMC.Const

/-- `np.atleast_1d`, /repo/mlmc/moments.py:123, 147, 197, 207. -/
def atleast1 {K : Type} (a : ND K) : ND K := if a.shape = [] then ⟨[1], fun _ => a.get []⟩ else a

namespace Moments

/-- `transform` of a float, /repo/mlmc/moments.py:30-40: NaN stays NaN (`masked_outside` does not mask it). -/
noncomputable def transformF (m : Moments) (x : Option ℝ) : Option ℝ := x.bind m.transform

/-- `polyvander` and `legvander` of an array, /repo/mlmc/moments.py:125, 198: one more axis, filled value by value; column 0 is NaN for NaN. -/
noncomputable def vander (m : Moments) (a : ND (Option ℝ)) (size : Nat) : Except PyErr (ND (Option ℝ)) :=
  if size = 0 then .error .valueError else
  .ok ⟨a.shape ++ [size], fun ix => (m.transformF (a.get ix.dropLast)).map fun t => col m.family t (ix.getLastD 0)⟩

/-- `Fourier._eval_all` of an array, /repo/mlmc/moments.py:145-163.  `np.outer` (line 153) has one row for each value of the flattened array, `res`
(line 155) one row for each entry of the first axis; the assignments (lines 158-162) need equal numbers of rows.  (A single row would be repeated, but
then the first axis has one entry as well.)  So all axes but the first have length 1, or there are no values. -/
noncomputable def fourierAll (m : Moments) (a : ND (Option ℝ)) (size : Nat) : Except PyErr (ND (Option ℝ)) :=
  if size = 0 then .error .indexError else
  match a.shape with
  | [] => .error .other
  | d :: rest => if d * rest.prod ≠ d then .error .valueError else
    .ok ⟨[d, size], fun ix => let i := ix.getD 1 0
      let t := m.transformF (a.get (ix.getD 0 0 :: List.replicate rest.length 0))
      if i = 0 then some 1 else t.map fun t => four t i⟩

/-- `_eval_all` of an array, /repo/mlmc/moments.py:121-125, 145-163, 196-198. -/
noncomputable def evalArr (m : Moments) (a : ND (Option ℝ)) (size : Nat) : Except PyErr (ND (Option ℝ)) :=
  match m.family with
  | .fourier => m.fourierAll (atleast1 a) size
  | _ => m.vander (atleast1 a) size

/-- `legval(value, legder(coef, degree))` for moment `s`, /repo/mlmc/moments.py:210-218, of one value; NaN for NaN. -/
noncomputable def derAt (m : Moments) (degree s : Nat) (x : Option ℝ) : Option ℝ :=
  (m.transformF x).map fun t => legval t (legder (unitCoef s) degree)

/-- `Legendre._eval_all_der` of an array, /repo/mlmc/moments.py:199-219: `eval_values[:, s]` is the part of the result with second index `s`, to which
the derivatives of moment `s` at all values are assigned, with broadcasting.  `s` must be below the length of the second axis (`IndexError`).
Entries that are never assigned are uninitialised memory (NaN here). -/
noncomputable def derArr (m : Moments) (a : ND (Option ℝ)) (size degree : Nat) : Except PyErr (ND (Option ℝ)) :=
  let a := atleast1 a
  let shape := a.shape ++ [size]
  let target := shape.eraseIdx 1
  if size = 0 then .ok ⟨shape, fun _ => none⟩ else
  if shape.getD 1 0 = 0 then .error .indexError else
  if ¬ (List.zipWith (fun d e => d == e || d == 1) a.shape target).all id then .error .valueError else
  if shape.getD 1 0 < size then .error .indexError else
  .ok ⟨shape, fun ix => if ix.getD 1 0 < size then m.derAt degree (ix.getD 1 0) (a.get (bindex a.shape (ix.eraseIdx 1))) else none⟩

end Moments

namespace Obj

/-- `_eval_all` of an array, /repo/mlmc/moments.py:121-125, 145-163, 196-198, 255-258 (`np.matmul` acts on the last axis). -/
noncomputable def evalArr : Obj → ND (Option ℝ) → Nat → Except PyErr (ND (Option ℝ))
  | base m, a, size => m.evalArr a size
  | trans o n _ A, a, size => (o.evalArr a o.size).map fun z =>
    ⟨z.shape.dropLast ++ [min size n], fun ix =>
      (combine A ((List.range o.size).map fun j => z.get (ix.dropLast ++ [j]))).getD (ix.getLastD 0) none⟩

/-- `eval_single_moment` of an array, /repo/mlmc/moments.py:81-88: `[..., i]`; an `IndexError` without such a column. -/
noncomputable def singleArr (o : Obj) (i : Nat) (a : ND (Option ℝ)) : Except PyErr (ND (Option ℝ)) :=
  (o.evalArr a (i + 1)).bind fun z => if i < z.shape.getLastD 0 then .ok ⟨z.shape.dropLast, fun ix => z.get (ix ++ [i])⟩ else .error .indexError

/-- `z[:, -1]`, /repo/mlmc/moments.py:79. -/
def lastOfSecond {K : Type} (z : ND K) : Except PyErr (ND K) :=
  match z.shape with
  | d :: e :: rest => if e = 0 then .error .indexError else .ok ⟨d :: rest, fun ix => z.get (ix.take 1 ++ [e - 1] ++ ix.drop 1)⟩
  | _ => .error .indexError

/-- `eval` of an array as inherited by `Legendre` and `TransformedMoments`, /repo/mlmc/moments.py:78-79. -/
noncomputable def evalOfArr (o : Obj) (i : Nat) (a : ND (Option ℝ)) : Except PyErr (ND (Option ℝ)) := (o.evalArr a (i + 1)).bind lastOfSecond

/-- The operation of `moments(quantity, moments_fn, mom_at_bottom)`, /repo/mlmc/quantity/quantity_estimate.py:105-110: `transpose` needs four axes. -/
noncomputable def momentsOp (o : Obj) (bottom : Bool) (a : ND (Option ℝ)) : Except PyErr (ND (Option ℝ)) :=
  (o.evalArr a o.size).bind fun z => match z.shape with
  | [m, n, p, r] => .ok ⟨[m * r, n, p], fun ix =>
      let i := ix.getD 0 0
      let j := ix.getD 1 0
      let k := ix.getD 2 0
      if bottom then z.get [i / r, j, k, i % r] else z.get [i % m, j, k, i / m]⟩
  | _ => .error .valueError

end Obj

end MLMC.Mom
