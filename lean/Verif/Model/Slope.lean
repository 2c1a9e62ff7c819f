import Verif.Model.Orthogonal
import Verif.Model.Quantity
import Mathlib.Analysis.SpecialFunctions.Log.Basic
/-
The automatic threshold of the eigenvalues of a covariance matrix: /repo/mlmc/tool/simple_distribution.py:538-609 and 779-782.

Numbers are real (no rounding, no infinities): a residual is always smaller than the initial `np.inf`.  `np.polyfit` is an argument.  The logarithm of a number that is not positive (NaN or
`-inf` in the code) has no meaning in the model; theorems are about increasing sequences whose last number is positive.
-/
namespace MLMC.Slope

/-- `np.polyfit(X, Y, deg=1, full=1)`, /repo/mlmc/tool/simple_distribution.py:549: slope, intercept and the sum of squared residuals (the other results are not used). -/
abbrev Polyfit := List ℤ → List ℝ → ℝ × ℝ × ℝ

/-- A found window `a:b` and the line fitted to it (slope, intercept), /repo/mlmc/tool/simple_distribution.py:554. -/
structure Window where
  a : Nat
  b : Nat
  slope : ℝ
  intercept : ℝ

/-- `values[a:b]` for `0 ≤ a ≤ b`, /repo/mlmc/tool/simple_distribution.py:545. -/
def slice (values : List ℝ) (a b : Nat) : List ℝ := (values.take b).drop a

/-- `np.arange(a, b)`, /repo/mlmc/tool/simple_distribution.py:547. -/
def arange (a b : Nat) : List ℤ := (List.range (b - a)).map fun i => ((a + i : Nat) : ℤ)

open Classical in
/-- The body of the two loops, /repo/mlmc/tool/simple_distribution.py:543-555.  The best window so far with its value. -/
noncomputable def tryWindow (pf : Polyfit) (values : List ℝ) (best : Option (Window × ℝ)) (ab : ℤ × ℤ) : Option (Window × ℝ) :=
  if 0 ≤ ab.1 ∧ ab.1 + 2 < ab.2 ∧ ab.2 < values.length then
    let a := ab.1.toNat
    let b := ab.2.toNat
    let r := pf (arange a b) (slice values a b)
    let v := r.2.2 / ((b : ℝ) - a) ^ 2
    match best with
    | none => some (⟨a, b, r.1, r.2.1⟩, v)
    | some (w, v0) => if v < v0 then some (⟨a, b, r.1, r.2.1⟩, v) else some (w, v0)
  else best

/-- `best_fit_all`, /repo/mlmc/tool/simple_distribution.py:538-556.  `none`: the result `None`. -/
noncomputable def bestFitAll (pf : Polyfit) (values : List ℝ) (ra rb : List ℤ) : Option Window :=
  ((ra.flatMap fun a => rb.map fun b => (a, b)).foldl (tryWindow pf values) none).map Prod.fst

/-- `np.mean(values[:end].reshape((-1, 2)), axis=1)`, /repo/mlmc/tool/simple_distribution.py:570-571: averages of pairs, an odd last value is left out. -/
noncomputable def averages : List ℝ → List ℝ
  | x :: y :: l => (x + y) / 2 :: averages l
  | _ => []

theorem averages_length : ∀ l : List ℝ, (averages l).length = l.length / 2
  | [] => rfl
  | [_] => by simp [averages]
  | x :: y :: l => by rw [averages, List.length_cons, averages_length l]; simp only [List.length_cons]; omega

/-- `best_p1_fit`, /repo/mlmc/tool/simple_distribution.py:560-580.  Unpacking `None` (line 572) raises TypeError. -/
noncomputable def bestP1Fit (pf : Polyfit) (values : List ℝ) : Except PyErr (Option Window) :=
  if 12 < values.length then
    match bestP1Fit pf (averages values) with
    | .error e => .error e
    | .ok none => .error .typeError
    | .ok (some w) =>
      let a : ℤ := 2 * w.a
      let b : ℤ := 2 * w.b
      .ok (bestFitAll pf values [a - 1, a, a + 1] [b - 1, b, b + 1])
  else
    let r : List ℤ := (List.range values.length).map Int.ofNat
    .ok (bestFitAll pf values r r)
termination_by values.length
decreasing_by rw [averages_length]; omega

open Classical in
/-- `np.argmax(values > c)`: the first such position, 0 if there is none.  /repo/mlmc/tool/simple_distribution.py:597, 782. -/
noncomputable def firstAbove (c : ℝ) (values : List ℝ) : Nat := (values.findIdx? fun x => decide (c < x)).getD 0

/-- `detect_treshold_slope_change(values, log)`, /repo/mlmc/tool/simple_distribution.py:585-609. -/
noncomputable def detect (pf : Polyfit) (values : List ℝ) (log : Bool) : Except PyErr (Nat × List ℝ) :=
  let first := if log then firstAbove 0 values else 0
  let values := if log then values.take first ++ (values.drop first).map Real.log else values
  match bestP1Fit pf (values.drop first) with
  | .error e => .error e
  | .ok none => .error .typeError
  | .ok (some w) =>
    let threshold := w.a + first
    let line : List ℝ := (List.range threshold).map fun i : Nat => w.slope * ((i : ℝ) - first) + w.intercept
    let mod := line ++ values.drop threshold
    .ok (threshold, if log then mod.map Real.exp else mod)

open Classical in
/-- The threshold for `tol = None`, /repo/mlmc/tool/simple_distribution.py:779-782: the first eigenvalue larger than the first modified one. -/
noncomputable def autoThreshold (pf : Polyfit) (ev : List ℝ) : Except PyErr Nat :=
  match detect pf ev true with
  | .error e => .error e
  | .ok (_, fixed) =>
    match fixed with
    | [] => .error .indexError
    | f :: _ => .ok ((ev.findIdx? fun x => decide (0 < x - f)).getD 0)

variable {n : Nat}

/-- `construct_ortogonal_moments(moments, cov)` with the default `tol=None` may return the transformation `L`, with the eigenvalues `ev` and the threshold `th` (its `info`).  /repo/mlmc/tool/simple_distribution.py:756-841.  The
last part of the code is the same as with a given tolerance. -/
def ConstructsAuto (pf : Polyfit) (cov : Matrix (Fin (n + 1)) (Fin (n + 1)) ℝ) (ev : Fin (n + 1) → ℝ) (th : Fin (n + 1)) (L : Matrix (Fin (Ortho.kept th)) (Fin (n + 1)) ℝ) : Prop :=
  ∃ V R Q, Ortho.IsEigh (Ortho.centered cov) ev V ∧ autoThreshold pf (List.ofFn ev) = .ok th.val ∧ Ortho.IsRQ (Ortho.icovSqrtT cov ev V th) R Q ∧
    L = Ortho.transform R (by unfold Ortho.kept; omega)

/-- `construct_ortogonal_moments(moments, cov)` raises `e` while it determines the threshold.  /repo/mlmc/tool/simple_distribution.py:779-782. -/
def RaisesAuto (pf : Polyfit) (cov : Matrix (Fin (n + 1)) (Fin (n + 1)) ℝ) (ev : Fin (n + 1) → ℝ) (e : PyErr) : Prop :=
  ∃ V, Ortho.IsEigh (Ortho.centered cov) ev V ∧ autoThreshold pf (List.ofFn ev) = .error e
end MLMC.Slope
