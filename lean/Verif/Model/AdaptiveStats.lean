import Verif.Model.Adaptive
import Verif.Model.Regression
import Verif.Model.Allocation
import Verif.Model.ConstructDensity
/-
The estimates in the documented loop: /repo/docs/source/examples_samples_scheduling.rst:118-122, `Estimate.estimate_diff_vars_regression` (/repo/mlmc/estimator.py:55-86) on the HDF
storage of a program and `estimate_n_samples_for_target_variance` (/repo/mlmc/estimator.py:366-385).  Floating point numbers are real numbers, NaN is `none`.
-/
namespace MLMC
variable {C : Type}

/-- `estimate_diff_vars_regression(sampler._n_scheduled_samples)` for a scalar quantity, /repo/mlmc/estimator.py:55-86; `steps` are the parameters of the levels, `c` the chunk lengths of
the file, `o` numbers the quantity of moments.  A level with fewer than two used samples has infinite variances; the assertion of line 92 then fails (with three or more levels the
regression may raise something else before).  The variances of quantities that are not scalar have more than two axes, and unpacking their shape (line 105) raises. -/
noncomputable def diffVarsRegression {n : Nat} (lstsq : Reg.LstSq) (steps : Fin (n + 1) → ℝ) (c : Nat → Nat) (sid o : Nat) (fn : MomentFn (Option ℝ)) (q : Quantity (Option ℝ))
    (p : Prog (Option ℝ) C) : Except PyErr ((Fin (n + 1) → Fin (fn.size - 1 + 1) → ℝ) × (Fin (n + 1) → ℝ)) :=
  match q.qtype with
  | .scalar =>
    (q.moments o fn true).bind fun r =>
    (estimateFromStorage (storedNumbers p.sys.store) c sid r).bind fun e =>
    open Classical in
    if ∃ (l : Fin (n + 1)) (m : Fin (fn.size - 1 + 1)), (e.lVars.getD l.val []).getD m.val none = none then .error .assertionError else
    (Reg.all lstsq (fun l => p.sys.nSched.getD l.val 0) steps fun l m => ((e.lVars.getD l.val []).getD m.val none).getD 0).bind fun vars =>
    (getNOps p.sys.store).map fun ops => (vars, fun l => ((ops.getD l.val 0 : ℚ) : ℝ))
  | _ => .error .valueError

/-- The new estimate in the loop, /repo/docs/source/examples_samples_scheduling.rst:120-122.  (For a level with time 0 the code divides by zero; NaN and infinity become the smallest integer, which
the limit of line 383 makes 2, like the value 0 here.) -/
noncomputable def Prog.reestimate {n : Nat} (lstsq : Reg.LstSq) (steps : Fin (n + 1) → ℝ) (c : Nat → Nat) (sid o : Nat) (fn : MomentFn (Option ℝ)) (q : Quantity (Option ℝ)) (target : ℝ)
    (p : Prog (Option ℝ) C) : Except PyErr (List ℚ) :=
  (diffVarsRegression lstsq steps c sid o fn q p).map fun s => List.ofFn fun l => ((Alloc.nSamples target s.1 s.2 (n + 1) l : Nat) : ℚ)

end MLMC
