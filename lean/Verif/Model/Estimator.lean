import Verif.Model.Estimate
/-
The methods of `Estimate` that estimate moments: /repo/mlmc/estimator.py:15-86.  A quantity created by a call gets the object number `o`.
-/
namespace MLMC
variable {F : Type}

/-- An `Estimate` object, /repo/mlmc/estimator.py:15-30 (the storage is the one of the quantity: the chunks are arguments below). -/
structure Estimator (F : Type) where
  quantity : Quantity (Option F)
  momentsFn : Option (MomentFn (Option F))

namespace Estimator
variable [Field F]

/-- `estimate_moments`, /repo/mlmc/estimator.py:32-42: means and variances of the moments.  Without any moment functions `None.size` raises. -/
def estimateMoments (e : Estimator F) (o : Nat) (fn : Option (MomentFn (Option F))) (nLevels : Nat)
    (chunks : List (Nat × (Nat → Except PyErr (Arr (Option F))))) : Except PyErr (List (Option F) × List (Option F)) :=
  match fn.or e.momentsFn with
  | none => .error .attributeError
  | some fn => do
    let r ← e.quantity.moments o fn true
    let m ← estimateMean r nLevels chunks
    .ok (m.mean, m.var)

/-- `estimate_covariance`, /repo/mlmc/estimator.py:44-54. -/
def estimateCovariance (e : Estimator F) (o : Nat) (fn : Option (MomentFn (Option F))) (nLevels : Nat)
    (chunks : List (Nat × (Nat → Except PyErr (Arr (Option F))))) : Except PyErr (List (Option F) × List (Option F)) :=
  match fn.or e.momentsFn with
  | none => .error .attributeError
  | some fn => do
    let r ← e.quantity.covariance o fn true
    let m ← estimateMean r nLevels chunks
    .ok (m.mean, m.var)

/-- `estimate_diff_vars`, /repo/mlmc/estimator.py:77-86: level variances and numbers of samples.  The moment functions of the object are not used. -/
def estimateDiffVars (e : Estimator F) (o : Nat) (fn : Option (MomentFn (Option F))) (nLevels : Nat)
    (chunks : List (Nat × (Nat → Except PyErr (Arr (Option F))))) : Except PyErr (List (List (Option F)) × List Nat) :=
  match fn with
  | none => .error .attributeError
  | some fn => do
    let r ← e.quantity.moments o fn true
    let m ← estimateMean r nLevels chunks
    .ok (m.lVars, m.nSamples)

end Estimator

end MLMC
