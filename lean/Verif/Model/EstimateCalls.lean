import Verif.Model.Estimator
import Verif.Model.Subsample
import Verif.Model.VarOfVar
/-
An `Estimate` object over a sequence of calls: /repo/mlmc/estimator.py:11-202.

`Model.Estimator` gives the answers of single methods.  Here the attributes the methods leave behind are added: `_moments_fn`, which
`est_bootstrap` replaces, `_n_created_samples` and `_saved_var_var` (C129).  The samples in the storage may change between the calls: each call gets
the present ones.  The attributes set at the end of `est_bootstrap` (lines 194-202) are read by plots only and left out.
-/
namespace MLMC
variable {F : Type}

/-- The samples a call finds in the storage: number of levels and chunks, as in `Model.Estimator`. /repo/mlmc/quantity/quantity_estimate.py:36-43. -/
structure EstData (F : Type) where
  nLevels : Nat
  chunks : List (Nat × (Nat → Except PyErr (Arr (Option F))))

/-- One round of the bootstrap: the evaluation at construction, object numbers, draws and the samples. /repo/mlmc/estimator.py:185-188. -/
structure EstRound (F : Type) where
  env0 : Nat → Except PyErr (Arr (Option F))
  oids : Nat → Nat
  draw : Arr (Option F) → SubParams × List Nat
  data : EstData F

/-- Calls on an `Estimate`, /repo/mlmc/estimator.py:24-202. -/
inductive EstCall (F : Type)
  /-- `estimate.quantity = q` -/
  | setQuantity (q : Quantity (Option F))
  | moments (o : Nat) (fn : Option (MomentFn (Option F))) (data : EstData F)
  | covariance (o : Nat) (fn : Option (MomentFn (Option F))) (data : EstData F)
  | diffVars (o : Nat) (fn : Option (MomentFn (Option F))) (data : EstData F)
  /-- `estimate_diff_vars_regression(n, fn, raw_vars)`; `n` is the list object with the numbers of samples, `steps` the level parameters in the storage -/
  | regression (o n : Nat) (fn : Option (MomentFn (Option F))) (raw : Option (List (List (Option F)))) (steps : List ℝ) (data : EstData F)
  | bootstrap (fn : Option (MomentFn (Option F))) (rounds : List (EstRound F))

/-- What a call returns. /repo/mlmc/estimator.py:42, 54, 75, 86, 189. -/
inductive EstAns (F : Type)
  | nothing
  | meanVar (mean var : List (Option F))
  | levelVars (vars : List (List (Option F))) (n : List Nat)
  | regVars (vars : List (List (Option ℝ)))
  | boot (means : List (QuantityMean F))

/-- An `Estimate` with its attributes. /repo/mlmc/estimator.py:15-18, 65, 168. -/
structure EstObj (F : Type) where
  est : Estimator F
  nCreated : Option Nat := none
  saved : Option (Nat × List (Option ℝ)) := none

/-- `Estimate.__init__`, /repo/mlmc/estimator.py:15-18. -/
def EstObj.new (q : Quantity (Option F)) (fn : Option (MomentFn (Option F))) : EstObj F := { est := ⟨q, fn⟩ }

/-- The regression of one column, lines 109-134: `fit steps column` is the fitted column (`Model.Regression`), with the errors of logarithms and of
`np.linalg.lstsq`; before it the variances of variances are computed from the attribute `_n_created_samples` (and not used, line 113).
/repo/mlmc/estimator.py:95-134, 145-169. -/
noncomputable def regColumn (heap : Nat → List Nat) (fit : List ℝ → List (Option ℝ) → Except PyErr (List (Option ℝ))) (n : Nat) (steps : List ℝ)
    (col : List (Option ℝ)) (saved : Option (Nat × List (Option ℝ))) : Except PyErr (List (Option ℝ)) × Option (Nat × List (Option ℝ)) :=
  open Classical in
  if col.length < 3 ∨ (∀ x ∈ col, ∃ y : ℝ, x = some y ∧ |y| ≤ 1 / 10 ^ 8) then (.ok col, saved) else
  match VarVar.call heap n saved with
  | .error e => (.error e, saved)
  | .ok (_, saved') => (fit steps col, saved')

/-- The loop over the moments, /repo/mlmc/estimator.py:88-91. -/
noncomputable def regColumns (heap : Nat → List Nat) (fit : List ℝ → List (Option ℝ) → Except PyErr (List (Option ℝ))) (n : Nat) (steps : List ℝ) :
    List (List (Option ℝ)) → Option (Nat × List (Option ℝ)) → Except PyErr (List (List (Option ℝ))) × Option (Nat × List (Option ℝ))
  | [], saved => (.ok [], saved)
  | col :: cols, saved =>
    match regColumn heap fit n steps col saved with
    | (.error e, saved') => (.error e, saved')
    | (.ok c, saved') =>
      match regColumns heap fit n steps cols saved' with
      | (.error e, saved'') => (.error e, saved'')
      | (.ok cs, saved'') => (.ok (c :: cs), saved'')

/-- The columns of an array given by its rows. /repo/mlmc/estimator.py:89-91. -/
def columnsOf {K : Type} (rows : List (List (Option K))) : List (List (Option K)) :=
  (List.range (rows.headD []).length).map fun m => rows.map fun r => r.getD m none

/-- `_all_moments_variance_regression`, /repo/mlmc/estimator.py:87-93; the answer is given by columns. -/
noncomputable def regAll (heap : Nat → List Nat) (fit : List ℝ → List (Option ℝ) → Except PyErr (List (Option ℝ))) (n : Nat) (steps : List ℝ)
    (raw : List (List (Option ℝ))) (saved : Option (Nat × List (Option ℝ))) : Except PyErr (List (List (Option ℝ))) × Option (Nat × List (Option ℝ)) :=
  open Classical in
  match columnsOf raw with
  | [] => (.error .indexError, saved)
  | c0 :: cols =>
    match regColumns heap fit n steps cols saved with
    | (.error e, saved') => (.error e, saved')
    | (.ok cs, saved') => (if ∀ x ∈ c0, ∃ y : ℝ, x = some y ∧ |y| ≤ 1 / 10 ^ 8 then .ok (c0 :: cs) else .error .assertionError, saved')

/-- The operation of `moments` with the moments on the surface, /repo/mlmc/quantity/quantity_estimate.py:105-110. -/
def surfaceMoments (fn : MomentFn (Option F)) : List (QVal (Option F)) → Except PyErr (QVal (Option F)) :=
  unArr fun a => .ok ⟨a.n, a.p, (List.range fn.size).flatMap fun i => a.rows.map fun r j k => fn.ev i (r j k)⟩

/-- One round of the bootstrap with the moment functions of the object, /repo/mlmc/estimator.py:186-188. -/
def Estimator.bootRound [Field F] (e : Estimator F) (r : EstRound F) : Except PyErr (QuantityMean F) :=
  match e.momentsFn with
  | none => .error .attributeError
  | some f => bootstrapRound r.env0 r.oids e.quantity r.draw (.array [f.size] e.quantity.qtype) (surfaceMoments f) r.data.nLevels r.data.chunks

/-- One call: the answer or the exception, and the object afterwards.  `real` takes the numbers of estimates to the real numbers of the regression.
/repo/mlmc/estimator.py:24-202. -/
noncomputable def EstObj.step [Field F] (real : F → ℝ) (heap : Nat → List Nat) (fit : List ℝ → List (Option ℝ) → Except PyErr (List (Option ℝ)))
    (x : EstObj F) : EstCall F → Except PyErr (EstAns F) × EstObj F
  | .setQuantity q => (.ok .nothing, { x with est := { x.est with quantity := q } })
  | .moments o fn d => ((x.est.estimateMoments o fn d.nLevels d.chunks).map fun r => .meanVar r.1 r.2, x)
  | .covariance o fn d => ((x.est.estimateCovariance o fn d.nLevels d.chunks).map fun r => .meanVar r.1 r.2, x)
  | .diffVars o fn d => ((x.est.estimateDiffVars o fn d.nLevels d.chunks).map fun r => .levelVars r.1 r.2, x)
  | .regression o n fn raw steps d =>
    let x := { x with nCreated := some n }
    let raws : Except PyErr (List (List (Option F))) := match raw with
      | some r => .ok r
      | none => (x.est.estimateDiffVars o (fn.or x.est.momentsFn) d.nLevels d.chunks).map fun r => r.1
    match raws with
    | .error e => (.error e, x)
    | .ok r =>
      let a := regAll heap fit (x.nCreated.getD 0) steps (r.map fun row => row.map fun y => y.map real) x.saved
      (a.1.map .regVars, { x with saved := a.2 })
  | .bootstrap fn rounds =>
    let x := { x with est := { x.est with momentsFn := fn.or x.est.momentsFn } }
    ((rounds.mapM x.est.bootRound).map .boot, x)

/-- The object after a sequence of calls; an exception is caught by the program. /repo/mlmc/estimator.py:11-202. -/
noncomputable def EstObj.run [Field F] (real : F → ℝ) (heap : Nat → List Nat) (fit : List ℝ → List (Option ℝ) → Except PyErr (List (Option ℝ)))
    (x : EstObj F) (calls : List (EstCall F)) : EstObj F := calls.foldl (fun y c => (y.step real heap fit c).2) x

end MLMC
