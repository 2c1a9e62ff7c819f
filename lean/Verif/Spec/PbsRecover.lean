import Verif.Spec.PbsSessions
/-
Specification of what a new program on an old file and directory can find there.
-/
namespace MLMC
variable {Cfg K C S R : Type}

/-- The step empties the directory: a pool constructed without `debug`. -/
def PbsOp.empties : PbsOp S R → Bool
  | .restart false _ => true
  | _ => false

/-- The steps since the directory was last emptied. -/
def sinceEmptied (h : List (PbsOp S R)) : List (PbsOp S R) := (h.reverse.takeWhile fun o => !o.empties).reverse

/-- Number of the job that was last written with the sample since the directory was emptied. -/
def lastJobIn (env : PbsEnv Cfg K C) (h : List (PbsOp (PoolSim Cfg K C) (PairRes K))) (id : SampleId) : Option Nat :=
  lastJobWith (packagesIn env (sinceEmptied h)) id

/-- A job of this number has recorded a successful result of the sample since the directory was emptied. -/
def SuccIn (h : List (PbsOp (PoolSim Cfg K C) (PairRes K))) (j l : Nat) (id : SampleId) (v : PairRes K) : Prop :=
  JobAppend.succ l id v ∈ appendsOf j (sinceEmptied h)

end MLMC
