import Verif.Model.Sampler
/-
`Sampler.renew_failed_samples` (/repo/mlmc/sampler.py:270-286) as a sequence of atomic effects, so that it can be
interrupted by a crash.  `Sys.renew` of `Verif.Model.Sampler` is the uninterrupted call.
-/
namespace MLMC
variable {V : Type}

/-- Atomic effects of `renew_failed_samples`. /repo/mlmc/sampler.py:270-286. -/
inductive RenewAct (V : Type)
  /-- line 283: `schedule_sample(sample_id, level_sim)` with the simulation of the sample's level -/
  | hand (level : Nat) (id : SampleId)
  /-- line 286: one file write of `clear_failed()` -/
  | write (op : FileOp V)

/-- Effect of one of them, /repo/mlmc/sampler.py:283-286. -/
def RenewAct.apply (a : RenewAct V) (s : Sys V) : Sys V :=
  match a with
  | .hand l id => { s with renewed := s.renewed ++ [(l, id)] }
  | .write op => { s with store := op.apply s.store }

/-- The effects in order, given what `failed_samples()` returned (line 275). /repo/mlmc/sampler.py:275-286. -/
def renewActs (failed : List (List SampleId)) (g : HdfLevels V) : List (RenewAct V) :=
  (failed.zipIdx.flatMap fun (ids, l) => ids.map fun i => .hand l i) ++ (clearFailedOps g).map .write

/-- The call killed after `k` effects (all of them for large `k`), followed by a restart. /repo/mlmc/sampler.py:270-286, 16-49. -/
def Sys.crashInRenew (s : Sys V) (k : Nat) : Sys V :=
  match hdfFailedSamples s.store with
  | .error _ => s.restart
  | .ok failed => (((renewActs failed s.store).take k).foldl (fun s a => a.apply s) s).restart

end MLMC
