import Verif.Model.Pbs
import Verif.Model.Pool
/-
What a PBS job computes for a sample: the same `calculate_sample` as the other pools, with the stored seed.
-/
namespace MLMC
variable {Cfg K C : Type}

/-- /repo/mlmc/tool/pbs_job.py:172-185: `SamplingPool.calculate_sample` with the seed stored in the scheduled file; success
exactly if the error message is empty.  (The measured duration is not used.) -/
def pbsCompute (md5 : SampleId → List UInt8) (sim : PoolSim Cfg K C) (id : SampleId) (seed : Nat) :
    Except Msg (ResPart K × ResPart K) :=
  let c := calculateSample md5 sim id (some seed) 0
  match c.err, c.res with
  | [], some r => .ok r
  | e, _ => .error e

end MLMC
