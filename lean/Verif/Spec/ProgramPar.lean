import Verif.Spec.Program
import Verif.Model.ProgramPar
/-
Specification of whole programs with parallel pools: the same requests as in `Spec.Program`.
-/
namespace MLMC
variable {Cfg K C : Type}

/-- The call without what the workers do meanwhile. -/
def ParOp.call : ParOp → ProgOp
  | .setInitial v => .setInitial v
  | .setTarget v => .setTarget v
  | .ask timeout rounds => .ask timeout (rounds.map (·.time))
  | .schedule timeout rounds _ => .schedule timeout (rounds.map (·.time))
  | .renew _ => .renew
  | .pause _ => .ask (some 0) []

/-- Vectors have one entry for each of `n` levels. -/
def ParOp.Proper (n : Nat) : ParOp → Prop
  | .setInitial v => v.length = n
  | .setTarget v => v.length ≤ n
  | _ => True

/-- The level simulations as the sampler creates them. -/
def ParEnv.Proper (env : ParEnv Cfg K C) : Prop := ∀ (l : Nat) (sim : PoolSim Cfg K C), env.sims[l]? = some sim → sim.level = l

end MLMC
