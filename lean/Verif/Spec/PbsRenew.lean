import Verif.Spec.ProgramPbs
import Verif.Model.PbsRenew
/-
Specification of whole programs with PBS and `renew_failed_samples`.
-/
namespace MLMC
variable {Cfg K C : Type}

/-- The call without what the environment does meanwhile. -/
def PbsRenewOp.call' : PbsRenewOp K → ProgOp
  | .call o => o.call
  | .renew _ => .renew

/-- Vectors have one entry for each of `n` levels. -/
def PbsRenewOp.Proper (n : Nat) : PbsRenewOp K → Prop
  | .call o => o.Proper n
  | .renew _ => True

/-- In the program `p` no job is found dead after the moment of `p1`: whatever `qstat` reports as finished later ran to its end. -/
def NoJobDiesAfter (env : PbsEnv Cfg K C) (p1 p : PbsProg Cfg K C) : Prop :=
  ∀ before q qa rest, p.hist = before ++ .get q qa :: rest → p1.hist <+: before → ∀ s ∈ submissions (p.outs env), s.pbsId ∈ qa.finished →
    ∃ clock, appendsOf s.job before = jobAppends (fun l => Dict.get? p.world.disk.sims l) (pbsCompute env.md5) clock s.samples

end MLMC
