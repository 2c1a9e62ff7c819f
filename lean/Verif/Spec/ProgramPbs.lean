import Verif.Spec.Pbs
import Verif.Spec.Program
import Verif.Model.ProgramPbs
/-
Specification of whole programs with PBS: the same requests as in `Spec.Program`, and what is assumed about PBS.
-/
namespace MLMC
variable {Cfg K C : Type}

/-- The call without what the environment does meanwhile. -/
def PbsProgOp.call : PbsProgOp K → ProgOp
  | .setInitial v => .setInitial v
  | .setTarget v => .setTarget v
  | .ask timeout rounds => .ask timeout (rounds.map (·.time))
  | .schedule timeout rounds _ => .schedule timeout (rounds.map (·.time))
  | .pause _ => .ask (some 0) []

/-- Vectors have one entry for each of `n` levels. -/
def PbsProgOp.Proper (n : Nat) : PbsProgOp K → Prop
  | .setInitial v => v.length = n
  | .setTarget v => v.length ≤ n
  | _ => True

/-- The level simulations as the sampler creates them. -/
def PbsEnv.Proper (env : PbsEnv Cfg K C) : Prop := ∀ (l : Nat) (sim : PoolSim Cfg K C), env.sims[l]? = some sim → sim.level = l

/-- What the calls of the pool gave. -/
def PbsProg.outs (env : PbsEnv Cfg K C) (p : PbsProg Cfg K C) : List (PbsOut (PairRes K)) :=
  ((PbsWorld.create false [] {}).run (computeSeed env.md5) p.hist).2

/-- Samples of level `l` in accepted jobs not reported as finished so far, or not in any accepted job. -/
def PbsProg.waiting (env : PbsEnv Cfg K C) (p : PbsProg Cfg K C) (l : Nat) : List SampleId :=
  (outstanding (p.hist.zip (p.outs env))).flatMap (fun s => idsAt s.samples l) ++ idsAt p.world.pool.scheduled l

/-- Assumptions about PBS: `qsub` fails or succeeds entirely, its identifiers are different, and each accepted job has made the first appends
of a run of its samples with the simulations in the output directory; it may be running or dead. -/
structure PbsNormal (env : PbsEnv Cfg K C) (p : PbsProg Cfg K C) : Prop where
  plain : PlainQsub p.hist
  ids : ((submissions (p.outs env)).map (·.pbsId)).Nodup
  jobs : ∀ s ∈ submissions (p.outs env), ∃ clock,
    appendsOf s.job p.hist <+: jobAppends (fun l => Dict.get? p.world.disk.sims l) (pbsCompute env.md5) clock s.samples

/-- The program polls the pool these times, one after another; the last poll ends the waiting (it reports no running samples, or more than
the given time has passed, if it is limited) and those before it do not. -/
inductive Polls (env : PbsEnv Cfg K C) (limit : Option ℚ) : List (PbsRound K) → PbsProg Cfg K C → PbsProg Cfg K C → Prop
  | last {r : PbsRound K} {n : ℤ} {p q} (h : p.collect env r = some (n, q)) (hn : n ≤ 0 ∨ ∃ t, limit = some t ∧ t < r.time) :
      Polls env limit [r] p q
  | more {r : PbsRound K} {rs n} {p m q} (h : p.collect env r = some (n, m)) (hn : 0 < n) (ht : ∀ t, limit = some t → r.time ≤ t)
      (hs : Polls env limit rs m q) : Polls env limit (r :: rs) p q

/-- No job dies: `qstat` reports a job as finished only after it ran to its end. -/
def NoJobDies (env : PbsEnv Cfg K C) (p : PbsProg Cfg K C) : Prop :=
  ∀ before q qa rest, p.hist = before ++ .get q qa :: rest → ∀ s ∈ submissions (p.outs env), s.pbsId ∈ qa.finished →
    ∃ clock, appendsOf s.job before = jobAppends (fun l => Dict.get? p.world.disk.sims l) (pbsCompute env.md5) clock s.samples

end MLMC
