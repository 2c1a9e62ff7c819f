import Verif.Spec.ProgramPbs
import Verif.Model.PbsRestart
/-
Specification of a restart of a program with PBS.
-/
namespace MLMC
variable {Cfg K C : Type}

/-- An accepted job contains the sample. -/
def InJob (env : PbsEnv Cfg K C) (p : PbsProg Cfg K C) (id : SampleId) : Prop :=
  ∃ s ∈ submissions (p.outs env), id ∈ s.samples.map (·.2.1)

/-- An accepted job has written this successful result of the sample, on this level. -/
def Recorded (env : PbsEnv Cfg K C) (p : PbsProg Cfg K C) (l : Nat) (id : SampleId) (v : PairRes K) : Prop :=
  ∃ s ∈ submissions (p.outs env), .succ l id v ∈ appendsOf s.job p.hist

/-- An accepted job contains the sample (of level `l`) and has run to its end. -/
def InFinishedJob (env : PbsEnv Cfg K C) (p : PbsProg Cfg K C) (l : Nat) (id : SampleId) : Prop :=
  ∃ s ∈ submissions (p.outs env), (∃ seed, (l, id, seed) ∈ s.samples) ∧
    ∃ clock, appendsOf s.job p.hist = jobAppends (fun l => Dict.get? p.world.disk.sims l) (pbsCompute env.md5) clock s.samples

/-- The number of samples of level `l` a killed program had in the file: what its calls asked for; if it was killed in a further
`schedule_samples`, that or what this call asks for. -/
def PbsKill.Count (l : Nat) (ops : List (PbsProgOp K)) (k : Nat) : PbsKill K → Prop
  | .inSchedule _ _ => k = wantedCount l (ops.map (·.call)) ∨ k = wantedCount l (ops.map (·.call) ++ [.schedule (some 0) []])
  | _ => k = wantedCount l (ops.map (·.call))

/-- What `C104` says of level `l` after the new program's first question for samples: `k` samples are listed as scheduled, `x0` is the
level in the file before and `x` after it, `stored` and `failed` are its results and failures. -/
structure RestartLevel (env : PbsEnv Cfg K C) (p2 : PbsProg Cfg K C) (u : List SampleId) (l : Nat) (sim : PoolSim Cfg K C) (k : Nat)
    (x0 x : LevelGroup (PairRes K)) (stored : List (SampleId × PairRes K)) (failed : List (SampleId × Msg)) : Prop where
  scheduled : x.scheduled = (List.range k).map (sampleTag l) ∧ x0.scheduled = x.scheduled
  ids : x.collectedIds = stored.map (·.1)
  values : x.collectedValues = if stored = [] then none else some (stored.map (·.2))
  failed : x.failed = some failed ∧ x0.failed = x.failed
  good : ∀ s ∈ stored, s ∈ goodSamples env.md5 sim k
  old : ∃ before new, stored = before ++ new ∧ x0.collectedIds = before.map (·.1) ∧
    x0.collectedValues = (if before = [] then none else some (before.map (·.2))) ∧ ∀ id v, (id, v) ∈ new ↔ id ∈ u ∧ Recorded env p2 l id v

end MLMC
