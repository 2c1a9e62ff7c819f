import Verif.Spec.Pool
import Verif.Model.Program
/-
Specification of whole programs: which samples a sequence of calls asks for and what their simulations return, with no
reference to storage, queues or sampler.
-/
namespace MLMC
variable {Cfg K C : Type}

/-- Samples `0 … k-1` of a level whose simulation returned a well formed result, in this order, with the results. -/
def goodSamples (md5 : SampleId → List UInt8) (sim : PoolSim Cfg K C) (k : Nat) : List (SampleId × (ResPart K × ResPart K)) :=
  (List.range k).filterMap fun i =>
    match outcome md5 (sampleTag sim.level i) sim with
    | .pair f c => if WellFormed sim.fmt (.pair f c) then some (sampleTag sim.level i, (f, c)) else none
    | _ => none

/-- The other samples among `0 … k-1`. -/
def badSamples (md5 : SampleId → List UInt8) (sim : PoolSim Cfg K C) (k : Nat) : List SampleId :=
  ((List.range k).map (sampleTag sim.level)).filter fun id => decide (¬ WellFormed sim.fmt (outcome md5 id sim))

/-- Target and number of requested samples of one level. -/
structure Want where
  target : ℚ
  count : Nat

/-- What a call asks for on level `l`. -/
def Want.step (l : Nat) (w : Want) : ProgOp → Want
  | .setInitial v => { w with target := v.getD l 0 }
  | .setTarget v => match v[l]? with
    | some t => { w with target := max w.target t }
    | none => w
  | .schedule _ _ => { w with count := max w.count ⌊w.target⌋.toNat }
  | _ => w

/-- Number of samples of level `l` a program asks for. -/
def wantedCount (l : Nat) (ops : List ProgOp) : Nat := (ops.foldl (Want.step l) ⟨0, 0⟩).count

/-- Calls with vectors for `n` levels, and at least one round of every loop of waiting. -/
def ProgOp.Proper (n : Nat) : ProgOp → Prop
  | .setInitial v => v.length = n
  | .setTarget v => v.length ≤ n
  | .ask timeout clock => clock ≠ [] ∨ ∃ t, timeout = some t ∧ t ≤ 0
  | .schedule timeout clock => clock ≠ [] ∨ ∃ t, timeout = some t ∧ t ≤ 0
  | .renew => True

/-- The level simulations as the sampler creates them, with files that can be copied. -/
structure ProgEnv.Proper (env : ProgEnv Cfg K C) : Prop where
  level : ∀ (l : Nat) (sim : PoolSim Cfg K C), env.sims[l]? = some sim → sim.level = l
  files : ∀ sim ∈ env.sims, sim.workspace = true → sim.filesOk = true

/-- The numbers of the well formed results of samples `0 … k-1`: fine part, and above level 0 the coarse part. -/
def simSamples (md5 : SampleId → List UInt8) (sim : PoolSim Cfg K C) (k : Nat) : List (List (List K)) :=
  (goodSamples md5 sim k).map fun s => if sim.level = 0 then [s.2.1.content] else [s.2.1.content, s.2.2.content]

/-- The results a program asks for on level `l`. -/
def wantedSamples (env : ProgEnv Cfg K C) (ops : List ProgOp) (l : Nat) : List (List (List K)) :=
  match env.sims[l]? with
  | some sim => simSamples env.md5 sim (wantedCount l ops)
  | none => []

/-- All simulations return NumPy arrays and declare results of length `W`. -/
structure ProgEnv.Arrays (env : ProgEnv Cfg K C) (W : Nat) : Prop where
  fmt : ∀ sim ∈ env.sims, formatSize sim.fmt = W
  arrays : ∀ sim ∈ env.sims, ∀ (seed : Nat) (f c : ResPart K), sim.calculate sim.cfg seed = .pair f c →
    (∃ a, f = .array a) ∧ ∃ b, c = .array b

end MLMC
