import Mathlib.Probability.Independence.Basic
import Mathlib.Data.Real.Basic
import Verif.Spec.Program
import Verif.Spec.Estimate
/-
Notions used in the statements about programs with random simulations.
-/
namespace MLMC
open MeasureTheory ProbabilityTheory
variable {Cfg C F : Type}

/-- With the seed `s`, the simulation of level `l` returns a well formed result on which component `i` of the quantity has the difference `x`
(the fine value on level 0, fine minus coarse value above), not NaN. -/
def SeedGives [Zero F] [Sub F] (sims : List (PoolSim Cfg (Option F) C)) (q : Quantity (Option F)) (sid W i l s : Nat) (x : F) : Prop :=
  ∃ (sim : PoolSim Cfg (Option F) C) (f c : ResPart (Option F)), sims[l]? = some sim ∧ sim.calculate sim.cfg s = .pair f c ∧
    WellFormed sim.fmt (.pair f c) ∧ usedDiffs q sid W l i [if l = 0 then [f.content] else [f.content, c.content]] = [x]

/-- The simulation of sample `k` of level `l`, called with the seed of this sample, gives the difference `x`. -/
def ProgEnv.Yields [Zero F] [Sub F] (env : ProgEnv Cfg (Option F) C) (q : Quantity (Option F)) (sid W i l k : Nat) (x : F) : Prop :=
  SeedGives env.sims q sid W i l (computeSeed env.md5 (sampleTag l k)) x

/-- The program makes the calls `ops`, waits for its samples, and `estimate_mean` of the quantity on its storage (with chunks of `c l` samples on level `l`) returns `e`. -/
def ProgEnv.Reports [Field F] (env : ProgEnv Cfg (Option F) C) (ops : List ProgOp) (c : Nat → Nat) (sid : Nat) (q : Quantity (Option F)) (e : QuantityMean F) : Prop :=
  ∃ (debug hasDir : Bool) (dirs : Dirs C) (t : ℚ) (p : Prog (Option F) C),
    (Prog.start env debug hasDir dirs).run env (ops ++ [.ask none [t]]) = some p ∧ estimateFromStorage (storedNumbers p.sys.store) c sid q = .ok e

/-- A program on `L` levels whose simulations return arrays of length `W`, with calls for these levels. -/
structure ProgEnv.Sound [Field F] (env : ProgEnv Cfg (Option F) C) (W L : Nat) (ops : List ProgOp) : Prop where
  proper : env.Proper
  arrays : env.Arrays W
  levels : env.sims.length = L
  calls : ∀ o ∈ ops, o.Proper L

/-- Number of seeds: four bytes. -/
def seedCount : Nat := 256 ^ 4

/-- Mean of a function of the seed over all seeds. -/
noncomputable def seedMean (g : Nat → ℝ) : ℝ := (∑ s ∈ Finset.range seedCount, g s) / seedCount

/-- The seeds of different samples are independent and every seed is equally likely (MD5 seen as a random function). -/
structure RandomSeeds {Ω : Type} [MeasurableSpace Ω] (P : Measure Ω) (md5 : Ω → SampleId → List UInt8) : Prop where
  measurable : ∀ id, Measurable fun ω => computeSeed (md5 ω) id
  uniform : ∀ id, ∀ s < seedCount, P {ω | computeSeed (md5 ω) id = s} = (seedCount : ENNReal)⁻¹
  indep : iIndepFun (fun id ω => computeSeed (md5 ω) id) P

end MLMC
