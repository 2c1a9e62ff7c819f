import Verif.Spec.ProgramStats
/-
Notions used in the statements about programs with random simulations that may fail.
-/
namespace MLMC
variable {Cfg C F : Type}

/-- With the seed `s`, the simulation of level `l` gives the difference `x` (`some x`), or (`none`) it raises, returns something that is not well formed, or a result on which the quantity is NaN. -/
def SeedResult [Zero F] [Sub F] (sims : List (PoolSim Cfg (Option F) C)) (q : Quantity (Option F)) (sid W i l s : Nat) : Option F → Prop
  | some x => SeedGives sims q sid W i l s x
  | none => ∃ sim : PoolSim Cfg (Option F) C, sims[l]? = some sim ∧ ∀ f c, sim.calculate sim.cfg s = .pair f c → WellFormed sim.fmt (.pair f c) →
      usedDiffs q sid W l i [if l = 0 then [f.content] else [f.content, c.content]] = []

/-- Mean of a function of the seed over the seeds for which it is defined. -/
noncomputable def seedMeanGiven (g : Nat → Option ℝ) : ℝ :=
  (∑ s ∈ Finset.range seedCount, (g s).getD 0) / ((Finset.range seedCount).filter fun s => (g s).isSome).card

end MLMC
