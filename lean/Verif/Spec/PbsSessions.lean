import Verif.Spec.ProgramPbs
import Verif.Model.PbsSessions
/-
Specification of programs with PBS one after another.
-/
namespace MLMC
variable {Cfg K C : Type}

/-- Directory and pool after these steps of pools and jobs. -/
def worldAfter (env : PbsEnv Cfg K C) (h : List (PbsOp (PoolSim Cfg K C) (PairRes K))) : PbsWorld (PoolSim Cfg K C) (PairRes K) :=
  ((PbsWorld.create false [] {}).run (computeSeed env.md5) h).1

/-- Scheduled files written in these steps: job number and samples. -/
def packagesIn (env : PbsEnv Cfg K C) (h : List (PbsOp (PoolSim Cfg K C) (PairRes K))) : List (Nat × List Trip) :=
  packages ((PbsWorld.create false [] {}).run (computeSeed env.md5) h).2

/-- All that is assumed of the job processes: a successful result a job records is what the simulation computes that was in the
directory under the sample's level at some earlier moment, with the seed of the sample in a scheduled file that was written for the job
number at some earlier moment.  A job may be of an earlier program, run twice, run out of order, die anywhere, and share its number with others. -/
def HonestJobs (env : PbsEnv Cfg K C) (h : List (PbsOp (PoolSim Cfg K C) (PairRes K))) : Prop :=
  ∀ before j l id v rest, h = before ++ .job j (.succ l id v) :: rest →
    ∃ ts seed, (j, ts) ∈ packagesIn env before ∧ (l, id, seed) ∈ ts ∧
    ∃ early sim, early <+: before ∧ Dict.get? (worldAfter env early).disk.sims l = some sim ∧ pbsCompute env.md5 sim id seed = .ok v

/-- A failure a job records is of a sample in a scheduled file that was written for the job number at some earlier moment. -/
def HonestFailures (env : PbsEnv Cfg K C) (h : List (PbsOp (PoolSim Cfg K C) (PairRes K))) : Prop :=
  ∀ before j l id m rest, h = before ++ .job j (.failed l id m) :: rest → ∃ ts seed, (j, ts) ∈ packagesIn env before ∧ (l, id, seed) ∈ ts

/-- `v` is the right value of sample `id` of level `l`: a well formed pair which the level's simulation computes with the seed of `id`. -/
def RightValue (env : PbsEnv Cfg K C) (l : Nat) (id : SampleId) (v : PairRes K) : Prop :=
  ∃ i sim, id = sampleTag l i ∧ env.sims[l]? = some sim ∧ outcome env.md5 id sim = .pair v.1 v.2 ∧ WellFormed sim.fmt (outcome env.md5 id sim)

end MLMC
