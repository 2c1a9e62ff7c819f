import Verif.Model.Synth
/-
`SynthSimulationWorkspace`, /repo/mlmc/sim/synth_simulation.py:148-296, in the processes of batch jobs.  Numbers are real numbers; `nan` is `none`.
-/
namespace MLMC.Syn

open Classical in
/-- `SynthSimulationWorkspace.generate_random_samples`, /repo/mlmc/sim/synth_simulation.py:219-241: only the distribution named `norm` is supported (229-232), but the sample is counted before
that (227).  `rvs seed size` are values drawn from the normal distribution with mean 1 and deviation 2 by a generator started with `seed`. -/
noncomputable def wsGenerate (distr : List Char) (nanFraction : ℝ) (rvs : Nat → Nat → List ℝ) (seed size : Nat) (c : Counters) : Except PyErr (Option (List ℝ)) × Counters :=
  if distr = "norm".toList then
    if (c.nNans : ℝ) / (1 / 10 ^ 10 + (c.lenResults + 1 : ℕ)) < nanFraction then (.ok none, ⟨c.nNans + 1, c.lenResults + 1⟩)
    else (.ok (some (rvs seed size)), ⟨c.nNans, c.lenResults + 1⟩)
  else (.error .other, ⟨c.nNans, c.lenResults + 1⟩)

/-- `SynthSimulationWorkspace.calculate`, /repo/mlmc/sim/synth_simulation.py:244-285, 291-296: the configuration file in the working directory of the sample gives the distribution and the fraction of
failures; `config = .error` if it cannot be read. -/
noncomputable def wsCalculate (config : Except PyErr (List Char × ℝ)) (rvs : Nat → Nat → List ℝ) (fineStep coarseStep : ℝ) (fmt : List QSpec) (seed : Nat) (c : Counters) :
    Except PyErr (List ℝ × List ℝ) × Counters :=
  match config with
  | .error e => (.error e, c)
  | .ok (distr, nanFraction) => match fmt with
    | [] => (.error .indexError, c)
    | q :: _ => match wsGenerate distr nanFraction rvs seed q.shape.prod c with
      | (.error e, c) => (.error e, c)
      | (.ok none, c) => (.error .other, c)
      | (.ok (some random), c) => (calculateFrom fineStep coarseStep fmt random, c)

/-- What `calculate` is called with for a sample. /repo/mlmc/sim/synth_simulation.py:244-260. -/
structure WsSample where
  config : Except PyErr (List Char × ℝ)
  fineStep : ℝ
  coarseStep : ℝ
  fmt : List QSpec
  seed : Nat

/-- The samples of a job one after another, /repo/mlmc/tool/pbs_job.py:154-190; exceptions of a sample are caught (/repo/mlmc/sampling_pool.py:116-119). -/
noncomputable def wsRun (rvs : Nat → Nat → List ℝ) : List WsSample → Counters → List (Except PyErr (List ℝ × List ℝ))
  | [], _ => []
  | s :: rest, c => let r := wsCalculate s.config rvs s.fineStep s.coarseStep s.fmt s.seed c
    r.1 :: wsRun rvs rest r.2

/-- Each job is a process of its own (/repo/mlmc/tool/pbs_job.py:387-389), in which the class attributes have the values of the class body, /repo/mlmc/sim/synth_simulation.py:150-152. -/
noncomputable def wsJob (rvs : Nat → Nat → List ℝ) (samples : List WsSample) : List (Except PyErr (List ℝ × List ℝ)) := wsRun rvs samples ⟨0, 0⟩

end MLMC.Syn
