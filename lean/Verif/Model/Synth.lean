import Verif.Model.ResultFormat
import Mathlib.Analysis.Real.Sqrt
/-
The synthetic simulation: /repo/mlmc/sim/synth_simulation.py:11-145; `SynthSimulationWorkspace`, 148-296, computes samples in the same way.
Numbers are real numbers; `nan` is `none`.
-/
namespace MLMC.Syn

/-- `sample_fn`, /repo/mlmc/sim/synth_simulation.py:38-46, 176-184. -/
noncomputable def sampleFn (x h : ℝ) : ℝ := x + h * Real.sqrt (1 / 10 ^ 4 + |x|)

/-- Class attributes `n_nans`, `len_results`, /repo/mlmc/sim/synth_simulation.py:13-15. -/
structure Counters where
  nNans : Nat := 0
  lenResults : Nat := 0

open Classical in
/-- `generate_random_samples`, /repo/mlmc/sim/synth_simulation.py:76-92, 219-241: `none` for `[np.nan]`.  `rvs seed size` are the values drawn from the distribution with a
generator started with `seed`. -/
noncomputable def generate (nanFraction : ℝ) (rvs : Nat → Nat → List ℝ) (seed size : Nat) (c : Counters) : Option (List ℝ) × Counters :=
  if (c.nNans : ℝ) / (1 / 10 ^ 10 + (c.lenResults + 1 : ℕ)) < nanFraction then (none, ⟨c.nNans + 1, c.lenResults + 1⟩)
  else (some (rvs seed size), ⟨c.nNans, c.lenResults + 1⟩)

/-- One result vector laid out for the format, /repo/mlmc/sim/synth_simulation.py:119-131: for each quantity, time and location the same values, shifted by the index of the
location unless the coarse step is zero. -/
noncomputable def layout (coarseStep : ℝ) (fmt : List QSpec) (result : List ℝ) : List ℝ :=
  fmt.flatMap fun q => (List.range q.times.length).flatMap fun _ => (List.range q.locations.length).flatMap fun i : Nat =>
    result.map fun x => if coarseStep = 0 then x else x + (i : ℝ)

/-- `np.array(quantities)`: quantities with different numbers of times or locations do not form an array. /repo/mlmc/sim/synth_simulation.py:119-131. -/
def regular : List QSpec → Prop
  | [] => True
  | q :: fmt => ∀ p ∈ fmt, p.times.length = q.times.length ∧ p.locations.length = q.locations.length

open Classical in
/-- `calculate` after drawing, /repo/mlmc/sim/synth_simulation.py:105-131. -/
noncomputable def calculateFrom (fineStep coarseStep : ℝ) (fmt : List QSpec) (random : List ℝ) : Except PyErr (List ℝ × List ℝ) :=
  let fine := random.map fun x => sampleFn x fineStep
  let coarse := if coarseStep = 0 then List.replicate fine.length 0 else random.map fun x => sampleFn x coarseStep
  if regular fmt then .ok (layout coarseStep fmt fine, layout coarseStep fmt coarse) else .error .valueError

/-- `calculate`, /repo/mlmc/sim/synth_simulation.py:95-131, 244-285: one sample, and the class attributes after it. -/
noncomputable def calculate (nanFraction : ℝ) (rvs : Nat → Nat → List ℝ) (fineStep coarseStep : ℝ) (fmt : List QSpec) (seed : Nat) (c : Counters) :
    Except PyErr (List ℝ × List ℝ) × Counters :=
  match fmt with
  | [] => (.error .indexError, c)
  | q :: _ => match generate nanFraction rvs seed q.shape.prod c with
    | (none, c) => (.error .other, c)
    | (some random, c) => (calculateFrom fineStep coarseStep fmt random, c)

/-- Steps of a level as passed to `level_instance`, /repo/mlmc/sim/synth_simulation.py:58-73: the fine step of the level, the step of the level before, or 0 on level 0
(see `levelParams` of the sampler). -/
def coarseStepOf (steps : Nat → ℝ) : Nat → ℝ
  | 0 => 0
  | l + 1 => steps l

/-- `result_format`, /repo/mlmc/sim/synth_simulation.py:136-145. -/
def resultFormat : List QSpec :=
  [⟨"length".toList, "m".toList, [2, 1], [1, 2, 3], [.name "10".toList, .name "20".toList]⟩,
   ⟨"width".toList, "mm".toList, [2, 1], [1, 2, 3], [.name "30".toList, .name "40".toList]⟩]

/-- Class attributes after a sequence of samples in one process. /repo/mlmc/sim/synth_simulation.py:76-92. -/
noncomputable def afterSamples (nanFraction : ℝ) (rvs : Nat → Nat → List ℝ) : List (Nat × Nat) → Counters → Counters
  | [], c => c
  | (seed, size) :: rest, c => afterSamples nanFraction rvs rest (generate nanFraction rvs seed size c).2

end MLMC.Syn
