import Verif.Model.Sampler
import Verif.Model.FloatEstimate
/-
`Sampler.process_adding_samples` in floating-point arithmetic: /repo/mlmc/sampler.py:195-229, with the rounding of every operation to doubles.

Numbers of scheduled samples are converted to doubles exactly, and the differences of targets and numbers of scheduled samples are exact (both are true below 2^53).
-/
namespace MLMC

/-- New number of scheduled samples for a level in `process_adding_samples`, /repo/mlmc/sampler.py:215-221, in doubles: `e` estimate, `s` scheduled, `c` coefficient. -/
def flAddSamples (e : ℚ) (s : ℚ) (c : ℚ) : ℤ :=
  let newScheduled := if Fl.double (e * c) > Fl.double (e - s) then e else Fl.double (s + Fl.double (Fl.double (e - s) * c))
  ⌈if e < s then s else newScheduled⌉

/-- The vector `n_scheduled` of `process_adding_samples` after line 221, in doubles. /repo/mlmc/sampler.py:209-221. -/
def flAddSamplesVec (est : List ℚ) (nSched : List Nat) (c : ℚ) : List ℤ :=
  List.zipWith (fun e (s : Nat) => flAddSamples e s c) est nSched

/-- `Sampler.process_adding_samples` in doubles, /repo/mlmc/sampler.py:195-229, with lines 241-242 of `set_scheduled_and_wait`; the polling parts are left out as in `Sys.processAdding`. -/
def Sys.flProcessAdding {V : Type} (s : Sys V) (est : List ℚ) (c : ℚ) : Sys V × Bool :=
  if est.length = s.nSched.length then
    let n := flAddSamplesVec est s.nSched c
    let s1 := { s with target := setLevelTarget s.target (n.map (fun z : ℤ => (z : ℚ))) }
    (s1.schedule, addResult est n)
  else (s, false)

end MLMC
