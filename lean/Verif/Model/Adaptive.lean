import Verif.Model.Program
import Verif.Model.Waiting
/-
The documented procedure that adds samples until the estimated numbers are reached: /repo/docs/source/examples_samples_scheduling.rst:104-124 (the same
loop is in /repo/examples/shooting/shooting_1D.py:139-146), with `process_adding_samples` on a whole program (OneProcessPool).
-/
namespace MLMC
variable {Cfg K C : Type}

/-- Readings of the clock in one call of `process_adding_samples`: in the first question for samples, in the one of `schedule_samples`, and in those of the
waiting. /repo/mlmc/sampler.py:206, 242, 251. -/
structure AddClocks where
  first : List ℚ
  sched : List ℚ
  waits : List (List ℚ)

/-- Whether to go on waiting, /repo/mlmc/sampler.py:245, 248. -/
def Prog.mustWait (sched : List ℚ) (greater : List Nat) (p : Prog K C) : Except PyErr Bool :=
  (hdfFinishedArray p.sys.store).bind fun fin => MLMC.mustWait fin (1 / 2) sched greater

/-- The waiting loop of `set_scheduled_and_wait`, /repo/mlmc/sampler.py:244-252; `none`: still waiting. -/
def Prog.addWait (timeout : Option ℚ) (sched : List ℚ) (greater : List Nat) : List (List ℚ) → Prog K C → Option (Prog K C × Option PyErr)
  | [], p => match p.mustWait sched greater with
    | .error e => some (p, some e)
    | .ok b => if b then none else some (p, none)
  | clock :: rest, p => match p.mustWait sched greater with
    | .error e => some (p, some e)
    | .ok b => if b then (p.ask timeout clock).bind (Prog.addWait timeout sched greater rest) else some (p, none)

/-- The second half of `process_adding_samples`, /repo/mlmc/sampler.py:241-252. -/
def Prog.setAndWait (env : ProgEnv Cfg K C) (timeout : Option ℚ) (cl : AddClocks) (n : List ℚ) (greater : List Nat) (p : Prog K C) :
    Option (Prog K C × Option PyErr) :=
  if n.length ≤ p.sys.target.length then
    ((⟨{ p.sys with target := setLevelTarget p.sys.target n }, p.pool⟩ : Prog K C).ask timeout cl.sched).bind fun q =>
      match q.scheduleSamples env with
      | (r, some e) => some (r, some e)
      | (r, none) => r.addWait timeout n greater cl.waits
  else some (⟨{ p.sys with target := setLevelTarget p.sys.target n }, p.pool⟩, some .indexError)

/-- `process_adding_samples`, /repo/mlmc/sampler.py:195-229; estimates of a wrong number of levels do not broadcast. -/
def Prog.adding (env : ProgEnv Cfg K C) (est : List ℚ) (c : ℚ) (timeout : Option ℚ) (cl : AddClocks) (p : Prog K C) :
    Option (Prog K C × Except PyErr Bool) :=
  (p.ask timeout cl.first).bind fun p =>
    if est.length = p.sys.nSched.length then
      (p.setAndWait env timeout cl ((addSamplesVec est p.sys.nSched c).map fun z : ℤ => (z : ℚ)) (greaterItems est (addSamplesVec est p.sys.nSched c))).map
        fun r => (r.1, match r.2 with
          | some e => .error e
          | none => .ok (addResult est (addSamplesVec est p.sys.nSched c)))
    else some (p, .error .valueError)

/-- The loop, /repo/docs/source/examples_samples_scheduling.rst:118-122: `reest` computes new numbers from the program (its storage, numbers of scheduled
samples and times).  Returns the program and the last estimate; `none`: the loop is still running after the given calls. -/
def Prog.adaptive (env : ProgEnv Cfg K C) (reest : Prog K C → Except PyErr (List ℚ)) (c : ℚ) (timeout : Option ℚ) :
    List AddClocks → List ℚ → Prog K C → Option (Prog K C × Except PyErr (List ℚ))
  | [], _, _ => none
  | cl :: cls, est, p => (p.adding env est c timeout cl).bind fun r => match r.2 with
    | .error e => some (r.1, .error e)
    | .ok true => some (r.1, .ok est)
    | .ok false => match reest r.1 with
      | .error e => some (r.1, .error e)
      | .ok est' => Prog.adaptive env reest c timeout cls est' r.1

end MLMC
