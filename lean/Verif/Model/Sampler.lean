import Verif.Model.Storage
import Mathlib.Data.Rat.Floor
/-
`Sampler` of /repo/mlmc/sampler.py: level simulations, targets, scheduling, adding samples, restarts.
Sample counts given by the user are Python floats or ints; they are rational numbers here (no rounding errors).
-/
namespace MLMC

/-! ### Level simulations -/

/-- The part of `LevelSimulation` the sampler sets: configuration produced by the factory, level number
(/repo/mlmc/level_simulation.py:6-34, /repo/mlmc/sampler.py:77-79). -/
structure LevelSim (C : Type) where
  config : C
  levelId : Nat

/-- `Sampler._create_level_sim_objects`, /repo/mlmc/sampler.py:62-80.  `factory fine coarse` is
`sim_factory.level_instance`, `zero` is the literal `[0]` of line 72.  -/
def createLevelSims {P C : Type} (factory : P → P → C) (zero : P) (params : List P) : List (LevelSim C) :=
  List.ofFn fun i : Fin params.length =>
    if h : i.val = 0 then
      { config := factory params[i.val] zero, levelId := i.val }
    else
      { config := factory params[i.val] params[i.val - 1], levelId := i.val }

/-! ### State of sampler, storage and pool interface -/

/-- Sampler attributes, storage, the local variable `samples` of `schedule_samples`, and the log of all
`SamplingPool.schedule_sample(sample_id, level_sim)` calls made by `schedule_samples` (pair: level of the passed
simulation object, sample id) and by `renew_failed_samples`. /repo/mlmc/sampler.py:16-49, 122-150, 270-286. -/
structure Sys (V : Type) where
  target : List ℚ
  nSched : List Nat
  store : HdfLevels V
  pending : List SampleId := []
  handed : List (Nat × SampleId) := []
  renewed : List (Nat × SampleId) := []
  deriving DecidableEq

/-- `Sampler.__init__` on a storage whose level groups exist, /repo/mlmc/sampler.py:16-45: zero targets, number of
scheduled samples = lengths of the stored lists. (`handed`/`renewed` are history, not state.) -/
def Sys.construct {V : Type} (store : HdfLevels V) (handed renewed : List (Nat × SampleId)) : Sys V :=
  { target := List.replicate store.length 0
    nSched := (hdfLoadScheduled store).map List.length
    store := store, handed := handed, renewed := renewed }

/-- A new sampler on a new storage with `n` levels. /repo/mlmc/sampler.py:16-49. -/
def Sys.fresh (V : Type) (n : Nat) : Sys V := Sys.construct (List.replicate n {}) [] []

/-- Python `int(x)`: truncation toward zero.  Used at /repo/mlmc/sampler.py:137. -/
def pyInt (q : ℚ) : ℤ := if q < 0 then ⌈q⌉ else ⌊q⌋

/-- `range(int(n_samples))` for `n_samples = target - scheduled`, /repo/mlmc/sampler.py:133-137. -/
def planCount (t : ℚ) (s : Nat) : Nat := (pyInt (t - s)).toNat

/-- Atomic actions of `schedule_samples`, /repo/mlmc/sampler.py:135-150. -/
inductive SchedAct
  /-- line 136: `samples = []` -/
  | begin (level : Nat)
  /-- lines 139-147: tag, hand to the pool, count, remember -/
  | hand (level : Nat)
  /-- line 150: `save_scheduled_samples(level_id, samples)` -/
  | save (level : Nat)
  deriving DecidableEq

/-- Effect of one action.  `hand` on a level without counter raises `IndexError` (no effect). /repo/mlmc/sampler.py:135-150. -/
def SchedAct.apply {V : Type} : SchedAct → Sys V → Sys V
  | .begin _, s => { s with pending := [] }
  | .hand l, s => match s.nSched[l]? with
    | none => s
    | some k =>
      { s with
        handed := s.handed ++ [(l, sampleTag l k)]
        nSched := s.nSched.set l (k + 1)
        pending := s.pending ++ [sampleTag l k] }
  | .save l, s => { s with store := applyOps (saveScheduledOps l s.pending) s.store }

/-- The actions of the loop over levels, given the plan. /repo/mlmc/sampler.py:135-150. -/
def schedActs : Nat → List Nat → List SchedAct
  | _, [] => []
  | l, n :: plan => (.begin l :: List.replicate n (.hand l)) ++ [.save l] ++ schedActs (l + 1) plan

/-- A sequence of actions, /repo/mlmc/sampler.py:135-150. -/
def runActs {V : Type} (acts : List SchedAct) (s : Sys V) : Sys V := acts.foldl (fun s a => a.apply s) s

/-- `plan_samples = self._n_target_samples - self._n_scheduled_samples`, then `int` of it per level. /repo/mlmc/sampler.py:133-137. -/
def Sys.plan {V : Type} (s : Sys V) : List Nat := List.zipWith planCount s.target s.nSched

/-- `Sampler.schedule_samples` after its polling, /repo/mlmc/sampler.py:133-150.  NumPy raises `ValueError` when the
target vector has a wrong length: nothing happens.  With exactly one level NumPy broadcasts: level 0 is scheduled, and a
second entry of the target raises `IndexError` afterwards.  (Target vectors with one entry and more levels do not occur:
/repo/mlmc/sampler.py:104-105 expands them.) -/
def Sys.schedule {V : Type} (s : Sys V) : Sys V :=
  if s.target.length = s.nSched.length ∨ s.nSched.length = 1 then runActs (schedActs 0 s.plan) s else s

/-- `Sampler.set_level_target_n_samples`, /repo/mlmc/sampler.py:254-261.  A longer vector raises `IndexError` after
the existing levels were updated. -/
def setLevelTarget : List ℚ → List ℚ → List ℚ
  | t :: ts, n :: ns => max t n :: setLevelTarget ts ns
  | [], _ => []
  | ts, [] => ts

/-- New number of scheduled samples for a level in `process_adding_samples`, /repo/mlmc/sampler.py:215-221:
`e` estimate, `s` scheduled, `c` coefficient. -/
def addSamples (e : ℚ) (s : ℚ) (c : ℚ) : ℤ :=
  let newScheduled := if e * c > e - s then e else s + (e - s) * c
  ⌈if e < s then s else newScheduled⌉

/-- The vector `n_scheduled` of `process_adding_samples` after line 221. /repo/mlmc/sampler.py:209-221. -/
def addSamplesVec (est : List ℚ) (nSched : List Nat) (c : ℚ) : List ℤ :=
  List.zipWith (fun e (s : Nat) => addSamples e s c) est nSched

/-- `greater_items`, /repo/mlmc/sampler.py:224: levels whose estimate exceeds the new number. -/
def greaterItems (est : List ℚ) (n : List ℤ) : List Nat :=
  (List.range (min est.length n.length)).filter fun i =>
    match est[i]?, n[i]? with
    | some e, some k => decide (e > k)
    | _, _ => false

/-- Return value of `process_adding_samples`, /repo/mlmc/sampler.py:229. -/
def addResult (est : List ℚ) (n : List ℤ) : Bool :=
  (greaterItems est n).all fun i =>
    match est[i]?, n[i]? with
    | some e, some k => decide (e = k)
    | _, _ => false

/-- `Sampler.process_adding_samples`, /repo/mlmc/sampler.py:195-229, with lines 241-242 of
`set_scheduled_and_wait`; the polling parts do not touch the fields used here and are separate operations. -/
def Sys.processAdding {V : Type} (s : Sys V) (est : List ℚ) (c : ℚ) : Sys V × Bool :=
  if est.length = s.nSched.length then
    let n := addSamplesVec est s.nSched c
    let s1 := { s with target := setLevelTarget s.target (n.map (fun z : ℤ => (z : ℚ))) }
    (s1.schedule, addResult est n)
  else (s, false)

/-- Calls a program can make, and restarts. /repo/mlmc/sampler.py:16, 92, 122, 160, 195, 254, 270. -/
inductive SamplerOp (V : Type)
  /-- `set_initial_n_samples`, with the vector after expansion (/repo/mlmc/sampler.py:112) -/
  | setInitial (v : List ℚ)
  | setTarget (v : List ℚ)
  /-- one `get_finished` answer stored by `_store_samples` (/repo/mlmc/sampler.py:175-177, 192-193) -/
  | poll (succ : Dict Nat (List (SampleId × V))) (failed : Dict Nat (List (SampleId × Msg)))
      (nOps : List (Nat × (ℚ × ℚ)))
  | schedule
  | processAdding (est : List ℚ) (c : ℚ)
  /-- `renew_failed_samples`, /repo/mlmc/sampler.py:270-286 -/
  | renew
  /-- the program ends (or is killed between calls); a new `Sampler` is built on the reopened storage -/
  | restart
  /-- the program is killed inside `schedule_samples` after `k` actions; then restart -/
  | crashInSchedule (k : Nat)

/-- `Sampler.renew_failed_samples`, /repo/mlmc/sampler.py:270-286.  With a missing `failed` dataset: `KeyError`. -/
def Sys.renew {V : Type} (s : Sys V) : Sys V :=
  match hdfFailedSamples s.store with
  | .error _ => s
  | .ok failed =>
    { s with
      renewed := s.renewed ++ (failed.zipIdx.flatMap fun (ids, l) => ids.map fun i => (l, i))
      store := applyOps (clearFailedOps s.store) s.store }

/-- A new `Sampler` on the stored data, /repo/mlmc/sampler.py:16-49. -/
def Sys.restart {V : Type} (s : Sys V) : Sys V := Sys.construct s.store s.handed s.renewed

/-- One call, /repo/mlmc/sampler.py:92-286. -/
def Sys.step {V : Type} (s : Sys V) : SamplerOp V → Sys V
  | .setInitial v => { s with target := v }
  | .setTarget v => { s with target := setLevelTarget s.target v }
  | .poll succ failed nOps => { s with store := saveNOps (applyOps (saveSamplesOps succ failed) s.store) nOps }
  | .schedule => s.schedule
  | .processAdding est c => (s.processAdding est c).1
  | .renew => s.renew
  | .restart => s.restart
  | .crashInSchedule k =>
    (if s.target.length = s.nSched.length ∨ s.nSched.length = 1 then runActs ((schedActs 0 s.plan).take k) s else s).restart

/-- A sequence of calls, /repo/mlmc/sampler.py:92-286. -/
def Sys.run {V : Type} (s : Sys V) (ops : List (SamplerOp V)) : Sys V := ops.foldl Sys.step s

end MLMC
