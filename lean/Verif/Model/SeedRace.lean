import Mathlib.Data.Rat.Defs
import Mathlib.Algebra.Order.Field.Rat
import Verif.Model.Storage
/-
Workers of a pool that draw the random numbers of synthetic samples at the same time: `generate_random_samples` of
/repo/mlmc/sim/synth_simulation.py:76-92, run by the workers of /repo/mlmc/sampling_pool.py:297-337.  The workers of a `ProcessPool` are processes and have their own
copies of the distribution object and of the class attributes, the workers of a `ThreadPool` share them.  Each step below is one access to these shared objects; any worker may make
the next step.  (`y = distr.rvs(size)` is one step: the generator holds a lock while it draws.)
-/
namespace MLMC.Race
variable {G V : Type}

/-- The generator objects: `np.random.RandomState(seed)`, and the numbers drawn from a state together with the state after it.
/repo/mlmc/sim/synth_simulation.py:85-86. -/
structure Gen (G V : Type) where
  start : Nat → G
  draw : G → Nat → List V × G

/-- Objects in the memory of a process: the state of the generator of the distribution (`distr.random_state`), the class attributes `n_nans` and `len_results`.
/repo/mlmc/sim/synth_simulation.py:13-15, 85. -/
structure Mem (G : Type) where
  rng : Option G := none
  nNans : Nat := 0
  lenResults : Nat := 0

/-- A sample to be computed: its seed and the number of values. /repo/mlmc/sim/synth_simulation.py:77, 103-104. -/
abbrev Task := Nat × Nat

/-- Where a worker is in `generate_random_samples`, /repo/mlmc/sim/synth_simulation.py:84-92: waiting for a sample; `len_results` was read (84); it was written (84); the generator was set
(85); the values were drawn (86); the sample is to fail and `n_nans` was read (89). -/
inductive Pc (V : Type)
  | idle
  | counting (t : Task) (n : Nat)
  | counted (t : Task)
  | seeded (t : Task)
  | drawn (t : Task) (y : List V)
  | failing (t : Task) (n : Nat)

/-- What is known of the computation: the memories, for each worker where it is and which samples it will still compute, and the results so far: the sample and its values, `none`: it failed.
/repo/mlmc/sampling_pool.py:297-337. -/
structure St (G V : Type) where
  mem : Nat → Mem G
  pc : Nat → Pc V
  todo : Nat → List Task
  results : List (Task × Option (List V)) := []

/-- At the start all workers are idle, /repo/mlmc/sampling_pool.py:302-304, 331-337. -/
def St.init (todo : Nat → List Task) : St G V := ⟨fun _ => {}, fun _ => .idle, todo, []⟩

/-- Assignment of one entry. /repo/mlmc/sim/synth_simulation.py:84-89. -/
def upd {α : Type} (f : Nat → α) (i : Nat) (x : α) : Nat → α := fun j => if j = i then x else f j

/-- The test whether a sample is to fail, /repo/mlmc/sim/synth_simulation.py:88; `q` is `nan_fraction`. -/
def fails (q : ℚ) (m : Mem G) : Bool := decide ((m.nNans : ℚ) / (1 / 10000000000 + (m.lenResults : ℚ)) < q)

/-- The next step of worker `w`, /repo/mlmc/sim/synth_simulation.py:84-92.  `home w` is the number of the memory that `w` uses, `q` is `nan_fraction`. -/
def step (D : Gen G V) (q : ℚ) (home : Nat → Nat) (s : St G V) (w : Nat) : St G V :=
  let m := s.mem (home w)
  match s.pc w with
  | .idle => match s.todo w with
    | [] => s
    | t :: ts => { s with pc := upd s.pc w (.counting t m.lenResults), todo := upd s.todo w ts }
  | .counting t n => { s with pc := upd s.pc w (.counted t), mem := upd s.mem (home w) { m with lenResults := n + 1 } }
  | .counted t => { s with pc := upd s.pc w (.seeded t), mem := upd s.mem (home w) { m with rng := some (D.start t.1) } }
  | .seeded t => match m.rng with
    | none => s
    | some g => { s with pc := upd s.pc w (.drawn t (D.draw g t.2).1), mem := upd s.mem (home w) { m with rng := some (D.draw g t.2).2 } }
  | .drawn t y =>
    if fails q m = true then { s with pc := upd s.pc w (.failing t m.nNans) }
    else { s with pc := upd s.pc w .idle, results := s.results ++ [(t, some y)] }
  | .failing t n => { s with pc := upd s.pc w .idle, mem := upd s.mem (home w) { m with nNans := n + 1 }, results := s.results ++ [(t, none)] }

/-- A schedule: which worker makes the next step. /repo/mlmc/sampling_pool.py:315-323. -/
def run (D : Gen G V) (q : ℚ) (home : Nat → Nat) (s : St G V) (sched : List Nat) : St G V := sched.foldl (step D q home) s

/-- Memories of the workers of a `ProcessPool`, /repo/mlmc/sampling_pool.py:297-304. -/
def processes : Nat → Nat := id

/-- Memory of the workers of a `ThreadPool`, /repo/mlmc/sampling_pool.py:326-337. -/
def threads : Nat → Nat := fun _ => 0

end MLMC.Race
