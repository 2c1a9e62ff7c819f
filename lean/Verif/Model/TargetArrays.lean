import Verif.Model.Sampler
/-
The array `_n_target_samples` of a `Sampler` as a NumPy object: /repo/mlmc/sampler.py:29, 92-112, 133, 254-261.

`Model.Sampler` keeps the target numbers of a sampler as a list of rational numbers of its own.  In the code they are a NumPy
array: of integers or of floats (what is written into an array of integers loses its fraction), changed in place, and possibly
the very array the user passed, because `np.atleast_1d` does not copy an array that has a dimension.  Here several samplers and
the variables of the user refer to arrays on a common heap.  Numbers are rational; NaN and the overflow of integers are left out.
-/
namespace MLMC

/-- A one-dimensional NumPy array of numbers of samples: integers or floats. /repo/mlmc/sampler.py:29, 90, 101. -/
structure NArr where
  ints : Bool
  data : List ℚ
  deriving DecidableEq

/-- The number that is in the array after `a[i] = x`: arrays of integers drop the fraction. /repo/mlmc/sampler.py:261. -/
def npStored (ints : Bool) (x : ℚ) : ℚ := if ints then (pyInt x : ℚ) else x

/-- An array with the given content: `np.array`, `astype(int)`. /repo/mlmc/sampler.py:90, 101. -/
def npMake (ints : Bool) (data : List ℚ) : NArr := ⟨ints, data.map (npStored ints)⟩

/-- The argument of `set_initial_n_samples`, /repo/mlmc/sampler.py:92. -/
inductive InitArg
  /-- no argument -/
  | default
  /-- a number (one entry), a list or a tuple; `ints`: NumPy makes an array of integers of it -/
  | values (ints : Bool) (data : List ℚ)
  /-- an array, by reference -/
  | array (loc : Nat)

/-- A sampler: where its `_n_target_samples` is on the heap, and everything else (the field `target` of `sys` is not used). /repo/mlmc/sampler.py:16-49. -/
structure TSampler (V : Type) where
  loc : Nat
  sys : Sys V

/-- Arrays and samplers. /repo/mlmc/sampler.py:16-49. -/
structure TState (V : Type) where
  heap : List NArr
  samplers : List (TSampler V)

/-- What a program does: it makes arrays, assigns to their entries, and calls methods of its samplers. /repo/mlmc/sampler.py:92-286. -/
inductive TOp (V : Type)
  /-- `n = np.array(data)` -/
  | make (ints : Bool) (data : List ℚ)
  /-- `n[i] = x` -/
  | assign (loc i : Nat) (x : ℚ)
  /-- `sampler.set_initial_n_samples(arg)` -/
  | init (k : Nat) (arg : InitArg)
  /-- any other call on a sampler; `setInitial` is not used here -/
  | call (k : Nat) (op : SamplerOp V)

/-- Lines 104-110 of `set_initial_n_samples`: arrays with one or two entries are replaced by a new array of integers, `none`
if the array stays the same object. `rng levels n0 nL` is `sample_range` (`sampleRange` of `Model.Initial`). /repo/mlmc/sampler.py:103-110. -/
def expandInit (rng : Nat → ℚ → ℚ → List ℤ) (levels : Nat) (data : List ℚ) : Option NArr :=
  match data with
  | [x] => some ⟨true, (rng levels x 10).map fun z : ℤ => (z : ℚ)⟩
  | [x, y] => some ⟨true, (rng levels x y).map fun z : ℤ => (z : ℚ)⟩
  | _ => none

/-- `self._n_target_samples` becomes a new array. /repo/mlmc/sampler.py:29, 112. -/
def TState.pushTarget {V : Type} (st : TState V) (k : Nat) (s : TSampler V) (a : NArr) : TState V :=
  { heap := st.heap ++ [a], samplers := st.samplers.set k { s with loc := st.heap.length } }

/-- `Sampler.set_initial_n_samples`, /repo/mlmc/sampler.py:92-112. -/
def TState.init {V : Type} (rng : Nat → ℚ → ℚ → List ℤ) (st : TState V) (k : Nat) (arg : InitArg) : TState V :=
  match st.samplers[k]? with
  | none => st
  | some s =>
    match arg with
    | .default => st.pushTarget k s ⟨true, (rng s.sys.store.length 100 10).map fun z : ℤ => (z : ℚ)⟩
    | .values ints data => st.pushTarget k s ((expandInit rng s.sys.store.length data).getD (npMake ints data))
    | .array loc =>
      match st.heap[loc]? with
      | none => st
      | some a =>
        match expandInit rng s.sys.store.length a.data with
        | some b => st.pushTarget k s b
        | none => { st with samplers := st.samplers.set k { s with loc := loc } }

/-- Any other call: the numbers are those of the array; they are changed in place, only a new `Sampler` gets a new array
(`np.zeros`, floats). /repo/mlmc/sampler.py:29, 133, 254-261. -/
def TState.call {V : Type} (st : TState V) (k : Nat) (op : SamplerOp V) : TState V :=
  match st.samplers[k]? with
  | none => st
  | some s =>
    match st.heap[s.loc]? with
    | none => st
    | some a =>
      let sys := Sys.step { s.sys with target := a.data } op
      match op with
      | .restart => st.pushTarget k { s with sys := sys } ⟨false, sys.target⟩
      | .crashInSchedule _ => st.pushTarget k { s with sys := sys } ⟨false, sys.target⟩
      | _ => { heap := st.heap.set s.loc (npMake a.ints sys.target), samplers := st.samplers.set k { s with sys := sys } }

/-- One step of the program, /repo/mlmc/sampler.py:92-286. -/
def TState.step {V : Type} (rng : Nat → ℚ → ℚ → List ℤ) (st : TState V) : TOp V → TState V
  | .make ints data => { st with heap := st.heap ++ [npMake ints data] }
  | .assign loc i x =>
    match st.heap[loc]? with
    | none => st
    | some a => { st with heap := st.heap.set loc { a with data := a.data.set i (npStored a.ints x) } }
  | .init k arg => st.init rng k arg
  | .call k op => st.call k op

/-- A program, /repo/mlmc/sampler.py:92-286. -/
def TState.run {V : Type} (rng : Nat → ℚ → ℚ → List ℤ) (st : TState V) (ops : List (TOp V)) : TState V := ops.foldl (TState.step rng) st

/-- New samplers on storages with the given content: each has its own array of zeros. /repo/mlmc/sampler.py:29. -/
def TState.start {V : Type} (syss : List (Sys V)) : TState V :=
  { heap := syss.map fun s => ⟨false, s.target⟩
    samplers := syss.zipIdx.map fun (s, i) => ⟨i, s⟩ }

end MLMC
