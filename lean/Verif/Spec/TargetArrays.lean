import Verif.Model.TargetArrays
/-
Notions for C140: what the calls of a program mean for one sampler when arguments are values.
-/
namespace MLMC

variable {V : Type}

/-- The numbers passed to `set_initial_n_samples` by value: the content the array has when it is passed, after the expansion of
one or two numbers. -/
def TState.passed (rng : Nat → ℚ → ℚ → List ℤ) (st : TState V) (levels : Nat) : InitArg → Option (List ℚ)
  | .default => some ((rng levels 100 10).map fun z : ℤ => (z : ℚ))
  | .values _ data => some (((expandInit rng levels data).map NArr.data).getD data)
  | .array loc => (st.heap[loc]?).map fun a => ((expandInit rng levels a.data).map NArr.data).getD a.data

/-- Number of levels of sampler `k`. -/
def TState.levels (st : TState V) (k : Nat) : Nat := (st.samplers[k]?).elim 0 fun s => s.sys.store.length

/-- The calls of a program on sampler `k`, with the values of their arguments at the time of the call. -/
def TState.callsOn (rng : Nat → ℚ → ℚ → List ℤ) (k : Nat) : TState V → List (TOp V) → List (SamplerOp V)
  | _, [] => []
  | st, o :: os =>
    (match o with
      | .init j arg => if j = k then ((st.passed rng (st.levels k) arg).map SamplerOp.setInitial).toList else []
      | .call j op => if j = k then [op] else []
      | _ => []) ++ callsOn rng k (st.step rng o) os

/-- The program does not share arrays: it does not assign to an array that a sampler uses as its target numbers, and an array
with other than one or two entries is not passed to a sampler while another sampler uses it. -/
def TState.Unshared (rng : Nat → ℚ → ℚ → List ℤ) : TState V → List (TOp V) → Prop
  | _, [] => True
  | st, o :: os =>
    (match o with
      | .assign loc _ _ => ∀ s ∈ st.samplers, s.loc ≠ loc
      | .init k (.array loc) => (∃ a, st.heap[loc]? = some a ∧ (a.data.length = 1 ∨ a.data.length = 2)) ∨
          ∀ j s, j ≠ k → st.samplers[j]? = some s → s.loc ≠ loc
      | .call _ (.setInitial _) => False
      | _ => True) ∧ Unshared rng (st.step rng o) os

/-- The program neither assigns to array `loc` nor passes it, unless it has one or two entries. -/
def TState.NotPassed (rng : Nat → ℚ → ℚ → List ℤ) (loc : Nat) : TState V → List (TOp V) → Prop
  | _, [] => True
  | st, o :: os =>
    (match o with
      | .assign l _ _ => l ≠ loc
      | .init _ (.array l) => l = loc → ∃ a, st.heap[loc]? = some a ∧ (a.data.length = 1 ∨ a.data.length = 2)
      | _ => True) ∧ NotPassed rng loc (st.step rng o) os

/-- All of a sampler and its storage but the target numbers: what was scheduled, stored, handed to the pool, renewed. -/
def Sys.noTarget (s : Sys V) : Sys V := { s with target := [] }

end MLMC
