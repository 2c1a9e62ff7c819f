import Verif.Props.FlowSim
import Verif.Props.LevelSamples
import Verif.Props.TargetArrays
import Verif.Model.Initial
import Verif.Props.EstimateCalls
/-! # Parts of C75, C107, C140 and C142 that edited programs showed to be missing -/

namespace MLMC.Flow
variable {K : Type}

/-- C75: after a run the directory holds the fields of this run, whether or not the solver wrote a balance; files other than these two are as before. -/
theorem C75_files_of_run (solve : Solver K) (ids : List ℤ) (s : InputSample K) (d : Dir K) :
    Dict.get? (solveIn solve ids s d) fieldsFile = some (.fields ids s) ∧ ∀ n, n ≠ fieldsFile → n ≠ balanceFile → Dict.get? (solveIn solve ids s d) n = Dict.get? d n := by
  have hne : fieldsFile ≠ balanceFile := by decide
  unfold solveIn
  cases solve ids s with
  | none => exact ⟨Dict.get?_set_self _ _ _, fun n h1 _ => Dict.get?_set_ne _ _ h1⟩
  | some b => exact ⟨by rw [Dict.get?_set_ne _ _ hne, Dict.get?_set_self], fun n h1 h2 => by rw [Dict.get?_set_ne _ _ h2, Dict.get?_set_ne _ _ h1]⟩

/-- A solver without a balance after one with a balance: the old balance and the new fields. -/
example : let d := solveIn (K := ℚ) (fun _ _ => none) [2] [] (solveIn (fun _ _ => some []) [1] [] [])
    Dict.get? d fieldsFile = some (.fields [2] []) ∧ (Dict.get? d balanceFile).isSome = true := ⟨(C75_files_of_run _ _ _ _).1, rfl⟩

end MLMC.Flow

namespace MLMC.Read
variable {F : Type} [Field F]

/-- C107: a mean over the memory storage reads one chunk for every level with stored pairs, with all of them, whatever was saved before. -/
theorem C107_memory_chunks (ops : List (StoreOp (Pair F))) (s : MemStore (Pair F)) (hs : memRun {} ops = .ok s) (ch : Chunk) :
    ch ∈ (memSource (F := F)).allChunks s ↔ ∃ l, savedPairs ops l ≠ [] ∧ ch = ⟨0, 0, (savedPairs ops l).length, l⟩ := by
  constructor
  · intro hch
    obtain ⟨l, _, h⟩ := List.mem_flatMap.1 (show ch ∈ memChunks s from hch)
    simp only [MemStore.levelChunks, mem_level l ops s hs] at h
    by_cases hne : savedPairs ops l = []
    · simp [hne, Except.toOption] at h
    · simp only [if_neg hne, Except.toOption, Option.getD_some, List.mem_singleton] at h
      exact ⟨l, hne, h⟩
  · rintro ⟨l, hne, rfl⟩
    have hg := mem_level l ops s hs
    rw [if_neg hne] at hg
    refine List.mem_flatMap.2 ⟨l, (Dict.get?_isSome_iff _ _).1 (by rw [hg]; rfl), ?_⟩
    simp [MemStore.levelChunks, hg, Except.toOption]

/-- One sample of level 0 and two of level 1, saved in two calls. -/
example : ((memRun (V := Pair ℚ) {} [.samples [(1, [(['a'], ([some 1], [some 2]))])] [], .samples [(0, [(['b'], ([some 3], [some 0]))]), (1, [(['c'], ([some 4], [some 5]))])] []]).map (memSource (F := ℚ)).allChunks).toOption
    = some [⟨0, 0, 2, 1⟩, ⟨0, 0, 1, 0⟩] := by decide +kernel

end MLMC.Read

namespace MLMC
variable {F : Type}

/-- C140: the arrays that `set_initial_n_samples` makes or keeps hold the numbers of `initialTarget` (`C08_initial_numbers`), in particular 10 on the last level if only one number is given. -/
theorem C140_initial_numbers (rng : Nat → ℚ → ℚ → List ℤ) (hrng : ∀ (L : Nat) (a b : ℤ), rng L a b = sampleRange L a b) (L : Nat) (ns : List ℤ) :
    (((expandInit rng L (ns.map fun z : ℤ => (z : ℚ))).map NArr.data).getD (ns.map fun z : ℤ => (z : ℚ))) = (initialTarget L (some ns)).map fun z : ℤ => (z : ℚ) := by
  match ns with
  | [] => rfl
  | [a] =>
    have := hrng L a 10
    simp only [expandInit, initialTarget, List.map_cons, List.map_nil, Option.map_some, Option.getD_some]
    rw [← this]
    norm_num
  | [a, b] =>
    have := hrng L a b
    simp only [expandInit, initialTarget, List.map_cons, List.map_nil, Option.map_some, Option.getD_some]
    rw [← this]
  | a :: b :: c :: r => rfl

/-- There is such a function, it gives 10 on the last of two levels if only 100 is given. -/
example : ∃ rng : Nat → ℚ → ℚ → List ℤ, (∀ (L : Nat) (a b : ℤ), rng L a b = sampleRange L a b) ∧ ((expandInit rng 2 [100]).map NArr.data) = some ((initialTarget 2 (some [100])).map fun z : ℤ => (z : ℚ)) := by
  refine ⟨fun L a b => sampleRange L a b, fun L a b => by push_cast; rfl, ?_⟩
  have := C140_initial_numbers (fun L a b => sampleRange L a b) (fun L a b => by push_cast; rfl) 2 [100]
  simpa [expandInit] using this

/-- C142: a round of the bootstrap evaluates the moments on the surface: all `size` moment functions, as `moments(quantity, moments_fn, mom_at_bottom=False)` does. -/
theorem C142_surface_moments (oid : Nat) (fn : MomentFn (Option F)) (q : Quantity (Option F)) :
    q.moments oid fn false = Quantity.mk oid (.array [fn.size] q.qtype) (surfaceMoments fn) [q] := by
  unfold Quantity.moments surfaceMoments
  simp only [Bool.false_eq_true, if_false]

/-- Two moment functions of one value: the value and its double. -/
example (j k : Nat) : (match surfaceMoments (F := ℚ) ⟨2, fun i v => v.map fun x => (i + 1) * x⟩ [.arr ⟨1, 1, [fun _ _ => some 3]⟩] with
    | .ok (.arr a) => a.rows.map fun r => r j k | _ => []) = [some 3, some 6] := by
  simp [surfaceMoments, unArr, Except.map, List.range_succ]; norm_num

end MLMC
