import Verif.Model.Polling
import Mathlib.Tactic.Linarith
/-! Property C06: polling stores everything it collects and reports completion truthfully. -/
namespace MLMC
variable {V S : Type}

/-- Every consumed answer was stored, in order, and the last one decided the loop. -/
theorem pollLoop_spec (store : S → PoolAnswer V → S) (timeout : ℚ) : ∀ (env : List (PoolAnswer V × ℚ)) (g : S)
    (r : ℤ) (g' : S) (rest : List (PoolAnswer V × ℚ)), pollLoop store timeout env g = some (r, g', rest) →
    ∃ used last elapsed, env = used ++ (last, elapsed) :: rest ∧
      g' = (used.map (·.1) ++ [last]).foldl store g ∧ r = last.nRunning ∧
      (∀ u ∈ used, u.1.nRunning > 0 ∧ ¬ (0 < timeout ∧ timeout < u.2)) ∧
      (r ≤ 0 ∨ (0 < timeout ∧ timeout < elapsed)) := by
  intro env
  induction env with
  | nil => intro g r g' rest h; simp [pollLoop] at h
  | cons p env ih =>
    obtain ⟨a, el⟩ := p
    intro g r g' rest h
    simp only [pollLoop] at h
    split at h
    · rename_i hb
      simp only [Option.some.injEq, Prod.mk.injEq] at h
      obtain ⟨rfl, rfl, rfl⟩ := h
      exact ⟨[], a, el, rfl, rfl, rfl, by simp, Or.inr hb⟩
    · rename_i hb
      split at h
      · rename_i hr
        obtain ⟨used, last, elapsed, h1, h2, h3, h4, h5⟩ := ih _ _ _ _ h
        refine ⟨(a, el) :: used, last, elapsed, by simp [h1], by simp [h2], h3, ?_, h5⟩
        intro u hu
        rcases List.mem_cons.1 hu with rfl | hu
        · exact ⟨hr, hb⟩
        · exact h4 u hu
      · rename_i hr
        simp only [Option.some.injEq, Prod.mk.injEq] at h
        obtain ⟨rfl, rfl, rfl⟩ := h
        exact ⟨[], a, el, rfl, rfl, rfl, by simp, Or.inl (by omega)⟩

/-- C06.  For every sequence of pool answers and clock readings, every storage and every timeout:
1. a timeout `≤ 0` touches neither pool nor storage and returns 1;
2. otherwise, when the call returns, the answers it consumed are a non-empty prefix of the environment, every one of
   them was handed to the storage exactly once and in order, and the returned number is the one reported last;
3. without a timeout every earlier answer reported running samples and the last reported none (`≤ 0`);
4. with a timeout the call returns at the first answer that reports no running samples or comes after the deadline. -/
theorem C06_polling (store : S → PoolAnswer V → S) (timeout : Option ℚ) (env : List (PoolAnswer V × ℚ)) (g : S) :
    (∀ t, timeout = some t → t ≤ 0 → askPool store timeout env g = some (1, g, env)) ∧
    ((∀ t, timeout = some t → 0 < t) → ∀ r g' rest, askPool store timeout env g = some (r, g', rest) →
      ∃ used last elapsed, env = used ++ (last, elapsed) :: rest ∧
        g' = (used.map (·.1) ++ [last]).foldl store g ∧ r = last.nRunning ∧
        (timeout = none → r ≤ 0 ∧ ∀ u ∈ used, u.1.nRunning > 0) ∧
        (∀ t, timeout = some t → (r ≤ 0 ∨ t < elapsed) ∧ ∀ u ∈ used, u.1.nRunning > 0 ∧ u.2 ≤ t)) := by
  constructor
  · intro t ht h0
    simp [askPool, ht, h0]
  · intro hpos r g' rest h
    cases timeout with
    | none =>
      obtain ⟨used, last, elapsed, h1, h2, h3, h4, h5⟩ := pollLoop_spec store 0 env g r g' rest h
      refine ⟨used, last, elapsed, h1, h2, h3, ?_, by simp⟩
      intro _
      refine ⟨?_, fun u hu => (h4 u hu).1⟩
      rcases h5 with h | h
      · exact h
      · exact absurd h.1 (lt_irrefl _)
    | some t =>
      have ht := hpos t rfl
      simp only [askPool, not_le.2 ht, if_false] at h
      obtain ⟨used, last, elapsed, h1, h2, h3, h4, h5⟩ := pollLoop_spec store t env g r g' rest h
      refine ⟨used, last, elapsed, h1, h2, h3, by simp, ?_⟩
      intro t' ht'
      cases ht'
      refine ⟨?_, ?_⟩
      · rcases h5 with h | h
        · exact Or.inl h
        · exact Or.inr h.2
      · intro u hu
        refine ⟨(h4 u hu).1, ?_⟩
        by_contra hlt
        exact (h4 u hu).2 ⟨ht, not_le.1 hlt⟩

/-- C06, progress: a call without timeout returns as soon as the pool reports that nothing is running, and a call with a
timeout returns as soon as the clock passed the deadline. -/
theorem C06_polling_returns (store : S → PoolAnswer V → S) (timeout : Option ℚ) (env : List (PoolAnswer V × ℚ)) (g : S)
    (h : ∃ u ∈ env, u.1.nRunning ≤ 0 ∨ ∃ t, timeout = some t ∧ t < u.2) :
    (askPool store timeout env g).isSome = true := by
  have key : ∀ (t : ℚ) (env : List (PoolAnswer V × ℚ)) (g : S),
      (∃ u ∈ env, u.1.nRunning ≤ 0 ∨ (0 < t ∧ t < u.2)) → (pollLoop store t env g).isSome = true := by
    intro t env
    induction env with
    | nil => rintro g ⟨u, hu, _⟩; simp at hu
    | cons p env ih =>
      obtain ⟨a, el⟩ := p
      rintro g ⟨u, hu, hc⟩
      simp only [pollLoop]
      split
      · rfl
      · rename_i hb
        split
        · rename_i hr
          apply ih
          rcases List.mem_cons.1 hu with rfl | hu
          · rcases hc with hc | hc
            · simp at hc hr; omega
            · exact absurd hc hb
          · exact ⟨u, hu, hc⟩
        · rfl
  obtain ⟨u, hu, hc⟩ := h
  cases timeout with
  | none =>
    apply key
    refine ⟨u, hu, Or.inl ?_⟩
    rcases hc with hc | ⟨t, ht, _⟩
    · exact hc
    · simp at ht
  | some t =>
    simp only [askPool]
    split
    · rfl
    · rename_i hpos
      apply key
      refine ⟨u, hu, ?_⟩
      rcases hc with hc | ⟨t', ht', hc⟩
      · exact Or.inl hc
      · cases ht'; exact Or.inr ⟨not_le.1 hpos, hc⟩

/-- Non-vacuity: two answers are stored, the second ends the loop. -/
example : (askPool (fun (n : List ℤ) (a : PoolAnswer Unit) => n ++ [a.nRunning]) none
    [(⟨[], [], 2, []⟩, 1), (⟨[], [], 0, []⟩, 2), (⟨[], [], 7, []⟩, 3)] []).map (fun x => (x.1, x.2.1, x.2.2.length)) =
    some (0, [2, 0], 1) := by decide +kernel

end MLMC
