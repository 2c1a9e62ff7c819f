import Verif.Spec.ShapedStore
import Verif.Model.Pool
import Mathlib.Tactic.Linarith
/-
C141: results of an unexpected shape.
-/
namespace MLMC

variable {F : Type} [Zero F]

omit [Zero F] in
theorem base_set (st : List (ShGroup F)) (l : Nat) (g g' : ShGroup F) (f : LevelGroup (List F × List F) → LevelGroup (List F × List F)) (h : st[l]? = some g)
    (hf : g'.base = f g.base) : shBase (st.set l g') = (shBase st).modify l f := by
  have hl : l < st.length := by
    by_contra hc
    rw [List.getElem?_eq_none (by omega)] at h; cases h
  apply List.ext_getElem?
  intro i
  by_cases e : l = i
  · subst e
    simp only [shBase, List.getElem?_map, List.getElem?_set_self hl, List.getElem?_modify, if_true, h, Option.map_some, hf]
    rfl
  · simp only [shBase, List.getElem?_map, List.getElem?_set_ne e, List.getElem?_modify, if_neg e]
    cases st[i]? <;> rfl

theorem append_fits (sh : List Nat) (g : ShGroup F) (samples : List (SampleId × Res F)) (h0 : samples ≠ [])
    (hg : g.shape = none ∧ g.base.collectedValues = none ∨ g.shape = some sh ∧ g.base.collectedValues.isSome) (hs : ∀ s ∈ samples, s.2.shape = sh) :
    g.append samples = ({ shape := some sh, base := { g.base with
      collectedIds := g.base.collectedIds ++ samples.map (·.1), collectedValues := some (g.base.collectedValues.getD [] ++ samples.map fun s => s.2.pair) } }, none) := by
  match samples, h0 with
  | (i, r0) :: rest, _ =>
    have h1 : r0.shape = sh := hs (i, r0) (List.mem_cons_self ..)
    have h2 : g.shape.getD r0.shape = sh := by rcases hg with ⟨h, _⟩ | ⟨h, _⟩ <;> simp [h, h1]
    have h3 : (((i, r0) :: rest).all fun s => s.2.shape == r0.shape) = true := by
      rw [List.all_eq_true]; intro s hm
      rw [hs s hm, h1]; exact beq_self_eq_true _
    rw [h1] at h2 h3
    simp only [ShGroup.append, h1, h3, h2, if_true]

theorem saveSuccessful_fits (sh : Nat → List Nat) : ∀ (succ : List (Nat × List (SampleId × Res F))) (st : List (ShGroup F)), BatchFits sh succ → StoreFits sh st →
    (∀ e ∈ succ, e.1 < st.length) → ∃ st', shSaveSuccessful succ st = (st', none) ∧ StoreFits sh st' ∧ st'.length = st.length ∧
      shBase st' = applyOps (saveSuccessfulOps (plainBatch succ)) (shBase st)
  | [], st, _, h, _ => ⟨st, rfl, h, rfl, rfl⟩
  | (l, samples) :: rest, st, hb, hf, hl => by
    have hb' : BatchFits sh rest := fun e he => hb e (List.mem_cons_of_mem _ he)
    have hlt : l < st.length := hl (l, samples) (List.mem_cons_self ..)
    by_cases h0 : samples = []
    · subst h0
      obtain ⟨st', h1, h2, h3, h4⟩ := saveSuccessful_fits sh rest st hb' hf fun e he => hl e (List.mem_cons_of_mem _ he)
      refine ⟨st', by simpa [shSaveSuccessful] using h1, h2, h3, ?_⟩
      simpa [plainBatch, saveSuccessfulOps] using h4
    · have hg : st[l]? = some st[l] := List.getElem?_eq_getElem hlt
      obtain ⟨hfa, hsh⟩ := hf l _ hg
      have ha := append_fits (sh l) st[l] samples h0 hsh fun s hm => hb (l, samples) (List.mem_cons_self ..) s hm
      set g' : ShGroup F := { shape := some (sh l), base := { st[l].base with
        collectedIds := st[l].base.collectedIds ++ samples.map (·.1), collectedValues := some (st[l].base.collectedValues.getD [] ++ samples.map fun s => s.2.pair) } } with hg'
      have hf' : StoreFits sh (st.set l g') := by
        intro i x hx
        by_cases e : l = i
        · subst e
          rw [List.getElem?_set_self hlt] at hx; cases hx
          exact ⟨hfa, Or.inr ⟨rfl, rfl⟩⟩
        · rw [List.getElem?_set_ne e] at hx
          exact hf i x hx
      obtain ⟨st', h1, h2, h3, h4⟩ := saveSuccessful_fits sh rest (st.set l g') hb' hf' fun e he => by rw [List.length_set]; exact hl e (List.mem_cons_of_mem _ he)
      have hp : samples.length > 0 := List.length_pos_iff.2 h0
      refine ⟨st', ?_, h2, by rw [h3, List.length_set], ?_⟩
      · rw [shSaveSuccessful, if_pos hp, hg]
        simp only [ha]
        exact h1
      · rw [h4, base_set st l st[l] g' (fun x => { x with
          collectedIds := x.collectedIds ++ samples.map (·.1), collectedValues := some (x.collectedValues.getD [] ++ samples.map fun s => s.2.pair) }) hg rfl]
        have hp' : (samples.map fun s => (s.1, s.2.pair)).length > 0 := by simpa using hp
        simp only [plainBatch, List.map_cons, saveSuccessfulOps, List.flatMap_cons, if_pos hp', applyOps, List.foldl_append]
        congr 1
        simp only [appendSuccessfulOps, List.foldl_cons, List.foldl_nil, FileOp.apply, List.modify_modify_eq]
        congr 1
        funext x
        cases hx : x.collectedValues <;> simp [hx, Function.comp_def]

omit [Zero F] in
theorem saveFailed_fits (sh : Nat → List Nat) : ∀ (failed : List (Nat × List (SampleId × Msg))) (st : List (ShGroup F)), StoreFits sh st →
    (∀ e ∈ failed, e.1 < st.length) → ∃ st', shSaveFailed failed st = (st', none) ∧ StoreFits sh st' ∧ st'.length = st.length ∧
      shBase st' = applyOps (saveFailedOps failed) (shBase st)
  | [], st, h, _ => ⟨st, rfl, h, rfl, rfl⟩
  | (l, fs) :: rest, st, hf, hl => by
    have hlt : l < st.length := hl (l, fs) (List.mem_cons_self ..)
    by_cases h0 : fs = []
    · subst h0
      obtain ⟨st', h1, h2, h3, h4⟩ := saveFailed_fits sh rest st hf fun e he => hl e (List.mem_cons_of_mem _ he)
      refine ⟨st', by simpa [shSaveFailed] using h1, h2, h3, ?_⟩
      simpa [saveFailedOps] using h4
    · have hg : st[l]? = some st[l] := List.getElem?_eq_getElem hlt
      obtain ⟨hfa, hsh⟩ := hf l _ hg
      obtain ⟨f, hfe⟩ := Option.isSome_iff_exists.1 hfa
      set g' : ShGroup F := { st[l] with base := { st[l].base with failed := some (f ++ fs) } } with hg'
      have hf' : StoreFits sh (st.set l g') := by
        intro i x hx
        by_cases e : l = i
        · subst e
          rw [List.getElem?_set_self hlt] at hx; cases hx
          exact ⟨rfl, hsh⟩
        · rw [List.getElem?_set_ne e] at hx
          exact hf i x hx
      obtain ⟨st', h1, h2, h3, h4⟩ := saveFailed_fits sh rest (st.set l g') hf' fun e he => by rw [List.length_set]; exact hl e (List.mem_cons_of_mem _ he)
      have hp : fs.length > 0 := List.length_pos_iff.2 h0
      refine ⟨st', ?_, h2, by rw [h3, List.length_set], ?_⟩
      · rw [shSaveFailed, if_pos hp, hg]
        simp only [hfe]
        exact h1
      · rw [h4, base_set st l st[l] g' (fun x => { x with failed := x.failed.map (· ++ fs) }) hg (by simp [hg', hfe])]
        simp only [saveFailedOps, List.flatMap_cons, if_pos hp, applyOps, List.foldl_append]
        rfl

/-- `C141`, the part that holds: if on each level all results have one shape, storing never raises, whatever the number and
order of calls, and the file holds exactly what a storage holds that takes results as they are (`Model.Storage`), so C15-C21 apply. -/
theorem C141_one_shape_partial (sh : Nat → List Nat) : ∀ (calls : List (List (Nat × List (SampleId × Res F)) × List (Nat × List (SampleId × Msg)))) (st : List (ShGroup F)),
    StoreFits sh st → (∀ c ∈ calls, BatchFits sh c.1 ∧ (∀ e ∈ c.1, e.1 < st.length) ∧ ∀ e ∈ c.2, e.1 < st.length) →
    ∃ st', shRun calls st = (st', none) ∧
      shBase st' = calls.foldl (fun s c => applyOps (saveSamplesOps (plainBatch c.1) c.2) s) (shBase st)
  | [], st, _, _ => ⟨st, rfl, rfl⟩
  | (succ, failed) :: rest, st, hf, hc => by
    obtain ⟨c1, c2, c3⟩ := hc (succ, failed) (List.mem_cons_self ..)
    obtain ⟨s1, a1, a2, a3, a4⟩ := saveSuccessful_fits sh succ st c1 hf c2
    obtain ⟨s2, b1, b2, b3, b4⟩ := saveFailed_fits sh failed s1 a2 (by rw [a3]; exact c3)
    obtain ⟨s3, d1, d2⟩ := C141_one_shape_partial sh rest s2 b2 (by rw [b3, a3]; exact fun c h => hc c (List.mem_cons_of_mem _ h))
    refine ⟨s3, ?_, ?_⟩
    · rw [shRun]
      simp only [shSave, a1, b1]
      exact d1
    · rw [d2, b4, a4]
      simp only [List.foldl_cons, saveSamplesOps, applyOps, List.foldl_append]

/-- `C141` is false: if a batch has a result of another shape than the results on the level (`sh`), or two results of different
shapes, `append_successful` raises, but all samples of the batch are in the file as collected, with zeros as their results. -/
theorem C141_zeros_counterexample (g : ShGroup F) (sh : List Nat) (hg : g.shape = some sh) (old : List (List F × List F)) (ho : g.base.collectedValues = some old)
    (samples : List (SampleId × Res F)) (hbad : ∃ s ∈ samples, s.2.shape ≠ sh) :
    ∃ e, (g.append samples).2 = some e ∧ (g.append samples).1.base.collectedIds = g.base.collectedIds ++ samples.map (·.1) ∧
      (g.append samples).1.base.collectedValues = some (old ++ List.replicate samples.length (zeroItem sh)) := by
  match samples, hbad with
  | (i, r0) :: rest, hbad =>
    have hr : (((i, r0) :: rest).map fun _ => (zeroItem sh : List F × List F)) = List.replicate (rest.length + 1) (zeroItem sh) := by
      rw [List.map_const']; rfl
    by_cases h : (((i, r0) :: rest).all fun s => s.2.shape == r0.shape) = true
    · have hne : r0.shape ≠ sh := by
        rintro rfl
        obtain ⟨s, hm, hs⟩ := hbad
        rw [List.all_eq_true] at h
        exact hs (beq_iff_eq.1 (h s hm))
      refine ⟨.typeError, ?_⟩
      simp only [ShGroup.append, h, if_true, hg, Option.getD_some, if_neg hne, ho, hr, List.length_cons, and_self]
    · refine ⟨.valueError, ?_⟩
      simp only [ShGroup.append, if_neg h, hg, Option.getD_some, ho, hr, List.length_cons, and_self]

/-- The samples stored as zeros are not unfinished, so they are not computed again after a restart. -/
theorem C141_not_unfinished (g : ShGroup F) (samples : List (SampleId × Res F)) (h0 : samples ≠ []) (ids : List SampleId)
    (hu : (g.append samples).1.base.unfinishedIds = .ok ids) : ∀ s ∈ samples, s.1 ∉ ids := by
  have hc : (g.append samples).1.base.collectedIds = g.base.collectedIds ++ samples.map (·.1) := by
    match samples, h0 with
    | (i, r0) :: rest, _ =>
      simp only [ShGroup.append]
      split
      · split <;> rfl
      · rfl
  intro s hs hm
  unfold LevelGroup.unfinishedIds LevelGroup.finishedIds at hu
  cases hf : (g.append samples).1.base.failed with
  | none => rw [hf] at hu; cases hu
  | some f =>
    rw [hf] at hu
    simp only [bind, Except.bind, pure, Except.pure, Except.ok.injEq] at hu
    subst hu
    simp only [List.mem_filter, decide_eq_true_eq] at hm
    apply hm.2
    rw [hc]
    simp only [List.mem_append, List.mem_map]
    exact Or.inl (Or.inr ⟨s, hs, rfl⟩)

theorem append_failed (g : ShGroup F) (samples : List (SampleId × Res F)) : (g.append samples).1.base.failed = g.base.failed := by
  match samples with
  | [] => rfl
  | (i, r0) :: rest =>
    simp only [ShGroup.append]
    split
    · split <;> rfl
    · rfl

theorem saveSuccessful_failed : ∀ (succ : List (Nat × List (SampleId × Res F))) (st : List (ShGroup F)),
    (shSaveSuccessful succ st).1.map (fun g => g.base.failed) = st.map fun g => g.base.failed
  | [], _ => rfl
  | (l, samples) :: rest, st => by
    rw [shSaveSuccessful]
    split
    · cases hg : st[l]? with
      | none => rfl
      | some g =>
        have hset : ∀ g', g'.base.failed = g.base.failed → (st.set l g').map (fun x : ShGroup F => x.base.failed) = st.map fun x => x.base.failed := by
          intro g' he
          rw [List.map_set, he]
          apply List.ext_getElem?
          intro i
          by_cases e : l = i
          · subst e
            have hl : l < st.length := by
              by_contra hc
              rw [List.getElem?_eq_none (by omega)] at hg; cases hg
            rw [List.getElem?_set_self (by simpa using hl), List.getElem?_map, hg]; rfl
          · rw [List.getElem?_set_ne e]
        have ha := append_failed g samples
        rcases hr : g.append samples with ⟨g', _ | e⟩
        · rw [hr] at ha
          simp only [hr]
          rw [saveSuccessful_failed rest, hset g' ha]
        · rw [hr] at ha
          simp only [hr]
          exact hset g' ha
    · exact saveSuccessful_failed rest st

/-- The same for a call of `save_samples`: batches of the levels before the one with the unexpected shape are stored (`st1`), that level gets zeros, the levels after it and the
failed samples get nothing. -/
theorem C141_save_zeros_counterexample (before : List (Nat × List (SampleId × Res F))) (l : Nat) (samples : List (SampleId × Res F)) (after : List (Nat × List (SampleId × Res F)))
    (failed : List (Nat × List (SampleId × Msg))) (st st1 : List (ShGroup F)) (hb : shSaveSuccessful before st = (st1, none)) (g : ShGroup F) (hl : st1[l]? = some g)
    (sh : List Nat) (hg : g.shape = some sh) (old : List (List F × List F)) (ho : g.base.collectedValues = some old) (hbad : ∃ s ∈ samples, s.2.shape ≠ sh) :
    ∃ e g', shSave (before ++ (l, samples) :: after) failed st = (st1.set l g', some e) ∧ g'.base.collectedIds = g.base.collectedIds ++ samples.map (·.1) ∧
      g'.base.collectedValues = some (old ++ List.replicate samples.length (zeroItem sh)) := by
  obtain ⟨e, h1, h2, h3⟩ := C141_zeros_counterexample g sh hg old ho samples hbad
  refine ⟨e, (g.append samples).1, ?_, h2, h3⟩
  have hlen : samples.length > 0 := by
    obtain ⟨s, hs, _⟩ := hbad
    exact List.length_pos_of_mem hs
  have hsucc : ∀ (before : List (Nat × List (SampleId × Res F))) (st : List (ShGroup F)), shSaveSuccessful before st = (st1, none) →
      shSaveSuccessful (before ++ (l, samples) :: after) st = (st1.set l (g.append samples).1, some e) := by
    intro before
    induction before with
    | nil =>
      intro st h
      simp only [shSaveSuccessful, Prod.mk.injEq, and_true] at h
      subst h
      rcases hx : g.append samples with ⟨g', x⟩
      rw [hx] at h1
      dsimp only at h1
      subst h1
      simp only [List.nil_append, shSaveSuccessful, if_pos hlen, hl, hx]
    | cons b bs ih =>
      intro st h
      obtain ⟨l', ss⟩ := b
      rw [List.cons_append]
      simp only [shSaveSuccessful] at h ⊢
      by_cases hss : ss.length > 0
      · rw [if_pos hss] at h ⊢
        cases hx : st[l']? with
        | none => rw [hx] at h; simp at h
        | some g1 =>
          rw [hx] at h
          dsimp only at h ⊢
          rcases hy : g1.append ss with ⟨g2, y⟩
          rw [hy] at h
          cases y with
          | some e' => simp at h
          | none => exact ih _ h
      · rw [if_neg hss] at h ⊢
        exact ih _ h
  simp only [shSave, hsucc before st hb]

/-- When storing the results raises, the failed samples of the same poll are not stored at all; the pool has already given them away. -/
theorem C141_failed_lost_counterexample (succ : List (Nat × List (SampleId × Res F))) (failed : List (Nat × List (SampleId × Msg))) (st st' : List (ShGroup F)) (e : PyErr)
    (h : shSaveSuccessful succ st = (st', some e)) :
    shSave succ failed st = (st', some e) ∧ (shSave succ failed st).1.map (fun g => g.base.failed) = st.map fun g => g.base.failed := by
  have h1 : shSave succ failed st = (st', some e) := by simp only [shSave, h]
  refine ⟨h1, ?_⟩
  have := saveSuccessful_failed succ st
  rw [h] at this
  rw [h1]; exact this

omit [Zero F] in
/-- A `Memory` storage raises as well; it counts the samples as finished, and stores nothing of them. -/
theorem C141_memory_counterexample (m : ShMemLevel F) (sh : List Nat) (old : List (List F × List F)) (hm : m.results = some (sh, old)) (samples : List (SampleId × Res F)) (h0 : samples ≠ [])
    (sh' : List Nat) (hs : ∀ s ∈ samples, s.2.shape = sh') (hne : sh' ≠ sh) :
    (m.append samples).2 = some .valueError ∧ (m.append samples).1.results = some (sh, old) ∧ (m.append samples).1.nFinished = m.nFinished + samples.length := by
  match samples, h0 with
  | (i, r0) :: rest, _ =>
    have h1 : r0.shape = sh' := hs (i, r0) (List.mem_cons_self ..)
    have h2 : (((i, r0) :: rest).all fun s => s.2.shape == r0.shape) = true := by
      rw [List.all_eq_true]; intro s hm
      rw [hs s hm, h1]; exact beq_self_eq_true _
    rw [h1] at h2
    simp only [ShMemLevel.append, h1, h2, if_true, hm, if_neg hne, and_self]

omit [Zero F] in
/-- With one shape a `Memory` storage stores all results. -/
theorem C141_memory_partial (m : ShMemLevel F) (sh : List Nat) (old : List (List F × List F)) (hm : m.results = none ∧ old = [] ∨ m.results = some (sh, old))
    (samples : List (SampleId × Res F)) (h0 : samples ≠ []) (hs : ∀ s ∈ samples, s.2.shape = sh) :
    (m.append samples).2 = none ∧ (m.append samples).1.results = some (sh, old ++ samples.map fun s => s.2.pair) ∧
      (m.append samples).1.ids = m.ids ++ samples.map (·.1) ∧ (m.append samples).1.nFinished = m.nFinished + samples.length := by
  match samples, h0 with
  | (i, r0) :: rest, _ =>
    have h1 : r0.shape = sh := hs (i, r0) (List.mem_cons_self ..)
    have h2 : (((i, r0) :: rest).all fun s => s.2.shape == r0.shape) = true := by
      rw [List.all_eq_true]; intro s hm
      rw [hs s hm, h1]; exact beq_self_eq_true _
    rw [h1] at h2
    rcases hm with ⟨hm, rfl⟩ | hm
    · simp only [ShMemLevel.append, h1, h2, if_true, hm, List.nil_append, and_self]
    · simp only [ShMemLevel.append, h1, h2, if_true, hm, and_self]

namespace ExShaped

/-- A simulation that returns lists: one number for seed 0, two for all other seeds.  The format declares one number. -/
def sim : PoolSim Unit ℚ Unit :=
  { level := 0, cfg := (), workspace := false, filesOk := true
    calculate := fun _ s => if s = 0 then .pair (.plain [5]) (.plain [0]) else .pair (.plain [7, 8]) (.plain [0, 0])
    files := fun _ _ => (), fmt := [⟨['q'], ['m'], [1, 1], [0], [.name ['p']]⟩] }

/-- The pool reports both samples as successful: lists are not checked. -/
example : ((calculateSample (fun _ => []) sim ['a'] (some 0) 1).err, (calculateSample (fun _ => []) sim ['b'] (some 1) 1).err) = ([], []) := by decide +kernel

/-- A level with one sample. -/
def one : ShGroup ℚ := { shape := some [1], base := { scheduled := [['a'], ['b'], ['c']], collectedIds := [['a']], collectedValues := some [([5], [0])] } }

/-- Then the batch of `b` (two numbers) is stored as zeros and raises `TypeError`. -/
example : one.append [(['b'], ⟨[2], [7, 8], [0, 0]⟩)] =
    ({ shape := some [1], base := { scheduled := [['a'], ['b'], ['c']], collectedIds := [['a'], ['b']], collectedValues := some [([5], [0]), ([0], [0])] } }, some .typeError) := by
  decide +kernel

/-- A good result in a batch with a bad one is stored as zeros too. -/
example : (one.append [(['c'], ⟨[1], [6], [0]⟩), (['b'], ⟨[2], [7, 8], [0, 0]⟩)]).1.base.collectedValues = some [([5], [0]), ([0], [0]), ([0], [0])] := by
  decide +kernel

/-- If the bad result is the first of its level, all later good ones are stored as zeros. -/
example : ((({} : ShGroup ℚ).append [(['b'], ⟨[2], [7, 8], [0, 0]⟩)]).1.append [(['a'], ⟨[1], [5], [0]⟩)]).1.base.collectedValues =
    some [([7, 8], [0, 0]), ([0, 0], [0, 0])] := by decide +kernel

/-- The hypothesis of `C141_failed_lost_counterexample`. -/
example : (shSaveSuccessful [(0, [(['b'], ⟨[2], [7, 8], [0, 0]⟩)])] [one]).2 = some .typeError := by decide +kernel

/-- The hypotheses of `C141_one_shape_partial`: two levels, results of two numbers on both, two calls. -/
example : StoreFits (fun _ => [2]) ([{}, {}] : List (ShGroup ℚ)) ∧
    BatchFits (fun _ => [2]) [(0, [(['a'], (⟨[2], [7, 8], [0, 0]⟩ : Res ℚ))]), (1, [(['b'], ⟨[2], [1, 2], [3, 4]⟩)])] := by
  refine ⟨?_, ?_⟩
  · intro l g h
    match l, h with
    | 0, h => cases h; exact ⟨rfl, Or.inl ⟨rfl, rfl⟩⟩
    | 1, h => cases h; exact ⟨rfl, Or.inl ⟨rfl, rfl⟩⟩
  · simp [BatchFits]

end ExShaped

end MLMC
