import Verif.Proofs.Crash
import Verif.Proofs.Sampler
import Verif.Model.HdfObject
import Verif.Model.Renew
import Mathlib.Tactic.Linarith
/-!
Properties C19–C24 and C71 of the HDF storage file (English text in /verif/properties.jsonl).
-/
namespace MLMC
variable {V : Type}

/-! ## C20 HDF storage never pairs an identifier with another sample's values -/

/-- The code violates C20: a crash after the identifiers of a batch were appended, followed by saving another sample,
leaves identifier `a` in front of the values of sample `b`. -/
theorem C20_counterexample :
    let ops : List (CrashOp Nat) := [.crash (.samples [(0, [(['a'], 1)])] []) 1, .call (.samples [(0, [(['b'], 2)])] [])]
    ∃ x, (crashRun (hdfFresh Nat 1) ops)[0]? = some x ∧
      x.collectedIds[0]? = some ['a'] ∧ (x.collectedValues.getD [])[0]? = some 2 ∧
      (['a'], 2) ∉ passedSucc ops 0 := by
  refine ⟨_, rfl, rfl, rfl, by decide⟩

/-- C20, partial: for every history in which no crash falls between the three writes of one batch of successful samples
(crashes everywhere else allowed), the collected identifiers and the stored values are the two halves of one and the same
list of pairs that were passed to the storage, in order.  Missing: crashes inside a batch (`C20_counterexample`). -/
theorem C20_ids_and_values_aligned_partial (n l : Nat) (hl : l < n) (ops : List (CrashOp V))
    (hops : ∀ s f k, .crash (.samples s f) k ∈ ops → k % 3 = 0 ∨ (saveSuccessfulOps s).length ≤ k) :
    ∃ (x : LevelGroup V) (ps : List (SampleId × V)), (crashRun (hdfFresh V n) ops)[l]? = some x ∧ ps.Sublist (passedSucc ops l) ∧
      x.collectedIds = ps.map (·.1) ∧ x.collectedValues.getD [] = ps.map (·.2) := by
  have hg : (hdfFresh V n)[l]? = some {} := by simp [hdfFresh, List.getElem?_replicate, hl]
  obtain ⟨y, a, b, h1, h2, _, h4, h5⟩ := crashRun_stored l ops (hdfFresh V n) {} hg [] [] ⟨rfl, rfl⟩ (by simp)
  have := h5 hops
  subst this
  exact ⟨y, a, h1, h4, h2.1, h2.2⟩

/-- C20, what holds for every crash point: identifiers and values are each a subsequence of what was passed, in order, and
every stored value's sample has its identifier stored, so values are never altered or duplicated. -/
theorem C20_crash_keeps_values_partial (n l : Nat) (hl : l < n) (ops : List (CrashOp V)) :
    ∃ (x : LevelGroup V) (a b : List (SampleId × V)), (crashRun (hdfFresh V n) ops)[l]? = some x ∧ b.Sublist a ∧ a.Sublist (passedSucc ops l) ∧
      x.collectedIds = a.map (·.1) ∧ x.collectedValues.getD [] = b.map (·.2) := by
  have hg : (hdfFresh V n)[l]? = some {} := by simp [hdfFresh, List.getElem?_replicate, hl]
  obtain ⟨y, a, b, h1, h2, h3, h4, _⟩ := crashRun_stored l ops (hdfFresh V n) {} hg [] [] ⟨rfl, rfl⟩ (by simp)
  exact ⟨y, a, b, h1, h3, h4, h2.1, h2.2⟩

/-- Non-vacuity: a crash between two batches (after 3 of 6 writes) and one in `clear_failed`. -/
example : let ops : List (CrashOp Nat) :=
      [.crash (.samples [(0, [(['a'], 1)]), (1, [(['b'], 2)])] []) 3, .crash .clearFailed 1,
       .call (.samples [(0, [(['c'], 3)])] [])]
    (crashRun (hdfFresh Nat 2) ops).map (fun x => (x.collectedIds, x.collectedValues)) =
      [([['a'], ['c']], some [1, 3]), ([], none)] := by decide +kernel

/-! ## C21 Failed samples can be renewed -/

theorem renew_zipIdx_filter (l : Nat) : ∀ (failed : List (List SampleId)) (k : Nat),
    ((((failed.zipIdx k).flatMap fun (ids, l) => ids.map fun i => (l, i)).filter
      (fun p : Nat × SampleId => p.1 = l)).map (·.2)) = if k ≤ l then (failed[l - k]?).getD [] else [] := by
  intro failed
  induction failed with
  | nil => intro k; simp
  | cons f failed ih =>
    intro k
    rw [List.zipIdx_cons, List.flatMap_cons, List.filter_append, List.map_append, ih (k + 1)]
    by_cases hk : k = l
    · subst hk
      have : ¬ k + 1 ≤ k := by omega
      simp [this, List.filter_map, Function.comp_def]
    · have h0 : (f.map fun i => (k, i)).filter (fun p : Nat × SampleId => p.1 = l) = [] := by
        rw [List.filter_eq_nil_iff]
        intro p hp
        simp only [List.mem_map] at hp
        obtain ⟨i, _, rfl⟩ := hp
        simp; omega
      rw [h0]
      by_cases hle : k ≤ l
      · have h1 : k + 1 ≤ l := by omega
        have h2 : l - k = (l - (k + 1)) + 1 := by omega
        simp only [hle, h1, if_true, List.map_nil, List.nil_append]
        rw [h2, List.getElem?_cons_succ]
      · have h1 : ¬ k + 1 ≤ l := by omega
        simp [hle, h1]

/-- Every level has its `failed` dataset. -/
def AllFailedPresent (g : HdfLevels V) : Prop := ∀ x ∈ g, x.failed ≠ none

theorem allFailed_step (s : Sys V) (o : SamplerOp V) (h : AllFailedPresent s.store) :
    AllFailedPresent (s.step o).store := by
  have key : ∀ (g' : HdfLevels V), (∀ (l : Nat) (y : LevelGroup V), g'[l]? = some y →
      ∃ x, s.store[l]? = some x ∧ (x.failed ≠ none → y.failed ≠ none)) → AllFailedPresent g' := by
    intro g' hg y hy
    obtain ⟨l, hl⟩ := List.mem_iff_getElem?.1 hy
    obtain ⟨x, hx, hxy⟩ := hg l y hl
    exact hxy (h x (List.mem_of_getElem? hx))
  have acts : ∀ (acts : List SchedAct) (s : Sys V), AllFailedPresent s.store → AllFailedPresent (runActs acts s).store := by
    intro acts
    induction acts with
    | nil => intro s h; exact h
    | cons a acts ih =>
      intro s h
      rw [runActs_cons]
      apply ih
      cases a with
      | begin l => exact h
      | hand l => simp only [SchedAct.apply]; split <;> exact h
      | save l =>
        intro y hy
        obtain ⟨i, hi⟩ := List.mem_iff_getElem?.1 hy
        simp only [SchedAct.apply] at hi
        rw [applyOps_get] at hi
        cases hx : s.store[i]? with
        | none => rw [hx] at hi; simp at hi
        | some x =>
          rw [hx] at hi
          simp only [Option.map_some, Option.some.injEq] at hi
          have hx' := h x (List.mem_of_getElem? hx)
          have := onAll_saveScheduled i l s.pending x
          simp only [onAll] at this
          rw [← hi, this]
          split <;> exact hx'
  have sch : ∀ s : Sys V, AllFailedPresent s.store → AllFailedPresent s.schedule.store := by
    intro s h
    unfold Sys.schedule
    split
    · exact acts _ s h
    · exact h
  cases o with
  | setInitial v => exact h
  | setTarget v => exact h
  | poll succ failed nOps =>
    apply key
    intro l y hy
    simp only [Sys.step, saveNOps_get, applyOps_get] at hy
    cases hx : s.store[l]? with
    | none => rw [hx] at hy; simp at hy
    | some x =>
      rw [hx] at hy
      simp only [Option.map_some, Option.some.injEq] at hy
      refine ⟨x, rfl, ?_⟩
      intro hne
      have h1 := onAll_append l (saveSuccessfulOps succ) (saveFailedOps failed) x
      rw [onAll_saveSuccessful, onAll_saveFailed] at h1
      simp only [onAll] at h1
      rw [saveSamplesOps, h1, nOpsOn_other] at hy
      rw [← hy]
      have h2 : (addSucc (atLevel succ l) x).failed = x.failed := by unfold addSucc; split <;> rfl
      simp only [h2]
      cases hf : x.failed with
      | none => exact absurd hf hne
      | some v => simp
  | schedule => exact sch s h
  | processAdding est c =>
    simp only [Sys.step, Sys.processAdding]
    split
    · exact sch _ h
    · exact h
  | renew =>
    simp only [Sys.step, Sys.renew]
    split
    · exact h
    · apply key
      intro l y hy
      simp only [applyOps_get] at hy
      cases hx : s.store[l]? with
      | none => rw [hx] at hy; simp at hy
      | some x =>
        rw [hx] at hy
        simp only [Option.map_some, Option.some.injEq] at hy
        refine ⟨x, rfl, ?_⟩
        intro hne
        have h1 := onAll_clearFailed l s.store x hx
        simp only [onAll] at h1
        rw [← hy, h1]
        simpa using hne
  | restart => exact h
  | crashInSchedule k =>
    simp only [Sys.step, Sys.restart, Sys.construct]
    split
    · exact acts _ s h
    · exact h

theorem allFailed_run (n : Nat) (ops : List (SamplerOp V)) : AllFailedPresent ((Sys.fresh V n).run ops).store := by
  have : ∀ (ops : List (SamplerOp V)) (s : Sys V), AllFailedPresent s.store → AllFailedPresent (s.run ops).store := by
    intro ops
    induction ops with
    | nil => intro s h; exact h
    | cons o ops ih => intro s h; exact ih _ (allFailed_step s o h)
  apply this
  intro x hx
  simp only [Sys.fresh, Sys.construct, List.mem_replicate] at hx
  rw [hx.2]; simp

theorem failedSamples_ok (g : HdfLevels V) (h : AllFailedPresent g) :
    hdfFailedSamples g = .ok (g.map fun x => (x.failed.getD []).map (·.1)) := by
  unfold hdfFailedSamples
  rw [mapM_ok_range _ g (fun l => (((g[l]?).bind (·.failed)).getD []).map (·.1))]
  · congr 1
    apply List.ext_getElem?
    intro l
    simp only [List.getElem?_map]
    by_cases hl : l < g.length
    · simp [List.getElem?_range hl, List.getElem?_eq_getElem hl]
    · rw [List.getElem?_eq_none (by simp; omega), List.getElem?_eq_none (by omega)]; rfl
  · intro l y hy
    have := h y (List.mem_of_getElem? hy)
    simp only [LevelGroup.failedIds, hy, Option.bind_some]
    cases hf : y.failed with
    | none => exact absurd hf this
    | some v => rfl

/-- C21: after any sampler history (with restarts), `renew_failed_samples` hands to the pool, for every level `l`, exactly
the identifiers recorded as failed on `l`, once each in order, with the simulation of level `l`; it changes neither the
scheduled numbers nor anything stored except that the failed lists become empty; and when the pool later delivers each
renewed sample once (successful or failed, in any order), the level's finished identifiers are again the same ones, each
as often as before. -/
theorem C21_renew_failed (n : Nat) (ops : List (SamplerOp V)) (l : Nat) (x : LevelGroup V)
    (hx : ((Sys.fresh V n).run ops).store[l]? = some x) :
    let s := (Sys.fresh V n).run ops
    ∃ f, x.failed = some f ∧
      (∃ r, s.renew.renewed = s.renewed ++ r ∧ (r.filter (fun p => p.1 = l)).map (·.2) = f.map (·.1) ∧
        ∀ p ∈ r, p.1 < s.store.length) ∧
      s.renew.nSched = s.nSched ∧ s.renew.target = s.target ∧ s.renew.handed = s.handed ∧
      s.renew.store[l]? = some { x with failed := some [] } ∧
      ∀ (succ : Dict Nat (List (SampleId × V))) (failed : Dict Nat (List (SampleId × Msg))),
        ((atLevel succ l).map (·.1) ++ (atLevel failed l).map (·.1)).Perm (f.map (·.1)) →
        ∃ y ids ids', (s.renew.step (.poll succ failed [])).store[l]? = some y ∧
          x.finishedIds = .ok ids ∧ y.finishedIds = .ok ids' ∧ ids'.Perm ids := by
  intro s
  have hall := allFailed_run n ops
  change AllFailedPresent s.store at hall
  have hok := failedSamples_ok s.store hall
  have hxf := hall x (List.mem_of_getElem? hx)
  cases hf : x.failed with
  | none => exact absurd hf hxf
  | some f =>
    have hl : l < s.store.length := by
      rcases Nat.lt_or_ge l s.store.length with h | h
      · exact h
      · have := List.getElem?_eq_none h
        rw [show s.store[l]? = some x from hx] at this; simp at this
    have hren : s.renew = { s with
        renewed := s.renewed ++ ((s.store.map fun x => (x.failed.getD []).map (·.1)).zipIdx.flatMap
          fun (ids, l) => ids.map fun i => (l, i))
        store := applyOps (clearFailedOps s.store) s.store } := by
      simp only [Sys.renew, hok]
    have hst : s.renew.store[l]? = some { x with failed := some [] } := by
      rw [hren]
      show (applyOps _ s.store)[l]? = _
      rw [applyOps_get, show s.store[l]? = some x from hx]
      have := onAll_clearFailed l s.store x hx
      rw [show x.failed.map (fun _ => []) = some [] by rw [hf]; rfl] at this
      simp only [Option.map_some]
      exact congrArg some this
    refine ⟨f, rfl, ⟨_, by rw [hren], ?_, ?_⟩, by rw [hren], by rw [hren], by rw [hren], hst, ?_⟩
    · rw [renew_zipIdx_filter l _ 0]
      simp [hx, hf, s]
    · intro p hp
      simp only [List.mem_flatMap, List.mem_map] at hp
      obtain ⟨⟨ids, i⟩, hi, _, _, rfl⟩ := hp
      have := (List.mem_zipIdx hi).2.1
      simpa using this
    · intro succ failed hperm
      have hy : (s.renew.step (.poll succ failed [])).store[l]? =
          some (levelStep l { x with failed := some [] } (.samples succ failed)) := by
        have := hdfStep_get s.renew.store (.samples succ failed) l
        rw [hst] at this
        exact this
      refine ⟨_, x.collectedIds ++ f.map (·.1), (x.collectedIds ++ (atLevel succ l).map (·.1)) ++ (atLevel failed l).map (·.1),
        hy, by simp [LevelGroup.finishedIds, hf], ?_, ?_⟩
      · simp only [levelStep, addSucc]
        split
        · rename_i h; simp [LevelGroup.finishedIds, h]
        · simp [LevelGroup.finishedIds]
      · rw [List.append_assoc]
        exact List.Perm.append_left _ hperm

/-- Non-vacuity: two failed samples on level 1 are renewed. -/
example : let s := (Sys.fresh Unit 2).run [.setInitial [1, 2], .schedule,
      .poll [(0, [(sampleTag 0 0, ())])] [(1, [(sampleTag 1 0, ['e']), (sampleTag 1 1, ['e'])])] []]
    s.renew.renewed = [(1, sampleTag 1 0), (1, sampleTag 1 1)] ∧ s.renew.nSched = [1, 2] ∧
    hdfNFinished s.store = .ok [1, 2] ∧ hdfNFinished s.renew.store = .ok [1, 0] ∧
    hdfNFinished (s.renew.step (.poll [(1, [(sampleTag 1 1, ())])] [(1, [(sampleTag 1 0, ['e'])])] [])).store = .ok [1, 2] := by
  decide +kernel

/-- C21 under crashes, first witness: killed after the samples were handed to the pool but before the failed records
were cleared, the restarted program renews the same sample again, and when both runs deliver, the sample is finished
twice. -/
theorem C21_crash_duplicates_counterexample :
    let s := (Sys.fresh Unit 1).run [.setInitial [1], .schedule, .poll [] [(0, [(sampleTag 0 0, ['e'])])] []]
    let s1 := (s.crashInRenew 1).renew
    s1.renewed = [(0, sampleTag 0 0), (0, sampleTag 0 0)] ∧
    hdfNFinished (s1.run [.poll [(0, [(sampleTag 0 0, ())])] [] [], .poll [(0, [(sampleTag 0 0, ())])] [] []]).store
      = .ok [2] ∧ s1.nSched = [1] := by
  decide +kernel

/-- C21 under crashes, second witness: killed between deleting and re-creating the failed dataset, the reopened storage
raises `KeyError` for the finished counts, the unfinished identifiers and any further renewal. -/
theorem C21_crash_breaks_storage_counterexample :
    let s := (Sys.fresh Unit 1).run [.setInitial [1], .schedule, .poll [] [(0, [(sampleTag 0 0, ['e'])])] []]
    let s1 := s.crashInRenew 2
    hdfNFinished s1.store = .error .keyError ∧ hdfUnfinishedIds s1.store = .error .keyError ∧
    hdfFailedSamples s1.store = .error .keyError := by
  decide +kernel

theorem onAll_failed_none (l : Nat) (os : List (FileOp V)) (h : FileOp.mkFailed l ∉ os) : ∀ x : LevelGroup V, x.failed = none → (onAll l os x).failed = none := by
  induction os with
  | nil => intro x hx; exact hx
  | cons o os ih =>
    intro x hx
    have ho : o ≠ .mkFailed l := fun e => h (by simp [e])
    refine ih (fun hm => h (by simp [hm])) (o.on l x) ?_
    cases o with
    | mkFailed l' =>
      have : l' ≠ l := fun e => ho (by rw [e])
      simp [FileOp.on, this, hx]
    | addScheduled _ _ => simp only [FileOp.on]; split <;> simp [hx]
    | addIds _ _ => simp only [FileOp.on]; split <;> simp [hx]
    | mkValues _ => simp only [FileOp.on]; split <;> simp [hx]
    | addValues _ _ => simp only [FileOp.on]; split <;> simp [hx]
    | addFailed _ _ => simp only [FileOp.on]; split <;> simp [hx]
    | delFailed _ => simp only [FileOp.on]; split <;> simp [hx]
    | setNOps _ _ => simp only [FileOp.on]; split <;> simp [hx]

theorem mkFailed_not_clear (g : HdfLevels V) (l : Nat) (x : LevelGroup V) (hx : g[l]? = some x) (hf : x.failed = none) : FileOp.mkFailed l ∉ clearFailedOps g := by
  intro h
  simp only [clearFailedOps, List.mem_flatMap] at h
  obtain ⟨k, _, h⟩ := h
  split at h
  · rename_i hk
    simp at h
    subst h
    rw [hx] at hk
    simp [hf] at hk
  · simp at h

theorem mkFailed_not_samples (s : Dict Nat (List (SampleId × V))) (f : Dict Nat (List (SampleId × Msg))) (l : Nat) : FileOp.mkFailed l ∉ saveSamplesOps s f := by
  intro h
  rcases List.mem_append.1 h with h | h
  · simp only [saveSuccessfulOps, List.mem_flatMap] at h
    obtain ⟨⟨k, ss⟩, _, h⟩ := h
    split at h <;> simp [appendSuccessfulOps] at h
  · simp only [saveFailedOps, List.mem_flatMap] at h
    obtain ⟨⟨k, ss⟩, _, h⟩ := h
    split at h <;> simp at h

/-- The second witness is not repaired by anything: once the failed dataset of a level is missing, it is missing after every further history of calls and crashes, so that asking for the
finished counts, the unfinished identifiers or the failed samples raises `KeyError` for ever (and with it every new `Sampler` on the file). -/
theorem C21_missing_dataset_stays (ops : List (CrashOp V)) : ∀ (g : HdfLevels V) (l : Nat) (x : LevelGroup V), g[l]? = some x → x.failed = none →
    hdfNFinished (crashRun g ops) = .error .keyError ∧ hdfUnfinishedIds (crashRun g ops) = .error .keyError ∧ hdfFailedSamples (crashRun g ops) = .error .keyError := by
  have fin : ∀ (g : HdfLevels V) (l : Nat) (x : LevelGroup V), g[l]? = some x → x.failed = none →
      hdfNFinished g = .error .keyError ∧ hdfUnfinishedIds g = .error .keyError ∧ hdfFailedSamples g = .error .keyError := by
    intro g
    induction g with
    | nil => intro l x h; simp at h
    | cons y g ih =>
      intro l x h hf
      have a1 : ∀ z : LevelGroup V, z.failed = none → z.finishedIds = .error .keyError := fun z hz => by simp [LevelGroup.finishedIds, hz]
      have a2 : ∀ z : LevelGroup V, z.failed = none → z.failedIds = .error .keyError := fun z hz => by simp [LevelGroup.failedIds, hz]
      have a3 : ∀ z : LevelGroup V, z.failed = none → z.unfinishedIds = .error .keyError := fun z hz => by simp [LevelGroup.unfinishedIds, a1 z hz, bind, Except.bind]
      cases hy : y.failed with
      | none => simp [hdfNFinished, hdfUnfinishedIds, hdfFailedSamples, List.mapM_cons, a1 y hy, a2 y hy, a3 y hy, bind, Except.bind]
      | some fy =>
        cases l with
        | zero =>
          simp at h
          subst h
          rw [hf] at hy
          cases hy
        | succ l =>
          obtain ⟨i1, i2, i3⟩ := ih l x (by simpa using h) hf
          have i2' : (List.mapM LevelGroup.unfinishedIds g : Except PyErr _) = .error .keyError := by
            cases e : (List.mapM LevelGroup.unfinishedIds g : Except PyErr _) with
            | error z => simp only [hdfUnfinishedIds, e, bind, Except.bind] at i2; cases i2; rfl
            | ok v => simp only [hdfUnfinishedIds, e, bind, Except.bind] at i2; cases i2
          have b1 : y.finishedIds = .ok (y.collectedIds ++ fy.map (·.1)) := by simp [LevelGroup.finishedIds, hy]
          have b2 : y.failedIds = .ok (fy.map (·.1)) := by simp [LevelGroup.failedIds, hy]
          unfold hdfNFinished at i1
          unfold hdfFailedSamples at i3
          refine ⟨?_, ?_, ?_⟩
          · simp only [hdfNFinished, List.mapM_cons, b1, bind, Except.bind, pure, Except.pure] at i1 ⊢
            rw [i1]
          · simp only [hdfUnfinishedIds, List.mapM_cons, LevelGroup.unfinishedIds, b1, bind, Except.bind, pure, Except.pure] at i2' ⊢
            rw [i2']
          · simp only [hdfFailedSamples, List.mapM_cons, b2, bind, Except.bind, pure, Except.pure] at i3 ⊢
            rw [i3]
  induction ops with
  | nil => exact fin
  | cons op ops ih =>
    intro g l x hx hf
    have keep : ∃ y, (crashStep g op)[l]? = some y ∧ y.failed = none := by
      have viaOps : ∀ os : List (FileOp V), FileOp.mkFailed l ∉ os → ∃ y, (applyOps os g)[l]? = some y ∧ y.failed = none := by
        intro os h
        refine ⟨onAll l os x, ?_, onAll_failed_none l os h x hf⟩
        rw [applyOps_get, hx]
        rfl
      have viaN : ∀ e, ∃ y, (saveNOps g e)[l]? = some y ∧ y.failed = none := by
        intro e
        refine ⟨e.foldl (nOpsOn l) x, by rw [saveNOps_get, hx]; rfl, ?_⟩
        rw [nOpsOn_other]
        exact hf
      have sched : ∀ (l' : Nat) (ids : List SampleId), FileOp.mkFailed l ∉ (saveScheduledOps l' ids : List (FileOp V)) := by
        intro l' ids h
        unfold saveScheduledOps at h
        split at h <;> simp at h
      cases op with
      | call op =>
        cases op with
        | scheduled l' ids => exact viaOps _ (sched l' ids)
        | samples s f => exact viaOps _ (mkFailed_not_samples s f l)
        | nOps e => exact viaN e
        | clearFailed => exact viaOps _ (mkFailed_not_clear g l x hx hf)
      | crash op k =>
        cases op with
        | scheduled l' ids => exact viaOps _ (fun h => sched l' ids (List.mem_of_mem_take h))
        | samples s f => exact viaOps _ (fun h => mkFailed_not_samples s f l (List.mem_of_mem_take h))
        | nOps e => exact viaN _
        | clearFailed => exact viaOps _ (fun h => mkFailed_not_clear g l x hx hf (List.mem_of_mem_take h))
    obtain ⟨y, hy, hyf⟩ := keep
    exact ih (crashStep g op) l y hy hyf

/-- The interrupted model agrees with the uninterrupted one: not interrupted at all, `crashInRenew` is `renew` followed by
a restart. -/
theorem crashInRenew_full (s : Sys V) (failed : List (List SampleId)) (h : hdfFailedSamples s.store = .ok failed) (k : Nat)
    (hk : (renewActs (V := V) failed s.store).length ≤ k) : s.crashInRenew k = s.renew.restart := by
  have hh : ∀ (ps : List (Nat × SampleId)) (s : Sys V),
      (ps.map fun p => RenewAct.hand (V := V) p.1 p.2).foldl (fun s a => a.apply s) s =
        { s with renewed := s.renewed ++ ps } := by
    intro ps
    induction ps with
    | nil => intro s; simp
    | cons p ps ih => intro s; rw [List.map_cons, List.foldl_cons, ih]; simp [RenewAct.apply]
  have hw : ∀ (os : List (FileOp V)) (s : Sys V),
      (os.map RenewAct.write).foldl (fun s a => a.apply s) s = { s with store := applyOps os s.store } := by
    intro os
    induction os with
    | nil => intro s; simp [applyOps]
    | cons o os ih => intro s; rw [List.map_cons, List.foldl_cons, ih]; simp [RenewAct.apply, applyOps]
  simp only [Sys.crashInRenew, Sys.renew, h, List.take_of_length_le hk]
  congr 1
  have e : (failed.zipIdx.flatMap fun (ids, l) => ids.map fun i => RenewAct.hand (V := V) l i) =
      (failed.zipIdx.flatMap fun (ids, l) => ids.map fun i => (l, i)).map fun p => RenewAct.hand p.1 p.2 := by
    rw [List.map_flatMap]
    congr 1
    funext p
    simp
  rw [renewActs, List.foldl_append, e, hh, hw]

/-! ## C22 Cost per sample (storage part; the pool part is in Verif/Props/Pool.lean) -/

theorem nOps_fold (l : Nat) (es : List (Nat × (ℚ × ℚ))) : ∀ x : LevelGroup V,
    (es.foldl (nOpsOn l) x).nOps =
      let rep := (es.filter fun e => decide (e.1 = l)).map (·.2)
      if rep = [] then x.nOps else
        some ((x.nOps.getD (0, 0)).1 + ((rep.filter fun r => decide (r.2 > 0)).map (·.1)).sum,
              (x.nOps.getD (0, 0)).2 + ((rep.filter fun r => decide (r.2 > 0)).map (·.2)).sum) := by
  induction es with
  | nil => intro x; simp
  | cons e es ih =>
    intro x
    rw [List.foldl_cons, ih]
    by_cases he : e.1 = l
    · by_cases hp : e.2.2 > 0
      · simp only [nOpsOn, he, hp, if_true, Option.getD_some, List.filter_cons, decide_true, List.map_cons]
        by_cases hr : (es.filter fun e => decide (e.1 = l)).map (·.2) = []
        · simp [hr]
        · simp [hr, add_assoc]
      · simp only [nOpsOn, he, hp, if_true, if_false, Option.getD_some, List.filter_cons, decide_true, List.map_cons]
        by_cases hr : (es.filter fun e => decide (e.1 = l)).map (·.2) = []
        · simp [hr]
        · simp [hr]
    · have h1 : nOpsOn l x e = x := by simp [nOpsOn, he]
      have h2 : (e :: es).filter (fun e => decide (e.1 = l)) = es.filter (fun e => decide (e.1 = l)) := by
        simp [List.filter_cons, he]
      rw [h1, h2]

theorem levelRun_nOps (l : Nat) (ops : List (StoreOp V)) : ∀ x : LevelGroup V,
    (ops.foldl (levelStep l) x).nOps =
      if savedOps ops l = [] then x.nOps else
        some ((x.nOps.getD (0, 0)).1 + (((savedOps ops l).filter fun r => decide (r.2 > 0)).map (·.1)).sum,
              (x.nOps.getD (0, 0)).2 + (((savedOps ops l).filter fun r => decide (r.2 > 0)).map (·.2)).sum) := by
  induction ops with
  | nil => intro x; simp [savedOps]
  | cons o ops ih =>
    intro x
    rw [List.foldl_cons, ih]
    cases o with
    | scheduled l' ids =>
      have : (levelStep l x (.scheduled l' ids)).nOps = x.nOps := by simp only [levelStep]; split <;> rfl
      rw [this]; rfl
    | samples s f =>
      have : (levelStep l x (.samples s f)).nOps = x.nOps := by
        simp only [levelStep, addSucc]; split <;> rfl
      rw [this]; rfl
    | clearFailed =>
      have : (levelStep l x .clearFailed).nOps = x.nOps := rfl
      rw [this]; rfl
    | nOps e =>
      have h1 : (levelStep l x (.nOps e)).nOps = _ := nOps_fold l e x
      have h2 : savedOps (.nOps e :: ops) l = (e.filter fun e => decide (e.1 = l)).map (·.2) ++ savedOps ops l := by
        simp [savedOps]
      rw [h1, h2]
      simp only
      by_cases ha : (e.filter fun e => decide (e.1 = l)).map (·.2) = []
      · rw [ha]; simp
      · by_cases hb : savedOps ops l = []
        · simp [ha, hb]
        · simp [ha, hb, add_assoc]

/-- C22, storage part: when every level has been reported at least once, `get_n_ops()` of a level is the sum of all reported
times divided by the sum of all reported sample numbers, over all reports with a positive number of samples. -/
theorem C22_storage_cost_ratio (n : Nat) (ops : List (StoreOp V)) (hrep : ∀ l, l < n → savedOps ops l ≠ []) :
    getNOps (hdfRun (hdfFresh V n) ops) = .ok ((List.range n).map fun l =>
      let pos := (savedOps ops l).filter fun r => decide (r.2 > 0)
      (pos.map (·.1)).sum / (pos.map (·.2)).sum) := by
  have hlen : (hdfRun (hdfFresh V n) ops).length = n := by rw [hdfRun_length]; simp [hdfFresh]
  unfold getNOps
  rw [mapM_ok_range _ _ (fun l =>
      let pos := (savedOps ops l).filter fun r => decide (r.2 > 0)
      (pos.map (·.1)).sum / (pos.map (·.2)).sum), hlen]
  intro l y hy
  have hl : l < n := by
    rcases Nat.lt_or_ge l n with h | h
    · exact h
    · rw [List.getElem?_eq_none (by omega)] at hy; simp at hy
  rw [hdfRun_get, hdfFresh, List.getElem?_replicate, if_pos hl] at hy
  simp only [Option.map_some, Option.some.injEq] at hy
  have h1 := levelRun_nOps l ops ({} : LevelGroup V)
  rw [hy, if_neg (hrep l hl)] at h1
  rw [h1]
  simp only [Option.getD_none, zero_add]
  congr 1
  split
  · rfl
  · rename_i hle
    have : (((savedOps ops l).filter fun r => decide (r.2 > 0)).map (·.2)).sum = 0 := by
      apply le_antisymm (not_lt.1 hle)
      have sn : ∀ l : List ℚ, (∀ a ∈ l, 0 ≤ a) → 0 ≤ l.sum := by
        intro l
        induction l with
        | nil => intro _; simp
        | cons a l ih =>
          intro h
          rw [List.sum_cons]
          exact add_nonneg (h a (by simp)) (ih fun b hb => h b (List.mem_cons_of_mem _ hb))
      apply sn
      intro a ha
      simp only [List.mem_map, List.mem_filter, decide_eq_true_eq] at ha
      obtain ⟨b, ⟨_, hb⟩, rfl⟩ := ha
      exact le_of_lt hb
    rw [this]; simp

example : getNOps (hdfRun (hdfFresh Unit 2) [.nOps [(0, (3, 2)), (1, (8, 1))], .nOps [(0, (5, 2)), (1, (0, 0))]])
    = .ok [2, 8] := by decide +kernel

/-- `(time, number)` reports with their average added up, as the memory storage does. -/
theorem memNOps_fold (l : Nat) (e : List (Nat × (ℚ × ℚ))) : ∀ (m : MemStore V) (rs : List (ℚ × ℚ)),
    Dict.get? m.nOps l = (if rs = [] then none else some ((rs.filter fun r => decide (r.2 ≠ 0)).map fun r => r.1 / r.2).sum) →
    Dict.get? (m.saveNOps e).nOps l =
      (let rs' := rs ++ (e.filter fun x => decide (x.1 = l)).map (·.2)
       if rs' = [] then none else some ((rs'.filter fun r => decide (r.2 ≠ 0)).map fun r => r.1 / r.2).sum) := by
  induction e with
  | nil => intro m rs h; simpa [MemStore.saveNOps] using h
  | cons a e ih =>
    intro m rs h
    obtain ⟨k, t, c⟩ := a
    change Dict.get? (MemStore.saveNOps _ e).nOps l = _
    by_cases hk : k = l
    · subst hk
      rw [ih _ (rs ++ [(t, c)])]
      · simp [List.append_assoc]
      · simp only [Dict.get?_upd_self, h]
        by_cases hrs : rs = []
        · subst hrs; by_cases hc : c = 0 <;> simp [hc]
        · by_cases hc : c = 0 <;> simp [hc, hrs]
    · rw [ih _ rs]
      · have hf : ((k, t, c) :: e).filter (fun x => decide (x.1 = l)) = e.filter fun x => decide (x.1 = l) := by simp [hk]
        rw [hf]
      · simp only [Dict.get?_upd_ne _ _ _ (Ne.symm hk), h]

theorem memNOps_nodup (e : List (Nat × (ℚ × ℚ))) : ∀ (m : MemStore V), (Dict.keys m.nOps).Nodup →
    (Dict.keys (m.saveNOps e).nOps).Nodup := by
  induction e with
  | nil => intro m h; exact h
  | cons a e ih => intro m h; exact ih _ (Dict.nodup_keys_upd _ _ _ _ h)

theorem memSamples_nOps (s : Dict Nat (List (SampleId × V))) (f : Dict Nat (List (SampleId × Msg))) (m m' : MemStore V)
    (h : m.saveSamples s f = .ok m') : m'.nOps = m.nOps := by
  have step2 : ∀ (f : Dict Nat (List (SampleId × Msg))) (m : MemStore V),
      (f.foldl MemStore.saveFailed1 m).nOps = m.nOps := by
    intro f
    induction f with
    | nil => intro m; rfl
    | cons e f ih => intro m; rw [List.foldl_cons, ih]; rfl
  have step1 : ∀ (s : Dict Nat (List (SampleId × V))) (m m' : MemStore V),
      s.foldlM MemStore.saveSuccessful1 m = .ok m' → m'.nOps = m.nOps := by
    intro s
    induction s with
    | nil => intro m m' h; cases h; rfl
    | cons e s ih =>
      intro m m' h
      rw [List.foldlM_cons] at h
      cases h1 : MemStore.saveSuccessful1 m e with
      | error er => rw [h1] at h; cases h
      | ok m1 =>
        rw [h1] at h
        rw [ih m1 m' h]
        obtain ⟨l', res⟩ := e
        simp only [MemStore.saveSuccessful1] at h1
        split at h1
        · cases h1
        · cases h1; rfl
  simp only [MemStore.saveSamples] at h
  cases h2 : List.foldlM MemStore.saveSuccessful1 m s with
  | error e => rw [h2] at h; cases h
  | ok m2 => rw [h2] at h; cases h; rw [step2]; exact step1 s m m2 h2

theorem memRun_nOps (ops : List (StoreOp V)) : ∀ (mem : MemStore V), memRun {} ops = .ok mem →
    (Dict.keys mem.nOps).Nodup ∧ ∀ l, Dict.get? mem.nOps l = (if savedOps ops l = [] then none else
      some (((savedOps ops l).filter fun r => decide (r.2 ≠ 0)).map fun r => r.1 / r.2).sum) := by
  induction ops using List.reverseRecOn with
  | nil => intro mem h; cases h; simp [Dict.keys, savedOps]
  | append_singleton ops o ih =>
    intro mem h
    rw [memRun_snoc] at h
    cases h0 : memRun {} ops with
    | error e => rw [h0] at h; cases h
    | ok m0 =>
      rw [h0] at h
      change memStep m0 o = .ok mem at h
      obtain ⟨h1, h2⟩ := ih m0 h0
      cases o with
      | scheduled l' ids =>
        cases h
        have hs : ∀ l, savedOps (ops ++ [.scheduled l' ids]) l = savedOps ops l := fun l => by simp [savedOps]
        exact ⟨h1, fun l => by rw [hs]; exact h2 l⟩
      | samples s f =>
        have h3 := memSamples_nOps s f m0 mem h
        have hs : ∀ l, savedOps (ops ++ [.samples s f]) l = savedOps ops l := fun l => by simp [savedOps]
        rw [h3]; exact ⟨h1, fun l => by rw [hs]; exact h2 l⟩
      | nOps e =>
        cases h
        refine ⟨memNOps_nodup e m0 h1, fun l => ?_⟩
        have hs : savedOps (ops ++ [.nOps e]) l = savedOps ops l ++ (e.filter fun x => decide (x.1 = l)).map (·.2) := by
          simp [savedOps]
        rw [memNOps_fold l e m0 _ (h2 l), hs]
      | clearFailed => cases h

/-- C22 for the memory storage, part: after any history in which exactly the levels below `n` were reported,
`get_n_ops()` of a level is the sum of the averages `time / number` of its reports.  So it is the time per sample when the
level was reported once (`C22_memory_single_report_partial`).  Missing: the ratio of the totals for more than one report,
which is false (`C22_memory_counterexample`). -/
theorem C22_memory_cost_partial (n : Nat) (ops : List (StoreOp V)) (mem : MemStore V) (hrun : memRun {} ops = .ok mem)
    (hrep : ∀ l, savedOps ops l ≠ [] ↔ l < n) :
    mem.getNOps = .ok ((List.range n).map fun l =>
      (((savedOps ops l).filter fun r => decide (r.2 ≠ 0)).map fun r => r.1 / r.2).sum) := by
  obtain ⟨h1, h2⟩ := memRun_nOps ops mem hrun
  have hk : ∀ l, l ∈ Dict.keys mem.nOps ↔ l < n := by
    intro l
    rw [← Dict.get?_isSome_iff, h2, ← hrep]
    by_cases h : savedOps ops l = [] <;> simp [h]
  have hlen : mem.nOps.length = n := by
    have hp : (Dict.keys mem.nOps).Perm (List.range n) :=
      (List.perm_ext_iff_of_nodup h1 List.nodup_range).2 fun l => by rw [hk, List.mem_range]
    simpa [Dict.keys] using hp.length_eq
  have hall : (Dict.keys mem.nOps).all (· < n) = true := by
    rw [List.all_eq_true]; intro l hl; simpa using (hk l).1 hl
  simp only [MemStore.getNOps, hlen, hall, if_true, Except.ok.injEq]
  apply List.map_congr_left
  intro l hl
  rw [h2, if_neg ((hrep l).2 (List.mem_range.1 hl))]; rfl

/-- C22 for the memory storage: a level reported once, with a positive number of samples, has the cost time / number. -/
theorem C22_memory_single_report_partial (n : Nat) (ops : List (StoreOp V)) (mem : MemStore V)
    (hrun : memRun {} ops = .ok mem) (time count : Nat → ℚ) (hpos : ∀ l, l < n → count l > 0)
    (hrep : ∀ l, savedOps ops l = if l < n then [(time l, count l)] else []) :
    mem.getNOps = .ok ((List.range n).map fun l => time l / count l) := by
  rw [C22_memory_cost_partial n ops mem hrun (fun l => by rw [hrep]; split <;> simp [*])]
  congr 1
  apply List.map_congr_left
  intro l hl
  have hl := List.mem_range.1 hl
  rw [hrep, if_pos hl]
  simp [ne_of_gt (hpos l hl)]

example : (memRun (V := Unit) {} [.nOps [(1, (3, 2)), (0, (8, 1))], .nOps [(0, (5, 2)), (1, (0, 0))]]).bind MemStore.getNOps
    = .ok [21 / 2, 3 / 2] := by decide +kernel

/-! ## C23 A storage refuses a different result format -/

/-- The code violates C23: a format in which the locations are permuted is accepted, and replaces the stored one, so stored
results are read with the wrong locations. -/
theorem C23_counterexample :
    let q : QSpec := ⟨"flux".toList, "m".toList, [1, 1], [1], [.name "well1".toList, .name "well2".toList]⟩
    let q' : QSpec := { q with locations := [.name "well2".toList, .name "well1".toList] }
    q' ≠ q ∧ saveResultFormat (some [q]) [q'] = .ok [q'] := by
  decide +kernel

/-- A second violation: with points as locations the stored format cannot be read, the comparison is skipped and every
format (here: a different name, unit and shape) is accepted. -/
theorem C23_points_counterexample :
    let q : QSpec := ⟨"flux".toList, "m".toList, [1, 1], [1], [.point 0 0 0]⟩
    let q' : QSpec := ⟨"pressure".toList, "Pa".toList, [2, 2], [7], [.point 1 2 3]⟩
    saveResultFormat (some [q]) [q'] = .ok [q'] := by
  decide +kernel

/-- All locations of a stored format are names. -/
def NamedLocations (fmt : List QSpec) : Prop := ∀ q ∈ fmt, ∀ loc ∈ q.locations, ∃ s, loc = .name s

theorem decode_named (fmt : List QSpec) (h : NamedLocations fmt) : decodeFormat (some fmt) = .ok fmt := by
  have : (fmt.all fun q => q.locations.all fun | .name _ => true | .point _ _ _ => false) = true := by
    rw [List.all_eq_true]
    intro q hq
    rw [List.all_eq_true]
    intro loc hloc
    obtain ⟨s, rfl⟩ := h q hq loc hloc
    rfl
  exact if_pos this

theorem encodeFormat_length {fmt rows : List QSpec} (h : encodeFormat fmt = .ok rows) : rows.length = fmt.length := by
  have hm : ∀ (d : FormatDtype) (l r : List QSpec), l.mapM (encodeSpec d) = .ok r → r.length = l.length := by
    intro d l
    induction l with
    | nil => intro r h; cases h; rfl
    | cons a l ih =>
      intro r h
      rw [List.mapM_cons] at h
      cases ha : encodeSpec d a with
      | error e => rw [ha] at h; cases h
      | ok x =>
        cases hl : l.mapM (encodeSpec d) with
        | error e => rw [ha, hl] at h; cases h
        | ok y => rw [ha, hl] at h; cases h; simp [ih y hl]
  rw [encodeFormat] at h
  cases hd : formatDtype fmt with
  | error e => rw [hd] at h; cases h
  | ok d => rw [hd] at h; exact hm d fmt rows h

/-- Writing a format over a stored one with as many quantities. -/
theorem writeFormat_same (old fmt : List QSpec) (h : old.length = fmt.length) : writeFormat (some old) fmt =
    match encodeFormat fmt with
    | .ok rows => if formatDtype old = formatDtype fmt then .ok rows else .error .other
    | .error e => .error e := by
  rw [writeFormat]
  cases he : encodeFormat fmt with
  | error e => rfl
  | ok rows =>
    have := encodeFormat_length he
    show (if _ then _ else _) = _
    rw [if_pos (h.trans this.symm)]

theorem formatEq_iff (a b : List QSpec) : formatEq a b = true ↔
    a.length = b.length ∧ ∀ (i : Nat) (q q' : QSpec), a[i]? = some q → b[i]? = some q' →
      q.name = q'.name ∧ q.unit = q'.unit ∧ q.shape = q'.shape ∧ q.times = q'.times ∧
        ∀ loc ∈ q.locations, loc ∈ q'.locations := by
  have hp : ∀ q q' : QSpec, q.pyEq q' = true ↔ q.name = q'.name ∧ q.unit = q'.unit ∧ q.shape = q'.shape ∧
      q.times = q'.times ∧ ∀ loc ∈ q.locations, loc ∈ q'.locations := by
    intro q q'
    simp [QSpec.pyEq, and_assoc]
  simp only [formatEq, Bool.and_eq_true, beq_iff_eq, List.all_eq_true, id]
  constructor
  · rintro ⟨h1, h2⟩
    refine ⟨h1, ?_⟩
    intro i q q' hq hq'
    rw [← hp]
    apply h2
    apply List.mem_of_getElem? (i := i)
    simp [List.getElem?_zipWith, hq, hq']
  · rintro ⟨h1, h2⟩
    refine ⟨h1, ?_⟩
    intro x hx
    obtain ⟨i, hi⟩ := List.mem_iff_getElem?.1 hx
    rw [List.getElem?_zipWith] at hi
    cases ha : a[i]? with
    | none => rw [ha] at hi; simp at hi
    | some q =>
      cases hb : b[i]? with
      | none => rw [ha, hb] at hi; simp at hi
      | some q' =>
        rw [ha, hb] at hi
        simp only [Option.some.injEq] at hi
        rw [← hi, hp]
        exact h2 i q q' ha hb

/-- C23, partial: with a stored format whose locations are names, saving global data with another format is refused with
`ValueError` whenever the number of quantities, or some name, unit, shape or time differs, or a stored location is missing
in the given format; it is refused with some error if the numbers of locations of the first quantities differ; the stored format itself is accepted
exactly when it can be encoded.  Missing: formats that differ by reordered locations (`C23_counterexample`) and point locations
(`C23_points_counterexample`). -/
theorem C23_format_guard_partial (old new : List QSpec) (hold : NamedLocations old) :
    ((old.length ≠ new.length ∨ ∃ (i : Nat) (q q' : QSpec), old[i]? = some q ∧ new[i]? = some q' ∧
        (q.name ≠ q'.name ∨ q.unit ≠ q'.unit ∨ q.shape ≠ q'.shape ∨ q.times ≠ q'.times ∨
          ∃ loc ∈ q.locations, loc ∉ q'.locations)) →
      saveResultFormat (some old) new = .error .valueError) ∧
    ((∃ q q', old.head? = some q ∧ new.head? = some q' ∧ q.locations.length ≠ q'.locations.length) →
      ∃ e, saveResultFormat (some old) new = .error e) ∧
    (saveResultFormat (some old) old = encodeFormat old) ∧
    (∀ r, saveResultFormat (some old) new = .ok r → encodeFormat new = .ok r ∧ old.length = new.length ∧
      ∀ (i : Nat) (q q' : QSpec), old[i]? = some q → new[i]? = some q' →
        q.name = q'.name ∧ q.unit = q'.unit ∧ q.shape = q'.shape ∧ q.times = q'.times ∧
          ∀ loc ∈ q.locations, loc ∈ q'.locations) := by
  have hd := decode_named old hold
  refine ⟨?_, ?_, ?_, ?_⟩
  · intro h
    have : formatEq old new = false := by
      rw [Bool.eq_false_iff]
      intro ht
      obtain ⟨h1, h2⟩ := (formatEq_iff old new).1 ht
      rcases h with h | ⟨i, q, q', hq, hq', h⟩
      · exact h h1
      · obtain ⟨a, b, c, d, e⟩ := h2 i q q' hq hq'
        rcases h with h | h | h | h | ⟨loc, hl, hl'⟩
        · exact h a
        · exact h b
        · exact h c
        · exact h d
        · exact hl' (e loc hl)
    simp only [saveResultFormat, hd, this]
    rfl
  · rintro ⟨q, q', hq, hq', hne⟩
    simp only [saveResultFormat, hd]
    by_cases hf : formatEq old new = true
    · rw [if_pos hf, writeFormat_same old new ((formatEq_iff old new).1 hf).1]
      cases encodeFormat new with
      | error e => exact ⟨e, rfl⟩
      | ok rows =>
        refine ⟨.other, ?_⟩
        simp only
        rw [if_neg]
        intro hdt
        cases old with
        | nil => cases hq
        | cons a old =>
          cases new with
          | nil => cases hq'
          | cons b new =>
            cases hq
            cases hq'
            apply hne
            simp only [formatDtype] at hdt
            cases hl : q.locations with
            | nil =>
              cases hl' : q'.locations with
              | nil => rfl
              | cons x y => rw [hl, hl'] at hdt; cases hdt
            | cons u v =>
              cases hl' : q'.locations with
              | nil => rw [hl, hl'] at hdt; cases hdt
              | cons x y =>
                rw [hl, hl'] at hdt
                injection hdt with h1
                exact congrArg FormatDtype.nLocs h1
    · exact ⟨.valueError, by rw [if_neg hf]⟩
  · have : formatEq old old = true := by
      rw [formatEq_iff]
      refine ⟨rfl, ?_⟩
      intro i q q' h1 h2
      rw [h1] at h2; cases h2
      exact ⟨rfl, rfl, rfl, rfl, fun _ h => h⟩
    simp only [saveResultFormat, hd, this, if_true]
    rw [writeFormat_same old old rfl]
    cases encodeFormat old <;> simp
  · intro r hr
    simp only [saveResultFormat, hd] at hr
    split at hr
    · rename_i h
      rw [writeFormat_same old new ((formatEq_iff old new).1 h).1] at hr
      refine ⟨?_, (formatEq_iff old new).1 h⟩
      cases he : encodeFormat new with
      | error e => rw [he] at hr; cases hr
      | ok rows =>
        rw [he] at hr
        simp only at hr
        split at hr
        · exact hr
        · cases hr
    · cases hr

example : let q : QSpec := ⟨"flux".toList, "m".toList, [1, 1], [1], [.name "well1".toList]⟩
    saveResultFormat (some [q]) [q] = .ok [q] ∧
    saveResultFormat (some [q]) [{ q with times := [2] }] = .error .valueError := by decide +kernel

/-! ## Formats that survive storing, C72 -/

/-- Only ASCII characters. -/
def AsciiText (s : List Char) : Prop := ∀ c ∈ s, c.toNat < 128

/-- A format whose entries fit the stored compound type: at least one quantity, ASCII names of at most 50 characters,
two-dimensional shapes, all quantities with as many times and locations as the first one, locations given by names of at
most 50 characters, the first of them not three characters long. -/
structure PlainFormat (fmt : List QSpec) : Prop where
  ne : fmt ≠ []
  locNe : ∀ q ∈ fmt, q.locations ≠ []
  fits : ∀ q ∈ fmt, q.name.length ≤ 50 ∧ q.unit.length ≤ 50 ∧ q.shape.length = 2
  sameTimes : ∀ q ∈ fmt, ∀ q' ∈ fmt, q.times.length = q'.times.length
  sameLocs : ∀ q ∈ fmt, ∀ q' ∈ fmt, q.locations.length = q'.locations.length
  names : ∀ q ∈ fmt, ∀ loc ∈ q.locations, ∃ s, loc = .name s ∧ s.length ≤ 50 ∧ s.length ≠ 3
  ascii : ∀ q ∈ fmt, AsciiText q.name ∧ AsciiText q.unit ∧ ∀ s, .name s ∈ q.locations → AsciiText s

theorem encodeText_ok {s : List Char} (h : AsciiText s) (hs : s.length ≤ 50) : encodeText s = .ok s := by
  rw [encodeText, if_pos, List.take_of_length_le hs]
  rw [List.all_eq_true]
  intro c hc
  exact decide_eq_true (h c hc)

theorem mapM_id_ok {α ε : Type} (f : α → Except ε α) : ∀ l : List α, (∀ x ∈ l, f x = .ok x) → l.mapM f = .ok l := by
  intro l
  induction l with
  | nil => intro _; rfl
  | cons a l ih =>
    intro h
    rw [List.mapM_cons, h a (by simp), ih (fun x hx => h x (List.mem_cons_of_mem _ hx))]
    rfl

/-- C72: a plain format is stored and loaded back identically. -/
theorem C72_plain_format_roundtrip (fmt : List QSpec) (h : PlainFormat fmt) :
    encodeFormat fmt = .ok fmt ∧ decodeFormat (some fmt) = .ok fmt ∧ saveResultFormat none fmt = .ok fmt ∧
    saveResultFormat (some fmt) fmt = .ok fmt := by
  have hnamed : NamedLocations fmt := by
    intro q hq loc hloc
    obtain ⟨s, hs, _⟩ := h.names q hq loc hloc
    exact ⟨s, hs⟩
  have henc : encodeFormat fmt = .ok fmt := by
    cases hf : fmt with
    | nil => exact absurd hf h.ne
    | cons q0 rest =>
      have hq0 : q0 ∈ fmt := by simp [hf]
      cases hl : q0.locations with
      | nil => exact absurd hl (h.locNe q0 hq0)
      | cons loc0 locs =>
        obtain ⟨s0, hs0, _, hs3⟩ := h.names q0 hq0 loc0 (by simp [hl])
        have hd : formatDtype (q0 :: rest) = .ok { nTimes := q0.times.length, nLocs := q0.locations.length, points := false } := by
          simp only [formatDtype, hl, hs0, Loc.len]
          simp [hs3]
        simp only [encodeFormat, hd]
        show List.mapM (m := Except PyErr) _ (q0 :: rest) = _
        apply mapM_id_ok
        intro q hq
        have hq' : q ∈ fmt := by rw [hf]; exact hq
        obtain ⟨n1, n2, n3⟩ := h.fits q hq'
        have ht := h.sameTimes q hq' q0 hq0
        have hll := h.sameLocs q hq' q0 hq0
        have hlm : q.locations.mapM (encodeLoc false) = .ok q.locations := by
          apply mapM_id_ok
          intro loc hloc
          obtain ⟨s, rfl, hs, _⟩ := h.names q hq' loc hloc
          simp only [encodeLoc, encodeText_ok ((h.ascii q hq').2.2 s hloc) hs]
          rfl
        simp only [encodeSpec, encodeText_ok (h.ascii q hq').1 n1, encodeText_ok (h.ascii q hq').2.1 n2, broadcastTo, n3, ht, hlm, if_true]
        simp [bind, Except.bind, pure, Except.pure, hll]
  have hdec := decode_named fmt hnamed
  refine ⟨henc, hdec, ?_, ?_⟩
  · simp only [saveResultFormat, decodeFormat, writeFormat, henc]; rfl
  · rw [(C23_format_guard_partial fmt fmt hnamed).2.2.1]; exact henc

/-- C72 fails in general, witness 1: two quantities with different numbers of times: the single time of the second one
is stored as two equal times. -/
theorem C72_times_counterexample :
    let q : QSpec := ⟨"a".toList, "m".toList, [1, 1], [1, 2], [.name "well".toList]⟩
    let r : QSpec := { q with name := "b".toList, times := [5] }
    ∃ s, saveResultFormat none [q, r] = .ok s ∧ s ≠ [q, r] ∧ s[1]? = some { r with times := [5, 5] } := by
  refine ⟨_, rfl, ?_, rfl⟩
  decide +kernel

/-- Witness 2: a format with a location name of three characters cannot be saved at all. -/
theorem C72_three_letter_location_counterexample :
    saveResultFormat none [⟨"a".toList, "m".toList, [1, 1], [1], [.name "top".toList]⟩] = .error .valueError := by
  decide +kernel

/-- Witness 3: a one-dimensional shape `(3,)` is stored as `(3, 3)`, so the same format is refused when the program is run
again on the stored file. -/
theorem C72_shape_counterexample :
    let q : QSpec := ⟨"a".toList, "m".toList, [3], [1], [.name "well".toList]⟩
    ∃ s, saveResultFormat none [q] = .ok s ∧ s = [{ q with shape := [3, 3] }] ∧
      saveResultFormat (some s) [q] = .error .valueError := by
  refine ⟨_, rfl, rfl, ?_⟩
  decide +kernel

/-- Witness 5: a format with a character beyond ASCII in a name or unit, like `m²`, cannot be saved at all. -/
theorem C72_unicode_counterexample (q : QSpec) (rest : List QSpec) (d : FormatDtype) (hd : formatDtype (q :: rest) = .ok d)
    (h : ¬ AsciiText q.name ∨ ¬ AsciiText q.unit) : saveResultFormat none (q :: rest) = .error .valueError := by
  have hb : ∀ {s}, ¬ AsciiText s → encodeText s = .error .valueError := by
    intro s hs
    rw [encodeText, if_neg]
    intro ha
    apply hs
    intro c hc
    exact of_decide_eq_true (List.all_eq_true.1 ha c hc)
  have he : encodeSpec d q = .error .valueError := by
    by_cases hn : AsciiText q.name
    · have hu := h.resolve_left (fun h => h hn)
      rw [encodeSpec, hb hu]
      rw [encodeText, if_pos (List.all_eq_true.2 fun c hc => decide_eq_true (hn c hc))]
      rfl
    · rw [encodeSpec, hb hn]
      rfl
  simp only [saveResultFormat, decodeFormat, writeFormat, encodeFormat, hd]
  show ((List.mapM (m := Except PyErr) _ (q :: rest)).bind _) = _
  rw [List.mapM_cons, he]
  rfl

example : let q : QSpec := ⟨"area".toList, "m²".toList, [1, 1], [1], [.name "well".toList]⟩
    formatDtype [q] = .ok ⟨1, 1, false⟩ ∧ (q.unit.any fun c => 128 ≤ c.toNat) = true := by decide +kernel

/-- Witness 6: saving a format that cannot be encoded leaves a dataset of empty texts and zeros; the corrected format is refused afterwards.
Here a unit is corrected. -/
theorem C72_failed_save_counterexample :
    let q : QSpec := ⟨"area".toList, "m²".toList, [1, 1], [1], [.name "well".toList]⟩
    let q' : QSpec := { q with unit := "m2".toList }
    saveResultFormat none [q] = .error .valueError ∧ saveResultFormat none [q'] = .ok [q'] ∧
      saveResultFormat (formatAfter none [q]) [q'] = .error .valueError := by
  decide +kernel

/-- Witness 4: a format with points as locations is saved but cannot be loaded. -/
theorem C72_points_counterexample :
    let q : QSpec := ⟨"a".toList, "m".toList, [1, 1], [1], [.point 1 2 3]⟩
    ∃ s, saveResultFormat none [q] = .ok s ∧ decodeFormat (some s) = .error .attributeError := by
  refine ⟨_, rfl, ?_⟩
  decide +kernel

example : PlainFormat [⟨"flux".toList, "m".toList, [1, 1], [1], [.name "well1".toList]⟩] := by
  refine ⟨by decide, by decide, by decide, by decide, by decide, ?_, ?_⟩
  · intro q hq loc hloc
    simp only [List.mem_singleton] at hq
    subst hq
    simp only [List.mem_singleton] at hloc
    exact ⟨_, hloc, by decide, by decide⟩
  · intro q hq
    simp only [List.mem_singleton] at hq
    subst hq
    refine ⟨?_, ?_, ?_⟩
    · unfold AsciiText; decide +kernel
    · unfold AsciiText; decide +kernel
    · intro s hs
      simp only [List.mem_singleton, Loc.name.injEq] at hs
      subst hs
      unfold AsciiText; decide +kernel

/-! ## C24 Level list is consistent; C19 reopening; C71 second save_global_data -/

theorem addLevelGroups_fresh (p : Option (List (List ℚ))) (fm : Option (List QSpec)) (n : Nat) :
    addLevelGroups (V := V) false n { params := p, levels := [], format := fm } =
      { params := p, levels := List.replicate n (some {}), format := fm } := by
  induction n with
  | zero => rfl
  | succ n ih =>
    have : addLevelGroups (V := V) false (n + 1) { params := p, levels := [], format := fm }
        = addLevelGroup false n (addLevelGroups false n { params := p, levels := [], format := fm }) := by
      simp [addLevelGroups, List.range_succ]
    rw [this, ih]
    simp only [addLevelGroup, List.length_replicate, lt_irrefl, if_false]
    congr 1
    apply List.ext_getElem?
    intro i
    rw [List.getElem?_modify]
    by_cases hi : i < n
    · rw [List.getElem?_append_left (by simpa using hi)]
      have h1 : n ≠ i := by omega
      have h2 : i < n + 1 := by omega
      simp [List.getElem?_replicate, hi, h1, h2]
    · by_cases he : n = i
      · subst he; simp [List.getElem?_append_right, List.getElem?_replicate]
      · have h2 : ¬ i < n + 1 := by omega
        rw [List.getElem?_eq_none (by simp; omega), List.getElem?_eq_none (by simp; omega)]
        rfl

theorem addLevelGroups_present (loaded : Bool) (n : Nat) (f : HdfFile V) (hn : n ≤ f.levels.length)
    (hall : ∀ x ∈ f.levels, x ≠ none) : addLevelGroups loaded n f = f := by
  induction n with
  | zero => rfl
  | succ n ih =>
    have : addLevelGroups loaded (n + 1) f = addLevelGroup loaded n (addLevelGroups loaded n f) := by
      simp [addLevelGroups, List.range_succ]
    rw [this, ih (by omega)]
    have hlt : n < f.levels.length := by omega
    simp only [addLevelGroup, hlt, if_true]
    have : f.levels.modify n (fun
      | none => if loaded then none else some {}
      | some x => some x) = f.levels := by
      apply List.ext_getElem?
      intro i
      rw [List.getElem?_modify]
      by_cases hi : n = i
      · subst hi
        simp only [if_true]
        cases h : f.levels[n]? with
        | none => rfl
        | some y =>
          cases y with
          | none => exact absurd rfl (hall none (List.mem_of_getElem? h))
          | some y => rfl
      · simp [hi]
    exact congrArg (fun ls => ({ f with levels := ls } : HdfFile V)) this

/-- A new storage file after the first `save_global_data` (as done by the `Sampler` constructor). -/
def newStorage (params : List (List ℚ)) (fmt : List QSpec) : Except PyErr (HdfObj × HdfFile V) := do
  let (o, f) ← hdfOpen none
  saveGlobalData o params fmt f

theorem formatDtype_ok (fmt : List QSpec) (h : PlainFormat fmt) : ∃ d, formatDtype fmt = .ok d := by
  cases hf : fmt with
  | nil => exact absurd hf h.ne
  | cons q rest =>
    cases hl : q.locations with
    | nil => exact absurd hl (h.locNe q (by simp [hf]))
    | cons a b =>
      simp only [formatDtype, hl]
      exact ⟨_, rfl⟩

theorem newStorage_eq (params : List (List ℚ)) (fmt : List QSpec) (h : PlainFormat fmt) :
    newStorage (V := V) params fmt = .ok (⟨false, List.range params.length⟩,
      { params := some params, levels := List.replicate params.length (some {}), format := some fmt }) := by
  obtain ⟨d, hd⟩ := formatDtype_ok fmt h
  have hs := (C72_plain_format_roundtrip fmt h).2.2.1
  simp only [newStorage, hdfOpen, saveGlobalData, hd, createFileStructure, bind, Except.bind]
  by_cases hn : params.length = 0
  · have : params = [] := List.length_eq_zero_iff.1 hn
    subst this
    simp [hs, pure, Except.pure]
  · have : (0 : Nat) ≠ params.length := fun e => hn e.symm
    simp only [Bool.false_eq_true, if_false, List.length_nil, this, ne_eq, not_false_eq_true, if_true,
      addLevelGroups_fresh, hs, List.nil_append]
    rfl

/-- C24, partial: a storage on a new file, and one on an existing file with the same number of levels, reports the level
ids `0 … n-1`, each once.  Missing: an existing file with another number of levels (`C24_counterexample`). -/
theorem C24_level_ids_partial (params params' : List (List ℚ)) (fmt : List QSpec) (h : PlainFormat fmt)
    (hlen : params'.length = params.length) :
    ∃ o f, newStorage (V := V) params fmt = .ok (o, f) ∧ o.levelIds = List.range params.length ∧
      ∃ o1 f1, hdfOpen (some f) = .ok (o1, f1) ∧ ∃ o2 f2, saveGlobalData o1 params' fmt f1 = .ok (o2, f2) ∧
        o2.levelIds = List.range params'.length := by
  obtain ⟨d, hd⟩ := formatDtype_ok fmt h
  have hs := (C72_plain_format_roundtrip fmt h).2.2.2
  refine ⟨_, _, newStorage_eq params fmt h, rfl, ?_⟩
  have hpres : ∀ n, n ≤ params.length → addLevelGroups (V := V) true n
      { params := some params, levels := List.replicate params.length (some {}), format := some fmt } = _ :=
    fun n hn => addLevelGroups_present true n _ (by simpa using hn) (by
      intro x hx; simp only [List.mem_replicate] at hx; rw [hx.2]; simp)
  by_cases hn : params.length = 0
  · have hp : params = [] := List.length_eq_zero_iff.1 hn
    have hp' : params' = [] := List.length_eq_zero_iff.1 (by omega)
    subst hp; subst hp'
    refine ⟨⟨true, []⟩, _, rfl, ⟨true, []⟩, { params := some [], levels := [], format := some fmt }, ?_, rfl⟩
    simp only [saveGlobalData, hd, createFileStructure, bind, Except.bind]
    simp [hs, pure, Except.pure]
  · refine ⟨⟨true, List.range params.length⟩,
      { params := some params, levels := List.replicate params.length (some {}), format := some fmt }, ?_,
      ⟨true, List.range params.length⟩,
      { params := some params, levels := List.replicate params.length (some {}), format := some fmt }, ?_,
      by simp [HdfObj.levelIds, hlen]⟩
    · simp only [hdfOpen, ne_eq, hn, not_false_eq_true, if_true]
      rw [hpres _ (le_refl _)]
    · simp only [saveGlobalData, hd, createFileStructure, bind, Except.bind, List.length_range, hlen]
      simp [hs, pure, Except.pure]

/-- The code violates C24: a file made with two levels, opened again with three level parameters, reports the level ids
`0, 1, 0, 1, 2`, and level 2 has no datasets. -/
theorem C24_counterexample :
    let q : QSpec := ⟨"a".toList, "m".toList, [1, 1], [1], [.name "well".toList]⟩
    ∃ o f o1 f1 o2 f2, newStorage (V := Unit) [[1], [2]] [q] = .ok (o, f) ∧ hdfOpen (some f) = .ok (o1, f1) ∧
      saveGlobalData o1 [[1], [2], [3]] [q] f1 = .ok (o2, f2) ∧ o2.levelIds = [0, 1, 0, 1, 2] ∧
      levelAt f2 2 = .error .keyError := by
  refine ⟨_, _, _, _, _, _, rfl, rfl, rfl, ?_, ?_⟩
  · decide +kernel
  · rfl

/-- C19: for every history of storage calls on a new file with a plain format, closing, opening the file again and calling
`save_global_data` with the same arguments gives an object with the same levels and an unchanged file, so every query, being
a function of the level groups, answers as before. -/
theorem C19_reopen_partial (params : List (List ℚ)) (hp : params ≠ []) (fmt : List QSpec) (h : PlainFormat fmt)
    (ops : List (StoreOp V)) :
    ∃ o f0, newStorage (V := V) params fmt = .ok (o, f0) ∧
      let f := ops.foldl fileStep f0
      hdfLevels o f = .ok (hdfRun (hdfFresh V params.length) ops) ∧
      ∃ o1 f1, hdfOpen (some f) = .ok (o1, f1) ∧ ∃ o2, saveGlobalData o1 params fmt f1 = .ok (o2, f) ∧
        hdfLevels o2 f = .ok (hdfRun (hdfFresh V params.length) ops) := by
  have hn : params.length ≠ 0 := fun e => hp (List.length_eq_zero_iff.1 e)
  obtain ⟨d, hd⟩ := formatDtype_ok fmt h
  have hs := (C72_plain_format_roundtrip fmt h).2.2.2
  refine ⟨_, _, newStorage_eq params fmt h, ?_⟩
  intro f
  have hf : f = { params := some params, levels := (hdfRun (hdfFresh V params.length) ops).map some, format := some fmt } := by
    have key : ∀ (ops : List (StoreOp V)) (g : HdfLevels V),
        ops.foldl fileStep ({ params := some params, levels := g.map some, format := some fmt } : HdfFile V) =
          { params := some params, levels := (hdfRun g ops).map some, format := some fmt } := by
      intro ops
      induction ops with
      | nil => intro g; rfl
      | cons o ops ih =>
        intro g
        rw [List.foldl_cons]
        have : fileStep ({ params := some params, levels := g.map some, format := some fmt } : HdfFile V) o =
            { params := some params, levels := (hdfStep g o).map some, format := some fmt } := by
          simp only [fileStep]
          congr 3
          rw [List.filterMap_map]
          simp
        rw [this, ih]; rfl
    have := key ops (hdfFresh V params.length)
    simp only [hdfFresh, List.map_replicate] at this
    exact this
  have hlen : (hdfRun (hdfFresh V params.length) ops).length = params.length := by
    rw [hdfRun_length]; simp [hdfFresh]
  have hlv : ∀ b, hdfLevels ⟨b, List.range params.length⟩ f = .ok (hdfRun (hdfFresh V params.length) ops) := by
    intro b
    unfold hdfLevels
    cases hg : hdfRun (hdfFresh V params.length) ops with
    | nil => rw [hg] at hlen; simp at hlen; omega
    | cons g0 gs =>
      rw [mapM_ok_range _ _ (fun l => ((hdfRun (hdfFresh V params.length) ops)[l]?).getD g0)]
      · congr 1
        apply List.ext_getElem?
        intro i
        rw [← hg]
        simp only [List.length_range, List.getElem?_map]
        by_cases hi : i < params.length
        · rw [List.getElem?_range hi, List.getElem?_eq_getElem (by omega : i < (hdfRun (hdfFresh V params.length) ops).length)]
          simp [List.getElem?_eq_getElem (by omega : i < (hdfRun (hdfFresh V params.length) ops).length)]
        · rw [List.getElem?_eq_none (by simp; omega), List.getElem?_eq_none (by omega)]; rfl
      · intro l y hy
        have hl : l < params.length ∧ y = l := by
          have := List.getElem?_eq_some_iff.1 hy
          simp at this
          exact ⟨this.1, this.2.symm⟩
        obtain ⟨hl, rfl⟩ := hl
        simp only [levelAt, hf, List.getElem?_map]
        rw [List.getElem?_eq_getElem (by omega : y < (hdfRun (hdfFresh V params.length) ops).length)]
        rfl
  refine ⟨hlv false, ⟨true, List.range params.length⟩, f, ?_, ⟨true, List.range params.length⟩, ?_, hlv true⟩
  · rw [hf]
    simp only [hdfOpen, ne_eq, hn, not_false_eq_true, if_true]
    rw [addLevelGroups_present true params.length _ (by simp [hlen]) (by
      intro x hx; simp only [List.mem_map] at hx; obtain ⟨_, _, rfl⟩ := hx; simp)]
  · rw [hf]
    simp only [saveGlobalData, hd, createFileStructure, bind, Except.bind, List.length_range]
    simp [hs, pure, Except.pure]

/-- C19 fails for formats that the file cannot represent: with a one-dimensional shape the reopened storage refuses its own
format. -/
theorem C19_counterexample :
    let q : QSpec := ⟨"a".toList, "m".toList, [3], [1], [.name "well".toList]⟩
    ∃ o f o1 f1, newStorage (V := Unit) [[1]] [q] = .ok (o, f) ∧ hdfOpen (some f) = .ok (o1, f1) ∧
      saveGlobalData o1 [[1]] [q] f1 = .error .valueError := by
  refine ⟨_, _, _, _, rfl, rfl, ?_⟩
  decide +kernel

/-- C71: on a storage object made on a new file, a second `save_global_data` (a second `Sampler` on the same object) with the
same arguments wipes all levels, and every level access then raises `KeyError`, whatever was stored. -/
theorem C71_second_sampler_wipes_counterexample (params : List (List ℚ)) (fmt : List QSpec) (h : PlainFormat fmt)
    (ops : List (StoreOp V)) (l : Nat) :
    ∃ o f0, newStorage (V := V) params fmt = .ok (o, f0) ∧ ∃ o2 f2, saveGlobalData o params fmt (ops.foldl fileStep f0) = .ok (o2, f2) ∧
      o2.levelIds = List.range params.length ∧ levelAt f2 l = .error .keyError := by
  obtain ⟨d, hd⟩ := formatDtype_ok fmt h
  have hs := (C72_plain_format_roundtrip fmt h).2.2.1
  refine ⟨_, _, newStorage_eq params fmt h, ⟨false, List.range params.length⟩,
    { params := some params, levels := [], format := some fmt }, ?_, rfl, rfl⟩
  simp only [saveGlobalData, hd, createFileStructure, bind, Except.bind, List.length_range]
  simp [hs, pure, Except.pure]

/-- C71, partial: on an object made on an existing file (same number of levels) a further `save_global_data` with the same
format leaves the file unchanged.  Missing: objects made on a new file. -/
theorem C71_second_sampler_keeps_partial (o : HdfObj) (f : HdfFile V) (params : List (List ℚ)) (fmt : List QSpec)
    (h : PlainFormat fmt) (hload : o.loaded = true) (hg : o.groups.length = params.length)
    (hp : f.params ≠ none) (hf : f.format = some fmt) :
    saveGlobalData o params fmt f = .ok (o, f) := by
  obtain ⟨d, hd⟩ := formatDtype_ok fmt h
  have hs := (C72_plain_format_roundtrip fmt h).2.2.2
  cases hpp : f.params with
  | none => exact absurd hpp hp
  | some p =>
    simp only [saveGlobalData, hd, createFileStructure, bind, Except.bind, hload, hpp, hg]
    simp only [if_true, ne_eq, not_true_eq_false, if_false, hf, hs, pure, Except.pure]
    congr 2
    rw [← hf]

end MLMC
