import Verif.Model.StoreText
import Verif.Model.StoreHistory
import Verif.Proofs.Tag
import Verif.Props.StorageFile
/-
C117: failed samples are recorded whatever their error message.
-/
namespace MLMC
variable {V : Type}

theorem encodeField_ok {w : Nat} {s : List Char} (h : AsciiText s) : encodeField w s = .ok (s.take w) := by
  rw [encodeField, if_pos]
  rw [List.all_eq_true]
  intro c hc
  exact decide_eq_true (h c hc)

theorem encodeField_bad {w : Nat} {s : List Char} (h : ¬ AsciiText s) : encodeField w s = .error .valueError := by
  rw [encodeField, if_neg]
  intro ha
  apply h
  intro c hc
  exact of_decide_eq_true (List.all_eq_true.1 ha c hc)

/-- An identifier that fits into its field. -/
def PlainId (id : SampleId) : Prop := AsciiText id ∧ id.length ≤ 100

theorem encodeField_id {id : SampleId} (h : PlainId id) : encodeField 100 id = .ok id := by
  rw [encodeField_ok h.1, List.take_of_length_le h.2]

theorem isDigit_ascii {c : Char} (h : c.isDigit = true) : c.toNat < 128 := by
  simp only [Char.isDigit, Bool.and_eq_true, decide_eq_true_eq] at h
  have h2 := h.2
  rw [UInt32.le_iff_toNat_le] at h2
  show c.val.toNat < 128
  exact lt_of_le_of_lt h2 (by decide)

/-- **C117** (identifiers): the identifiers of samples, with levels and numbers of up to 45 digits, are stored unchanged. -/
theorem C117_tags (l k : Nat) (hl : l < 10 ^ 45) (hk : k < 10 ^ 45) : PlainId (sampleTag l k) ∧ encodeField 100 (sampleTag l k) = .ok (sampleTag l k) := by
  have hz : ∀ w n : Nat, w ≤ 45 → n < 10 ^ 45 → (zpad w n).length ≤ 45 := by
    intro w n hw hn
    have : (Nat.toDigits 10 n).length ≤ 45 := by
      rw [Nat.length_toDigits_le_iff (by decide) (by decide)]
      exact hn
    simp only [zpad, List.length_append, List.length_replicate]
    omega
  have hp : PlainId (sampleTag l k) := by
    constructor
    · intro c hc
      simp only [sampleTag, List.mem_cons, List.mem_append] at hc
      rcases hc with rfl | hc | rfl | rfl | hc
      · decide
      · exact isDigit_ascii (isDigit_of_mem_zpad hc)
      · decide
      · decide
      · exact isDigit_ascii (isDigit_of_mem_zpad hc)
    · have h1 := hz 2 l (by decide) hl
      have h2 := hz 7 k (by decide) hk
      simp only [sampleTag, List.length_cons, List.length_append]
      omega
  exact ⟨hp, encodeField_id hp⟩

theorem modify_eq_set_of {α : Type} (g : List α) (l : Nat) (f : α → α) (x : α) (h : g[l]? = some x) : g.modify l f = g.set l (f x) := by
  apply List.ext_getElem?
  intro i
  rw [List.getElem?_modify, List.getElem?_set]
  by_cases hi : l = i
  · subst hi
    have hl : l < g.length := by
      by_contra hc
      rw [List.getElem?_eq_none (by omega)] at h
      cases h
    rw [if_pos rfl, if_pos hl, h]
    simp
  · simp [hi]

theorem mapM_all_ok {α β : Type} (f : α → Except PyErr β) (g : α → β) : ∀ l : List α, (∀ x ∈ l, f x = .ok (g x)) → l.mapM f = .ok (l.map g) := by
  intro l
  induction l with
  | nil => intro _; rfl
  | cons a l ih =>
    intro h
    rw [List.mapM_cons, h a (by simp), ih fun x hx => h x (List.mem_cons_of_mem _ hx)]
    rfl

theorem mapM_one_bad {α β : Type} (f : α → Except PyErr β) (e : PyErr) : ∀ l : List α, (∀ x ∈ l, ∀ e', f x = .error e' → e' = e) → (∃ x ∈ l, f x = .error e) → l.mapM f = .error e := by
  intro l
  induction l with
  | nil => rintro _ ⟨x, hx, _⟩; cases hx
  | cons a l ih =>
    rintro h ⟨x, hx, he⟩
    rw [List.mapM_cons]
    cases ha : f a with
    | error e' =>
      rw [h a (by simp) e' ha]
      rfl
    | ok b =>
      rcases List.mem_cons.1 hx with rfl | hx
      · rw [ha] at he; cases he
      · rw [ih (fun y hy => h y (List.mem_cons_of_mem _ hy)) ⟨x, hx, he⟩]
        rfl

/-- A failed sample as it is stored: the first 1000 characters of its message. -/
def cutMessage (f : SampleId × Msg) : SampleId × Msg := (f.1, f.2.take 1000)

theorem encodeFailed_ok {f : SampleId × Msg} (h1 : PlainId f.1) (h2 : AsciiText f.2) : encodeFailed f = .ok (cutMessage f) := by
  rw [encodeFailed, encodeField_id h1, encodeField_ok h2]
  rfl

theorem encodeFailed_err {f : SampleId × Msg} {e : PyErr} (h : encodeFailed f = .error e) : e = .valueError := by
  rw [encodeFailed] at h
  by_cases h1 : AsciiText f.1
  · rw [encodeField_ok h1] at h
    by_cases h2 : AsciiText f.2
    · rw [encodeField_ok h2] at h; cases h
    · rw [encodeField_bad h2] at h; cases h; rfl
  · rw [encodeField_bad h1] at h; cases h; rfl

theorem encodeFailed_bad {f : SampleId × Msg} (h2 : ¬ AsciiText f.2) : encodeFailed f = .error .valueError := by
  rw [encodeFailed]
  by_cases h1 : AsciiText f.1
  · rw [encodeField_ok h1, encodeField_bad h2]; rfl
  · rw [encodeField_bad h1]; rfl

theorem saveLoop_failed : ∀ (d : Dict Nat (List (SampleId × Msg))) (g : HdfLevels V), (∀ e ∈ d, e.1 < g.length) → (∀ x ∈ g, x.failed ≠ none) →
    (∀ e ∈ d, ∀ f ∈ e.2, PlainId f.1 ∧ AsciiText f.2) →
    saveLoop LevelGroup.appendFailed d g = (applyOps (saveFailedOps (d.map fun e => (e.1, e.2.map cutMessage))) g, none)
  | [], g, _, _, _ => rfl
  | (l, fs) :: d, g, hl, hf, hp => by
    rw [saveLoop]
    by_cases hn : fs.length > 0
    · have hlt := hl _ List.mem_cons_self
      have hx : g[l]? = some g[l] := List.getElem?_eq_getElem hlt
      rw [if_pos hn, hx]
      have hne := hf g[l] (List.getElem_mem hlt)
      cases ho : (g[l]'hlt).failed with
      | none => exact absurd ho hne
      | some old =>
        have ha : LevelGroup.appendFailed (g[l]'hlt) fs = ({ (g[l]'hlt) with failed := some (old ++ fs.map cutMessage) }, none) := by
          rw [LevelGroup.appendFailed, ho]
          simp only [appendRows, mapM_all_ok encodeFailed cutMessage fs fun f hm => encodeFailed_ok (hp _ List.mem_cons_self f hm).1 (hp _ List.mem_cons_self f hm).2]
        simp only [ha]
        have hm : (FileOp.addFailed (V := V) l (fs.map cutMessage)).apply g = g.set l { (g[l]'hlt) with failed := some (old ++ fs.map cutMessage) } := by
          rw [FileOp.apply, modify_eq_set_of g l _ _ hx, ho]
          rfl
        have ih := saveLoop_failed d (g.set l { (g[l]'hlt) with failed := some (old ++ fs.map cutMessage) }) (fun e he => by
          rw [List.length_set]; exact hl e (List.mem_cons_of_mem _ he)) (fun x hx => by
          rcases List.mem_or_eq_of_mem_set hx with h | h
          · exact hf x h
          · rw [h]; simp) (fun e he => hp e (List.mem_cons_of_mem _ he))
        rw [ih]
        simp only [saveFailedOps, List.map_cons, List.flatMap_cons, List.length_map, if_pos hn, applyOps, List.foldl_append, List.foldl_cons, List.foldl_nil, hm]
    · have : fs = [] := by
        cases fs with
        | nil => rfl
        | cons a b => simp at hn
      subst this
      rw [if_neg hn, saveLoop_failed d g (fun e he => hl e (List.mem_cons_of_mem _ he)) hf (fun e he => hp e (List.mem_cons_of_mem _ he))]
      rfl

theorem saveLoop_succ : ∀ (d : Dict Nat (List (SampleId × V))) (g : HdfLevels V), (∀ e ∈ d, e.1 < g.length) → (∀ e ∈ d, ∀ f ∈ e.2, PlainId f.1) →
    saveLoop LevelGroup.appendSuccessful d g = (applyOps (saveSuccessfulOps d) g, none)
  | [], g, _, _ => rfl
  | (l, ss) :: d, g, hl, hp => by
    rw [saveLoop]
    by_cases hn : ss.length > 0
    · have hlt := hl _ List.mem_cons_self
      have hx : g[l]? = some g[l] := List.getElem?_eq_getElem hlt
      rw [if_pos hn, hx]
      have he : (ss.map (·.1)).mapM (encodeField 100) = .ok (ss.map (·.1)) := by
        apply mapM_id_ok
        intro i hi
        obtain ⟨f, hf, rfl⟩ := List.mem_map.1 hi
        exact encodeField_id (hp _ List.mem_cons_self f hf)
      have ha : LevelGroup.appendSuccessful (g[l]'hlt) ss = ({ (g[l]'hlt) with
          collectedIds := (g[l]'hlt).collectedIds ++ ss.map (·.1)
          collectedValues := some ((g[l]'hlt).collectedValues.getD [] ++ ss.map (·.2)) }, none) := by
        simp only [LevelGroup.appendSuccessful, appendRows, he]
      simp only [ha]
      have hm : applyOps (appendSuccessfulOps l ss) g = g.set l { (g[l]'hlt) with
          collectedIds := (g[l]'hlt).collectedIds ++ ss.map (·.1)
          collectedValues := some ((g[l]'hlt).collectedValues.getD [] ++ ss.map (·.2)) } := by
        simp only [applyOps, appendSuccessfulOps, List.foldl_cons, List.foldl_nil, FileOp.apply, List.modify_modify_eq]
        rw [modify_eq_set_of g l _ _ hx]
        congr 1
        cases hc : (g[l]'hlt).collectedValues <;> simp [Function.comp, hc]
      rw [saveLoop_succ d _ (fun e he => by rw [List.length_set]; exact hl e (List.mem_cons_of_mem _ he)) (fun e he => hp e (List.mem_cons_of_mem _ he)), ← hm]
      simp only [saveSuccessfulOps, List.flatMap_cons, if_pos hn, applyOps, List.foldl_append]
    · have : ss = [] := by
        cases ss with
        | nil => rfl
        | cons a b => simp at hn
      subst this
      rw [if_neg hn, saveLoop_succ d g (fun e he => hl e (List.mem_cons_of_mem _ he)) (fun e he => hp e (List.mem_cons_of_mem _ he))]
      rfl

/-- **C117** (partial): with identifiers that fit and ASCII messages nothing goes wrong: `save_samples` raises no exception, and the levels are afterwards as
the model in `Verif.Model.Storage` says, the messages cut to 1000 characters.  Missing: messages with other characters, for which it is false
(`C117_counterexample_unicode`). -/
theorem C117_ascii_partial (g : HdfLevels V) (succ : Dict Nat (List (SampleId × V))) (failed : Dict Nat (List (SampleId × Msg)))
    (hs : ∀ e ∈ succ, e.1 < g.length ∧ ∀ f ∈ e.2, PlainId f.1) (hf : ∀ e ∈ failed, e.1 < g.length ∧ ∀ f ∈ e.2, PlainId f.1 ∧ AsciiText f.2)
    (hd : ∀ x ∈ g, x.failed ≠ none) :
    saveSamplesText g succ failed = (hdfStep g (.samples succ (failed.map fun e => (e.1, e.2.map cutMessage))), none) := by
  have h1 := saveLoop_succ succ g (fun e he => (hs e he).1) (fun e he => (hs e he).2)
  have hkeep : ∀ (ops : List (FileOp V)) (g : HdfLevels V), (∀ o ∈ ops, (∃ l i, o = .addIds l i) ∨ (∃ l, o = .mkValues l) ∨ ∃ l v, o = .addValues l v) →
      (∀ x ∈ g, x.failed ≠ none) → (∀ x ∈ applyOps ops g, x.failed ≠ none) ∧ (applyOps ops g).length = g.length := by
    intro ops
    induction ops with
    | nil => intro g _ h; exact ⟨h, rfl⟩
    | cons o ops ih =>
      intro g ho h
      have hm : (∀ x ∈ o.apply g, x.failed ≠ none) ∧ (o.apply g).length = g.length := by
        have hmod : ∀ (l : Nat) (f : LevelGroup V → LevelGroup V), (∀ x, (f x).failed = x.failed) → ∀ x ∈ g.modify l f, x.failed ≠ none := by
          intro l f hf x hx
          obtain ⟨i, hi⟩ := List.mem_iff_getElem?.1 hx
          rw [List.getElem?_modify] at hi
          cases hg : g[i]? with
          | none => rw [hg] at hi; cases hi
          | some y =>
            rw [hg] at hi
            have hy := h y (List.mem_of_getElem? hg)
            by_cases hc : l = i
            · simp only [hc, if_true, Option.map_eq_map, Option.map_some, Option.some.injEq] at hi
              rw [← hi, hf]; exact hy
            · simp only [hc, if_false, Option.map_eq_map, Option.map_some, Option.some.injEq, id] at hi
              rw [← hi]; exact hy
        rcases ho o List.mem_cons_self with ⟨l, i, rfl⟩ | ⟨l, rfl⟩ | ⟨l, v, rfl⟩
        · exact ⟨hmod l _ fun _ => rfl, List.length_modify _ _ _⟩
        · exact ⟨hmod l _ fun _ => rfl, List.length_modify _ _ _⟩
        · exact ⟨hmod l _ fun _ => rfl, List.length_modify _ _ _⟩
      obtain ⟨a, b⟩ := ih (o.apply g) (fun o' h' => ho o' (List.mem_cons_of_mem _ h')) hm.1
      exact ⟨a, b.trans hm.2⟩
  obtain ⟨hk1, hk2⟩ := hkeep (saveSuccessfulOps succ) g (by
    intro o ho
    rw [saveSuccessfulOps, List.mem_flatMap] at ho
    obtain ⟨e, _, he⟩ := ho
    simp only at he
    split at he
    · simp only [appendSuccessfulOps, List.mem_cons, List.not_mem_nil, or_false] at he
      rcases he with rfl | rfl | rfl
      · exact .inl ⟨_, _, rfl⟩
      · exact .inr (.inl ⟨_, rfl⟩)
      · exact .inr (.inr ⟨_, _, rfl⟩)
    · cases he) hd
  have h2 := saveLoop_failed failed (applyOps (saveSuccessfulOps succ) g) (fun e he => by rw [hk2]; exact (hf e he).1) hk1 (fun e he => (hf e he).2)
  rw [saveSamplesText, h1]
  simp only
  rw [h2, hdfStep, saveSamplesOps]
  simp only [applyOps, List.foldl_append]

/-- **C117** (scheduled samples): identifiers that fit are recorded at the level they are given for, without exception, and the levels are afterwards as the model
in `Verif.Model.Storage` says; a level that does not exist is refused and nothing is written. -/
theorem C117_scheduled (g : HdfLevels V) (l : Nat) (ids : List SampleId) (hi : ∀ id ∈ ids, PlainId id) :
    (l < g.length → saveScheduledText g l ids = (hdfStep g (.scheduled l ids), none) ∧
      ∃ x x', g[l]? = some x ∧ (saveScheduledText g l ids).1[l]? = some x' ∧ x'.scheduled = x.scheduled ++ ids) ∧
    (g.length ≤ l → saveScheduledText g l ids = (g, some .indexError)) := by
  constructor
  · intro hl
    have hx : g[l]? = some g[l] := List.getElem?_eq_getElem hl
    have he : ids.mapM (encodeField 100) = .ok ids := mapM_id_ok _ ids fun i h => encodeField_id (hi i h)
    by_cases hn : ids.length > 0
    · have hs : saveScheduledText g l ids = (g.set l { (g[l]'hl) with scheduled := (g[l]'hl).scheduled ++ ids }, none) := by
        rw [saveScheduledText, hx]
        simp only [LevelGroup.appendScheduled, if_pos hn, appendRows, he]
      rw [hs]
      refine ⟨?_, _, { (g[l]'hl) with scheduled := (g[l]'hl).scheduled ++ ids }, hx, ?_, rfl⟩
      · rw [hdfStep, saveScheduledOps, if_pos hn]
        simp only [applyOps, List.foldl_cons, List.foldl_nil, FileOp.apply]
        rw [modify_eq_set_of g l _ _ hx]
      · simp [hl]
    · have : ids = [] := by
        cases ids with
        | nil => rfl
        | cons a b => simp at hn
      subst this
      have hs : saveScheduledText g l [] = (g, none) := by
        rw [saveScheduledText, hx]
        simp [LevelGroup.appendScheduled]
      rw [hs]
      exact ⟨rfl, _, _, hx, hx, by simp⟩
  · intro hl
    rw [saveScheduledText, List.getElem?_eq_none hl]

example : let g : HdfLevels Nat := [{ scheduled := [sampleTag 0 0] }, {}]
    (saveScheduledText g 1 [sampleTag 1 0, sampleTag 1 1]).2 = none ∧
    hdfUnfinishedIds (saveScheduledText g 1 [sampleTag 1 0, sampleTag 1 1]).1 = .ok [sampleTag 0 0, sampleTag 1 0, sampleTag 1 1] := by decide +kernel

/-- So each level's failed identifiers are those it had and those it was given. -/
theorem C117_recorded_partial (x : LevelGroup V) (old fs : List (SampleId × Msg)) (hx : x.failed = some old) (hf : ∀ f ∈ fs, PlainId f.1 ∧ AsciiText f.2) :
    (x.appendFailed fs).2 = none ∧ (x.appendFailed fs).1.failedIds = .ok (old.map (·.1) ++ fs.map (·.1)) := by
  have ha : x.appendFailed fs = ({ x with failed := some (old ++ fs.map cutMessage) }, none) := by
    rw [LevelGroup.appendFailed, hx]
    simp only [appendRows, mapM_all_ok encodeFailed cutMessage fs fun f hm => encodeFailed_ok (hf f hm).1 (hf f hm).2]
  rw [ha]
  refine ⟨rfl, ?_⟩
  simp only [LevelGroup.failedIds, List.map_append, List.map_map]
  rfl

/-- **C117** is false: if the message of one failed sample of a level has a character beyond ASCII, saving the failed samples raises `ValueError`; the level gets
as many failed samples with the empty identifier, so they count as finished; no sample of a level that follows in the dictionary is recorded; and each of the
samples stays unfinished. -/
theorem C117_counterexample_unicode (g : HdfLevels V) (l : Nat) (x : LevelGroup V) (old fs : List (SampleId × Msg)) (rest : Dict Nat (List (SampleId × Msg)))
    (hg : g[l]? = some x) (hx : x.failed = some old) (hb : ∃ f ∈ fs, ¬ AsciiText f.2) :
    ∃ x', saveSamplesText g [] ((l, fs) :: rest) = (g.set l x', some .valueError) ∧
      x'.failedIds = .ok (old.map (·.1) ++ List.replicate fs.length []) ∧
      x'.finishedIds = x.finishedIds.map (· ++ List.replicate fs.length []) ∧
      ∀ u id, x.unfinishedIds = .ok u → id ∈ u → id ≠ [] → ∃ u', x'.unfinishedIds = .ok u' ∧ id ∈ u' := by
  have hm : fs.mapM encodeFailed = .error .valueError := by
    obtain ⟨f, hf, hf2⟩ := hb
    exact mapM_one_bad encodeFailed .valueError fs (fun y _ e he => encodeFailed_err he) ⟨f, hf, encodeFailed_bad hf2⟩
  have ha : x.appendFailed fs = ({ x with failed := some (old ++ List.replicate fs.length ([], [])) }, some .valueError) := by
    rw [LevelGroup.appendFailed, hx]
    simp only [appendRows, hm]
  have hn : fs.length > 0 := by
    obtain ⟨f, hf, _⟩ := hb
    exact List.length_pos_of_mem hf
  refine ⟨{ x with failed := some (old ++ List.replicate fs.length ([], [])) }, ?_, ?_, ?_, ?_⟩
  · simp only [saveSamplesText, saveLoop, if_pos hn, hg, ha]
  · simp [LevelGroup.failedIds]
  · simp [LevelGroup.finishedIds, hx, Except.map]
  · intro u id hu hid hne
    simp only [LevelGroup.unfinishedIds, LevelGroup.finishedIds, hx, bind, Except.bind, pure, Except.pure, Except.ok.injEq] at hu
    refine ⟨_, rfl, ?_⟩
    rw [← hu] at hid
    simp only [List.mem_filter, List.mem_dedup, decide_eq_true_eq, List.mem_append, not_or] at hid
    simp only [List.mem_filter, List.mem_dedup, decide_eq_true_eq, List.map_append, List.mem_append, not_or, List.map_replicate, List.mem_replicate]
    exact ⟨hid.1, hid.2.1, hid.2.2, fun h => hne h.2⟩

/-- `C117` fails for identifiers of a user's own that are not ASCII: the results of the level are lost, while its list of collected identifiers grows by empty ones. -/
theorem C117_counterexample_identifier (g : HdfLevels V) (l : Nat) (x : LevelGroup V) (ss : List (SampleId × V)) (rest : Dict Nat (List (SampleId × V)))
    (failed : Dict Nat (List (SampleId × Msg))) (hg : g[l]? = some x) (hb : ∃ s ∈ ss, ¬ AsciiText s.1) :
    saveSamplesText g ((l, ss) :: rest) failed = (g.set l { x with collectedIds := x.collectedIds ++ List.replicate ss.length [] }, some .valueError) := by
  have hbad : ∀ s : SampleId, ¬ AsciiText s → encodeField 100 s = .error .valueError := fun s h => encodeField_bad h
  have hm : (ss.map (·.1)).mapM (encodeField 100) = .error .valueError := by
    obtain ⟨f, hf, hf2⟩ := hb
    refine mapM_one_bad (encodeField 100) .valueError _ (fun y _ e he => ?_) ⟨f.1, List.mem_map.2 ⟨f, hf, rfl⟩, hbad _ hf2⟩
    unfold encodeField at he
    split at he
    · cases he
    · injection he with he; exact he.symm
  have hn : ss.length > 0 := by
    obtain ⟨f, hf, _⟩ := hb
    exact List.length_pos_of_mem hf
  simp only [saveSamplesText, saveLoop, if_pos hn, hg, LevelGroup.appendSuccessful, appendRows, hm, List.length_map]

example : saveSamplesText [({ scheduled := ["číslo 1".toList] } : LevelGroup Nat)] [(0, [("číslo 1".toList, 5)])] [] =
    ([{ scheduled := ["číslo 1".toList], collectedIds := [[]] }], some .valueError) :=
  C117_counterexample_identifier [({ scheduled := ["číslo 1".toList] } : LevelGroup Nat)] 0 _ [("číslo 1".toList, 5)] [] [] rfl ⟨_, List.mem_singleton.2 rfl, by unfold AsciiText; decide +kernel⟩

/-- Such a failure: a message with a name in Czech.  The failed sample of level 1 is not recorded either. -/
example : let g : HdfLevels Nat := [{ scheduled := [sampleTag 0 0] }, { scheduled := [sampleTag 1 0] }]
    let r := saveSamplesText g [] [(0, [(sampleTag 0 0, "soubor síť nenalezen".toList)]), (1, [(sampleTag 1 0, "failed".toList)])]
    r.2 = some .valueError ∧ hdfNFinished r.1 = .ok [1, 0] ∧ hdfUnfinishedIds r.1 = .ok [sampleTag 0 0, sampleTag 1 0] ∧
      hdfFailedSamples r.1 = .ok [[[]], []] := by decide +kernel

/-- The hypotheses of the positive theorem are met by the usual case. -/
example : let g : HdfLevels Nat := [{ scheduled := [sampleTag 0 0, sampleTag 0 1] }]
    let r := saveSamplesText g [(0, [(sampleTag 0 0, 7)])] [(0, [(sampleTag 0 1, "failed".toList)])]
    r.2 = none ∧ hdfUnfinishedIds r.1 = .ok [] ∧ (∀ x ∈ g, x.failed ≠ none) := by decide +kernel

end MLMC
