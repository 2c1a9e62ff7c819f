import Verif.Spec.LevelSamples
import Verif.Proofs.Cache
import Verif.Proofs.ProgramEstimate
import Verif.Props.Cache
import Verif.Proofs.StorageLemmas
/-! Helper lemmas: reading level samples. -/
namespace MLMC.Read
variable {F : Type} [Field F] {S : Type}

/-- The evaluations a program may do from storage `s` on. -/
def allEvals (src : Source S F) (sid : Nat) : List (ReadOp F) → S → List (Evaluation (Option F))
  | [], _ => []
  | .store op :: h, s => match src.step s op with
    | .ok s => allEvals src sid h s
    | .error _ => []
  | .mean q :: h, s => ((src.allChunks s).map fun ch => ⟨storeData src sid s, ch, q⟩) ++ allEvals src sid h s
  | .read l n q :: h, s => (match src.firstChunk s l n with
    | .ok ch => [⟨storeData src sid s, ch, q⟩]
    | .error _ => []) ++ allEvals src sid h s

/-- The run without a cache. -/
def plainRun (src : Source S F) (sid : Nat) : List (ReadOp F) → S → Except PyErr (List (Except PyErr (QVal (Option F))))
  | [], _ => .ok []
  | .store op :: h, s => (src.step s op).bind fun s => plainRun src sid h s
  | .mean _ :: h, s => plainRun src sid h s
  | .read l n q :: h, s => (plainRun src sid h s).map fun rs => ((src.firstChunk s l n).bind fun ch => q.samples (storeData src sid s ch)) :: rs

theorem meanLoopCache_sound (A : List (Evaluation (Option F))) (hA : ∀ a ∈ A, ∀ b ∈ A, Compatible a b) (q : Quantity (Option F)) (nL : Nat)
    (data : StoreData (Option F)) : ∀ (cs : List Chunk) (acc : MeanAcc F) (m : QCache (Option F)),
      (∀ c ∈ cs, (⟨data, c, q⟩ : Evaluation (Option F)) ∈ A) → (∀ a ∈ A, SoundFor m a) → ∀ a ∈ A, SoundFor (meanLoopCache q nL data acc cs m) a
  | [], _, _, _, hm => hm
  | c :: cs, acc, m, hin, hm => by
    have he := hin c (List.mem_cons_self ..)
    obtain ⟨_, h2⟩ := cached_spec A ⟨data, c, q⟩ he (fun a ha => hA _ he a ha) q (fun _ h => h) m hm
    simp only at h2
    rw [meanLoopCache]
    split
    · exact h2
    · exact meanLoopCache_sound A hA q nL data cs _ _ (fun c hc => hin c (List.mem_cons_of_mem _ hc)) h2

theorem readRun_plain (src : Source S F) (sid : Nat) (A : List (Evaluation (Option F))) (hA : ∀ a ∈ A, ∀ b ∈ A, Compatible a b) :
    ∀ (h : List (ReadOp F)) (s : S) (m : QCache (Option F)), (∀ e ∈ allEvals src sid h s, e ∈ A) → (∀ a ∈ A, SoundFor m a) →
      readRun src sid h s m = plainRun src sid h s
  | [], _, _, _, _ => rfl
  | .store op :: h, s, m, hin, hm => by
    rw [readRun, plainRun]
    rw [allEvals] at hin
    cases hs : src.step s op with
    | error e => rfl
    | ok s' =>
      rw [hs] at hin
      exact readRun_plain src sid A hA h s' m hin hm
  | .mean q :: h, s, m, hin, hm => by
    rw [readRun, plainRun]
    rw [allEvals] at hin
    refine readRun_plain src sid A hA h s _ (fun e he => hin e (List.mem_append_right _ he)) ?_
    unfold meanCache
    split
    · exact fun a _ => sound_clear m a
    · exact meanLoopCache_sound A hA q _ _ _ _ _ (fun c hc => hin _ (List.mem_append_left _ (List.mem_map_of_mem hc))) fun a _ => sound_clear m a
  | .read l n q :: h, s, m, hin, hm => by
    rw [readRun, plainRun]
    rw [allEvals] at hin
    unfold levelSamples
    cases hs : src.firstChunk s l n with
    | error e =>
      rw [hs] at hin
      simp only [Except.bind]
      rw [readRun_plain src sid A hA h s m (fun e he => hin e (List.mem_append_right _ he)) hm]
    | ok ch =>
      rw [hs] at hin
      have he := hin ⟨storeData src sid s, ch, q⟩ (List.mem_append_left _ (by simp))
      obtain ⟨h1, h2⟩ := cached_spec A ⟨storeData src sid s, ch, q⟩ he (fun a ha => hA _ he a ha) q (fun _ h => h) m hm
      simp only at h1 h2
      simp only [Except.bind, h1]
      rw [readRun_plain src sid A hA h s _ (fun e he => hin e (List.mem_append_right _ he)) h2]

/-- What is read from a chunk when `ops` have saved samples. -/
def sliceData (sid W : Nat) (ops : List (StoreOp (Pair F))) (ch : Chunk) : Nat → Except PyErr (Arr (Option F)) := fun o =>
  if o = sid then .ok (levelBatch ch.levelId W (((savedPairs ops ch.levelId).drop ch.start).take (ch.stop - ch.start))).toArr else .error .other

/-- A chunk that lies within the saved samples and starts where its number says. -/
def Chunk.Fits (c : Nat → Nat) (ops : List (StoreOp (Pair F))) (ch : Chunk) : Prop :=
  ch.start = ch.chunkId * c ch.levelId ∧ ch.start ≤ ch.stop ∧ ch.stop ≤ (savedPairs ops ch.levelId).length ∧ savedPairs ops ch.levelId ≠ []

theorem savedPairs_append (a b : List (StoreOp (Pair F))) (l : Nat) : savedPairs (a ++ b) l = savedPairs a l ++ savedPairs b l := by
  simp [savedPairs, savedSucc]

theorem sliceData_grow (sid W : Nat) (c : Nat → Nat) (a b : List (StoreOp (Pair F))) (ch : Chunk) (h : Chunk.Fits c a ch) :
    sliceData sid W (a ++ b) ch = sliceData sid W a ch := by
  unfold sliceData
  rw [savedPairs_append]
  obtain ⟨_, h2, h3, _⟩ := h
  rw [List.drop_append_of_le_length (by omega), List.take_append_of_le_length (by rw [List.length_drop]; omega)]

/-- A storage that holds what `ops` have saved. -/
structure Holds (src : Source S F) (c : Nat → Nat) (sid W : Nat) (ops : List (StoreOp (Pair F))) (s : S) : Prop where
  all : ∀ ch ∈ src.allChunks s, Chunk.Fits c ops ch
  data : ∀ ch, Chunk.Fits c ops ch → storeData src sid s ch = sliceData sid W ops ch

/-- `Holds` along a run, with first chunks that fit. -/
def HoldsAll (src : Source S F) (c : Nat → Nat) (sid W : Nat) : List (StoreOp (Pair F)) → List (ReadOp F) → S → Prop
  | before, [], s => Holds src c sid W before s
  | before, .store op :: h, s => Holds src c sid W before s ∧ ∀ s', src.step s op = .ok s' → HoldsAll src c sid W (before ++ [op]) h s'
  | before, .mean _ :: h, s => Holds src c sid W before s ∧ HoldsAll src c sid W before h s
  | before, .read l n _ :: h, s => Holds src c sid W before s ∧ (∀ ch, src.firstChunk s l n = .ok ch → Chunk.Fits c before ch) ∧ HoldsAll src c sid W before h s

theorem fits_grow {c : Nat → Nat} {a b : List (StoreOp (Pair F))} {ch : Chunk} (h : Chunk.Fits c a ch) : Chunk.Fits c (a ++ b) ch := by
  obtain ⟨h1, h2, h3, h4⟩ := h
  refine ⟨h1, h2, ?_, ?_⟩ <;> rw [savedPairs_append]
  · rw [List.length_append]; omega
  · simp [h4]

theorem evals_slice (src : Source S F) (c : Nat → Nat) (sid W : Nat) : ∀ (h : List (ReadOp F)) (before : List (StoreOp (Pair F))) (s : S),
    HoldsAll src c sid W before h s → ∀ e ∈ allEvals src sid h s,
      Chunk.Fits c (before ++ stores h) e.chunk ∧ e.data e.chunk = sliceData sid W (before ++ stores h) e.chunk ∧ e.q ∈ quantities h
  | [], _, _, _, e, he => by simp [allEvals] at he
  | .store op :: h, before, s, hs, e, he => by
    rw [allEvals] at he
    cases hst : src.step s op with
    | error x => rw [hst] at he; simp at he
    | ok s' =>
      rw [hst] at he
      have := evals_slice src c sid W h _ s' (hs.2 s' hst) e he
      simpa [stores, quantities] using this
  | .mean q :: h, before, s, hs, e, he => by
    rw [allEvals] at he
    rcases List.mem_append.1 he with he | he
    · obtain ⟨ch, hch, rfl⟩ := List.mem_map.1 he
      have hf := hs.1.all ch hch
      exact ⟨fits_grow hf, (hs.1.data ch hf).trans (sliceData_grow sid W c _ _ ch hf).symm, by simp [quantities]⟩
    · obtain ⟨h1, h2, h3⟩ := evals_slice src c sid W h _ s hs.2 e he
      exact ⟨h1, h2, by simp [quantities, h3]⟩
  | .read l n q :: h, before, s, hs, e, he => by
    rw [allEvals] at he
    rcases List.mem_append.1 he with he | he
    · cases hst : src.firstChunk s l n with
      | error x => rw [hst] at he; simp at he
      | ok ch =>
        rw [hst] at he
        simp only [List.mem_singleton] at he
        subst he
        have hf := hs.2.1 ch hst
        exact ⟨fits_grow hf, (hs.1.data ch hf).trans (sliceData_grow sid W c _ _ ch hf).symm, by simp [quantities]⟩
    · obtain ⟨h1, h2, h3⟩ := evals_slice src c sid W h _ s hs.2.2 e he
      exact ⟨h1, h2, by simp [quantities, h3]⟩

theorem readRun_eq (src : Source S F) (c : Nat → Nat) (sid W : Nat) (h : List (ReadOp F)) (s : S) (hh : HoldsAll src c sid W [] h s) (ha : Alive h) :
    readRun src sid h s .new = plainRun src sid h s := by
  refine readRun_plain src sid (allEvals src sid h s) ?_ h s .new (fun _ h => h) fun a _ => sound_new a
  intro a ha' b hb'
  obtain ⟨a1, a2, a3⟩ := evals_slice src c sid W h [] s hh a ha'
  obtain ⟨b1, b2, b3⟩ := evals_slice src c sid W h [] s hh b hb'
  refine ⟨ha _ a3 _ b3, fun e1 e2 e3 => ?_⟩
  have hch : a.chunk = b.chunk := by
    obtain ⟨p1, p2, _⟩ := a1
    obtain ⟨q1, q2, _⟩ := b1
    rw [e1, e2] at p1
    have : a.chunk.start = b.chunk.start := by rw [p1, q1]
    have : a.chunk.stop = b.chunk.stop := by omega
    cases hA : a.chunk; cases hB : b.chunk
    simp_all
  rw [a2, b2, hch]

theorem iterChunks_start (c l : Nat) : ∀ (fuel k n : Nat), ∀ x ∈ iterChunks c l fuel k (k * c) n, x.start = x.chunkId * c ∧ x.start ≤ x.stop ∧ x.stop ≤ n ∧ x.levelId = l
  | 0, _, _, x, hx => by simp [iterChunks] at hx
  | fuel + 1, k, n, x, hx => by
    rw [iterChunks] at hx
    split at hx
    · rename_i hlt
      rcases List.mem_cons.1 hx with rfl | hx
      · exact ⟨rfl, by simp; omega, by simp, rfl⟩
      · rw [← Nat.succ_mul] at hx
        exact iterChunks_start c l fuel (k + 1) n x hx
    · simp at hx

theorem hdfRun_snoc {V : Type} (g : HdfLevels V) (ops : List (StoreOp V)) (op : StoreOp V) : hdfRun g (ops ++ [op]) = hdfStep (hdfRun g ops) op := by
  simp [hdfRun]

theorem hdfChunksFrom_mem {V : Type} (c : Nat → Nat) : ∀ (g : HdfLevels V) (l : Nat) (ch : Chunk), ch ∈ hdfChunksFrom c l g →
    ∃ i x vals, g[i]? = some x ∧ x.collectedValues = some vals ∧ ch ∈ iterChunks (c (l + i)) (l + i) vals.length 0 0 vals.length
  | [], _, _, h => by simp [hdfChunksFrom] at h
  | x :: g, l, ch, h => by
    rw [hdfChunksFrom] at h
    cases hv : x.collectedValues with
    | none => simp [LevelGroup.chunks, hv] at h
    | some vals =>
      simp only [LevelGroup.chunks, hv, List.mem_append] at h
      rcases h with h | h
      · exact ⟨0, x, vals, rfl, hv, h⟩
      · obtain ⟨i, y, w, h1, h2, h3⟩ := hdfChunksFrom_mem c g (l + 1) ch h
        exact ⟨i + 1, y, w, by simpa using h1, h2, by rw [show l + (i + 1) = l + 1 + i by omega]; exact h3⟩

theorem uniform_prefix {W : Nat} {a b : List (StoreOp (Pair F))} (h : Uniform W (a ++ b)) : Uniform W a := fun l v hv =>
  h l v (by rw [savedPairs_append]; exact List.mem_append_left _ hv)

theorem hdf_level (L l : Nat) (hl : l < L) (ops : List (StoreOp (Pair F))) :
    ∃ x, (hdfRun (hdfFresh (Pair F) L) ops)[l]? = some x ∧ x.collectedValues = if savedPairs ops l = [] then none else some (savedPairs ops l) := by
  obtain ⟨x, h1, _, _, h2, _⟩ := hdf_fresh_spec L l hl ops
  refine ⟨x, h1, ?_⟩
  rw [h2, savedPairs]
  simp only [List.map_eq_nil_iff]

theorem hdf_level_bound (L l : Nat) (ops : List (StoreOp (Pair F))) (x : LevelGroup (Pair F)) (h : (hdfRun (hdfFresh (Pair F) L) ops)[l]? = some x) : l < L := by
  have := (List.getElem?_eq_some_iff.1 h).1
  rw [hdfRun_length] at this
  simpa [hdfFresh] using this

theorem hdf_holds (c : Nat → Nat) (sid W L : Nat) (ops : List (StoreOp (Pair F))) (hu : Uniform W ops) (hL : ∀ l, savedPairs ops l ≠ [] → l < L) :
    Holds (hdfSource c) c sid W ops (hdfRun (hdfFresh (Pair F) L) ops) := by
  refine ⟨fun ch hch => ?_, fun ch hch => ?_⟩
  · obtain ⟨i, x, vals, h1, h2, h3⟩ := hdfChunksFrom_mem c _ 0 ch hch
    rw [Nat.zero_add] at h3
    obtain ⟨y, y1, y2⟩ := hdf_level L i (hdf_level_bound L i ops x h1) ops
    rw [h1] at y1; injection y1 with y1; subst y1
    rw [h2] at y2
    have hb := iterChunks_start (c i) i vals.length 0 vals.length ch (by rwa [Nat.zero_mul])
    split at y2
    · simp at y2
    · rename_i hne
      injection y2 with y2
      subst y2
      obtain ⟨b1, b2, b3, b4⟩ := hb
      subst b4
      exact ⟨b1, b2, b3, hne⟩
  · funext o
    simp only [storeData, sliceData]
    by_cases ho : o = sid
    · rw [if_pos ho, if_pos ho]
      obtain ⟨_, _, _, hne⟩ := hch
      obtain ⟨x, x1, x2⟩ := hdf_level L ch.levelId (hL _ hne) ops
      rw [if_neg hne] at x2
      exact @chunkArr_eq _ ⟨some 0⟩ _ _ ch x _ W x1 x2 (hu ch.levelId) hne
    · rw [if_neg ho, if_neg ho]

theorem hdf_first (c : Nat → Nat) (hc : ∀ l, 0 < c l) (L l : Nat) (n : Option Nat) (ops : List (StoreOp (Pair F))) (hl : l < L) :
    (hdfSource c).firstChunk (hdfRun (hdfFresh (Pair F) L) ops) l n = if savedPairs ops l = [] then .error .attributeError
      else .ok ⟨0, 0, n.getD (min (c l) (savedPairs ops l).length), l⟩ := by
  obtain ⟨x, x1, x2⟩ := hdf_level L l hl ops
  simp only [hdfSource, x1, LevelGroup.chunks, x2]
  by_cases hne : savedPairs ops l = []
  · simp [hne, Except.bind]
  · rw [if_neg hne, if_neg hne]
    cases n with
    | some k => rfl
    | none =>
      have hp : 0 < (savedPairs ops l).length := List.length_pos_iff.2 hne
      obtain ⟨k, hk⟩ := Nat.exists_eq_succ_of_ne_zero (Nat.pos_iff_ne_zero.1 hp)
      simp only [hk, iterChunks, Except.bind, Option.getD_none]
      simp [nextChunk]

theorem hdf_holdsAll (c : Nat → Nat) (hc : ∀ l, 0 < c l) (sid W L : Nat) : ∀ (h : List (ReadOp F)) (before : List (StoreOp (Pair F))),
    Uniform W (before ++ stores h) → (∀ l, savedPairs (before ++ stores h) l ≠ [] → l < L) → Within L before h →
    HoldsAll (hdfSource c) c sid W before h (hdfRun (hdfFresh (Pair F) L) before)
  | [], before, hu, hL, _ => hdf_holds c sid W L before (uniform_prefix hu) (by simpa [stores] using hL)
  | .store op :: h, before, hu, hL, hw => by
    refine ⟨hdf_holds c sid W L before (uniform_prefix hu) fun l hl => hL l (by rw [savedPairs_append]; simp [hl]), fun s' hs' => ?_⟩
    have : s' = hdfRun (hdfFresh (Pair F) L) (before ++ [op]) := by
      rw [hdfRun_snoc]
      simpa [hdfSource, eq_comm] using hs'
    rw [this]
    exact hdf_holdsAll c hc sid W L h _ (by simpa [stores] using hu) (by simpa [stores] using hL) hw
  | .mean q :: h, before, hu, hL, hw =>
    ⟨hdf_holds c sid W L before (uniform_prefix hu) fun l hl => hL l (by rw [savedPairs_append]; simp [hl]), hdf_holdsAll c hc sid W L h _ hu hL hw⟩
  | .read l n q :: h, before, hu, hL, hw => by
    refine ⟨hdf_holds c sid W L before (uniform_prefix hu) fun l hl => hL l (by rw [savedPairs_append]; simp [hl]), fun ch hch => ?_, hdf_holdsAll c hc sid W L h _ hu hL hw.2⟩
    rw [hdf_first c hc L l n before hw.1.1] at hch
    split at hch
    · simp at hch
    · rename_i hne
      injection hch with hch
      subst hch
      refine ⟨by simp, by simp, ?_, hne⟩
      cases n with
      | none => simp
      | some k => simpa using hw.1.2 k rfl

theorem on_eq (q : Quantity (Option F)) (sid W : Nat) (ops : List (StoreOp (Pair F))) (l n : Nat) :
    q.samples (sliceData sid W ops ⟨0, 0, n, l⟩) = q.on sid (levelBatch l W ((savedPairs ops l).take n)) := rfl

theorem hdf_plain (c : Nat → Nat) (hc : ∀ l, 0 < c l) (sid W L : Nat) : ∀ (h : List (ReadOp F)) (before : List (StoreOp (Pair F))),
    Uniform W (before ++ stores h) → (∀ l, savedPairs (before ++ stores h) l ≠ [] → l < L) → Within L before h →
    plainRun (hdfSource c) sid h (hdfRun (hdfFresh (Pair F) L) before) =
      .ok (expected (fun _ l => c l) .attributeError sid W before h)
  | [], _, _, _, _ => rfl
  | .store op :: h, before, hu, hL, hw => by
    rw [plainRun, expected]
    show (Except.ok (hdfStep _ op)).bind _ = _
    rw [← hdfRun_snoc]
    exact hdf_plain c hc sid W L h _ (by simpa [stores] using hu) (by simpa [stores] using hL) hw
  | .mean q :: h, before, hu, hL, hw => hdf_plain c hc sid W L h _ hu hL hw
  | .read l n q :: h, before, hu, hL, hw => by
    rw [plainRun, expected, hdf_plain c hc sid W L h before hu hL hw.2]
    have hH := hdf_holds c sid W L before (uniform_prefix hu) fun l hl => hL l (by rw [savedPairs_append]; simp [hl])
    rw [hdf_first c hc L l n before hw.1.1]
    by_cases hne : savedPairs before l = []
    · rw [if_pos hne, if_pos hne]; rfl
    · rw [if_neg hne, if_neg hne]
      simp only [Except.bind, Except.map]
      have hf : Chunk.Fits c before ⟨0, 0, n.getD (min (c l) (savedPairs before l).length), l⟩ := by
        refine ⟨by simp, by simp, ?_, hne⟩
        cases n with
        | none => simp
        | some k => simpa using hw.1.2 k rfl
      rw [hH.data _ hf, on_eq]
      congr 4
      cases n with
      | some k => rfl
      | none => simp [List.take_eq_take_min]


theorem arr_eq (l W : Nat) (vals sl : List (Pair F)) (hsub : ∃ a b, sl = (vals.drop a).take b) (hw : ∀ v ∈ vals, v.1.length = W ∧ v.2.length = W) (hne : vals ≠ []) :
    arrOfLists sl.length (if l = 0 then 1 else 2) (@chunkArray _ ⟨some 0⟩ l (vecLen vals) sl) = (levelBatch l W sl).toArr := by
  obtain ⟨a, b, rfl⟩ := hsub
  have h := @chunkArr_eq (Option F) ⟨some 0⟩ _ (List.replicate (l + 1) ⟨[], [], some vals, none, none⟩) ⟨0, a, a + b, l⟩ ⟨[], [], some vals, none, none⟩ vals W
    (by simp) rfl hw hne
  have hl : (List.replicate (l + 1) (⟨[], [], some vals, none, none⟩ : LevelGroup (Pair F)))[l]? = some ⟨[], [], some vals, none, none⟩ := by simp
  simp only [hdfChunkArr, hdfPairsLevel, hl, LevelGroup.collected, Option.map_some, Option.bind_some, Option.getD_some, Nat.add_sub_cancel_left] at h
  exact Except.ok.inj h

theorem mem_level (l : Nat) (ops : List (StoreOp (Pair F))) (s : MemStore (Pair F)) (hs : memRun {} ops = .ok s) :
    Dict.get? s.results l = if savedPairs ops l = [] then none else some (savedPairs ops l) := by
  rw [(memRun_spec l ops s hs).results, savedPairs]
  simp only [List.map_eq_nil_iff]

theorem mem_holds (sid W : Nat) (ops : List (StoreOp (Pair F))) (hu : Uniform W ops) (s : MemStore (Pair F)) (hs : memRun {} ops = .ok s) :
    Holds memSource (fun _ => 0) sid W ops s := by
  refine ⟨fun ch hch => ?_, fun ch hch => ?_⟩
  · obtain ⟨l, _, h⟩ := List.mem_flatMap.1 (show ch ∈ memChunks s from hch)
    simp only [MemStore.levelChunks, mem_level l ops s hs] at h
    by_cases hne : savedPairs ops l = []
    · simp [hne, Except.toOption] at h
    · simp only [if_neg hne, Except.toOption, Option.getD_some, List.mem_singleton] at h
      subst h
      exact ⟨by simp, by simp, by simp, hne⟩
  · funext o
    simp only [storeData, sliceData]
    by_cases ho : o = sid
    · rw [if_pos ho, if_pos ho]
      obtain ⟨_, _, _, hne⟩ := hch
      have hg := mem_level ch.levelId ops s hs
      rw [if_neg hne] at hg
      simp only [memSource, memPairsLevel, MemStore.collected, hg, Except.map, Except.toOption, Option.getD_some]
      rw [arr_eq ch.levelId W (savedPairs ops ch.levelId) _ ⟨_, _, rfl⟩ (hu ch.levelId) hne]
    · rw [if_neg ho, if_neg ho]

theorem mem_first (l : Nat) (n : Option Nat) (ops : List (StoreOp (Pair F))) (s : MemStore (Pair F)) (hs : memRun {} ops = .ok s) :
    memSource.firstChunk s l n = if savedPairs ops l = [] then .error .keyError
      else .ok ⟨0, 0, min (n.getD (savedPairs ops l).length) (savedPairs ops l).length, l⟩ := by
  simp only [memSource, MemStore.levelChunks, mem_level l ops s hs]
  by_cases hne : savedPairs ops l = []
  · simp [hne, Except.bind]
  · rw [if_neg hne, if_neg hne]
    cases n with
    | some k => simp [Except.bind, nextChunk]
    | none => simp [Except.bind, nextChunk]

theorem mem_next {ops : List (StoreOp (Pair F))} {op : StoreOp (Pair F)} {s s' : MemStore (Pair F)} (hs : memRun {} ops = .ok s) (h : memStep s op = .ok s') :
    memRun {} (ops ++ [op]) = .ok s' := by
  rw [memRun_snoc, hs]; exact h

theorem mem_holdsAll (sid W : Nat) : ∀ (h : List (ReadOp F)) (before : List (StoreOp (Pair F))) (s : MemStore (Pair F)), memRun {} before = .ok s →
    Uniform W (before ++ stores h) → HoldsAll memSource (fun _ => 0) sid W before h s
  | [], before, s, hs, hu => mem_holds sid W before (uniform_prefix hu) s hs
  | .store op :: h, before, s, hs, hu =>
    ⟨mem_holds sid W before (uniform_prefix hu) s hs, fun _ hs' => mem_holdsAll sid W h _ _ (mem_next hs hs') (by simpa [stores] using hu)⟩
  | .mean q :: h, before, s, hs, hu => ⟨mem_holds sid W before (uniform_prefix hu) s hs, mem_holdsAll sid W h before s hs hu⟩
  | .read l n q :: h, before, s, hs, hu => by
    refine ⟨mem_holds sid W before (uniform_prefix hu) s hs, fun ch hch => ?_, mem_holdsAll sid W h before s hs hu⟩
    rw [mem_first l n before s hs] at hch
    split at hch
    · simp at hch
    · rename_i hne
      injection hch with hch
      subst hch
      exact ⟨by simp, by simp, by simp, hne⟩

theorem mem_plain (sid W : Nat) : ∀ (h : List (ReadOp F)) (before : List (StoreOp (Pair F))) (s : MemStore (Pair F)), memRun {} before = .ok s →
    Uniform W (before ++ stores h) → ∀ rs, plainRun memSource sid h s = .ok rs → rs = expected (fun vals _ => vals.length) .keyError sid W before h
  | [], _, _, _, _, rs, h => by injection h with h; exact h.symm
  | .store op :: h, before, s, hs, hu, rs, hr => by
    rw [plainRun] at hr
    rw [expected]
    cases hst : memStep s op with
    | error e => rw [show memSource.step s op = memStep s op from rfl, hst] at hr; simp [Except.bind] at hr
    | ok s' =>
      rw [show memSource.step s op = memStep s op from rfl, hst] at hr
      exact mem_plain sid W h _ s' (mem_next hs hst) (by simpa [stores] using hu) rs hr
  | .mean q :: h, before, s, hs, hu, rs, hr => mem_plain sid W h before s hs hu rs hr
  | .read l n q :: h, before, s, hs, hu, rs, hr => by
    rw [plainRun] at hr
    rw [expected]
    cases hp : plainRun memSource sid h s with
    | error e => rw [hp] at hr; simp [Except.map] at hr
    | ok rs' =>
      rw [hp] at hr
      simp only [Except.map, Except.ok.injEq] at hr
      subst hr
      rw [← mem_plain sid W h before s hs hu rs' hp]
      congr 1
      have hH := mem_holds sid W before (uniform_prefix hu) s hs
      rw [mem_first l n before s hs]
      by_cases hne : savedPairs before l = []
      · rw [if_pos hne, if_pos hne]; rfl
      · rw [if_neg hne, if_neg hne]
        simp only [Except.bind]
        rw [hH.data _ ⟨by simp, by simp, by simp, hne⟩, on_eq, ← List.take_eq_take_min]

end MLMC.Read
