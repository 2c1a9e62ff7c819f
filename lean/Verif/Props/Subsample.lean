import Verif.Model.Subsample
import Mathlib.Algebra.Order.BigOperators.Group.List
/-
C43: random subsamples.  C79: bootstrap.
-/
namespace MLMC
variable {K : Type}

/-- The draws of a level are possible: for each chunk the random generators may return the positions.  (The parameters are the same for
each chunk.) -/
def DrawsOk (k n : Nat) (cs : List (Arr K × List Nat)) : Prop :=
  ∀ c ∈ cs, DrawOk (.init k n) c.1.n c.2

theorem adjust_init (k n : Nat) {p : SubParams} (h : p.origK = k ∧ p.origN = n) : p.adjust = .init k n := by
  obtain ⟨h1, h2⟩ := h
  rw [SubParams.adjust, SubParams.init, h1, h2]

theorem subsampleLevel_ok (k n : Nat) (hn : n ≠ 0) (hk : k ≤ n) : ∀ (cs : List (Arr K × List Nat)) (p : SubParams),
    p.origK = k ∧ p.origN = n → (∀ c ∈ cs, c.1.n ≤ n) →
    subsampleLevel p cs = .ok (cs.map fun c => ⟨c.2.length, c.1.p, c.1.rows.map fun r j i => r (c.2.getD j 0) i⟩)
  | [], _, _, _ => rfl
  | (a, idx) :: cs, p, hp, hc => by
    rw [subsampleLevel, adjust_init k n hp, pickSamples,
      if_neg (by have := hc (a, idx) (List.mem_cons_self ..); simp only [SubParams.init] at this ⊢; omega)]
    simp only [Except.bind]
    rw [subsampleLevel_ok k n hn hk cs _ ⟨rfl, rfl⟩ fun c h => hc c (List.mem_cons_of_mem _ h)]
    rfl

/-- **C43**, stored samples: whatever is drawn, the subsample of each chunk consists of stored samples of that chunk, with all components
and the fine and coarse part of the same sample.  `k` of the `n` samples of the level are requested; all chunks together hold
`n` samples. -/
theorem C43_stored_samples (k n : Nat) (hn : n ≠ 0) (hk : k ≤ n) (cs : List (Arr K × List Nat)) (hsum : (cs.map fun c => c.1.n).sum = n)
    (hd : DrawsOk k n cs) :
    ∃ out, subsampleLevel (.init k n) cs = .ok out ∧ out.length = cs.length ∧
      ∀ (i : Nat) (hi : i < cs.length) (ho : i < out.length), (out[i]).p = (cs[i]).1.p ∧ (out[i]).rows.length = (cs[i]).1.rows.length ∧
        ∀ j < (out[i]).n, ∃ j' < (cs[i]).1.n, ∀ (r : Nat) (h1 : r < (out[i]).rows.length) (h2 : r < (cs[i]).1.rows.length) (part : Nat),
          (out[i]).rows[r] j part = (cs[i]).1.rows[r] j' part := by
  have hle : ∀ c ∈ cs, c.1.n ≤ n := fun c hc => hsum ▸ List.single_le_sum (by simp) _ (List.mem_map.mpr ⟨c, hc, rfl⟩)
  refine ⟨_, subsampleLevel_ok k n hn hk cs _ ⟨rfl, rfl⟩ hle, by simp, fun i hi ho => ?_⟩
  rw [List.getElem_map]
  refine ⟨rfl, by simp, fun j hj => ⟨cs[i].2.getD j 0, (hd _ (List.getElem_mem hi)).2 _ ?_, fun r h1 h2 part => by simp⟩⟩
  rw [show cs[i].2.getD j 0 = cs[i].2[j] by simp [List.getD, hj]]
  exact List.getElem_mem hj

/-- **C43** (partial): if all samples of the level are in one chunk, the subsample has exactly the requested number of samples.
Missing: several chunks, for which the number may differ, and distinctness of the samples (both false, below). -/
theorem C43_number_partial (k n : Nat) (hn : n ≠ 0) (hk : k ≤ n) (a : Arr K) (ha : a.n = n) (idx : List Nat) (hd : DrawsOk k n [(a, idx)]) :
    ∃ b, subsampleLevel (.init k n) [(a, idx)] = .ok [b] ∧ b.n = k := by
  refine ⟨_, by rw [subsampleLevel_ok k n hn hk _ _ ⟨rfl, rfl⟩ (by simp [ha])]; rfl, ?_⟩
  obtain ⟨⟨h1, h2, _⟩, _⟩ := hd _ (List.mem_singleton.mpr rfl)
  simp only [SubParams.init] at h1 h2 ⊢
  omega

/-- **C43** (partial), several chunks: each chunk gives at most the requested number of samples and at most as many as it has; it gives all
requested samples but those that fit in the other chunks.  The parameters are reset for each chunk, so the numbers of different
chunks are not related. -/
theorem C43_chunk_numbers_partial (k n : Nat) (hn : n ≠ 0) (hk : k ≤ n) (cs : List (Arr K × List Nat))
    (hsum : (cs.map fun c => c.1.n).sum = n) (hd : DrawsOk k n cs) :
    ∃ out, subsampleLevel (.init k n) cs = .ok out ∧ ∀ (i : Nat) (hi : i < cs.length) (ho : i < out.length),
      (out[i]).n ≤ k ∧ (out[i]).n ≤ (cs[i]).1.n ∧ k - (n - (cs[i]).1.n) ≤ (out[i]).n := by
  have hle : ∀ c ∈ cs, c.1.n ≤ n := fun c hc => hsum ▸ List.single_le_sum (by simp) _ (List.mem_map.mpr ⟨c, hc, rfl⟩)
  refine ⟨_, subsampleLevel_ok k n hn hk cs _ ⟨rfl, rfl⟩ hle, fun i hi ho => ?_⟩
  obtain ⟨⟨h1, h2, h3⟩, _⟩ := hd _ (List.getElem_mem hi)
  have := hle _ (List.getElem_mem hi)
  simp only [List.getElem_map, SubParams.init] at *
  omega

/-- **C43**: a request for more samples than the level has collected is refused, as is a request at a level with no samples and one at a level whose
stored chunk holds more samples than were counted, whatever is drawn. -/
theorem C43_refused (k n : Nat) (a : Arr K) (idx : List Nat) (cs : List (Arr K × List Nat)) (h : n = 0 ∨ n < k ∨ n < a.n) :
    subsampleLevel (.init k n) ((a, idx) :: cs) = .error .valueError := by
  rw [subsampleLevel, adjust_init k n ⟨rfl, rfl⟩, pickSamples, if_pos (by simpa only [SubParams.init] using h)]
  rfl

example : subsampleLevel (.init 4 3) [((⟨3, 1, [fun j _ => j]⟩ : Arr ℚ), [0])] = .error .valueError := C43_refused 4 3 _ _ [] (by omega)

/-- Two chunks with samples 0, 1, 2 and 3, 4, 5. -/
def cxChunks (i j : List Nat) : List (Arr ℚ × List Nat) := [(⟨3, 1, [fun j _ => j]⟩, i), (⟨3, 1, [fun j _ => j + 3]⟩, j)]

/-- The values of the first component. -/
def Arr.firstRow (a : Arr ℚ) : List ℚ := (List.range a.n).map fun j => (a.rows.getD 0 fun _ _ => 0) j 0

/-- **C43** is false for several chunks: of six samples in two chunks three are requested.  Draws are possible that give none, and draws
that give six samples. -/
theorem C43_counterexample_number :
    DrawsOk 3 6 (cxChunks [] []) ∧ (subsampleLevel (.init 3 6) (cxChunks [] [])).map (List.map Arr.firstRow) = .ok [[], []] ∧
    DrawsOk 3 6 (cxChunks [0, 1, 2] [0, 1, 2]) ∧
    (subsampleLevel (.init 3 6) (cxChunks [0, 1, 2] [0, 1, 2])).map (List.map Arr.firstRow) = .ok [[0, 1, 2], [3, 4, 5]] := by
  refine ⟨?_, by decide +kernel, ?_, by decide +kernel⟩ <;> simp [DrawsOk, DrawOk, SubParams.init, cxChunks, hyperSupport]

/-- **C43** is false about distinct samples: positions are drawn with replacement; of two samples in one chunk two are requested and the
first sample is returned twice. -/
theorem C43_counterexample_repeated :
    DrawsOk 2 2 [((⟨2, 1, [fun j _ => j]⟩ : Arr ℚ), [0, 0])] ∧
    (subsampleLevel (.init 2 2) [((⟨2, 1, [fun j _ => j]⟩ : Arr ℚ), [0, 0])]).map (List.map Arr.firstRow) = .ok [[0, 0]] := by
  refine ⟨by simp [DrawsOk, DrawOk, SubParams.init, hyperSupport], by decide +kernel⟩

/-- The hypotheses hold for two chunks with one sample drawn from the first and two from the second. -/
example : DrawsOk 3 6 (cxChunks [1] [0, 2]) ∧ ((cxChunks [1] [0, 2]).map fun c => c.1.n).sum = 6 := by
  simp [DrawsOk, DrawOk, SubParams.init, cxChunks, hyperSupport]

/-! ### Bootstrap -/

theorem selectArr_arr [Inhabited K] (v : QVal K) (a : Arr K) : selectArr [v, .arr a] = .error .indexError := by cases v <;> rfl

theorem subsample_never_mask [Inhabited K] (oid : Nat) (draw : Arr K → SubParams × List Nat) (q : Quantity K) (env : Nat → Except PyErr (Arr K)) (v : QVal K)
    (h : (Quantity.subsample oid draw q).samples env = .ok v) : ∃ a, v = .arr a := by
  rw [Quantity.subsample, Quantity.samples, Quantity.samplesList, Quantity.samplesList] at h
  simp only [bind, Except.bind] at h
  cases hq : q.samples env with
  | error e => rw [hq] at h; simp at h
  | ok x =>
    rw [hq] at h
    cases x with
    | mask b => simp [subsampleOp] at h
    | arr a =>
      simp only [subsampleOp] at h
      cases hp : pickSamples a (draw a).1.adjust (draw a).2 with
      | error e => rw [hp] at h; simp [Except.map] at h
      | ok r => rw [hp] at h; simp [Except.map] at h; exact ⟨_, h.symm⟩

/-- Selecting by a subsample can be written but not evaluated. -/
theorem select_subsample_raises [Inhabited K] (env0 : Nat → Except PyErr (Arr K)) (oids : Nat → Nat) (oid : Nat) (q s : Quantity K)
    (draw : Arr K → SubParams × List Nat) (h : Quantity.select env0 oids q (Quantity.subsample oid draw q) [] = .ok s)
    (env : Nat → Except PyErr (Arr K)) : ∃ e, s.samples env = .error e := by
  have hs : ∃ o t b, s = .node o t b selectArr [q, Quantity.subsample oid draw q] := by
    rw [Quantity.select] at h
    split at h
    · cases h
    · simp only [List.zipIdx_nil, List.foldlM_nil, bind, Except.bind, pure, Except.pure, Quantity.mk] at h
      split at h
      · cases h
      · rename_i h1
        split at h1
        · cases h1
        · split at h1
          · cases h1
          · cases h1; simp only [Except.ok.injEq] at h; exact ⟨_, _, _, h.symm⟩
  obtain ⟨o, t, b, rfl⟩ := hs
  rw [Quantity.samples, Quantity.samplesList, Quantity.samplesList, Quantity.samplesList]
  simp only [bind, Except.bind]
  cases q.samples env with
  | error e => exact ⟨e, rfl⟩
  | ok x =>
    cases hv : (Quantity.subsample oid draw q).samples env with
    | error e => exact ⟨e, rfl⟩
    | ok v =>
      obtain ⟨a, rfl⟩ := subsample_never_mask oid draw q env v hv
      exact ⟨_, selectArr_arr x a⟩

theorem meanLoop_error {F : Type} [Field F] (q : Quantity (Option F)) (nL : Nat) (acc : MeanAcc F)
    (cs : List (Nat × (Nat → Except PyErr (Arr (Option F))))) (hne : cs ≠ []) (h : ∀ env, ∃ e, q.samples env = .error e) :
    ∃ e, meanLoop q nL acc cs = .error e := by
  cases cs with
  | nil => exact absurd rfl hne
  | cons c cs =>
    obtain ⟨e, he⟩ := h c.2
    exact ⟨e, by rw [meanLoop, he]; rfl⟩

/-- **C79** is false: every round of the bootstrap raises an exception, for every quantity, all moment functions, all requested numbers, all
draws and all stored samples (the subsampled values, not a condition, are used as the mask of `select`). -/
theorem C79_counterexample {F : Type} [Field F] (env0 : Nat → Except PyErr (Arr (Option F))) (oids : Nat → Nat) (q : Quantity (Option F))
    (draw : Arr (Option F) → SubParams × List Nat) (momType : QType) (moments : List (QVal (Option F)) → Except PyErr (QVal (Option F)))
    (nLevels : Nat) (chunks : List (Nat × (Nat → Except PyErr (Arr (Option F))))) :
    ∃ e, bootstrapRound env0 oids q draw momType moments nLevels chunks = .error e := by
  rw [bootstrapRound]
  cases hs : Quantity.select env0 oids q (Quantity.subsample (oids 1) draw q) [] with
  | error e => exact ⟨e, rfl⟩
  | ok s =>
    have hraise := select_subsample_raises env0 oids (oids 1) q s draw hs
    simp only [Except.bind]
    cases hm : Quantity.mk (oids 2) momType moments [s] with
    | error e => exact ⟨e, rfl⟩
    | ok m =>
      have hm' : m = .node (oids 2) momType false moments [s] := by
        simp only [Quantity.mk, bind, Except.bind] at hm
        split at hm
        · cases hm
        · split at hm
          · cases hm
          · cases hm; rfl
      have hme : ∀ env, ∃ e, m.samples env = .error e := fun env => by
        obtain ⟨e, he⟩ := hraise env
        exact ⟨e, by rw [hm', Quantity.samples, Quantity.samplesList, he]; rfl⟩
      simp only
      rw [estimateMean]
      by_cases hst : m.storageOf = none
      · exact ⟨_, by rw [if_pos hst]⟩
      rw [if_neg hst]
      by_cases hc : chunks = []
      · subst hc; exact ⟨.other, rfl⟩
      · obtain ⟨e, he⟩ := meanLoop_error m nLevels .init chunks hc hme
        exact ⟨e, by rw [he]; rfl⟩

/-- The bootstrap fails at evaluation: for this root quantity the construction of the selection succeeds. -/
example : (Quantity.select (K := Option ℚ) (fun _ => .error .other) (fun i => i + 10) (.storage 1 .scalar)
    (Quantity.subsample 11 (fun a => (.init 1 a.n, [0])) (.storage 1 .scalar)) []).isOk = true := by decide +kernel

end MLMC
