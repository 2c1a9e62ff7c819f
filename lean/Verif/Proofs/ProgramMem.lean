import Verif.Model.ProgramMem
import Verif.Props.Program
import Verif.Props.Estimate
/-! Helper lemmas: a program on the memory storage runs in step with the program on an HDF storage. -/
namespace MLMC
variable {Cfg K C : Type}

structure InStep (env : ProgEnv Cfg K C) (m : MemProg K C) (p : Prog K C) : Prop where
  target : m.target = p.sys.target
  nSched : m.nSched = p.sys.nSched
  pending : m.pending = p.sys.pending
  handed : m.handed = p.sys.handed.length + p.sys.renewed.length
  pool : m.pool = p.pool
  inv : PoolInv p.pool
  queued : ∀ l, env.sims.length ≤ l → p.pool.readyS l = []
  store : ∃ sops, memRun {} sops = .ok m.mem ∧ p.sys.store = hdfRun (hdfFresh _ env.sims.length) sops ∧ ∀ l, env.sims.length ≤ l → savedSucc sops l = []

theorem saveSamples_ok {V : Type} (succ : Dict Nat (List (SampleId × V))) (failed : Dict Nat (List (SampleId × Msg))) (m : MemStore V)
    (h : ∀ e ∈ succ, e.2 ≠ []) : ∃ m', m.saveSamples succ failed = .ok m' := by
  have h1 : ∀ (succ : Dict Nat (List (SampleId × V))) (m : MemStore V), (∀ e ∈ succ, e.2 ≠ []) → ∃ m', succ.foldlM MemStore.saveSuccessful1 m = .ok m' := by
    intro succ
    induction succ with
    | nil => intro m _; exact ⟨m, rfl⟩
    | cons e succ ih =>
      intro m h
      have he : ∃ m', m.saveSuccessful1 e = .ok m' := by
        simp only [MemStore.saveSuccessful1]
        rw [if_neg (h e (by simp))]
        exact ⟨_, rfl⟩
      obtain ⟨m', he⟩ := he
      rw [List.foldlM_cons, he]
      exact ih _ fun e' h' => h e' (by simp [h'])
  obtain ⟨m1, hm⟩ := h1 succ m h
  exact ⟨_, by simp only [MemStore.saveSamples, hm]; rfl⟩

theorem finished_nonempty (p : Pool K C) : ∀ e ∈ p.getFinished.1.succ, e.2 ≠ [] := by
  intro e he
  simp only [Pool.getFinished, queuesToList, List.mem_filter, Bool.not_eq_true'] at he
  intro h0
  rw [h0] at he
  simp at he

theorem inStep_act {env : ProgEnv Cfg K C} (hp : env.Proper) {m : MemProg K C} {p q : Prog K C} (h : InStep env m p) (a : SchedAct) (hq : p.act env a = (q, none)) :
    ∃ m', m.act env a = .ok m' ∧ InStep env m' q := by
  obtain ⟨sops, s1, s2, s3⟩ := h.store
  cases a with
  | begin l =>
    cases hq
    exact ⟨_, rfl, h.target, h.nSched, rfl, h.handed, h.pool, h.inv, h.queued, sops, s1, s2, s3⟩
  | save l =>
    cases hq
    refine ⟨_, rfl, h.target, h.nSched, h.pending, h.handed, h.pool, h.inv, h.queued, sops ++ [.scheduled l p.sys.pending], ?_, ?_, ?_⟩
    · rw [memRun_snoc, s1, ← h.pending]; rfl
    · rw [hdfRun_snoc, ← s2]; rfl
    · intro l' hl'; rw [savedSucc_snoc, s3 l' hl']; rfl
  | hand l =>
    simp only [Prog.act] at hq
    cases hk : p.sys.nSched[l]? with
    | none => simp [hk] at hq
    | some k =>
      cases hs : env.sims[l]? with
      | none => simp [hk, hs] at hq
      | some sim =>
        simp only [hk, hs] at hq
        cases he : (p.pool.schedule env.md5 sim (sampleTag l k) (env.dur (p.sys.handed.length + p.sys.renewed.length))).2 with
        | some e => simp [he] at hq
        | none =>
          simp only [he, Prod.mk.injEq, and_true] at hq
          subst hq
          refine ⟨{ m with
            pending := m.pending ++ [sampleTag l k], nSched := m.nSched.set l (k + 1), handed := m.handed + 1
            pool := (p.pool.schedule env.md5 sim (sampleTag l k) (env.dur (p.sys.handed.length + p.sys.renewed.length))).1 }, ?_, ?_, ?_, ?_, ?_, rfl, ?_, ?_, ?_⟩
          · simp only [MemProg.act, h.nSched, hk, hs, h.pool, h.handed, he]
          · simp only [SchedAct.apply, hk]; exact h.target
          · simp only [SchedAct.apply, hk, h.nSched]
          · simp only [SchedAct.apply, hk, h.pending]
          · simp only [SchedAct.apply, hk, h.handed, List.length_append, List.length_singleton]; omega
          · exact schedule_inv _ _ _ _ _ (hp.files _ (List.mem_of_getElem? hs)) h.inv
          · intro l' hl'
            have hlev := hp.level l sim hs
            have hl := (List.getElem?_eq_some_iff.1 hs).1
            rw [(schedule_ready env.md5 p.pool sim _ _ (hp.files _ (List.mem_of_getElem? hs)) l').1, h.queued l' hl', if_neg (by omega)]
            rfl
          · simp only [SchedAct.apply, hk]; exact ⟨sops, s1, s2, s3⟩

theorem inStep_acts {env : ProgEnv Cfg K C} (hp : env.Proper) : ∀ (as : List SchedAct) {m : MemProg K C} {p q : Prog K C}, InStep env m p → p.acts env as = (q, none) →
    ∃ m', m.acts env as = .ok m' ∧ InStep env m' q := by
  intro as
  induction as with
  | nil => intro m p q h hq; cases hq; exact ⟨m, rfl, h⟩
  | cons a as ih =>
    intro m p q h hq
    simp only [Prog.acts] at hq
    rcases ha : p.act env a with ⟨p', _ | e⟩
    · simp only [ha] at hq
      obtain ⟨m1, h1, h2⟩ := inStep_act hp h a ha
      obtain ⟨m2, h3, h4⟩ := ih h2 hq
      exact ⟨m2, by simp only [MemProg.acts, h1, Except.bind]; exact h3, h4⟩
    · simp [ha] at hq

theorem inStep_collect {env : ProgEnv Cfg K C} {m : MemProg K C} {p : Prog K C} (h : InStep env m p) :
    ∃ m', m.collect = .ok (p.collect.1, m') ∧ InStep env m' p.collect.2 := by
  obtain ⟨sops, s1, s2, s3⟩ := h.store
  obtain ⟨g1, _, g3, _, g5, _⟩ := getFinished_inv p.pool h.inv
  obtain ⟨m1, hm⟩ := saveSamples_ok p.pool.getFinished.1.succ p.pool.getFinished.1.failed m.mem (finished_nonempty p.pool)
  refine ⟨{ m with mem := m1.saveNOps p.pool.getFinished.1.nOps, pool := p.pool.getFinished.2 }, ?_, h.target, h.nSched, h.pending, h.handed, rfl, g1, fun l _ => g5 l,
    sops ++ [.samples p.pool.getFinished.1.succ p.pool.getFinished.1.failed] ++ [.nOps p.pool.getFinished.1.nOps], ?_, ?_, ?_⟩
  · simp only [MemProg.collect, h.pool, hm, Except.map]; rfl
  · rw [memRun_snoc, memRun_snoc, s1]
    show ((m.mem.saveSamples p.pool.getFinished.1.succ p.pool.getFinished.1.failed).bind _) = _
    rw [hm]; rfl
  · rw [hdfRun_snoc, hdfRun_snoc, ← s2]; rfl
  · intro l hl
    rw [savedSucc_snoc, savedSucc_snoc, s3 l hl]
    show ([] ++ atLevel p.pool.getFinished.1.succ l) ++ [] = []
    rw [g3 l, show (Dict.get? p.pool.queues l).getD [] = [] from h.queued l hl]
    rfl

theorem inStep_wait {env : ProgEnv Cfg K C} (timeout : ℚ) : ∀ (clock : List ℚ) {m : MemProg K C} {p q : Prog K C}, InStep env m p → p.wait timeout clock = some q →
    ∃ m', m.wait timeout clock = some (.ok m') ∧ InStep env m' q := by
  intro clock
  induction clock with
  | nil => intro m p q _ hq; simp [Prog.wait] at hq
  | cons t ts ih =>
    intro m p q h hq
    obtain ⟨m1, h1, h2⟩ := inStep_collect h
    simp only [Prog.wait] at hq
    simp only [MemProg.wait, h1]
    by_cases ht : 0 < timeout ∧ timeout < t
    · rw [if_pos ht] at hq ⊢
      injection hq with hq; subst hq
      exact ⟨m1, rfl, h2⟩
    · rw [if_neg ht] at hq ⊢
      by_cases hr : p.collect.1 > 0
      · rw [if_pos hr] at hq ⊢
        exact ih h2 hq
      · rw [if_neg hr] at hq ⊢
        injection hq with hq; subst hq
        exact ⟨m1, rfl, h2⟩

theorem inStep_ask {env : ProgEnv Cfg K C} (timeout : Option ℚ) (clock : List ℚ) {m : MemProg K C} {p q : Prog K C} (h : InStep env m p)
    (hq : p.ask timeout clock = some q) : ∃ m', m.ask timeout clock = some (.ok m') ∧ InStep env m' q := by
  cases timeout with
  | none => exact inStep_wait 0 clock h hq
  | some t =>
    simp only [Prog.ask] at hq
    simp only [MemProg.ask]
    by_cases ht : t ≤ 0
    · rw [if_pos ht] at hq ⊢
      injection hq with hq; subst hq
      exact ⟨m, rfl, h⟩
    · rw [if_neg ht] at hq ⊢
      exact inStep_wait t clock h hq

theorem inStep_step {env : ProgEnv Cfg K C} (hp : env.Proper) (o : ProgOp) (hn : o ≠ .renew) {m : MemProg K C} {p q : Prog K C} (h : InStep env m p)
    (hq : p.step env o = some (q, none)) : ∃ m', m.step env o = some (.ok m') ∧ InStep env m' q := by
  cases o with
  | setInitial v =>
    simp only [Prog.step, Option.some.injEq, Prod.mk.injEq, and_true] at hq
    subst hq
    exact ⟨_, rfl, rfl, h.nSched, h.pending, h.handed, h.pool, h.inv, h.queued, h.store⟩
  | setTarget v =>
    by_cases hv : v.length ≤ p.sys.target.length
    · simp only [Prog.step, if_pos hv, Option.some.injEq, Prod.mk.injEq, and_true] at hq
      subst hq
      refine ⟨{ m with target := setLevelTarget m.target v }, ?_, ?_, h.nSched, h.pending, h.handed, h.pool, h.inv, h.queued, h.store⟩
      · rw [MemProg.step, if_pos (by rw [h.target]; exact hv)]
      · show setLevelTarget m.target v = setLevelTarget p.sys.target v
        rw [h.target]
    · simp [Prog.step, if_neg hv] at hq
  | ask timeout clock =>
    simp only [Prog.step, Option.map_eq_some_iff, Prod.mk.injEq, and_true] at hq
    obtain ⟨q', hq, rfl⟩ := hq
    exact inStep_ask timeout clock h hq
  | schedule timeout clock =>
    simp only [Prog.step, Option.map_eq_some_iff] at hq
    obtain ⟨p1, h1, h2⟩ := hq
    obtain ⟨m1, h3, h4⟩ := inStep_ask timeout clock h h1
    simp only [Prog.scheduleSamples] at h2
    by_cases hl : p1.sys.target.length = p1.sys.nSched.length
    · rw [if_pos hl] at h2
      obtain ⟨m2, h5, h6⟩ := inStep_acts hp _ h4 h2
      refine ⟨m2, ?_, h6⟩
      simp only [MemProg.step, h3, Option.map_some, Except.bind, MemProg.scheduleSamples]
      rw [h4.target, h4.nSched, if_pos hl]
      exact congrArg some h5
    · simp [if_neg hl] at h2
  | renew => exact absurd rfl hn

theorem inStep_run {env : ProgEnv Cfg K C} (hp : env.Proper) : ∀ (ops : List ProgOp), (∀ o ∈ ops, o ≠ .renew) → ∀ {m : MemProg K C} {p q : Prog K C}, InStep env m p →
    p.run env ops = some q → ∃ m', m.run env ops = some m' ∧ InStep env m' q := by
  intro ops
  induction ops with
  | nil => intro _ m p q h hq; simp only [Prog.run, Option.some.injEq] at hq; subst hq; exact ⟨m, rfl, h⟩
  | cons o ops ih =>
    intro hn m p q h hq
    simp only [Prog.run] at hq
    split at hq
    · rename_i p1 h1
      obtain ⟨m1, h2, h3⟩ := inStep_step hp o (hn o (by simp)) h h1
      obtain ⟨m2, h4, h5⟩ := ih (fun o' h' => hn o' (by simp [h'])) h3 hq
      exact ⟨m2, by simp only [MemProg.run, h2]; exact h4, h5⟩
    · simp at hq

theorem inStep_start (env : ProgEnv Cfg K C) (debug hasDir : Bool) (dirs : Dirs C) :
    InStep env (MemProg.start env debug hasDir dirs) (Prog.start env debug hasDir dirs) := by
  refine ⟨?_, ?_, ?_, ?_, rfl, create_inv _ _ _, ?_, [], rfl, rfl, fun _ _ => rfl⟩
  · simp [MemProg.start, Prog.start, Sys.fresh, Sys.construct]
  · simp [MemProg.start, Prog.start, Sys.fresh, Sys.construct, hdfLoadScheduled]
  · simp [MemProg.start, Prog.start, Sys.fresh, Sys.construct]
  · simp [MemProg.start, Prog.start, Sys.fresh, Sys.construct]
  · intro l _; simp [Prog.start, Pool.create, Pool.readyS]

/-! ### Reading -/

theorem memNumbers_get {K : Type} (m : MemStore (ResPart K × ResPart K)) (l : Nat) :
    Dict.get? (memNumbers m).results l = (Dict.get? m.results l).map fun vs => vs.map fun v => (v.1.content, v.2.content) := by
  simp only [memNumbers]
  generalize m.results = r
  induction r with
  | nil => rfl
  | cons e r ih =>
    obtain ⟨k, v⟩ := e
    simp only [List.map_cons, Dict.get?]
    by_cases h : k = l
    · rw [if_pos h, if_pos h]; rfl
    · rw [if_neg h, if_neg h]; exact ih

theorem memNumbers_ids {K : Type} (m : MemStore (ResPart K × ResPart K)) : (memNumbers m).levelIds = m.levelIds := by
  simp [memNumbers, MemStore.levelIds, Dict.keys]

theorem memChunkArr_eq {K : Type} [Zero K] [Inhabited K] (m : MemStore (List K × List K)) (ch : Chunk)
    (vals : List (List K × List K)) (W : Nat) (hx : Dict.get? m.results ch.levelId = some vals)
    (hw : ∀ v ∈ vals, v.1.length = W ∧ v.2.length = W) (hne : vals ≠ []) :
    memChunkArr m ch = .ok (levelBatch ch.levelId W ((vals.drop ch.start).take (ch.stop - ch.start))).toArr := by
  set x : LevelGroup (List K × List K) := { collectedValues := some vals }
  have h := chunkArr_eq (List.replicate (ch.levelId + 1) x) ch x vals W (by simp) rfl hw hne
  rw [← h]
  simp only [memChunkArr, hdfChunkArr, memPairsLevel, hdfPairsLevel, MemStore.collected, hx, LevelGroup.collected]
  simp [x]

theorem foldl_max_spec : ∀ (xs : List Nat) (a : Nat), a ≤ xs.foldl max a ∧ (∀ x ∈ xs, x ≤ xs.foldl max a) ∧ (xs.foldl max a = a ∨ xs.foldl max a ∈ xs) := by
  intro xs
  induction xs with
  | nil => intro a; simp
  | cons x xs ih =>
    intro a
    obtain ⟨h1, h2, h3⟩ := ih (max a x)
    refine ⟨le_trans (le_max_left _ _) h1, ?_, ?_⟩
    · intro y hy
      rcases List.mem_cons.1 hy with rfl | hy
      · exact le_trans (le_max_right _ _) h1
      · exact h2 y hy
    · simp only [List.foldl_cons]
      rcases h3 with h3 | h3
      · rcases le_total a x with hx | hx
        · rw [max_eq_right hx] at h3 ⊢; right; rw [h3]; simp
        · rw [max_eq_left hx] at h3 ⊢; left; exact h3
      · right; exact List.mem_cons_of_mem _ h3

/-- `estimate_mean` on a memory storage whose results have length `W`. -/
theorem estimateFromMemory_eq {F : Type} [Field F] (m : MemStore (List (Option F) × List (Option F))) (sid W : Nat) (q : Quantity (Option F))
    (hnd : m.levelIds.Nodup) (hne : m.levelIds ≠ [])
    (h : ∀ l vals, Dict.get? m.results l = some vals → vals ≠ [] ∧ ∀ e ∈ vals, e.1.length = W ∧ e.2.length = W) :
    ∃ chunks : List (Nat × List (Sample (Option F))), ChunksWF W chunks ∧ (∀ ch ∈ chunks, ch.1 < m.levelIds.foldl max 0 + 1) ∧
      (∀ l, levelData chunks l = asSamples l ((Dict.get? m.results l).getD [])) ∧
      estimateFromMemory m sid q = estimateMean q (m.levelIds.foldl max 0 + 1) (asChunks sid W chunks) := by
  have hget : ∀ l ∈ m.levelIds, ∃ vals, Dict.get? m.results l = some vals := by
    intro l hl
    exact Option.isSome_iff_exists.1 ((Dict.get?_isSome_iff _ _).2 hl)
  refine ⟨m.levelIds.map fun l => (l, asSamples l ((Dict.get? m.results l).getD [])), ?_, ?_, ?_, ?_⟩
  · intro e he
    obtain ⟨l, hl, rfl⟩ := List.mem_map.1 he
    obtain ⟨vals, hv⟩ := hget l hl
    simp only [hv, Option.getD_some]
    exact levelBatch_wf l W _ (h l vals hv).2
  · intro e he
    obtain ⟨l, hl, rfl⟩ := List.mem_map.1 he
    exact Nat.lt_succ_of_le ((foldl_max_spec m.levelIds 0).2.1 l hl)
  · intro l
    by_cases hl : l ∈ m.levelIds
    · have : ∀ (ids : List Nat), ids.Nodup → l ∈ ids → levelData (ids.map fun l => (l, asSamples l ((Dict.get? m.results l).getD []))) l =
          asSamples l ((Dict.get? m.results l).getD []) := by
        intro ids
        induction ids with
        | nil => simp
        | cons a ids ih =>
          intro hd hm
          rw [List.nodup_cons] at hd
          by_cases e : a = l
          · subst e
            have h0 : levelData (ids.map fun l => (l, asSamples l ((Dict.get? m.results l).getD []))) a = [] := by
              rw [levelData, List.filter_eq_nil_iff.2]; · rfl
              intro x hx
              obtain ⟨b, hb, rfl⟩ := List.mem_map.1 hx
              simp only [decide_eq_true_eq]
              rintro rfl
              exact hd.1 hb
            simp only [levelData] at h0 ⊢
            simp only [List.map_cons, List.filter_cons, decide_true, if_true, List.flatMap_cons, h0, List.append_nil]
          · have := ih hd.2 (by rcases List.mem_cons.1 hm with h | h; exacts [absurd h.symm e, h])
            simp only [levelData] at this ⊢
            simp only [List.map_cons, List.filter_cons, e, decide_false, Bool.false_eq_true, if_false]
            exact this
      exact this m.levelIds hnd hl
    · have hg : Dict.get? m.results l = none := (Dict.get?_eq_none_iff _ _).2 hl
      rw [hg, levelData, List.filter_eq_nil_iff.2]; · rfl
      intro x hx
      obtain ⟨b, hb, rfl⟩ := List.mem_map.1 hx
      simp only [decide_eq_true_eq]
      rintro rfl
      exact hl hb
  · have hch : (m.levelIds.mapM fun l => m.levelChunks l none) = .ok (m.levelIds.map fun l => [⟨0, 0, ((Dict.get? m.results l).getD []).length, l⟩]) := by
      have : ∀ ids : List Nat, (∀ l ∈ ids, ∃ vals, Dict.get? m.results l = some vals) → (ids.mapM fun l => m.levelChunks l none) =
          .ok (ids.map fun l => [⟨0, 0, ((Dict.get? m.results l).getD []).length, l⟩]) := by
        intro ids
        induction ids with
        | nil => intro _; rfl
        | cons a ids ih =>
          intro hi
          obtain ⟨vals, hv⟩ := hi a (by simp)
          rw [List.mapM_cons, ih fun l hl => hi l (by simp [hl])]
          simp only [MemStore.levelChunks, hv, List.map_cons, Option.getD_some]
          rfl
      exact this _ hget
    rw [estimateFromMemory, if_neg hne, hch]
    show estimateMean q _ _ = _
    congr 1
    unfold asChunks
    rw [List.map_map, List.flatten_eq_flatMap, List.flatMap_map]
    simp only [id, List.flatMap_singleton', List.map_flatMap, List.map_cons, List.map_nil]
    rw [← List.map_eq_flatMap]
    apply List.map_congr_left
    intro l hl
    obtain ⟨vals, hv⟩ := hget l hl
    simp only [Function.comp, Prod.mk.injEq, true_and]
    funext o
    split
    · rw [@memChunkArr_eq _ ⟨some 0⟩ _ m _ vals W hv (h l vals hv).2 (h l vals hv).1]
      simp [hv, asSamples, levelBatch]
      rfl
    · rfl

end MLMC
