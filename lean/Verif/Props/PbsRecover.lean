import Verif.Props.PbsSessions
import Verif.Proofs.PbsRecover
/-! # C137 Every new program recovers what jobs have recorded, whatever happened before -/
namespace MLMC
variable {Cfg K C : Type}

theorem jobs_pool (env : PbsEnv Cfg K C) (js : List (Nat × JobAppend (PairRes K))) : ∀ p : PbsProg Cfg K C, (p.jobs env js).world.pool = p.world.pool := by
  induction js with
  | nil => intro p; rfl
  | cons j js ih => intro p; exact (ih _).trans rfl

/-- The pool of a new program has nothing scheduled and no jobs. -/
theorem next_pool (env : PbsEnv Cfg K C) (js js' : List (Nat × JobAppend (PairRes K))) (debug : Bool) (listing : List Nat) (ids : List SampleId)
    (p : PbsProg Cfg K C) : let w := ((p.next env js debug listing ids).jobs env js').world
    w.pool.scheduled = [] ∧ w.pool.pbsIds = [] ∧ w.pool.unfinished = ids.dedup := by
  intro w
  simp only [w, jobs_pool]
  cases debug <;> exact ⟨rfl, rfl, rfl⟩

/-- Its first `get_finished`. -/
theorem first_get {S R : Type} (w : PbsWorld S R) (hs : w.pool.scheduled = []) (hp : w.pool.pbsIds = []) (q : QsubAns) (qa : QstatAns) :
    (w.getFinished q qa).2.answer = (w.getResultFiles [] []).2.answer := by
  have h1 : w.execute q = (w, {}) := by simp [PbsWorld.execute, hs]
  have h2 : w.pool.qstat qa = (w.pool, .ok ([], [])) := by simp [PbsPool.qstat, hp]
  simp only [PbsWorld.getFinished, h1, h2]

theorem next_sess {env : PbsEnv Cfg K C} {es : List (PbsEvent K)} {p p1 : PbsProg Cfg K C} (hp : (PbsProg.start env).events env es = some p)
    {e : PbsEnd K} (he : p.ending env e = some p1) (js js' : List (Nat × JobAppend (PairRes K))) (debug : Bool) (listing : List Nat)
    (ids : List SampleId) :
    (∃ sops, Sess env p1 sops) ∧ TagLists env.sims.length p1.sys.store ∧ ∃ s, Sess env ((p1.next env js debug listing ids).jobs env js') s := by
  obtain ⟨h0, i0⟩ := sess_start env
  obtain ⟨⟨m, -, hs, -⟩, hi⟩ := sched_events (keep := False) es h0 i0 (fun k => k.elim) hp
  obtain ⟨⟨m1, -, hs1, -⟩, ht⟩ := goes_ending (keep := False) hs hi e he
  have h2 := sched_event (keep := False) hs hi (.restart e js debug listing ids) (fun k => k.elim)
    (by simp only [PbsProg.event, he, Option.map_some] : p.event env _ = some (p1.next env js debug listing ids))
  obtain ⟨⟨m2, -, hs2, -⟩, -⟩ := h2
  obtain ⟨m3, -, hs3, -⟩ := goes_jobs (keep := False) js' hs2
  exact ⟨⟨_, hs1⟩, ht, _, hs3⟩

/-- C137: programs with PBS were killed or died and were started again any number of times, each with a new or an old directory; the
next program gets the unfinished samples of the file.  If each of them was written into a job since the directory was last emptied,
its first question returns (whatever the commands answer); it changes neither scheduled nor failed samples, stores the right value of
every unfinished sample whose last job has recorded a success, and nothing else than right values of unfinished samples; unfinished remain
only samples whose last job has recorded no success, among them all those no job read has recorded. -/
theorem C137_first_question_recovers_partial (env : PbsEnv Cfg K C) (es : List (PbsEvent K)) (p p1 : PbsProg Cfg K C)
    (hp : (PbsProg.start env).events env es = some p) (e : PbsEnd K) (he : p.ending env e = some p1)
    (u : List SampleId) (hu : hdfUnfinishedIds p1.sys.store = .ok u)
    (js : List (Nat × JobAppend (PairRes K))) (debug : Bool) (listing : List Nat) (ids : List SampleId) (hids : ∀ id, id ∈ ids ↔ id ∈ u)
    (r : PbsRound K) (rs : List (PbsRound K)) (timeout : Option ℚ) (ht : ∀ t, timeout = some t → 0 < t)
    (h : List (PbsOp (PoolSim Cfg K C) (PairRes K))) (hh : h = ((p1.next env js debug listing ids).jobs env r.jobs).hist)
    (hj : HonestJobs env h) (hf : HonestFailures env h) (hpk : ∀ id ∈ u, ∃ j, lastJobIn env h id = some j) :
    ∃ q, (p1.next env js debug listing ids).ask env timeout (r :: rs) = some q ∧
      (∀ l, l < env.sims.length → ∃ (x y : LevelGroup (PairRes K)) (new : List (SampleId × PairRes K)),
        p1.sys.store[l]? = some x ∧ q.sys.store[l]? = some y ∧ y.scheduled = x.scheduled ∧ y.failed = x.failed ∧
        y.collectedIds = x.collectedIds ++ new.map (·.1) ∧ y.collectedValues.getD [] = x.collectedValues.getD [] ++ new.map (·.2) ∧
        (∀ s ∈ new, s.1 ∈ u ∧ RightValue env l s.1 s.2) ∧
        ∀ id ∈ u, ∀ j v, lastJobIn env h id = some j → SuccIn h j l id v → id ∈ new.map (·.1)) ∧
      ∃ u', hdfUnfinishedIds q.sys.store = .ok u' ∧
        (∀ id ∈ u', id ∈ u ∧ ∀ j l v, lastJobIn env h id = some j → ¬ SuccIn h j l id v) ∧
        ∀ id ∈ u, (∀ id' ∈ u, ∀ j l v, lastJobIn env h id' = some j → ¬ SuccIn h j l id v) → id ∈ u' := by
  obtain ⟨⟨sops, S1⟩, T1, s2, S2⟩ := next_sess hp he js r.jobs debug listing ids
  obtain ⟨n1, n2, n3⟩ := next_pool env js r.jobs debug listing ids p1
  have hw : ((p1.next env js debug listing ids).jobs env r.jobs).world = worldAfter env h := by rw [S2.world, hh]
  have hok := worldOk_run h (by rw [hh]; rw [hh] at hj hf; exact S2.ops hj hf) hj hf
  have wok := hok.1 h (List.prefix_refl _)
  obtain ⟨d1, d2, d3⟩ := dir_facts env h
  rw [hw] at n1 n2 n3
  have hmem : ∀ id, id ∈ ids.dedup ↔ id ∈ u := fun id => by rw [List.mem_dedup, hids]
  have hjob : ∀ id j, jobOfSample (worldAfter env h).disk id = .ok j ↔ lastJobIn env h id = some j := by
    intro id j
    rw [d1]
    cases lastJobIn env h id with
    | none => simp only; split <;> simp
    | some k => simp
  obtain ⟨a, e1, k1, k2, k3, _, k5, k6⟩ := collectUnfinished_spec ids.dedup (worldAfter env h).disk
    (fun id hid => by
      obtain ⟨j, hj'⟩ := hpk id ((hmem id).1 hid)
      exact ⟨j, (hjob id j).2 hj', d2 id j hj'⟩)
    ids.dedup [] ({} : Acc (PairRes K)) (fun x hx => hx) (by simp [Dict.keys]) rfl rfl (by simp) (by simp)
  -- the answer
  have hans : ∃ ans : PoolAnswer (PairRes K), ((worldAfter env h).getFinished r.qsub r.qstat).2.answer = some ans ∧ ans.failed = [] ∧ ans.nRunning = 0 ∧
      ∀ l, atLevel ans.succ l = (Dict.get? a.succ l).getD [] := by
    rw [first_get _ n1 n2]
    unfold PbsWorld.getResultFiles
    simp only [nRunningOf, collectFinished, n3]
    by_cases hemp : ids.dedup = []
    · rw [if_pos hemp]
      refine ⟨_, rfl, rfl, rfl, fun l => ?_⟩
      rw [hemp] at e1
      simp only [collectUnfinished, Except.ok.injEq] at e1
      rw [← e1]; simp [atLevel, Dict.get?]
    · rw [if_neg hemp]
      simp only [e1]
      exact ⟨_, rfl, k1, rfl, fun l => atLevel_of_nodup _ k3 l⟩
  obtain ⟨ans, b1, b2, b3, b4⟩ := hans
  -- the question
  let p2 := p1.next env js debug listing ids
  have hcol : p2.collect env r = some (0, { ((p2.jobs env r.jobs).pool env (.get r.qsub r.qstat)).1 with
      sys := { (p2.jobs env r.jobs).sys with store := storeSamples p1.sys.store ans } }) := by
    have hx : ((p2.jobs env r.jobs).pool env (.get r.qsub r.qstat)).2.answer = some ans := by
      simp only [PbsProg.pool, PbsWorld.step, p2, hw, b1]
    have hst : ((p2.jobs env r.jobs).pool env (.get r.qsub r.qstat)).1.sys.store = p1.sys.store := by
      show (p2.jobs env r.jobs).sys.store = _
      rw [jobs_sys]
      show (p1.jobs env js).sys.store = _
      rw [jobs_sys]
    simp only [PbsProg.collect, hx, b3, hst]
    rfl
  obtain ⟨q, hq⟩ : ∃ q : PbsProg Cfg K C, q = { ((p2.jobs env r.jobs).pool env (.get r.qsub r.qstat)).1 with
      sys := { (p2.jobs env r.jobs).sys with store := storeSamples p1.sys.store ans } } := ⟨_, rfl⟩
  rw [← hq] at hcol
  have hqs : q.sys.store = hdfRun (hdfFresh _ env.sims.length) ((sops ++ [.samples ans.succ ans.failed]) ++ [.nOps ans.nOps]) := by
    rw [hdfRun_snoc, hdfRun_snoc, ← S1.store, hq]
    rfl
  have hwait : ∀ t, p2.wait env t (r :: rs) = some q := by
    intro t
    simp only [PbsProg.wait, hcol]
    split
    · rfl
    · simp
  have hask : p2.ask env timeout (r :: rs) = some q := by
    cases timeout with
    | none => exact hwait 0
    | some t => simp only [PbsProg.ask, not_le.2 (ht t rfl), if_false]; exact hwait t
  -- facts about what is collected
  have f1 : ∀ l, ∀ s ∈ atLevel ans.succ l, s.1 ∈ u ∧ RightValue env l s.1 s.2 := by
    rintro l ⟨id, v⟩ hs
    rw [b4] at hs
    obtain ⟨c1, id', c2, j, c3, c4⟩ := k5 l id v hs
    exact ⟨(hmem _).1 c1, wok.recs j l id v c4⟩
  have tags : ∀ l id v, RightValue env l id v → ∃ i, id = sampleTag l i := fun l id v ⟨i, _, hi, _⟩ => ⟨i, hi⟩
  have f2 : ∀ l, ∀ id ∈ u, ∀ j v, lastJobIn env h id = some j → SuccIn h j l id v → id ∈ (atLevel ans.succ l).map (·.1) := by
    intro l id hid j v hl hsu
    have hrec := (d3 j l id v).2 hsu
    obtain ⟨i, hi⟩ := tags l id v (wok.recs j l id v hrec)
    rcases k6 id ((hmem id).2 hid) with ⟨l', v', hc⟩ | hc
    · rw [← b4] at hc
      obtain ⟨i', hi'⟩ := tags l' id v' (f1 l' _ hc).2
      have := (sampleTag_injective (hi.symm.trans hi')).1
      subst this
      exact List.mem_map.2 ⟨_, hc, rfl⟩
    · exact absurd hrec (hc j ((hjob id j).2 hl) l v)
  have ssucc : ∀ l, savedSucc ((sops ++ [.samples ans.succ ans.failed]) ++ [.nOps ans.nOps]) l = savedSucc sops l ++ atLevel ans.succ l := by
    intro l; rw [progSucc_snoc, progSucc_snoc]; simp
  have sfail : ∀ l, savedFailed ((sops ++ [.samples ans.succ ans.failed]) ++ [.nOps ans.nOps]) l = savedFailed sops l := by
    intro l; rw [progFailed_snoc, progFailed_snoc, b2]; simp [atLevel]
  have ssched : ∀ l, savedSched ((sops ++ [.samples ans.succ ans.failed]) ++ [.nOps ans.nOps]) l = savedSched sops l := by
    intro l; rw [savedSched_snoc, savedSched_snoc]; simp
  refine ⟨q, hask, ?_, ?_⟩
  · intro l hl
    obtain ⟨x, x1, x2, x3, x4, x5⟩ := hdf_fresh_spec env.sims.length l hl sops
    obtain ⟨y, y1, y2, y3, y4, y5⟩ := hdf_fresh_spec env.sims.length l hl ((sops ++ [.samples ans.succ ans.failed]) ++ [.nOps ans.nOps])
    have ev : ∀ L : List (SampleId × PairRes K), (if L = [] then none else some (L.map (·.2))).getD [] = L.map (·.2) := by
      intro L; by_cases h : L = [] <;> simp [h]
    refine ⟨x, y, atLevel ans.succ l, by rw [S1.store]; exact x1, by rw [hqs]; exact y1, ?_, ?_, ?_, ?_, f1 l, f2 l⟩
    · rw [x2, y2, ssched]
    · rw [x5, y5, sfail]
    · rw [x3, y3, ssucc, List.map_append]
    · rw [x4, y4, ev, ev, ssucc, List.map_append]
  · obtain ⟨u0, hu0, m0, -⟩ := C18_unfinished_ids env.sims.length sops
    rw [S1.store, hu0] at hu
    injection hu with hu
    subst hu
    obtain ⟨u', hu', m', -⟩ := C18_unfinished_ids env.sims.length ((sops ++ [StoreOp.samples ans.succ ans.failed]) ++ [.nOps ans.nOps])
    refine ⟨u', by rw [hqs]; exact hu', ?_, ?_⟩
    · intro id hid
      obtain ⟨l, hl, o1, o2, o3⟩ := (m' id).1 hid
      rw [ssched] at o1
      rw [ssucc, List.map_append, List.mem_append, not_or] at o2
      rw [sfail] at o3
      have hidu : id ∈ u0 := (m0 id).2 ⟨l, hl, o1, o2.1, o3⟩
      refine ⟨hidu, fun j l' v hl' hsu => ?_⟩
      have hin := f2 l' id hidu j v hl' hsu
      obtain ⟨⟨_, v'⟩, hs, rfl⟩ := List.mem_map.1 hin
      obtain ⟨i', hi'⟩ := tags l' _ v' (f1 l' _ hs).2
      obtain ⟨x, x1, x2, -⟩ := hdf_fresh_spec env.sims.length l hl sops
      rw [← S1.store] at x1
      obtain ⟨k, hk⟩ := T1.2 l x x1
      rw [← x2, hk, levelTags] at o1
      obtain ⟨i, -, hi⟩ := List.mem_map.1 o1
      have := (sampleTag_injective (hi.trans hi')).1
      subst this
      exact o2.2 hin
    · intro id hid hno
      obtain ⟨l, hl, o1, o2, o3⟩ := (m0 id).1 hid
      refine (m' id).2 ⟨l, hl, by rw [ssched]; exact o1, ?_, by rw [sfail]; exact o3⟩
      rw [ssucc, List.map_append, List.mem_append, not_or]
      refine ⟨o2, fun hin => ?_⟩
      obtain ⟨⟨_, v⟩, hs, rfl⟩ := List.mem_map.1 hin
      rw [b4] at hs
      obtain ⟨c1, id', c2, j, c3, c4⟩ := k5 l _ v hs
      exact hno id' ((hmem _).1 c2) j l v ((hjob _ _).1 c3) ((d3 _ _ _ _).1 c4)

/-- C137, completion: if the last job of every unfinished sample has recorded its success, nothing is unfinished after the question. -/
theorem C137_all_recovered (env : PbsEnv Cfg K C) (es : List (PbsEvent K)) (p p1 : PbsProg Cfg K C)
    (hp : (PbsProg.start env).events env es = some p) (e : PbsEnd K) (he : p.ending env e = some p1)
    (u : List SampleId) (hu : hdfUnfinishedIds p1.sys.store = .ok u)
    (js : List (Nat × JobAppend (PairRes K))) (debug : Bool) (listing : List Nat) (ids : List SampleId) (hids : ∀ id, id ∈ ids ↔ id ∈ u)
    (r : PbsRound K) (rs : List (PbsRound K)) (timeout : Option ℚ) (ht : ∀ t, timeout = some t → 0 < t)
    (h : List (PbsOp (PoolSim Cfg K C) (PairRes K))) (hh : h = ((p1.next env js debug listing ids).jobs env r.jobs).hist)
    (hj : HonestJobs env h) (hf : HonestFailures env h)
    (hdone : ∀ id ∈ u, ∃ j l v, lastJobIn env h id = some j ∧ SuccIn h j l id v) :
    ∃ q, (p1.next env js debug listing ids).ask env timeout (r :: rs) = some q ∧ hdfUnfinishedIds q.sys.store = .ok [] := by
  obtain ⟨q, h1, -, u', h2, h3, -⟩ := C137_first_question_recovers_partial env es p p1 hp e he u hu js debug listing ids hids r rs timeout ht h hh hj hf
    (fun id hid => by obtain ⟨j, l, v, hl, -⟩ := hdone id hid; exact ⟨j, hl⟩)
  refine ⟨q, h1, ?_⟩
  rw [h2]
  congr 1
  rw [List.eq_nil_iff_forall_not_mem]
  intro id hid
  obtain ⟨a, b⟩ := h3 id hid
  obtain ⟨j, l, v, hl, hs⟩ := hdone id a
  exact b j l v hl hs

theorem collectUnfinished_raises {S R : Type} (wanted : List SampleId) (d : PbsDisk S R) (id : SampleId) (hid : ∀ j, jobOfSample d id ≠ .ok j)
    (hno : ∀ j l v, (l, id, v) ∉ succRecords d j) : ∀ (ids already : List SampleId) (a : Acc R), id ∈ ids → id ∉ already →
    ∃ e, collectUnfinished wanted d ids already a = .error e := by
  intro ids
  induction ids with
  | nil => intro already a hm; simp at hm
  | cons x xs ih =>
    intro already a hm hna
    unfold collectUnfinished
    by_cases hx : x ∈ already
    · rw [if_pos hx]
      rcases List.mem_cons.1 hm with rfl | hm
      · exact absurd hx hna
      · exact ih already a hm hna
    · rw [if_neg hx]
      cases hjx : jobOfSample d x with
      | error e => exact ⟨e, rfl⟩
      | ok j =>
        have hne : id ≠ x := fun e => hid j (by rw [e]; exact hjx)
        have hm' : id ∈ xs := by
          rcases List.mem_cons.1 hm with hm | hm
          · exact absurd hm hne
          · exact hm
        simp only
        cases hr : readResults d j with
        | error e => exact ⟨e, rfl⟩
        | ok r =>
          simp only
          split
          · exact ⟨_, rfl⟩
          · split
            · exact ⟨_, rfl⟩
            · refine ih _ _ hm' ?_
              rw [List.mem_append, not_or]
              refine ⟨hna, ?_⟩
              rw [readResults_succ hr, mem_wantedIds]
              rintro ⟨-, l, v, hv⟩
              exact hno j l v hv

/-- What is missing: a single unfinished sample that was in no job since the directory was emptied (and that no job has recorded) makes
the first question raise, and nothing is recovered. -/
theorem C137_unpacked_raises (env : PbsEnv Cfg K C) (es : List (PbsEvent K)) (p p1 : PbsProg Cfg K C)
    (hp : (PbsProg.start env).events env es = some p) (e : PbsEnd K) (he : p.ending env e = some p1)
    (js : List (Nat × JobAppend (PairRes K))) (debug : Bool) (listing : List Nat) (ids : List SampleId)
    (r : PbsRound K) (rs : List (PbsRound K)) (timeout : Option ℚ) (ht : ∀ t, timeout = some t → 0 < t)
    (h : List (PbsOp (PoolSim Cfg K C) (PairRes K))) (hh : h = ((p1.next env js debug listing ids).jobs env r.jobs).hist)
    (id : SampleId) (hid : id ∈ ids) (hpk : lastJobIn env h id = none) (hno : ∀ j l v, ¬ SuccIn h j l id v) :
    (p1.next env js debug listing ids).ask env timeout (r :: rs) = none := by
  obtain ⟨-, -, s2, S2⟩ := next_sess hp he js r.jobs debug listing ids
  obtain ⟨n1, n2, n3⟩ := next_pool env js r.jobs debug listing ids p1
  have hw : ((p1.next env js debug listing ids).jobs env r.jobs).world = worldAfter env h := by rw [S2.world, hh]
  obtain ⟨d1, d2, d3⟩ := dir_facts env h
  rw [hw] at n1 n2 n3
  have hans : ((worldAfter env h).getFinished r.qsub r.qstat).2.answer = none := by
    rw [first_get _ n1 n2]
    unfold PbsWorld.getResultFiles
    simp only [nRunningOf, collectFinished, n3]
    have hm : id ∈ ids.dedup := List.mem_dedup.2 hid
    rw [if_neg (fun hemp => by rw [hemp] at hm; simp at hm)]
    obtain ⟨e', he'⟩ := collectUnfinished_raises ids.dedup (worldAfter env h).disk id
      (fun j hj => by rw [d1, hpk] at hj; simp only at hj; split at hj <;> simp at hj)
      (fun j l v hv => hno j l v ((d3 j l id v).1 hv)) ids.dedup [] {} hm (by simp)
    rw [he']
  have hcol : (p1.next env js debug listing ids).collect env r = none := by
    simp only [PbsProg.collect, PbsProg.pool, PbsWorld.step, hw, hans]
  cases timeout with
  | none => simp only [PbsProg.ask, PbsProg.wait, hcol]
  | some t => simp only [PbsProg.ask, not_le.2 (ht t rfl), if_false, PbsProg.wait, hcol]

theorem jobs_since (env : PbsEnv Cfg K C) (js : List (Nat × JobAppend (PairRes K))) (listing : List Nat) (ids : List SampleId) (p1 : PbsProg Cfg K C) :
    sinceEmptied ((p1.next env js false listing ids).jobs env []).hist = [.permanent ids] := by
  show sinceEmptied (((p1.jobs env js).hist ++ [.restart false listing]) ++ [.permanent ids]) = _
  rw [sinceEmptied_snoc, sinceEmptied_snoc]
  rfl

/-- In particular: without `debug` (the default) a new program on a file with unfinished samples raises at its first question. -/
theorem C137_new_directory_raises (env : PbsEnv Cfg K C) (es : List (PbsEvent K)) (p p1 : PbsProg Cfg K C)
    (hp : (PbsProg.start env).events env es = some p) (e : PbsEnd K) (he : p.ending env e = some p1)
    (js : List (Nat × JobAppend (PairRes K))) (listing : List Nat) (ids : List SampleId) (hids : ids ≠ [])
    (r : PbsRound K) (hr : r.jobs = []) (rs : List (PbsRound K)) (timeout : Option ℚ) (ht : ∀ t, timeout = some t → 0 < t) :
    (p1.next env js false listing ids).ask env timeout (r :: rs) = none := by
  obtain ⟨id, hid⟩ := List.exists_mem_of_ne_nil ids hids
  refine C137_unpacked_raises env es p p1 hp e he js false listing ids r rs timeout ht _ rfl id hid ?_ ?_
  · rw [lastJobIn, hr, jobs_since]; rfl
  · intro j l v
    rw [SuccIn, hr, jobs_since]
    simp [appendsOf]

namespace ExPbsRecover
open ExPbsProg (env)
open ExPbsSess (run final honest honestFailures)

/-- The first program schedules two samples, gets the failure of sample 1 and is killed; job 0 ends; the second program gets its result,
schedules samples 2 and 3 and is killed too. -/
def es : List (PbsEvent (Option ℚ)) := [
  .call (.setInitial [2]), .call (.schedule (some 0) [] fun i => ([], .ok (69 + i))),
  .call (.pause (run 1 1)), .call (.ask (some 1) [{ qsub := .fail, qstat := .ok [71], time := 2 }]),
  .restart (.killed .between) (run 0 0) true [0, 1] [sampleTag 0 0],
  .call (.ask none [{ qsub := .fail, qstat := .fail }]),
  .call (.setInitial [4]), .call (.schedule (some 0) [] fun i => ([], .ok (79 + i)))]

/-- Jobs 2 and 3 end before the third program is started. -/
def third : PbsProg Unit (Option ℚ) Unit := (final es).next env (run 2 2 ++ run 3 3) true [0, 1, 2, 3] [sampleTag 0 2, sampleTag 0 3]

/-- A record of a success of a sample in the appends of its last job. -/
def Done (h : List (PbsOp (PoolSim Unit (Option ℚ) Unit) (PairRes (Option ℚ)))) (id : SampleId) : Bool :=
  match lastJobIn env h id with
  | none => false
  | some j => (appendsOf j (sinceEmptied h)).any fun | .succ _ i _ => decide (i = id) | _ => false

theorem done {h} {id : SampleId} (hd : Done h id = true) : ∃ j l v, lastJobIn env h id = some j ∧ SuccIn h j l id v := by
  unfold Done at hd
  split at hd
  · cases hd
  · rename_i j hj
    obtain ⟨x, h1, h2⟩ := List.any_eq_true.1 hd
    cases x with
    | succ l i v =>
      simp only [decide_eq_true_eq] at h2
      subst h2
      exact ⟨j, l, v, hj, h1⟩
    | failed l i m => simp at h2
    | times t => simp at h2

/-- The hypotheses of `C137_all_recovered` (and of the theorem before it) hold: each new program recovers what was recorded. -/
example : (PbsProg.start env).events env es = some (final es) ∧ (final es).ending env (.killed .between) = some (final es) ∧
    hdfUnfinishedIds (final es).sys.store = .ok [sampleTag 0 2, sampleTag 0 3] ∧
    HonestJobs env third.hist ∧ HonestFailures env third.hist ∧
    (∀ id ∈ [sampleTag 0 2, sampleTag 0 3], ∃ j l v, lastJobIn env third.hist id = some j ∧ SuccIn third.hist j l id v) ∧
    (final es).sys.store.map (·.collectedIds) = [[sampleTag 0 0]] ∧
    (third.ask env none [{ qsub := .fail, qstat := .fail }]).map (fun q => q.sys.store.map (·.collectedIds)) =
      some [[sampleTag 0 0, sampleTag 0 2, sampleTag 0 3]] := by
  refine ⟨ExPbsRestart.getD_some (by decide +kernel), rfl, by decide +kernel, honest (by decide +kernel), honestFailures (by decide +kernel), ?_,
    by decide +kernel, by decide +kernel⟩
  intro id hid
  refine done ?_
  revert id
  decide +kernel

/-- A program killed with a sample that is listed as scheduled, but waits in memory for its package to become heavy enough. -/
def light : PbsEnv Unit (Option ℚ) Unit := { env with size := fun _ => 1/2 }

def lightEs : List (PbsEvent (Option ℚ)) := [.call (.setInitial [1]), .call (.schedule (some 0) [] fun _ => ([], .fail))]

def lightEnd : PbsProg Unit (Option ℚ) Unit := ((PbsProg.start light).events light lightEs).getD (.start light)

/-- The hypotheses of `C137_unpacked_raises` hold for it, in the old directory too. -/
example : (PbsProg.start light).events light lightEs = some lightEnd ∧ hdfUnfinishedIds lightEnd.sys.store = .ok [sampleTag 0 0] ∧
    (let h := ((lightEnd.next light [] true [] [sampleTag 0 0]).jobs light []).hist
     lastJobIn light h (sampleTag 0 0) = none ∧ ∀ j l v, ¬ SuccIn h j l (sampleTag 0 0) v) := by
  refine ⟨ExPbsRestart.getD_some (by decide +kernel), by decide +kernel, by decide +kernel, ?_⟩
  intro j l v hm
  simp only [SuccIn, appendsOf, List.mem_filterMap] at hm
  obtain ⟨o, ho, he⟩ := hm
  have hall : (sinceEmptied ((lightEnd.next light [] true [] [sampleTag 0 0]).jobs light []).hist).all (fun | .job _ _ => false | _ => true) = true := by
    decide +kernel
  have := List.all_eq_true.1 hall o ho
  cases o with
  | job i a => simp at this
  | _ => simp at he

end ExPbsRecover

end MLMC
