import Verif.Proofs.PbsRestart
/-! # C104 A program with PBS that is killed and started again on the same file and directory -/
namespace MLMC
variable {Cfg K C : Type}

/-- The new program's first poll. -/
theorem restart_poll {env : PbsEnv Cfg K C} {p : PbsProg Cfg K C} {sops k} (hL : PbsLeft env p sops k) (hn : PbsNormal env p)
    {u : List SampleId} (hu : hdfUnfinishedIds p.sys.store = .ok u) (ids : List SampleId) (hids : ∀ id, id ∈ ids ↔ id ∈ u)
    (hin : ∀ id ∈ u, InJob env p id) (listing : List Nat) (r : PbsRound K) (hr : r.jobs = []) :
    ∃ (a : PoolAnswer (PairRes K)) (q : PbsProg Cfg K C), (p.restart env listing ids).collect env r = some (0, q) ∧
      q.sys.store = hdfRun (hdfFresh _ env.sims.length) (sops ++ [.samples a.succ a.failed, .nOps a.nOps]) ∧ a.failed = [] ∧
      (∀ l, l < env.sims.length → q.sys.nSched[l]? = some (k l)) ∧
      (∀ l id v, (id, v) ∈ atLevel a.succ l ↔ id ∈ u ∧ Recorded env p l id v) ∧
      ((∀ id ∈ u, ∃ l v, Recorded env p l id v) → ∀ l, ((atLevel a.succ l).map (·.1)).Nodup) := by
  have F := jobFacts hL.core hL.hand hn.tame
  have hjob : ∀ id ∈ ids, ∃ s ∈ submissions (p.outs env), jobOfSample p.world.disk id = .ok s.job := by
    intro id hid
    obtain ⟨s, hs, hm⟩ := hin id ((hids id).1 hid)
    obtain ⟨t, ht, rfl⟩ := List.mem_map.1 hm
    exact ⟨s, hs, F.own s hs t ht⟩
  have hrec : ∀ s ∈ submissions (p.outs env), ∀ l id v, (l, id, v) ∈ succRecords p.world.disk s.job → jobOfSample p.world.disk id = .ok s.job := by
    intro s hs l id v hm
    obtain ⟨seed, sim, h1, -⟩ := (F.record hn hs).1 l id v hm
    exact F.own s hs _ h1
  have hiff : ∀ l id v, id ∈ u → ((∃ j, jobOfSample p.world.disk id = .ok j ∧ (l, id, v) ∈ succRecords p.world.disk j) ↔ Recorded env p l id v) := by
    intro l id v hid
    constructor
    · rintro ⟨j, h1, h2⟩
      obtain ⟨s, hs, h3⟩ := hjob id ((hids id).2 hid)
      rw [h1] at h3
      injection h3 with h3
      subst h3
      rw [F.recs] at h2
      exact ⟨s, hs, (mem_succOf _ l id v).1.1 h2⟩
    · rintro ⟨s, hs, h⟩
      have h2 : (l, id, v) ∈ succRecords p.world.disk s.job := by rw [F.recs]; exact (mem_succOf _ l id v).1.2 h
      exact ⟨s.job, hrec s hs l id v h2, h2⟩
  obtain ⟨a, a1, a2, a3, a4, a5, a6⟩ := C33_successes_recovered_partial (computeSeed env.md5) listing p.world.disk ids r.qsub r.qstat
    (fun id hid => by obtain ⟨s, hs, h⟩ := hjob id hid; exact ⟨s.job, h, F.file s hs⟩)
    (fun id' hid' j hj l id v hm hid => by
      obtain ⟨s, hs, h⟩ := hjob id' hid'
      rw [hj] at h; injection h with h; subst h
      exact hrec s hs l id v hm)
    (fun id' hid' j hj => by
      obtain ⟨s, hs, h⟩ := hjob id' hid'
      rw [hj] at h; injection h with h; subst h
      exact (F.record hn hs).2)
  have hx : (((p.restart env listing ids).jobs env r.jobs).pool env (.get r.qsub r.qstat)).2.answer = some a := by
    rw [hr]; exact a1
  refine ⟨a, { (((p.restart env listing ids).jobs env r.jobs).pool env (.get r.qsub r.qstat)).1 with
      sys := { Sys.construct p.sys.store [] [] with store := storeSamples p.sys.store a } }, ?_, ?_, a2, ?_, ?_, ?_⟩
  · simp only [PbsProg.collect, hx, a4]
    rw [hr]; rfl
  · have e : ∀ (o1 o2 : StoreOp (PairRes K)), sops ++ [o1, o2] = (sops ++ [o1]) ++ [o2] := by intros; simp
    rw [e, hdfRun_snoc, hdfRun_snoc, ← hL.store]
    rfl
  · intro l hl
    obtain ⟨y, y1, y2, _⟩ := hdf_fresh_spec env.sims.length l hl sops
    simp only [Sys.construct, hdfLoadScheduled, List.map_map, List.getElem?_map, hL.store, y1, Option.map_some, Function.comp]
    rw [y2, hL.sched l hl]; simp
  · intro l id v
    rw [a5, hids]
    exact and_congr_right fun hid => hiff l id v hid
  · intro hall
    apply a6
    intro id hid
    obtain ⟨l, v, h⟩ := hall id ((hids id).1 hid)
    obtain ⟨j, h1, h2⟩ := (hiff l id v ((hids id).1 hid)).2 h
    exact ⟨j, l, v, h1, h2⟩

/-- `C104`: a program with PBS is killed between two calls, in the loop of `schedule_samples`, between two polls, or after a poll before
anything of it was stored; jobs go on meanwhile.  A new program on the same file and directory asks for samples.  If every unfinished
sample is in an accepted job, this returns after one poll; on every level the scheduled and failed samples stay as they were, every stored
result is one the level's own simulation computed for a scheduled sample from its own seed, and what is added are exactly the results of unfinished samples that jobs
have written so far; a sample stays unfinished exactly if no job has written a result for it.  If jobs have written successful results of
all unfinished samples, each scheduled sample is now stored once or listed as failed once.
Missing: kills while samples are being written to the file (C20); samples in no accepted job (the poll raises, C33); failed samples and
samples of jobs still running (see the counterexamples); `qsub` succeeding without its file being written. -/
theorem C104_restart_recovers_partial (env : PbsEnv Cfg K C) (he : env.Proper) (ops : List (PbsProgOp K)) (ho : ∀ o ∈ ops, o.Proper env.sims.length)
    (p p1 p2 : PbsProg Cfg K C) (hp : (PbsProg.start env).run env ops = some p) (kl : PbsKill K) (hk : p.kill env kl = some p1)
    (js : List (Nat × JobAppend (PairRes K))) (hp2 : p2 = p1.jobs env js) (hn : PbsNormal env p2)
    (u : List SampleId) (hu : hdfUnfinishedIds p1.sys.store = .ok u) (ids : List SampleId) (hids : ∀ id, id ∈ ids ↔ id ∈ u)
    (hin : ∀ id ∈ u, InJob env p2 id)
    (listing : List Nat) (timeout : Option ℚ) (ht : ∀ t, timeout = some t → 0 < t) (r : PbsRound K) (hr : r.jobs = []) (rs : List (PbsRound K)) :
    ∃ q, (p2.restart env listing ids).ask env timeout (r :: rs) = some q ∧ q.sys.store.length = env.sims.length ∧
      (∀ l sim, env.sims[l]? = some sim → ∃ k x0 x stored failed, kl.Count l ops k ∧ q.sys.nSched[l]? = some k ∧
        p1.sys.store[l]? = some x0 ∧ q.sys.store[l]? = some x ∧ RestartLevel env p2 u l sim k x0 x stored failed ∧
        ((∀ id ∈ u, ∃ l v, Recorded env p2 l id v) → (stored.map (·.1) ++ failed.map (·.1)).Perm x.scheduled)) ∧
      ∃ u', hdfUnfinishedIds q.sys.store = .ok u' ∧ ∀ id, id ∈ u' ↔ id ∈ u ∧ ∀ l v, ¬ Recorded env p2 l id v := by
  have hpre : p2.hist = p1.hist ++ js.map fun j => .job j.1 j.2 := by rw [hp2, jobs_hist]
  obtain ⟨sops, k, hL1, hcount⟩ := left_kill (pbsAt_run ops (pbsAt_start env) ho hp) kl hk (tame_prefix hpre hn.tame)
  have hL : PbsLeft env p2 sops k := by rw [hp2]; exact left_jobs js hL1
  have hst : p2.sys.store = p1.sys.store := by rw [hp2, jobs_sys]
  obtain ⟨a, q, q1, q2, q3, q4, q5, q6⟩ := restart_poll hL hn (by rw [hst]; exact hu) ids hids hin listing r hr
  obtain ⟨u0, u1, u2, -, -⟩ := C18_unfinished_ids env.sims.length sops
  have hu' : ∀ id, id ∈ u ↔ ∃ l, l < env.sims.length ∧ OpenAt sops id l := by
    rw [← hL1.store, hu] at u1
    injection u1 with u1
    subst u1; exact u2
  have e : ∀ (o1 o2 : StoreOp (PairRes K)), sops ++ [o1, o2] = (sops ++ [o1]) ++ [o2] := by intros; simp
  have hS : ∀ l, savedSucc (sops ++ [.samples a.succ a.failed, .nOps a.nOps]) l = savedSucc sops l ++ atLevel a.succ l := by
    intro l; rw [e, progSucc_snoc, progSucc_snoc, List.append_nil]
  have hF : ∀ l, savedFailed (sops ++ [.samples a.succ a.failed, .nOps a.nOps]) l = savedFailed sops l := by
    intro l; rw [e, progFailed_snoc, progFailed_snoc]; simp [q3, atLevel]
  have hC : ∀ l, savedSched (sops ++ [.samples a.succ a.failed, .nOps a.nOps]) l = savedSched sops l := by
    intro l; simp [savedSched]
  have F := jobFacts hL.core hL.hand hn.tame
  -- a record stands on the level of its sample
  have hlev : ∀ l id v, Recorded env p2 l id v → ∃ i sim, id = sampleTag l i ∧ env.sims[l]? = some sim ∧
      outcome env.md5 id sim = .pair v.1 v.2 ∧ WellFormed sim.fmt (outcome env.md5 id sim) := by
    rintro l id v ⟨s, hs, h⟩
    obtain ⟨seed, sim, h1, h2, h3, h4⟩ := (F.record hn hs).1 l id v (by rw [F.recs]; exact (mem_succOf _ l id v).1.2 h)
    obtain ⟨-, -, i, hi⟩ := F.sample s hs _ h1
    exact ⟨i, sim, hi, h2, h3, h4⟩
  have hopen : ∀ l id, l < env.sims.length → (OpenAt sops id l ↔ id ∈ u ∧ ∃ i, id = sampleTag l i) := by
    intro l id hl
    rw [hu']
    constructor
    · intro h
      refine ⟨⟨l, hl, h⟩, ?_⟩
      have := h.1
      rw [hL.sched l hl] at this
      obtain ⟨i, -, hi⟩ := List.mem_map.1 this
      exact ⟨i, hi.symm⟩
    · rintro ⟨⟨l', hl', h⟩, i, rfl⟩
      have := h.1
      rw [hL.sched l' hl'] at this
      obtain ⟨i', -, hi⟩ := List.mem_map.1 this
      obtain ⟨rfl, -⟩ := sampleTag_injective hi
      exact h
  refine ⟨q, ?_, ?_, ?_, ?_⟩
  · rw [C91_asking_ends, if_neg (by rintro ⟨t, h1, h2⟩; exact absurd (ht t h1) (not_lt.2 h2))]
    exact ⟨[r], rs, rfl, .last q1 (.inl (le_refl _))⟩
  · rw [q2, hdfRun_length]; simp [hdfFresh]
  · intro l sim hsim
    have hl := (List.getElem?_eq_some_iff.1 hsim).1
    obtain ⟨x0, z1, z2, z3, z4, z5⟩ := hdf_fresh_spec env.sims.length l hl sops
    obtain ⟨x, y1, y2, y3, y4, y5⟩ := hdf_fresh_spec env.sims.length l hl (sops ++ [.samples a.succ a.failed, .nOps a.nOps])
    refine ⟨k l, x0, x, savedSucc sops l ++ atLevel a.succ l, savedFailed sops l, ?_, q4 l hl, by rw [hL1.store]; exact z1, by rw [q2]; exact y1, ?_, ?_⟩
    · rcases hcount l hl with h | ⟨⟨c, d, rfl⟩, h⟩
      · cases kl with
        | inSchedule c d => exact .inl h
        | _ => exact h
      · right
        rw [h, wantedCount, List.foldl_append]
        rfl
    · refine ⟨⟨by rw [y2, hC, hL.sched l hl], by rw [z2, y2, hC]⟩, by rw [y3, hS], by rw [y4, hS], ⟨by rw [y5, hF], by rw [y5, hF, z5]⟩, ?_, ?_⟩
      · rintro ⟨id, v⟩ hv
        have key : ∀ i sim', id = sampleTag l i → env.sims[l]? = some sim' → id ∈ (List.range (k l)).map (sampleTag l) →
            outcome env.md5 id sim' = .pair v.1 v.2 → WellFormed sim'.fmt (outcome env.md5 id sim') → (id, v) ∈ goodSamples env.md5 sim (k l) := by
          rintro i sim' rfl h1 h2 h3 h4
          rw [hsim] at h1; injection h1 with h1; subst h1
          obtain ⟨j, hj, hji⟩ := List.mem_map.1 h2
          obtain ⟨-, rfl⟩ := sampleTag_injective hji
          refine List.mem_filterMap.2 ⟨j, hj, ?_⟩
          rw [he l sim hsim]
          rw [h3] at h4
          simp [h3, h4]
        rcases List.mem_append.1 hv with hv | hv
        · obtain ⟨ans, n1, n2, -⟩ := hL.ans
          have hid : id ∈ (List.range (k l)).map (sampleTag l) :=
            (hL.once l hl).2 id (List.mem_append_left _ (List.mem_map.2 ⟨_, hv, rfl⟩))
          rw [n2] at hv
          obtain ⟨a', ha', hv⟩ := List.mem_flatMap.1 hv
          obtain ⟨d1, d2⟩ := (delivered hL.core hL.hand hn l sim hsim a' (n1 a' ha')).1 id v hv
          obtain ⟨i, -, hi⟩ := List.mem_map.1 hid
          exact key i sim hi.symm hsim hid d1 d2
        · obtain ⟨h1, h2⟩ := (q5 l id v).1 hv
          obtain ⟨i, sim', h3, h4, h5, h6⟩ := hlev l id v h2
          have := ((hopen l id hl).2 ⟨h1, i, h3⟩).1
          rw [hL.sched l hl] at this
          exact key i sim' h3 h4 this h5 h6
      · exact ⟨savedSucc sops l, atLevel a.succ l, rfl, z3, z4, fun id v => q5 l id v⟩
    · intro hall
      have hnew := q6 hall l
      rw [y2, hC, hL.sched l hl]
      have hopen' : ∀ id, id ∈ (atLevel a.succ l).map (·.1) ↔ OpenAt sops id l := by
        intro id
        rw [hopen l id hl, List.mem_map]
        constructor
        · rintro ⟨⟨id', v⟩, h1, rfl⟩
          obtain ⟨h2, h3⟩ := (q5 l _ v).1 h1
          obtain ⟨i, -, h4, -⟩ := hlev l _ v h3
          exact ⟨h2, i, h4⟩
        · rintro ⟨h1, i, rfl⟩
          obtain ⟨l', v, h2⟩ := hall _ h1
          obtain ⟨i', -, h3, -⟩ := hlev l' _ v h2
          obtain ⟨rfl, -⟩ := sampleTag_injective h3
          exact ⟨_, (q5 l _ v).2 ⟨h1, h2⟩, rfl⟩
      have hon := (hL.once l hl).1
      have hmem := (hL.once l hl).2
      rw [List.perm_ext_iff_of_nodup _ (tags_nodup l _)]
      · intro id
        constructor
        · intro h
          rw [List.map_append, List.mem_append, List.mem_append] at h
          rcases h with (h | h) | h
          · exact hmem id (List.mem_append_left _ h)
          · have := ((hopen' id).1 h).1
            rw [hL.sched l hl] at this; exact this
          · exact hmem id (List.mem_append_right _ h)
        · intro h
          rw [List.map_append, List.mem_append, List.mem_append, hopen']
          rw [← hL.sched l hl] at h
          by_cases h1 : id ∈ (savedSucc sops l).map (·.1)
          · exact .inl (.inl h1)
          · by_cases h2 : id ∈ (savedFailed sops l).map (·.1)
            · exact .inr h2
            · exact .inl (.inr ⟨h, h1, h2⟩)
      · obtain ⟨o1, o2, o3⟩ := List.nodup_append.1 hon
        rw [List.map_append, List.nodup_append, List.nodup_append]
        refine ⟨⟨o1, hnew, ?_⟩, o2, ?_⟩
        · intro x hx y hy exy
          subst exy
          exact ((hopen' x).1 hy).2.1 hx
        · intro x hx y hy exy
          subst exy
          rcases List.mem_append.1 hx with hx | hx
          · exact o3 x hx x hy rfl
          · exact ((hopen' x).1 hx).2.2 hy
  · obtain ⟨v0, v1, v2, -, -⟩ := C18_unfinished_ids env.sims.length (sops ++ [.samples a.succ a.failed, .nOps a.nOps])
    refine ⟨v0, by rw [q2]; exact v1, ?_⟩
    intro id
    rw [v2]
    have hO : ∀ l, OpenAt (sops ++ [.samples a.succ a.failed, .nOps a.nOps]) id l ↔ OpenAt sops id l ∧ ∀ v, (id, v) ∉ atLevel a.succ l := by
      intro l
      unfold OpenAt
      rw [hC, hS, hF, List.map_append, List.mem_append, not_or]
      have : id ∉ (atLevel a.succ l).map (·.1) ↔ ∀ v, (id, v) ∉ atLevel a.succ l := by
        rw [List.mem_map]
        constructor
        · intro h v hv; exact h ⟨_, hv, rfl⟩
        · rintro h ⟨⟨i, v⟩, hv, rfl⟩; exact h v hv
      rw [this]; tauto
    constructor
    · rintro ⟨l, hl, h⟩
      rw [hO] at h
      have hid := (hu' id).2 ⟨l, hl, h.1⟩
      refine ⟨hid, ?_⟩
      intro l' v hR
      obtain ⟨i, -, hi, -⟩ := hlev l' id v hR
      obtain ⟨-, i', hi'⟩ := (hopen l id hl).1 h.1
      obtain ⟨rfl, -⟩ := sampleTag_injective (hi.symm.trans hi')
      exact h.2 v ((q5 l' id v).2 ⟨hid, hR⟩)
    · rintro ⟨hid, h⟩
      obtain ⟨l, hl, ho⟩ := (hu' id).1 hid
      refine ⟨l, hl, (hO l).2 ⟨ho, fun v hv => h l v ((q5 l id v).1 hv).2⟩⟩


/-- Results of some samples and failures of the rest. -/
theorem good_bad_perm {md5 : SampleId → List UInt8} {sim : PoolSim Cfg K C} {k : Nat} {stored : List (SampleId × PairRes K)} {failed : List SampleId}
    (h : (stored.map (·.1) ++ failed).Perm ((List.range k).map (sampleTag sim.level))) (h1 : ∀ s ∈ stored, s ∈ goodSamples md5 sim k)
    (h2 : ∀ id ∈ failed, ¬ WellFormed sim.fmt (outcome md5 id sim)) :
    stored.Perm (goodSamples md5 sim k) ∧ failed.Perm (badSamples md5 sim k) := by
  have hnd := h.nodup_iff.2 (tags_nodup _ _)
  obtain ⟨n1, n2, -⟩ := List.nodup_append.1 hnd
  constructor
  · rw [List.perm_ext_iff_of_nodup (List.Nodup.of_map _ n1) (List.Nodup.of_map _ (good_nodup md5 sim k))]
    intro s
    refine ⟨h1 s, fun hs => ?_⟩
    obtain ⟨⟨i, hi, e⟩, hw⟩ := good_id hs
    have : s.1 ∈ stored.map (·.1) ++ failed := h.symm.subset (List.mem_map.2 ⟨i, List.mem_range.2 hi, e.symm⟩)
    rcases List.mem_append.1 this with hm | hm
    · obtain ⟨s', hs', e'⟩ := List.mem_map.1 hm
      rw [← List.inj_on_of_nodup_map (good_nodup md5 sim k) (h1 s' hs') hs e']; exact hs'
    · exact absurd hw (h2 _ hm)
  · rw [List.perm_ext_iff_of_nodup n2 (bad_nodup md5 sim k)]
    intro id
    rw [badSamples, List.mem_filter, decide_eq_true_eq]
    constructor
    · intro hid; exact ⟨h.subset (List.mem_append_right _ hid), h2 id hid⟩
    · rintro ⟨h3, h4⟩
      rcases List.mem_append.1 (h.symm.subset h3) with hm | hm
      · obtain ⟨s, hs, rfl⟩ := List.mem_map.1 hm
        exact absurd (good_id (h1 s hs)).2 h4
      · exact hm

/-- `C104`: if no job died, and every unfinished sample has a well formed result and is in a job that has run to its end by the time of the
restart, then after the new program's first question for samples the file holds on every level exactly the well formed results of the
scheduled samples, each once, and lists the others as failed, each once: what a program that was not killed stores (C91), up to the order.
None is unfinished.  Missing: as above. -/
theorem C104_restart_completes_partial (env : PbsEnv Cfg K C) (he : env.Proper) (ops : List (PbsProgOp K)) (ho : ∀ o ∈ ops, o.Proper env.sims.length)
    (p p1 p2 : PbsProg Cfg K C) (hp : (PbsProg.start env).run env ops = some p) (kl : PbsKill K) (hk : p.kill env kl = some p1)
    (js : List (Nat × JobAppend (PairRes K))) (hp2 : p2 = p1.jobs env js) (hn : PbsNormal env p2) (hd : NoJobDies env p2)
    (u : List SampleId) (hu : hdfUnfinishedIds p1.sys.store = .ok u) (ids : List SampleId) (hids : ∀ id, id ∈ ids ↔ id ∈ u)
    (hin : ∀ id ∈ u, ∃ l sim, env.sims[l]? = some sim ∧ InFinishedJob env p2 l id ∧ WellFormed sim.fmt (outcome env.md5 id sim))
    (listing : List Nat) (timeout : Option ℚ) (ht : ∀ t, timeout = some t → 0 < t) (r : PbsRound K) (hr : r.jobs = []) (rs : List (PbsRound K)) :
    ∃ q, (p2.restart env listing ids).ask env timeout (r :: rs) = some q ∧ q.sys.store.length = env.sims.length ∧
      (∀ l sim, env.sims[l]? = some sim → ∃ k x stored failed, kl.Count l ops k ∧ q.sys.store[l]? = some x ∧
        x.scheduled = (List.range k).map (sampleTag l) ∧ x.collectedIds = stored.map (·.1) ∧
        x.collectedValues = (if stored = [] then none else some (stored.map (·.2))) ∧ x.failed = some failed ∧
        stored.Perm (goodSamples env.md5 sim k) ∧ (failed.map (·.1)).Perm (badSamples env.md5 sim k)) ∧
      hdfUnfinishedIds q.sys.store = .ok [] := by
  have hpre : p2.hist = p1.hist ++ js.map fun j => .job j.1 j.2 := by rw [hp2, jobs_hist]
  obtain ⟨sops, k0, hL1, -⟩ := left_kill (pbsAt_run ops (pbsAt_start env) ho hp) kl hk (tame_prefix hpre hn.tame)
  have hL : PbsLeft env p2 sops k0 := by rw [hp2]; exact left_jobs js hL1
  have F := jobFacts hL.core hL.hand hn.tame
  have hrec : ∀ id ∈ u, ∃ l v, Recorded env p2 l id v := by
    intro id hid
    obtain ⟨l, sim, h1, h2, h3⟩ := hin id hid
    obtain ⟨v, hv⟩ := F.recorded h2 h1 h3
    exact ⟨l, v, hv⟩
  have hin' : ∀ id ∈ u, InJob env p2 id := by
    intro id hid
    obtain ⟨l, sim, _, ⟨s, hs, ⟨seed, hm⟩, _⟩, _⟩ := hin id hid
    exact ⟨s, hs, List.mem_map.2 ⟨_, hm, rfl⟩⟩
  obtain ⟨q, q1, q2, q3, u', q4, q5⟩ := C104_restart_recovers_partial env he ops ho p p1 p2 hp kl hk js hp2 hn u hu ids hids hin' listing timeout ht r hr rs
  refine ⟨q, q1, q2, ?_, ?_⟩
  · intro l sim hsim
    obtain ⟨k, x0, x, stored, failed, c1, c2, c3, c4, c5, c6⟩ := q3 l sim hsim
    have hl := (List.getElem?_eq_some_iff.1 hsim).1
    obtain ⟨x0', z1, z2, z3, z4, z5⟩ := hdf_fresh_spec env.sims.length l hl sops
    rw [← hL1.store, c3] at z1
    injection z1 with z1
    subst z1
    have hff : failed = savedFailed sops l := by
      have := c5.failed.2
      rw [c5.failed.1, z5] at this
      injection this with this; exact this.symm
    have hperm := c6 hrec
    rw [c5.scheduled.1] at hperm
    have := good_bad_perm (md5 := env.md5) (sim := sim) (by rw [he l sim hsim]; exact hperm) c5.good (by
      intro id hid
      rw [hff] at hid
      obtain ⟨ans, n1, -, n3⟩ := hL.ans
      rw [n3, List.map_flatMap, List.mem_flatMap] at hid
      obtain ⟨a, ha, hid⟩ := hid
      exact (delivered hL.core hL.hand hn l sim hsim a (n1 a ha)).2 hd id hid)
    exact ⟨k, x, stored, failed, c1, c4, c5.scheduled.1, c5.ids, c5.values, c5.failed.1, this⟩
  · rw [q4]
    congr 1
    apply List.eq_nil_iff_forall_not_mem.2
    intro id hid
    obtain ⟨h1, h2⟩ := (q5 id).1 hid
    obtain ⟨l, v, h⟩ := hrec id h1
    exact h2 l v h

/-! ## Concrete programs -/
namespace ExPbsRestart
open ExPbsProg (sim run begin simAt)

/-- The program of C91 with another task size. -/
def env (c : ℚ) : PbsEnv Unit (Option ℚ) Unit := { ExPbsProg.env with size := fun _ => c }

theorem proper (c : ℚ) : (env c).Proper := ExPbsProg.proper

theorem normal {c : ℚ} {p : PbsProg Unit (Option ℚ) Unit} (hc : PbsCore (env c) p) (plain : ∀ o ∈ p.hist, ExPbsProg.PlainOk o = true)
    (ids : ((submissions (p.outs (env c))).map (·.pbsId)).Nodup) (keys : Dict.keys p.world.disk.sims = [0])
    (jobs : ∀ s ∈ submissions (p.outs (env c)), appendsOf s.job p.hist <+: jobAppends simAt (pbsCompute (env c).md5) (fun _ => (0, 1)) s.samples) :
    PbsNormal (env c) p ∧ (fun l => Dict.get? p.world.disk.sims l) = simAt := by
  have hsim : (fun l => Dict.get? p.world.disk.sims l) = simAt := by
    funext l
    by_cases hl : l = 0
    · subst hl
      have h0 : (0 : Nat) ∈ Dict.keys p.world.disk.sims := by rw [keys]; simp
      obtain ⟨v, hv⟩ := Option.isSome_iff_exists.1 ((Dict.get?_isSome_iff _ _).2 h0)
      have := C35_level_simulation_is_first (computeSeed (env c).md5) p.hist (fun l h => hc.noR _ _ h) 0
      rw [← hc.world, hv] at this
      have := hc.sims 0 v this.symm
      simp only [env, ExPbsProg.env, List.getElem?_cons_zero, Option.some.injEq] at this
      rw [hv, simAt, this]; rfl
    · rw [simAt, if_neg hl, Dict.get?_eq_none_iff, keys]; simp [hl]
  refine ⟨⟨?_, ids, ?_⟩, hsim⟩
  · intro o ho q hq
    have := plain o ho
    unfold ExPbsProg.PlainOk at this
    rw [Option.mem_def] at hq
    rw [hq] at this
    cases q <;> first | trivial | simp at this
  · intro s hs
    exact ⟨_, by rw [hsim]; exact jobs s hs⟩

theorem core_jobs {env : PbsEnv Cfg K C} (js : List (Nat × JobAppend (PairRes K))) : ∀ {p : PbsProg Cfg K C}, PbsCore env p → PbsCore env (p.jobs env js) := by
  induction js with
  | nil => intro p h; exact h
  | cons j js ih => intro p h; exact ih (core_pool h _ (.inl ⟨j.1, j.2, rfl⟩))

/-- Three jobs of one sample each; the second one fails and its failure is stored; the first one ends. -/
def ops : List (PbsProgOp (Option ℚ)) := begin ++ [.pause (run 1), .ask (some 1) [{ qsub := .fail, qstat := .ok [71], time := 2 }], .pause (run 0)]

theorem ops_proper (c : ℚ) : ∀ o ∈ ops, o.Proper (env c).sims.length := by
  intro o ho
  simp only [ops, begin, List.cons_append, List.nil_append, List.mem_cons, List.not_mem_nil, or_false] at ho
  rcases ho with rfl | rfl | rfl | rfl | rfl <;> simp [PbsProgOp.Proper, env, ExPbsProg.env]

/-- The program is killed after a poll that returned the first sample's result, before it is stored. -/
def kl : PbsKill (Option ℚ) := .unstored [] { qsub := .fail, qstat := .ok [70] }

def p : PbsProg Unit (Option ℚ) Unit := ((PbsProg.start (env 2)).run (env 2) ops).getD (.start (env 2))
def p1 : PbsProg Unit (Option ℚ) Unit := (p.kill (env 2) kl).getD (.start (env 2))
/-- The third job ends while the program is down. -/
def p2 : PbsProg Unit (Option ℚ) Unit := p1.jobs (env 2) (run 2)

theorem getD_some {α : Type} {o : Option α} {d : α} (h : o.isSome = true) : o = some (o.getD d) := by
  cases o with
  | none => cases h
  | some a => rfl

theorem p_run : (PbsProg.start (env 2)).run (env 2) ops = some p := getD_some (by decide +kernel)
theorem p_kill : p.kill (env 2) kl = some p1 := getD_some (by decide +kernel)

theorem p2_core : PbsCore (env 2) p2 := by
  obtain ⟨sops, hi⟩ := (pbsAt_run ops (pbsAt_start (env 2)) (ops_proper 2) p_run).inv
  have h1 : p1 = (p.pool (env 2) (.get .fail (.ok [70]))).1 := by
    have h := p_kill
    simp only [PbsProg.kill, kl, PbsProg.rounds, Option.bind_some, PbsProg.jobs, List.foldl_nil] at h
    split at h
    · cases h
    · injection h with h; exact h.symm
  rw [p2]
  refine core_jobs _ ?_
  rw [h1]
  exact core_pool hi.core _ (.inr ⟨_, _, rfl⟩)

theorem p2_normal : PbsNormal (env 2) p2 ∧ (fun l => Dict.get? p2.world.disk.sims l) = simAt :=
  normal p2_core (by decide +kernel) (by decide +kernel) (by decide +kernel) (by decide +kernel)

theorem noDies {c : ℚ} {p : PbsProg Unit (Option ℚ) Unit} (hsim : (fun l => Dict.get? p.world.disk.sims l) = simAt)
    (h : ∀ s ∈ submissions (p.outs (env c)), ∀ k ∈ List.range p.hist.length, ExPbsProg.RecordOk p s k) : NoJobDies (env c) p := by
  intro before q qa rest e s hs hf
  refine ⟨fun _ => (0, 1), ?_⟩
  rw [hsim]
  have hk := h s hs before.length (by rw [e]; simp)
  unfold ExPbsProg.RecordOk at hk
  rw [e] at hk
  simp only [List.getElem?_append_right (Nat.le_refl _), Nat.sub_self, List.getElem?_cons_zero, List.take_left'] at hk
  exact hk hf

theorem p2_noDies : NoJobDies (env 2) p2 := noDies p2_normal.2 (by decide +kernel)

theorem p1_unfinished : hdfUnfinishedIds p1.sys.store = .ok [sampleTag 0 0, sampleTag 0 2] := by decide +kernel

theorem p2_done : ∀ id ∈ [sampleTag 0 0, sampleTag 0 2], ∃ (l : Nat) (s : PoolSim Unit (Option ℚ) Unit), (env 2).sims[l]? = some s ∧
    InFinishedJob (env 2) p2 l id ∧ WellFormed s.fmt (outcome (env 2).md5 id s) := by
  intro id hid
  refine ⟨0, sim, rfl, ?_, ?_⟩
  · unfold InFinishedJob
    rw [p2_normal.2]
    simp only [List.mem_cons, List.not_mem_nil, or_false] at hid
    rcases hid with rfl | rfl
    · exact ⟨⟨0, 70, [(0, sampleTag 0 0, computeSeed ExPbsProg.env.md5 (sampleTag 0 0))]⟩, by decide +kernel, ⟨_, List.mem_singleton.2 rfl⟩, fun _ => (0, 1), by decide +kernel⟩
    · exact ⟨⟨2, 72, [(0, sampleTag 0 2, computeSeed ExPbsProg.env.md5 (sampleTag 0 2))]⟩, by decide +kernel, ⟨_, List.mem_singleton.2 rfl⟩, fun _ => (0, 1), by decide +kernel⟩
  · simp only [List.mem_cons, List.not_mem_nil, or_false] at hid
    rcases hid with rfl | rfl <;> decide +kernel

/-- The hypotheses of both theorems hold; both results are stored, one of which the first program had already collected. -/
example : ∃ q, (p2.restart (env 2) [0, 1, 2] [sampleTag 0 2, sampleTag 0 0]).ask (env 2) none [{ qsub := .fail, qstat := .fail }] = some q ∧
    q.sys.store.map (·.collectedIds) = [[sampleTag 0 2, sampleTag 0 0]] ∧
    q.sys.store.map (fun x => x.failed.map (·.map (·.1))) = [some [sampleTag 0 1]] ∧ hdfUnfinishedIds q.sys.store = .ok [] := by
  obtain ⟨q, h1, h2, h3, h4⟩ := C104_restart_completes_partial (env 2) (proper 2) ops (ops_proper 2) p p1 p2 p_run kl p_kill (run 2) rfl p2_normal.1 p2_noDies
    _ p1_unfinished [sampleTag 0 2, sampleTag 0 0] (by intro id; simp [or_comm]) p2_done [0, 1, 2] none (by simp) { qsub := .fail, qstat := .fail } rfl []
  refine ⟨q, h1, ?_, ?_, h4⟩
  · have : ((p2.restart (env 2) [0, 1, 2] [sampleTag 0 2, sampleTag 0 0]).ask (env 2) none [{ qsub := .fail, qstat := .fail }]).map
        (fun q => q.sys.store.map (·.collectedIds)) = some [[sampleTag 0 2, sampleTag 0 0]] := by decide +kernel
    rw [h1] at this; exact Option.some.inj this
  · have : ((p2.restart (env 2) [0, 1, 2] [sampleTag 0 2, sampleTag 0 0]).ask (env 2) none [{ qsub := .fail, qstat := .fail }]).map
        (fun q => q.sys.store.map (fun x => x.failed.map (·.map (·.1)))) = some [some [sampleTag 0 1]] := by decide +kernel
    rw [h1] at this; exact Option.some.inj this

/-- All three samples in one job. -/
def opsT : List (PbsProgOp (Option ℚ)) := [.setInitial [3], .schedule (some 0) [] fun i => ([], .ok (70 + i))]

theorem opsT_proper (c : ℚ) : ∀ o ∈ opsT, o.Proper (env c).sims.length := by
  intro o ho
  simp only [opsT, List.mem_cons, List.not_mem_nil, or_false] at ho
  rcases ho with rfl | rfl <;> simp [PbsProgOp.Proper, env, ExPbsProg.env]

/-- Appends of the job with all three. -/
def runT : List (Nat × JobAppend (PairRes (Option ℚ))) :=
  (jobAppends simAt (pbsCompute ExPbsProg.env.md5) (fun _ => (0, 1))
    ((List.range 3).map fun i => (0, sampleTag 0 i, computeSeed ExPbsProg.env.md5 (sampleTag 0 i)))).map (0, ·)

def pT : PbsProg Unit (Option ℚ) Unit := ((PbsProg.start (env (1/2))).run (env (1/2)) opsT).getD (.start (env (1/2)))
def pT2 : PbsProg Unit (Option ℚ) Unit := pT.jobs (env (1/2)) runT

theorem pT_run : (PbsProg.start (env (1/2))).run (env (1/2)) opsT = some pT := getD_some (by decide +kernel)

theorem pT_core : PbsCore (env (1/2)) pT := by
  obtain ⟨sops, hi⟩ := (pbsAt_run opsT (pbsAt_start (env (1/2))) (opsT_proper _) pT_run).inv
  exact hi.core

theorem pT_normal : PbsNormal (env (1/2)) pT ∧ (fun l => Dict.get? pT.world.disk.sims l) = simAt :=
  normal pT_core (by decide +kernel) (by decide +kernel) (by decide +kernel) (by decide +kernel)

theorem pT2_normal : PbsNormal (env (1/2)) pT2 ∧ (fun l => Dict.get? pT2.world.disk.sims l) = simAt :=
  normal (core_jobs runT pT_core) (by decide +kernel) (by decide +kernel) (by decide +kernel) (by decide +kernel)

def ids : List SampleId := [sampleTag 0 0, sampleTag 0 1, sampleTag 0 2]

/-- The new program's state after its first question. -/
def qT : PbsProg Unit (Option ℚ) Unit := ((pT2.restart (env (1/2)) [0] ids).ask (env (1/2)) none [{ qsub := .fail, qstat := .fail }]).getD (.start (env (1/2)))

/-- The new program started while the job runs, after its first question, and after the second one; the job ends between them and `qstat` says so. -/
def qR : PbsProg Unit (Option ℚ) Unit :=
  ((pT.restart (env (1/2)) [0] ids).ask (env (1/2)) none [{ qsub := .fail, qstat := .fail }]).getD (.start (env (1/2)))
def qR' : PbsProg Unit (Option ℚ) Unit :=
  (qR.ask (env (1/2)) none [{ jobs := runT, qsub := .fail, qstat := .ok [73] }]).getD (.start (env (1/2)))

end ExPbsRestart

/-- `C104` does not hold for jobs with a failed sample: the job of three samples ran to its end, two have results and one failed; after the
restart each of the two results is stored twice, and the failed sample stays unfinished. -/
theorem C104_failed_sample_counterexample : ∃ (env : PbsEnv Unit (Option ℚ) Unit) (ops : List (PbsProgOp (Option ℚ)))
    (p p2 q : PbsProg Unit (Option ℚ) Unit) (js : List (Nat × JobAppend (PairRes (Option ℚ)))) (u : List SampleId), env.Proper ∧
    (∀ o ∈ ops, o.Proper env.sims.length) ∧ (PbsProg.start env).run env ops = some p ∧ p2 = p.jobs env js ∧ PbsNormal env p2 ∧
    hdfUnfinishedIds p.sys.store = .ok u ∧ (∀ id ∈ u, InFinishedJob env p2 0 id) ∧
    (p2.restart env [0] u).ask env none [{ qsub := .fail, qstat := .fail }] = some q ∧
    q.sys.store.map (·.collectedIds) = [[sampleTag 0 0, sampleTag 0 2, sampleTag 0 0, sampleTag 0 2]] ∧
    hdfUnfinishedIds q.sys.store = .ok [sampleTag 0 1] := by
  refine ⟨ExPbsRestart.env (1/2), ExPbsRestart.opsT, ExPbsRestart.pT, ExPbsRestart.pT2, ExPbsRestart.qT, ExPbsRestart.runT, ExPbsRestart.ids,
    ExPbsRestart.proper _, ExPbsRestart.opsT_proper _, ExPbsRestart.pT_run, rfl, ExPbsRestart.pT2_normal.1, by decide +kernel, ?_,
    ExPbsRestart.getD_some (by decide +kernel), by decide +kernel, by decide +kernel⟩
  intro id hid
  unfold InFinishedJob
  rw [ExPbsRestart.pT2_normal.2]
  refine ⟨⟨0, 73, (List.range 3).map fun i => (0, sampleTag 0 i, computeSeed ExPbsProg.env.md5 (sampleTag 0 i))⟩, by decide +kernel, ?_, fun _ => (0, 1), by decide +kernel⟩
  refine ⟨computeSeed ExPbsProg.env.md5 id, ?_⟩
  simp only [ExPbsRestart.ids, List.mem_cons, List.not_mem_nil, or_false] at hid
  rcases hid with rfl | rfl | rfl <;> decide +kernel

/-- `C104` does not hold for jobs that are still running when the new program first asks: it returns at once, and when the job has ended and
`qstat` reports it, nothing is collected any more: all its samples stay unfinished although their results are in the job's files. -/
theorem C104_running_job_counterexample : ∃ (env : PbsEnv Unit (Option ℚ) Unit) (ops : List (PbsProgOp (Option ℚ)))
    (p q q' : PbsProg Unit (Option ℚ) Unit) (js : List (Nat × JobAppend (PairRes (Option ℚ)))) (u : List SampleId), env.Proper ∧
    (∀ o ∈ ops, o.Proper env.sims.length) ∧ (PbsProg.start env).run env ops = some p ∧ PbsNormal env p ∧
    hdfUnfinishedIds p.sys.store = .ok u ∧ (∀ id ∈ u, InJob env p id) ∧
    (p.restart env [0] u).ask env none [{ qsub := .fail, qstat := .fail }] = some q ∧
    q.ask env none [{ jobs := js, qsub := .fail, qstat := .ok [73] }] = some q' ∧
    (∃ v, Recorded env q' 0 (sampleTag 0 0) v) ∧ (∃ v, Recorded env q' 0 (sampleTag 0 2) v) ∧
    hdfUnfinishedIds q'.sys.store = .ok u ∧ u = [sampleTag 0 0, sampleTag 0 1, sampleTag 0 2] := by
  refine ⟨ExPbsRestart.env (1/2), ExPbsRestart.opsT, ExPbsRestart.pT, ExPbsRestart.qR, ExPbsRestart.qR', ExPbsRestart.runT, ExPbsRestart.ids,
    ExPbsRestart.proper _, ExPbsRestart.opsT_proper _, ExPbsRestart.pT_run, ExPbsRestart.pT_normal.1, by decide +kernel, ?_,
    ExPbsRestart.getD_some (by decide +kernel), ExPbsRestart.getD_some (by decide +kernel), ?_, ?_, by decide +kernel, rfl⟩
  · intro id hid
    refine ⟨⟨0, 73, (List.range 3).map fun i => (0, sampleTag 0 i, computeSeed ExPbsProg.env.md5 (sampleTag 0 i))⟩, by decide +kernel, ?_⟩
    simp only [ExPbsRestart.ids, List.mem_cons, List.not_mem_nil, or_false] at hid
    rcases hid with rfl | rfl | rfl <;> decide +kernel
  · exact ⟨(.array [some 48], .array [some 0]), ⟨0, 73, (List.range 3).map fun i => (0, sampleTag 0 i, computeSeed ExPbsProg.env.md5 (sampleTag 0 i))⟩,
      by decide +kernel, by decide +kernel⟩
  · exact ⟨(.array [some 50], .array [some 0]), ⟨0, 73, (List.range 3).map fun i => (0, sampleTag 0 i, computeSeed ExPbsProg.env.md5 (sampleTag 0 i))⟩,
      by decide +kernel, by decide +kernel⟩

end MLMC
