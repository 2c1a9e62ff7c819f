import Verif.Proofs.PbsOnce
import Verif.Props.Storage
/-! Each sample is stored once: programs. -/
namespace MLMC
variable {Cfg K C : Type}

/-- Identifiers of the stored results of a level. -/
def storedIds {V : Type} (g : HdfLevels V) (l : Nat) : List SampleId := ((g[l]?).map (·.collectedIds)).getD []

/-- Identifiers of the failed samples of a level. -/
def failedIds {V : Type} (g : HdfLevels V) (l : Nat) : List SampleId := ((g[l]?).bind (·.failed)).getD [] |>.map (·.1)

/-- Identifiers of the finished samples of a level. -/
def finIds {V : Type} (g : HdfLevels V) (l : Nat) : List SampleId := storedIds g l ++ failedIds g l

/-- Number of samples listed as scheduled in the file. -/
def listedN {V : Type} (g : HdfLevels V) (l : Nat) : Nat := ((g[l]?).map (·.scheduled.length)).getD 0

/-- The sampler's counter. -/
def countN {V : Type} (s : Sys V) (l : Nat) : Nat := (s.nSched[l]?).getD 0

/-- What is assumed of a history. -/
structure FinePbs (env : PbsEnv Cfg K C) (h : List (PbsOp (PoolSim Cfg K C) (PairRes K))) : Prop where
  clean : CleanPbs env h
  whole : WholeJobs env h
  jobs : HonestJobs env h
  fails : HonestFailures env h

theorem FinePbs.pre {env : PbsEnv Cfg K C} {a b : List (PbsOp (PoolSim Cfg K C) (PairRes K))} (h : FinePbs env (a ++ b)) : FinePbs env a :=
  ⟨h.clean.pre, h.whole.pre, honest_prefix h.jobs, honestFailures_prefix h.fails⟩

structure Once (p : PbsProg Cfg K C) : Prop where
  out : OutInv p.world (finIds p.sys.store)
  nodup : ∀ l, (finIds p.sys.store l).Nodup
  below : ∀ id, id ∈ outIds p.world ∨ id ∈ p.world.pool.unfinished → ∃ l i, id = sampleTag l i ∧ i < countN p.sys l
  stored : ∀ l, ∀ id ∈ finIds p.sys.store l, ∃ i, id = sampleTag l i ∧ i < countN p.sys l ∧ i < listedN p.sys.store l

theorem OutInv.mono {S R : Type} {w : PbsWorld S R} {D D' : Nat → List SampleId} (h : OutInv w D) (hd : ∀ l, D' l ⊆ D l) : OutInv w D' :=
  ⟨h.nodup, fun id hid => ⟨(h.apart id hid).1, fun l hl => (h.apart id hid).2 l (hd l hl)⟩, fun id hid l hl => h.unf id hid l (hd l hl)⟩

theorem OutInv.of_eq {S R : Type} {w w' : PbsWorld S R} {D : Nat → List SampleId} (h : OutInv w D) (h1 : outIds w' = outIds w)
    (h2 : w'.pool.unfinished = w.pool.unfinished) : OutInv w' D :=
  ⟨by rw [h1]; exact h.nodup, by rw [h1, h2]; exact h.apart, by rw [h2]; exact h.unf⟩

/-- The pool does something that leaves what is out, and the sampler nothing. -/
theorem Once.of_world {p q : PbsProg Cfg K C} (h : Once p) (h0 : q.sys = p.sys) (h1 : outIds q.world = outIds p.world)
    (h2 : q.world.pool.unfinished = p.world.pool.unfinished) : Once q :=
  ⟨by rw [h0]; exact h.out.of_eq h1 h2, by rw [h0]; exact h.nodup, by rw [h0, h1, h2]; exact h.below, by rw [h0]; exact h.stored⟩

theorem once_jobs {env : PbsEnv Cfg K C} (js : List (Nat × JobAppend (PairRes K))) : ∀ {p : PbsProg Cfg K C}, Once p → Once (p.jobs env js) := by
  induction js with
  | nil => intro p h; exact h
  | cons j js ih =>
    intro p h
    refine ih (p := (p.pool env (.job j.1 j.2)).1) (h.of_world rfl ?_ rfl)
    simp only [PbsProg.pool, PbsWorld.step, outIds, jobIds, (apply_rest j.1 p.world.disk j.2).1, (apply_rest j.1 p.world.disk j.2).2.2.2.2]
    rfl

theorem once_schedule {env : PbsEnv Cfg K C} {p : PbsProg Cfg K C} {sops} (hs : Sess env p sops) (h : Once p) {l k : Nat} (hk : p.sys.nSched[l]? = some k) (sim qs)
    (hc : CleanPbs env (p.pool env (.schedule (sampleTag l k) l (env.size l) sim qs)).1.hist) (y : Sys (PairRes K)) (hy1 : y.store = p.sys.store)
    (hy2 : ∀ l', countN p.sys l' ≤ countN y l') (hy3 : k < countN y l) :
    Once { (p.pool env (.schedule (sampleTag l k) l (env.size l) sim qs)).1 with sys := y } := by
  have hc' : CleanPbs env (p.hist ++ [.schedule (sampleTag l k) l (env.size l) sim qs]) := hc
  have i := run_jobs p.hist hc'.pre
  rw [← hs.world] at i
  have hids := hc'.ids
  rw [pbsIdsIn_snoc, ← hs.world] at hids
  have hnew : ∀ s ∈ (p.world.schedule (sampleTag l k) (computeSeed env.md5 (sampleTag l k)) l (env.size l) sim qs).2.submitted, s.pbsId ∉ pbsIdsIn env p.hist := by
    intro s hs hm
    exact (List.nodup_append.1 hids).2.2 _ hm _ (List.mem_map.2 ⟨s, hs, rfl⟩) rfl
  obtain ⟨-, k2, k3⟩ := schedule_jobs i (sampleTag l k) (computeSeed env.md5 (sampleTag l k)) l (env.size l) sim qs
    (hc'.plain (.schedule (sampleTag l k) l (env.size l) sim qs) (by simp) qs (by simp [PbsOp.qsubAns?])) hnew
  have hck : countN p.sys l = k := by simp [countN, hk]
  have n1 : sampleTag l k ∉ outIds p.world ∧ sampleTag l k ∉ p.world.pool.unfinished := by
    constructor <;> intro hm
    · obtain ⟨l', i, e, hi⟩ := h.below _ (.inl hm)
      obtain ⟨rfl, rfl⟩ := sampleTag_injective e
      omega
    · obtain ⟨l', i, e, hi⟩ := h.below _ (.inr hm)
      obtain ⟨rfl, rfl⟩ := sampleTag_injective e
      omega
  have n2 : ∀ l', sampleTag l k ∉ finIds p.sys.store l' := by
    intro l' hm
    obtain ⟨i, e, hi, _⟩ := h.stored l' _ hm
    obtain ⟨rfl, rfl⟩ := sampleTag_injective e
    omega
  refine ⟨⟨?_, ?_, ?_⟩, ?_, ?_, ?_⟩
  · simp only [PbsProg.pool, PbsWorld.step, k2]
    rw [List.nodup_append]
    refine ⟨h.out.nodup, by simp, ?_⟩
    intro a ha b hb
    rw [List.mem_singleton] at hb
    subst hb
    rintro rfl
    exact n1.1 ha
  · simp only [PbsProg.pool, PbsWorld.step, k2, k3, hy1]
    intro id hid
    rcases List.mem_append.1 hid with hid | hid
    · exact h.out.apart id hid
    · rw [List.mem_singleton] at hid; subst hid; exact ⟨n1.2, n2⟩
  · simp only [PbsProg.pool, PbsWorld.step, k3, hy1]; exact h.out.unf
  · simp only [hy1]; exact h.nodup
  · simp only [PbsProg.pool, PbsWorld.step, k2, k3]
    intro id hid
    rw [List.mem_append, or_right_comm] at hid
    rcases hid with hid | hid
    · obtain ⟨l', i, e, hi⟩ := h.below id hid
      exact ⟨l', i, e, lt_of_lt_of_le hi (hy2 l')⟩
    · rw [List.mem_singleton] at hid; subst hid
      exact ⟨l, k, rfl, hy3⟩
  · simp only [hy1]
    intro l' id hid
    obtain ⟨i, e, hi, hi'⟩ := h.stored l' id hid
    exact ⟨i, e, lt_of_lt_of_le hi (hy2 l'), hi'⟩

theorem once_act {env : PbsEnv Cfg K C} {p q : PbsProg Cfg K C} {sops} (hs : Sess env p sops) (h : Once p) {js qs a} (hq : p.act env js qs a = some q)
    (hc : CleanPbs env q.hist) : Once q := by
  cases a with
  | begin l =>
    simp only [PbsProg.act, Option.some.injEq] at hq; subst hq
    exact ⟨h.out, h.nodup, h.below, h.stored⟩
  | save l =>
    simp only [PbsProg.act, Option.some.injEq] at hq; subst hq
    have hst : ((SchedAct.save l).apply p.sys).store = hdfStep p.sys.store (.scheduled l p.sys.pending) := rfl
    have h1 : ∀ l', finIds ((SchedAct.save l).apply p.sys).store l' = finIds p.sys.store l' := by
      intro l'
      rw [hst, finIds, finIds, storedIds, storedIds, failedIds, failedIds, hdfStep_get, Option.map_map]
      cases p.sys.store[l']? with
      | none => rfl
      | some x =>
        simp only [Option.map_some, Function.comp, Option.getD_some, levelStep, Option.bind_some]
        split <;> rfl
    have h2 : ∀ l', listedN p.sys.store l' ≤ listedN ((SchedAct.save l).apply p.sys).store l' := by
      intro l'
      rw [hst, listedN, listedN, hdfStep_get, Option.map_map]
      cases p.sys.store[l']? with
      | none => exact le_rfl
      | some x =>
        simp only [Option.map_some, Function.comp, Option.getD_some, levelStep]
        split
        · simp
        · exact le_rfl
    refine ⟨?_, ?_, h.below, ?_⟩
    · exact h.out.mono fun l' => by rw [h1]; exact fun x hx => hx
    · intro l'; simp only [h1]; exact h.nodup l'
    · intro l' id hid
      simp only [h1] at hid
      obtain ⟨i, e, a, b⟩ := h.stored l' id hid
      exact ⟨i, e, a, lt_of_lt_of_le b (h2 l')⟩
  | hand l =>
    simp only [PbsProg.act] at hq
    split at hq
    · rename_i k sim hk hsim
      split at hq
      · cases hq
      · injection hq with hq
        subst hq
        obtain ⟨m, -, hs', -⟩ := goes_jobs (keep := True) js hs
        have hj := once_jobs (env := env) js h
        have hsys : (p.jobs env js).sys = p.sys := jobs_sys env js p
        have happ : (SchedAct.hand l).apply (p.jobs env js).sys = { (p.jobs env js).sys with
            handed := (p.jobs env js).sys.handed ++ [(l, sampleTag l k)], nSched := (p.jobs env js).sys.nSched.set l (k + 1),
            pending := (p.jobs env js).sys.pending ++ [sampleTag l k] } := by
          simp only [SchedAct.apply, hsys, hk]
        have hlt : l < p.sys.nSched.length := (List.getElem?_eq_some_iff.1 hk).1
        refine once_schedule hs' hj (by rw [hsys]; exact hk) sim qs hc _ ?_ ?_ ?_
        · show ((SchedAct.hand l).apply (p.jobs env js).sys).store = _
          rw [happ]
        · intro l'
          show _ ≤ countN ((SchedAct.hand l).apply (p.jobs env js).sys) l'
          rw [happ]
          simp only [countN, hsys, List.getElem?_set]
          by_cases e : l = l'
          · subst e; rw [if_pos rfl, if_pos hlt, hk]; simp
          · rw [if_neg e]
        · show _ < countN ((SchedAct.hand l).apply (p.jobs env js).sys) l
          rw [happ]
          simp [countN, hsys, hlt]
    · cases hq

theorem once_acts {env : PbsEnv Cfg K C} (cmds : Nat → List (Nat × JobAppend (PairRes K)) × QsubAns) : ∀ (as : List SchedAct) (i : Nat)
    {p q : PbsProg Cfg K C} {sops}, Sess env p sops → Once p → p.acts env cmds i as = some q → CleanPbs env q.hist → Once q := by
  intro as
  induction as with
  | nil => intro i p q sops _ h hq _; simp only [PbsProg.acts, Option.some.injEq] at hq; subst hq; exact h
  | cons a as ih =>
    intro i p q sops hs h hq hc
    simp only [PbsProg.acts] at hq
    split at hq
    · cases hq
    · rename_i r hr
      obtain ⟨⟨m, -, hs', -⟩, -⟩ := goes_act (keep := True) hs hr
      obtain ⟨⟨-, -, -, e, he⟩, -⟩ := goes_acts (keep := True) cmds as (i + 1) hs' hq
      refine ih _ hs' (once_act hs h hr ?_) hq hc
      rw [he] at hc; exact hc.pre

theorem storeSamples_ids {V : Type} (g : HdfLevels V) (a : PoolAnswer V) (l : Nat) :
    (storedIds (storeSamples g a) l = storedIds g l ++ (atLevel a.succ l).map (·.1) ∨ g[l]? = none ∧ storedIds (storeSamples g a) l = []) ∧
    listedN (storeSamples g a) l = listedN g l := by
  have hst : storeSamples g a = hdfStep (hdfStep g (.samples a.succ a.failed)) (.nOps a.nOps) := rfl
  rw [hst, storedIds, storedIds, listedN, listedN, hdfStep_get, hdfStep_get]
  cases hx : g[l]? with
  | none => simp
  | some x =>
    simp only [Option.map_some, Option.getD_some]
    have e1 : levelStep l (levelStep l x (.samples a.succ a.failed)) (.nOps a.nOps) = { levelStep l x (.samples a.succ a.failed) with
      nOps := (levelStep l (levelStep l x (.samples a.succ a.failed)) (.nOps a.nOps)).nOps } := nOpsOn_other l _ _
    rw [e1]
    constructor
    · left
      simp only [levelStep]
      unfold addSucc
      split
      · rename_i h; simp [h]
      · rfl
    · simp only [levelStep]
      unfold addSucc
      split <;> rfl

theorem storeSamples_failed {V : Type} (g : HdfLevels V) (a : PoolAnswer V) (l : Nat) :
    (failedIds (storeSamples g a) l = failedIds g l ++ (atLevel a.failed l).map (·.1)) ∨ failedIds (storeSamples g a) l = [] := by
  have hst : storeSamples g a = hdfStep (hdfStep g (.samples a.succ a.failed)) (.nOps a.nOps) := rfl
  rw [hst, failedIds, failedIds, hdfStep_get, hdfStep_get]
  cases hx : g[l]? with
  | none => simp
  | some x =>
    simp only [Option.map_some, Option.bind_some]
    have e1 : levelStep l (levelStep l x (.samples a.succ a.failed)) (.nOps a.nOps) = { levelStep l x (.samples a.succ a.failed) with
      nOps := (levelStep l (levelStep l x (.samples a.succ a.failed)) (.nOps a.nOps)).nOps } := nOpsOn_other l _ _
    rw [e1]
    simp only [levelStep]
    have e2 : (addSucc (atLevel a.succ l) x).failed = x.failed := by
      unfold addSucc
      split <;> rfl
    rw [e2]
    cases x.failed with
    | none => simp
    | some f => left; simp

/-- What storing an answer adds. -/
theorem storeSamples_fin {V : Type} (g : HdfLevels V) (a : PoolAnswer V) (l : Nat) : ∃ new, new.Sublist (answerIds a l) ∧
    (finIds (storeSamples g a) l).Subperm (finIds g l ++ new) := by
  refine ⟨answerIds a l, List.Sublist.refl _, ?_⟩
  have h1 : (storedIds (storeSamples g a) l).Sublist (storedIds g l ++ (atLevel a.succ l).map (·.1)) := by
    rcases (storeSamples_ids g a l).1 with e | ⟨-, e⟩ <;> rw [e]
    exact List.nil_sublist _
  have h2 : (failedIds (storeSamples g a) l).Sublist (failedIds g l ++ (atLevel a.failed l).map (·.1)) := by
    rcases storeSamples_failed g a l with e | e <;> rw [e]
    exact List.nil_sublist _
  refine (h1.append h2).subperm.trans (List.Perm.subperm ?_)
  simp only [finIds, answerIds]
  rw [List.append_assoc, List.append_assoc]
  refine List.Perm.append_left _ ?_
  rw [← List.append_assoc, ← List.append_assoc]
  exact List.perm_append_comm.append_right _

/-- A question of the pool, before its answer is stored. -/
theorem once_get {env : PbsEnv Cfg K C} {p : PbsProg Cfg K C} {sops} (hs : Sess env p sops) (h : Once p) (q : QsubAns) (qa : QstatAns)
    (hf : FinePbs env (p.pool env (.get q qa)).1.hist) : Once (p.pool env (.get q qa)).1 ∧
    ∀ a, (p.pool env (.get q qa)).2.answer = some a →
      (∀ l, (answerIds a l).Nodup ∧ ∀ id ∈ answerIds a l, id ∉ finIds p.sys.store l ∧ (id ∈ outIds p.world ∨ id ∈ p.world.pool.unfinished)) ∧
      OutInv (p.pool env (.get q qa)).1.world fun l => finIds p.sys.store l ++ answerIds a l := by
  have hf' : FinePbs env (p.hist ++ [.get q qa]) := hf
  have i := run_jobs p.hist hf'.clean.pre
  have hids := hf'.clean.ids
  rw [pbsIdsIn_snoc] at hids
  have hw := hs.world
  have hwh := whole_of hf'.clean hf'.pre.jobs hf'.pre.fails hf'.whole (by
    rw [← hw]
    intro id hid hm
    exact (h.out.apart id (List.mem_append_right _ hm)).1 hid)
  obtain ⟨r1, r2⟩ := recs_of hf'.clean.pre hf'.pre.jobs hf'.pre.fails
  have hask := hf'.clean.asked p.hist q
  rw [← hw] at i hids hwh r1 r2
  obtain ⟨c, e1, _, e3, _⟩ := getFinished_core p.world q qa
  have hnew : ∀ s ∈ (p.world.execute q).2.submitted, s.pbsId ∉ pbsIdsIn env p.hist := by
    intro s hs' hm
    simp only [PbsWorld.step, e1] at hids
    exact (List.nodup_append.1 hids).2.2 _ hm _ (List.mem_map.2 ⟨s, hs', rfl⟩) rfl
  obtain ⟨k1, k2, k3⟩ := execute_jobs i q (hf'.clean.plain (.get q qa) (by simp) q (by simp [PbsOp.qsubAns?])) hnew
  have hsucc : ∀ j, succRecords (p.world.execute q).1.disk j = succRecords p.world.disk j := by
    intro j; simp only [succRecords, (execute_world p.world q).2.1]
  have hfail : ∀ j, failRecords (p.world.execute q).1.disk j = failRecords p.world.disk j := by
    intro j; simp only [failRecords, (execute_scheduledFiles p.world q).1]
  obtain ⟨g1, g2, g3, g4⟩ := getFinished_once (qa := qa) h.out k1 k2 k3
    (by
      intro j id hm
      rw [hsucc, hfail] at hm
      obtain ⟨ts, h1, h2⟩ := r1 j id hm
      exact ⟨ts, List.mem_append_left _ h1, h2⟩)
    (by intro j; rw [hsucc, hfail]; exact r2 j)
    (by
      cases qa with
      | fail => simp [QstatAns.finished]
      | ok fin =>
        intro pid hpid
        have := hask fin [] rfl pid hpid
        rw [hw]; exact this)
    hwh
  refine ⟨⟨g1, h.nodup, ?_, h.stored⟩, g4⟩
  intro id hid
  exact h.below id (hid.imp (fun x => g2 x) (fun x => g3 x))

theorem once_collect {env : PbsEnv Cfg K C} {n : Nat} {p q : PbsProg Cfg K C} {sops} (hs : Sess env p sops) (hi : SchedInv n p.sys) (h : Once p) {r : PbsRound K} {m : ℤ}
    (hq : p.collect env r = some (m, q)) (hf : FinePbs env q.hist) : Once q := by
  have hgo := (goes_collect (keep := True) hs hq).1
  simp only [PbsProg.collect] at hq
  split at hq
  · cases hq
  · rename_i a ha
    simp only [Option.some.injEq, Prod.mk.injEq] at hq
    obtain ⟨-, rfl⟩ := hq
    have hsys : (p.jobs env r.jobs).sys = p.sys := jobs_sys env r.jobs p
    obtain ⟨m', -, hs', -⟩ := goes_jobs (keep := True) r.jobs hs
    have hj := once_jobs (env := env) r.jobs h
    obtain ⟨h1, h2⟩ := once_get hs' hj r.qsub r.qstat hf
    obtain ⟨a1, a2⟩ := h2 a ha
    have hpool : ((p.jobs env r.jobs).pool env (.get r.qsub r.qstat)).1.sys = p.sys := hsys
    rw [hsys] at a1 a2
    -- levels of the answers
    have hlev : ∀ l, ∀ id ∈ answerIds a l, ∃ i, id = sampleTag l i ∧ i < countN p.sys l ∧ i < listedN p.sys.store l := by
      intro l id hid
      have hop := hs'.ops (honest_prefix (e := [.get r.qsub r.qstat]) hf.jobs) (honestFailures_prefix (e := [.get r.qsub r.qstat]) hf.fails)
      have hok := (worldOk_run ((p.jobs env r.jobs).hist ++ [.get r.qsub r.qstat]) (by
        intro o ho
        rcases List.mem_append.1 ho with ho | ho
        · exact hop o ho
        · rw [List.mem_singleton] at ho; subst ho; trivial) hf.jobs hf.fails).2.2 a (by
          rw [run_concat, answers_concat]
          refine List.mem_append_right _ ?_
          rw [Option.mem_toList, ← ha]
          simp only [PbsProg.pool, hs'.world, worldAfter]) l
      obtain ⟨i, e⟩ : ∃ i, id = sampleTag l i := by
        rcases List.mem_append.1 hid with h | h
        · obtain ⟨x, hx, rfl⟩ := List.mem_map.1 h
          obtain ⟨i, _, e, _⟩ := hok.1 x hx
          exact ⟨i, e⟩
        · obtain ⟨x, hx, rfl⟩ := List.mem_map.1 h
          exact hok.2 x hx
      obtain ⟨l', i', e', hi'⟩ := hj.below id ((a1 l).2 id hid).2
      rw [hsys] at hi'
      obtain ⟨rfl, rfl⟩ := sampleTag_injective (e.symm.trans e')
      refine ⟨i, e, hi', ?_⟩
      have := hi.sched l
      simp only [schedOf, List.getElem?_map] at this
      simp only [countN] at hi'
      cases hk : p.sys.nSched[l]? with
      | none => rw [hk] at hi'; simp at hi'
      | some k =>
        rw [hk] at this hi'
        simp only [Option.getD_some] at hi'
        cases hx' : p.sys.store[l]? with
        | none => rw [hx'] at this; simp at this
        | some g =>
          rw [hx'] at this
          simp only [Option.map_some, Option.some.injEq] at this
          simp only [listedN, hx', Option.map_some, Option.getD_some, this]
          simpa [levelTags] using hi'
    have hsp : ∀ l, (finIds (storeSamples p.sys.store a) l).Subperm (finIds p.sys.store l ++ answerIds a l) := by
      intro l
      obtain ⟨new, n1, n2⟩ := storeSamples_fin p.sys.store a l
      exact n2.trans ((List.Sublist.refl _).append n1).subperm
    have hsub : ∀ l, finIds (storeSamples p.sys.store a) l ⊆ finIds p.sys.store l ++ answerIds a l := fun l => (hsp l).subset
    refine ⟨?_, ?_, ?_, ?_⟩
    · simp only [hpool]
      exact a2.mono hsub
    · intro l
      simp only [hpool]
      obtain ⟨z, hz1, hz2⟩ := hsp l
      refine hz1.nodup_iff.1 (List.Nodup.sublist hz2 ?_)
      rw [List.nodup_append]
      refine ⟨h.nodup l, (a1 l).1, ?_⟩
      rintro x hx y hy rfl
      exact ((a1 l).2 x hy).1 hx
    · simp only [hpool]
      have := h1.below
      rw [hpool] at this
      exact this
    · intro l id hid
      simp only [hpool] at hid ⊢
      rw [(storeSamples_ids p.sys.store a l).2]
      rcases List.mem_append.1 (hsub l hid) with hid | hid
      · exact h.stored l id hid
      · exact hlev l id hid

theorem once_rounds {env : PbsEnv Cfg K C} {n : Nat} : ∀ (rs : List (PbsRound K)) {p q : PbsProg Cfg K C} {sops}, Sess env p sops → SchedInv n p.sys → Once p →
    p.rounds env rs = some q → FinePbs env q.hist → Once q := by
  intro rs
  induction rs with
  | nil => intro p q sops _ _ h hq _; simp only [PbsProg.rounds, Option.some.injEq] at hq; subst hq; exact h
  | cons r rs ih =>
    intro p q sops hs hi h hq hf
    simp only [PbsProg.rounds] at hq
    split at hq
    · cases hq
    · rename_i m q' hm
      obtain ⟨⟨mm, -, hs', -⟩, hi'⟩ := sched_collect (keep := True) hs hi hm
      obtain ⟨⟨-, -, -, e, he⟩, -⟩ := sched_rounds (keep := True) rs hs' hi' hq
      refine ih hs' hi' (once_collect hs hi h hm ?_) hq hf
      rw [he] at hf; exact hf.pre

theorem once_wait {env : PbsEnv Cfg K C} {n : Nat} (timeout : ℚ) : ∀ (rs : List (PbsRound K)) {p q : PbsProg Cfg K C} {sops}, Sess env p sops → SchedInv n p.sys →
    Once p → p.wait env timeout rs = some q → FinePbs env q.hist → Once q := by
  intro rs
  induction rs with
  | nil => intro p q sops _ _ _ hq; cases hq
  | cons r rs ih =>
    intro p q sops hs hi h hq hf
    simp only [PbsProg.wait] at hq
    split at hq
    · cases hq
    · rename_i m q' hm
      split at hq
      · injection hq with hq; subst hq; exact once_collect hs hi h hm hf
      · split at hq
        · obtain ⟨⟨mm, -, hs', -⟩, hi'⟩ := sched_collect (keep := True) hs hi hm
          obtain ⟨⟨-, -, -, e, he⟩, -⟩ := sched_wait (keep := True) timeout rs hs' hi' hq
          refine ih hs' hi' (once_collect hs hi h hm ?_) hq hf
          rw [he] at hf; exact hf.pre
        · injection hq with hq; subst hq; exact once_collect hs hi h hm hf

theorem once_ask {env : PbsEnv Cfg K C} {n : Nat} {p q : PbsProg Cfg K C} {sops} (hs : Sess env p sops) (hi : SchedInv n p.sys) (h : Once p) (timeout : Option ℚ)
    (rs : List (PbsRound K)) (hq : p.ask env timeout rs = some q) (hf : FinePbs env q.hist) : Once q := by
  cases timeout with
  | none => exact once_wait 0 rs hs hi h hq hf
  | some t =>
    simp only [PbsProg.ask] at hq
    split at hq
    · injection hq with hq; subst hq; exact h
    · exact once_wait t rs hs hi h hq hf

theorem once_step {env : PbsEnv Cfg K C} {n : Nat} {p q : PbsProg Cfg K C} {sops} (hs : Sess env p sops) (hi : SchedInv n p.sys) (h : Once p) (o : PbsProgOp K)
    (hq : p.step env o = some q) (hf : FinePbs env q.hist) : Once q := by
  cases o with
  | setInitial v =>
    simp only [PbsProg.step, Option.some.injEq] at hq; subst hq
    exact ⟨h.out, h.nodup, h.below, h.stored⟩
  | setTarget v =>
    simp only [PbsProg.step] at hq
    split at hq
    · injection hq with hq; subst hq
      exact ⟨h.out, h.nodup, h.below, h.stored⟩
    · cases hq
  | ask timeout rounds => exact once_ask hs hi h timeout rounds hq hf
  | schedule timeout rounds cmds =>
    simp only [PbsProg.step] at hq
    cases ha : p.ask env timeout rounds with
    | none => rw [ha] at hq; cases hq
    | some r =>
      rw [ha, Option.bind_some] at hq
      simp only [PbsProg.scheduleSamples] at hq
      split at hq
      · obtain ⟨⟨mm, -, hs', -⟩, hi'⟩ := sched_ask (keep := True) hs hi timeout rounds ha
        obtain ⟨⟨-, -, -, e, he⟩, -⟩ := goes_acts (keep := True) cmds _ _ hs' hq
        refine once_acts cmds _ _ hs' (once_ask hs hi h timeout rounds ha ?_) hq hf.clean
        rw [he] at hf; exact hf.pre
      · cases hq
  | pause js =>
    simp only [PbsProg.step, Option.some.injEq] at hq; subst hq
    exact once_jobs js h

theorem once_kill {env : PbsEnv Cfg K C} {n : Nat} {p q : PbsProg Cfg K C} {sops} (hs : Sess env p sops) (hi : SchedInv n p.sys) (h : Once p) (kl : PbsKill K)
    (hq : p.kill env kl = some q) (hf : FinePbs env q.hist) : Once q := by
  cases kl with
  | between => simp only [PbsProg.kill, Option.some.injEq] at hq; subst hq; exact h
  | inSchedule cmds j =>
    simp only [PbsProg.kill] at hq
    split at hq
    · exact once_acts cmds _ _ hs h hq hf.clean
    · cases hq
  | inAsk rs => exact once_rounds rs hs hi h hq hf
  | unstored rs r =>
    simp only [PbsProg.kill] at hq
    cases hr : p.rounds env rs with
    | none => rw [hr] at hq; cases hq
    | some m =>
      rw [hr] at hq
      simp only [Option.bind_some] at hq
      split at hq
      · cases hq
      · injection hq with hq
        subst hq
        obtain ⟨⟨mm, -, hs', -⟩, hi'⟩ := sched_rounds (keep := True) rs hs hi hr
        obtain ⟨m2, -, hs2, e, he⟩ := goes_jobs (keep := True) r.jobs hs'
        refine (once_get hs2 (once_jobs r.jobs (once_rounds rs hs hi h hr ?_)) r.qsub r.qstat hf).1
        have hf1 : FinePbs env ((m.jobs env r.jobs).hist ++ [.get r.qsub r.qstat]) := hf
        rw [he] at hf1; exact hf1.pre.pre

/-- A sample that is nowhere is handed over. -/
theorem out_schedule {env : PbsEnv Cfg K C} {p : PbsProg Cfg K C} {sops} (hs : Sess env p sops) {D : Nat → List SampleId} (h : OutInv p.world D) (id : SampleId)
    (l : Nat) (sim qs) (hc : CleanPbs env (p.pool env (.schedule id l (env.size l) sim qs)).1.hist)
    (n1 : id ∉ outIds p.world) (n2 : id ∉ p.world.pool.unfinished) (n3 : ∀ l', id ∉ D l') :
    OutInv (p.pool env (.schedule id l (env.size l) sim qs)).1.world D ∧
    outIds (p.pool env (.schedule id l (env.size l) sim qs)).1.world = outIds p.world ++ [id] ∧
    (p.pool env (.schedule id l (env.size l) sim qs)).1.world.pool.unfinished = p.world.pool.unfinished := by
  have hc' : CleanPbs env (p.hist ++ [.schedule id l (env.size l) sim qs]) := hc
  have i := run_jobs p.hist hc'.pre
  rw [← hs.world] at i
  have hids := hc'.ids
  rw [pbsIdsIn_snoc, ← hs.world] at hids
  have hnew : ∀ s ∈ (p.world.schedule id (computeSeed env.md5 id) l (env.size l) sim qs).2.submitted, s.pbsId ∉ pbsIdsIn env p.hist := by
    intro s hs hm
    exact (List.nodup_append.1 hids).2.2 _ hm _ (List.mem_map.2 ⟨s, hs, rfl⟩) rfl
  obtain ⟨-, k2, k3⟩ := schedule_jobs i id (computeSeed env.md5 id) l (env.size l) sim qs
    (hc'.plain (.schedule id l (env.size l) sim qs) (by simp) qs (by simp [PbsOp.qsubAns?])) hnew
  refine ⟨⟨?_, ?_, ?_⟩, k2, k3⟩
  · simp only [PbsProg.pool, PbsWorld.step, k2]
    rw [List.nodup_append]
    refine ⟨h.nodup, by simp, ?_⟩
    intro a ha b hb
    rw [List.mem_singleton] at hb
    subst hb
    rintro rfl
    exact n1 ha
  · simp only [PbsProg.pool, PbsWorld.step, k2, k3]
    intro id' hid
    rcases List.mem_append.1 hid with hid | hid
    · exact h.apart id' hid
    · rw [List.mem_singleton] at hid; subst hid; exact ⟨n2, n3⟩
  · simp only [PbsProg.pool, PbsWorld.step, k3]; exact h.unf

theorem out_jobs {env : PbsEnv Cfg K C} (js : List (Nat × JobAppend (PairRes K))) : ∀ p : PbsProg Cfg K C,
    outIds (p.jobs env js).world = outIds p.world ∧ (p.jobs env js).world.pool.unfinished = p.world.pool.unfinished := by
  induction js with
  | nil => intro p; exact ⟨rfl, rfl⟩
  | cons j js ih =>
    intro p
    obtain ⟨h1, h2⟩ := ih (p.pool env (.job j.1 j.2)).1
    refine ⟨h1.trans ?_, h2.trans rfl⟩
    simp only [PbsProg.pool, PbsWorld.step, outIds, jobIds, (apply_rest j.1 p.world.disk j.2).1, (apply_rest j.1 p.world.disk j.2).2.2.2.2]
    rfl

theorem out_renewLoop {env : PbsEnv Cfg K C} (cmds : Nat → List (Nat × JobAppend (PairRes K)) × QsubAns) {D : Nat → List SampleId} :
    ∀ (L : List (Nat × SampleId)) (i : Nat) {p q : PbsProg Cfg K C} {sops}, Sess env p sops → OutInv p.world D → (∀ e ∈ L, ∃ i, e.2 = sampleTag e.1 i) →
    (L.map (·.2)).Nodup → (∀ id ∈ L.map (·.2), id ∉ outIds p.world ∧ id ∉ p.world.pool.unfinished ∧ ∀ l, id ∉ D l) →
    p.renewLoop env cmds i L = some q → CleanPbs env q.hist →
    OutInv q.world D ∧ outIds q.world = outIds p.world ++ L.map (·.2) ∧ q.world.pool.unfinished = p.world.pool.unfinished := by
  intro L
  induction L with
  | nil =>
    intro i p q sops _ h _ _ _ hq _
    simp only [PbsProg.renewLoop, Option.some.injEq] at hq; subst hq
    exact ⟨h, by simp, rfl⟩
  | cons e L ih =>
    intro i p q sops hs h ht hn hap hq hc
    obtain ⟨l, id⟩ := e
    simp only [PbsProg.renewLoop] at hq
    split at hq
    · cases hq
    · rename_i sim hsim
      split at hq
      · cases hq
      · obtain ⟨m, -, hs1, -⟩ := goes_jobs (keep := True) (cmds i).1 hs
        obtain ⟨o1, o2⟩ := out_jobs (env := env) (cmds i).1 p
        have hj : OutInv (p.jobs env (cmds i).1).world D := h.of_eq o1 o2
        obtain ⟨a1, a2, a3⟩ := hap id (by simp)
        have g : Goes True env (p.jobs env (cmds i).1) (sops ++ m) ((p.jobs env (cmds i).1).pool env (.schedule id l (env.size l) sim (cmds i).2)).1 :=
          goes_pool hs1 (.schedule id l (env.size l) sim (cmds i).2) fun _ _ => ⟨ht (l, id) (by simp), hsim⟩
        have g2 := Goes.sys g { ((p.jobs env (cmds i).1).pool env (.schedule id l (env.size l) sim (cmds i).2)).1.sys with
          renewed := ((p.jobs env (cmds i).1).pool env (.schedule id l (env.size l) sim (cmds i).2)).1.sys.renewed ++ [(l, id)] } rfl
        obtain ⟨m2, -, hs2, -⟩ := g2
        have g4 := (goes_renewLoop (keep := True) cmds L (i + 1) hs2 (fun _ _ e he => ht e (by simp [he])) hq).1
        obtain ⟨-, -, -, e4, he4⟩ := g4
        have hc1 : CleanPbs env ((p.jobs env (cmds i).1).pool env (.schedule id l (env.size l) sim (cmds i).2)).1.hist := by
          rw [he4] at hc; exact hc.pre
        obtain ⟨k1, k2, k3⟩ := out_schedule hs1 hj id l sim (cmds i).2 hc1 (by rw [o1]; exact a1) (by rw [o2]; exact a2) a3
        rw [o1] at k2
        rw [o2] at k3
        simp only [List.map_cons, List.nodup_cons] at hn
        obtain ⟨r1, r2, r3⟩ := ih (i + 1) hs2 k1 (fun e he => ht e (by simp [he])) hn.2 (by
          intro x hx
          obtain ⟨b1, b2, b3⟩ := hap x (by rw [List.map_cons]; exact List.mem_cons_of_mem _ hx)
          refine ⟨?_, ?_, b3⟩
          · show x ∉ outIds ((p.jobs env (cmds i).1).pool env (.schedule id l (env.size l) sim (cmds i).2)).1.world
            rw [k2, List.mem_append, not_or, List.mem_singleton]
            refine ⟨b1, ?_⟩
            rintro rfl
            exact hn.1 hx
          · show x ∉ ((p.jobs env (cmds i).1).pool env (.schedule id l (env.size l) sim (cmds i).2)).1.world.pool.unfinished
            rw [k3]; exact b2) hq hc
        refine ⟨r1, r2.trans ?_, r3.trans k3⟩
        show outIds ((p.jobs env (cmds i).1).pool env (.schedule id l (env.size l) sim (cmds i).2)).1.world ++ _ = _
        rw [k2]; simp

theorem renewList_ids (failed : List (List SampleId)) : (renewList failed).map (·.2) = failed.flatten := by
  simp only [renewList, List.map_flatMap, List.map_map]
  have : failed.zipIdx.flatMap (fun a => a.1.map ((fun x => x.2) ∘ fun i => (a.2, i))) = failed.zipIdx.flatMap (·.1) := by
    apply List.flatMap_congr
    intro a _
    simp [Function.comp_def]
  rw [this, List.flatMap_def]
  simp

theorem once_renew {env : PbsEnv Cfg K C} {p q : PbsProg Cfg K C} {sops} (hs : Sess env p sops) (h : Once p) (cmds)
    (hq : p.renew env cmds = some q) (hc : CleanPbs env q.hist) : Once q := by
  have hlv : ∀ l < env.sims.length, failedIds p.sys.store l = (savedFailed sops l).map (·.1) := by
    intro l hl
    obtain ⟨y, hy, -, -, -, y4⟩ := hdf_fresh_spec env.sims.length l hl sops
    rw [← hs.store] at hy
    simp [failedIds, hy, y4]
  have hfs : hdfFailedSamples p.sys.store = .ok ((List.range env.sims.length).map fun l => failedIds p.sys.store l) := by
    conv_lhs => rw [hs.store, failed_fresh]
    congr 1
    apply List.map_congr_left
    intro l hl
    exact (hlv l (List.mem_range.1 hl)).symm
  simp only [PbsProg.renew, hfs] at hq
  obtain ⟨m, hm, rfl⟩ := Option.map_eq_some_iff.1 hq
  set L := renewList ((List.range env.sims.length).map fun l => failedIds p.sys.store l) with hL
  have hids : L.map (·.2) = (List.range env.sims.length).flatMap fun l => failedIds p.sys.store l := by
    rw [hL, renewList_ids, List.flatMap_def]
  have htag : ∀ l, ∀ id ∈ failedIds p.sys.store l, ∃ i, id = sampleTag l i ∧ i < countN p.sys l ∧ i < listedN p.sys.store l :=
    fun l id hid => h.stored l id (List.mem_append_right _ hid)
  have hnd : (L.map (·.2)).Nodup := by
    rw [hids, List.nodup_flatMap]
    refine ⟨fun l _ => (List.nodup_append.1 (h.nodup l)).2.1, ?_⟩
    refine List.Pairwise.imp ?_ List.nodup_range
    intro l l' hne id h1 h2
    obtain ⟨i, e, -⟩ := htag l id h1
    obtain ⟨i', e', -⟩ := htag l' id h2
    exact hne (sampleTag_injective (e.symm.trans e')).1
  have hLt : ∀ e ∈ L, ∃ i, e.2 = sampleTag e.1 i := by
    rintro ⟨l, id⟩ he
    simp only [hL, renewList, List.mem_flatMap, List.mem_map, Prod.exists, Prod.mk.injEq] at he
    obtain ⟨ids, l', hm', id', hid, rfl, rfl⟩ := he
    rw [List.mem_zipIdx_iff_getElem?, List.getElem?_map] at hm'
    simp only at hm'
    cases hr : (List.range env.sims.length)[l']? with
    | none => rw [hr] at hm'; cases hm'
    | some k =>
      rw [hr, Option.map_some, Option.some.injEq] at hm'
      obtain ⟨hk, e⟩ := List.getElem?_eq_some_iff.1 hr
      rw [List.getElem_range] at e
      subst e
      rw [← hm'] at hid
      obtain ⟨i, e, -⟩ := htag l' id' hid
      exact ⟨i, e⟩
  have hmem : ∀ id ∈ L.map (·.2), ∃ l, id ∈ failedIds p.sys.store l := by
    intro id hid
    rw [hids, List.mem_flatMap] at hid
    obtain ⟨l, -, h1⟩ := hid
    exact ⟨l, h1⟩
  have hcm : CleanPbs env m.hist := hc
  have hsys := (goes_renewLoop (keep := True) cmds L 0 hs (fun _ _ => hLt) hm).2
  obtain ⟨k1, k2, k3⟩ := out_renewLoop cmds L 0 hs (h.out.mono (D' := storedIds p.sys.store) fun l x hx => List.mem_append_left _ hx) hLt hnd (by
    intro id hid
    obtain ⟨l, hl⟩ := hmem id hid
    refine ⟨fun ho => (h.out.apart id ho).2 l (List.mem_append_right _ hl), fun hu => h.out.unf id hu l (List.mem_append_right _ hl), ?_⟩
    intro l' hl'
    obtain ⟨i, e, -⟩ := htag l id hl
    obtain ⟨i', e', -⟩ := h.stored l' id (List.mem_append_left _ hl')
    obtain ⟨rfl, -⟩ := sampleTag_injective (e.symm.trans e')
    exact (List.nodup_append.1 (h.nodup l)).2.2 id hl' id hl rfl) hm hcm
  have hst : m.sys.store = p.sys.store := by rw [hsys]
  have hfin : ∀ l, finIds (applyOps (clearFailedOps m.sys.store) m.sys.store) l = storedIds p.sys.store l := by
    intro l
    rw [hst]
    show finIds (hdfStep p.sys.store .clearFailed) l = _
    rw [finIds, storedIds, storedIds, failedIds, hdfStep_get]
    cases p.sys.store[l]? with
    | none => rfl
    | some x => cases hxf : x.failed <;> simp [levelStep, hxf]
  have hlist : ∀ l, listedN (applyOps (clearFailedOps m.sys.store) m.sys.store) l = listedN p.sys.store l := by
    intro l
    rw [hst]
    show listedN (hdfStep p.sys.store .clearFailed) l = _
    rw [listedN, listedN, hdfStep_get]
    cases p.sys.store[l]? <;> rfl
  have hcn : ∀ l, countN { m.sys with store := applyOps (clearFailedOps m.sys.store) m.sys.store } l = countN p.sys l := by
    intro l
    simp [countN, hsys]
  refine ⟨?_, ?_, ?_, ?_⟩
  · exact k1.mono fun l => by simp only [hfin]; exact fun x hx => hx
  · intro l
    simp only [hfin]
    exact (List.nodup_append.1 (h.nodup l)).1
  · intro id hid
    simp only [k2, k3] at hid
    simp only [hcn]
    rw [List.mem_append, or_right_comm] at hid
    rcases hid with hid | hid
    · exact h.below id hid
    · obtain ⟨l, hl⟩ := hmem id hid
      obtain ⟨i, e, hi, -⟩ := htag l id hl
      exact ⟨l, i, e, hi⟩
  · intro l id hid
    simp only [hfin] at hid
    simp only [hcn, hlist]
    exact h.stored l id (List.mem_append_left _ hid)

/-- What a program leaves in the file when it ends. -/
structure Kept (p : PbsProg Cfg K C) : Prop where
  nodup : ∀ l, (finIds p.sys.store l).Nodup
  stored : ∀ l, ∀ id ∈ finIds p.sys.store l, ∃ i, id = sampleTag l i ∧ i < listedN p.sys.store l

theorem Once.kept {p : PbsProg Cfg K C} (h : Once p) : Kept p :=
  ⟨h.nodup, fun l id hid => by obtain ⟨i, e, _, k⟩ := h.stored l id hid; exact ⟨i, e, k⟩⟩

theorem once_ending {env : PbsEnv Cfg K C} {n : Nat} {p q : PbsProg Cfg K C} {sops} (hs : Sess env p sops) (hi : SchedInv n p.sys) (h : Once p) (e : PbsEnd K)
    (hq : p.ending env e = some q) (hf : FinePbs env q.hist) : Kept q := by
  cases e with
  | killed kl => exact (once_kill hs hi h kl hq hf).kept
  | inGet rs r =>
    simp only [PbsProg.ending] at hq
    cases hr : p.rounds env rs with
    | none => rw [hr] at hq; cases hq
    | some m =>
      rw [hr] at hq
      simp only [Option.map_some, Option.some.injEq] at hq
      subst hq
      obtain ⟨⟨mm, -, hs', -⟩, hi'⟩ := sched_rounds (keep := True) rs hs hi hr
      obtain ⟨m2, -, hs2, e, he⟩ := goes_jobs (keep := True) r.jobs hs'
      refine (once_get hs2 (once_jobs r.jobs (once_rounds rs hs hi h hr ?_)) r.qsub r.qstat hf).1.kept
      have hf1 : FinePbs env ((m.jobs env r.jobs).hist ++ [.get r.qsub r.qstat]) := hf
      rw [he] at hf1; exact hf1.pre.pre
  | inHand cmds j =>
    simp only [PbsProg.ending] at hq
    cases hr : p.kill env (.inSchedule cmds j) with
    | none => rw [hr] at hq; cases hq
    | some m =>
      rw [hr] at hq
      simp only [Option.bind_some] at hq
      obtain ⟨⟨mm, -, hs', -⟩, -⟩ := goes_kill (keep := True) hs hi _ hr
      split at hq
      · rename_i l _
        split at hq
        · rename_i k sim hk hsim
          injection hq with hq
          subst hq
          obtain ⟨m2, -, hs2, e, he⟩ := goes_jobs (keep := True) (cmds j).1 hs'
          have hf1 : FinePbs env ((m.jobs env (cmds j).1).hist ++ [.schedule (sampleTag l k) l (env.size l) sim (cmds j).2]) := hf
          have hm : Once m := once_kill hs hi h _ hr (by rw [he] at hf1; exact hf1.pre.pre)
          have hj := (once_jobs (env := env) (cmds j).1 hm).kept
          exact ⟨hj.nodup, hj.stored⟩
        · cases hq
      · cases hq
  | inRenew cmds j =>
    have e := (goes_renewing (keep := True) hs cmds j hq).2
    have k := h.kept
    exact ⟨by rw [e]; exact k.nodup, by rw [e]; exact k.stored⟩
  | inRenewHand cmds j =>
    simp only [PbsProg.ending] at hq
    cases hr : p.renewing env cmds j with
    | none => rw [hr] at hq; cases hq
    | some m =>
      rw [hr] at hq
      simp only [Option.bind_some] at hq
      have e := (goes_renewing (keep := True) hs cmds j hr).2
      have k := h.kept
      have key : ∀ x : PbsProg Cfg K C, x.sys.store = m.sys.store → Kept x := by
        intro x hx
        rw [e] at hx
        exact ⟨by rw [hx]; exact k.nodup, by rw [hx]; exact k.stored⟩
      split at hq
      · cases hq
      · split at hq
        · cases hq
        · obtain ⟨sim, -, rfl⟩ := Option.map_eq_some_iff.1 hq
          refine key _ ?_
          show (m.jobs env (cmds j).1).sys.store = _
          rw [jobs_sys]


theorem unfinished_store {env : PbsEnv Cfg K C} {p : PbsProg Cfg K C} {sops} (h : Sess env p sops) {u} (hu : hdfUnfinishedIds p.sys.store = .ok u) (id : SampleId)
    (hid : id ∈ u) : ∃ l x, p.sys.store[l]? = some x ∧ id ∈ x.scheduled ∧ id ∉ finIds p.sys.store l := by
  obtain ⟨r, hr, h1, -⟩ := C18_unfinished_ids env.sims.length sops
  rw [h.store, hr] at hu
  cases hu
  obtain ⟨l, hl, o1, o2, o3⟩ := (h1 id).1 hid
  obtain ⟨y, hy, y1, y2, -, y4⟩ := hdf_fresh_spec env.sims.length l hl sops
  rw [← h.store] at hy
  refine ⟨l, y, hy, by rw [y1]; exact o1, ?_⟩
  rw [finIds, List.mem_append, not_or]
  exact ⟨by simpa only [storedIds, hy, Option.map_some, Option.getD_some, y2] using o2,
    by simpa only [failedIds, hy, Option.bind_some, y4, Option.getD_some] using o3⟩

theorem once_next {env : PbsEnv Cfg K C} {n : Nat} {p : PbsProg Cfg K C} {sops} (hs : Sess env p sops) (ht : TagLists n p.sys.store) (h : Kept p) (js) (listing : List Nat)
    (ids : List SampleId) {u} (hu : hdfUnfinishedIds p.sys.store = .ok u) (hids : ∀ id ∈ ids, id ∈ u) : Once (p.next env js true listing ids) := by
  have hsys : (p.next env js true listing ids).sys = Sys.construct p.sys.store [] [] := by
    show Sys.construct (p.jobs env js).sys.store [] [] = _
    rw [jobs_sys]
  have hst : (p.next env js true listing ids).sys.store = p.sys.store := by rw [hsys]; rfl
  have hcount : ∀ l, countN (p.next env js true listing ids).sys l = listedN p.sys.store l := by
    intro l
    rw [hsys, countN, listedN]
    simp only [Sys.construct, hdfLoadScheduled, List.map_map, List.getElem?_map]
    rfl
  have hout : outIds (p.next env js true listing ids).world = [] := by
    simp [PbsProg.next, PbsProg.pool, PbsWorld.step, PbsWorld.create, outIds]
  have hunf : (p.next env js true listing ids).world.pool.unfinished = ids.dedup := rfl
  have hopen : ∀ id ∈ ids, ∃ l i, id = sampleTag l i ∧ i < listedN p.sys.store l ∧ id ∉ finIds p.sys.store l := by
    intro id hid
    obtain ⟨l, x, hx, h1, h2⟩ := unfinished_store hs hu id (hids id hid)
    obtain ⟨k, hk⟩ := ht.2 l x hx
    rw [hk] at h1
    simp only [levelTags, List.mem_map, List.mem_range'] at h1
    obtain ⟨i, hi, rfl⟩ := h1
    refine ⟨l, i, rfl, ?_, h2⟩
    simp only [listedN, hx, Option.map_some, Option.getD_some, hk, levelTags, List.length_map, List.length_range']
    omega
  refine ⟨⟨?_, ?_, ?_⟩, ?_, ?_, ?_⟩
  · rw [hout]; exact List.nodup_nil
  · rw [hout]; simp
  · rw [hunf, hst]
    intro id hid l hl
    obtain ⟨l', i, e, -, h2⟩ := hopen id (List.mem_dedup.1 hid)
    obtain ⟨i', e', -⟩ := h.stored l id hl
    obtain ⟨rfl, -⟩ := sampleTag_injective (e.symm.trans e')
    exact h2 hl
  · rw [hst]; exact h.nodup
  · rw [hout, hunf]
    intro id hid
    rcases hid with hid | hid
    · cases hid
    · obtain ⟨l, i, e, hi, -⟩ := hopen id (List.mem_dedup.1 hid)
      exact ⟨l, i, e, by rw [hcount]; exact hi⟩
  · rw [hst]
    intro l id hid
    obtain ⟨i, e, hi⟩ := h.stored l id hid
    exact ⟨i, e, by rw [hcount]; exact hi, hi⟩

theorem next_hist (env : PbsEnv Cfg K C) (p : PbsProg Cfg K C) (js d li ids) :
    (p.next env js d li ids).hist = (p.jobs env js).hist ++ [.restart d li, .permanent ids] := by
  simp [PbsProg.next, PbsProg.pool]

theorem once_event {env : PbsEnv Cfg K C} {n : Nat} {p q : PbsProg Cfg K C} {sops} (hs : Sess env p sops) (hi : SchedInv n p.sys) (h : Once p) (e : PbsEvent K)
    (hg : ∀ e' js d li ids, e = .restart e' js d li ids → ∀ p1, p.ending env e' = some p1 → ∃ u, hdfUnfinishedIds p1.sys.store = .ok u ∧ ∀ id ∈ ids, id ∈ u)
    (hq : p.event env e = some q) (hf : FinePbs env q.hist) : Once q := by
  cases e with
  | call o => exact once_step hs hi h o hq hf
  | renew cmds => exact once_renew hs h cmds hq hf.clean
  | restart e js d li ids =>
    simp only [PbsProg.event] at hq
    cases hr : p.ending env e with
    | none => rw [hr] at hq; cases hq
    | some m =>
      rw [hr] at hq
      simp only [Option.map_some, Option.some.injEq] at hq
      subst hq
      obtain ⟨⟨mm, -, hs', -⟩, ht⟩ := goes_ending (keep := True) hs hi e hr
      obtain ⟨u, hu, hids⟩ := hg e js d li ids rfl m hr
      have hd : d = true := by
        cases d with
        | true => rfl
        | false => exact absurd (by rw [next_hist]; simp) (hf.clean.kept li)
      subst hd
      obtain ⟨-, -, -, e2, he⟩ := goes_jobs (keep := True) js hs'
      have hk : Kept m := once_ending hs hi h e hr (by rw [next_hist, he] at hf; exact hf.pre.pre)
      exact once_next hs' ht hk js li ids hu hids

/-- `GivesUnfinished`, from any program. -/
def GivesFrom (env : PbsEnv Cfg K C) (p0 : PbsProg Cfg K C) (es : List (PbsEvent K)) : Prop :=
  ∀ es1 e js debug listing ids es2, es = es1 ++ .restart e js debug listing ids :: es2 →
    ∀ p p1 : PbsProg Cfg K C, p0.events env es1 = some p → p.ending env e = some p1 →
      ∃ u, hdfUnfinishedIds p1.sys.store = .ok u ∧ ∀ id ∈ ids, id ∈ u

theorem once_events {env : PbsEnv Cfg K C} {n : Nat} : ∀ (es : List (PbsEvent K)) {p q : PbsProg Cfg K C} {sops}, Sess env p sops → SchedInv n p.sys → Once p →
    GivesFrom env p es → p.events env es = some q → FinePbs env q.hist → Once q := by
  intro es
  induction es with
  | nil => intro p q sops _ _ h _ hq _; simp only [PbsProg.events, Option.some.injEq] at hq; subst hq; exact h
  | cons e es ih =>
    intro p q sops hs hi h hg hq hf
    simp only [PbsProg.events] at hq
    cases hr : p.event env e with
    | none => rw [hr] at hq; cases hq
    | some m =>
      rw [hr, Option.bind_some] at hq
      obtain ⟨⟨mm, -, hs', -⟩, hi'⟩ := sched_event (keep := False) hs hi e (fun k => k.elim) hr
      obtain ⟨⟨-, -, -, e2, he⟩, -⟩ := sched_events (keep := False) es hs' hi' (fun k => k.elim) hq
      refine ih hs' hi' (once_event hs hi h e ?_ hr ?_) ?_ hq hf
      · intro e' js d li ids h1 p1 h2
        exact hg [] e' js d li ids es (by simp [h1]) p p1 rfl h2
      · rw [he] at hf; exact hf.pre
      · intro es1 e' js d li ids es2 h1 p' p1 h2 h3
        exact hg (e :: es1) e' js d li ids es2 (by simp [h1]) p' p1 (by simp only [PbsProg.events, hr, Option.bind_some]; exact h2) h3

theorem once_start (env : PbsEnv Cfg K C) : Once (PbsProg.start env) := by
  have h0 : ∀ l, finIds (PbsProg.start env).sys.store l = [] := by
    intro l
    simp only [PbsProg.start, Sys.fresh, Sys.construct, finIds, storedIds, failedIds, List.getElem?_replicate]
    split <;> rfl
  refine ⟨⟨?_, ?_, ?_⟩, ?_, ?_, ?_⟩
  · exact List.nodup_nil
  · intro id hid; cases hid
  · intro id hid; cases hid
  · intro l; rw [h0]; exact List.nodup_nil
  · intro id hid; rcases hid with hid | hid <;> cases hid
  · intro l id hid; rw [h0] at hid; cases hid

end MLMC
