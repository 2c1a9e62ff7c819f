import Verif.Props.ProgramPbs
import Verif.Props.PbsRecovery
import Verif.Props.Pbs
import Verif.Proofs.ProgramRestart
import Verif.Spec.PbsRestart
/-! What a killed program with PBS leaves in its file and its directory. -/
namespace MLMC
variable {Cfg K C : Type}

theorem jobs_hist (env : PbsEnv Cfg K C) (js : List (Nat × JobAppend (PairRes K))) : ∀ p : PbsProg Cfg K C,
    (p.jobs env js).hist = p.hist ++ js.map fun j => .job j.1 j.2 := by
  induction js with
  | nil => intro p; simp [PbsProg.jobs]
  | cons j js ih =>
    intro p
    refine (ih _).trans ?_
    simp [PbsProg.pool]

theorem jobs_sys (env : PbsEnv Cfg K C) (js : List (Nat × JobAppend (PairRes K))) : ∀ p : PbsProg Cfg K C, (p.jobs env js).sys = p.sys := by
  induction js with
  | nil => intro p; rfl
  | cons j js ih => intro p; exact (ih _).trans rfl

theorem act_hist {env : PbsEnv Cfg K C} {p q : PbsProg Cfg K C} {js qs a} (h : p.act env js qs a = some q) : ∃ e, q.hist = p.hist ++ e := by
  cases a with
  | begin l => simp only [PbsProg.act, Option.some.injEq] at h; subst h; exact ⟨[], by simp⟩
  | save l => simp only [PbsProg.act, Option.some.injEq] at h; subst h; exact ⟨[], by simp⟩
  | hand l =>
    simp only [PbsProg.act] at h
    split at h
    · split at h
      · cases h
      · injection h with h
        subst h
        rename_i k sim hk hsim _ hb
        refine ⟨js.map (fun j => .job j.1 j.2) ++ [.schedule (sampleTag l k) l (env.size l) sim qs], ?_⟩
        simp only [PbsProg.pool, jobs_hist, List.append_assoc]
    · cases h

theorem acts_hist {env : PbsEnv Cfg K C} (cmds) : ∀ (as : List SchedAct) (i : Nat) {p q : PbsProg Cfg K C}, p.acts env cmds i as = some q →
    ∃ e, q.hist = p.hist ++ e := by
  intro as
  induction as with
  | nil => intro i p q h; simp only [PbsProg.acts, Option.some.injEq] at h; subst h; exact ⟨[], by simp⟩
  | cons a as ih =>
    intro i p q h
    simp only [PbsProg.acts] at h
    split at h
    · cases h
    · rename_i r hr
      obtain ⟨e1, h1⟩ := act_hist hr
      obtain ⟨e2, h2⟩ := ih _ h
      exact ⟨e1 ++ e2, by rw [h2, h1, List.append_assoc]⟩

theorem outs_prefix (env : PbsEnv Cfg K C) {p q : PbsProg Cfg K C} {e} (h : q.hist = p.hist ++ e) : ∃ r, q.outs env = p.outs env ++ r := by
  rw [PbsProg.outs, h, run_append_pbs]
  exact ⟨_, rfl⟩

theorem tame_prefix {env : PbsEnv Cfg K C} {p q : PbsProg Cfg K C} {e} (h : q.hist = p.hist ++ e) (hq : PbsTame env q) : PbsTame env p := by
  obtain ⟨r, hr⟩ := outs_prefix env h
  have hs : submissions (q.outs env) = submissions (p.outs env) ++ submissions r := by rw [hr]; simp [submissions]
  refine ⟨fun o ho => hq.plain o (by rw [h]; simp [ho]), ?_, ?_⟩
  · have := hq.ids
    rw [hs, List.map_append] at this
    exact (List.nodup_append.1 this).1
  · intro s hs'
    obtain ⟨a, b, c, hc⟩ := hq.jobs s (by rw [hs]; simp [hs'])
    refine ⟨a, b, c, List.IsPrefix.trans ?_ hc⟩
    rw [h, appendsOf_append]; exact List.prefix_append _ _

/-- What a killed program leaves: `k` samples are listed on each level; results of earlier answers are stored, each sample once. -/
structure PbsLeft (env : PbsEnv Cfg K C) (p : PbsProg Cfg K C) (sops : List (StoreOp (PairRes K))) (k : Nat → Nat) : Prop where
  core : PbsCore env p
  hand : HandInv env.sims.length p.sys
  store : p.sys.store = hdfRun (hdfFresh _ env.sims.length) sops
  sched : ∀ l, l < env.sims.length → savedSched sops l = (List.range (k l)).map (sampleTag l)
  ans : ∃ ans : List (PoolAnswer (PairRes K)), (∀ a ∈ ans, a ∈ answers (p.outs env)) ∧ (∀ l, savedSucc sops l = ans.flatMap fun a => atLevel a.succ l) ∧
    ∀ l, savedFailed sops l = ans.flatMap fun a => atLevel a.failed l
  once : ∀ l, l < env.sims.length → ((savedSucc sops l).map (·.1) ++ (savedFailed sops l).map (·.1)).Nodup ∧
    ∀ id, id ∈ (savedSucc sops l).map (·.1) ++ (savedFailed sops l).map (·.1) → id ∈ (List.range (k l)).map (sampleTag l)

theorem core_pool {env : PbsEnv Cfg K C} {p : PbsProg Cfg K C} (h : PbsCore env p) (o)
    (ho : (∃ j a, o = .job j a) ∨ ∃ q qa, o = .get q qa) : PbsCore env (p.pool env o).1 := by
  have hh : (p.pool env o).1.hist = p.hist ++ [o] := rfl
  refine ⟨?_, ?_, ?_, ?_, ?_⟩
  · simp only [PbsProg.pool, run_concat, ← h.world]
  · rw [hh, handed_concat]
    rcases ho with ⟨j, a, rfl⟩ | ⟨q, qa, rfl⟩ <;> simp only [List.append_nil] <;> exact h.handed
  · intro d l hm
    rw [hh] at hm
    rcases List.mem_append.1 hm with hm | hm
    · exact h.noR d l hm
    · rcases ho with ⟨j, a, rfl⟩ | ⟨q, qa, rfl⟩ <;> simp at hm
  · intro d hm
    rw [hh] at hm
    rcases List.mem_append.1 hm with hm | hm
    · exact h.noP d hm
    · rcases ho with ⟨j, a, rfl⟩ | ⟨q, qa, rfl⟩ <;> simp at hm
  · intro l s hs
    rw [hh, firstSim_concat] at hs
    rcases ho with ⟨j, a, rfl⟩ | ⟨q, qa, rfl⟩ <;>
    · simp only [firstSim, List.findSome?_cons, List.findSome?_nil, Option.or_none] at hs
      exact h.sims l s hs

theorem left_pool {env : PbsEnv Cfg K C} {p : PbsProg Cfg K C} {sops k} (h : PbsLeft env p sops k) (o)
    (ho : (∃ j a, o = .job j a) ∨ ∃ q qa, o = .get q qa) : PbsLeft env (p.pool env o).1 sops k := by
  refine ⟨core_pool h.core o ho, h.hand, h.store, h.sched, ?_, h.once⟩
  obtain ⟨ans, h1, h2, h3⟩ := h.ans
  refine ⟨ans, fun a ha => ?_, h2, h3⟩
  obtain ⟨r, hr⟩ := outs_prefix env (p := p) (q := (p.pool env o).1) (e := [o]) rfl
  rw [hr, answers, List.filterMap_append]
  exact List.mem_append_left _ (h1 a ha)

theorem left_jobs {env : PbsEnv Cfg K C} (js : List (Nat × JobAppend (PairRes K))) : ∀ {p : PbsProg Cfg K C} {sops k}, PbsLeft env p sops k →
    PbsLeft env (p.jobs env js) sops k := by
  induction js with
  | nil => intro p sops k h; exact h
  | cons j js ih => intro p sops k h; exact ih (left_pool h _ (.inl ⟨j.1, j.2, rfl⟩))

theorem left_at {env : PbsEnv Cfg K C} {w : Nat → Want} {p : PbsProg Cfg K C} (h : PbsAt env w p) (hn : PbsTame env p) :
    ∃ sops, PbsLeft env p sops fun l => (w l).count := by
  obtain ⟨sops, hi, hs, -, hc⟩ := pbsAt_core env h hn
  refine ⟨sops, hi.core, hs.hand, hi.store, fun l hl => (hc l hl).1, ⟨_, fun a ha => ha, hi.succ, hi.failed⟩, fun l hl => ?_⟩
  have hp := (hc l hl).2
  constructor
  · have := hp.nodup_iff.2 (tags_nodup l _)
    exact (List.nodup_append.1 this).1
  · intro id hid
    exact hp.subset (List.mem_append_left _ hid)

theorem handInv_apply {V : Type} {n : Nat} {s : Sys V} (h : HandInv n s) (a : SchedAct) : HandInv n (a.apply s) := by
  cases a with
  | begin l => exact ⟨h.len, h.form, h.nodup⟩
  | save l => exact ⟨h.len, h.form, h.nodup⟩
  | hand l =>
    simp only [SchedAct.apply]
    split
    · exact h
    · rename_i k hk
      have hl : l < s.nSched.length := (List.getElem?_eq_some_iff.1 hk).1
      refine ⟨by simp [h.len], ?_, ?_⟩
      · intro e he
        simp only [List.mem_append, List.mem_singleton] at he
        simp only [List.getElem?_set]
        rcases he with he | rfl
        · obtain ⟨i, k', h1, h2, h3⟩ := h.form e he
          by_cases e1 : l = e.1
          · subst e1
            rw [hk] at h1
            injection h1 with h1
            subst h1
            exact ⟨i, k + 1, by simp [hl], by omega, h3⟩
          · exact ⟨i, k', by simp [e1, h1], h2, h3⟩
        · exact ⟨k, k + 1, by simp [hl], by omega, rfl⟩
      · rw [List.nodup_append]
        refine ⟨h.nodup, by simp, ?_⟩
        intro x hx y hy e
        simp only [List.mem_singleton] at hy
        subst hy; subst e
        obtain ⟨i, k', h1, h2, h3⟩ := h.form _ hx
        simp only at h1 h3
        rw [hk] at h1
        injection h1 with h1
        have := (sampleTag_injective h3).2
        omega

theorem handInv_acts {V : Type} {n : Nat} (as : List SchedAct) : ∀ {s : Sys V}, HandInv n s → HandInv n (runActs as s) := by
  induction as with
  | nil => intro s h; exact h
  | cons a as ih => intro s h; rw [runActs_cons]; exact ih (handInv_apply h a)

theorem pbsAt_rounds {env : PbsEnv Cfg K C} {w : Nat → Want} : ∀ (rs : List (PbsRound K)) {p q : PbsProg Cfg K C}, PbsAt env w p →
    p.rounds env rs = some q → PbsAt env w q := by
  intro rs
  induction rs with
  | nil => intro p q h hq; simp only [PbsProg.rounds, Option.some.injEq] at hq; subst hq; exact h
  | cons r rs ih =>
    intro p q h hq
    simp only [PbsProg.rounds] at hq
    split at hq
    · cases hq
    · rename_i n m hm
      exact ih (pbsAt_collect h r hm) hq

theorem left_kill {env : PbsEnv Cfg K C} {w : Nat → Want} {p q : PbsProg Cfg K C} (h : PbsAt env w p) (kl : PbsKill K)
    (hq : p.kill env kl = some q) (hn : PbsTame env q) :
    ∃ sops k, PbsLeft env q sops k ∧ (∀ l, l < env.sims.length → k l = (w l).count ∨
      (∃ c d, kl = .inSchedule c d) ∧ k l = ((w l).step l (.schedule (some 0) [])).count) := by
  cases kl with
  | between =>
    simp only [PbsProg.kill, Option.some.injEq] at hq
    subst hq
    obtain ⟨s, hs⟩ := left_at h hn
    exact ⟨s, _, hs, fun l _ => .inl rfl⟩
  | inAsk rs =>
    obtain ⟨s, hs⟩ := left_at (pbsAt_rounds rs h hq) hn
    exact ⟨s, _, hs, fun l _ => .inl rfl⟩
  | unstored rs r =>
    simp only [PbsProg.kill] at hq
    cases hr : p.rounds env rs with
    | none => rw [hr] at hq; cases hq
    | some m =>
      rw [hr] at hq
      simp only [Option.bind_some] at hq
      split at hq
      · cases hq
      · injection hq with hq
        subst hq
        have hm := pbsAt_rounds rs h hr
        obtain ⟨s, hs⟩ := left_at hm (tame_prefix (q := ((m.jobs env r.jobs).pool env (.get r.qsub r.qstat)).1)
          (e := r.jobs.map (fun j => .job j.1 j.2) ++ [.get r.qsub r.qstat])
          (by simp only [PbsProg.pool, jobs_hist, List.append_assoc]) hn)
        exact ⟨s, _, left_pool (left_jobs r.jobs hs) _ (.inr ⟨_, _, rfl⟩), fun l _ => .inl rfl⟩
  | inSchedule cmds j =>
    obtain ⟨s0, hi⟩ := h.inv
    have hl : p.sys.target.length = p.sys.nSched.length := by rw [h.tlen, hi.len]
    have hp : p.sys.plan.length = env.sims.length := by simp [Sys.plan, hl, hi.len]
    simp only [PbsProg.kill, hl, if_true] at hq
    obtain ⟨e, he⟩ := acts_hist _ _ _ hq
    obtain ⟨sops, hL⟩ := left_at h (tame_prefix he hn)
    -- compare with the storage before
    obtain ⟨sops1, hi1⟩ := h.inv
    obtain ⟨s', h3, h2⟩ := inv_pbsActs cmds _ _ hi1 hq
    have key : ∀ l : Nat, ∃ b : Bool, q.sys.store[l]? = (p.sys.store[l]?).map fun (x : LevelGroup (ResPart K × ResPart K)) =>
        { x with scheduled := x.scheduled ++ if b then levelTags l ((p.sys.nSched[l]?).getD 0) (planAt 0 p.sys.plan l) else [] } := by
      intro l
      rw [h2]
      exact runActs_take p.sys.plan 0 p.sys j (by rw [hp, hi.len]; omega) l
    choose b hb using key
    have hcmp : ∀ l, l < env.sims.length → savedSucc s' l = savedSucc sops l ∧ savedFailed s' l = savedFailed sops l ∧
        savedSched s' l = savedSched sops l ++ if b l then levelTags l ((p.sys.nSched[l]?).getD 0) (planAt 0 p.sys.plan l) else [] := by
      intro l hl
      obtain ⟨y, y1, y2, y3, y4, y5⟩ := hdf_fresh_spec env.sims.length l hl sops
      obtain ⟨z, z1, z2, z3, z4, z5⟩ := hdf_fresh_spec env.sims.length l hl s'
      have := hb l
      rw [h3.store, hL.store, y1, z1, Option.map_some] at this
      injection this with this
      subst this
      simp only at z2 z3 z4 z5
      refine ⟨?_, ?_, ?_⟩
      · apply ext_fst_snd
        · rw [← z3, y3]
        · rw [y4] at z4
          by_cases e1 : savedSucc sops l = [] <;> by_cases e2 : savedSucc s' l = [] <;> simp_all
      · rw [y5] at z5; exact (Option.some.inj z5).symm
      · rw [← z2, y2]
    have hk : ∀ l, l < env.sims.length → ((w l).step l (.schedule (some 0) [])).count = (w l).count + planAt 0 p.sys.plan l := by
      intro l hl
      have hpl : planAt 0 p.sys.plan l = (p.sys.plan[l]?).getD 0 := by simp [planAt]
      have hz : p.sys.plan[l]? = some (planCount (w l).target (w l).count) := by
        simp [Sys.plan, List.getElem?_zipWith, (h.want l hl).1, (h.want l hl).2]
      rw [hpl, hz]
      simp only [Want.step, Option.getD_some, add_planCount]
    refine ⟨s', fun l => if b l then ((w l).step l (.schedule (some 0) [])).count else (w l).count,
      ⟨h3.core, ?_, h3.store, ?_, ⟨_, fun a ha => ha, h3.succ, h3.failed⟩, ?_⟩, ?_⟩
    · rw [h2]; exact handInv_acts _ h.sched.hand
    · intro l hl
      rw [(hcmp l hl).2.2, hL.sched l hl, (h.want l hl).2]
      cases hbl : b l
      · simp
      · simp only [if_true, Option.getD_some, hk l hl, List.range_add, List.map_append, levelTags]
        congr 1
        rw [List.map_map, List.range'_eq_map_range, List.map_map]
    · intro l hl
      rw [(hcmp l hl).1, (hcmp l hl).2.1]
      refine ⟨(hL.once l hl).1, fun id hid => ?_⟩
      obtain ⟨i, hi, rfl⟩ := List.mem_map.1 ((hL.once l hl).2 id hid)
      refine List.mem_map.2 ⟨i, ?_, rfl⟩
      rw [List.mem_range] at hi ⊢
      rw [hk l hl]; split <;> omega
    · intro l _
      simp only
      cases b l
      · left; rfl
      · right; exact ⟨⟨_, _, rfl⟩, rfl⟩


/-! ### The pool -/
section Pool
variable {S R : Type}

/-- Every submitted sample is mapped to its job. -/
def OwnJob (w : PbsWorld S R) (subs : List Submitted) : Prop := ∀ s ∈ subs, ∀ t ∈ s.samples, jobOfSample w.disk t.2.1 = .ok s.job

theorem OwnJob.of_eq {w w' : PbsWorld S R} {subs : List Submitted} (h : OwnJob w subs) (e : w'.disk.jobOf = w.disk.jobOf) : OwnJob w' subs := by
  intro s hs t ht
  have := h s hs t ht
  unfold jobOfSample at this ⊢
  rw [e]; exact this

theorem jobOf_save (d d' : PbsDisk S R) (j : Nat) (ts : List Trip) (h : d'.jobOf = saveJobOf d.jobOf j ts) (id : SampleId) :
    (id ∈ ts.map (·.2.1) → jobOfSample d' id = .ok j) ∧
    (id ∉ ts.map (·.2.1) → ∀ i, jobOfSample d id = .ok i → jobOfSample d' id = .ok i) := by
  have hg := foldl_set_get j ts (d.jobOf.getD []) id
  unfold jobOfSample
  rw [h]
  simp only [saveJobOf, hg]
  constructor
  · intro hm; simp [hm]
  · intro hm i hi
    simp only [hm, if_false]
    cases hd : d.jobOf with
    | none => simp [hd] at hi
    | some m => simpa [hd] using hi

theorem execute_own {jc0 : Nat} {w : PbsWorld S R} {subs : List Submitted} {h : List Trip} (i : JobInv jc0 w subs h)
    (hn : (h.map (·.2.1)).Nodup) (ho : OwnJob w subs) (q : QsubAns) (hq : q.plain) :
    OwnJob (w.execute q).1 (subs ++ (w.execute q).2.submitted) := by
  have hdis : ∀ s ∈ subs, ∀ t ∈ s.samples, t.2.1 ∉ w.pool.scheduled.map (·.2.1) := by
    intro s hs t ht hm
    rw [← i.all, List.map_append] at hn
    exact (List.nodup_append.1 hn).2.2 _ (List.mem_map.2 ⟨t, List.mem_flatMap.2 ⟨s, hs, ht⟩, rfl⟩) _ hm rfl
  unfold PbsWorld.execute
  split
  · simpa using ho
  · cases q with
    | okNoFile => exact absurd hq (by simp [QsubAns.plain])
    | fail =>
      simp only [List.append_nil]
      intro s hs t ht
      exact (jobOf_save w.disk _ _ _ rfl _).2 (hdis s hs t ht) _ (ho s hs t ht)
    | ok pid =>
      simp only
      intro s hs t ht
      rcases List.mem_append.1 hs with hs | hs
      · exact (jobOf_save w.disk _ _ _ rfl _).2 (hdis s hs t ht) _ (ho s hs t ht)
      · simp only [List.mem_singleton] at hs
        subst hs
        exact (jobOf_save w.disk _ _ _ rfl _).1 (List.mem_map.2 ⟨t, ht, rfl⟩)

theorem step_own {jc0 : Nat} (seedOf : SampleId → Nat) {w : PbsWorld S R} {subs : List Submitted} {h : List Trip} (i : JobInv jc0 w subs h)
    (o : PbsOp S R) (hn : ((h ++ handed seedOf [o]).map (·.2.1)).Nodup) (ho : OwnJob w subs) (hq : ∀ q ∈ o.qsubAns?, q.plain)
    (hr : ∀ d l, o ≠ .restart d l) : OwnJob (w.step seedOf o).1 (subs ++ (w.step seedOf o).2.submitted) := by
  have hn0 : (h.map (·.2.1)).Nodup := by rw [List.map_append] at hn; exact (List.nodup_append.1 hn).1
  cases o with
  | schedule id l size sim q =>
    have hq' : q.plain := hq q (by simp [PbsOp.qsubAns?])
    have hh : handed seedOf [(PbsOp.schedule id l size sim q : PbsOp S R)] = [(l, id, seedOf id)] := rfl
    rw [hh] at hn
    simp only [PbsWorld.step, PbsWorld.schedule]
    split
    · refine execute_own (jc0 := jc0) (h := h ++ [(l, id, seedOf id)]) ?_ hn ?_ q hq'
      · exact ⟨by simp only [← List.append_assoc, i.all], i.jobs, i.count, i.files⟩
      · exact OwnJob.of_eq ho rfl
    · simp only [List.append_nil]; exact ho.of_eq rfl
  | execute q => exact execute_own i hn0 ho q (hq q (by simp [PbsOp.qsubAns?]))
  | get q a =>
    obtain ⟨c, e, _, _, _⟩ := getFinished_core w q a
    simp only [PbsWorld.step, e]
    exact (execute_own i hn0 ho q (hq q (by simp [PbsOp.qsubAns?]))).of_eq c.jobOf
  | permanent ids => simp only [PbsWorld.step, List.append_nil]; exact ho.of_eq rfl
  | job j a => simp only [PbsWorld.step, List.append_nil]; exact ho.of_eq (apply_rest j w.disk a).2.2.1
  | restart d l => exact absurd rfl (hr d l)

theorem run_own (seedOf : SampleId → Nat) (ops : List (PbsOp S R)) (hq : PlainQsub ops) (hr : NoRestart ops)
    (hn : ((handed seedOf ops).map (·.2.1)).Nodup) :
    let r := (PbsWorld.create false [] ({} : PbsDisk S R)).run seedOf ops
    OwnJob r.1 (submissions r.2) := by
  intro r
  induction ops using List.reverseRecOn with
  | nil => intro s hs; simp [r, PbsWorld.run, submissions] at hs
  | append_singleton ops o ih =>
    have hq' : PlainQsub ops := fun o ho => hq o (by simp [ho])
    have hr' : NoRestart ops := fun d l hm => hr d l (by simp [hm])
    rw [handed_append] at hn
    have hn' : ((handed seedOf ops).map (·.2.1)).Nodup := by rw [List.map_append] at hn; exact (List.nodup_append.1 hn).1
    have ij := run_inv seedOf ops _ [] [] (create_jobInv false [] ({} : PbsDisk S R)) hq' hr'
    rw [List.nil_append, List.nil_append] at ij
    have := step_own seedOf ij o hn (ih hq' hr' hn') (hq o (by simp)) (fun d l e => hr d l (by simp [e]))
    simp only [r, run_concat, submissions_concat]
    exact this

theorem mem_succOf (as : List (JobAppend R)) (l : Nat) (id : SampleId) (v : R) :
    ((l, id, v) ∈ as.filterMap succOf ↔ .succ l id v ∈ as) ∧ (.succ l id v ∈ as ↔ (l, id, Except.ok v) ∈ writtenRecords as) := by
  constructor
  · rw [List.mem_filterMap]
    constructor
    · rintro ⟨x, hx, he⟩
      cases x with
      | succ k i r => simp only [succOf, Option.some.injEq, Prod.mk.injEq] at he; obtain ⟨rfl, rfl, rfl⟩ := he; exact hx
      | failed k i m => simp [succOf] at he
      | times rs => simp [succOf] at he
    · intro h; exact ⟨_, h, rfl⟩
  · rw [writtenRecords, List.mem_filterMap]
    constructor
    · intro h; exact ⟨_, h, rfl⟩
    · rintro ⟨x, hx, he⟩
      cases x with
      | succ k i r => simp only [Option.some.injEq, Prod.mk.injEq, Except.ok.injEq] at he; obtain ⟨rfl, rfl, rfl⟩ := he; exact hx
      | failed k i m => simp at he
      | times rs => simp at he

theorem succOf_sublist (as : List (JobAppend R)) : ((as.filterMap succOf).map (·.2.1)).Sublist ((writtenRecords as).map (·.2.1)) := by
  induction as with
  | nil => exact List.Sublist.refl _
  | cons a as ih =>
    cases a with
    | succ k i r => simp only [writtenRecords, List.filterMap_cons, succOf, List.map_cons]; exact ih.cons₂ _
    | failed k i m => simp only [writtenRecords, List.filterMap_cons, succOf, List.map_cons]; exact ih.cons _
    | times rs => simp only [writtenRecords, List.filterMap_cons, succOf]; exact ih

end Pool

/-- The jobs of a program, read off its history and its directory. -/
structure JobFacts (env : PbsEnv Cfg K C) (p : PbsProg Cfg K C) : Prop where
  sample : ∀ s ∈ submissions (p.outs env), ∀ t ∈ s.samples, t.2.2 = computeSeed env.md5 t.2.1 ∧
    (∃ sim, env.sims[t.1]? = some sim ∧ Dict.get? p.world.disk.sims t.1 = some sim) ∧ ∃ i, t.2.1 = sampleTag t.1 i
  file : ∀ s ∈ submissions (p.outs env), (Dict.get? p.world.disk.scheduled s.job).isSome
  own : ∀ s ∈ submissions (p.outs env), ∀ t ∈ s.samples, jobOfSample p.world.disk t.2.1 = .ok s.job
  ids : ∀ s ∈ submissions (p.outs env), (s.samples.map (·.2.1)).Nodup
  recs : ∀ j, succRecords p.world.disk j = (appendsOf j p.hist).filterMap succOf

theorem jobFacts {env : PbsEnv Cfg K C} {p : PbsProg Cfg K C} (h : PbsCore env p) (hs : HandInv env.sims.length p.sys) (hn : PbsTame env p) :
    JobFacts env p := by
  have hid := handed_nodup h hs
  have ij := run_inv (computeSeed env.md5) p.hist _ [] [] (create_jobInv false [] ({} : PbsDisk (PoolSim Cfg K C) (PairRes K))) hn.plain h.noR
  rw [List.nil_append, List.nil_append, ← h.world] at ij
  have i := run_cinv (computeSeed env.md5) p.hist hn.plain h.noR h.noP hn.ids
  simp only [← h.world] at i
  have ho := run_own (computeSeed env.md5) p.hist hn.plain h.noR hid
  simp only [← h.world] at ho
  have hin : ∀ s ∈ submissions (p.outs env), ∀ t ∈ s.samples, t ∈ MLMC.handed (computeSeed env.md5) p.hist := by
    intro s hs t ht
    rw [← ij.all, List.mem_append]
    exact .inl (List.mem_flatMap.2 ⟨s, hs, ht⟩)
  refine ⟨?_, ?_, ho, ?_, fun j => i.succ j⟩
  · intro s hs' t ht
    have ht' := hin s hs' t ht
    have hsim : ∃ s', firstSim p.hist t.1 = some s' := by
      simp only [MLMC.handed, List.mem_filterMap] at ht'
      obtain ⟨op, hop, he⟩ := ht'
      cases op with
      | schedule id' l' size sim' q' =>
        simp only [Option.some.injEq] at he
        rw [← Option.isSome_iff_exists, firstSim, List.findSome?_isSome_iff]
        exact ⟨_, hop, by rw [← he]; simp⟩
      | _ => simp at he
    rw [h.handed] at ht'
    obtain ⟨e, he, rfl⟩ := List.mem_map.1 ht'
    obtain ⟨i, _, _, _, hi⟩ := hs.form e he
    obtain ⟨s', hs''⟩ := hsim
    refine ⟨rfl, ⟨s', h.sims _ _ hs'', ?_⟩, i, hi⟩
    rw [h.world, C35_level_simulation_is_first _ p.hist (fun l h' => h.noR _ _ h'), hs'']
  · intro s hs'
    rw [ij.files s hs']; rfl
  · intro s hs'
    rw [← ij.all, List.map_append] at hid
    refine (List.nodup_append.1 hid).1.sublist ?_
    refine List.Sublist.map _ ?_
    rw [List.flatMap]
    exact List.sublist_flatten_of_mem (List.mem_map.2 ⟨s, hs', rfl⟩)

/-- A record in a job's file: of a sample of the job, what its simulation computed; no sample twice. -/
theorem JobFacts.record {env : PbsEnv Cfg K C} {p : PbsProg Cfg K C} (h : JobFacts env p) (hn : PbsNormal env p) {s : Submitted}
    (hs : s ∈ submissions (p.outs env)) :
    (∀ l id v, (l, id, v) ∈ succRecords p.world.disk s.job → ∃ seed sim, (l, id, seed) ∈ s.samples ∧ env.sims[l]? = some sim ∧
      outcome env.md5 id sim = .pair v.1 v.2 ∧ WellFormed sim.fmt (outcome env.md5 id sim)) ∧
    ((succRecords p.world.disk s.job).map (·.2.1)).Nodup := by
  obtain ⟨clock, hc⟩ := hn.jobs s hs
  rw [h.recs]
  constructor
  · intro l id v hm
    have hm' := ((mem_succOf _ l id v).2.1 ((mem_succOf _ l id v).1.1 hm))
    obtain ⟨sd, sm, h1, h2, h3⟩ := jobLoop_record _ _ _ _ _ _ _ _ _ _ ((records_prefix hc).subset hm')
    have h1' : (l, id, sd) ∈ s.samples := (sort_perm _).mem_iff.1 h1
    obtain ⟨e1, ⟨sim, e2, e3⟩, -⟩ := h.sample s hs _ h1'
    simp only at e1 e2 e3
    rw [h2] at e3
    injection e3 with e3
    subst e3
    rw [e1] at h3
    exact ⟨sd, sm, h1', e2, (pbsCompute_ok env.md5 sm id _ v).1 h3.symm⟩
  · refine List.Nodup.sublist (succOf_sublist _) ?_
    have h1 : ((writtenRecords (appendsOf s.job p.hist)).map (·.2.1)).Sublist ((sortByLevel s.samples).map (·.2.1)) := by
      have h2 := (records_prefix hc).map fun r : Nat × SampleId × Except Msg (PairRes K) => (r.1, r.2.1)
      have h3 := (h2.trans (jobLoop_records _ _ _ _ _ _ _)).sublist.map (fun x : Nat × SampleId => x.2)
      simp only [List.map_map] at h3
      exact h3
    refine List.Nodup.sublist h1 ?_
    rw [((sort_perm s.samples).map _).nodup_iff]
    exact h.ids s hs

/-- A job that ran to its end has recorded its well formed samples. -/
theorem JobFacts.recorded {env : PbsEnv Cfg K C} {p : PbsProg Cfg K C} (h : JobFacts env p) {l : Nat} {id : SampleId} {sim : PoolSim Cfg K C}
    (hj : InFinishedJob env p l id) (hsim : env.sims[l]? = some sim) (hw : WellFormed sim.fmt (outcome env.md5 id sim)) :
    ∃ v, Recorded env p l id v := by
  obtain ⟨s, hs, ⟨seed, ht⟩, clock, hc⟩ := hj
  cases ho : outcome env.md5 id sim with
  | raised m => rw [ho] at hw; exact hw.elim
  | notPair m => rw [ho] at hw; exact hw.elim
  | pair f c =>
    refine ⟨(f, c), s, hs, ?_⟩
    rw [(mem_succOf _ l id (f, c)).2, hc, jobAppends]
    rw [jobLoop_all _ (fun k => (env.sims[k]?).getD sim) _ _ _ _ _ _ fun t ht' => ?_]
    · refine List.mem_map.2 ⟨(l, id, seed), (sort_perm _).mem_iff.2 ht, ?_⟩
      obtain ⟨e1, -⟩ := h.sample s hs _ ht
      simp only at e1
      simp only [hsim, Option.getD_some, e1]
      rw [(pbsCompute_ok env.md5 sim id _ (f, c)).2 ⟨ho, hw⟩]
    · obtain ⟨-, ⟨sm, e2, e3⟩, -⟩ := h.sample s hs t ((sort_perm _).mem_iff.1 ht')
      rw [e3, e2]; rfl

end MLMC
