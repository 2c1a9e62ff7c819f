import Verif.Spec.PbsRenew
import Verif.Props.ProgramPbs
/-! Helper lemmas about whole programs with PBS and `renew_failed_samples`. -/
namespace MLMC
variable {Cfg K C : Type}

/-- What holds of the pool and the history of its calls. -/
structure HistInv (env : PbsEnv Cfg K C) (p : PbsProg Cfg K C) : Prop where
  world : p.world = ((PbsWorld.create false [] {}).run (computeSeed env.md5) p.hist).1
  noR : NoRestart p.hist
  noP : NoPermanent p.hist
  sims : ∀ l s, firstSim p.hist l = some s → env.sims[l]? = some s
  lev : ∀ t ∈ MLMC.handed (computeSeed env.md5) p.hist, t.1 < env.sims.length
  pk : ∀ s ∈ submissions (p.outs env), ∀ l, (idsAt s.samples l).Nodup

theorem HistInv.outs {env : PbsEnv Cfg K C} {p : PbsProg Cfg K C} (h : HistInv env p) (o) :
    (p.pool env o).1.outs env = p.outs env ++ [(p.pool env o).2] ∧
    (p.pool env o).1.world = ((PbsWorld.create false [] {}).run (computeSeed env.md5) (p.pool env o).1.hist).1 := by
  simp only [PbsProg.outs, PbsProg.pool, run_concat, ← h.world, and_self]

theorem outs_length (env : PbsEnv Cfg K C) (p : PbsProg Cfg K C) : (p.outs env).length = p.hist.length := run_length ..

theorem HistInv.pool {env : PbsEnv Cfg K C} {p : PbsProg Cfg K C} (h : HistInv env p) (o) (hr : ∀ d l, o ≠ .restart d l)
    (hp : ∀ ids, o ≠ .permanent ids) (hs : ∀ id l size sim q, o = .schedule id l size sim q → env.sims[l]? = some sim)
    (hnd : (p.pool env o).2.submitted = [] ∨ (PlainQsub (p.hist ++ [o]) ∧
      ∀ l, (idsAt (p.world.pool.scheduled ++ MLMC.handed (computeSeed env.md5) [o]) l).Nodup)) : HistInv env (p.pool env o).1 := by
  obtain ⟨o1, o2⟩ := h.outs o
  have hhist : (p.pool env o).1.hist = p.hist ++ [o] := rfl
  refine ⟨o2, ?_, ?_, ?_, ?_, ?_⟩
  · intro d l hm
    rw [hhist] at hm
    rcases List.mem_append.1 hm with hm | hm
    · exact h.noR d l hm
    · exact hr d l (List.mem_singleton.1 hm).symm
  · intro ids hm
    rw [hhist] at hm
    rcases List.mem_append.1 hm with hm | hm
    · exact h.noP ids hm
    · exact hp ids (List.mem_singleton.1 hm).symm
  · intro l s hs'
    rw [hhist, firstSim_concat] at hs'
    cases hf : firstSim p.hist l with
    | some s' =>
      rw [hf] at hs'; simp only [Option.some_or, Option.some.injEq] at hs'
      subst hs'; exact h.sims l _ hf
    | none =>
      rw [hf] at hs'
      simp only [Option.none_or, firstSim, List.findSome?_cons, List.findSome?_nil] at hs'
      cases o with
      | schedule id l' size sim q =>
        simp only at hs'
        by_cases e : l' = l
        · subst e
          simp only [if_true, Option.some.injEq] at hs'
          rw [hs _ _ _ _ _ rfl, hs']
        · simp [e] at hs'
      | _ => simp at hs'
  · intro t ht
    rw [hhist, handed_append] at ht
    rcases List.mem_append.1 ht with ht | ht
    · exact h.lev t ht
    · cases o with
      | schedule id l' size sim q =>
        simp only [MLMC.handed, List.filterMap_cons, List.filterMap_nil, List.mem_singleton] at ht
        rw [ht]
        exact (List.getElem?_eq_some_iff.1 (hs _ _ _ _ _ rfl)).1
      | _ => simp [MLMC.handed] at ht
  · rw [o1, submissions_concat]
    intro s hs'
    rcases List.mem_append.1 hs' with hs' | hs'
    · exact h.pk s hs'
    · rcases hnd with e | ⟨hpl, hnd⟩
      · rw [e] at hs'; simp at hs'
      · intro l
        have hq' : PlainQsub p.hist := fun o ho => hpl o (by simp [ho])
        have ij := run_inv (computeSeed env.md5) p.hist _ [] [] (create_jobInv false [] ({} : PbsDisk (PoolSim Cfg K C) (PairRes K))) hq' h.noR
        rw [List.nil_append, List.nil_append, ← h.world] at ij
        have ij1 := step_inv (computeSeed env.md5) ij o (hpl o (by simp)) hr
        have e1 := ij1.all
        rw [← ij.all, List.flatMap_append, List.append_assoc, List.append_assoc] at e1
        have e2 := List.append_cancel_left e1
        refine (hnd l).sublist ?_
        have hsub : s.samples.Sublist (p.world.pool.scheduled ++ MLMC.handed (computeSeed env.md5) [o]) := by
          rw [← e2]
          refine List.Sublist.trans ?_ (List.sublist_append_left _ _)
          rw [List.flatMap]
          exact List.sublist_flatten_of_mem (List.mem_map.2 ⟨s, hs', rfl⟩)
        exact hsub.filterMap _

/-- What holds between any two elementary actions: `sops` are the calls of the storage, `since` the length of the history at the last renewal,
`done` the samples handed over again by the call of `renew_failed_samples` that is being executed. -/
structure RenewInv (env : PbsEnv Cfg K C) (p : PbsProg Cfg K C) (sops : List (StoreOp (PairRes K))) (since : Nat) (done : List (Nat × SampleId)) : Prop where
  hist : HistInv env p
  len : p.sys.nSched.length = env.sims.length
  store : p.sys.store = hdfRun (hdfFresh _ env.sims.length) sops
  succ : ∀ l, savedSucc sops l = (answers (p.outs env)).flatMap fun a => atLevel a.succ l
  failed : ∀ l, savedFailed sops l = (answers ((p.outs env).drop since)).flatMap fun a => atLevel a.failed l
  le : since ≤ p.hist.length
  cov : ∀ l, (idsAt (MLMC.handed (computeSeed env.md5) p.hist) l).Perm
    ((List.range ((p.sys.nSched[l]?).getD 0)).map (sampleTag l) ++ (p.sys.renewed.filter fun e => e.1 = l).map (·.2))
  past : ∀ l, (((answers ((p.outs env).take since)).flatMap fun a => (atLevel a.failed l).map (·.1)) ++ (done.filter fun e => e.1 = l).map (·.2)).Perm
    ((p.sys.renewed.filter fun e => e.1 = l).map (·.2))

theorem deliveredAt_perm {R : Type} (as : List (PoolAnswer R)) (l : Nat) :
    (deliveredAt as l).Perm (((as.flatMap fun a => atLevel a.succ l).map (·.1)) ++ as.flatMap fun a => (atLevel a.failed l).map (·.1)) := by
  induction as with
  | nil => exact List.Perm.refl _
  | cons a as ih =>
    simp only [deliveredAt, List.flatMap_cons, List.map_append] at ih ⊢
    rw [← Multiset.coe_eq_coe] at ih ⊢
    simp only [← Multiset.coe_add] at ih ⊢
    rw [ih]
    abel

/-- Stored, failed and waiting samples are the requested ones and those handed over again by the running call. -/
theorem RenewInv.cons {env : PbsEnv Cfg K C} {p : PbsProg Cfg K C} {sops since done} (h : RenewInv env p sops since done) (ht : PbsTame env p) (l : Nat) :
    ((savedSucc sops l).map (·.1) ++ (savedFailed sops l).map (·.1) ++ p.waiting env l).Perm
      ((List.range ((p.sys.nSched[l]?).getD 0)).map (sampleTag l) ++ (done.filter fun e => e.1 = l).map (·.2)) := by
  have hC := C31_conservation_again_partial (computeSeed env.md5) p.hist ht.plain h.hist.noR h.hist.noP h.hist.pk ht.ids ht.jobs l
  rw [← h.hist.world] at hC
  have hd := deliveredAt_perm (answers (p.outs env)) l
  have hsplit : ((answers (p.outs env)).flatMap fun a => (atLevel a.failed l).map (·.1)) =
      ((answers ((p.outs env).take since)).flatMap fun a => (atLevel a.failed l).map (·.1)) ++ (savedFailed sops l).map (·.1) := by
    rw [h.failed, List.map_flatMap, ← List.flatMap_append]
    congr 1
    simp only [answers]
    rw [← List.filterMap_append, List.take_append_drop]
  rw [hsplit, ← h.succ] at hd
  have hcov := h.cov l
  have hpast := h.past l
  have hC' : (deliveredAt (answers (p.outs env)) l ++ p.waiting env l).Perm (idsAt (MLMC.handed (computeSeed env.md5) p.hist) l) := by
    rw [PbsProg.waiting, ← List.append_assoc]; exact hC
  rw [← Multiset.coe_eq_coe] at hC' hd hcov hpast ⊢
  simp only [← Multiset.coe_add] at hC' hd hcov hpast ⊢
  rw [hd, hcov, ← hpast] at hC'
  refine add_left_cancel (a := (((answers ((p.outs env).take since)).flatMap fun a => (atLevel a.failed l).map (·.1) : List SampleId) : Multiset SampleId)) ?_
  calc _ = _ := by abel
    _ = _ := hC'
    _ = _ := by abel

theorem PbsTame.mono {env : PbsEnv Cfg K C} {p q : PbsProg Cfg K C} (h : p.hist <+: q.hist) (ht : PbsTame env q) : PbsTame env p := by
  obtain ⟨rest, hr⟩ := h
  have ho : q.outs env = p.outs env ++ (((PbsWorld.create false [] {}).run (computeSeed env.md5) p.hist).1.run (computeSeed env.md5) rest).2 := by
    rw [PbsProg.outs, ← hr, run_append_pbs]; rfl
  have hs : submissions (p.outs env) <+: submissions (q.outs env) := by
    rw [ho]; simp only [submissions, List.flatMap_append]; exact List.prefix_append _ _
  refine ⟨fun o hm => ht.plain o (by rw [← hr]; simp [hm]), ht.ids.sublist (hs.sublist.map _), ?_⟩
  intro s hm
  obtain ⟨sim, compute, clock, hp⟩ := ht.jobs s (hs.subset hm)
  rw [← hr, appendsOf_append] at hp
  exact ⟨sim, compute, clock, (List.prefix_append _ _).trans hp⟩

/-! History grows. -/

theorem jobs_histPrefix (env : PbsEnv Cfg K C) (js : List (Nat × JobAppend (PairRes K))) : ∀ p : PbsProg Cfg K C, p.hist <+: (p.jobs env js).hist := by
  induction js with
  | nil => intro p; exact List.prefix_refl _
  | cons j js ih => intro p; exact (List.prefix_append p.hist [.job j.1 j.2]).trans (ih (p.pool env (.job j.1 j.2)).1)

theorem collect_histPrefix {env : PbsEnv Cfg K C} {r : PbsRound K} {p q : PbsProg Cfg K C} {n : ℤ} (h : p.collect env r = some (n, q)) : p.hist <+: q.hist := by
  simp only [PbsProg.collect] at h
  split at h
  · cases h
  · simp only [Option.some.injEq, Prod.mk.injEq] at h
    obtain ⟨-, rfl⟩ := h
    exact (jobs_histPrefix env r.jobs p).trans (List.prefix_append _ _)

theorem wait_histPrefix {env : PbsEnv Cfg K C} {timeout : ℚ} : ∀ {rs : List (PbsRound K)} {p q : PbsProg Cfg K C}, p.wait env timeout rs = some q → p.hist <+: q.hist := by
  intro rs
  induction rs with
  | nil => intro p q h; cases h
  | cons r rs ih =>
    intro p q h
    simp only [PbsProg.wait] at h
    split at h
    · cases h
    · rename_i n r' hr
      have h1 := collect_histPrefix hr
      split at h
      · injection h with h; subst h; exact h1
      · split at h
        · exact h1.trans (ih h)
        · injection h with h; subst h; exact h1

theorem ask_histPrefix {env : PbsEnv Cfg K C} {timeout : Option ℚ} {rs : List (PbsRound K)} {p q : PbsProg Cfg K C} (h : p.ask env timeout rs = some q) : p.hist <+: q.hist := by
  cases timeout with
  | none => exact wait_histPrefix h
  | some t =>
    simp only [PbsProg.ask] at h
    split at h
    · injection h with h; subst h; exact List.prefix_refl _
    · exact wait_histPrefix h

theorem act_histPrefix {env : PbsEnv Cfg K C} {js qs} {a : SchedAct} {p q : PbsProg Cfg K C} (h : p.act env js qs a = some q) : p.hist <+: q.hist := by
  cases a with
  | begin l => simp only [PbsProg.act, Option.some.injEq] at h; subst h; exact List.prefix_refl _
  | save l => simp only [PbsProg.act, Option.some.injEq] at h; subst h; exact List.prefix_refl _
  | hand l =>
    simp only [PbsProg.act] at h
    split at h
    · split at h
      · cases h
      · injection h with h; subst h; exact (jobs_histPrefix env js p).trans (List.prefix_append _ _)
    · cases h

theorem acts_histPrefix {env : PbsEnv Cfg K C} {cmds} : ∀ {as : List SchedAct} {i : Nat} {p q : PbsProg Cfg K C}, p.acts env cmds i as = some q → p.hist <+: q.hist := by
  intro as
  induction as with
  | nil => intro i p q h; simp only [PbsProg.acts, Option.some.injEq] at h; subst h; exact List.prefix_refl _
  | cons a as ih =>
    intro i p q h
    simp only [PbsProg.acts] at h
    split at h
    · cases h
    · rename_i r hr
      exact (act_histPrefix hr).trans (ih h)

theorem renewLoop_histPrefix {env : PbsEnv Cfg K C} {cmds} : ∀ {L : List (Nat × SampleId)} {i : Nat} {p q : PbsProg Cfg K C}, p.renewLoop env cmds i L = some q → p.hist <+: q.hist := by
  intro L
  induction L with
  | nil => intro i p q h; simp only [PbsProg.renewLoop, Option.some.injEq] at h; subst h; exact List.prefix_refl _
  | cons e L ih =>
    intro i p q h
    simp only [PbsProg.renewLoop] at h
    split at h
    · cases h
    · split at h
      · cases h
      · exact ((jobs_histPrefix env (cmds i).1 p).trans (List.prefix_append _ _)).trans (ih h)

theorem renew_histPrefix {env : PbsEnv Cfg K C} {cmds} {p q : PbsProg Cfg K C} (h : p.renew env cmds = some q) : p.hist <+: q.hist := by
  simp only [PbsProg.renew] at h
  split at h
  · cases h
  · obtain ⟨r, hr, rfl⟩ := Option.map_eq_some_iff.1 h
    have := renewLoop_histPrefix hr
    exact this

theorem stepR_histPrefix {env : PbsEnv Cfg K C} {o : PbsRenewOp K} {p q : PbsProg Cfg K C} (h : p.stepR env o = some q) : p.hist <+: q.hist := by
  cases o with
  | renew cmds => exact renew_histPrefix h
  | call o =>
    simp only [PbsProg.stepR] at h
    cases o with
    | setInitial v => simp only [PbsProg.step, Option.some.injEq] at h; subst h; exact List.prefix_refl _
    | setTarget v =>
      simp only [PbsProg.step] at h
      split at h
      · injection h with h; subst h; exact List.prefix_refl _
      · cases h
    | ask timeout rounds => exact ask_histPrefix h
    | schedule timeout rounds cmds =>
      obtain ⟨r, hr, h2⟩ := Option.bind_eq_some_iff.1 h
      refine (ask_histPrefix hr).trans ?_
      simp only [PbsProg.scheduleSamples] at h2
      split at h2
      · exact acts_histPrefix h2
      · cases h2
    | pause js => simp only [PbsProg.step, Option.some.injEq] at h; subst h; exact jobs_histPrefix env js p

theorem runR_histPrefix {env : PbsEnv Cfg K C} : ∀ {ops : List (PbsRenewOp K)} {p q : PbsProg Cfg K C}, p.runR env ops = some q → p.hist <+: q.hist := by
  intro ops
  induction ops with
  | nil => intro p q h; simp only [PbsProg.runR, Option.some.injEq] at h; subst h; exact List.prefix_refl _
  | cons o ops ih =>
    intro p q h
    obtain ⟨r, hr, h2⟩ := Option.bind_eq_some_iff.1 h
    exact (stepR_histPrefix hr).trans (ih h2)

/-! Elementary actions. -/

theorem RenewInv.outs {env : PbsEnv Cfg K C} {p : PbsProg Cfg K C} {sops since done} (h : RenewInv env p sops since done) (o) :
    answers ((p.pool env o).1.outs env) = answers (p.outs env) ++ (p.pool env o).2.answer.toList ∧
    answers (((p.pool env o).1.outs env).drop since) = answers ((p.outs env).drop since) ++ (p.pool env o).2.answer.toList ∧
    ((p.pool env o).1.outs env).take since = (p.outs env).take since ∧ since ≤ (p.pool env o).1.hist.length := by
  have hl : since ≤ (p.outs env).length := by rw [outs_length]; exact h.le
  rw [(h.hist.outs o).1]
  refine ⟨answers_concat _ _, ?_, ?_, ?_⟩
  · rw [List.drop_append_of_le_length hl, answers_concat]
  · rw [List.take_append_of_le_length hl]
  · have : (p.pool env o).1.hist = p.hist ++ [o] := rfl
    rw [this, List.length_append]; exact h.le.trans (Nat.le_add_right _ _)

theorem RenewInv.job {env : PbsEnv Cfg K C} {p : PbsProg Cfg K C} {sops since done} (h : RenewInv env p sops since done) (j : Nat) (a : JobAppend (PairRes K)) :
    RenewInv env (p.pool env (.job j a)).1 sops since done := by
  obtain ⟨o1, o2, o3, o4⟩ := h.outs (.job j a)
  have hn : (p.pool env (.job j a)).2.answer.toList = [] := rfl
  rw [hn, List.append_nil] at o1 o2
  refine ⟨h.hist.pool _ (by simp) (by simp) (by simp) (.inl rfl), h.len, h.store, ?_, ?_, o4, ?_, ?_⟩
  · rw [o1]; exact h.succ
  · rw [o2]; exact h.failed
  · intro l
    have : MLMC.handed (computeSeed env.md5) (p.pool env (.job j a)).1.hist = MLMC.handed (computeSeed env.md5) p.hist := by
      show MLMC.handed _ (p.hist ++ [_]) = _
      rw [handed_concat, List.append_nil]
    rw [this]; exact h.cov l
  · rw [o3]; exact h.past

theorem RenewInv.jobs {env : PbsEnv Cfg K C} (js : List (Nat × JobAppend (PairRes K))) : ∀ {p : PbsProg Cfg K C} {sops since done}, RenewInv env p sops since done →
    RenewInv env (p.jobs env js) sops since done ∧ (p.jobs env js).sys = p.sys := by
  induction js with
  | nil => intro p sops since done h; exact ⟨h, rfl⟩
  | cons j js ih =>
    intro p sops since done h
    obtain ⟨h3, h4⟩ := ih (h.job j.1 j.2)
    exact ⟨h3, h4⟩

theorem scheduled_sublist (env : PbsEnv Cfg K C) (p : PbsProg Cfg K C) (l : Nat) : (idsAt p.world.pool.scheduled l).Sublist (p.waiting env l) :=
  List.sublist_append_right _ _

/-- `get_finished` and storing its answer. -/
theorem RenewInv.collect {env : PbsEnv Cfg K C} {p q : PbsProg Cfg K C} {sops since} (h : RenewInv env p sops since []) (r : PbsRound K) {n : ℤ}
    (hq : p.collect env r = some (n, q)) (ht : PbsTame env q) :
    ∃ sops', RenewInv env q sops' since [] ∧ ∃ a b c, q.sys = p.sys.step (.poll a b c) := by
  obtain ⟨h1, h2⟩ := RenewInv.jobs r.jobs h
  simp only [PbsProg.collect] at hq
  split at hq
  · cases hq
  · rename_i a ha
    simp only [Option.some.injEq, Prod.mk.injEq] at hq
    obtain ⟨-, rfl⟩ := hq
    obtain ⟨o1, o2, o3, o4⟩ := h1.outs (.get r.qsub r.qstat)
    rw [ha] at o1 o2
    have hsys : ((p.jobs env r.jobs).pool env (.get r.qsub r.qstat)).1.sys = p.sys := h2
    have ht1 : PbsTame env (p.jobs env r.jobs) := PbsTame.mono (List.prefix_append _ _) ht
    have hcons := h1.cons ht1
    have hh : HistInv env ((p.jobs env r.jobs).pool env (.get r.qsub r.qstat)).1 := by
      refine h1.hist.pool _ (by simp) (by simp) (by simp) (.inr ⟨ht.plain, fun l => ?_⟩)
      have : MLMC.handed (computeSeed env.md5) [(PbsOp.get r.qsub r.qstat : PbsOp (PoolSim Cfg K C) (PairRes K))] = [] := rfl
      rw [this, List.append_nil]
      refine List.Nodup.sublist ((scheduled_sublist env _ l).trans (List.sublist_append_right _ _)) ((hcons l).nodup_iff.2 ?_)
      simp only [List.filter_nil, List.map_nil, List.append_nil]
      exact (List.nodup_map_iff_inj_on List.nodup_range).2 fun x _ y _ e => (sampleTag_injective e).2
    have e : ∀ (o1 o2 : StoreOp (PairRes K)), sops ++ [o1, o2] = (sops ++ [o1]) ++ [o2] := by intros; simp
    refine ⟨sops ++ [.samples a.succ a.failed, .nOps a.nOps], ⟨⟨hh.world, hh.noR, hh.noP, hh.sims, hh.lev, hh.pk⟩, ?_, ?_, ?_, ?_, o4, ?_, ?_⟩, a.succ, a.failed, a.nOps, ?_⟩
    · simp only [hsys]; exact h.len
    · rw [e, hdfRun_snoc, hdfRun_snoc, ← h.store]
      simp only [hsys]; rfl
    · intro l
      rw [e, progSucc_snoc, progSucc_snoc, List.append_nil]
      refine Eq.trans ?_ (congrArg (fun L => L.flatMap fun a => atLevel a.succ l) o1).symm
      simp only [List.flatMap_append, Option.toList_some, List.flatMap_cons, List.flatMap_nil, List.append_nil]
      rw [← h1.succ l]
    · intro l
      rw [e, progFailed_snoc, progFailed_snoc]
      refine Eq.trans ?_ (congrArg (fun L => L.flatMap fun a => atLevel a.failed l) o2).symm
      simp only [List.flatMap_append, Option.toList_some, List.flatMap_cons, List.flatMap_nil, List.append_nil]
      rw [← h1.failed l]
    · intro l
      have : MLMC.handed (computeSeed env.md5) ((p.jobs env r.jobs).pool env (.get r.qsub r.qstat)).1.hist = MLMC.handed (computeSeed env.md5) (p.jobs env r.jobs).hist := by
        show MLMC.handed _ ((p.jobs env r.jobs).hist ++ [_]) = _
        rw [handed_concat, List.append_nil]
      simp only [this, hsys]
      have := h1.cov l
      rw [h2] at this
      exact this
    · intro l
      have := h1.past l
      rw [h2, ← o3] at this
      simp only [hsys]
      exact this
    · simp only [hsys]; rfl

theorem idsAt_one (l l' : Nat) (id : SampleId) (seed : Nat) : idsAt [(l, id, seed)] l' = if l = l' then [id] else [] := by
  by_cases e : l = l' <;> simp [idsAt, e]

/-- Handing a sample over: `done` gets the sample if it is handed over again. -/
theorem RenewInv.schedule {env : PbsEnv Cfg K C} {p : PbsProg Cfg K C} {sops since done} (h : RenewInv env p sops since done) (js) (id : SampleId) (l : Nat)
    (sim : PoolSim Cfg K C) (qs : QsubAns) (hs : env.sims[l]? = some sim) (sys' : Sys (PairRes K)) (done' : List (Nat × SampleId))
    (ht : PbsTame env ((p.jobs env js).pool env (.schedule id l (env.size l) sim qs)).1)
    (hnd : ∀ l', ((p.jobs env js).waiting env l' ++ if l = l' then [id] else []).Nodup)
    (hlen : sys'.nSched.length = env.sims.length) (hstore : sys'.store = p.sys.store)
    (hcov : ∀ l', ((List.range ((p.sys.nSched[l']?).getD 0)).map (sampleTag l') ++ (p.sys.renewed.filter fun e => e.1 = l').map (·.2) ++ if l = l' then [id] else []).Perm
      ((List.range ((sys'.nSched[l']?).getD 0)).map (sampleTag l') ++ (sys'.renewed.filter fun e => e.1 = l').map (·.2)))
    (hpast : ∀ l', ∃ x, (done'.filter fun e => e.1 = l').map (·.2) = (done.filter fun e => e.1 = l').map (·.2) ++ x ∧
      (sys'.renewed.filter fun e => e.1 = l').map (·.2) = (p.sys.renewed.filter fun e => e.1 = l').map (·.2) ++ x) :
    RenewInv env { ((p.jobs env js).pool env (.schedule id l (env.size l) sim qs)).1 with sys := sys' } sops since done' := by
  obtain ⟨h1, h2⟩ := RenewInv.jobs js h
  obtain ⟨o1, o2, o3, o4⟩ := h1.outs (.schedule id l (env.size l) sim qs)
  have hn : ((p.jobs env js).pool env (.schedule id l (env.size l) sim qs)).2.answer = none := schedule_answer ..
  rw [hn, Option.toList_none, List.append_nil] at o1 o2
  have hh : HistInv env ((p.jobs env js).pool env (.schedule id l (env.size l) sim qs)).1 := by
    refine h1.hist.pool _ (by simp) (by simp) ?_ (.inr ⟨ht.plain, fun l' => ?_⟩)
    · intro id' l' size' sim' q' e
      injection e with _ e1 _ e2 _
      rw [← e1, ← e2]; exact hs
    · have : MLMC.handed (computeSeed env.md5) [(PbsOp.schedule id l (env.size l) sim qs : PbsOp (PoolSim Cfg K C) (PairRes K))] = [(l, id, computeSeed env.md5 id)] := rfl
      rw [this, idsAt_append, idsAt_one]
      exact List.Nodup.sublist (List.Sublist.append_right (scheduled_sublist env _ l') _) (hnd l')
  refine ⟨⟨hh.world, hh.noR, hh.noP, hh.sims, hh.lev, hh.pk⟩, hlen, hstore.trans h.store, ?_, ?_, o4, ?_, ?_⟩
  · intro l'
    exact (h1.succ l').trans (congrArg (fun L => L.flatMap fun a => atLevel a.succ l') o1).symm
  · intro l'
    exact (h1.failed l').trans (congrArg (fun L => L.flatMap fun a => atLevel a.failed l') o2).symm
  · intro l'
    have : MLMC.handed (computeSeed env.md5) ((p.jobs env js).pool env (.schedule id l (env.size l) sim qs)).1.hist =
        MLMC.handed (computeSeed env.md5) (p.jobs env js).hist ++ [(l, id, computeSeed env.md5 id)] := by
      show MLMC.handed _ ((p.jobs env js).hist ++ [_]) = _
      rw [handed_concat]
    simp only [this, idsAt_append, idsAt_one]
    have hc := h1.cov l'
    rw [h2] at hc
    exact (hc.append_right _).trans (hcov l')
  · intro l'
    obtain ⟨x, x1, x2⟩ := hpast l'
    have hp := h1.past l'
    rw [h2, ← o3] at hp
    simp only [x1, x2]
    rw [← List.append_assoc]
    exact hp.append_right _

theorem jobs_waiting_nodup {env : PbsEnv Cfg K C} {p : PbsProg Cfg K C} {sops since} (h : RenewInv env p sops since []) (ht : PbsTame env p) {l k : Nat}
    (hk : p.sys.nSched[l]? = some k) : ∀ l', (p.waiting env l' ++ if l = l' then [sampleTag l k] else []).Nodup := by
  intro l'
  have hc := h.cons ht l'
  simp only [List.filter_nil, List.map_nil, List.append_nil] at hc
  have hnd : ((List.range ((p.sys.nSched[l']?).getD 0)).map (sampleTag l')).Nodup :=
    (List.nodup_map_iff_inj_on List.nodup_range).2 fun x _ y _ e => (sampleTag_injective e).2
  have hw : (p.waiting env l').Nodup := (hc.nodup_iff.2 hnd).sublist (List.sublist_append_right _ _)
  by_cases e : l = l'
  · subst e
    rw [if_pos rfl, List.nodup_append]
    refine ⟨hw, List.nodup_singleton _, ?_⟩
    intro a ha b hb hab
    rw [List.mem_singleton.1 hb] at hab
    have := hc.subset (List.mem_append_right _ ha)
    obtain ⟨i, hi, e⟩ := List.mem_map.1 this
    rw [hab] at e
    have := (sampleTag_injective e).2
    rw [hk] at hi
    simp [this] at hi
  · rw [if_neg e, List.append_nil]; exact hw

theorem RenewInv.act {env : PbsEnv Cfg K C} {p q : PbsProg Cfg K C} {sops since} (h : RenewInv env p sops since []) (js) (qs : QsubAns) (a : SchedAct)
    (hq : p.act env js qs a = some q) (ht : PbsTame env q) : ∃ sops', RenewInv env q sops' since [] ∧ q.sys = a.apply p.sys := by
  cases a with
  | begin l =>
    simp only [PbsProg.act, Option.some.injEq] at hq
    subst hq
    have hh := h.hist
    exact ⟨sops, ⟨⟨hh.world, hh.noR, hh.noP, hh.sims, hh.lev, hh.pk⟩, h.len, h.store, h.succ, h.failed, h.le, h.cov, h.past⟩, rfl⟩
  | save l =>
    simp only [PbsProg.act, Option.some.injEq] at hq
    subst hq
    have hh := h.hist
    refine ⟨sops ++ [.scheduled l p.sys.pending], ⟨⟨hh.world, hh.noR, hh.noP, hh.sims, hh.lev, hh.pk⟩, h.len, ?_, ?_, ?_, h.le, h.cov, h.past⟩, rfl⟩
    · rw [hdfRun_snoc, ← h.store]; rfl
    · intro l'; rw [progSucc_snoc, List.append_nil]; exact h.succ l'
    · intro l'; rw [progFailed_snoc]; exact h.failed l'
  | hand l =>
    obtain ⟨h1, h2⟩ := RenewInv.jobs js h
    simp only [PbsProg.act] at hq
    split at hq
    · rename_i k sim hk hs
      split at hq
      · cases hq
      · injection hq with hq
        subst hq
        have hsys : (((p.jobs env js).pool env (.schedule (sampleTag l k) l (env.size l) sim qs)).1).sys = p.sys := h2
        have ht1 : PbsTame env (p.jobs env js) := PbsTame.mono (List.prefix_append _ _) ht
        have hl : l < p.sys.nSched.length := (List.getElem?_eq_some_iff.1 hk).1
        refine ⟨sops, h.schedule js (sampleTag l k) l sim qs hs _ [] ⟨ht.plain, ht.ids, ht.jobs⟩ (jobs_waiting_nodup h1 ht1 (by rw [h2]; exact hk)) ?_ ?_ ?_ ?_, by simp only [hsys]⟩
        · simp only [hsys, SchedAct.apply, hk, List.length_set]; exact h.len
        · simp only [hsys, SchedAct.apply, hk]
        · intro l'
          simp only [hsys, SchedAct.apply, hk, List.getElem?_set]
          by_cases e : l = l'
          · subst e
            simp only [if_true, hl, hk, Option.getD_some]
            rw [List.range_succ, List.map_append]
            simp only [List.map_cons, List.map_nil, List.append_assoc]
            exact List.Perm.append_left _ List.perm_append_comm
          · simp only [e, if_false, List.append_nil]
            exact List.Perm.refl _
        · intro l'
          exact ⟨[], by simp, by simp only [hsys, SchedAct.apply, hk, List.append_nil]⟩
    · cases hq

theorem RenewInv.acts {env : PbsEnv Cfg K C} (cmds : Nat → List (Nat × JobAppend (PairRes K)) × QsubAns) : ∀ (as : List SchedAct) (i : Nat)
    {p q : PbsProg Cfg K C} {sops since}, RenewInv env p sops since [] → p.acts env cmds i as = some q → PbsTame env q →
    ∃ sops', RenewInv env q sops' since [] ∧ q.sys = runActs as p.sys := by
  intro as
  induction as with
  | nil => intro i p q sops since h hq _; simp only [PbsProg.acts, Option.some.injEq] at hq; subst hq; exact ⟨sops, h, rfl⟩
  | cons a as ih =>
    intro i p q sops since h hq ht
    simp only [PbsProg.acts] at hq
    split at hq
    · cases hq
    · rename_i r hr
      obtain ⟨s1, h1, h2⟩ := h.act _ _ a hr (ht.mono (acts_histPrefix hq))
      obtain ⟨s2, h3, h4⟩ := ih _ h1 hq ht
      exact ⟨s2, h3, by rw [h4, h2]; rfl⟩

/-- The loop of `renew_failed_samples`. -/
theorem RenewInv.renewLoop {env : PbsEnv Cfg K C} (cmds : Nat → List (Nat × JobAppend (PairRes K)) × QsubAns) : ∀ (L : List (Nat × SampleId)) (i : Nat)
    {p q : PbsProg Cfg K C} {sops since done}, RenewInv env p sops since done →
    (∀ l, ((done ++ L).filter fun e => e.1 = l).map (·.2) = (savedFailed sops l).map (·.1)) →
    p.renewLoop env cmds i L = some q → PbsTame env q →
    RenewInv env q sops since (done ++ L) ∧ q.sys = { p.sys with renewed := p.sys.renewed ++ L } := by
  intro L
  induction L with
  | nil => intro i p q sops since done h _ hq _; simp only [PbsProg.renewLoop, Option.some.injEq] at hq; subst hq; exact ⟨by simpa using h, by simp⟩
  | cons e L ih =>
    intro i p q sops since done h hL hq ht
    obtain ⟨l, id⟩ := e
    simp only [PbsProg.renewLoop] at hq
    split at hq
    · cases hq
    · rename_i sim hs
      split at hq
      · cases hq
      · obtain ⟨h1, h2⟩ := RenewInv.jobs (cmds i).1 h
        set x := ((p.jobs env (cmds i).1).pool env (.schedule id l (env.size l) sim (cmds i).2)) with hx
        have hsys : x.1.sys = p.sys := h2
        have htx : PbsTame env x.1 := by
          have := renewLoop_histPrefix hq
          exact ht.mono this
        have ht1 : PbsTame env (p.jobs env (cmds i).1) := PbsTame.mono (List.prefix_append _ _) htx
        have hnd : ∀ l', ((p.jobs env (cmds i).1).waiting env l' ++ if l = l' then [id] else []).Nodup := by
          intro l'
          have hc := h1.cons ht1 l'
          rw [← hL l', List.filter_append, List.map_append, List.filter_cons] at hc
          have hrange : ((List.range (((p.jobs env (cmds i).1).sys.nSched[l']?).getD 0)).map (sampleTag l')).Nodup :=
            (List.nodup_map_iff_inj_on List.nodup_range).2 fun x _ y _ e => (sampleTag_injective e).2
          have hmid : ((savedSucc sops l').map (·.1) ++ ((if l = l' then [id] else []) ++ (L.filter fun e => e.1 = l').map (·.2)) ++ (p.jobs env (cmds i).1).waiting env l').Perm
              ((List.range (((p.jobs env (cmds i).1).sys.nSched[l']?).getD 0)).map (sampleTag l')) := by
            by_cases e : l = l'
            · simp only [e, decide_true, if_true, List.map_cons] at hc ⊢
              rw [← Multiset.coe_eq_coe] at hc ⊢
              simp only [← Multiset.coe_add, ← Multiset.cons_coe, ← Multiset.singleton_add, Multiset.coe_nil, add_zero] at hc ⊢
              refine add_left_cancel (a := (((done.filter fun e => e.1 = l').map (·.2) : List SampleId) : Multiset SampleId)) ?_
              calc _ = _ := by abel
                _ = _ := hc
                _ = _ := by abel
            · simp only [e, decide_false, if_false, Bool.false_eq_true, List.nil_append] at hc ⊢
              rw [← Multiset.coe_eq_coe] at hc ⊢
              simp only [← Multiset.coe_add] at hc ⊢
              refine add_left_cancel (a := (((done.filter fun e => e.1 = l').map (·.2) : List SampleId) : Multiset SampleId)) ?_
              calc _ = _ := by abel
                _ = _ := hc
                _ = _ := by abel
          refine (List.perm_append_comm.nodup_iff).1 ((hmid.nodup_iff.2 hrange).sublist ?_)
          refine List.Sublist.append_right ?_ _
          exact (List.sublist_append_left _ _).trans (List.sublist_append_right _ _)
        have hstep : RenewInv env { x.1 with sys := { x.1.sys with renewed := x.1.sys.renewed ++ [(l, id)] } } sops since (done ++ [(l, id)]) := by
          refine h.schedule (cmds i).1 id l sim (cmds i).2 hs _ _ htx hnd ?_ ?_ ?_ ?_
          · simp only [hsys]; exact h.len
          · simp only [hsys]
          · intro l'
            simp only [hsys, List.filter_append, List.map_append, List.append_assoc]
            by_cases e : l = l' <;> simp [e]
          · intro l'
            refine ⟨if l = l' then [id] else [], ?_, ?_⟩
            · by_cases e : l = l' <;> simp [e]
            · simp only [hsys]
              by_cases e : l = l' <;> simp [e]
        obtain ⟨g1, g2⟩ := ih (i + 1) hstep (by intro l'; rw [← hL l']; simp) hq ht
        refine ⟨by simpa using g1, ?_⟩
        rw [g2]
        simp [hsys]

theorem RenewInv.renew {env : PbsEnv Cfg K C} {p q : PbsProg Cfg K C} {sops since} (h : RenewInv env p sops since []) (cmds)
    (hq : p.renew env cmds = some q) (ht : PbsTame env q) : ∃ sops', RenewInv env q sops' q.hist.length [] ∧ q.sys = p.sys.renew := by
  have hfs : hdfFailedSamples p.sys.store = .ok ((List.range env.sims.length).map fun l => (savedFailed sops l).map (·.1)) := by
    rw [h.store]; exact failed_fresh _ _
  simp only [PbsProg.renew, hfs] at hq
  set L := ((List.range env.sims.length).map fun l => (savedFailed sops l).map (·.1)).zipIdx.flatMap fun (ids, l) => ids.map fun i => (l, i) with hL
  obtain ⟨r, hr, rfl⟩ := Option.map_eq_some_iff.1 hq
  have htr : PbsTame env r := PbsTame.mono (q := { r with sys := { r.sys with store := applyOps (clearFailedOps r.sys.store) r.sys.store } }) (List.prefix_refl _) ht
  have htp : PbsTame env p := htr.mono (renewLoop_histPrefix hr)
  have hLf : ∀ l, ((([] : List (Nat × SampleId)) ++ L).filter fun e => e.1 = l).map (·.2) = (savedFailed sops l).map (·.1) := by
    intro l
    have := levelPairs_filter env.sims.length (fun l => (savedFailed sops l).map (·.1)) l
    rw [← hL] at this
    rw [List.nil_append, this]
    split
    · rfl
    · rename_i hl
      have hc := h.cons htp l
      have hnone : p.sys.nSched[l]? = none := List.getElem?_eq_none (by rw [h.len]; omega)
      simp only [hnone, Option.getD_none, List.range_zero, List.map_nil, List.filter_nil, List.append_nil] at hc
      have := hc.eq_nil
      simp only [List.append_eq_nil_iff] at this
      exact this.1.2.symm
  obtain ⟨g, gs⟩ := RenewInv.renewLoop cmds L 0 h hLf hr htr
  have gh := g.hist
  refine ⟨sops ++ [.clearFailed], ⟨⟨gh.world, gh.noR, gh.noP, gh.sims, gh.lev, gh.pk⟩, g.len, ?_, ?_, ?_, le_refl _, g.cov, ?_⟩, ?_⟩
  · rw [hdfRun_snoc, ← g.store]; rfl
  · intro l; rw [progSucc_snoc, List.append_nil]; exact g.succ l
  · intro l
    rw [progFailed_snoc]
    have : (PbsProg.outs env r).drop r.hist.length = [] := by rw [List.drop_eq_nil_iff, outs_length]
    show [] = (answers ((PbsProg.outs env r).drop r.hist.length)).flatMap _
    rw [this]; rfl
  · intro l
    have hp := g.past l
    rw [List.nil_append] at hp hLf
    have htake : (PbsProg.outs env r).take r.hist.length = r.outs env := by rw [List.take_of_length_le]; rw [outs_length]
    show ((((answers ((PbsProg.outs env r).take r.hist.length)).flatMap fun a => (atLevel a.failed l).map (·.1))) ++ _).Perm ((r.sys.renewed.filter fun e => e.1 = l).map (·.2))
    rw [htake]
    have hsplit : ((answers (r.outs env)).flatMap fun a => (atLevel a.failed l).map (·.1)) =
        ((answers ((r.outs env).take since)).flatMap fun a => (atLevel a.failed l).map (·.1)) ++ (savedFailed sops l).map (·.1) := by
      rw [g.failed, List.map_flatMap, ← List.flatMap_append]
      congr 1
      simp only [answers]
      rw [← List.filterMap_append, List.take_append_drop]
    rw [hsplit, ← hLf l]
    simpa using hp
  · simp only [Sys.renew, hfs, gs, ← hL]

/-- What holds between calls. -/
structure RenewAt (env : PbsEnv Cfg K C) (w : Nat → Want) (since : Nat) (p : PbsProg Cfg K C) : Prop where
  inv : ∃ sops, RenewInv env p sops since []
  sched : SchedInv env.sims.length p.sys
  tlen : p.sys.target.length = env.sims.length
  want : ∀ l, l < env.sims.length → p.sys.target[l]? = some (w l).target ∧ p.sys.nSched[l]? = some (w l).count

theorem renewAt_collect {env : PbsEnv Cfg K C} {w : Nat → Want} {since} {p q : PbsProg Cfg K C} (h : RenewAt env w since p) (r : PbsRound K) {n : ℤ}
    (hq : p.collect env r = some (n, q)) (ht : PbsTame env q) : RenewAt env w since q := by
  obtain ⟨sops, hi⟩ := h.inv
  obtain ⟨s, h1, a, b, c, e⟩ := hi.collect r hq ht
  exact ⟨⟨s, h1⟩, by rw [e]; exact schedInv_step h.sched _ rfl, by rw [e]; exact h.tlen, by rw [e]; exact h.want⟩

theorem renewAt_wait {env : PbsEnv Cfg K C} {w : Nat → Want} {since} (timeout : ℚ) : ∀ (rs : List (PbsRound K)) {p q : PbsProg Cfg K C}, RenewAt env w since p →
    p.wait env timeout rs = some q → PbsTame env q → RenewAt env w since q := by
  intro rs
  induction rs with
  | nil => intro p q _ hq; cases hq
  | cons r rs ih =>
    intro p q h hq ht
    simp only [PbsProg.wait] at hq
    split at hq
    · cases hq
    · rename_i n r' hr
      split at hq
      · injection hq with hq; subst hq; exact renewAt_collect h _ hr ht
      · split at hq
        · exact ih (renewAt_collect h _ hr (ht.mono (wait_histPrefix hq))) hq ht
        · injection hq with hq; subst hq; exact renewAt_collect h _ hr ht

theorem renewAt_ask {env : PbsEnv Cfg K C} {w : Nat → Want} {since} {p q : PbsProg Cfg K C} (h : RenewAt env w since p) (timeout : Option ℚ) (rs : List (PbsRound K))
    (hq : p.ask env timeout rs = some q) (ht : PbsTame env q) : RenewAt env w since q := by
  cases timeout with
  | none => exact renewAt_wait 0 rs h hq ht
  | some t =>
    simp only [PbsProg.ask] at hq
    split at hq
    · injection hq with hq; subst hq; exact h
    · exact renewAt_wait t rs h hq ht

theorem renewAt_step {env : PbsEnv Cfg K C} {w : Nat → Want} {since} {p q : PbsProg Cfg K C} (h : RenewAt env w since p) (o : PbsRenewOp K)
    (ho : o.Proper env.sims.length) (hq : p.stepR env o = some q) (ht : PbsTame env q) :
    ∃ since', since ≤ since' ∧ ((∃ cmds, o = .renew cmds) → since' = q.hist.length) ∧ RenewAt env (fun l => (w l).step l o.call') since' q := by
  cases o with
  | renew cmds =>
    obtain ⟨sops, hi⟩ := h.inv
    obtain ⟨s, g1, g2⟩ := hi.renew cmds hq ht
    refine ⟨q.hist.length, hi.le.trans (renew_histPrefix hq).length_le, fun _ => rfl, ⟨s, g1⟩, ?_, ?_, ?_⟩
    · rw [g2]; exact schedInv_step h.sched .renew rfl
    · rw [g2]; simp only [Sys.renew]; split <;> exact h.tlen
    · rw [g2]; simp only [Sys.renew]; split <;> exact h.want
  | call o =>
    refine ⟨since, le_refl _, ⟨(fun e => by obtain ⟨_, e⟩ := e; cases e), ?_⟩⟩
    simp only [PbsProg.stepR] at hq
    cases o with
    | setInitial v =>
      obtain ⟨sops, hi⟩ := h.inv
      have hh := hi.hist
      simp only [PbsProg.step, Option.some.injEq] at hq
      subst hq
      refine ⟨⟨sops, ⟨hh.world, hh.noR, hh.noP, hh.sims, hh.lev, hh.pk⟩, hi.len, hi.store, hi.succ, hi.failed, hi.le, hi.cov, hi.past⟩,
        schedInv_step h.sched (.setInitial v) rfl, ho, ?_⟩
      intro l hl
      refine ⟨?_, (h.want l hl).2⟩
      have hl' : l < v.length := by rw [show v.length = _ from ho]; exact hl
      simp [Want.step, hl', PbsProgOp.call, PbsRenewOp.call']
    | setTarget v =>
      obtain ⟨sops, hi⟩ := h.inv
      have hh := hi.hist
      have hv : v.length ≤ p.sys.target.length := by rw [h.tlen]; exact ho
      simp only [PbsProg.step, hv, if_true, Option.some.injEq] at hq
      subst hq
      refine ⟨⟨sops, ⟨hh.world, hh.noR, hh.noP, hh.sims, hh.lev, hh.pk⟩, hi.len, hi.store, hi.succ, hi.failed, hi.le, hi.cov, hi.past⟩,
        schedInv_step h.sched (.setTarget v) rfl, ?_, ?_⟩
      · show (setLevelTarget _ _).length = _
        rw [setLevelTarget_len]; exact h.tlen
      · intro l hl
        show (setLevelTarget _ _)[l]? = _ ∧ p.sys.nSched[l]? = _
        rw [progTarget_get, (h.want l hl).1, (h.want l hl).2]
        simp only [Want.step, PbsProgOp.call, PbsRenewOp.call']
        cases v[l]? <;> simp
    | ask timeout rounds => exact renewAt_ask h timeout rounds hq ht
    | schedule timeout rounds cmds =>
      simp only [PbsProg.step] at hq
      obtain ⟨r, ha, hq⟩ := Option.bind_eq_some_iff.1 hq
      simp only [PbsProg.scheduleSamples] at hq
      split at hq
      case isFalse => cases hq
      rename_i hl
      have h2 := renewAt_ask h timeout rounds ha (ht.mono (acts_histPrefix hq))
      obtain ⟨sr, hr⟩ := h2.inv
      obtain ⟨s, g3, g2⟩ := RenewInv.acts cmds _ _ hr hq ht
      have g2 : q.sys = r.sys.schedule := by rw [g2, Sys.schedule, if_pos (Or.inl hl)]
      obtain ⟨c1, _, _, _, c5, _, _⟩ := schedule_closed r.sys (Or.inl hl)
      refine ⟨⟨s, g3⟩, ?_, ?_, ?_⟩
      · rw [g2]; exact schedInv_schedule h2.sched
      · rw [g2, c1]; exact h2.tlen
      · intro l hl
        rw [g2, c1, c5, plan_get, (h2.want l hl).1, (h2.want l hl).2]
        simp only [Want.step, PbsProgOp.call, PbsRenewOp.call', Option.map_some, Option.getD_some, add_planCount, and_self]
    | pause js =>
      obtain ⟨sops, hi⟩ := h.inv
      simp only [PbsProg.step, Option.some.injEq] at hq
      subst hq
      obtain ⟨h1, h2⟩ := RenewInv.jobs js hi
      exact ⟨⟨sops, h1⟩, by rw [h2]; exact h.sched, by rw [h2]; exact h.tlen, by rw [h2]; exact h.want⟩

theorem renewAt_run {env : PbsEnv Cfg K C} : ∀ (ops : List (PbsRenewOp K)) {w : Nat → Want} {since} {p q : PbsProg Cfg K C}, RenewAt env w since p →
    (∀ o ∈ ops, o.Proper env.sims.length) → p.runR env ops = some q → PbsTame env q →
    ∃ since', since ≤ since' ∧ RenewAt env (fun l => (ops.map (·.call')).foldl (Want.step l) (w l)) since' q := by
  intro ops
  induction ops with
  | nil => intro w since p q h _ hq _; simp only [PbsProg.runR, Option.some.injEq] at hq; subst hq; exact ⟨since, le_refl _, h⟩
  | cons o ops ih =>
    intro w since p q h ho hq ht
    obtain ⟨r, hs, hq⟩ := Option.bind_eq_some_iff.1 hq
    obtain ⟨s1, l1, _, h1⟩ := renewAt_step h o (ho o (by simp)) hs (ht.mono (runR_histPrefix hq))
    obtain ⟨s2, l2, h2⟩ := ih h1 (fun o' h' => ho o' (by simp [h'])) hq ht
    exact ⟨s2, l1.trans l2, h2⟩

theorem renewAt_start (env : PbsEnv Cfg K C) : RenewAt env (fun _ => ⟨0, 0⟩) 0 (PbsProg.start env) := by
  have hat := pbsAt_start env
  obtain ⟨sops, hi⟩ := hat.inv
  refine ⟨⟨sops, ⟨hi.world, hi.noR, hi.noP, hi.sims, ?_, ?_⟩, hi.len, hi.store, hi.succ, ?_, Nat.zero_le _, ?_, ?_⟩, hat.sched, hat.tlen, hat.want⟩
  · intro t ht; simp [PbsProg.start, MLMC.handed] at ht
  · intro s hs; simp [PbsProg.start, PbsProg.outs, PbsWorld.run, submissions] at hs
  · intro l; rw [hi.failed l]; rfl
  · intro l
    have : ((PbsProg.start env).sys.nSched[l]?).getD 0 = 0 := by
      by_cases hl : l < env.sims.length
      · rw [(hat.want l hl).2]; rfl
      · rw [List.getElem?_eq_none (by rw [hi.len]; omega)]; rfl
    rw [this]; exact List.Perm.refl _
  · intro l; exact List.Perm.refl _

theorem runR_append (env : PbsEnv Cfg K C) : ∀ (a b : List (PbsRenewOp K)) (p : PbsProg Cfg K C),
    p.runR env (a ++ b) = (p.runR env a).bind fun q => q.runR env b := by
  intro a
  induction a with
  | nil => intro b p; rfl
  | cons o a ih =>
    intro b p
    simp only [List.cons_append, PbsProg.runR]
    cases p.stepR env o with
    | none => rfl
    | some q => exact ih b q

end MLMC
