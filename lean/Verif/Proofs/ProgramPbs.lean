import Verif.Spec.ProgramPbs
import Verif.Proofs.Program
import Verif.Props.PbsSim
import Verif.Props.PbsJob
/-! Helper lemmas about whole programs with PBS. -/
namespace MLMC
variable {Cfg K C : Type}

theorem answers_concat {R : Type} (outs : List (PbsOut R)) (o : PbsOut R) : answers (outs ++ [o]) = answers outs ++ o.answer.toList := by
  simp only [answers, List.filterMap_append]
  cases h : o.answer <;> simp [h]

theorem execute_answer {S R : Type} (w : PbsWorld S R) (q : QsubAns) : (w.execute q).2.answer = none := by
  unfold PbsWorld.execute
  split
  · rfl
  · cases q <;> rfl

theorem schedule_answer {S R : Type} (w : PbsWorld S R) (id : SampleId) (seed level : Nat) (size : ℚ) (sim : S) (q : QsubAns) :
    (w.schedule id seed level size sim q).2.answer = none := by
  unfold PbsWorld.schedule
  simp only
  split
  · exact execute_answer _ _
  · rfl

/-- What holds between any two elementary actions. -/
structure PbsInv (env : PbsEnv Cfg K C) (p : PbsProg Cfg K C) (sops : List (StoreOp (PairRes K))) : Prop where
  world : p.world = ((PbsWorld.create false [] {}).run (computeSeed env.md5) p.hist).1
  len : p.sys.nSched.length = env.sims.length
  store : p.sys.store = hdfRun (hdfFresh _ env.sims.length) sops
  succ : ∀ l, savedSucc sops l = (answers (p.outs env)).flatMap fun a => atLevel a.succ l
  failed : ∀ l, savedFailed sops l = (answers (p.outs env)).flatMap fun a => atLevel a.failed l
  handed : handed (computeSeed env.md5) p.hist = p.sys.handed.map fun e => (e.1, e.2, computeSeed env.md5 e.2)
  noR : NoRestart p.hist
  noP : NoPermanent p.hist
  sims : ∀ l s, firstSim p.hist l = some s → env.sims[l]? = some s
  cov : ∀ (l k : Nat), p.sys.nSched[l]? = some k → idsAt (MLMC.handed (computeSeed env.md5) p.hist) l = (List.range k).map (sampleTag l)

theorem pool_outs {env : PbsEnv Cfg K C} {p : PbsProg Cfg K C} {sops} (h : PbsInv env p sops) (o) :
    (p.pool env o).1.outs env = p.outs env ++ [(p.pool env o).2] ∧
    (p.pool env o).1.world = ((PbsWorld.create false [] {}).run (computeSeed env.md5) (p.pool env o).1.hist).1 := by
  simp only [PbsProg.outs, PbsProg.pool, run_concat, ← h.world, and_self]

theorem handed_concat {S R : Type} (seedOf : SampleId → Nat) (ops : List (PbsOp S R)) (o : PbsOp S R) :
    MLMC.handed seedOf (ops ++ [o]) = MLMC.handed seedOf ops ++ (match o with | .schedule id l _ _ _ => [(l, id, seedOf id)] | _ => []) := by
  simp only [MLMC.handed, List.filterMap_append]
  cases o <;> rfl

theorem firstSim_concat {S R : Type} (ops : List (PbsOp S R)) (o : PbsOp S R) (l : Nat) :
    firstSim (ops ++ [o]) l = (firstSim ops l).or (firstSim [o] l) := by
  simp only [firstSim, List.findSome?_append]

theorem inv_job {env : PbsEnv Cfg K C} {p : PbsProg Cfg K C} {sops} (h : PbsInv env p sops) (j : Nat) (a : JobAppend (PairRes K)) :
    PbsInv env (p.pool env (.job j a)).1 sops ∧ (p.pool env (.job j a)).1.sys = p.sys := by
  obtain ⟨h1, h2⟩ := pool_outs h (.job j a)
  have ha : answers ((p.pool env (.job j a)).1.outs env) = answers (p.outs env) := by
    rw [h1, answers_concat]
    simp [PbsProg.pool, PbsWorld.step]
  refine ⟨⟨h2, h.len, h.store, ?_, ?_, ?_, ?_, ?_, ?_, ?_⟩, rfl⟩
  · rw [ha]; exact h.succ
  · rw [ha]; exact h.failed
  · show MLMC.handed _ (p.hist ++ [.job j a]) = _
    rw [handed_concat, List.append_nil]; exact h.handed
  · intro d l hm
    rcases List.mem_append.1 hm with hm | hm
    · exact h.noR d l hm
    · simp at hm
  · intro ids hm
    rcases List.mem_append.1 hm with hm | hm
    · exact h.noP ids hm
    · simp at hm
  · intro l s hs
    have hs : firstSim (p.hist ++ [.job j a]) l = some s := hs
    rw [firstSim_concat] at hs
    simp only [firstSim, List.findSome?_cons, List.findSome?_nil, Option.or_none] at hs
    exact h.sims l s hs
  · intro l k hk
    show idsAt (MLMC.handed _ (p.hist ++ [.job j a])) l = _
    rw [handed_concat, List.append_nil]; exact h.cov l k hk

theorem inv_jobs {env : PbsEnv Cfg K C} (js : List (Nat × JobAppend (PairRes K))) : ∀ {p : PbsProg Cfg K C} {sops}, PbsInv env p sops →
    PbsInv env (p.jobs env js) sops ∧ (p.jobs env js).sys = p.sys := by
  induction js with
  | nil => intro p sops h; exact ⟨h, rfl⟩
  | cons j js ih =>
    intro p sops h
    obtain ⟨h1, h2⟩ := inv_job h j.1 j.2
    obtain ⟨h3, h4⟩ := ih h1
    exact ⟨h3, by rw [← h2]; exact h4⟩

theorem inv_pbsAct {env : PbsEnv Cfg K C} {p q : PbsProg Cfg K C} {sops} (h : PbsInv env p sops) (js) (qs : QsubAns) (a : SchedAct)
    (hq : p.act env js qs a = some q) : ∃ sops', PbsInv env q sops' ∧ q.sys = a.apply p.sys := by
  cases a with
  | begin l =>
    simp only [PbsProg.act, Option.some.injEq] at hq
    subst hq
    exact ⟨sops, ⟨h.world, h.len, h.store, h.succ, h.failed, h.handed, h.noR, h.noP, h.sims, h.cov⟩, rfl⟩
  | save l =>
    simp only [PbsProg.act, Option.some.injEq] at hq
    subst hq
    refine ⟨sops ++ [.scheduled l p.sys.pending], ⟨h.world, h.len, ?_, ?_, ?_, h.handed, h.noR, h.noP, h.sims, h.cov⟩, rfl⟩
    · rw [hdfRun_snoc, ← h.store]; rfl
    · intro l'; rw [progSucc_snoc, List.append_nil]; exact h.succ l'
    · intro l'; rw [progFailed_snoc]; exact h.failed l'
  | hand l =>
    obtain ⟨h1, h2⟩ := inv_jobs js h
    simp only [PbsProg.act] at hq
    split at hq
    · rename_i k sim hk hs
      split at hq
      · cases hq
      · injection hq with hq
        subst hq
        obtain ⟨o1, o2⟩ := pool_outs h1 (.schedule (sampleTag l k) l (env.size l) sim qs)
        have ha : answers (((p.jobs env js).pool env (.schedule (sampleTag l k) l (env.size l) sim qs)).1.outs env) = answers (p.outs env) := by
          rw [o1, answers_concat]
          have : (((p.jobs env js).pool env (.schedule (sampleTag l k) l (env.size l) sim qs)).2.answer) = none := schedule_answer ..
          rw [this]
          simp only [Option.toList_none, List.append_nil]
          have e : ∀ (js : List (Nat × JobAppend (PairRes K))) {p : PbsProg Cfg K C}, PbsInv env p sops →
              answers ((p.jobs env js).outs env) = answers (p.outs env) := by
            intro js
            induction js with
            | nil => intro p _; rfl
            | cons j js ih =>
              intro p h
              have := ih (inv_job h j.1 j.2).1
              refine this.trans ?_
              rw [(pool_outs h _).1, answers_concat]
              simp [PbsProg.pool, PbsWorld.step]
          exact e js h
        have hsys : (((p.jobs env js).pool env (.schedule (sampleTag l k) l (env.size l) sim qs)).1).sys = p.sys := h2
        have hhist : (((p.jobs env js).pool env (.schedule (sampleTag l k) l (env.size l) sim qs)).1).hist =
          (p.jobs env js).hist ++ [.schedule (sampleTag l k) l (env.size l) sim qs] := rfl
        refine ⟨sops, ⟨o2, ?_, ?_, ?_, ?_, ?_, ?_, ?_, ?_, ?_⟩, ?_⟩
        · simp only [hsys, SchedAct.apply, hk, List.length_set]; exact h.len
        · simp only [hsys, SchedAct.apply, hk]; exact h.store
        · intro l'
          refine (h.succ l').trans ?_
          rw [← ha]; rfl
        · intro l'
          refine (h.failed l').trans ?_
          rw [← ha]; rfl
        · simp only [hhist, hsys, handed_concat, SchedAct.apply, hk, List.map_append, List.map_cons, List.map_nil]
          rw [h1.handed, h2]
        · intro d l' hm
          simp only [hhist] at hm
          rcases List.mem_append.1 hm with hm | hm
          · exact h1.noR d l' hm
          · simp at hm
        · intro ids hm
          simp only [hhist] at hm
          rcases List.mem_append.1 hm with hm | hm
          · exact h1.noP ids hm
          · simp at hm
        · intro l' s hs'
          simp only [hhist, firstSim_concat] at hs'
          cases hf : firstSim (p.jobs env js).hist l' with
          | some s' =>
            rw [hf] at hs'; simp only [Option.some_or, Option.some.injEq] at hs'
            subst hs'; exact h1.sims l' _ hf
          | none =>
            rw [hf] at hs'
            simp only [Option.none_or, firstSim, List.findSome?_cons, List.findSome?_nil] at hs'
            split at hs'
            · rename_i s'' he
              injection hs' with hs'
              subst hs'
              split at he
              · rename_i hl; injection he with he; subst hl; subst he; exact hs
              · simp at he
            · simp at hs'
        · intro l' k' hk'
          simp only [hsys, SchedAct.apply, hk, List.getElem?_set] at hk'
          simp only [hhist, handed_concat, idsAt_append]
          by_cases e : l = l'
          · subst e
            have hl : l < p.sys.nSched.length := (List.getElem?_eq_some_iff.1 hk).1
            simp only [if_true, hl] at hk'
            injection hk' with hk'
            subst hk'
            rw [h1.cov l k (by rw [h2]; exact hk), List.range_succ, List.map_append]
            simp [idsAt]
          · simp only [e, if_false] at hk'
            rw [h1.cov l' k' (by rw [h2]; exact hk')]
            simp [idsAt, e]
        · simp only [hsys]
    · cases hq

theorem inv_pbsActs {env : PbsEnv Cfg K C} (cmds : Nat → List (Nat × JobAppend (PairRes K)) × QsubAns) : ∀ (as : List SchedAct) (i : Nat)
    {p q : PbsProg Cfg K C} {sops}, PbsInv env p sops → p.acts env cmds i as = some q →
    ∃ sops', PbsInv env q sops' ∧ q.sys = runActs as p.sys := by
  intro as
  induction as with
  | nil => intro i p q sops h hq; simp only [PbsProg.acts, Option.some.injEq] at hq; subst hq; exact ⟨sops, h, rfl⟩
  | cons a as ih =>
    intro i p q sops h hq
    simp only [PbsProg.acts] at hq
    split at hq
    · cases hq
    · rename_i r hr
      obtain ⟨s1, h1, h2⟩ := inv_pbsAct h _ _ a hr
      obtain ⟨s2, h3, h4⟩ := ih _ h1 hq
      exact ⟨s2, h3, by rw [h4, h2]; rfl⟩

theorem inv_pbsCollect {env : PbsEnv Cfg K C} {p q : PbsProg Cfg K C} {sops} (h : PbsInv env p sops) (r : PbsRound K) {n : ℤ}
    (hq : p.collect env r = some (n, q)) : ∃ sops', PbsInv env q sops' ∧ ∃ a b c, q.sys = p.sys.step (.poll a b c) := by
  obtain ⟨h1, h2⟩ := inv_jobs r.jobs h
  simp only [PbsProg.collect] at hq
  split at hq
  · cases hq
  · rename_i a ha
    simp only [Option.some.injEq, Prod.mk.injEq] at hq
    obtain ⟨-, rfl⟩ := hq
    obtain ⟨o1, o2⟩ := pool_outs h1 (.get r.qsub r.qstat)
    have hans : answers (((p.jobs env r.jobs).pool env (.get r.qsub r.qstat)).1.outs env) = answers ((p.jobs env r.jobs).outs env) ++ [a] := by
      rw [o1, answers_concat, ha]; rfl
    have hsys : ((p.jobs env r.jobs).pool env (.get r.qsub r.qstat)).1.sys = p.sys := h2
    have e : ∀ (o1 o2 : StoreOp (PairRes K)), sops ++ [o1, o2] = (sops ++ [o1]) ++ [o2] := by intros; simp
    have hhist : ((p.jobs env r.jobs).pool env (.get r.qsub r.qstat)).1.hist = (p.jobs env r.jobs).hist ++ [.get r.qsub r.qstat] := rfl
    refine ⟨sops ++ [.samples a.succ a.failed, .nOps a.nOps], ⟨o2, ?_, ?_, ?_, ?_, ?_, ?_, ?_, ?_, ?_⟩, a.succ, a.failed, a.nOps, ?_⟩
    · simp only [hsys]; exact h.len
    · rw [e, hdfRun_snoc, hdfRun_snoc, ← h.store]
      simp only [hsys]; rfl
    · intro l
      rw [e, progSucc_snoc, progSucc_snoc, List.append_nil]
      refine Eq.trans ?_ (congrArg (fun L => L.flatMap fun a => atLevel a.succ l) hans).symm
      simp only [List.flatMap_append, List.flatMap_cons, List.flatMap_nil, List.append_nil]
      rw [← h1.succ l]
    · intro l
      rw [e, progFailed_snoc, progFailed_snoc]
      simp only []
      refine Eq.trans ?_ (congrArg (fun L => L.flatMap fun a => atLevel a.failed l) hans).symm
      simp only [List.flatMap_append, List.flatMap_cons, List.flatMap_nil, List.append_nil]
      rw [← h1.failed l]
    · simp only [hhist, hsys, handed_concat, List.append_nil]
      rw [h1.handed, h2]
    · intro d l' hm
      simp only [hhist] at hm
      rcases List.mem_append.1 hm with hm | hm
      · exact h1.noR d l' hm
      · simp at hm
    · intro ids hm
      simp only [hhist] at hm
      rcases List.mem_append.1 hm with hm | hm
      · exact h1.noP ids hm
      · simp at hm
    · intro l' s hs'
      simp only [hhist, firstSim_concat] at hs'
      simp only [firstSim, List.findSome?_cons, List.findSome?_nil, Option.or_none] at hs'
      exact h1.sims l' s hs'
    · intro l' k' hk'
      simp only [hhist, handed_concat, List.append_nil]
      exact h1.cov l' k' (by rw [h2]; simpa only [hsys] using hk')
    · simp only [hsys]; rfl

/-- What holds between calls. -/
structure PbsAt (env : PbsEnv Cfg K C) (w : Nat → Want) (p : PbsProg Cfg K C) : Prop where
  inv : ∃ sops, PbsInv env p sops
  sched : SchedInv env.sims.length p.sys
  tlen : p.sys.target.length = env.sims.length
  want : ∀ l, l < env.sims.length → p.sys.target[l]? = some (w l).target ∧ p.sys.nSched[l]? = some (w l).count

theorem pbsAt_collect {env : PbsEnv Cfg K C} {w : Nat → Want} {p q : PbsProg Cfg K C} (h : PbsAt env w p) (r : PbsRound K) {n : ℤ}
    (hq : p.collect env r = some (n, q)) : PbsAt env w q := by
  obtain ⟨sops, hi⟩ := h.inv
  obtain ⟨s, h1, a, b, c, e⟩ := inv_pbsCollect hi r hq
  exact ⟨⟨s, h1⟩, by rw [e]; exact schedInv_step h.sched _ rfl, by rw [e]; exact h.tlen, by rw [e]; exact h.want⟩

theorem pbsAt_wait {env : PbsEnv Cfg K C} {w : Nat → Want} (timeout : ℚ) : ∀ (rs : List (PbsRound K)) {p q : PbsProg Cfg K C}, PbsAt env w p →
    p.wait env timeout rs = some q → PbsAt env w q := by
  intro rs
  induction rs with
  | nil => intro p q _ hq; cases hq
  | cons r rs ih =>
    intro p q h hq
    simp only [PbsProg.wait] at hq
    split at hq
    · cases hq
    · rename_i n r' hr
      have h1 := pbsAt_collect h _ hr
      split at hq
      · injection hq with hq; subst hq; exact h1
      · split at hq
        · exact ih h1 hq
        · injection hq with hq; subst hq; exact h1

theorem pbsAt_ask {env : PbsEnv Cfg K C} {w : Nat → Want} {p q : PbsProg Cfg K C} (h : PbsAt env w p) (timeout : Option ℚ) (rs : List (PbsRound K))
    (hq : p.ask env timeout rs = some q) : PbsAt env w q := by
  cases timeout with
  | none => exact pbsAt_wait 0 rs h hq
  | some t =>
    simp only [PbsProg.ask] at hq
    split at hq
    · injection hq with hq; subst hq; exact h
    · exact pbsAt_wait t rs h hq

theorem pbsAt_step {env : PbsEnv Cfg K C} {w : Nat → Want} {p q : PbsProg Cfg K C} (h : PbsAt env w p) (o : PbsProgOp K)
    (ho : o.Proper env.sims.length) (hq : p.step env o = some q) : PbsAt env (fun l => (w l).step l o.call) q := by
  cases o with
  | setInitial v =>
    obtain ⟨sops, hi⟩ := h.inv
    simp only [PbsProg.step, Option.some.injEq] at hq
    subst hq
    refine ⟨⟨sops, hi.world, hi.len, hi.store, hi.succ, hi.failed, hi.handed, hi.noR, hi.noP, hi.sims, hi.cov⟩, schedInv_step h.sched (.setInitial v) rfl, ho, ?_⟩
    intro l hl
    refine ⟨?_, (h.want l hl).2⟩
    have hl' : l < v.length := by rw [show v.length = _ from ho]; exact hl
    simp [Want.step, hl', PbsProgOp.call]
  | setTarget v =>
    obtain ⟨sops, hi⟩ := h.inv
    have hv : v.length ≤ p.sys.target.length := by rw [h.tlen]; exact ho
    simp only [PbsProg.step, hv, if_true, Option.some.injEq] at hq
    subst hq
    refine ⟨⟨sops, hi.world, hi.len, hi.store, hi.succ, hi.failed, hi.handed, hi.noR, hi.noP, hi.sims, hi.cov⟩,
      schedInv_step h.sched (.setTarget v) rfl, ?_, ?_⟩
    · show (setLevelTarget _ _).length = _
      rw [setLevelTarget_len]; exact h.tlen
    · intro l hl
      show (setLevelTarget _ _)[l]? = _ ∧ p.sys.nSched[l]? = _
      rw [progTarget_get, (h.want l hl).1, (h.want l hl).2]
      simp only [Want.step, PbsProgOp.call]
      cases v[l]? <;> simp
  | ask timeout rounds => exact pbsAt_ask h timeout rounds hq
  | schedule timeout rounds cmds =>
    simp only [PbsProg.step] at hq
    cases ha : p.ask env timeout rounds with
    | none => rw [ha] at hq; cases hq
    | some r =>
      rw [ha] at hq
      simp only [Option.bind_some, PbsProg.scheduleSamples] at hq
      have h2 := pbsAt_ask h timeout rounds ha
      obtain ⟨sr, hr⟩ := h2.inv
      have hl : r.sys.target.length = r.sys.nSched.length := by rw [h2.tlen, hr.len]
      rw [if_pos hl] at hq
      obtain ⟨s, g3, g2⟩ := inv_pbsActs cmds _ _ hr hq
      have g2 : q.sys = r.sys.schedule := by rw [g2, Sys.schedule, if_pos (Or.inl hl)]
      obtain ⟨c1, _, _, _, c5, _, _⟩ := schedule_closed r.sys (Or.inl hl)
      refine ⟨⟨s, g3⟩, ?_, ?_, ?_⟩
      · rw [g2]; exact schedInv_schedule h2.sched
      · rw [g2, c1]; exact h2.tlen
      · intro l hl
        rw [g2, c1, c5, plan_get, (h2.want l hl).1, (h2.want l hl).2]
        simp only [Want.step, PbsProgOp.call, Option.map_some, Option.getD_some, add_planCount, and_self]
  | pause js =>
    obtain ⟨sops, hi⟩ := h.inv
    simp only [PbsProg.step, Option.some.injEq] at hq
    subst hq
    obtain ⟨h1, h2⟩ := inv_jobs js hi
    exact ⟨⟨sops, h1⟩, by rw [h2]; exact h.sched, by rw [h2]; exact h.tlen, by rw [h2]; exact h.want⟩

theorem pbsAt_run {env : PbsEnv Cfg K C} : ∀ (ops : List (PbsProgOp K)) {w : Nat → Want} {p q : PbsProg Cfg K C}, PbsAt env w p →
    (∀ o ∈ ops, o.Proper env.sims.length) → p.run env ops = some q →
    PbsAt env (fun l => (ops.map (·.call)).foldl (Want.step l) (w l)) q := by
  intro ops
  induction ops with
  | nil => intro w p q h _ hq; simp only [PbsProg.run, Option.some.injEq] at hq; subst hq; exact h
  | cons o ops ih =>
    intro w p q h ho hq
    simp only [PbsProg.run] at hq
    cases hs : p.step env o with
    | none => rw [hs] at hq; cases hq
    | some r =>
      rw [hs] at hq
      exact ih (pbsAt_step h o (ho o (by simp)) hs) (fun o' h' => ho o' (by simp [h'])) hq

theorem pbsAt_start (env : PbsEnv Cfg K C) : PbsAt env (fun _ => ⟨0, 0⟩) (PbsProg.start env) := by
  have hn : ∀ l, l < env.sims.length → (Sys.fresh (PairRes K) env.sims.length).nSched[l]? = some 0 := by
    intro l hl; simp [Sys.fresh, Sys.construct, hdfLoadScheduled, hl]
  refine ⟨⟨[], rfl, ?_, rfl, fun _ => rfl, fun _ => rfl, rfl, by intro d l hm; simp [PbsProg.start] at hm, by intro d hm; simp [PbsProg.start] at hm,
    by intro l s hs; simp [PbsProg.start, firstSim] at hs, ?_⟩, schedInv_fresh _, ?_, ?_⟩
  · simp [PbsProg.start, Sys.fresh, Sys.construct, hdfLoadScheduled]
  · intro l k hk
    have hl : l < env.sims.length := by
      have := (List.getElem?_eq_some_iff.1 hk).1
      simpa [PbsProg.start, Sys.fresh, Sys.construct, hdfLoadScheduled] using this
    rw [show (PbsProg.start env).sys.nSched[l]? = some 0 from hn l hl] at hk
    injection hk with hk; subst hk; rfl
  · simp [PbsProg.start, Sys.fresh, Sys.construct]
  · intro l hl
    exact ⟨by simp [PbsProg.start, Sys.fresh, Sys.construct, hl], hn l hl⟩

/-- Every answer was given by some call of `get_finished`. -/
theorem answer_call {S R : Type} (seedOf : SampleId → Nat) (w0 : PbsWorld S R) (ops : List (PbsOp S R)) (a : PoolAnswer R)
    (h : a ∈ answers (w0.run seedOf ops).2) :
    ∃ before o rest, ops = before ++ o :: rest ∧ (((w0.run seedOf before).1.step seedOf o).2).answer = some a := by
  induction ops using List.reverseRecOn with
  | nil => simp [PbsWorld.run, answers] at h
  | append_singleton ops o ih =>
    rw [run_concat, answers_concat, List.mem_append] at h
    rcases h with h | h
    · obtain ⟨b, o', r, h1, h2⟩ := ih h
      exact ⟨b, o', r ++ [o], by rw [h1]; simp, h2⟩
    · exact ⟨ops, o, [], rfl, by simpa using h⟩

theorem answer_get {S R : Type} (seedOf : SampleId → Nat) (w : PbsWorld S R) (o : PbsOp S R) (a : PoolAnswer R) (h : (w.step seedOf o).2.answer = some a) :
    ∃ q qa, o = .get q qa := by
  cases o with
  | schedule id l size sim q => simp only [PbsWorld.step, schedule_answer] at h; cases h
  | execute q => simp only [PbsWorld.step, execute_answer] at h; cases h
  | get q qa => exact ⟨q, qa, rfl⟩
  | permanent ids => simp [PbsWorld.step] at h
  | job j a => simp [PbsWorld.step] at h
  | restart d l => simp [PbsWorld.step] at h

/-- What is known of the pool at any moment. -/
structure PbsCore (env : PbsEnv Cfg K C) (p : PbsProg Cfg K C) : Prop where
  world : p.world = ((PbsWorld.create false [] {}).run (computeSeed env.md5) p.hist).1
  handed : MLMC.handed (computeSeed env.md5) p.hist = p.sys.handed.map fun e => (e.1, e.2, computeSeed env.md5 e.2)
  noR : NoRestart p.hist
  noP : NoPermanent p.hist
  sims : ∀ l s, firstSim p.hist l = some s → env.sims[l]? = some s

theorem PbsInv.core {env : PbsEnv Cfg K C} {p : PbsProg Cfg K C} {sops} (h : PbsInv env p sops) : PbsCore env p :=
  ⟨h.world, h.handed, h.noR, h.noP, h.sims⟩

/-- What was handed over, at any moment of a program. -/
structure HandInv {V : Type} (n : Nat) (s : Sys V) : Prop where
  len : s.nSched.length = n
  form : ∀ p ∈ s.handed, ∃ i k, s.nSched[p.1]? = some k ∧ i < k ∧ p.2 = sampleTag p.1 i
  nodup : s.handed.Nodup

theorem SchedInv.hand {V : Type} {n : Nat} {s : Sys V} (h : SchedInv n s) : HandInv n s := ⟨h.len, h.form, h.nodup⟩

theorem handed_nodup {env : PbsEnv Cfg K C} {p : PbsProg Cfg K C} (h : PbsCore env p) (hs : HandInv env.sims.length p.sys) :
    ((MLMC.handed (computeSeed env.md5) p.hist).map (·.2.1)).Nodup := by
  rw [h.handed, List.map_map]
  refine (List.nodup_map_iff_inj_on hs.nodup).2 ?_
  intro x hx y hy e
  obtain ⟨i, _, _, _, hi⟩ := hs.form x hx
  obtain ⟨j, _, _, _, hj⟩ := hs.form y hy
  have e : x.2 = y.2 := e
  rw [hi, hj] at e
  exact Prod.ext (sampleTag_injective e).1 (by rw [hi, hj, e])

/-- Results and failures in the answer of one call of `get_finished`: where they come from. -/
theorem delivered_at {env : PbsEnv Cfg K C} {p : PbsProg Cfg K C}
    (hworld : p.world = ((PbsWorld.create false [] {}).run (computeSeed env.md5) p.hist).1) (hnoR : NoRestart p.hist) (hnoP : NoPermanent p.hist)
    (hsims : ∀ l s, firstSim p.hist l = some s → env.sims[l]? = some s)
    (hlev : ∀ t ∈ MLMC.handed (computeSeed env.md5) p.hist, t.1 < env.sims.length)
    (hpk : ∀ s ∈ submissions (p.outs env), ∀ l, (idsAt s.samples l).Nodup)
    (hn : PbsNormal env p) (l : Nat) (sim : PoolSim Cfg K C) (hsim : env.sims[l]? = some sim) (a : PoolAnswer (PairRes K)) (before rest) (q : QsubAns) (qa : QstatAns)
    (hb : p.hist = before ++ .get q qa :: rest)
    (hans : ((((PbsWorld.create false [] {}).run (computeSeed env.md5) before).1.step (computeSeed env.md5) (.get q qa)).2).answer = some a) :
    (∀ id v, (id, v) ∈ atLevel a.succ l → outcome env.md5 id sim = .pair v.1 v.2 ∧ WellFormed sim.fmt (outcome env.md5 id sim)) ∧
    ((∀ s ∈ submissions (p.outs env), s.pbsId ∈ qa.finished →
      ∃ clock, appendsOf s.job before = jobAppends (fun l => Dict.get? p.world.disk.sims l) (pbsCompute env.md5) clock s.samples) →
      ∀ id, id ∈ (atLevel a.failed l).map (·.1) → ¬ WellFormed sim.fmt (outcome env.md5 id sim)) := by

  set seed := computeSeed env.md5 with hseed
  have hplain : PlainQsub (before ++ [.get q qa]) := by
    intro o ho; exact hn.plain o (by rw [hb]; simp only [List.mem_append, List.mem_singleton, List.mem_cons] at ho ⊢; tauto)
  have hr : NoRestart before := fun d l hm => hnoR d l (by rw [hb]; simp [hm])
  have hp : NoPermanent before := fun ids hm => hnoP ids (by rw [hb]; simp [hm])
  have houts : p.outs env = ((PbsWorld.create false [] {}).run seed before).2 ++
      ((((PbsWorld.create false [] {}).run seed before).1.step seed (.get q qa)).2 ::
        ((((PbsWorld.create false [] {}).run seed before).1.step seed (.get q qa)).1.run seed rest).2) := by
    rw [PbsProg.outs, hb, run_append_pbs]; rfl
  set r := (PbsWorld.create false [] ({} : PbsDisk (PoolSim Cfg K C) (PairRes K))).run seed before with hrdef
  set out := (r.1.step seed (.get q qa)).2 with hout
  have hsub : submissions r.2 ++ out.submitted <+: submissions (p.outs env) := by
    rw [houts]
    simp only [submissions, List.flatMap_append, List.flatMap_cons]
    exact ⟨_, by rw [List.append_assoc]⟩
  have hnd : ((submissions r.2 ++ out.submitted).map (·.pbsId)).Nodup := hn.ids.sublist (hsub.sublist.map _)
  have hC := (C31_collected_again_partial seed before q qa hplain hr hp (fun s hs => hpk s (hsub.subset hs)) hnd).2 a hans l
  have hq' : PlainQsub before := fun o ho => hplain o (by simp [ho])
  have hqq : q.plain := hplain (.get q qa) (by simp) q (by simp [PbsOp.qsubAns?])
  have hn' : ((submissions r.2).map (·.pbsId)).Nodup := by
    rw [List.map_append] at hnd; exact (List.nodup_append.1 hnd).1
  have i := run_cinv seed before hq' hr hp hn'
  have hmem : ∀ s ∈ outstanding (eventsOf seed (PbsWorld.create false [] {}) before) ++ out.submitted, s ∈ submissions r.2 ++ out.submitted := by
    intro s hs
    rcases List.mem_append.1 hs with h | h
    · exact List.mem_append_left _ (i.out_sub.subset h)
    · exact List.mem_append_right _ h
  have ij := run_inv seed before _ [] [] (create_jobInv false [] ({} : PbsDisk (PoolSim Cfg K C) (PairRes K))) hq' hr
  rw [List.nil_append, List.nil_append] at ij
  have ij1 := execute_inv ij q hqq
  have hsubx := (getFinished_core r.1 q qa).2.1
  have hsd : ∀ s ∈ submissions r.2 ++ out.submitted, ∀ t ∈ s.samples, t.2.2 = seed t.2.1 ∧ Dict.get? p.world.disk.sims t.1 = env.sims[t.1]? := by
    intro s hs t ht
    have hin : t ∈ MLMC.handed seed before := by
      rw [← ij1.all, List.mem_append]
      left
      rw [List.mem_flatMap]
      refine ⟨s, ?_, ht⟩
      rw [← hsubx]; exact hs
    constructor
    · simp only [MLMC.handed, List.mem_filterMap] at hin
      obtain ⟨op, _, he⟩ := hin
      cases op with
      | schedule id' l' size sim' q' =>
        simp only [Option.some.injEq] at he
        rw [← he]
      | _ => simp at he
    · rw [hworld, C35_level_simulation_is_first seed p.hist (fun l h' => hnoR _ _ h') t.1]
      have : ∃ s', firstSim p.hist t.1 = some s' := by
        simp only [MLMC.handed, List.mem_filterMap] at hin
        obtain ⟨op, hop, he⟩ := hin
        cases op with
        | schedule id' l' size sim' q' =>
          simp only [Option.some.injEq] at he
          have hop' : PbsOp.schedule id' l' size sim' q' ∈ p.hist := by rw [hb]; simp [hop]
          rw [← Option.isSome_iff_exists, firstSim, List.findSome?_isSome_iff]
          exact ⟨_, hop', by rw [← he]; simp⟩
        | _ => simp at he
      obtain ⟨s', hs'⟩ := this
      rw [hs', hsims _ _ hs']
  have happ : ∀ s, appendsOf s before <+: appendsOf s p.hist := by
    intro s; rw [hb, appendsOf_append]; exact List.prefix_append _ _
  constructor
  · intro id v hm
    have hm' := hC.1.mem_iff.1 hm
    obtain ⟨s, hs', hws⟩ := List.mem_flatMap.1 hm'
    have hss := hmem s (List.mem_of_mem_filter hs')
    obtain ⟨clock, hpre⟩ := hn.jobs s (hsub.subset hss)
    have hrec := (records_prefix ((happ _).trans hpre)).subset (writtenSucc_mem _ _ _ _ hws)
    obtain ⟨sd, sm, h1, h2, h3⟩ := jobLoop_record _ _ _ _ _ _ _ _ _ _ hrec
    have h1' : (l, id, sd) ∈ s.samples := (sort_perm _).mem_iff.1 h1
    obtain ⟨e1, e2⟩ := hsd s hss _ h1'
    simp only at e1 e2
    rw [h2, hsim] at e2
    injection e2 with e2
    subst e2
    rw [e1] at h3
    exact (pbsCompute_ok env.md5 sm id _ v).1 h3.symm
  · intro hdie id hm
    have hm' := (hC.2.1.map (·.1)).mem_iff.1 hm
    simp only [List.map_flatMap, List.mem_flatMap] at hm'
    obtain ⟨s, hs', hws⟩ := hm'
    have hss := hmem s (List.mem_of_mem_filter hs')
    have hfin : s.pbsId ∈ qa.finished := by simpa using (List.mem_filter.1 hs').2
    obtain ⟨clock, hfull⟩ := hdie s (hsub.subset hss) hfin
    rw [hfull] at hws
    have hall : writtenRecords (jobAppends (fun l => Dict.get? p.world.disk.sims l) (pbsCompute env.md5) clock s.samples) =
        (sortByLevel s.samples).map fun t => (t.1, t.2.1, pbsCompute env.md5 ((env.sims[t.1]?).getD sim) t.2.1 t.2.2) := by
      apply jobLoop_all _ (fun k => (env.sims[k]?).getD sim)
      intro t ht
      have ht' := (sort_perm _).mem_iff.1 ht
      obtain ⟨-, e2⟩ := hsd s hss t ht'
      have hlt : ∃ sm, env.sims[t.1]? = some sm := by
        have hin : t ∈ MLMC.handed seed before := by
          rw [← ij1.all, List.mem_append]
          left
          rw [List.mem_flatMap]
          refine ⟨s, ?_, ht'⟩
          rw [← hsubx]; exact hss
        have hin2 : t ∈ MLMC.handed seed p.hist := by rw [hb, handed_append]; exact List.mem_append_left _ hin
        exact ⟨_, List.getElem?_eq_getElem (hlev _ hin2)⟩
      obtain ⟨sm, hsm⟩ := hlt
      rw [e2, hsm]; rfl
    rw [List.map_append, List.mem_append] at hws
    rcases hws with hw | hw
    · obtain ⟨⟨id', m⟩, hm2, rfl⟩ := List.mem_map.1 hw
      have hrec : (l, id', Except.error m) ∈ writtenRecords (jobAppends (fun l => Dict.get? p.world.disk.sims l) (pbsCompute env.md5) clock s.samples) := by
        rw [writtenFailed, List.mem_filterMap] at hm2
        obtain ⟨x, hx, he⟩ := hm2
        rw [writtenRecords, List.mem_filterMap]
        refine ⟨x, hx, ?_⟩
        cases x with
        | failed k id'' m' =>
          simp only at he
          split at he
          · rename_i hk; simp only [Option.some.injEq, Prod.mk.injEq] at he; obtain ⟨rfl, rfl⟩ := he; subst hk; rfl
          · simp at he
        | succ k id'' r' => simp at he
        | times rs => simp at he
      rw [hall] at hrec
      obtain ⟨t, ht, he⟩ := List.mem_map.1 hrec
      simp only [Prod.mk.injEq] at he
      obtain ⟨rfl, rfl, he⟩ := he
      obtain ⟨e1, -⟩ := hsd s hss t ((sort_perm _).mem_iff.1 ht)
      rw [hsim, e1] at he
      simp only [Option.getD_some] at he
      intro hw2
      have : pbsCompute env.md5 sim t.2.1 (seed t.2.1) = .error m := he
      cases ho : outcome env.md5 t.2.1 sim with
      | raised m' => rw [ho] at hw2; exact hw2
      | notPair m' => rw [ho] at hw2; exact hw2
      | pair f c =>
        have := (pbsCompute_ok env.md5 sim t.2.1 (seed t.2.1) (f, c)).2 ⟨ho, hw2⟩
        rw [this] at he; cases he
    · exfalso
      obtain ⟨⟨id', m⟩, hm2, rfl⟩ := List.mem_map.1 hw
      obtain ⟨id'', hm3, he⟩ := List.mem_map.1 hm2
      simp only [Prod.mk.injEq] at he
      obtain ⟨rfl, -⟩ := he
      rw [missingIds, List.mem_filter] at hm3
      obtain ⟨hx, hy⟩ := hm3
      simp only [decide_eq_true_eq] at hy
      apply hy
      rw [hall]
      rw [idsAt, List.mem_filterMap] at hx
      obtain ⟨t, ht, he⟩ := hx
      split at he
      · rename_i hk
        injection he with he
        refine List.mem_map.2 ⟨_, List.mem_map.2 ⟨t, (sort_perm _).mem_iff.2 ht, rfl⟩, ?_⟩
        simp [hk, he]
      · simp at he

/-- Results and failures in the answers: where they come from. -/
theorem delivered {env : PbsEnv Cfg K C} {p : PbsProg Cfg K C} (h : PbsCore env p) (hs : HandInv env.sims.length p.sys)
    (hn : PbsNormal env p) (l : Nat) (sim : PoolSim Cfg K C) (hsim : env.sims[l]? = some sim) (a : PoolAnswer (PairRes K)) (ha : a ∈ answers (p.outs env)) :
    (∀ id v, (id, v) ∈ atLevel a.succ l → outcome env.md5 id sim = .pair v.1 v.2 ∧ WellFormed sim.fmt (outcome env.md5 id sim)) ∧
    (NoJobDies env p → ∀ id, id ∈ (atLevel a.failed l).map (·.1) → ¬ WellFormed sim.fmt (outcome env.md5 id sim)) := by
  obtain ⟨before, o, rest, hb, hans⟩ := answer_call _ _ _ _ ha
  obtain ⟨q, qa, rfl⟩ := answer_get _ _ _ _ hans
  have hq' : PlainQsub p.hist := hn.plain
  have ij := run_inv (computeSeed env.md5) p.hist _ [] [] (create_jobInv false [] ({} : PbsDisk (PoolSim Cfg K C) (PairRes K))) hq' h.noR
  rw [List.nil_append, List.nil_append] at ij
  obtain ⟨d1, d2⟩ := delivered_at h.world h.noR h.noP h.sims (by
    intro t ht
    rw [h.handed] at ht
    obtain ⟨e, he, rfl⟩ := List.mem_map.1 ht
    obtain ⟨_, k, hk, _⟩ := hs.form e he
    have := (List.getElem?_eq_some_iff.1 hk).1
    rwa [hs.len] at this) (samples_nodup ij (handed_nodup h hs)) hn l sim hsim a before rest q qa hb hans
  exact ⟨d1, fun hdie => d2 fun s hs hf => hdie before q qa rest hb s hs hf⟩

end MLMC
