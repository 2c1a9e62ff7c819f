import Verif.Spec.ProgramPar
import Verif.Proofs.Program
import Verif.Proofs.PbsJob
import Verif.Props.Parallel
import Mathlib.Algebra.Order.Group.Multiset
import Mathlib.Tactic.Abel
/-! Helper lemmas about whole programs with parallel pools. -/
namespace MLMC
variable {Cfg K C : Type}

/-- The element a sample of level `e.1` becomes. -/
def itemOf (env : ParEnv Cfg K C) (e : Nat × SampleId) : ParItem K :=
  match env.sims[e.1]? with
  | some sim => parItem env.md5 sim e.2
  | none => ⟨e.1, e.2, .error []⟩

/-- What holds of queues and tasks at any moment; `H`: elements of the samples given to the pool so far. -/
structure ParOk (s : Par (ParItem K)) (tasks : List (Option (ParItem K))) (H : List (ParItem K)) : Prop where
  snap : SnapInv s
  run : s.running = (H.length : ℤ) - s.returned.length
  cons : (s.returned ++ s.queued ++ tasks.filterMap id).Subperm H

theorem par_one {T : Type} (s : Par T) (e : ParEv T) (h : SnapInv s) :
    ((s.step e).returned ++ (s.step e).queued).Subperm (s.returned ++ s.queued ++ putItems [e]) ∧
    (s.step e).running = s.running + schedCount s e - ((s.step e).returned.length - s.returned.length : ℤ) := by
  obtain ⟨h1, h2, _⟩ := par_conserves [e] s h
  exact ⟨h1, by simpa [nScheduled, Par.run] using h2⟩

theorem step_put_returned {T : Type} (s : Par T) (k : QKey) (x : T) : (s.step (.put k x)).returned = s.returned ∧ (s.step (.put k x)).pc = s.pc := by
  simp only [Par.step]; split <;> exact ⟨rfl, rfl⟩

theorem step_main_returned {T : Type} (s : Par T) : ∃ ys, (s.step .main).returned = s.returned ++ ys := by
  simp only [Par.step]
  split
  · exact ⟨[], by simp⟩
  · split <;> exact ⟨[], by simp⟩
  · exact ⟨[], by simp⟩
  · exact ⟨[], by simp⟩
  · exact ⟨_, rfl⟩

theorem finish_ok {p : ParProg K} {H} (h : ParOk p.pool p.tasks H) (i : Nat) :
    ParOk (p.finish i).pool (p.finish i).tasks H ∧ (p.finish i).sys = p.sys ∧ (p.finish i).pool.returned = p.pool.returned ∧
      (p.finish i).pool.pc = p.pool.pc := by
  unfold ParProg.finish
  split
  · exact ⟨h, rfl, rfl, rfl⟩
  · rename_i ht
    obtain ⟨hi, ht⟩ := List.getElem?_eq_some_iff.1 ht
    obtain ⟨a1, a2⟩ := par_one p.pool .workerError h.snap
    refine ⟨⟨snapInv_step _ _ h.snap, h.run, ?_⟩, rfl, rfl, rfl⟩
    refine List.Subperm.trans ?_ h.cons
    have hp := (List.getElem_cons_eraseIdx_perm hi).filterMap id
    rw [ht] at hp
    exact (List.Perm.append_left _ (by simpa using hp)).subperm
  · rename_i x ht
    obtain ⟨hi, ht⟩ := List.getElem?_eq_some_iff.1 ht
    obtain ⟨a1, a2⟩ := par_one p.pool (.put x.key x) h.snap
    obtain ⟨b1, b2⟩ := step_put_returned p.pool x.key x
    refine ⟨⟨snapInv_step _ _ h.snap, ?_, ?_⟩, rfl, b1, b2⟩
    · rw [a2, b1, h.run]
      simp [schedCount]
    · refine List.Subperm.trans ?_ h.cons
      have hp := (List.getElem_cons_eraseIdx_perm hi).filterMap id
      rw [ht] at hp
      refine ((List.subperm_append_right _).2 a1).trans ?_
      rw [List.append_assoc]
      refine (List.Perm.append_left _ ?_).subperm
      simpa [putItems] using hp

theorem finishAll_ok : ∀ (is : List Nat) {p : ParProg K} {H}, ParOk p.pool p.tasks H →
    ParOk (p.finishAll is).pool (p.finishAll is).tasks H ∧ (p.finishAll is).sys = p.sys ∧ (p.finishAll is).pool.returned = p.pool.returned ∧
      (p.finishAll is).pool.pc = p.pool.pc := by
  intro is
  induction is with
  | nil => intro p H h; exact ⟨h, rfl, rfl, rfl⟩
  | cons i is ih =>
    intro p H h
    obtain ⟨a1, a2, a3, a4⟩ := finish_ok h i
    obtain ⟨b1, b2, b3, b4⟩ := ih a1
    exact ⟨b1, b2.trans a2, b3.trans a3, b4.trans a4⟩

theorem main_ok {s : Par (ParItem K)} {tasks H} (h : ParOk s tasks H) : ParOk (s.step .main) tasks H := by
  obtain ⟨a1, a2⟩ := par_one s .main h.snap
  refine ⟨snapInv_step _ _ h.snap, ?_, ?_⟩
  · rw [a2, h.run]
    have : schedCount s (.main : ParEv (ParItem K)) = 0 := rfl
    rw [this]; push_cast; ring
  · refine List.Subperm.trans ?_ h.cons
    exact (List.subperm_append_right _).2 (by simpa [putItems] using a1)

theorem getSteps_ok : ∀ (steps : List (List Nat)) {p q : ParProg K} {H}, ParOk p.pool p.tasks H → p.getSteps steps = some q →
    ParOk q.pool q.tasks H ∧ q.sys = p.sys ∧ q.pool.pc = .idle ∧ ∃ ys, q.pool.returned = p.pool.returned ++ ys := by
  intro steps
  induction steps with
  | nil => intro p q H _ hq; cases hq
  | cons is rest ih =>
    intro p q H h hq
    obtain ⟨a1, a2, a3, _⟩ := finishAll_ok is h
    have b1 := main_ok a1
    obtain ⟨ys, b2⟩ := step_main_returned (p.finishAll is).pool
    simp only [ParProg.getSteps] at hq
    split at hq
    · rename_i hidle
      split at hq
      · injection hq with hq
        subst hq
        refine ⟨b1, a2, ?_, ys, by rw [← a3]; exact b2⟩
        revert hidle
        generalize ((p.finishAll is).pool.step .main).pc = pc
        cases pc <;> simp [MainPc.isIdle]
      · cases hq
    · obtain ⟨c1, c2, c3, zs, c4⟩ := ih (p := { p.finishAll is with pool := (p.finishAll is).pool.step .main }) b1 hq
      refine ⟨c1, c2.trans a2, c3, ys ++ zs, ?_⟩
      rw [c4, ← List.append_assoc, ← a3, ← b2]

theorem submit_ok {p : ParProg K} {H} (h : ParOk p.pool p.tasks H) (hidle : p.pool.pc = .idle) (t : Option (ParItem K)) (x : ParItem K)
    (ht : ∀ y, t = some y → y = x) : ParOk (p.submit t).pool (p.submit t).tasks (H ++ [x]) ∧ (p.submit t).pool.pc = .idle ∧
      (p.submit t).sys = p.sys ∧ (p.submit t).pool.returned = p.pool.returned := by
  have hs : p.pool.step .schedule = { p.pool with running := p.pool.running + 1 } := by
    simp only [Par.step, hidle]; rfl
  refine ⟨⟨snapInv_step _ _ h.snap, ?_, ?_⟩, ?_, rfl, ?_⟩
  · show (p.pool.step .schedule).running = _ - ((p.pool.step .schedule).returned.length : ℤ)
    rw [hs]; simp only [h.run, List.length_append, List.length_singleton]; push_cast; ring
  · show ((p.pool.step .schedule).returned ++ (p.pool.step .schedule).queued ++ (p.tasks ++ [t]).filterMap id).Subperm _
    rw [hs, List.filterMap_append, ← List.append_assoc]
    refine ((List.subperm_append_right _).2 h.cons).trans ((List.subperm_append_left _).2 ?_)
    cases t with
    | none => exact List.nil_subperm
    | some y => rw [ht y rfl]; exact List.Subperm.refl _
  · show (p.pool.step .schedule).pc = _
    rw [hs]; exact hidle
  · show (p.pool.step .schedule).returned = _
    rw [hs]

theorem parItem_level (md5 : SampleId → List UInt8) (sim : PoolSim Cfg K C) (id : SampleId) : (parItem md5 sim id).level = sim.level := rfl

theorem parItem_cases (md5 : SampleId → List UInt8) (sim : PoolSim Cfg K C) (id : SampleId) :
    (∃ f c, outcome md5 id sim = .pair f c ∧ WellFormed sim.fmt (outcome md5 id sim) ∧ parItem md5 sim id = ⟨sim.level, id, .ok (f, c)⟩) ∨
    (¬ WellFormed sim.fmt (outcome md5 id sim) ∧ ∃ e, parItem md5 sim id = ⟨sim.level, id, .error e⟩) := by
  obtain ⟨h1, h2, h3⟩ := C11_success_iff_well_formed md5 sim id none 0
  simp only [Option.getD_none] at h1 h2
  by_cases hw : (calculateSample md5 sim id none 0).err = []
  · left
    obtain ⟨f, c, e1, e2⟩ := h2 hw
    refine ⟨f, c, e1, h1.1 hw, ?_⟩
    simp only [parItem, hw, e2, h3]
  · right
    refine ⟨fun h => hw (h1.2 h), (calculateSample md5 sim id none 0).err, ?_⟩
    simp only [parItem, h3]
    congr 1
    cases he : (calculateSample md5 sim id none 0).err with
    | nil => exact absurd he hw
    | cons a b => rfl

/-- What is stored for level `l`, as elements. -/
def storedItems (sops : List (StoreOp (ResPart K × ResPart K))) (l : Nat) : List (ParItem K) :=
  (savedSucc sops l).map (fun s => ⟨l, s.1, .ok s.2⟩) ++ (savedFailed sops l).map (fun s => ⟨l, s.1, .error s.2⟩)

theorem atLevel_group {α : Type} (rs : List (Nat × α)) (l : Nat) :
    atLevel (groupByLevel rs) l = rs.filterMap fun r => if r.1 = l then some r.2 else none := by
  rw [atLevel_of_nodup _ (group_nodup rs), group_get]

theorem items_split (xs : List (ParItem K)) (l : Nat) :
    ((atLevel (groupByLevel (itemSucc xs)) l).map (fun s : SampleId × (ResPart K × ResPart K) => (⟨l, s.1, .ok s.2⟩ : ParItem K)) ++
      (atLevel (groupByLevel (itemFailed xs)) l).map (fun s : SampleId × Msg => (⟨l, s.1, .error s.2⟩ : ParItem K))).Perm (xs.filter fun x => x.level = l) := by
  rw [atLevel_group, atLevel_group]
  induction xs with
  | nil => exact List.Perm.refl _
  | cons x xs ih =>
    obtain ⟨lv, id, r⟩ := x
    by_cases e : lv = l
    · subst e
      cases r with
      | ok v =>
        simp only [itemSucc, itemFailed, List.filterMap_cons, if_true, List.map_cons, List.cons_append, List.filter_cons, decide_true]
        exact List.Perm.cons _ ih
      | error m =>
        simp only [itemSucc, itemFailed, List.filterMap_cons, if_true, List.map_cons, List.filter_cons, decide_true]
        exact List.perm_middle.trans (List.Perm.cons _ ih)
    · cases r <;>
      · simp only [itemSucc, itemFailed, List.filterMap_cons, e, if_false, List.filter_cons, decide_false]
        exact ih

/-- What holds between any two elementary actions of the program. -/
structure ParInv (env : ParEnv Cfg K C) (p : ParProg K) (sops : List (StoreOp (ResPart K × ResPart K))) : Prop where
  ok : ParOk p.pool p.tasks ((p.sys.handed ++ p.sys.renewed).map (itemOf env))
  idle : p.pool.pc = .idle
  len : p.sys.nSched.length = env.sims.length
  store : p.sys.store = hdfRun (hdfFresh _ env.sims.length) sops
  cov : ∀ (l k : Nat), p.sys.nSched[l]? = some k → (p.sys.handed.filter fun e => e.1 = l).map (·.2) = (List.range k).map (sampleTag l)
  stored : ∀ l, (p.pool.returned.filter fun x => x.level = l).Perm
    (storedItems sops l ++ (p.sys.renewed.filter fun e => e.1 = l).map (itemOf env))
  lvl : ∀ e ∈ p.sys.handed ++ p.sys.renewed, e.1 < env.sims.length

theorem parOk_perm {s : Par (ParItem K)} {tasks} {H H' : List (ParItem K)} (h : ParOk s tasks H) (hp : H.Perm H') : ParOk s tasks H' :=
  ⟨h.snap, by rw [h.run, hp.length_eq], h.cons.trans hp.subperm⟩

theorem parTask_item {env : ParEnv Cfg K C} {l : Nat} {sim : PoolSim Cfg K C} (hs : env.sims[l]? = some sim) (id : SampleId) (y : ParItem K)
    (h : parTask env.md5 sim id = some y) : y = itemOf env (l, id) := by
  simp only [parTask] at h
  split at h
  · cases h
  · injection h with h
    simp only [itemOf, hs, h]

theorem inv_finishAll {env : ParEnv Cfg K C} {p : ParProg K} {sops} (h : ParInv env p sops) (is : List Nat) :
    ParInv env (p.finishAll is) sops ∧ (p.finishAll is).sys = p.sys := by
  obtain ⟨a1, a2, a3, a4⟩ := finishAll_ok is h.ok
  exact ⟨⟨by rw [a2]; exact a1, a4.trans h.idle, by rw [a2]; exact h.len, by rw [a2]; exact h.store, by rw [a2]; exact h.cov,
    by rw [a2, a3]; exact h.stored, by rw [a2]; exact h.lvl⟩, a2⟩

theorem inv_parAct {env : ParEnv Cfg K C} {p q : ParProg K} {sops} (h : ParInv env p sops) (is : List Nat) (a : SchedAct)
    (hq : p.act env is a = some q) : ∃ sops', ParInv env q sops' ∧ q.sys = a.apply p.sys := by
  cases a with
  | begin l =>
    simp only [ParProg.act, Option.some.injEq] at hq
    subst hq
    exact ⟨sops, ⟨h.ok, h.idle, h.len, h.store, h.cov, h.stored, h.lvl⟩, rfl⟩
  | save l =>
    simp only [ParProg.act, Option.some.injEq] at hq
    subst hq
    refine ⟨sops ++ [.scheduled l p.sys.pending], ⟨h.ok, h.idle, h.len, ?_, h.cov, ?_, h.lvl⟩, rfl⟩
    · rw [hdfRun_snoc, ← h.store]; rfl
    · intro l'
      have := h.stored l'
      unfold storedItems at this ⊢
      rw [progSucc_snoc, progFailed_snoc, List.append_nil]
      exact this
  | hand l =>
    simp only [ParProg.act] at hq
    split at hq
    · rename_i k sim hk hs
      injection hq with hq
      obtain ⟨h1, h2⟩ := inv_finishAll h is
      obtain ⟨b1, b2, b3, b4⟩ := submit_ok h1.ok h1.idle (parTask env.md5 sim (sampleTag l k)) (itemOf env (l, sampleTag l k)) (fun y hy => parTask_item hs _ y hy)
      have hsys : q.sys = (SchedAct.hand l).apply p.sys := by rw [← hq, ← h2]; rfl
      have hpool : q.pool = ((p.finishAll is).submit (parTask env.md5 sim (sampleTag l k))).pool := by rw [← hq]
      have htasks : q.tasks = ((p.finishAll is).submit (parTask env.md5 sim (sampleTag l k))).tasks := by rw [← hq]
      refine ⟨sops, ⟨?_, ?_, ?_, ?_, ?_, ?_, ?_⟩, hsys⟩
      · rw [hpool, htasks, hsys]
        refine parOk_perm b1 ?_
        simp only [SchedAct.apply, hk, h2, List.map_append, List.map_cons, List.map_nil]
        rw [List.append_assoc, List.append_assoc]
        exact List.Perm.append_left _ List.perm_append_comm
      · rw [hpool]; exact b2
      · rw [hsys]; simp only [SchedAct.apply, hk, List.length_set]; exact h.len
      · rw [hsys]; simp only [SchedAct.apply, hk]; exact h.store
      · intro l' k' hk'
        rw [hsys] at hk' ⊢
        simp only [SchedAct.apply, hk, List.getElem?_set] at hk' ⊢
        rw [List.filter_append, List.map_append]
        by_cases e : l = l'
        · subst e
          have hl : l < p.sys.nSched.length := (List.getElem?_eq_some_iff.1 hk).1
          simp only [if_true, hl] at hk'
          injection hk' with hk'
          subst hk'
          rw [h.cov l k hk, List.range_succ, List.map_append]
          simp
        · simp only [e, if_false] at hk'
          rw [h.cov l' k' hk']
          simp [e]
      · intro l'
        rw [hpool, b4, hsys]
        simp only [SchedAct.apply, hk]
        have := h1.stored l'
        rw [h2] at this
        exact this
      · rw [hsys]
        simp only [SchedAct.apply, hk]
        intro e he
        simp only [List.mem_append, List.mem_singleton] at he
        rcases he with (he | rfl) | he
        · exact h.lvl e (by simp [he])
        · exact (List.getElem?_eq_some_iff.1 hs).1
        · exact h.lvl e (by simp [he])
    · cases hq

theorem inv_parActs {env : ParEnv Cfg K C} (fin : Nat → List Nat) : ∀ (as : List SchedAct) (i : Nat)
    {p q : ParProg K} {sops}, ParInv env p sops → p.acts env fin i as = some q →
    ∃ sops', ParInv env q sops' ∧ q.sys = runActs as p.sys := by
  intro as
  induction as with
  | nil => intro i p q sops h hq; simp only [ParProg.acts, Option.some.injEq] at hq; subst hq; exact ⟨sops, h, rfl⟩
  | cons a as ih =>
    intro i p q sops h hq
    simp only [ParProg.acts] at hq
    cases hr : p.act env (fin i) a with
    | none => rw [hr] at hq; cases hq
    | some r =>
      rw [hr] at hq
      obtain ⟨s1, h1, h2⟩ := inv_parAct h _ a hr
      obtain ⟨s2, h3, h4⟩ := ih _ h1 hq
      exact ⟨s2, h3, by rw [h4, h2]; rfl⟩

theorem inv_parCollect {env : ParEnv Cfg K C} {p q : ParProg K} {sops} (h : ParInv env p sops) (r : ParRound) {n : ℤ}
    (hq : p.collect r = some (n, q)) : ∃ sops', ParInv env q sops' ∧ (∃ a b c, q.sys = p.sys.step (.poll a b c)) ∧ n = q.pool.running := by
  simp only [ParProg.collect] at hq
  cases hg : p.getSteps r.steps with
  | none => rw [hg] at hq; cases hq
  | some x =>
    rw [hg] at hq
    simp only [Option.map_some, Option.some.injEq, Prod.mk.injEq] at hq
    obtain ⟨rfl, rfl⟩ := hq
    obtain ⟨a1, a2, a3, ys, a4⟩ := getSteps_ok r.steps h.ok hg
    have hd : x.pool.returned.drop p.pool.returned.length = ys := by rw [a4]; simp
    rw [hd]
    have e : ∀ (o1 o2 : StoreOp (ResPart K × ResPart K)), sops ++ [o1, o2] = (sops ++ [o1]) ++ [o2] := by intros; simp
    refine ⟨sops ++ [.samples (groupByLevel (itemSucc ys)) (groupByLevel (itemFailed ys)), .nOps r.times],
      ⟨?_, a3, ?_, ?_, ?_, ?_, ?_⟩, ⟨groupByLevel (itemSucc ys), groupByLevel (itemFailed ys), r.times, ?_⟩, rfl⟩
    · simp only [a2]; exact a1
    · simp only [a2]; exact h.len
    · rw [e, hdfRun_snoc, hdfRun_snoc, ← h.store]
      simp only [a2]; rfl
    · simp only [a2]; exact h.cov
    · intro l
      simp only [a2, a4]
      unfold storedItems
      rw [e, progSucc_snoc, progSucc_snoc, progFailed_snoc, progFailed_snoc]
      simp only [List.append_nil, List.filter_append, List.map_append]
      have hs := h.stored l
      have hi := items_split ys l
      unfold storedItems at hs
      rw [← Multiset.coe_eq_coe] at hs hi ⊢
      simp only [← Multiset.coe_add] at hs hi ⊢
      rw [hs, ← hi]
      abel
    · simp only [a2]; exact h.lvl
    · simp only [a2]; rfl

theorem itemOf_level {env : ParEnv Cfg K C} (he : env.Proper) (e : Nat × SampleId) : (itemOf env e).level = e.1 ∧ (itemOf env e).id = e.2 := by
  unfold itemOf
  split
  · rename_i sim hs
    refine ⟨he _ _ hs, ?_⟩
    rcases parItem_cases env.md5 sim e.2 with ⟨f, c, _, _, h⟩ | ⟨_, m, h⟩ <;> rw [h]
  · exact ⟨rfl, rfl⟩

theorem storedItem_eq {env : ParEnv Cfg K C} (he : env.Proper) {p : ParProg K} {sops} (h : ParInv env p sops) {l : Nat} {x : ParItem K}
    (hx : x ∈ storedItems sops l) : x = itemOf env (l, x.id) := by
  have h1 : x ∈ p.pool.returned.filter fun x => x.level = l := (h.stored l).symm.subset (List.mem_append_left _ hx)
  obtain ⟨h2, h3⟩ := List.mem_filter.1 h1
  have h4 : x ∈ (p.sys.handed ++ p.sys.renewed).map (itemOf env) := h.ok.cons.subset (by simp [h2])
  obtain ⟨e, _, rfl⟩ := List.mem_map.1 h4
  obtain ⟨a, b⟩ := itemOf_level he e
  rw [a] at h3
  simp only [decide_eq_true_eq] at h3
  rw [b, ← h3]

theorem parRenewLoop {env : ParEnv Cfg K C} (fin : Nat → List Nat) : ∀ (L : List (Nat × SampleId)) (i : Nat) {p q : ParProg K},
    ParOk p.pool p.tasks ((p.sys.handed ++ p.sys.renewed).map (itemOf env)) → p.pool.pc = .idle → p.renewLoop env fin i L = some q →
    ParOk q.pool q.tasks ((q.sys.handed ++ q.sys.renewed).map (itemOf env)) ∧ q.pool.pc = .idle ∧
      q.sys = { p.sys with renewed := p.sys.renewed ++ L } ∧ q.pool.returned = p.pool.returned ∧ ∀ e ∈ L, e.1 < env.sims.length := by
  intro L
  induction L with
  | nil => intro i p q h hi hq; simp only [ParProg.renewLoop, Option.some.injEq] at hq; subst hq; exact ⟨h, hi, by simp, rfl, by simp⟩
  | cons e L ih =>
    intro i p q h hi hq
    obtain ⟨l, id⟩ := e
    simp only [ParProg.renewLoop] at hq
    split at hq
    · cases hq
    · rename_i sim hs
      obtain ⟨a1, a2, a3, a4⟩ := finishAll_ok (fin i) h
      obtain ⟨b1, b2, b3, b4⟩ := submit_ok a1 (a4.trans hi) (parTask env.md5 sim id) (itemOf env (l, id)) (fun y hy => parTask_item hs _ y hy)
      generalize hr : (p.finishAll (fin i)).submit (parTask env.md5 sim id) = r at b1 b2 b3 b4 hq
      obtain ⟨c1, c2, c3, c4, c5⟩ := ih (i + 1) (p := { r with sys := { r.sys with renewed := r.sys.renewed ++ [(l, id)] } }) (by
        simp only [b3, a2]
        refine parOk_perm b1 ?_
        simp) b2 hq
      refine ⟨c1, c2, ?_, by rw [c4]; exact b4.trans a3, ?_⟩
      · rw [c3]
        simp [b3, a2]
      · intro e he
        rcases List.mem_cons.1 he with rfl | he
        · exact (List.getElem?_eq_some_iff.1 hs).1
        · exact c5 e he

theorem inv_parRenew {env : ParEnv Cfg K C} (he : env.Proper) {p q : ParProg K} {sops} (h : ParInv env p sops) (fin : Nat → List Nat)
    (hq : p.renew env fin = some q) : ∃ sops', ParInv env q sops' ∧ q.sys = p.sys.renew := by
  have hfs : hdfFailedSamples p.sys.store = .ok ((List.range env.sims.length).map fun l => (savedFailed sops l).map (·.1)) := by
    rw [h.store]; exact failed_fresh _ _
  simp only [ParProg.renew, hfs] at hq
  set L := ((List.range env.sims.length).map fun l => (savedFailed sops l).map (·.1)).zipIdx.flatMap fun (ids, l) => ids.map fun i => (l, i) with hL
  cases hr : p.renewLoop env fin 0 L with
  | none => rw [hr] at hq; cases hq
  | some r =>
    rw [hr] at hq
    simp only [Option.map_some, Option.some.injEq] at hq
    obtain ⟨a1, a2, a3, a4, a5⟩ := parRenewLoop fin L 0 h.ok h.idle hr
    have hsys : q.sys = p.sys.renew := by
      rw [← hq]
      simp only [Sys.renew, hfs, a3, hL]
    have hstore : q.sys.store = applyOps (clearFailedOps p.sys.store) p.sys.store := by rw [← hq]; simp only [a3]
    refine ⟨sops ++ [.clearFailed], ⟨?_, ?_, ?_, ?_, ?_, ?_, ?_⟩, hsys⟩
    · rw [← hq]; exact a1
    · rw [← hq]; exact a2
    · rw [← hq]; simp only [a3]; exact h.len
    · rw [hdfRun_snoc, ← h.store, hstore]; rfl
    · rw [← hq]; simp only [a3]; exact h.cov
    · intro l
      have hren : q.sys.renewed = p.sys.renewed ++ L := by rw [← hq]; simp only [a3]
      have hret : q.pool.returned = p.pool.returned := by rw [← hq]; exact a4
      rw [hret, hren]
      have hs := h.stored l
      have hfail : (savedFailed sops l).map (fun s => (⟨l, s.1, .error s.2⟩ : ParItem K)) = ((savedFailed sops l).map (·.1)).map fun id => itemOf env (l, id) := by
        rw [List.map_map]
        apply List.map_congr_left
        intro s hsm
        exact storedItem_eq he h (l := l) (x := ⟨l, s.1, .error s.2⟩) (List.mem_append_right _ (List.mem_map.2 ⟨s, hsm, rfl⟩))
      have hLf : (L.filter fun e => e.1 = l).map (itemOf env) = if l < env.sims.length then ((savedFailed sops l).map (·.1)).map fun id => itemOf env (l, id) else [] := by
        have := levelPairs_filter env.sims.length (fun l => (savedFailed sops l).map (·.1)) l
        rw [← hL] at this
        have e : (L.filter fun e => e.1 = l).map (itemOf env) = ((L.filter fun e => e.1 = l).map (·.2)).map fun id => itemOf env (l, id) := by
          rw [List.map_map]
          apply List.map_congr_left
          intro x hx
          have := (List.mem_filter.1 hx).2
          simp only [decide_eq_true_eq] at this
          obtain ⟨a, b⟩ := x
          simp only at this
          subst this; rfl
        rw [e, this]
        split <;> rfl
      have hlt : ¬ l < env.sims.length → savedFailed sops l = [] := by
        intro hc
        by_contra hne
        obtain ⟨s, hsm⟩ := List.exists_mem_of_ne_nil _ hne
        have hm : (⟨l, s.1, .error s.2⟩ : ParItem K) ∈ p.pool.returned.filter fun x => x.level = l :=
          hs.symm.subset (List.mem_append_left _ (List.mem_append_right _ (List.mem_map.2 ⟨s, hsm, rfl⟩)))
        have h4 : (⟨l, s.1, .error s.2⟩ : ParItem K) ∈ (p.sys.handed ++ p.sys.renewed).map (itemOf env) :=
          h.ok.cons.subset (by simp [(List.mem_filter.1 hm).1])
        obtain ⟨e, he1, he2⟩ := List.mem_map.1 h4
        have h5 := (itemOf_level he e).1
        rw [he2] at h5
        exact hc (by rw [show l = e.1 from h5]; exact h.lvl e he1)
      unfold storedItems at hs ⊢
      rw [progSucc_snoc, progFailed_snoc, List.append_nil, List.filter_append, List.map_append, hLf]
      rw [hfail] at hs
      have hlt' : (if l < env.sims.length then ((savedFailed sops l).map (·.1)).map fun id => itemOf env (l, id) else []) =
          ((savedFailed sops l).map (·.1)).map fun id => itemOf env (l, id) := by
        split
        · rfl
        · rename_i hc; rw [hlt hc]; rfl
      rw [hlt']
      rw [← Multiset.coe_eq_coe] at hs ⊢
      simp only [← Multiset.coe_add, List.map_nil, Multiset.coe_nil] at hs ⊢
      rw [hs]
      abel
    · rw [← hq]
      simp only [a3]
      intro e he
      simp only [List.mem_append] at he
      rcases he with he | he | he
      · exact h.lvl e (by simp [he])
      · exact h.lvl e (by simp [he])
      · exact a5 e he

/-- What holds between calls. -/
structure ParAt (env : ParEnv Cfg K C) (w : Nat → Want) (p : ParProg K) : Prop where
  inv : ∃ sops, ParInv env p sops
  sched : SchedInv env.sims.length p.sys
  tlen : p.sys.target.length = env.sims.length
  want : ∀ l, l < env.sims.length → p.sys.target[l]? = some (w l).target ∧ p.sys.nSched[l]? = some (w l).count

theorem parAt_collect {env : ParEnv Cfg K C} {w : Nat → Want} {p q : ParProg K} (h : ParAt env w p) (r : ParRound) {n : ℤ}
    (hq : p.collect r = some (n, q)) : ParAt env w q ∧ n = q.pool.running := by
  obtain ⟨sops, hi⟩ := h.inv
  obtain ⟨s, h1, ⟨a, b, c, e⟩, h2⟩ := inv_parCollect hi r hq
  exact ⟨⟨⟨s, h1⟩, by rw [e]; exact schedInv_step h.sched _ rfl, by rw [e]; exact h.tlen, by rw [e]; exact h.want⟩, h2⟩

theorem parAt_wait {env : ParEnv Cfg K C} {w : Nat → Want} (timeout : ℚ) : ∀ (rs : List ParRound) {p q : ParProg K}, ParAt env w p →
    p.wait timeout rs = some q → ParAt env w q ∧ (timeout ≤ 0 → q.pool.running ≤ 0) := by
  intro rs
  induction rs with
  | nil => intro p q _ hq; cases hq
  | cons r rs ih =>
    intro p q h hq
    simp only [ParProg.wait] at hq
    split at hq
    · cases hq
    · rename_i n r' hr
      obtain ⟨h1, h2⟩ := parAt_collect h _ hr
      split at hq
      · rename_i hc
        injection hq with hq; subst hq; exact ⟨h1, fun ht => absurd hc.1 (not_lt.2 ht)⟩
      · split at hq
        · exact ih h1 hq
        · rename_i hc
          injection hq with hq; subst hq; exact ⟨h1, fun _ => by rw [← h2]; exact not_lt.1 hc⟩

theorem parAt_ask {env : ParEnv Cfg K C} {w : Nat → Want} {p q : ParProg K} (h : ParAt env w p) (timeout : Option ℚ) (rs : List ParRound)
    (hq : p.ask timeout rs = some q) : ParAt env w q := by
  cases timeout with
  | none => exact (parAt_wait 0 rs h hq).1
  | some t =>
    simp only [ParProg.ask] at hq
    split at hq
    · injection hq with hq; subst hq; exact h
    · exact (parAt_wait t rs h hq).1

theorem parAt_step {env : ParEnv Cfg K C} (he : env.Proper) {w : Nat → Want} {p q : ParProg K} (h : ParAt env w p) (o : ParOp)
    (ho : o.Proper env.sims.length) (hq : p.step env o = some q) : ParAt env (fun l => (w l).step l o.call) q := by
  cases o with
  | setInitial v =>
    obtain ⟨sops, hi⟩ := h.inv
    simp only [ParProg.step, Option.some.injEq] at hq
    subst hq
    refine ⟨⟨sops, hi.ok, hi.idle, hi.len, hi.store, hi.cov, hi.stored, hi.lvl⟩, schedInv_step h.sched (.setInitial v) rfl, ho, ?_⟩
    intro l hl
    refine ⟨?_, (h.want l hl).2⟩
    have hl' : l < v.length := by rw [show v.length = _ from ho]; exact hl
    simp [Want.step, hl', ParOp.call]
  | setTarget v =>
    obtain ⟨sops, hi⟩ := h.inv
    have hv : v.length ≤ p.sys.target.length := by rw [h.tlen]; exact ho
    simp only [ParProg.step, hv, if_true, Option.some.injEq] at hq
    subst hq
    refine ⟨⟨sops, hi.ok, hi.idle, hi.len, hi.store, hi.cov, hi.stored, hi.lvl⟩, schedInv_step h.sched (.setTarget v) rfl, ?_, ?_⟩
    · show (setLevelTarget _ _).length = _
      rw [setLevelTarget_len]; exact h.tlen
    · intro l hl
      show (setLevelTarget _ _)[l]? = _ ∧ p.sys.nSched[l]? = _
      rw [progTarget_get, (h.want l hl).1, (h.want l hl).2]
      simp only [Want.step, ParOp.call]
      cases v[l]? <;> simp
  | ask timeout rounds => exact parAt_ask h timeout rounds hq
  | schedule timeout rounds fin =>
    simp only [ParProg.step] at hq
    cases ha : p.ask timeout rounds with
    | none => rw [ha] at hq; cases hq
    | some r =>
      rw [ha] at hq
      simp only [Option.bind_some, ParProg.scheduleSamples] at hq
      have h2 := parAt_ask h timeout rounds ha
      obtain ⟨sr, hr⟩ := h2.inv
      have hl : r.sys.target.length = r.sys.nSched.length := by rw [h2.tlen, hr.len]
      rw [if_pos hl] at hq
      obtain ⟨s, g3, g2⟩ := inv_parActs fin _ _ hr hq
      have g2 : q.sys = r.sys.schedule := by rw [g2, Sys.schedule, if_pos (Or.inl hl)]
      obtain ⟨c1, _, _, _, c5, _, _⟩ := schedule_closed r.sys (Or.inl hl)
      refine ⟨⟨s, g3⟩, ?_, ?_, ?_⟩
      · rw [g2]; exact schedInv_schedule h2.sched
      · rw [g2, c1]; exact h2.tlen
      · intro l hl
        rw [g2, c1, c5, plan_get, (h2.want l hl).1, (h2.want l hl).2]
        simp only [Want.step, ParOp.call, Option.map_some, Option.getD_some, add_planCount, and_self]
  | renew fin =>
    obtain ⟨sops, hi⟩ := h.inv
    obtain ⟨s, g3, g2⟩ := inv_parRenew he hi fin hq
    refine ⟨⟨s, g3⟩, ?_, ?_, ?_⟩
    · rw [g2]; exact schedInv_step h.sched .renew rfl
    · rw [g2]; simp only [Sys.renew]; split <;> exact h.tlen
    · rw [g2]; simp only [Sys.renew]; split <;> exact h.want
  | pause is =>
    obtain ⟨sops, hi⟩ := h.inv
    simp only [ParProg.step, Option.some.injEq] at hq
    subst hq
    obtain ⟨h1, h2⟩ := inv_finishAll hi is
    exact ⟨⟨sops, h1⟩, by rw [h2]; exact h.sched, by rw [h2]; exact h.tlen, by rw [h2]; exact h.want⟩

theorem parAt_run {env : ParEnv Cfg K C} (he : env.Proper) : ∀ (ops : List ParOp) {w : Nat → Want} {p q : ParProg K}, ParAt env w p →
    (∀ o ∈ ops, o.Proper env.sims.length) → p.run env ops = some q →
    ParAt env (fun l => (ops.map (·.call)).foldl (Want.step l) (w l)) q := by
  intro ops
  induction ops with
  | nil => intro w p q h _ hq; simp only [ParProg.run, Option.some.injEq] at hq; subst hq; exact h
  | cons o ops ih =>
    intro w p q h ho hq
    simp only [ParProg.run] at hq
    cases hs : p.step env o with
    | none => rw [hs] at hq; cases hq
    | some r =>
      rw [hs] at hq
      exact ih (parAt_step he h o (ho o (by simp)) hs) (fun o' h' => ho o' (by simp [h'])) hq

theorem parProg_run_append (env : ParEnv Cfg K C) : ∀ (a b : List ParOp) (p : ParProg K),
    p.run env (a ++ b) = (p.run env a).bind fun q => q.run env b := by
  intro a
  induction a with
  | nil => intro b p; rfl
  | cons o a ih =>
    intro b p
    simp only [List.cons_append, ParProg.run]
    cases p.step env o with
    | none => rfl
    | some r => exact ih b r

theorem parAt_start (env : ParEnv Cfg K C) : ParAt env (fun _ => ⟨0, 0⟩) (ParProg.start env) := by
  have hn : ∀ l, l < env.sims.length → (Sys.fresh (ResPart K × ResPart K) env.sims.length).nSched[l]? = some 0 := by
    intro l hl; simp [Sys.fresh, Sys.construct, hdfLoadScheduled, hl]
  refine ⟨⟨[], ?_, rfl, ?_, rfl, ?_, ?_, ?_⟩, schedInv_fresh _, ?_, ?_⟩
  · refine ⟨?_, rfl, ?_⟩
    · intro f k i r h; cases h
    · exact List.Subperm.refl _
  · simp [ParProg.start, Sys.fresh, Sys.construct, hdfLoadScheduled]
  · intro l k hk
    have hl : l < env.sims.length := by
      have := (List.getElem?_eq_some_iff.1 hk).1
      simpa [ParProg.start, Sys.fresh, Sys.construct, hdfLoadScheduled] using this
    rw [show (ParProg.start env).sys.nSched[l]? = some 0 from hn l hl] at hk
    injection hk with hk; subst hk; rfl
  · intro l; exact List.Perm.refl _
  · intro e he; simp [ParProg.start, Sys.fresh, Sys.construct] at he
  · simp [ParProg.start, Sys.fresh, Sys.construct]
  · intro l hl
    exact ⟨by simp [ParProg.start, Sys.fresh, Sys.construct, hl], hn l hl⟩


/-- When nothing is running any more, everything handed over has been delivered. -/
theorem par_returned {s : Par (ParItem K)} {tasks : List (Option (ParItem K))} {H : List (ParItem K)} (h : ParOk s tasks H) (h0 : s.running ≤ 0) :
    s.returned.Perm H := by
  have hs : s.returned.Subperm H := by
    refine List.Subperm.trans ?_ h.cons
    rw [List.append_assoc]
    exact (List.sublist_append_left _ _).subperm
  refine hs.perm_of_length_le ?_
  have := h.run
  omega

/-- Stored items of a level are results of simulating its scheduled samples. -/
theorem stored_subperm {env : ParEnv Cfg K C} (he : env.Proper) {p : ParProg K} {sops} (h : ParInv env p sops) {l k : Nat} {sim : PoolSim Cfg K C}
    (hk : p.sys.nSched[l]? = some k) (hsim : env.sims[l]? = some sim) :
    (storedItems sops l).Subperm ((List.range k).map fun i => parItem env.md5 sim (sampleTag l i)) ∧
    (p.pool.running ≤ 0 → (storedItems sops l).Perm ((List.range k).map fun i => parItem env.md5 sim (sampleTag l i))) := by
  have hH : (((p.sys.handed ++ p.sys.renewed).map (itemOf env)).filter fun x => x.level = l) =
      ((List.range k).map fun i => parItem env.md5 sim (sampleTag l i)) ++ (p.sys.renewed.filter fun e => e.1 = l).map (itemOf env) := by
    rw [List.filter_map]
    have : ((fun x : ParItem K => decide (x.level = l)) ∘ itemOf env) = fun e : Nat × SampleId => decide (e.1 = l) := by
      funext e; simp only [Function.comp, (itemOf_level he e).1]
    rw [this, List.filter_append, List.map_append]
    congr 1
    have e : (p.sys.handed.filter fun e => e.1 = l).map (itemOf env) = ((p.sys.handed.filter fun e => e.1 = l).map (·.2)).map fun id => itemOf env (l, id) := by
      rw [List.map_map]
      apply List.map_congr_left
      intro x hx
      have := (List.mem_filter.1 hx).2
      simp only [decide_eq_true_eq] at this
      obtain ⟨a, b⟩ := x
      simp only at this
      subst this; rfl
    rw [e, h.cov l k hk, List.map_map]
    apply List.map_congr_left
    intro i _
    simp only [Function.comp, itemOf, hsim]
  have hs := h.stored l
  constructor
  · have hsub : p.pool.returned.Subperm ((p.sys.handed ++ p.sys.renewed).map (itemOf env)) := by
      refine List.Subperm.trans ?_ h.ok.cons
      rw [List.append_assoc]
      exact (List.sublist_append_left _ _).subperm
    have := hsub.filter (fun x => decide (x.level = l))
    rw [hH] at this
    exact (List.subperm_append_right _).1 (hs.symm.subperm.trans this)
  · intro h0
    have := (par_returned h.ok h0).filter (fun x => decide (x.level = l))
    rw [hH] at this
    exact (List.perm_append_right_iff _).1 (hs.symm.trans this)

/-- The well formed results among items. -/
def okOf (xs : List (ParItem K)) : List (SampleId × (ResPart K × ResPart K)) :=
  xs.filterMap fun x => match x.res with | .ok v => some (x.id, v) | .error _ => none

/-- The failed ones among items. -/
def errOf (xs : List (ParItem K)) : List SampleId :=
  xs.filterMap fun x => match x.res with | .ok _ => none | .error _ => some x.id

theorem okOf_stored (sops : List (StoreOp (ResPart K × ResPart K))) (l : Nat) : okOf (storedItems sops l) = savedSucc sops l := by
  simp [okOf, storedItems, List.filterMap_append, List.filterMap_map, Function.comp_def]

theorem errOf_stored (sops : List (StoreOp (ResPart K × ResPart K))) (l : Nat) : errOf (storedItems sops l) = (savedFailed sops l).map (·.1) := by
  simp only [errOf, storedItems, List.filterMap_append, List.filterMap_map, Function.comp_def]
  have : ∀ xs : List (SampleId × Msg), (xs.filterMap fun x => some x.1) = xs.map (·.1) := fun xs => by
    rw [← List.filterMap_eq_map]; rfl
  rw [this]
  simp

theorem okOf_items {l : Nat} (md5 : SampleId → List UInt8) (sim : PoolSim Cfg K C) (hl : sim.level = l) (k : Nat) :
    okOf ((List.range k).map fun i => parItem md5 sim (sampleTag l i)) = goodSamples md5 sim k ∧
    errOf ((List.range k).map fun i => parItem md5 sim (sampleTag l i)) = badSamples md5 sim k := by
  subst hl
  induction k with
  | zero => exact ⟨rfl, rfl⟩
  | succ k ih =>
    obtain ⟨i1, i2⟩ := ih
    have e1 : ∀ a b : List (ParItem K), okOf (a ++ b) = okOf a ++ okOf b := fun a b => List.filterMap_append
    have e2 : ∀ a b : List (ParItem K), errOf (a ++ b) = errOf a ++ errOf b := fun a b => List.filterMap_append
    rw [good_succ, bad_succ, List.range_succ, List.map_append, e1, e2, i1, i2]
    simp only [List.map_cons, List.map_nil]
    rcases parItem_cases md5 sim (sampleTag sim.level k) with ⟨f, c, h1, h2, h3⟩ | ⟨h1, m, h2⟩
    · rw [h3]
      unfold succEntry failEntry
      simp [okOf, errOf, h1, h1 ▸ h2]
    · rw [h2]
      unfold succEntry failEntry
      cases ho : outcome md5 (sampleTag sim.level k) sim with
      | raised m => simp [okOf, errOf, WellFormed]
      | notPair m => simp [okOf, errOf, WellFormed]
      | pair f c => rw [ho] at h1; simp [okOf, errOf, h1]

theorem okOf_perm {xs ys : List (ParItem K)} : (xs.Subperm ys → (okOf xs).Subperm (okOf ys) ∧ (errOf xs).Subperm (errOf ys)) ∧
    (xs.Perm ys → (okOf xs).Perm (okOf ys) ∧ (errOf xs).Perm (errOf ys)) := by
  refine ⟨fun h => ?_, fun h => ⟨h.filterMap _, h.filterMap _⟩⟩
  obtain ⟨zs, h1, h2⟩ := h
  exact ⟨((h1.filterMap _).symm.subperm).trans (h2.filterMap _).subperm, ((h1.filterMap _).symm.subperm).trans (h2.filterMap _).subperm⟩

end MLMC
