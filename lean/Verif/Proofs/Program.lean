import Verif.Spec.Program
import Verif.Proofs.Pool
import Verif.Proofs.Storage
import Verif.Proofs.Sampler
import Verif.Props.Pool
import Verif.Proofs.StorageLemmas
/-! Helper lemmas about whole programs. -/
namespace MLMC
variable {Cfg K C : Type}

theorem schedule_noerr (md5 : SampleId → List UInt8) (p : Pool K C) (sim : PoolSim Cfg K C) (a b : Nat) (dur : ℚ)
    (hf : sim.workspace = true → sim.filesOk = true) : (p.schedule md5 sim (sampleTag a b) dur).2 = none := by
  have hc : ¬ (sim.workspace = true ∧ ¬ sim.filesOk = true) := fun h => h.2 (hf h.1)
  have hm : ∀ (d : Dirs C) (x y : Bool), (d.moveSuccessfulRm x y (sampleTag a b)).2 = none := by
    intro d x y
    simp only [Dirs.moveSuccessfulRm, lastSeven_tag]
  cases ho : sim.calculate sim.cfg (computeSeed md5 (sampleTag a b)) with
  | raised msg => simp only [Pool.schedule, hc, if_false, calculateSample, Option.getD_none, ho, Pool.processResult, traceback]
  | notPair msg => simp only [Pool.schedule, hc, if_false, calculateSample, Option.getD_none, ho, Pool.processResult, traceback]
  | pair f c =>
    by_cases hw : formatCheck sim.fmt f c = true
    · simp only [Pool.schedule, hc, if_false, calculateSample, Option.getD_none, ho, Pool.processResult, hw, if_true]
      split
      · rfl
      · exact hm _ _ _
    · simp only [Pool.schedule, hc, if_false, calculateSample, Option.getD_none, ho, Pool.processResult,
        eq_false_of_ne_true hw, Bool.false_eq_true, traceback]

theorem good_succ (md5 : SampleId → List UInt8) (sim : PoolSim Cfg K C) (k : Nat) :
    goodSamples md5 sim (k + 1) = goodSamples md5 sim k ++ succEntry md5 (sampleTag sim.level k) sim := by
  simp only [goodSamples, List.range_succ, List.filterMap_append]
  congr 1
  simp only [List.filterMap_cons, List.filterMap_nil, succEntry]
  cases ho : outcome md5 (sampleTag sim.level k) sim with
  | raised m => simp [WellFormed]
  | notPair m => simp [WellFormed]
  | pair f c => by_cases hw : WellFormed sim.fmt (.pair f c) <;> simp [hw]

theorem bad_succ (md5 : SampleId → List UInt8) (sim : PoolSim Cfg K C) (k : Nat) :
    badSamples md5 sim (k + 1) = badSamples md5 sim k ++ failEntry md5 (sampleTag sim.level k) sim := by
  simp only [badSamples, List.range_succ, List.map_append, List.filter_append]
  congr 1
  simp only [List.map_cons, List.map_nil, List.filter_cons, List.filter_nil, failEntry]
  by_cases h : WellFormed sim.fmt (outcome md5 (sampleTag sim.level k) sim) <;> simp [h]

/-- The samples waiting in the queues of the pool. -/
def Pool.readyS (p : Pool K C) (l : Nat) : List (SampleId × (ResPart K × ResPart K)) := (Dict.get? p.queues l).getD []
def Pool.readyF (p : Pool K C) (l : Nat) : List (SampleId × Msg) := (Dict.get? p.failedQ l).getD []

theorem schedule_ready (md5 : SampleId → List UInt8) (p : Pool K C) (sim : PoolSim Cfg K C) (id : SampleId) (dur : ℚ)
    (hf : sim.workspace = true → sim.filesOk = true) (l : Nat) :
    (p.schedule md5 sim id dur).1.readyS l = p.readyS l ++ (if sim.level = l then succEntry md5 id sim else []) ∧
    ((p.schedule md5 sim id dur).1.readyF l).map (·.1) = (p.readyF l).map (·.1) ++ (if sim.level = l then failEntry md5 id sim else []) := by
  obtain ⟨_, ⟨h1, h2, e, h3, h4⟩ | ⟨h1, h2, r, h3, h4⟩⟩ := schedule_spec md5 p sim id dur hf
  · constructor
    · simp only [Pool.readyS, h2, h1]; split <;> simp
    · simp only [Pool.readyF, h4, queue_upd, h3, List.map_append]; split <;> simp
  · constructor
    · simp only [Pool.readyS, h4, queue_upd, h3]
    · simp only [Pool.readyF, h2, h1]; split <;> simp

theorem progFailed_snoc {V : Type} (ops : List (StoreOp V)) (o : StoreOp V) (l : Nat) :
    savedFailed (ops ++ [o]) l = match o with
      | .samples _ f => savedFailed ops l ++ atLevel f l | .clearFailed => [] | _ => savedFailed ops l := by
  simp only [savedFailed, List.foldl_append, List.foldl_cons, List.foldl_nil]
  cases o <;> rfl

theorem progSucc_snoc {V : Type} (ops : List (StoreOp V)) (o : StoreOp V) (l : Nat) :
    savedSucc (ops ++ [o]) l = savedSucc ops l ++ (match o with | .samples s _ => atLevel s l | _ => []) := by
  simp only [savedSucc, List.flatMap_append]
  cases o <;> simp

theorem hdfRun_snoc {V : Type} (g : HdfLevels V) (ops : List (StoreOp V)) (o : StoreOp V) :
    hdfRun g (ops ++ [o]) = hdfStep (hdfRun g ops) o := by simp [hdfRun, List.foldl_append]

/-- What holds between any two elementary actions; `lost` are samples whose results an earlier program took with it. -/
structure ProgInv (env : ProgEnv Cfg K C) (lost : List SampleId) (p : Prog K C) (sops : List (StoreOp (ResPart K × ResPart K))) : Prop where
  pool : PoolInv p.pool
  len : p.sys.nSched.length = env.sims.length
  store : p.sys.store = hdfRun (hdfFresh _ env.sims.length) sops
  good : ∀ (l k : Nat) sim, p.sys.nSched[l]? = some k → env.sims[l]? = some sim →
    savedSucc sops l ++ p.pool.readyS l = (goodSamples env.md5 sim k).filter fun s => s.1 ∉ lost
  bad : ∀ (l k : Nat) sim, p.sys.nSched[l]? = some k → env.sims[l]? = some sim →
    ((savedFailed sops l).map (·.1) ++ (p.pool.readyF l).map (·.1)).Perm ((badSamples env.md5 sim k).filter fun id => id ∉ lost)
  old : ∀ (l k i : Nat), p.sys.nSched[l]? = some k → k ≤ i → sampleTag l i ∉ lost

theorem filter_lost_nil {α : Type} (f : α → SampleId) (xs : List α) : (xs.filter fun s => decide (f s ∉ ([] : List SampleId))) = xs := by simp

theorem succEntry_id {md5 : SampleId → List UInt8} {id : SampleId} {sim : PoolSim Cfg K C} {a} (h : a ∈ succEntry md5 id sim) : a.1 = id := by
  unfold succEntry at h
  split at h
  · split at h
    · simp only [List.mem_singleton] at h; rw [h]
    · simp at h
  · simp at h

theorem failEntry_id {md5 : SampleId → List UInt8} {id : SampleId} {sim : PoolSim Cfg K C} {a} (h : a ∈ failEntry md5 id sim) : a = id := by
  unfold failEntry at h
  split at h
  · simp at h
  · simpa using h

theorem inv_act {env : ProgEnv Cfg K C} {lost : List SampleId} (he : env.Proper) {p : Prog K C} {sops} (h : ProgInv env lost p sops) (a : SchedAct)
    (ha : ∀ l, a = .hand l → l < env.sims.length) :
    ∃ q sops', p.act env a = (q, none) ∧ q.sys = a.apply p.sys ∧ ProgInv env lost q sops' := by
  cases a with
  | begin l => exact ⟨_, sops, rfl, rfl, h.pool, h.len, h.store, h.good, h.bad, h.old⟩
  | save l =>
    refine ⟨_, sops ++ [.scheduled l p.sys.pending], rfl, rfl, h.pool, h.len, ?_, ?_, ?_, h.old⟩
    · rw [hdfRun_snoc, ← h.store]; rfl
    · intro l' k sim h1 h2
      rw [progSucc_snoc]; simpa using h.good l' k sim h1 h2
    · intro l' k sim h1 h2
      rw [progFailed_snoc]; exact h.bad l' k sim h1 h2
  | hand l =>
    have hl := ha l rfl
    have hl' : l < p.sys.nSched.length := by rw [h.len]; exact hl
    have hk : p.sys.nSched[l]? = some p.sys.nSched[l] := List.getElem?_eq_getElem hl'
    have hs : env.sims[l]? = some env.sims[l] := List.getElem?_eq_getElem hl
    have hlev := he.level l _ hs
    have hf := he.files _ (List.getElem_mem hl)
    have hne := schedule_noerr env.md5 p.pool env.sims[l] l p.sys.nSched[l]
      (env.dur (p.sys.handed.length + p.sys.renewed.length)) hf
    refine ⟨⟨(SchedAct.hand l).apply p.sys, (p.pool.schedule env.md5 env.sims[l] (sampleTag l p.sys.nSched[l])
      (env.dur (p.sys.handed.length + p.sys.renewed.length))).1⟩, sops, ?_, rfl, ?_, ?_, ?_, ?_, ?_, ?_⟩
    · simp only [Prog.act, hk, hs, hne]
    · exact schedule_inv _ _ _ _ _ hf h.pool
    · simp only [SchedAct.apply, hk, List.length_set]; exact h.len
    · simp only [SchedAct.apply, hk]; exact h.store
    · intro l' k sim h1 h2
      rw [(schedule_ready env.md5 p.pool env.sims[l] _ _ hf l').1, hlev, ← List.append_assoc]
      simp only [SchedAct.apply, hk, List.getElem?_set] at h1
      by_cases e : l = l'
      · subst e
        simp only [if_true, hl'] at h1
        injection h1 with h1
        rw [hs] at h2; injection h2 with h2
        subst h2
        rw [h.good l _ _ hk hs, if_pos rfl, ← h1, good_succ, hlev, List.filter_append]
        congr 1
        rw [List.filter_eq_self.2]
        intro a ha
        rw [succEntry_id ha]
        simpa using h.old l _ _ hk le_rfl
      · simp only [e, if_false] at h1 ⊢
        rw [List.append_nil]; exact h.good l' k sim h1 h2
    · intro l' k sim h1 h2
      rw [(schedule_ready env.md5 p.pool env.sims[l] _ _ hf l').2, hlev, ← List.append_assoc]
      simp only [SchedAct.apply, hk, List.getElem?_set] at h1
      by_cases e : l = l'
      · subst e
        simp only [if_true, hl'] at h1
        injection h1 with h1
        rw [hs] at h2; injection h2 with h2
        subst h2
        rw [if_pos rfl, ← h1, bad_succ, hlev, List.filter_append, List.filter_eq_self (l := failEntry _ _ _) |>.2]
        · exact (h.bad l _ _ hk hs).append_right _
        · intro a ha
          rw [failEntry_id ha]
          simpa using h.old l _ _ hk le_rfl
      · simp only [e, if_false] at h1 ⊢
        rw [List.append_nil]; exact h.bad l' k sim h1 h2
    · intro l' k i h1 h2
      simp only [SchedAct.apply, hk, List.getElem?_set] at h1
      by_cases e : l = l'
      · subst e
        simp only [if_true, hl'] at h1
        injection h1 with h1
        exact h.old l _ i hk (by omega)
      · simp only [e, if_false] at h1
        exact h.old l' k i h1 h2

theorem inv_acts {env : ProgEnv Cfg K C} {lost : List SampleId} (he : env.Proper) : ∀ (as : List SchedAct) {p : Prog K C} {sops},
    ProgInv env lost p sops → (∀ l, SchedAct.hand l ∈ as → l < env.sims.length) →
    ∃ q sops', p.acts env as = (q, none) ∧ q.sys = runActs as p.sys ∧ ProgInv env lost q sops' := by
  intro as
  induction as with
  | nil => intro p sops h _; exact ⟨p, sops, rfl, rfl, h⟩
  | cons a as ih =>
    intro p sops h ha
    obtain ⟨q, s1, h1, h2, h3⟩ := inv_act he h a (fun l e => ha l (by simp [e]))
    obtain ⟨r, s2, h4, h5, h6⟩ := ih h3 (fun l hl => ha l (by simp [hl]))
    exact ⟨r, s2, by simp only [Prog.acts, h1, h4], by rw [h5, h2]; rfl, h6⟩

theorem hand_mem_schedActs (plan : List Nat) : ∀ (l0 l : Nat), SchedAct.hand l ∈ schedActs l0 plan → l < l0 + plan.length := by
  induction plan with
  | nil => intro l0 l h; simp [schedActs] at h
  | cons n plan ih =>
    intro l0 l h
    simp only [schedActs, List.mem_append, List.mem_cons, List.not_mem_nil, or_false, List.mem_replicate] at h
    simp only [List.length_cons]
    rcases h with ((h | h) | h) | h
    · cases h
    · have := h.2; injection this with this; omega
    · cases h
    · have := ih (l0 + 1) l h; omega

theorem inv_scheduleSamples {env : ProgEnv Cfg K C} {lost : List SampleId} (he : env.Proper) {p : Prog K C} {sops} (h : ProgInv env lost p sops)
    (ht : p.sys.target.length = env.sims.length) :
    ∃ q sops', p.scheduleSamples env = (q, none) ∧ q.sys = p.sys.schedule ∧ ProgInv env lost q sops' := by
  have hl : p.sys.target.length = p.sys.nSched.length := by rw [ht, h.len]
  have hp : p.sys.plan.length = env.sims.length := by simp [Sys.plan, hl, h.len]
  obtain ⟨q, s, h1, h2, h3⟩ := inv_acts he (schedActs 0 p.sys.plan) h
    (fun l hm => by have := hand_mem_schedActs _ _ _ hm; omega)
  exact ⟨q, s, by simp only [Prog.scheduleSamples, hl, if_true, h1], by rw [Sys.schedule, if_pos (Or.inl hl), h2], h3⟩

theorem inv_collect {env : ProgEnv Cfg K C} {lost : List SampleId} {p : Prog K C} {sops} (h : ProgInv env lost p sops) :
    ∃ sops', p.collect.1 = 0 ∧ ProgInv env lost p.collect.2 sops' ∧
      (∃ a b c, p.collect.2.sys = p.sys.step (.poll a b c)) ∧
      (∀ l, p.collect.2.pool.readyS l = []) ∧ (∀ l, p.collect.2.pool.readyF l = []) := by
  obtain ⟨g1, g2, g3, g4, g5, g6⟩ := getFinished_inv p.pool h.pool
  refine ⟨sops ++ [.samples p.pool.getFinished.1.succ p.pool.getFinished.1.failed, .nOps p.pool.getFinished.1.nOps], g2,
    ⟨g1, h.len, ?_, ?_, ?_, h.old⟩, ⟨_, _, _, rfl⟩, g5, g6⟩
  · have : ∀ (o1 o2 : StoreOp (ResPart K × ResPart K)), sops ++ [o1, o2] = (sops ++ [o1]) ++ [o2] := by intros; simp
    rw [this, hdfRun_snoc, hdfRun_snoc, ← h.store]; rfl
  · intro l k sim h1 h2
    have e : ∀ (o1 o2 : StoreOp (ResPart K × ResPart K)), sops ++ [o1, o2] = (sops ++ [o1]) ++ [o2] := by intros; simp
    rw [e, progSucc_snoc, progSucc_snoc, ← h.good l k sim h1 h2]
    simp only [List.append_nil]
    rw [show p.collect.2.pool.readyS l = [] from g5 l, g3 l, List.append_nil]; rfl
  · intro l k sim h1 h2
    have e : ∀ (o1 o2 : StoreOp (ResPart K × ResPart K)), sops ++ [o1, o2] = (sops ++ [o1]) ++ [o2] := by intros; simp
    rw [e, progFailed_snoc, progFailed_snoc]
    simp only []
    rw [show p.collect.2.pool.readyF l = [] from g6 l, g4 l, List.map_append, List.map_nil, List.append_nil]
    exact h.bad l k sim h1 h2

theorem inv_wait {env : ProgEnv Cfg K C} {lost : List SampleId} {p : Prog K C} {sops} (h : ProgInv env lost p sops) (timeout : ℚ) (clock : List ℚ) (hc : clock ≠ []) :
    p.wait timeout clock = some p.collect.2 := by
  cases clock with
  | nil => exact absurd rfl hc
  | cons t ts =>
    obtain ⟨_, h0, _⟩ := inv_collect h
    simp only [Prog.wait, h0]
    split
    · rfl
    · rfl

theorem inv_ask {env : ProgEnv Cfg K C} {lost : List SampleId} {p : Prog K C} {sops} (h : ProgInv env lost p sops) (timeout : Option ℚ) (clock : List ℚ)
    (hc : clock ≠ [] ∨ ∃ t, timeout = some t ∧ t ≤ 0) :
    ∃ q sops', p.ask timeout clock = some q ∧ ProgInv env lost q sops' ∧ (q.sys = p.sys ∨ ∃ a b c, q.sys = p.sys.step (.poll a b c)) := by
  obtain ⟨s1, _, h1, h2, _⟩ := inv_collect h
  cases timeout with
  | none =>
    rcases hc with hc | ⟨t, ht, _⟩
    · exact ⟨_, s1, inv_wait h 0 clock hc, h1, Or.inr h2⟩
    · simp at ht
  | some t =>
    by_cases ht : t ≤ 0
    · exact ⟨p, sops, by simp [Prog.ask, ht], h, Or.inl rfl⟩
    · rcases hc with hc | ⟨t', ht', h0⟩
      · exact ⟨_, s1, by simp only [Prog.ask, ht, if_false]; exact inv_wait h t clock hc, h1, Or.inr h2⟩
      · injection ht' with e; subst e; exact absurd h0 ht


theorem failed_fresh {V : Type} (n : Nat) (sops : List (StoreOp V)) :
    hdfFailedSamples (hdfRun (hdfFresh V n) sops) = .ok ((List.range n).map fun l => (savedFailed sops l).map (·.1)) := by
  have hlen : (hdfRun (hdfFresh V n) sops).length = n := by rw [hdfRun_length]; simp [hdfFresh]
  unfold hdfFailedSamples
  rw [mapM_ok_range _ _ (fun l => (savedFailed sops l).map (·.1)), hlen]
  intro l y hy
  have hl : l < n := by
    rw [← hlen]
    exact (List.getElem?_eq_some_iff.1 hy).1
  obtain ⟨y', h1, _, _, _, h5⟩ := hdf_fresh_spec n l hl sops
  rw [h1] at hy; injection hy with hy; subst hy
  simp [LevelGroup.failedIds, h5]

theorem mem_levelPairs (n : Nat) (f : Nat → List SampleId) (l : Nat) (id : SampleId) :
    (l, id) ∈ (((List.range n).map f).zipIdx.flatMap fun (ids, l) => ids.map fun i => (l, i)) → l < n ∧ id ∈ f l := by
  intro h
  simp only [List.mem_flatMap, List.mem_map] at h
  obtain ⟨⟨ids, l'⟩, h1, i, h2, h3⟩ := h
  rw [List.mem_zipIdx_iff_getElem?] at h1
  injection h3 with h3 h4
  subst h3; subst h4
  simp only [List.getElem?_map] at h1
  rcases Nat.lt_or_ge l' n with hl | hl
  · rw [List.getElem?_range hl] at h1
    simp at h1; subst h1; exact ⟨hl, h2⟩
  · rw [List.getElem?_eq_none (by simpa using hl)] at h1; simp at h1

theorem levelPairs_filter (n : Nat) (f : Nat → List SampleId) (l : Nat) :
    ((((List.range n).map f).zipIdx.flatMap fun (ids, l) => ids.map fun i => (l, i)).filter (fun e => e.1 = l)).map (·.2) =
      if l < n then f l else [] := by
  induction n with
  | zero => rfl
  | succ n ih =>
    rw [List.range_succ, List.map_append, List.zipIdx_append, List.flatMap_append, List.filter_append, List.map_append, ih]
    simp only [List.map_cons, List.map_nil, List.length_map, List.length_range, Nat.zero_add, List.zipIdx_cons, List.zipIdx_nil,
      List.flatMap_cons, List.flatMap_nil, List.append_nil]
    by_cases h : l < n
    · have h' : n ≠ l := by omega
      have : ∀ ids : List SampleId, ((ids.map fun i => (n, i)).filter (fun e => e.1 = l)).map (·.2) = [] := by
        intro ids; simp [List.filter_map, Function.comp_def, h']
      rw [this]
      simp [h, Nat.lt_succ_of_lt h]
    · by_cases e : n = l
      · subst e
        have : ∀ ids : List SampleId, ((ids.map fun i => (n, i)).filter (fun e => e.1 = n)).map (·.2) = ids := by
          intro ids; simp [List.filter_map, Function.comp_def]
        rw [this]; simp
      · have h2 : ¬ l < n + 1 := by omega
        have : ∀ ids : List SampleId, ((ids.map fun i => (n, i)).filter (fun e => e.1 = l)).map (·.2) = [] := by
          intro ids; simp [List.filter_map, Function.comp_def, e]
        rw [this]; simp [h, h2]

theorem mem_bad {md5 : SampleId → List UInt8} {sim : PoolSim Cfg K C} {k : Nat} {id : SampleId} (h : id ∈ badSamples md5 sim k) :
    (∃ i, id = sampleTag sim.level i) ∧ ¬ WellFormed sim.fmt (outcome md5 id sim) := by
  simp only [badSamples, List.mem_filter, List.mem_map, decide_eq_true_eq] at h
  obtain ⟨⟨i, _, rfl⟩, h2⟩ := h
  exact ⟨⟨i, rfl⟩, h2⟩

theorem renewLoop_spec {env : ProgEnv Cfg K C} (he : env.Proper) : ∀ (L : List (Nat × SampleId)) (p : Prog K C), PoolInv p.pool →
    (∀ e ∈ L, ∃ sim, env.sims[e.1]? = some sim ∧ (∃ i, e.2 = sampleTag sim.level i) ∧ ¬ WellFormed sim.fmt (outcome env.md5 e.2 sim)) →
    ∃ q, p.renewLoop env L = (q, none) ∧ q.sys = { p.sys with renewed := p.sys.renewed ++ L } ∧ PoolInv q.pool ∧
      (∀ l, q.pool.readyS l = p.pool.readyS l) ∧
      (∀ l, (q.pool.readyF l).map (·.1) = (p.pool.readyF l).map (·.1) ++ (L.filter (fun e => e.1 = l)).map (·.2)) := by
  intro L
  induction L with
  | nil => intro p hp _; exact ⟨p, rfl, by simp, hp, by simp, by simp⟩
  | cons e L ih =>
    intro p hp hL
    obtain ⟨l, id⟩ := e
    obtain ⟨sim, h1, ⟨i, h2⟩, h3⟩ := hL (l, id) (by simp)
    simp only at h1 h2 h3
    have hlev := he.level l sim h1
    have hf := he.files sim (List.mem_of_getElem? h1)
    have hne := schedule_noerr env.md5 p.pool sim sim.level i (env.dur (p.sys.handed.length + p.sys.renewed.length)) hf
    rw [← h2] at hne
    obtain ⟨q, g1, g2, g3, g4, g5⟩ := ih
      ⟨{ p.sys with renewed := p.sys.renewed ++ [(l, id)] },
        (p.pool.schedule env.md5 sim id (env.dur (p.sys.handed.length + p.sys.renewed.length))).1⟩
      (schedule_inv _ _ _ _ _ hf hp) (fun e he' => hL e (by simp [he']))
    refine ⟨q, ?_, ?_, g3, ?_, ?_⟩
    · simp only [Prog.renewLoop, h1, hne, g1]
    · rw [g2]; simp
    · intro l'
      rw [g4, (schedule_ready env.md5 p.pool sim id _ hf l').1]
      simp [succEntry, h3]
    · intro l'
      rw [g5, (schedule_ready env.md5 p.pool sim id _ hf l').2, hlev]
      simp only [failEntry, h3, if_false, List.filter_cons]
      by_cases e : l = l' <;> simp [e]

theorem inv_renew {env : ProgEnv Cfg K C} {lost : List SampleId} (he : env.Proper) {p : Prog K C} {sops} (h : ProgInv env lost p sops) :
    ∃ q sops', p.renew env = (q, none) ∧ q.sys = p.sys.renew ∧ ProgInv env lost q sops' := by
  have hfs : hdfFailedSamples p.sys.store = .ok ((List.range env.sims.length).map fun l => (savedFailed sops l).map (·.1)) := by
    rw [h.store]; exact failed_fresh _ _
  obtain ⟨q, g1, g2, g3, g4, g5⟩ := renewLoop_spec he
    (((List.range env.sims.length).map fun l => (savedFailed sops l).map (·.1)).zipIdx.flatMap fun (ids, l) => ids.map fun i => (l, i)) p h.pool (by
      rintro ⟨l, id⟩ hm
      obtain ⟨hl, hid⟩ := mem_levelPairs _ _ _ _ hm
      have hl' : l < p.sys.nSched.length := by rw [h.len]; exact hl
      have hb := h.bad l _ _ (List.getElem?_eq_getElem hl') (List.getElem?_eq_getElem hl)
      have := (hb.mem_iff (a := id)).1 (List.mem_append_left _ hid)
      exact ⟨_, List.getElem?_eq_getElem hl, mem_bad (List.mem_filter.1 this).1⟩)
  refine ⟨⟨{ q.sys with store := applyOps (clearFailedOps q.sys.store) q.sys.store }, q.pool⟩, sops ++ [.clearFailed], ?_, ?_, g3, ?_, ?_, ?_, ?_, by rw [g2]; exact h.old⟩
  · simp only [Prog.renew, hfs, g1]
  · simp only [Sys.renew, hfs, g2]
  · rw [g2]; exact h.len
  · rw [hdfRun_snoc, ← h.store]; simp only [g2]; rfl
  · intro l k sim h1 h2
    rw [progSucc_snoc, List.append_nil]
    simp only [g2] at h1
    show savedSucc sops l ++ q.pool.readyS l = _
    rw [g4]; exact h.good l k sim h1 h2
  · intro l k sim h1 h2
    rw [progFailed_snoc]
    simp only [g2] at h1
    show (([] : List (SampleId × Msg)).map (·.1) ++ (q.pool.readyF l).map (·.1)).Perm _
    rw [g5, levelPairs_filter, if_pos (List.getElem?_eq_some_iff.1 h2).1]
    simp only [List.map_nil, List.nil_append]
    exact List.perm_append_comm.trans (h.bad l k sim h1 h2)

/-- What holds between calls. -/
structure ProgAt (env : ProgEnv Cfg K C) (lost : List SampleId) (w : Nat → Want) (p : Prog K C) : Prop where
  inv : ∃ sops, ProgInv env lost p sops
  sched : SchedInv env.sims.length p.sys
  tlen : p.sys.target.length = env.sims.length
  want : ∀ l, l < env.sims.length → p.sys.target[l]? = some (w l).target ∧ p.sys.nSched[l]? = some (w l).count

theorem progAt_ask {env : ProgEnv Cfg K C} {lost : List SampleId} {w : Nat → Want} {p : Prog K C} (h : ProgAt env lost w p) (timeout : Option ℚ) (clock : List ℚ)
    (hc : clock ≠ [] ∨ ∃ t, timeout = some t ∧ t ≤ 0) : ∃ q, p.ask timeout clock = some q ∧ ProgAt env lost w q := by
  obtain ⟨sops, hi⟩ := h.inv
  obtain ⟨q, s, h1, h2, h3⟩ := inv_ask hi timeout clock hc
  refine ⟨q, h1, ⟨s, h2⟩, ?_, ?_, ?_⟩
  · rcases h3 with e | ⟨a, b, c, e⟩
    · rw [e]; exact h.sched
    · rw [e]; exact schedInv_step h.sched _ rfl
  · rcases h3 with e | ⟨a, b, c, e⟩ <;> rw [e] <;> exact h.tlen
  · rcases h3 with e | ⟨a, b, c, e⟩ <;> rw [e] <;> exact h.want

theorem progTarget_get (ts ns : List ℚ) (l : Nat) :
    (setLevelTarget ts ns)[l]? = (ts[l]?).map fun t => match ns[l]? with | some n => max t n | none => t := by
  induction ts generalizing ns l with
  | nil => simp [setLevelTarget]
  | cons t ts ih =>
    cases ns with
    | nil => simp [setLevelTarget]
    | cons n ns =>
      cases l with
      | zero => simp [setLevelTarget]
      | succ l => simp only [setLevelTarget, List.getElem?_cons_succ, ih]

theorem setLevelTarget_len (ts ns : List ℚ) : (setLevelTarget ts ns).length = ts.length := by
  induction ts generalizing ns with
  | nil => simp [setLevelTarget]
  | cons t ts ih => cases ns with
    | nil => simp [setLevelTarget]
    | cons n ns => simp [setLevelTarget, ih]

theorem progAt_step {env : ProgEnv Cfg K C} {lost : List SampleId} (he : env.Proper) {w : Nat → Want} {p : Prog K C} (h : ProgAt env lost w p) (o : ProgOp)
    (ho : o.Proper env.sims.length) : ∃ q, p.step env o = some (q, none) ∧ ProgAt env lost (fun l => (w l).step l o) q := by
  obtain ⟨sops, hi⟩ := h.inv
  cases o with
  | setInitial v =>
    refine ⟨_, rfl, ⟨sops, hi.pool, hi.len, hi.store, hi.good, hi.bad, hi.old⟩, schedInv_step h.sched (.setInitial v) rfl, ho, ?_⟩
    intro l hl
    refine ⟨?_, (h.want l hl).2⟩
    have hl' : l < v.length := by rw [show v.length = _ from ho]; exact hl
    simp [Want.step, hl']
  | setTarget v =>
    have hv : v.length ≤ p.sys.target.length := by rw [h.tlen]; exact ho
    refine ⟨⟨{ p.sys with target := setLevelTarget p.sys.target v }, p.pool⟩, by simp only [Prog.step, hv, if_true], ⟨sops, hi.pool, hi.len, hi.store, hi.good, hi.bad, hi.old⟩,
      schedInv_step h.sched (.setTarget v) rfl, ?_, ?_⟩
    · show (setLevelTarget _ _).length = _
      rw [setLevelTarget_len]; exact h.tlen
    · intro l hl
      show (setLevelTarget _ _)[l]? = _ ∧ p.sys.nSched[l]? = _
      rw [progTarget_get, (h.want l hl).1, (h.want l hl).2]
      simp only [Want.step]
      cases v[l]? <;> simp
  | ask timeout clock =>
    obtain ⟨q, h1, h2⟩ := progAt_ask h timeout clock ho
    exact ⟨q, by simp only [Prog.step, h1, Option.map_some], h2⟩
  | schedule timeout clock =>
    obtain ⟨q, h1, h2⟩ := progAt_ask h timeout clock ho
    obtain ⟨sq, hq⟩ := h2.inv
    obtain ⟨r, s, g1, g2, g3⟩ := inv_scheduleSamples he hq h2.tlen
    have hl : q.sys.target.length = q.sys.nSched.length := by rw [h2.tlen, hq.len]
    obtain ⟨c1, _, _, _, c5, _, _⟩ := schedule_closed q.sys (Or.inl hl)
    refine ⟨r, by simp only [Prog.step, h1, Option.map_some, g1], ⟨s, g3⟩, ?_, ?_, ?_⟩
    · rw [g2]; exact schedInv_schedule h2.sched
    · rw [g2, c1]; exact h2.tlen
    · intro l hl
      rw [g2, c1, c5, plan_get, (h2.want l hl).1, (h2.want l hl).2]
      simp only [Want.step, Option.map_some, Option.getD_some, add_planCount, and_self]
  | renew =>
    obtain ⟨q, s, g1, g2, g3⟩ := inv_renew he hi
    refine ⟨q, by simp only [Prog.step, g1], ⟨s, g3⟩, ?_, ?_, ?_⟩
    · rw [g2]; exact schedInv_step h.sched .renew rfl
    · rw [g2]; simp only [Sys.renew]; split <;> exact h.tlen
    · rw [g2]; simp only [Sys.renew]; split <;> exact h.want

theorem progAt_run {env : ProgEnv Cfg K C} {lost : List SampleId} (he : env.Proper) : ∀ (ops : List ProgOp) {w : Nat → Want} {p : Prog K C}, ProgAt env lost w p →
    (∀ o ∈ ops, o.Proper env.sims.length) →
    ∃ q, p.run env ops = some q ∧ ProgAt env lost (fun l => ops.foldl (Want.step l) (w l)) q := by
  intro ops
  induction ops with
  | nil => intro w p h _; exact ⟨p, rfl, h⟩
  | cons o ops ih =>
    intro w p h ho
    obtain ⟨q, h1, h2⟩ := progAt_step he h o (ho o (by simp))
    obtain ⟨r, h3, h4⟩ := ih h2 (fun o' h' => ho o' (by simp [h']))
    exact ⟨r, by simp only [Prog.run, h1, h3], h4⟩

theorem progAt_start (env : ProgEnv Cfg K C) (debug hasDir : Bool) (dirs : Dirs C) :
    ProgAt env [] (fun _ => ⟨0, 0⟩) (Prog.start env debug hasDir dirs) := by
  have hn : ∀ l, l < env.sims.length → (Sys.fresh (ResPart K × ResPart K) env.sims.length).nSched[l]? = some 0 := by
    intro l hl; simp [Sys.fresh, Sys.construct, hdfLoadScheduled, hl]
  refine ⟨⟨[], create_inv _ _ _, ?_, rfl, ?_, ?_, by simp⟩, schedInv_fresh _, ?_, ?_⟩
  · simp [Prog.start, Sys.fresh, Sys.construct, hdfLoadScheduled]
  · intro l k sim h1 h2
    have hl := (List.getElem?_eq_some_iff.1 h2).1
    rw [show (Prog.start env debug hasDir dirs).sys.nSched[l]? = some 0 from hn l hl] at h1
    injection h1 with h1; subst h1; rfl
  · intro l k sim h1 h2
    have hl := (List.getElem?_eq_some_iff.1 h2).1
    rw [show (Prog.start env debug hasDir dirs).sys.nSched[l]? = some 0 from hn l hl] at h1
    injection h1 with h1; subst h1; exact List.Perm.refl _
  · simp [Prog.start, Sys.fresh, Sys.construct]
  · intro l hl
    exact ⟨by simp [Prog.start, Sys.fresh, Sys.construct, hl], hn l hl⟩

theorem prog_run_append (env : ProgEnv Cfg K C) : ∀ (a b : List ProgOp) (p : Prog K C),
    p.run env (a ++ b) = (p.run env a).bind fun q => q.run env b := by
  intro a
  induction a with
  | nil => intro b p; rfl
  | cons o a ih =>
    intro b p
    simp only [List.cons_append, Prog.run]
    split
    · exact ih b _
    · rfl

theorem good_or_bad {md5 : SampleId → List UInt8} {sim : PoolSim Cfg K C} {k l : Nat} {id : SampleId} (hl : sim.level = l)
    (h : id ∈ (List.range k).map (sampleTag l)) : id ∈ (goodSamples md5 sim k).map (·.1) ∨ id ∈ badSamples md5 sim k := by
  subst hl
  by_cases hw : WellFormed sim.fmt (outcome md5 id sim)
  · left
    obtain ⟨i, hi, rfl⟩ := List.mem_map.1 h
    cases ho : outcome md5 (sampleTag sim.level i) sim with
    | raised m => rw [ho] at hw; exact absurd hw (fun h => h)
    | notPair m => rw [ho] at hw; exact absurd hw (fun h => h)
    | pair f c =>
      rw [ho] at hw
      refine List.mem_map.2 ⟨(sampleTag sim.level i, (f, c)), List.mem_filterMap.2 ⟨i, hi, ?_⟩, rfl⟩
      simp [ho, hw]
  · right
    simp only [badSamples, List.mem_filter, decide_eq_true_eq]
    exact ⟨h, hw⟩

theorem good_add_bad (md5 : SampleId → List UInt8) (sim : PoolSim Cfg K C) (k : Nat) :
    (goodSamples md5 sim k).length + (badSamples md5 sim k).length = k := by
  induction k with
  | zero => rfl
  | succ k ih =>
    rw [good_succ, bad_succ, List.length_append, List.length_append]
    have : (succEntry md5 (sampleTag sim.level k) sim).length + (failEntry md5 (sampleTag sim.level k) sim).length = 1 := by
      unfold succEntry failEntry
      cases ho : outcome md5 (sampleTag sim.level k) sim with
      | raised m => simp [WellFormed]
      | notPair m => simp [WellFormed]
      | pair f c => by_cases hw : WellFormed sim.fmt (.pair f c) <;> simp [hw]
    omega

end MLMC
