import Verif.Spec.Pool
import Verif.Proofs.Dict
import Verif.Proofs.Tag
/-! Helper lemmas about pools. -/
namespace MLMC
variable {Cfg K C : Type}

theorem atLevel_of_nodup {α : Type} (d : Dict Nat (List α)) (h : (Dict.keys d).Nodup) (l : Nat) :
    atLevel d l = (Dict.get? d l).getD [] := by
  induction d with
  | nil => rfl
  | cons e d ih =>
    obtain ⟨k, v⟩ := e
    simp only [Dict.keys, List.map_cons, List.nodup_cons] at h
    have ih' := ih h.2
    by_cases hk : k = l
    · subst hk
      have : Dict.get? d k = none := (Dict.get?_eq_none_iff d k).2 h.1
      rw [this] at ih'
      simp only [atLevel, List.flatMap_cons, if_true, Dict.get?, Option.getD_some]
      simp only [atLevel] at ih'
      rw [ih']; simp
    · simp only [atLevel, List.flatMap_cons, Dict.get?, hk, if_false, List.nil_append]
      exact ih'

theorem atLevel_nonempty {α : Type} (d : Dict Nat (List α)) (l : Nat) :
    atLevel (d.filter fun e => !e.2.isEmpty) l = atLevel d l := by
  induction d with
  | nil => rfl
  | cons e d ih =>
    obtain ⟨k, v⟩ := e
    cases v with
    | nil => simpa [atLevel] using ih
    | cons a v =>
      simp only [List.filter_cons, List.isEmpty_cons, Bool.not_false, if_true]
      simp only [atLevel, List.flatMap_cons] at ih ⊢
      rw [ih]

theorem get?_emptied {α : Type} (d : Dict Nat (List α)) (l : Nat) :
    (Dict.get? (d.map fun e => (e.1, ([] : List α))) l).getD [] = [] := by
  induction d with
  | nil => rfl
  | cons e d ih =>
    simp only [List.map_cons, Dict.get?]
    split
    · rfl
    · exact ih

theorem keys_emptied {α : Type} (d : Dict Nat (List α)) :
    Dict.keys (d.map fun e => (e.1, ([] : List α))) = Dict.keys d := by
  simp [Dict.keys, Function.comp_def]

/-- Total number of queued items. -/
def total {α : Type} (d : Dict Nat (List α)) : Nat := (d.map fun e => e.2.length).sum

theorem total_emptied {α : Type} (d : Dict Nat (List α)) : total (d.map fun e => (e.1, ([] : List α))) = 0 := by
  induction d with
  | nil => rfl
  | cons e d ih => simpa [total] using ih

theorem total_nonempty {α : Type} (d : Dict Nat (List α)) : total (d.filter fun e => !e.2.isEmpty) = total d := by
  induction d with
  | nil => rfl
  | cons e d ih =>
    obtain ⟨k, v⟩ := e
    cases v with
    | nil => simpa [total] using ih
    | cons a v =>
      simp only [List.filter_cons, List.isEmpty_cons, Bool.not_false, if_true]
      simp only [total, List.map_cons, List.sum_cons] at ih ⊢
      rw [ih]

theorem total_upd {α : Type} (d : Dict Nat (List α)) (k : Nat) (x : α) :
    total (Dict.upd d k [] (· ++ [x])) = total d + 1 := by
  induction d with
  | nil => simp [total, Dict.upd]
  | cons e d ih =>
    obtain ⟨k', v⟩ := e
    by_cases h : k' = k
    · simp [total, Dict.upd, h]; omega
    · simp only [total, Dict.upd, h, if_false, List.map_cons, List.sum_cons] at ih ⊢
      rw [ih]; omega

theorem formatCheck_iff (fmt : List QSpec) (f c : ResPart K) :
    formatCheck fmt f c = true ↔ WellFormed fmt (.pair f c) := by
  cases f with
  | plain v => simp [formatCheck, WellFormed]
  | array a =>
    cases c with
    | plain v => simp [formatCheck, WellFormed]
    | array b =>
      simp only [formatCheck, WellFormed, Bool.and_eq_true, beq_iff_eq, ResPart.array.injEq]
      constructor
      · rintro ⟨h1, h2⟩ a' b' rfl rfl
        exact ⟨by omega, h2⟩
      · intro h
        have := h a b rfl rfl
        exact ⟨by omega, this.2⟩

/-- The successful entry of a sample, if any. -/
def succEntry (md5 : SampleId → List UInt8) (id : SampleId) (sim : PoolSim Cfg K C) :
    List (SampleId × (ResPart K × ResPart K)) :=
  if WellFormed sim.fmt (outcome md5 id sim) then
    match outcome md5 id sim with
    | .pair f c => [(id, (f, c))]
    | _ => []
  else []

def failEntry (md5 : SampleId → List UInt8) (id : SampleId) (sim : PoolSim Cfg K C) : List SampleId :=
  if WellFormed sim.fmt (outcome md5 id sim) then [] else [id]

theorem schedule_spec (md5 : SampleId → List UInt8) (p : Pool K C) (sim : PoolSim Cfg K C) (id : SampleId) (dur : ℚ)
    (hf : sim.workspace = true → sim.filesOk = true) :
    let p' := (p.schedule md5 sim id dur).1
    p'.nRunning = p.nRunning + 1 ∧
    ((succEntry md5 id sim = [] ∧ p'.queues = p.queues ∧
        ∃ e, failEntry md5 id sim = [id] ∧ p'.failedQ = Dict.upd p.failedQ sim.level [] (· ++ [(id, e)])) ∨
     (failEntry md5 id sim = [] ∧ p'.failedQ = p.failedQ ∧
        ∃ r, succEntry md5 id sim = [(id, r)] ∧ p'.queues = Dict.upd p.queues sim.level [] (· ++ [(id, r)]))) := by
  intro p'
  have hc : ¬ (sim.workspace = true ∧ ¬ sim.filesOk = true) := fun h => h.2 (hf h.1)
  cases ho : sim.calculate sim.cfg (computeSeed md5 id) with
  | raised msg =>
    have hn : ¬ WellFormed sim.fmt (outcome md5 id sim) := by rw [outcome, ho]; exact fun h => h
    have hp : p' = (Pool.schedule md5 p sim id dur).1 := rfl
    simp only [Pool.schedule, hc, if_false, calculateSample, Option.getD_none, ho, Pool.processResult, traceback] at hp
    rw [hp]
    exact ⟨rfl, Or.inl ⟨by simp [succEntry, hn], rfl, _, by simp [failEntry, hn], rfl⟩⟩
  | notPair msg =>
    have hn : ¬ WellFormed sim.fmt (outcome md5 id sim) := by rw [outcome, ho]; exact fun h => h
    have hp : p' = (Pool.schedule md5 p sim id dur).1 := rfl
    simp only [Pool.schedule, hc, if_false, calculateSample, Option.getD_none, ho, Pool.processResult, traceback] at hp
    rw [hp]
    exact ⟨rfl, Or.inl ⟨by simp [succEntry, hn], rfl, _, by simp [failEntry, hn], rfl⟩⟩
  | pair f c =>
    have hp : p' = (Pool.schedule md5 p sim id dur).1 := rfl
    by_cases hw : formatCheck sim.fmt f c = true
    · have hn : WellFormed sim.fmt (outcome md5 id sim) := by
        rw [outcome, ho]; exact (formatCheck_iff _ _ _).1 hw
      simp only [Pool.schedule, hc, if_false, calculateSample, Option.getD_none, ho, Pool.processResult, hw, if_true] at hp
      rw [hp]
      refine ⟨?_, Or.inr ⟨by simp [failEntry, hn], ?_, (f, c), ?_, ?_⟩⟩
      · repeat' split
        all_goals rfl
      · repeat' split
        all_goals rfl
      · rw [succEntry, if_pos hn, outcome, ho]
      · repeat' split
        all_goals rfl
    · have hn : ¬ WellFormed sim.fmt (outcome md5 id sim) := by
        rw [outcome, ho]; exact fun h => hw ((formatCheck_iff _ _ _).2 h)
      simp only [Pool.schedule, hc, if_false, calculateSample, Option.getD_none, ho, Pool.processResult, eq_false_of_ne_true hw, Bool.false_eq_true, traceback] at hp
      rw [hp]
      exact ⟨rfl, Or.inl ⟨by simp [succEntry, hn], rfl, _, by simp [failEntry, hn], rfl⟩⟩

/-- Well-behaved pool states. -/
structure PoolInv (p : Pool K C) : Prop where
  q : (Dict.keys p.queues).Nodup
  f : (Dict.keys p.failedQ).Nodup
  n : p.nRunning = total p.queues + total p.failedQ

theorem schedule_inv (md5 : SampleId → List UInt8) (p : Pool K C) (sim : PoolSim Cfg K C) (id : SampleId) (dur : ℚ)
    (hf : sim.workspace = true → sim.filesOk = true) (h : PoolInv p) : PoolInv (p.schedule md5 sim id dur).1 := by
  obtain ⟨h1, ⟨_, h2, e, _, h3⟩ | ⟨_, h2, r, _, h3⟩⟩ := schedule_spec md5 p sim id dur hf
  · refine ⟨by rw [h2]; exact h.q, by rw [h3]; exact Dict.nodup_keys_upd _ _ _ _ h.f, ?_⟩
    rw [h1, h2, h3, total_upd, h.n]; push_cast; omega
  · refine ⟨by rw [h3]; exact Dict.nodup_keys_upd _ _ _ _ h.q, by rw [h2]; exact h.f, ?_⟩
    rw [h1, h2, h3, total_upd, h.n]; push_cast; omega

theorem getFinished_inv (p : Pool K C) (h : PoolInv p) :
    PoolInv p.getFinished.2 ∧ p.getFinished.1.nRunning = 0 ∧
    (∀ l, atLevel p.getFinished.1.succ l = (Dict.get? p.queues l).getD []) ∧
    (∀ l, atLevel p.getFinished.1.failed l = (Dict.get? p.failedQ l).getD []) ∧
    (∀ l, (Dict.get? p.getFinished.2.queues l).getD [] = []) ∧
    (∀ l, (Dict.get? p.getFinished.2.failedQ l).getD [] = []) := by
  have hz : p.nRunning - (total p.queues : ℤ) - (total p.failedQ : ℤ) = 0 := by rw [h.n]; omega
  have e1 := total_nonempty p.queues
  have e2 := total_nonempty p.failedQ
  unfold total at e1 e2
  refine ⟨⟨?_, ?_, ?_⟩, ?_, ?_, ?_, ?_, ?_⟩
  · simp only [Pool.getFinished, queuesToList]; rw [keys_emptied]; exact h.q
  · simp only [Pool.getFinished, queuesToList]; rw [keys_emptied]; exact h.f
  · simp only [Pool.getFinished, queuesToList, e1, e2, total_emptied]
    simpa [total] using hz
  · simp only [Pool.getFinished, queuesToList, e1, e2]
    simpa [total] using hz
  · intro l; simp only [Pool.getFinished, queuesToList]; rw [atLevel_nonempty, atLevel_of_nodup _ h.q]
  · intro l; simp only [Pool.getFinished, queuesToList]; rw [atLevel_nonempty, atLevel_of_nodup _ h.f]
  · intro l; simp only [Pool.getFinished, queuesToList]; exact get?_emptied _ l
  · intro l; simp only [Pool.getFinished, queuesToList]; exact get?_emptied _ l

theorem scheduledSucc_cons (md5 : SampleId → List UInt8) (l : Nat) (id : SampleId) (sim : PoolSim Cfg K C) (dur : ℚ)
    (ops : List (PoolOp Cfg K C)) : scheduledSucc md5 l (.schedule id sim dur :: ops) =
      (if sim.level = l then succEntry md5 id sim else []) ++ scheduledSucc md5 l ops := by
  by_cases hl : sim.level = l
  · by_cases hw : WellFormed sim.fmt (outcome md5 id sim)
    · cases ho : outcome md5 id sim with
      | raised _ => rw [ho] at hw; exact absurd hw (fun h => h)
      | notPair _ => rw [ho] at hw; exact absurd hw (fun h => h)
      | pair f c =>
        simp only [scheduledSucc, List.filterMap_cons, hl, hw, and_self, if_true, succEntry]
        rw [ho]; rfl
    · simp [scheduledSucc, List.filterMap_cons, hl, hw, succEntry]
  · simp [scheduledSucc, List.filterMap_cons, hl]

theorem scheduledFailed_cons (md5 : SampleId → List UInt8) (l : Nat) (id : SampleId) (sim : PoolSim Cfg K C) (dur : ℚ)
    (ops : List (PoolOp Cfg K C)) : scheduledFailed md5 l (.schedule id sim dur :: ops) =
      (if sim.level = l then failEntry md5 id sim else []) ++ scheduledFailed md5 l ops := by
  by_cases hl : sim.level = l
  · by_cases hw : WellFormed sim.fmt (outcome md5 id sim)
    · simp [scheduledFailed, List.filterMap_cons, hl, hw, failEntry]
    · simp [scheduledFailed, List.filterMap_cons, hl, hw, failEntry]
  · simp [scheduledFailed, List.filterMap_cons, hl]

theorem queue_upd {α : Type} (d : Dict Nat (List α)) (k l : Nat) (x : α) :
    (Dict.get? (Dict.upd d k [] (· ++ [x])) l).getD [] = (Dict.get? d l).getD [] ++ if k = l then [x] else [] := by
  by_cases h : k = l
  · subst h; simp [Dict.get?_upd_self]
  · rw [Dict.get?_upd_ne _ _ _ (fun e => h e.symm)]; simp [h]

theorem run_spec (md5 : SampleId → List UInt8) (l : Nat) : ∀ (ops : List (PoolOp Cfg K C)) (p : Pool K C), PoolInv p →
    FilesOk ops →
    PoolInv (p.run md5 ops).1 ∧ (∀ a ∈ (p.run md5 ops).2, a.nRunning = 0) ∧
    deliveredSucc (p.run md5 ops).2 l ++ (Dict.get? (p.run md5 ops).1.queues l).getD [] =
      (Dict.get? p.queues l).getD [] ++ scheduledSucc md5 l ops ∧
    (deliveredFailed (p.run md5 ops).2 l).map (·.1) ++ ((Dict.get? (p.run md5 ops).1.failedQ l).getD []).map (·.1) =
      ((Dict.get? p.failedQ l).getD []).map (·.1) ++ scheduledFailed md5 l ops := by
  intro ops
  induction ops with
  | nil => intro p h _; refine ⟨h, by simp [Pool.run], by simp [Pool.run, deliveredSucc, scheduledSucc],
      by simp [Pool.run, deliveredFailed, scheduledFailed]⟩
  | cons o ops ih =>
    intro p h hf
    have hf' : FilesOk ops := fun id sim dur hm => hf id sim dur (List.mem_cons_of_mem _ hm)
    cases o with
    | get =>
      obtain ⟨g1, g2, g3, g4, g5, g6⟩ := getFinished_inv p h
      obtain ⟨i1, i2, i3, i4⟩ := ih p.getFinished.2 g1 hf'
      rw [g5] at i3
      rw [g6] at i4
      refine ⟨i1, ?_, ?_, ?_⟩
      · intro a ha
        simp only [Pool.run, List.mem_cons] at ha
        rcases ha with rfl | ha
        · exact g2
        · exact i2 a ha
      · show atLevel p.getFinished.1.succ l ++ deliveredSucc (p.getFinished.2.run md5 ops).2 l ++
          (Dict.get? (p.getFinished.2.run md5 ops).1.queues l).getD [] = _
        rw [g3, List.append_assoc, i3]
        rfl
      · show (atLevel p.getFinished.1.failed l ++ deliveredFailed (p.getFinished.2.run md5 ops).2 l).map (·.1) ++
          ((Dict.get? (p.getFinished.2.run md5 ops).1.failedQ l).getD []).map (·.1) = _
        rw [g4, List.map_append, List.append_assoc, i4]
        rfl
    | schedule id sim dur =>
      have hok := hf id sim dur (by simp)
      obtain ⟨i1, i2, i3, i4⟩ := ih (p.schedule md5 sim id dur).1 (schedule_inv md5 p sim id dur hok h) hf'
      refine ⟨i1, i2, ?_, ?_⟩
      · show deliveredSucc ((p.schedule md5 sim id dur).1.run md5 ops).2 l ++ _ = _
        refine i3.trans ?_
        rw [scheduledSucc_cons, ← List.append_assoc]
        congr 1
        obtain ⟨_, ⟨h1, h2, _, _, _⟩ | ⟨_, _, r, h1, h2⟩⟩ := schedule_spec md5 p sim id dur hok
        · rw [h2, h1]; simp
        · rw [h2, h1, queue_upd]
      · show (deliveredFailed ((p.schedule md5 sim id dur).1.run md5 ops).2 l).map (·.1) ++ _ = _
        refine i4.trans ?_
        rw [scheduledFailed_cons, ← List.append_assoc]
        congr 1
        obtain ⟨_, ⟨_, _, e, h1, h2⟩ | ⟨h1, h2, _, _, _⟩⟩ := schedule_spec md5 p sim id dur hok
        · rw [h2, h1, queue_upd, List.map_append]
          congr 1
          split <;> rfl
        · rw [h2, h1]; simp

theorem run_append (md5 : SampleId → List UInt8) : ∀ (ops ops' : List (PoolOp Cfg K C)) (p : Pool K C),
    p.run md5 (ops ++ ops') = (((p.run md5 ops).1.run md5 ops').1, (p.run md5 ops).2 ++ ((p.run md5 ops).1.run md5 ops').2) := by
  intro ops
  induction ops with
  | nil => intro ops' p; simp [Pool.run]
  | cons o ops ih =>
    intro ops' p
    cases o with
    | get => simp only [List.cons_append, Pool.run, ih]
    | schedule id sim dur => simp only [List.cons_append, Pool.run, ih]

theorem create_inv (debug hasDir : Bool) (d : Dirs C) : PoolInv (Pool.create (K := K) debug hasDir d) := by
  refine ⟨?_, ?_, ?_⟩ <;> simp [Pool.create, Dict.keys, total]

end MLMC
