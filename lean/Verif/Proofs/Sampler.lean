import Verif.Model.Sampler
import Verif.Proofs.Tag
import Mathlib.Data.List.Basic
import Mathlib.Data.List.Nodup
import Mathlib.Tactic.Linarith
/-! Helper lemmas about scheduling. -/
namespace MLMC
variable {V : Type}

/-- Tags of `n` consecutive running numbers starting with `k`. -/
def levelTags (l k n : Nat) : List SampleId := (List.range' k n).map (sampleTag l)

@[simp] theorem levelTags_length (l k n : Nat) : (levelTags l k n).length = n := by simp [levelTags]

theorem levelTags_succ (l k n : Nat) : levelTags l k (n+1) = sampleTag l k :: levelTags l (k+1) n := by
  simp [levelTags, List.range'_succ]

theorem levelTags_append (l k m n : Nat) : levelTags l k m ++ levelTags l (k + m) n = levelTags l k (m + n) := by
  rw [levelTags, levelTags, levelTags, ← List.map_append, List.range'_append_1]

theorem runActs_append (a b : List SchedAct) (s : Sys V) : runActs (a ++ b) s = runActs b (runActs a s) := by
  simp [runActs, List.foldl_append]

theorem runActs_cons (a : SchedAct) (b : List SchedAct) (s : Sys V) : runActs (a :: b) s = runActs b (a.apply s) := rfl

theorem runActs_hands (l n : Nat) : ∀ (s : Sys V) (k : Nat), s.nSched[l]? = some k →
    runActs (List.replicate n (.hand l)) s =
      { s with
        handed := s.handed ++ (levelTags l k n).map (Prod.mk l)
        nSched := s.nSched.set l (k + n)
        pending := s.pending ++ levelTags l k n } := by
  induction n with
  | zero =>
    intro s k h
    have : s.nSched.set l k = s.nSched := by
      apply List.ext_getElem?
      intro i
      rw [List.getElem?_set]
      split
      · rename_i e; subst e; rw [h]
        split
        · rfl
        · rename_i hl; rw [List.getElem?_eq_none (by omega)] at h; simp at h
      · rfl
    simp [runActs, levelTags, this]
  | succ n ih =>
    intro s k h
    have hl : l < s.nSched.length := by
      rcases Nat.lt_or_ge l s.nSched.length with h1 | h1
      · exact h1
      · rw [List.getElem?_eq_none h1] at h; simp at h
    rw [List.replicate_succ, runActs_cons]
    have happ : (SchedAct.hand l).apply s =
      { s with
        handed := s.handed ++ [(l, sampleTag l k)]
        nSched := s.nSched.set l (k + 1)
        pending := s.pending ++ [sampleTag l k] } := by
      simp [SchedAct.apply, h]
    rw [happ, ih _ (k + 1) (by simp [hl])]
    simp [levelTags_succ, Nat.add_comm, Nat.add_left_comm]

theorem modify_append_nil (g : HdfLevels V) (l : Nat) :
    g.modify l (fun x => { x with scheduled := x.scheduled ++ [] }) = g := by
  apply List.ext_getElem?
  intro i
  rw [List.getElem?_modify]
  split <;> simp

theorem save_eq (l : Nat) (ids : List SampleId) (g : HdfLevels V) :
    applyOps (saveScheduledOps l ids) g = g.modify l fun x => { x with scheduled := x.scheduled ++ ids } := by
  unfold saveScheduledOps
  split
  · rfl
  · rename_i h
    have : ids = [] := by
      cases ids with
      | nil => rfl
      | cons a b => simp at h
    subst this
    rw [modify_append_nil]; rfl

theorem runActs_level (l n : Nat) (s : Sys V) (k : Nat) (h : s.nSched[l]? = some k) :
    runActs ((.begin l :: List.replicate n (.hand l)) ++ [.save l]) s =
      { s with
        handed := s.handed ++ (levelTags l k n).map (Prod.mk l)
        nSched := s.nSched.set l (k + n)
        pending := levelTags l k n
        store := s.store.modify l fun x => { x with scheduled := x.scheduled ++ levelTags l k n } } := by
  rw [runActs_append, runActs_cons (.begin l), runActs_hands l n ((SchedAct.begin l).apply s) k (by simpa [SchedAct.apply] using h)]
  simp [runActs, SchedAct.apply, save_eq]

/-- Number of samples the plan (starting at level `l0`) adds to level `j`. -/
def planAt (l0 : Nat) (plan : List Nat) (j : Nat) : Nat := if j < l0 then 0 else (plan[j - l0]?).getD 0

/-- Closed form of the whole scheduling loop. -/
theorem runActs_sched (plan : List Nat) : ∀ (l0 : Nat) (s : Sys V), l0 + plan.length ≤ s.nSched.length →
    let s' := runActs (schedActs l0 plan) s
    s'.target = s.target ∧ s'.renewed = s.renewed ∧
    s'.nSched.length = s.nSched.length ∧ s'.store.length = s.store.length ∧
    (∀ j : Nat, s'.nSched[j]? = (s.nSched[j]?).map (· + planAt l0 plan j)) ∧
    (∀ j : Nat, s'.store[j]? = (s.store[j]?).map fun (x : LevelGroup V) =>
        { x with scheduled := x.scheduled ++ levelTags j ((s.nSched[j]?).getD 0) (planAt l0 plan j) }) ∧
    s'.handed = s.handed ++ (List.range plan.length).flatMap fun i =>
        (levelTags (l0 + i) ((s.nSched[l0 + i]?).getD 0) ((plan[i]?).getD 0)).map (Prod.mk (l0 + i)) := by
  induction plan with
  | nil =>
    intro l0 s _
    refine ⟨rfl, rfl, rfl, rfl, ?_, ?_, ?_⟩
    · intro j; simp [planAt, runActs, schedActs]
    · intro j; simp [planAt, runActs, schedActs, levelTags]
    · simp [runActs, schedActs]
  | cons n plan ih =>
    intro l0 s hlen
    simp only [List.length_cons] at hlen
    have hl : l0 < s.nSched.length := by omega
    have hk : s.nSched[l0]? = some s.nSched[l0] := List.getElem?_eq_getElem hl
    rw [schedActs, runActs_append, runActs_level l0 n s _ hk]
    have hih := ih (l0 + 1)
      { s with
        handed := s.handed ++ (levelTags l0 s.nSched[l0] n).map (Prod.mk l0)
        nSched := s.nSched.set l0 (s.nSched[l0] + n)
        pending := levelTags l0 s.nSched[l0] n
        store := s.store.modify l0 fun x => { x with scheduled := x.scheduled ++ levelTags l0 s.nSched[l0] n } }
      (by simp only [List.length_set]; omega)
    obtain ⟨h1, h2, h3, h4, h5, h6, h7⟩ := hih
    refine ⟨h1, h2, by simpa using h3, by simpa using h4, ?_, ?_, ?_⟩
    · intro j
      rw [h5 j]
      simp only [List.getElem?_set]
      rcases Nat.lt_trichotomy j l0 with hj | hj | hj
      · have : l0 ≠ j := by omega
        simp [planAt, hj, this, Nat.lt_succ_of_lt hj]
      · subst hj
        simp [planAt, hl]
      · have h0 : ¬ j < l0 := by omega
        have h1 : ¬ j < l0 + 1 := by omega
        have h2 : l0 ≠ j := by omega
        have : j - l0 = (j - (l0 + 1)) + 1 := by omega
        simp [planAt, h0, h1, h2, this]
    · intro j
      rw [h6 j]
      simp only [List.getElem?_set, List.getElem?_modify]
      rcases Nat.lt_trichotomy j l0 with hj | hj | hj
      · have : l0 ≠ j := by omega
        have h2 : j < l0 + 1 := by omega
        simp [planAt, hj, this, h2]
      · subst hj
        cases hs : s.store[j]? <;> simp [planAt, hl, levelTags]
      · have h0 : ¬ j < l0 := by omega
        have h1 : ¬ j < l0 + 1 := by omega
        have h2 : l0 ≠ j := by omega
        have h3 : j - l0 = (j - (l0 + 1)) + 1 := by omega
        simp [planAt, h0, h1, h2, h3]
    · rw [h7]
      simp only [List.length_cons, List.append_assoc, List.append_cancel_left_eq]
      rw [List.range_succ_eq_map, List.flatMap_cons, List.flatMap_map]
      simp only [Nat.add_zero, hk, Option.getD_some, List.getElem?_cons_zero, List.append_cancel_left_eq]
      congr 1
      funext i
      have : l0 ≠ l0 + 1 + i := by omega
      simp only [List.getElem?_set, this, if_false]
      have h2 : l0 + 1 + i = l0 + i.succ := by omega
      rw [h2]; rfl

end MLMC

namespace MLMC
variable {V : Type}

theorem add_planCount (t : ℚ) (k : Nat) : k + planCount t k = max k ⌊t⌋.toNat := by
  unfold planCount pyInt
  split
  · rename_i h
    have h1 : ⌈t - (k : ℚ)⌉ ≤ 0 := Int.ceil_le.2 (by exact_mod_cast h.le)
    have h2 : ⌊t⌋ ≤ (k : ℤ) := by
      have : (⌊t⌋ : ℚ) ≤ k := (Int.floor_le t).trans (by linarith)
      exact_mod_cast this
    omega
  · have : ⌊t - (k : ℚ)⌋ = ⌊t⌋ - k := by
      have := Int.floor_sub_natCast t k
      exact this
    rw [this]; omega

/-- All levels' scheduled lists of a store. -/
def schedOf (g : HdfLevels V) : List (List SampleId) := g.map (·.scheduled)

/-- A write that is not `addScheduled`. -/
def FileOp.keepsSched : FileOp V → Bool
  | .addScheduled _ _ => false
  | _ => true

theorem schedOf_modify (g : HdfLevels V) (l : Nat) (f : LevelGroup V → LevelGroup V)
    (h : ∀ x, (f x).scheduled = x.scheduled) : schedOf (g.modify l f) = schedOf g := by
  apply List.ext_getElem?
  intro i
  simp only [schedOf, List.getElem?_map, List.getElem?_modify]
  split <;> cases g[i]? <;> simp [h]

theorem schedOf_apply (o : FileOp V) (ho : o.keepsSched = true) (g : HdfLevels V) :
    schedOf (o.apply g) = schedOf g := by
  cases o <;> simp [FileOp.keepsSched] at ho <;> exact schedOf_modify _ _ _ (fun _ => rfl)

theorem schedOf_applyOps (ops : List (FileOp V)) : (∀ o ∈ ops, o.keepsSched = true) → ∀ g : HdfLevels V,
    schedOf (applyOps ops g) = schedOf g := by
  induction ops with
  | nil => intro _ g; rfl
  | cons o ops ih =>
    intro h g
    show schedOf (applyOps ops (o.apply g)) = _
    rw [ih (fun o' ho' => h o' (by simp [ho'])), schedOf_apply o (h o (by simp))]

theorem saveSamplesOps_keeps (succ : Dict Nat (List (SampleId × V))) (failed : Dict Nat (List (SampleId × Msg))) :
    ∀ o ∈ saveSamplesOps succ failed, o.keepsSched = true := by
  intro o ho
  simp only [saveSamplesOps, saveSuccessfulOps, saveFailedOps, List.mem_append, List.mem_flatMap] at ho
  rcases ho with ⟨⟨l, ss⟩, _, h⟩ | ⟨⟨l, ss⟩, _, h⟩
  · simp only at h
    split at h
    · simp only [appendSuccessfulOps, List.mem_cons, List.not_mem_nil, or_false] at h
      rcases h with rfl | rfl | rfl <;> rfl
    · simp at h
  · simp only at h
    split at h
    · simp at h; subst h; rfl
    · simp at h

theorem clearFailedOps_keeps (g : HdfLevels V) : ∀ o ∈ clearFailedOps g, o.keepsSched = true := by
  intro o ho
  simp only [clearFailedOps, List.mem_flatMap] at ho
  obtain ⟨l, _, h⟩ := ho
  split at h
  · simp at h
    rcases h with rfl | rfl <;> rfl
  · simp at h

theorem schedOf_saveNOps (nOps : List (Nat × (ℚ × ℚ))) : ∀ g : HdfLevels V, schedOf (saveNOps g nOps) = schedOf g := by
  induction nOps with
  | nil => intro g; rfl
  | cons e t ih =>
    intro g
    show schedOf (saveNOps (saveNOpsStep g e) t) = _
    rw [ih]
    exact schedOf_modify _ _ _ (fun x => by simp only []; split <;> rfl)

/-- The invariant relating sampler, storage and the pool's log. -/
structure SchedInv (n : Nat) (s : Sys V) : Prop where
  len : s.nSched.length = n
  sched : ∀ l : Nat, (schedOf s.store)[l]? = (s.nSched[l]?).map (levelTags l 0)
  form : ∀ p ∈ s.handed, ∃ i k, s.nSched[p.1]? = some k ∧ i < k ∧ p.2 = sampleTag p.1 i
  nodup : s.handed.Nodup

theorem SchedInv.storeLen {n : Nat} {s : Sys V} (h : SchedInv n s) : s.store.length = n := by
  have h1 : ∀ l : Nat, ((schedOf s.store)[l]?).isSome = (s.nSched[l]?).isSome := by
    intro l; rw [h.sched l]; simp
  have h2 : (schedOf s.store).length = s.nSched.length := by
    have a := h1 (schedOf s.store).length
    have b := h1 s.nSched.length
    simp at a b
    omega
  rw [← h.len, ← h2]; simp [schedOf]

theorem mem_levelTags {l k n : Nat} {t : SampleId} : t ∈ levelTags l k n ↔ ∃ i, k ≤ i ∧ i < k + n ∧ t = sampleTag l i := by
  simp only [levelTags, List.mem_map, List.mem_range'_1]
  constructor
  · rintro ⟨i, ⟨h1, h2⟩, rfl⟩; exact ⟨i, h1, h2, rfl⟩
  · rintro ⟨i, h1, h2, rfl⟩; exact ⟨i, ⟨h1, h2⟩, rfl⟩

theorem nodup_levelTags (l k n : Nat) : (levelTags l k n).Nodup := by
  rw [levelTags]
  refine List.Nodup.map ?_ List.nodup_range'
  intro a b h
  exact (sampleTag_injective h).2

/-- The samples handed over by the loop. -/
def newHanded (s : Sys V) (plan : List Nat) : List (Nat × SampleId) :=
  (List.range plan.length).flatMap fun i =>
    (levelTags i ((s.nSched[i]?).getD 0) ((plan[i]?).getD 0)).map (Prod.mk i)

theorem mem_newHanded {s : Sys V} {plan : List Nat} {p : Nat × SampleId} (h : p ∈ newHanded s plan) :
    p.1 < plan.length ∧ ∃ i, ((s.nSched[p.1]?).getD 0) ≤ i ∧
      i < ((s.nSched[p.1]?).getD 0) + ((plan[p.1]?).getD 0) ∧ p.2 = sampleTag p.1 i := by
  simp only [newHanded, List.mem_flatMap, List.mem_range, List.mem_map] at h
  obtain ⟨a, ha, t, ht, rfl⟩ := h
  exact ⟨ha, mem_levelTags.1 ht⟩

theorem nodup_newHanded (s : Sys V) (plan : List Nat) : (newHanded s plan).Nodup := by
  rw [newHanded, List.nodup_flatMap]
  refine ⟨fun i _ => ?_, ?_⟩
  · exact List.Nodup.map (fun a b h => by simpa using h) (nodup_levelTags _ _ _)
  · have : List.Pairwise (· ≠ ·) (List.range plan.length) := List.nodup_range
    refine this.imp ?_
    intro a b hab
    rw [Function.onFun, List.disjoint_left]
    intro p hp hq
    simp only [List.mem_map] at hp hq
    obtain ⟨_, _, rfl⟩ := hp
    obtain ⟨_, _, h⟩ := hq
    exact hab (by simpa using (congrArg Prod.fst h).symm)

/-- What `schedule_samples` does, in closed form. -/
theorem schedule_closed (s : Sys V) (hl : s.target.length = s.nSched.length ∨ s.nSched.length = 1) :
    s.schedule.target = s.target ∧ s.schedule.renewed = s.renewed ∧
    s.schedule.nSched.length = s.nSched.length ∧ s.schedule.store.length = s.store.length ∧
    (∀ j : Nat, s.schedule.nSched[j]? = (s.nSched[j]?).map (· + (s.plan[j]?).getD 0)) ∧
    (∀ j : Nat, s.schedule.store[j]? = (s.store[j]?).map fun (x : LevelGroup V) =>
        { x with scheduled := x.scheduled ++ levelTags j ((s.nSched[j]?).getD 0) ((s.plan[j]?).getD 0) }) ∧
    s.schedule.handed = s.handed ++ newHanded s s.plan := by
  have hp : s.plan.length ≤ s.nSched.length := by simp [Sys.plan]
  have h := runActs_sched s.plan 0 s (by omega)
  rw [Sys.schedule, if_pos hl]
  simpa [planAt, newHanded] using h

theorem plan_get (s : Sys V) (j : Nat) :
    s.plan[j]? = match s.target[j]?, s.nSched[j]? with
      | some t, some k => some (planCount t k)
      | _, _ => none := by
  simp only [Sys.plan, List.getElem?_zipWith]
  cases s.target[j]? <;> cases s.nSched[j]? <;> rfl

theorem schedInv_schedule {n : Nat} {s : Sys V} (h : SchedInv n s) : SchedInv n s.schedule := by
  by_cases hl : s.target.length = s.nSched.length ∨ s.nSched.length = 1
  · obtain ⟨_, _, h3, h4, h5, h6, h7⟩ := schedule_closed s hl
    refine ⟨by rw [h3, h.len], ?_, ?_, ?_⟩
    · intro l
      have hs := h.sched l
      simp only [schedOf, List.getElem?_map] at hs ⊢
      rw [h6 l, h5 l]
      cases hst : s.store[l]? with
      | none =>
        rw [hst] at hs
        cases hn : s.nSched[l]? with
        | none => rfl
        | some k => rw [hn] at hs; simp at hs
      | some x =>
        rw [hst] at hs
        cases hn : s.nSched[l]? with
        | none => rw [hn] at hs; simp at hs
        | some k =>
          rw [hn] at hs
          simp at hs
          simp only [Option.map_some, Option.getD_some, hs]
          rw [← levelTags_append]; simp
    · intro p hp
      rw [h7, List.mem_append] at hp
      rw [h5]
      rcases hp with hp | hp
      · obtain ⟨i, k, h1, h2, h3⟩ := h.form p hp
        exact ⟨i, k + (s.plan[p.1]?).getD 0, by rw [h1]; rfl, by omega, h3⟩
      · obtain ⟨h1, i, h2, h3, h4⟩ := mem_newHanded hp
        have hp' : s.plan.length ≤ s.nSched.length := by simp [Sys.plan]
        have hlt : p.1 < s.nSched.length := by omega
        rw [List.getElem?_eq_getElem hlt] at h3 ⊢
        exact ⟨i, _, rfl, by simpa using h3, h4⟩
    · rw [h7, List.nodup_append]
      refine ⟨h.nodup, nodup_newHanded _ _, ?_⟩
      intro a ha b hb hab
      subst hab
      obtain ⟨i, k, h1, h2, h3⟩ := h.form a ha
      obtain ⟨_, j, h4, _, h5⟩ := mem_newHanded hb
      rw [h1] at h4
      simp at h4
      have := (sampleTag_injective (h3.symm.trans h5)).2
      omega
  · rw [Sys.schedule, if_neg hl]; exact h

theorem schedInv_congr {n : Nat} {s s' : Sys V} (h : SchedInv n s) (h1 : s'.nSched = s.nSched)
    (h2 : schedOf s'.store = schedOf s.store) (h3 : s'.handed = s.handed) : SchedInv n s' :=
  ⟨by rw [h1, h.len], by intro l; rw [h1, h2, h.sched l], by rw [h1, h3]; exact h.form, by rw [h3]; exact h.nodup⟩

theorem restart_nSched {n : Nat} {s : Sys V} (h : SchedInv n s) : s.restart.nSched = s.nSched := by
  apply List.ext_getElem?
  intro l
  have hs := h.sched l
  simp only [schedOf, List.getElem?_map] at hs
  simp only [Sys.restart, Sys.construct, hdfLoadScheduled, List.map_map, List.getElem?_map]
  cases hst : s.store[l]? with
  | none =>
    rw [hst] at hs
    cases hn : s.nSched[l]? with
    | none => rfl
    | some k => rw [hn] at hs; simp at hs
  | some x =>
    rw [hst] at hs
    cases hn : s.nSched[l]? with
    | none => rw [hn] at hs; simp at hs
    | some k => rw [hn] at hs; simp at hs; simp [hs]

theorem schedInv_fresh (n : Nat) : SchedInv n (Sys.fresh V n) := by
  refine ⟨by simp [Sys.fresh, Sys.construct, hdfLoadScheduled], ?_, by simp [Sys.fresh, Sys.construct],
    by simp [Sys.fresh, Sys.construct]⟩
  intro l
  simp only [Sys.fresh, Sys.construct, schedOf, hdfLoadScheduled, List.map_map, List.getElem?_map,
    List.getElem?_replicate]
  split <;> simp [levelTags]

/-- An operation during which the program does not die inside `schedule_samples`. -/
def SamplerOp.noCrash : SamplerOp V → Bool
  | .crashInSchedule _ => false
  | _ => true

theorem schedInv_step {n : Nat} {s : Sys V} (h : SchedInv n s) (o : SamplerOp V) (ho : o.noCrash = true) :
    SchedInv n (s.step o) := by
  cases o with
  | setInitial v => exact schedInv_congr h rfl rfl rfl
  | setTarget v => exact schedInv_congr h rfl rfl rfl
  | poll a b c =>
    refine schedInv_congr h rfl ?_ rfl
    simp only [Sys.step]
    rw [schedOf_saveNOps, schedOf_applyOps _ (saveSamplesOps_keeps a b)]
  | schedule => exact schedInv_schedule h
  | processAdding est c =>
    simp only [Sys.step, Sys.processAdding]
    split
    · exact schedInv_schedule (schedInv_congr h rfl rfl rfl)
    · exact h
  | renew =>
    simp only [Sys.step, Sys.renew]
    split
    · exact h
    · exact schedInv_congr h rfl (schedOf_applyOps _ (clearFailedOps_keeps _) _) rfl
  | restart =>
    exact schedInv_congr h (restart_nSched h) rfl rfl
  | crashInSchedule k => simp [SamplerOp.noCrash] at ho

theorem schedInv_run {n : Nat} (ops : List (SamplerOp V)) : ∀ s : Sys V, SchedInv n s →
    (∀ o ∈ ops, o.noCrash = true) → SchedInv n (s.run ops) := by
  induction ops with
  | nil => intro s h _; exact h
  | cons o ops ih =>
    intro s h ho
    exact ih _ (schedInv_step h o (ho o (by simp))) (fun o' h' => ho o' (by simp [h']))

end MLMC
