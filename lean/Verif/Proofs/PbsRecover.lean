import Verif.Proofs.PbsSessions
import Verif.Spec.PbsRecover
/-! The directory as a function of the steps since it was emptied, and the first question of a new program. -/
namespace MLMC
variable {Cfg K C : Type}

section
variable {S R : Type}

theorem sinceEmptied_snoc (h : List (PbsOp S R)) (o : PbsOp S R) :
    sinceEmptied (h ++ [o]) = if o.empties then [] else sinceEmptied h ++ [o] := by
  unfold sinceEmptied
  rw [List.reverse_append, List.reverse_singleton, List.singleton_append, List.takeWhile_cons]
  cases o.empties <;> simp

theorem sinceEmptied_kept (h : List (PbsOp S R)) : ∀ l, PbsOp.restart false l ∉ sinceEmptied h := by
  intro l
  induction h using List.reverseRecOn with
  | nil => simp [sinceEmptied]
  | append_singleton h o ih =>
    rw [sinceEmptied_snoc]
    split
    · simp
    · rename_i ho
      simp only [List.mem_append, List.mem_singleton, not_or]
      refine ⟨ih, fun e => ho ?_⟩
      rw [← e]; rfl

theorem run_since (seedOf : SampleId → Nat) (h : List (PbsOp S R)) :
    ((PbsWorld.create false [] ({} : PbsDisk S R)).run seedOf h).1 = ((PbsWorld.create false [] ({} : PbsDisk S R)).run seedOf (sinceEmptied h)).1 := by
  induction h using List.reverseRecOn with
  | nil => rfl
  | append_singleton h o ih =>
    rw [sinceEmptied_snoc, run_concat]
    cases ho : o.empties with
    | false => rw [if_neg (by simp), run_concat, ih]
    | true =>
      rw [if_pos rfl]
      cases o with
      | restart d l =>
        cases d
        · rfl
        · simp [PbsOp.empties] at ho
      | _ => simp [PbsOp.empties] at ho

/-- Scheduled files and successes in a directory that was never emptied. -/
structure DirFacts (w : PbsWorld S R) (ps : List (Nat × List Trip)) (h : List (PbsOp S R)) : Prop where
  file : ∀ pk ∈ ps, (Dict.get? w.disk.scheduled pk.1).isSome
  recs : ∀ j, succRecords w.disk j = (appendsOf j h).filterMap succOf

theorem DirFacts.of_eq {w w' : PbsWorld S R} {ps h h'} (i : DirFacts w ps h) (e1 : w'.disk.scheduled = w.disk.scheduled)
    (e2 : w'.disk.succ = w.disk.succ) (e3 : ∀ j, appendsOf j h' = appendsOf j h) : DirFacts w' ps h' :=
  ⟨by rw [e1]; exact i.file, fun j => by rw [e3, ← i.recs]; simp only [succRecords, e2]⟩

theorem execute_dir {w : PbsWorld S R} {ps h h'} (i : DirFacts w ps h) (q : QsubAns) (e : ∀ j, appendsOf j h' = appendsOf j h) :
    DirFacts (w.execute q).1 (ps ++ (w.execute q).2.packed) h' := by
  have hs := (execute_world w q).2.1
  refine ⟨?_, fun j => by rw [e, ← i.recs]; simp only [succRecords, hs]⟩
  unfold PbsWorld.execute
  split
  · simpa using i.file
  · have key : ∀ pk ∈ ps ++ [(w.pool.jobCount, w.pool.scheduled)],
        (Dict.get? (Dict.set w.disk.scheduled w.pool.jobCount w.pool.scheduled) pk.1).isSome := by
      intro pk hpk
      by_cases e : pk.1 = w.pool.jobCount
      · rw [e, Dict.get?_set_self]; rfl
      · rw [Dict.get?_set_ne _ _ e]
        rcases List.mem_append.1 hpk with hpk | hpk
        · exact i.file pk hpk
        · simp only [List.mem_singleton] at hpk
          rw [hpk] at e; exact absurd rfl e
    cases q <;> exact key

theorem step_dir (seedOf : SampleId → Nat) {w : PbsWorld S R} {ps h} (i : DirFacts w ps h) (o : PbsOp S R) (hr : o.empties = false) :
    DirFacts (w.step seedOf o).1 (ps ++ (w.step seedOf o).2.packed) (h ++ [o]) := by
  have ha : (∀ j a, o ≠ .job j a) → ∀ j, appendsOf j (h ++ [o]) = appendsOf j h := by
    intro hne j
    rw [appendsOf_append]
    cases o with
    | job i a => exact absurd rfl (hne i a)
    | _ => simp [appendsOf]
  cases o with
  | schedule id l size sim q =>
    simp only [PbsWorld.step, PbsWorld.schedule]
    split
    · refine execute_dir (h := h) ?_ q (ha (by simp))
      exact i.of_eq rfl rfl fun _ => rfl
    · simp only [List.append_nil]; exact i.of_eq rfl rfl (ha (by simp))
  | execute q => exact execute_dir i q (ha (by simp))
  | get q a =>
    obtain ⟨c, _, _, e, _⟩ := getFinished_core w q a
    simp only [PbsWorld.step, e]
    exact (execute_dir i q (ha (by simp))).of_eq c.files c.succ fun _ => rfl
  | permanent ids => simp only [PbsWorld.step, List.append_nil]; exact i.of_eq rfl rfl (ha (by simp))
  | job j a =>
    simp only [PbsWorld.step, List.append_nil]
    refine ⟨by rw [(apply_rest j w.disk a).1]; exact i.file, fun k => ?_⟩
    rw [appendsOf_append, List.filterMap_append, ← i.recs]
    by_cases e : j = k
    · subst e
      simp only [succRecords, (apply_self j w.disk a).1, appendsOf, List.filterMap_cons, if_true, List.filterMap_nil]
      cases succOf a <;> simp
    · simp only [succRecords, (apply_other k j e w.disk a).1, appendsOf, List.filterMap_cons, if_neg e, List.filterMap_nil, List.append_nil]
  | restart d l =>
    cases d with
    | false => simp [PbsOp.empties] at hr
    | true => simp only [PbsWorld.step, List.append_nil]; exact i.of_eq rfl rfl (ha (by simp))

theorem run_dir (seedOf : SampleId → Nat) (h : List (PbsOp S R)) (hr : ∀ l, PbsOp.restart false l ∉ h) :
    DirFacts ((PbsWorld.create false [] ({} : PbsDisk S R)).run seedOf h).1 (packages ((PbsWorld.create false [] ({} : PbsDisk S R)).run seedOf h).2) h := by
  induction h using List.reverseRecOn with
  | nil => exact ⟨by simp [PbsWorld.run, packages], fun j => by simp [PbsWorld.run, PbsWorld.create, succRecords, appendsOf]⟩
  | append_singleton h o ih =>
    have := step_dir seedOf (ih fun l hm => hr l (by simp [hm])) o (by
      cases o with
      | restart d l =>
        cases d
        · exact absurd (by simp) (hr l)
        · rfl
      | _ => rfl)
    rw [run_concat]
    simpa [packages] using this

theorem lastJobWith_mem {ps : List (Nat × List Trip)} {id : SampleId} {j : Nat} (h : lastJobWith ps id = some j) :
    ∃ ts, (j, ts) ∈ ps ∧ id ∈ ts.map (·.2.1) := by
  unfold lastJobWith at h
  obtain ⟨pk, h1, rfl⟩ := Option.map_eq_some_iff.1 h
  have h2 := List.find?_some h1
  have h3 := List.mem_of_find?_eq_some h1
  exact ⟨pk.2, List.mem_reverse.1 h3, by simpa using h2⟩

end

/-- What the directory holds, read off the steps since it was emptied. -/
theorem dir_facts (env : PbsEnv Cfg K C) (h : List (PbsOp (PoolSim Cfg K C) (PairRes K))) :
    (∀ id, jobOfSample (worldAfter env h).disk id = match lastJobIn env h id with
      | some j => .ok j
      | none => if packagesIn env (sinceEmptied h) = [] then .error .fileNotFound else .error .keyError) ∧
    (∀ id j, lastJobIn env h id = some j → (Dict.get? (worldAfter env h).disk.scheduled j).isSome) ∧
    ∀ j l id v, (l, id, v) ∈ succRecords (worldAfter env h).disk j ↔ SuccIn h j l id v := by
  have hk := sinceEmptied_kept h
  have hw : worldAfter env h = worldAfter env (sinceEmptied h) := run_since _ h
  have D := run_dir (computeSeed env.md5) (sinceEmptied h) hk
  rw [hw]
  refine ⟨fun id => C34_map_points_to_last_job (computeSeed env.md5) (sinceEmptied h) hk id, ?_, ?_⟩
  · intro id j hj
    obtain ⟨ts, h1, -⟩ := lastJobWith_mem hj
    exact D.file _ h1
  · intro j l id v
    rw [worldAfter, D.recs, SuccIn]
    exact (mem_succOf _ l id v).1

end MLMC
