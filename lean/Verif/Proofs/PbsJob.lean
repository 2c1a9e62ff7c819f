import Verif.Spec.Pbs
import Verif.Proofs.Pool
/-! Helper lemmas about PBS job files. -/
namespace MLMC
variable {S R : Type}

theorem group_fold {α : Type} (rs : List (Nat × α)) : ∀ d : Dict Nat (List α), (Dict.keys d).Nodup →
    (Dict.keys (rs.foldl (fun d r => Dict.upd d r.1 [] (· ++ [r.2])) d)).Nodup ∧
    ∀ l, (Dict.get? (rs.foldl (fun d r => Dict.upd d r.1 [] (· ++ [r.2])) d) l).getD [] =
      (Dict.get? d l).getD [] ++ rs.filterMap fun r => if r.1 = l then some r.2 else none := by
  induction rs with
  | nil => intro d h; exact ⟨h, by simp⟩
  | cons r rs ih =>
    intro d h
    obtain ⟨i1, i2⟩ := ih (Dict.upd d r.1 [] (· ++ [r.2])) (Dict.nodup_keys_upd _ _ _ _ h)
    refine ⟨i1, fun l => ?_⟩
    rw [List.foldl_cons, i2]
    by_cases hl : r.1 = l
    · subst hl; simp [Dict.get?_upd_self]
    · rw [Dict.get?_upd_ne _ _ _ (Ne.symm hl)]; simp [hl]

theorem group_nodup {α : Type} (rs : List (Nat × α)) : (Dict.keys (groupByLevel rs)).Nodup :=
  (group_fold rs [] (by simp [Dict.keys])).1

theorem group_get {α : Type} (rs : List (Nat × α)) (l : Nat) :
    (Dict.get? (groupByLevel rs) l).getD [] = rs.filterMap fun r => if r.1 = l then some r.2 else none := by
  have := (group_fold rs [] (by simp [Dict.keys])).2 l
  simpa [groupByLevel] using this

theorem addMissing_nodup (succ : Dict Nat (List (SampleId × R))) (ts : List Trip) :
    ∀ failed, (Dict.keys failed).Nodup → (Dict.keys (addMissing succ failed ts)).Nodup := by
  induction ts with
  | nil => intro f h; exact h
  | cons t ts ih =>
    intro f h
    obtain ⟨l, id, s⟩ := t
    simp only [addMissing]
    apply ih
    split
    · exact Dict.nodup_keys_upd _ _ _ _ h
    · exact h

theorem addMissing_get (succ : Dict Nat (List (SampleId × R))) (l : Nat) (ts : List Trip) :
    ∀ failed, (idsAt ts l).Nodup →
    (Dict.get? (addMissing succ failed ts) l).getD [] = (Dict.get? failed l).getD [] ++
      ((idsAt ts l).filter fun id => id ∉ ((Dict.get? failed l).getD []).map (·.1) ∧
        id ∉ ((Dict.get? succ l).getD []).map (·.1)).map fun id => (id, jobFailed) := by
  induction ts with
  | nil => intro f h; simp [addMissing, idsAt]
  | cons t ts ih =>
    intro f h
    obtain ⟨k, id, s⟩ := t
    simp only [addMissing]
    by_cases hk : k = l
    · subst hk
      have hids : idsAt ((k, id, s) :: ts) k = id :: idsAt ts k := by simp [idsAt]
      rw [hids] at h ⊢
      have h1 := (List.nodup_cons.1 h).1
      have h2 := (List.nodup_cons.1 h).2
      by_cases hc : id ∉ ((Dict.get? f k).getD []).map (·.1) ∧ id ∉ ((Dict.get? succ k).getD []).map (·.1)
      · rw [if_pos hc, ih _ h2, Dict.get?_upd_self]
        simp only [Option.getD_some, List.append_assoc, List.append_cancel_left_eq]
        rw [List.filter_cons_of_pos (by simpa using hc), List.map_cons, List.singleton_append]
        congr 2
        apply List.filter_congr
        intro x hx
        have : x ≠ id := fun e => h1 (e ▸ hx)
        simp only [List.map_append, List.map_cons, List.map_nil, List.mem_append, List.mem_singleton, this, or_false]
      · rw [if_neg hc, ih _ h2, List.filter_cons_of_neg (by simpa using hc)]
    · have hids : idsAt ((k, id, s) :: ts) l = idsAt ts l := by simp [idsAt, hk]
      rw [hids] at h ⊢
      rw [ih _ h]
      have : Dict.get? (if id ∉ ((Dict.get? f k).getD []).map (·.1) ∧ id ∉ ((Dict.get? succ k).getD []).map (·.1)
          then Dict.upd f k [] (· ++ [(id, jobFailed)]) else f) l = Dict.get? f l := by
        split
        · exact Dict.get?_upd_ne _ _ _ (Ne.symm hk)
        · rfl
      rw [this]

/-- Result files of a job as functions of its appends. -/
theorem apply_other (j i : Nat) (h : i ≠ j) (d : PbsDisk S R) (a : JobAppend R) :
    Dict.get? (a.apply i d).succ j = Dict.get? d.succ j ∧ Dict.get? (a.apply i d).failed j = Dict.get? d.failed j ∧
    Dict.get? (a.apply i d).times j = Dict.get? d.times j := by
  have h' := Ne.symm h
  cases a <;> simp [JobAppend.apply, Dict.get?_upd_ne _ _ _ h']

theorem apply_rest (i : Nat) (d : PbsDisk S R) (a : JobAppend R) :
    (a.apply i d).scheduled = d.scheduled ∧ (a.apply i d).sims = d.sims ∧ (a.apply i d).jobOf = d.jobOf ∧
    (a.apply i d).scripts = d.scripts ∧ (a.apply i d).pbsFiles = d.pbsFiles := by
  cases a <;> simp [JobAppend.apply]

def succOf : JobAppend R → Option (Nat × SampleId × R)
  | .succ l id r => some (l, id, r)
  | _ => none

def failedOf : JobAppend R → Option (Nat × SampleId × Msg)
  | .failed l id r => some (l, id, r)
  | _ => none

def timesOf : JobAppend R → List (Nat × ℚ × Nat)
  | .times rs => rs
  | _ => []

theorem apply_self (j : Nat) (d : PbsDisk S R) (a : JobAppend R) :
    (Dict.get? (a.apply j d).succ j).getD [] = (Dict.get? d.succ j).getD [] ++ (succOf a).toList ∧
    (Dict.get? (a.apply j d).failed j).getD [] = (Dict.get? d.failed j).getD [] ++ (failedOf a).toList ∧
    (Dict.get? (a.apply j d).times j).getD [] = (Dict.get? d.times j).getD [] ++ timesOf a := by
  cases a <;> simp [JobAppend.apply, succOf, failedOf, timesOf, Dict.get?_upd_self]

theorem foldl_apply (j : Nat) (as : List (JobAppend R)) : ∀ d : PbsDisk S R,
    let e := as.foldl (JobAppend.apply j) d
    (Dict.get? e.succ j).getD [] = (Dict.get? d.succ j).getD [] ++ as.filterMap succOf ∧
    (Dict.get? e.failed j).getD [] = (Dict.get? d.failed j).getD [] ++ as.filterMap failedOf ∧
    (Dict.get? e.times j).getD [] = (Dict.get? d.times j).getD [] ++ as.flatMap timesOf ∧
    e.scheduled = d.scheduled := by
  induction as with
  | nil => intro d; simp
  | cons a as ih =>
    intro d
    obtain ⟨h1, h2, h3, h4⟩ := ih (a.apply j d)
    obtain ⟨g1, g2, g3⟩ := apply_self j d a
    simp only [List.foldl_cons]
    refine ⟨?_, ?_, ?_, h4.trans (apply_rest _ _ _).1⟩
    · rw [h1, g1]; cases h : succOf a <;> simp [h]
    · rw [h2, g2]; cases h : failedOf a <;> simp [h]
    · rw [h3, g3]; simp

theorem writtenSucc_eq (as : List (JobAppend R)) (l : Nat) :
    (as.filterMap succOf).filterMap (fun r => if r.1 = l then some r.2 else none) = writtenSucc as l := by
  rw [List.filterMap_filterMap, writtenSucc]
  congr 1
  funext a
  cases a <;> simp [succOf]

theorem writtenFailed_eq (as : List (JobAppend R)) (l : Nat) :
    (as.filterMap failedOf).filterMap (fun r => if r.1 = l then some r.2 else none) = writtenFailed as l := by
  rw [List.filterMap_filterMap, writtenFailed]
  congr 1
  funext a
  cases a <;> simp [failedOf]

theorem writtenTimes_eq (as : List (JobAppend R)) (l : Nat) :
    (as.flatMap timesOf).filterMap (fun r => if r.1 = l then some r.2 else none) = writtenTimes as l := by
  induction as with
  | nil => rfl
  | cons a as ih =>
    rw [List.flatMap_cons, List.filterMap_append, ih]
    cases a <;> simp [timesOf, writtenTimes]

/-- Identifiers of the records of level `l`. -/
def recIds (as : List (JobAppend R)) (l : Nat) : List SampleId :=
  (writtenRecords as).filterMap fun r => if r.1 = l then some r.2.1 else none

theorem succ_failed_perm (as : List (JobAppend R)) (l : Nat) :
    ((writtenSucc as l).map (·.1) ++ (writtenFailed as l).map (·.1)).Perm (recIds as l) := by
  induction as with
  | nil => exact List.Perm.nil
  | cons a as ih =>
    cases a with
    | succ k id r =>
      by_cases hk : k = l
      · simp only [writtenSucc, writtenFailed, recIds, writtenRecords, List.filterMap_cons, hk, if_true, List.map_cons,
          List.cons_append] at ih ⊢
        exact ih.cons _
      · simp only [writtenSucc, writtenFailed, recIds, writtenRecords, List.filterMap_cons, hk, if_false] at ih ⊢
        exact ih
    | failed k id m =>
      by_cases hk : k = l
      · simp only [writtenSucc, writtenFailed, recIds, writtenRecords, List.filterMap_cons, hk, if_true, List.map_cons] at ih ⊢
        exact List.perm_middle.trans (ih.cons _)
      · simp only [writtenSucc, writtenFailed, recIds, writtenRecords, List.filterMap_cons, hk, if_false] at ih ⊢
        exact ih
    | times rs =>
      simp only [writtenSucc, writtenFailed, recIds, writtenRecords, List.filterMap_cons] at ih ⊢
      exact ih

/-- Reading a job whose records have different scheduled identifiers. -/
theorem readResults_spec (d : PbsDisk S R) (j : Nat) (ts : List Trip) (as : List (JobAppend R))
    (hs : Dict.get? d.scheduled j = some ts)
    (h1 : (Dict.get? d.succ j).getD [] = as.filterMap succOf)
    (h2 : (Dict.get? d.failed j).getD [] = as.filterMap failedOf)
    (h3 : (Dict.get? d.times j).getD [] = as.flatMap timesOf)
    (hn : ∀ l, (idsAt ts l).Nodup) (hr : ∀ l, (recIds as l).Nodup) (hsub : ∀ l, recIds as l ⊆ idsAt ts l) :
    ∃ r, readResults d j = .ok r ∧ (Dict.keys r.succ).Nodup ∧ (Dict.keys r.failed).Nodup ∧ (Dict.keys r.times).Nodup ∧
      (∀ l, atLevel r.succ l = writtenSucc as l) ∧
      (∀ l, atLevel r.failed l = writtenFailed as l ++
        ((idsAt ts l).filter fun id => id ∉ recIds as l).map fun id => (id, jobFailed)) ∧
      (∀ l, (Dict.get? r.times l).getD [] = writtenTimes as l) ∧
      (∀ l, ((atLevel r.succ l).map (·.1) ++ (atLevel r.failed l).map (·.1)).Perm (idsAt ts l)) := by
  refine ⟨⟨groupByLevel (as.filterMap succOf), addMissing (groupByLevel (as.filterMap succOf)) (groupByLevel (as.filterMap failedOf)) ts,
    groupByLevel (as.flatMap timesOf)⟩, ?_, group_nodup _, addMissing_nodup _ _ _ (group_nodup _), group_nodup _, ?_, ?_, ?_, ?_⟩
  · simp only [readResults, hs, h1, h2, h3]
  · intro l
    rw [atLevel_of_nodup _ (group_nodup _), group_get, writtenSucc_eq]
  · intro l
    rw [atLevel_of_nodup _ (addMissing_nodup _ _ _ (group_nodup _)), addMissing_get _ _ _ _ (hn l), group_get, group_get,
      writtenSucc_eq, writtenFailed_eq]
    congr 2
    apply List.filter_congr
    intro x _
    have := (succ_failed_perm as l).mem_iff (a := x)
    simp only [List.mem_append] at this
    simp only [decide_eq_decide]
    rw [← this]
    tauto
  · intro l
    rw [group_get, writtenTimes_eq]
  · intro l
    rw [atLevel_of_nodup _ (group_nodup _), atLevel_of_nodup _ (addMissing_nodup _ _ _ (group_nodup _)),
      addMissing_get _ _ _ _ (hn l), group_get, group_get, writtenSucc_eq, writtenFailed_eq, List.map_append, List.map_map,
      ← List.append_assoc]
    have hp := succ_failed_perm as l
    have hfil : ((idsAt ts l).filter fun id => id ∉ (writtenFailed as l).map (·.1) ∧ id ∉ (writtenSucc as l).map (·.1)) =
        (idsAt ts l).filter fun id => ¬ (id ∈ recIds as l) := by
      apply List.filter_congr
      intro x _
      have := hp.mem_iff (a := x)
      simp only [List.mem_append] at this
      simp only [decide_eq_decide]
      rw [← this]
      tauto
    rw [hfil]
    have hm : (List.map ((fun x => x.1) ∘ fun id => (id, jobFailed)) (List.filter (fun id => decide ¬id ∈ recIds as l) (idsAt ts l)))
        = List.filter (fun id => decide ¬id ∈ recIds as l) (idsAt ts l) := by
      rw [show ((fun x : SampleId × Msg => x.1) ∘ fun id => (id, jobFailed)) = fun x => x from rfl, List.map_id']
    rw [hm]
    refine (hp.append_right _).trans ?_
    rw [List.perm_ext_iff_of_nodup]
    · intro x
      simp only [List.mem_append, List.mem_filter, decide_eq_true_eq]
      constructor
      · rintro (h | h)
        · exact hsub l h
        · exact h.1
      · intro h
        by_cases hx : x ∈ recIds as l
        · exact Or.inl hx
        · exact Or.inr ⟨h, hx⟩
    · rw [List.nodup_append]
      refine ⟨hr l, (hn l).filter _, ?_⟩
      intro a ha b hb e
      subst e
      simp only [List.mem_filter, decide_eq_true_eq] at hb
      exact hb.2 ha
    · exact hn l

theorem records_outcome (l : Nat) (id : SampleId) (o : Except Msg R) (as : List (JobAppend R)) :
    writtenRecords (JobAppend.ofOutcome l id o :: as) = (l, id, o) :: writtenRecords as := by
  cases o <;> rfl

theorem records_times (rs : List (Nat × ℚ × Nat)) (as : List (JobAppend R)) :
    writtenRecords (JobAppend.times rs :: as) = writtenRecords as := rfl

/-- The records of a job process are those of an initial piece of the sorted list. -/
theorem jobLoop_records (sim : Nat → Option S) (compute : S → SampleId → Nat → Except Msg R) (clock : Nat → ℚ × ℚ) :
    ∀ (ts : List Trip) (cur cnt n : Nat),
      ((writtenRecords (jobLoop sim compute clock ts cur cnt n)).map fun r => (r.1, r.2.1)) <+: ts.map fun t => (t.1, t.2.1) := by
  intro ts
  induction ts with
  | nil => intro cur cnt n; simp [jobLoop, writtenRecords]
  | cons t ts ih =>
    intro cur cnt n
    obtain ⟨l, id, seed⟩ := t
    simp only [jobLoop]
    cases sim l with
    | none => simp [writtenRecords]
    | some s =>
      rw [records_outcome, records_times, List.map_cons, List.map_cons, List.prefix_cons_inj]
      exact ih _ _ _

theorem records_take_prefix (as : List (JobAppend R)) (n : Nat) : writtenRecords (as.take n) <+: writtenRecords as := by
  obtain ⟨t, ht⟩ := List.take_prefix n as
  refine ⟨writtenRecords t, ?_⟩
  rw [writtenRecords, writtenRecords, ← List.filterMap_append, ht]; rfl

theorem records_prefix {as bs : List (JobAppend R)} (h : as <+: bs) : writtenRecords as <+: writtenRecords bs := by
  obtain ⟨t, ht⟩ := h
  exact ⟨writtenRecords t, by rw [writtenRecords, writtenRecords, ← List.filterMap_append, ht]; rfl⟩

theorem sort_perm (ts : List Trip) : (sortByLevel ts).Perm ts := List.perm_insertionSort _ _

/-- Records of a prefix of a job process have different scheduled identifiers. -/
theorem jobPrefix_records (sim : Nat → Option S) (compute : S → SampleId → Nat → Except Msg R) (clock : Nat → ℚ × ℚ)
    (ts : List Trip) (as : List (JobAppend R)) (h : as <+: jobAppends sim compute clock ts) (hn : ∀ l, (idsAt ts l).Nodup) (l : Nat) :
    (recIds as l).Nodup ∧ recIds as l ⊆ idsAt ts l := by
  have h1 := records_prefix h
  have h2 := (h1.map fun r => (r.1, r.2.1)).trans (jobLoop_records sim compute clock (sortByLevel ts) 0 0 0)
  have e1 : recIds as l = ((writtenRecords as).map fun r => (r.1, r.2.1)).filterMap fun t => if t.1 = l then some t.2 else none := by
    rw [List.filterMap_map]; rfl
  have e2 : ∀ us : List Trip, idsAt us l = (us.map fun t => (t.1, t.2.1)).filterMap fun t => if t.1 = l then some t.2 else none := by
    intro us; rw [List.filterMap_map]; rfl
  have hp : (idsAt (sortByLevel ts) l).Perm (idsAt ts l) := (sort_perm ts).filterMap _
  have h3 : (recIds as l).Sublist (idsAt (sortByLevel ts) l) := by
    rw [e1, e2]; exact h2.sublist.filterMap _
  exact ⟨h3.nodup (hp.nodup_iff.2 (hn l)), fun x hx => hp.subset (h3.subset hx)⟩

end MLMC
