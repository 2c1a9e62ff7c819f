import Verif.Proofs.PbsRecover
import Verif.Props.PbsRecovery
import Verif.Spec.PbsOnce
/-! Each sample is stored once: jobs of one program are collected once, jobs of earlier programs give only unfinished samples. -/
namespace MLMC
variable {Cfg K C : Type}

section
variable {S R : Type}

/-- Samples in the scheduled file of a job. -/
def jobIds (d : PbsDisk S R) (j : Nat) : List SampleId := ((Dict.get? d.scheduled j).getD []).map (·.2.1)

/-- Samples the pool has handed over to jobs it knows or will hand over. -/
def outIds (w : PbsWorld S R) : List SampleId :=
  (w.disk.pbsFiles.filter fun e => e.2 ∈ w.pool.pbsIds).flatMap (fun e => jobIds w.disk e.1) ++ w.pool.scheduled.map (·.2.1)

/-- Marker files and job numbers. -/
structure JobsInv (w : PbsWorld S R) (subs : List Nat) (ps : List (Nat × List Trip)) : Prop where
  pids : (w.disk.pbsFiles.map (·.2)).Nodup
  old : ∀ e ∈ w.disk.pbsFiles, e.2 ∈ subs
  files : ∀ e ∈ w.disk.pbsFiles, ∃ ts, Dict.get? w.disk.scheduled e.1 = some ts
  low : ∀ e ∈ w.disk.pbsFiles, e.1 < w.pool.jobCount
  pack : ∀ e ∈ w.disk.pbsFiles, ∃ ts, (e.1, ts) ∈ ps
  fresh : ∀ pk ∈ ps, pk.1 < w.pool.jobCount ∨ pk.1 = w.pool.jobCount ∧ ∀ id ∈ pk.2.map (·.2.1), id ∈ w.pool.scheduled.map (·.2.1)
  own : ∀ e ∈ w.disk.pbsFiles, ∀ pk ∈ ps, pk.1 = e.1 → ∀ id ∈ pk.2.map (·.2.1), id ∈ jobIds w.disk e.1

theorem JobsInv.of_sub {w w' : PbsWorld S R} {subs ps} (i : JobsInv w subs ps) (h1 : w'.disk.pbsFiles.Sublist w.disk.pbsFiles)
    (h2 : w'.disk.scheduled = w.disk.scheduled) (h3 : w'.pool.jobCount = w.pool.jobCount) (h4 : ∀ id ∈ w.pool.scheduled.map (·.2.1), id ∈ w'.pool.scheduled.map (·.2.1)) :
    JobsInv w' subs ps := by
  refine ⟨i.pids.sublist (h1.map _), fun e he => i.old e (h1.subset he), fun e he => by rw [h2]; exact i.files e (h1.subset he),
    fun e he => by rw [h3]; exact i.low e (h1.subset he), fun e he => i.pack e (h1.subset he), ?_, ?_⟩
  · intro pk hpk
    rw [h3]
    exact (i.fresh pk hpk).imp_right fun ⟨a, b⟩ => ⟨a, fun id hid => h4 id (b id hid)⟩
  · intro e he
    simp only [jobIds, h2]
    exact i.own e (h1.subset he)

theorem execute_jobs {w : PbsWorld S R} {subs ps} (i : JobsInv w subs ps) (q : QsubAns) (hq : q.plain)
    (hn : ∀ s ∈ (w.execute q).2.submitted, s.pbsId ∉ subs) :
    JobsInv (w.execute q).1 (subs ++ (w.execute q).2.submitted.map (·.pbsId)) (ps ++ (w.execute q).2.packed) ∧ outIds (w.execute q).1 = outIds w ∧
    (w.execute q).1.pool.unfinished = w.pool.unfinished := by
  have hid : ∀ e ∈ w.disk.pbsFiles, ∀ d : PbsDisk S R, d.scheduled = Dict.set w.disk.scheduled w.pool.jobCount w.pool.scheduled → jobIds d e.1 = jobIds w.disk e.1 := by
    intro e he d hd
    simp only [jobIds, hd]
    rw [Dict.get?_set_ne _ _ (Nat.ne_of_lt (i.low e he))]
  have hfl : ∀ (P : List Nat) (d : PbsDisk S R), d.scheduled = Dict.set w.disk.scheduled w.pool.jobCount w.pool.scheduled →
      (w.disk.pbsFiles.filter fun e => e.2 ∈ P).flatMap (fun e => jobIds d e.1) = (w.disk.pbsFiles.filter fun e => e.2 ∈ P).flatMap (fun e => jobIds w.disk e.1) := by
    intro P d hd
    apply List.flatMap_congr
    intro e he
    exact hid e (List.mem_of_mem_filter he) d hd
  revert hn
  unfold PbsWorld.execute
  split
  · intro _; exact ⟨by simpa using i, rfl, rfl⟩
  · cases q with
    | okNoFile => exact absurd hq (by simp [QsubAns.plain])
    | fail =>
      intro _
      refine ⟨⟨i.pids, by simpa using i.old, fun e he => ?_, i.low, fun e he => ?_, ?_, ?_⟩, ?_, rfl⟩
      · simp only
        rw [Dict.get?_set_ne _ _ (Nat.ne_of_lt (i.low e he))]; exact i.files e he
      · obtain ⟨ts, h⟩ := i.pack e he
        exact ⟨ts, List.mem_append_left _ h⟩
      · intro pk hpk
        rcases List.mem_append.1 hpk with h | h
        · exact i.fresh pk h
        · rw [List.mem_singleton] at h; subst h
          exact .inr ⟨rfl, fun id h => h⟩
      · intro e he pk hpk hpe
        rw [hid e he _ rfl]
        rcases List.mem_append.1 hpk with h | h
        · exact i.own e he pk h hpe
        · rw [List.mem_singleton] at h; subst h
          exact absurd hpe (Nat.ne_of_gt (i.low e he))
      · simp only [outIds]
        rw [hfl _ _ rfl]
    | ok pid =>
      simp only [List.mem_singleton, forall_eq, List.map_singleton]
      intro hn
      have hnew : (w.pool.jobCount, pid) ∉ w.disk.pbsFiles := fun h => hn (i.old _ h)
      simp only [hnew, if_false]
      refine ⟨⟨?_, ?_, fun e he => ?_, ?_, ?_, ?_, ?_⟩, ?_, trivial⟩
      · rw [List.map_append, List.nodup_append]
        refine ⟨i.pids, by simp, ?_⟩
        intro a ha b hb
        simp only [List.map_cons, List.map_nil, List.mem_singleton] at hb
        subst hb
        rintro rfl
        obtain ⟨e, he, rfl⟩ := List.mem_map.1 ha
        exact hn (i.old e he)
      · intro e he
        rcases List.mem_append.1 he with h | h
        · exact List.mem_append_left _ (i.old e h)
        · rw [List.mem_singleton] at h; subst h; simp
      · rcases List.mem_append.1 he with h | h
        · simp only
          rw [Dict.get?_set_ne _ _ (Nat.ne_of_lt (i.low e h))]; exact i.files e h
        · rw [List.mem_singleton] at h; subst h
          exact ⟨_, Dict.get?_set_self _ _ _⟩
      · intro e he
        rcases List.mem_append.1 he with h | h
        · exact Nat.lt_succ_of_lt (i.low e h)
        · rw [List.mem_singleton] at h; subst h; exact Nat.lt_succ_self _
      · intro e he
        rcases List.mem_append.1 he with h | h
        · obtain ⟨ts, h⟩ := i.pack e h
          exact ⟨ts, List.mem_append_left _ h⟩
        · rw [List.mem_singleton] at h; subst h
          exact ⟨w.pool.scheduled, by simp⟩
      · intro pk hpk
        refine .inl ?_
        rcases List.mem_append.1 hpk with h | h
        · rcases i.fresh pk h with h | ⟨h, _⟩
          · exact Nat.lt_succ_of_lt h
          · rw [h]; exact Nat.lt_succ_self _
        · rw [List.mem_singleton] at h; subst h; exact Nat.lt_succ_self _
      · intro e he pk hpk hpe id hid'
        rcases List.mem_append.1 he with h | h
        · rw [hid e h _ rfl]
          rcases List.mem_append.1 hpk with h' | h'
          · exact i.own e h pk h' hpe id hid'
          · rw [List.mem_singleton] at h'; subst h'
            exact absurd hpe (Nat.ne_of_gt (i.low e h))
        · rw [List.mem_singleton] at h; subst h
          simp only [jobIds, Dict.get?_set_self, Option.getD_some]
          rcases List.mem_append.1 hpk with h' | h'
          · rcases i.fresh pk h' with h2 | ⟨_, h2⟩
            · exact absurd hpe (Nat.ne_of_lt h2)
            · exact h2 id hid'
          · rw [List.mem_singleton] at h'; subst h'; exact hid'
      · simp only [outIds, List.filter_append, List.flatMap_append, List.map_nil, List.append_nil]
        have h1 : (w.disk.pbsFiles.filter fun e => e.2 ∈ w.pool.pbsIds ++ [pid]) = w.disk.pbsFiles.filter fun e => e.2 ∈ w.pool.pbsIds := by
          apply List.filter_congr
          intro e he
          have : e.2 ≠ pid := fun h => hn (h ▸ i.old e he)
          simp [this]
        rw [h1, hfl _ _ rfl]
        simp [jobIds, Dict.get?_set_self]

/-- Only what `own` says about recorded samples is wanted of a directory in which unfinished samples are looked up. -/
def WholeDir (d : PbsDisk S R) (u : List SampleId) : Prop :=
  (∀ id' ∈ u, ∀ j, jobOfSample d id' = .ok j → ∀ l id r, (l, id, r) ∈ succRecords d j → id ∈ u →
    jobOfSample d id = .ok j ∧ ∃ l' r', (l', id', r') ∈ succRecords d j) ∧
  ∀ j, ((succRecords d j).map (·.2.1)).Nodup

theorem atLevel_ids_sublist (rs : List (Nat × SampleId × R)) (l : Nat) : ((atLevel (groupByLevel rs) l).map (·.1)).Sublist (rs.map (·.2.1)) := by
  rw [atLevel_of_nodup _ (group_nodup _), group_get]
  induction rs with
  | nil => simp
  | cons r rs ih =>
    rw [List.filterMap_cons]
    by_cases h : r.1 = l
    · rw [if_pos h]; simp only [List.map_cons]; exact ih.cons_cons _
    · rw [if_neg h]; simp only [List.map_cons]; exact ih.cons _

theorem collectUnfinished_adds (wanted : List SampleId) (d : PbsDisk S R) : ∀ (ids already : List SampleId) (a b : Acc R), ids ⊆ wanted →
    (Dict.keys a.succ).Nodup → collectUnfinished wanted d ids already a = .ok b →
    (Dict.keys b.succ).Nodup ∧ ∀ l, ∃ new : List (SampleId × R), (Dict.get? b.succ l).getD [] = (Dict.get? a.succ l).getD [] ++ new ∧
      (∀ x ∈ new, x.1 ∈ wanted) ∧
      (WholeDir d wanted → (∀ x ∈ already, ∀ y ∈ wanted, jobOfSample d y = jobOfSample d x → (∃ j l r, jobOfSample d y = .ok j ∧ (l, y, r) ∈ succRecords d j) → y ∈ already) →
        (new.map (·.1)).Nodup ∧ ∀ x ∈ new, x.1 ∉ already) := by
  intro ids
  induction ids with
  | nil =>
    intro already a b _ hk h
    simp only [collectUnfinished, Except.ok.injEq] at h
    subst h
    exact ⟨hk, fun l => ⟨[], by simp, by simp, fun _ _ => by simp⟩⟩
  | cons id ids ih =>
    intro already a b hsub hk h
    have hidw : id ∈ wanted := hsub (by simp)
    have hsub' : ids ⊆ wanted := fun x hx => hsub (List.mem_cons_of_mem _ hx)
    unfold collectUnfinished at h
    by_cases hin : id ∈ already
    · rw [if_pos hin] at h
      exact ih already a b hsub' hk h
    · rw [if_neg hin] at h
      cases hjo : jobOfSample d id with
      | error e => rw [hjo] at h; cases h
      | ok j =>
        rw [hjo] at h
        simp only at h
        cases hr : readResults d j with
        | error e => rw [hr] at h; cases h
        | ok r =>
          rw [hr] at h
          simp only at h
          have hrs := readResults_succ hr
          split at h
          · cases h
          · split at h
            · cases h
            · obtain ⟨s1, s2⟩ := appendWanted_spec wanted r.succ a.succ hk
              obtain ⟨k1, k2⟩ := ih (already ++ wantedIds wanted r.succ) ⟨appendWanted wanted a.succ r.succ, a.failed, a.times⟩ b hsub' s1 h
              refine ⟨k1, fun l => ?_⟩
              obtain ⟨new, e1, e2, e3⟩ := k2 l
              refine ⟨(atLevel r.succ l).filter (fun x => x.1 ∈ wanted) ++ new, ?_, ?_, ?_⟩
              · rw [e1]; simp only; rw [s2 l, List.append_assoc]
              · intro x hx
                rcases List.mem_append.1 hx with hx | hx
                · simpa using (List.mem_filter.1 hx).2
                · exact e2 x hx
              · intro hw hcl
                have hcl2 : ∀ x ∈ already ++ wantedIds wanted r.succ, ∀ y ∈ wanted, jobOfSample d y = jobOfSample d x →
                    (∃ j l r, jobOfSample d y = .ok j ∧ (l, y, r) ∈ succRecords d j) → y ∈ already ++ wantedIds wanted r.succ := by
                  intro x hx y hy hxy hrec
                  rcases List.mem_append.1 hx with hx | hx
                  · exact List.mem_append_left _ (hcl x hx y hy hxy hrec)
                  · apply List.mem_append_right
                    rw [hrs, mem_wantedIds] at hx ⊢
                    obtain ⟨hxw, l', z, hz⟩ := hx
                    have hxj := (hw.1 id hidw j hjo l' x z hz hxw).1
                    obtain ⟨j2, l2, r2, h1, h2⟩ := hrec
                    rw [hxy, hxj] at h1
                    injection h1 with h1
                    subst h1
                    exact ⟨hy, l2, r2, h2⟩
                obtain ⟨n1, n2⟩ := e3 hw hcl2
                have hin2 : ∀ x ∈ (atLevel r.succ l).filter (fun x => x.1 ∈ wanted), x.1 ∈ wantedIds wanted r.succ := by
                  intro x hx
                  obtain ⟨h1, h2⟩ := List.mem_filter.1 hx
                  rw [hrs, mem_group] at h1
                  rw [hrs, mem_wantedIds]
                  exact ⟨by simpa using h2, l, x.2, h1⟩
                refine ⟨?_, ?_⟩
                · rw [List.map_append, List.nodup_append]
                  refine ⟨?_, n1, ?_⟩
                  · refine ((hw.2 j).sublist (atLevel_ids_sublist _ l)).sublist ?_
                    rw [← hrs]
                    exact List.filter_sublist.map _
                  · intro x hx y hy
                    rintro rfl
                    obtain ⟨x', hx', rfl⟩ := List.mem_map.1 hx
                    obtain ⟨y', hy', e⟩ := List.mem_map.1 hy
                    exact n2 y' hy' (List.mem_append_right _ (e ▸ hin2 x' hx'))
                · intro x hx hal
                  rcases List.mem_append.1 hx with hx | hx
                  · obtain ⟨h1, h2⟩ := List.mem_filter.1 hx
                    have hxw : x.1 ∈ wanted := by simpa using h2
                    rw [hrs, mem_group] at h1
                    obtain ⟨hxj, l', r', hid'⟩ := hw.1 id hidw j hjo l x.1 x.2 h1 hxw
                    exact hin (hcl x.1 hal id hidw (by rw [hjo, hxj]) ⟨j, l', r', hjo, hid'⟩)
                  · exact n2 x hx (List.mem_append_left _ hal)

/-- Samples of level `l` that reading the results of job `j` accounts for. -/
def doneAt (d : PbsDisk S R) (j l : Nat) : List SampleId := (atLevel (jobRes d j).succ l).map (·.1) ++ (atLevel (jobRes d j).failed l).map (·.1)

/-- Samples of level `l` in an answer. -/
def answerIds (a : PoolAnswer R) (l : Nat) : List SampleId := (atLevel a.succ l).map (·.1) ++ (atLevel a.failed l).map (·.1)

theorem addMissing_once (succ : Dict Nat (List (SampleId × R))) (l : Nat) (ts : List Trip) : ∀ failed : Dict Nat (List (SampleId × Msg)),
    (((Dict.get? succ l).getD []).map (·.1) ++ ((Dict.get? failed l).getD []).map (·.1)).Nodup →
    (((Dict.get? succ l).getD []).map (·.1) ++ ((Dict.get? (addMissing succ failed ts) l).getD []).map (·.1)).Nodup ∧
    ∀ x ∈ ((Dict.get? (addMissing succ failed ts) l).getD []).map (·.1), x ∈ ((Dict.get? failed l).getD []).map (·.1) ∨ x ∈ ts.map (·.2.1) := by
  induction ts with
  | nil => intro f h; exact ⟨h, fun x hx => .inl hx⟩
  | cons t ts ih =>
    intro f h
    obtain ⟨k, id, s⟩ := t
    simp only [addMissing]
    by_cases hk : k = l
    · subst hk
      split
      · rename_i hm
        obtain ⟨h1, h2⟩ := ih (Dict.upd f k [] (· ++ [(id, jobFailed)])) (by
          rw [Dict.get?_upd_self, Option.getD_some, List.map_append, ← List.append_assoc, List.nodup_append]
          refine ⟨h, by simp, ?_⟩
          intro a ha b hb
          simp only [List.map_cons, List.map_nil, List.mem_singleton] at hb
          subst hb
          rintro rfl
          rcases List.mem_append.1 ha with ha | ha
          · exact hm.2 ha
          · exact hm.1 ha)
        refine ⟨h1, fun x hx => ?_⟩
        rcases h2 x hx with h3 | h3
        · rw [Dict.get?_upd_self, Option.getD_some, List.map_append] at h3
          rcases List.mem_append.1 h3 with h3 | h3
          · exact .inl h3
          · simp only [List.map_cons, List.map_nil, List.mem_singleton] at h3
            exact .inr (by simp [h3])
        · exact .inr (List.mem_cons_of_mem _ h3)
      · obtain ⟨h1, h2⟩ := ih f h
        exact ⟨h1, fun x hx => (h2 x hx).imp_right (List.mem_cons_of_mem _)⟩
    · have e : ∀ c : Prop, [Decidable c] → Dict.get? (if c then Dict.upd f k [] (· ++ [(id, jobFailed)]) else f) l = Dict.get? f l := by
        intro c _
        split
        · exact Dict.get?_upd_ne _ _ _ (Ne.symm hk)
        · rfl
      obtain ⟨h1, h2⟩ := ih (if id ∉ ((Dict.get? f k).getD []).map (·.1) ∧ id ∉ ((Dict.get? succ k).getD []).map (·.1) then
        Dict.upd f k [] (· ++ [(id, jobFailed)]) else f) (by rw [e]; exact h)
      refine ⟨h1, fun x hx => ?_⟩
      have := h2 x hx
      rw [e] at this
      exact this.imp_right (List.mem_cons_of_mem _)

theorem doneAt_once {d : PbsDisk S R} {j : Nat} (hs : ∃ ts, Dict.get? d.scheduled j = some ts)
    (h : ((succRecords d j).map (·.2.1) ++ (failRecords d j).map (·.2.1)).Nodup) (l : Nat) : (doneAt d j l).Nodup ∧
    ∀ x ∈ doneAt d j l, (∃ l' v, (l', x, v) ∈ succRecords d j) ∨ (∃ l' m, (l', x, m) ∈ failRecords d j) ∨ x ∈ jobIds d j := by
  obtain ⟨ts, hts⟩ := hs
  have e : jobRes d j = ⟨groupByLevel (succRecords d j), addMissing (groupByLevel (succRecords d j)) (groupByLevel (failRecords d j)) ts,
      groupByLevel ((Dict.get? d.times j).getD [])⟩ := by
    simp only [jobRes, readResults, hts]; rfl
  have s1 := atLevel_ids_sublist (succRecords d j) l
  have s2 := atLevel_ids_sublist (failRecords d j) l
  have h0 := h.sublist (s1.append s2)
  rw [atLevel_of_nodup _ (group_nodup _), atLevel_of_nodup _ (group_nodup _)] at h0
  obtain ⟨k1, k2⟩ := addMissing_once (groupByLevel (succRecords d j)) l ts (groupByLevel (failRecords d j)) h0
  rw [atLevel_of_nodup _ (group_nodup _)] at s1 s2
  have ed : doneAt d j l = ((Dict.get? (groupByLevel (succRecords d j)) l).getD []).map (·.1) ++
      ((Dict.get? (addMissing (groupByLevel (succRecords d j)) (groupByLevel (failRecords d j)) ts) l).getD []).map (·.1) := by
    rw [doneAt, e]
    simp only
    rw [atLevel_of_nodup _ (group_nodup _), atLevel_of_nodup _ (addMissing_nodup _ _ _ (group_nodup _))]
  rw [ed]
  refine ⟨k1, fun x hx => ?_⟩
  rcases List.mem_append.1 hx with hx | hx
  · obtain ⟨y, hy, rfl⟩ := List.mem_map.1 (s1.subset hx)
    exact .inl ⟨_, _, hy⟩
  · rcases k2 x hx with hx | hx
    · obtain ⟨y, hy, rfl⟩ := List.mem_map.1 (s2.subset hx)
      exact .inr (.inl ⟨_, _, hy⟩)
    · right; right
      rw [jobIds, hts]; exact hx

theorem jobRes_succ {d : PbsDisk S R} {j : Nat} (h : ∃ ts, Dict.get? d.scheduled j = some ts) : (jobRes d j).succ = groupByLevel (succRecords d j) := by
  obtain ⟨ts, h⟩ := h
  simp only [jobRes, readResults, h]; rfl

/-- What `get_finished` does after submitting: markers of the reported jobs are deleted, their successes are in the answer, and besides
them only unfinished samples of earlier programs. -/
theorem getResultFiles_parts (w : PbsWorld S R) (fin unf : List Nat) (hn : (w.disk.pbsFiles.map (·.2)).Nodup)
    (hs : ∀ e ∈ w.disk.pbsFiles, ∃ ts, Dict.get? w.disk.scheduled e.1 = some ts) :
    let r := w.getResultFiles fin unf
    ∃ fin', fin' ⊆ fin ∧ r.1.disk = w.disk.withFiles (w.disk.pbsFiles.filter fun e => e.2 ∉ fin') ∧ r.1.pool.pbsIds = w.pool.pbsIds ∧
      r.1.pool.scheduled = w.pool.scheduled ∧ r.1.pool.jobCount = w.pool.jobCount ∧
      (r.1.pool.unfinished = w.pool.unfinished ∨ r.1.pool.unfinished = []) ∧
      ∀ a, r.2.answer = some a → r.1.pool.unfinished = [] ∧ ∀ l, ∃ new : List SampleId,
        (answerIds a l).Perm (((w.disk.pbsFiles.filter fun e => e.2 ∈ fin').flatMap fun e => doneAt w.disk e.1 l) ++ new) ∧
        (∀ x ∈ new, x ∈ w.pool.unfinished) ∧ (WholeDir w.disk w.pool.unfinished → new.Nodup) := by
  intro r
  simp only [r]
  unfold PbsWorld.getResultFiles
  cases hn' : nRunningOf w.disk unf with
  | error e => exact ⟨[], by simp, by simp [PbsDisk.withFiles], rfl, rfl, rfl, .inl rfl, by simp⟩
  | ok n =>
    simp only
    obtain ⟨a', e, k1, k2, k3, k4⟩ := collectFinished_spec fin w.disk ({} : Acc R) hn hs (by simp [Dict.keys]) (by simp [Dict.keys]) (by simp [Dict.keys])
    rw [e]
    simp only
    have hfl : ∀ l, (((w.disk.pbsFiles.filter fun e => e.2 ∈ fin).flatMap fun e => atLevel (jobRes w.disk e.1).succ l).map (·.1) ++
        ((w.disk.pbsFiles.filter fun e => e.2 ∈ fin).flatMap fun e => atLevel (jobRes w.disk e.1).failed l).map (·.1)).Perm
        ((w.disk.pbsFiles.filter fun e => e.2 ∈ fin).flatMap fun e => doneAt w.disk e.1 l) := by
      intro l
      rw [List.map_flatMap, List.map_flatMap]
      exact List.flatMap_append_perm _ _ _
    have kf : ∀ l, ((Dict.get? a'.failed l).getD []).Perm ((w.disk.pbsFiles.filter fun e => e.2 ∈ fin).flatMap fun e => atLevel (jobRes w.disk e.1).failed l) := by
      intro l
      have := (k4 l).2.1
      simpa only [Dict.get?, Option.getD_none, List.nil_append] using this
    have key : ∀ l, ((Dict.get? a'.succ l).getD []).Perm ((w.disk.pbsFiles.filter fun e => e.2 ∈ fin).flatMap fun e => atLevel (jobRes w.disk e.1).succ l) := by
      intro l
      have := (k4 l).1
      simpa only [Dict.get?, Option.getD_none, List.nil_append] using this
    split
    · rename_i hu
      refine ⟨fin, fun x h => h, rfl, rfl, rfl, rfl, .inl rfl, ?_⟩
      intro a ha
      injection ha with ha
      subst ha
      refine ⟨hu, fun l => ⟨[], ?_, by simp, by simp⟩⟩
      rw [List.append_nil, answerIds, atLevel_of_nodup _ k1, atLevel_of_nodup _ k2]
      exact (((key l).map _).append ((kf l).map _)).trans (hfl l)
    · cases hc : collectUnfinished w.pool.unfinished (w.disk.withFiles (w.disk.pbsFiles.filter fun e => e.2 ∉ fin)) w.pool.unfinished [] a' with
      | error e => exact ⟨fin, fun x h => h, rfl, rfl, rfl, rfl, .inl rfl, by simp⟩
      | ok b =>
        refine ⟨fin, fun x h => h, rfl, rfl, rfl, rfl, .inr rfl, ?_⟩
        intro a ha
        injection ha with ha
        subst ha
        obtain ⟨m1, m2⟩ := collectUnfinished_adds _ _ _ _ _ _ (fun x h => h) k1 hc
        have mf := collectUnfinished_failed _ _ _ _ _ _ hc
        refine ⟨rfl, fun l => ?_⟩
        obtain ⟨new, e1, e2, e3⟩ := m2 l
        refine ⟨new.map (·.1), ?_, ?_, fun hw => ?_⟩
        · rw [answerIds, atLevel_of_nodup _ m1, e1]
          simp only [mf]
          rw [atLevel_of_nodup _ k2, List.map_append, List.append_assoc]
          refine (((key l).map (·.1)).append (List.perm_append_comm.trans (((kf l).map (·.1)).append_right _))).trans ?_
          rw [← List.append_assoc]
          exact (hfl l).append_right _
        · intro x hx
          obtain ⟨y, hy, rfl⟩ := List.mem_map.1 hx
          exact e2 y hy
        · exact (e3 hw (by simp)).1

theorem qstat_parts (p : PbsPool) (qa : QstatAns) : (p.qstat qa).1.pbsIds ⊆ p.pbsIds ∧
    ∀ fin unf, (p.qstat qa).2 = .ok (fin, unf) → fin = [] ∨ fin = qa.finished := by
  unfold PbsPool.qstat
  split
  · exact ⟨fun x h => h, fun fin unf h => by simp only [Except.ok.injEq, Prod.mk.injEq] at h; exact .inl h.1.symm⟩
  · cases qa with
    | fail =>
      simp only
      split
      · exact ⟨fun x h => h, by simp⟩
      · exact ⟨fun x h => h, fun fin unf h => by simp only [Except.ok.injEq, Prod.mk.injEq] at h; exact .inl h.1.symm⟩
    | ok f =>
      simp only
      exact ⟨(qstatScan_spec f _ p.pbsIds le_rfl).1.subset, fun fin unf h => by simp only [Except.ok.injEq, Prod.mk.injEq] at h; exact .inr h.1.symm⟩

theorem getFinished_parts (w : PbsWorld S R) (q : QsubAns) (qa : QstatAns) (hn : ((w.execute q).1.disk.pbsFiles.map (·.2)).Nodup)
    (hs : ∀ e ∈ (w.execute q).1.disk.pbsFiles, ∃ ts, Dict.get? (w.execute q).1.disk.scheduled e.1 = some ts) :
    let w1 := (w.execute q).1
    let r := w.getFinished q qa
    ∃ fin', fin' ⊆ qa.finished ∧ r.1.disk = w1.disk.withFiles (w1.disk.pbsFiles.filter fun e => e.2 ∉ fin') ∧ r.1.pool.pbsIds ⊆ w1.pool.pbsIds ∧
      r.1.pool.scheduled = w1.pool.scheduled ∧ r.1.pool.jobCount = w1.pool.jobCount ∧
      (r.1.pool.unfinished = w1.pool.unfinished ∨ r.1.pool.unfinished = []) ∧
      ∀ a, r.2.answer = some a → r.1.pool.unfinished = [] ∧ ∀ l, ∃ new : List SampleId,
        (answerIds a l).Perm (((w1.disk.pbsFiles.filter fun e => e.2 ∈ fin').flatMap fun e => doneAt w1.disk e.1 l) ++ new) ∧
        (∀ x ∈ new, x ∈ w1.pool.unfinished) ∧ (WholeDir w1.disk w1.pool.unfinished → new.Nodup) := by
  have ha := execute_answer w q
  unfold PbsWorld.getFinished
  cases he : w.execute q with
  | mk w1 o1 =>
    rw [he] at hn hs ha
    simp only at hn hs ha ⊢
    cases ho : o1.err with
    | some e =>
      refine ⟨[], by simp, by simp [PbsDisk.withFiles], fun x h => h, rfl, rfl, .inl rfl, ?_⟩
      simp [ha]
    | none =>
      simp only
      have hq := qstat_parts w1.pool qa
      have hc := qstat_core w1.pool qa
      cases hqs : w1.pool.qstat qa with
      | mk p r =>
        rw [hqs] at hq hc
        simp only at hq hc
        cases r with
        | error e =>
          refine ⟨[], by simp, by simp [PbsDisk.withFiles], hq.1, hc.1, ?_, .inl ?_, by simp [ha]⟩
          · exact hc.2.2.2.1
          · exact hc.2.2.2.2.2.1
        | ok fu =>
          obtain ⟨fin, unf⟩ := fu
          simp only
          obtain ⟨fin', f1, f2, f3, f4, f5, f6, f7⟩ := getResultFiles_parts { w1 with pool := p } fin unf hn hs
          have hu : p.unfinished = w1.pool.unfinished := hc.2.2.2.2.2.1
          refine ⟨fin', ?_, f2, ?_, ?_, ?_, ?_, ?_⟩
          · rcases hq.2 fin unf rfl with h | h
            · intro x hx; rw [h] at f1; exact absurd (f1 hx) (by simp)
            · rw [← h]; exact f1
          · rw [f3]; exact hq.1
          · rw [f4]; exact hc.1
          · rw [f5]; exact hc.2.2.2.1
          · rw [← hu]; exact f6
          · rw [← hu]; exact f7

theorem subperm_flatMap {α β : Type} (f g : α → List β) : ∀ (xs : List α), (∀ x ∈ xs, (f x).Subperm (g x)) → (xs.flatMap f).Subperm (xs.flatMap g) := by
  intro xs
  induction xs with
  | nil => intro _; simp
  | cons x xs ih =>
    intro h
    simp only [List.flatMap_cons]
    exact (h x (by simp)).append (ih fun y hy => h y (by simp [hy]))

/-- What `get_finished` returns of jobs of this program is of samples that were out and are not any more. -/
theorem getFinished_out {w : PbsWorld S R} {q : QsubAns} {subs ps} (i : JobsInv (w.execute q).1 subs ps)
    (hrec : ∀ j id, (∃ l v, (l, id, v) ∈ succRecords (w.execute q).1.disk j) ∨ (∃ l m, (l, id, m) ∈ failRecords (w.execute q).1.disk j) →
      ∃ ts, (j, ts) ∈ ps ∧ id ∈ ts.map (·.2.1))
    (honce : ∀ j, ((succRecords (w.execute q).1.disk j).map (·.2.1) ++ (failRecords (w.execute q).1.disk j).map (·.2.1)).Nodup) {w' : PbsWorld S R} {fin' : List Nat}
    (hfin : fin' ⊆ (w.execute q).1.pool.pbsIds)
    (e1 : w'.disk = (w.execute q).1.disk.withFiles ((w.execute q).1.disk.pbsFiles.filter fun e => e.2 ∉ fin'))
    (e2 : w'.pool.pbsIds ⊆ (w.execute q).1.pool.pbsIds) (e3 : w'.pool.scheduled = (w.execute q).1.pool.scheduled) (l : Nat) :
    ((((w.execute q).1.disk.pbsFiles.filter fun e => e.2 ∈ fin').flatMap fun e => doneAt (w.execute q).1.disk e.1 l) ++ outIds w').Subperm (outIds (w.execute q).1) := by
  generalize (w.execute q).1 = w1 at *
  set F := w1.disk.pbsFiles with hF
  have h1 : ((F.filter fun e => e.2 ∈ fin').flatMap fun e => doneAt w1.disk e.1 l).Subperm
      ((F.filter fun e => e.2 ∈ fin').flatMap fun e => jobIds w1.disk e.1) := by
    refine subperm_flatMap _ _ _ fun e he => ?_
    have he' : e ∈ F := List.mem_of_mem_filter he
    obtain ⟨o1, o2⟩ := doneAt_once (i.files e he') (honce e.1) l
    refine o1.subperm ?_
    intro id hid
    rcases o2 id hid with h | h | h
    · obtain ⟨ts, h1, h2⟩ := hrec e.1 id (.inl h)
      exact i.own e he' _ h1 rfl _ h2
    · obtain ⟨ts, h1, h2⟩ := hrec e.1 id (.inr h)
      exact i.own e he' _ h1 rfl _ h2
    · exact h
  have h2 : (outIds w').Sublist ((F.filter fun e => e.2 ∈ w1.pool.pbsIds ∧ e.2 ∉ fin').flatMap (fun e => jobIds w1.disk e.1) ++ w1.pool.scheduled.map (·.2.1)) := by
    simp only [outIds, e3, e1, PbsDisk.withFiles]
    refine List.Sublist.append ?_ (List.Sublist.refl _)
    refine List.Sublist.flatMap ?_ _
    rw [List.filter_filter]
    refine List.monotone_filter_right _ ?_
    intro e he
    simp only [Bool.and_eq_true, decide_eq_true_eq] at he ⊢
    exact ⟨e2 he.1, he.2⟩
  have h3 : (F.filter fun e => e.2 ∈ w1.pool.pbsIds).Perm ((F.filter fun e => e.2 ∈ fin') ++ F.filter fun e => e.2 ∈ w1.pool.pbsIds ∧ e.2 ∉ fin') := by
    have := (List.filter_append_perm (fun e : Nat × Nat => decide (e.2 ∈ fin')) (F.filter fun e => e.2 ∈ w1.pool.pbsIds)).symm
    rw [List.filter_filter, List.filter_filter] at this
    refine this.trans (List.Perm.of_eq ?_)
    congr 1
    · apply List.filter_congr
      intro e _
      by_cases h : e.2 ∈ fin'
      · simp [h, hfin h]
      · simp [h]
    · apply List.filter_congr
      intro e _
      by_cases h : e.2 ∈ fin' <;> simp [h]
  refine (h1.append h2.subperm).trans (List.Perm.subperm ?_)
  rw [← List.append_assoc, ← List.flatMap_append]
  simp only [outIds]
  exact (h3.symm.flatMap_right _).append_right _

/-- Nothing that is out, or looked for, is stored. -/
structure OutInv (w : PbsWorld S R) (D : Nat → List SampleId) : Prop where
  nodup : (outIds w).Nodup
  apart : ∀ id ∈ outIds w, id ∉ w.pool.unfinished ∧ ∀ l, id ∉ D l
  unf : ∀ id ∈ w.pool.unfinished, ∀ l, id ∉ D l

theorem getFinished_once {w : PbsWorld S R} {q : QsubAns} {qa : QstatAns} {subs ps} {D : Nat → List SampleId} (o : OutInv w D)
    (i : JobsInv (w.execute q).1 subs ps) (ho : outIds (w.execute q).1 = outIds w) (hu : (w.execute q).1.pool.unfinished = w.pool.unfinished)
    (hrec : ∀ j id, (∃ l v, (l, id, v) ∈ succRecords (w.execute q).1.disk j) ∨ (∃ l m, (l, id, m) ∈ failRecords (w.execute q).1.disk j) →
      ∃ ts, (j, ts) ∈ ps ∧ id ∈ ts.map (·.2.1))
    (honce : ∀ j, ((succRecords (w.execute q).1.disk j).map (·.2.1) ++ (failRecords (w.execute q).1.disk j).map (·.2.1)).Nodup)
    (hask : qa.finished ⊆ (w.execute q).1.pool.pbsIds) (hwhole : WholeDir (w.execute q).1.disk w.pool.unfinished) :
    OutInv (w.getFinished q qa).1 D ∧ (outIds (w.getFinished q qa).1 ⊆ outIds w) ∧ ((w.getFinished q qa).1.pool.unfinished ⊆ w.pool.unfinished) ∧
    ∀ a, (w.getFinished q qa).2.answer = some a →
      (∀ l, (answerIds a l).Nodup ∧ ∀ id ∈ answerIds a l, id ∉ D l ∧ (id ∈ outIds w ∨ id ∈ w.pool.unfinished)) ∧
      OutInv (w.getFinished q qa).1 fun l => D l ++ answerIds a l := by
  obtain ⟨fin', f1, f2, f3, f4, _, f6, f7⟩ := getFinished_parts w q qa i.pids i.files
  have hs := fun l => getFinished_out i hrec honce (fun x hx => hask (f1 hx)) f2 f3 f4 l
  have hsub : outIds (w.getFinished q qa).1 ⊆ outIds w := by
    intro x hx
    rw [← ho]; exact (hs 0).subset (List.mem_append_right _ hx)
  have husub : (w.getFinished q qa).1.pool.unfinished ⊆ w.pool.unfinished := by
    rw [hu] at f6
    rcases f6 with h | h <;> rw [h]
    · exact fun x h => h
    · simp
  have hnd : ∀ l, ((((w.execute q).1.disk.pbsFiles.filter fun e => e.2 ∈ fin').flatMap fun e => doneAt (w.execute q).1.disk e.1 l) ++
      outIds (w.getFinished q qa).1).Nodup := by
    intro l
    obtain ⟨x, hx, hx2⟩ := hs l
    rw [ho] at hx2
    exact hx.nodup_iff.1 (o.nodup.sublist hx2)
  have hbase : OutInv (w.getFinished q qa).1 D :=
    ⟨(List.nodup_append.1 (hnd 0)).2.1, fun id hid => ⟨fun h => (o.apart id (hsub hid)).1 (husub h), (o.apart id (hsub hid)).2⟩,
      fun id hid => o.unf id (husub hid)⟩
  refine ⟨hbase, hsub, husub, ?_⟩
  intro a ha
  obtain ⟨g1, g2⟩ := f7 a ha
  have hall : ∀ l, (answerIds a l).Nodup ∧ (∀ id ∈ answerIds a l, id ∉ D l ∧ (id ∈ outIds w ∨ id ∈ w.pool.unfinished)) ∧
      ∀ id ∈ answerIds a l, id ∉ outIds (w.getFinished q qa).1 := by
    intro l
    obtain ⟨new, p1, p2, p3⟩ := g2 l
    rw [hu] at p2 p3
    have p3 := p3 hwhole
    set X := ((w.execute q).1.disk.pbsFiles.filter fun e => e.2 ∈ fin').flatMap fun e => doneAt (w.execute q).1.disk e.1 l with hX
    have hXo : ∀ id ∈ X, id ∈ outIds w := fun id hid => by rw [← ho]; exact (hs l).subset (List.mem_append_left _ hid)
    have hnew := p2
    have hp := p1
    have hX3 := List.nodup_append.1 (hnd l)
    refine ⟨?_, ?_, ?_⟩
    · rw [hp.nodup_iff, List.nodup_append]
      refine ⟨hX3.1, p3, ?_⟩
      rintro x hx y hy rfl
      exact (o.apart x (hXo x hx)).1 (hnew x hy)
    · intro id hid
      rcases List.mem_append.1 (hp.subset hid) with h | h
      · exact ⟨(o.apart id (hXo id h)).2 l, .inl (hXo id h)⟩
      · exact ⟨o.unf id (hnew id h) l, .inr (hnew id h)⟩
    · intro id hid hout
      rcases List.mem_append.1 (hp.subset hid) with h | h
      · exact hX3.2.2 id h id hout rfl
      · exact (o.apart id (hsub hout)).1 (hnew id h)
  refine ⟨fun l => ⟨(hall l).1, (hall l).2.1⟩, hbase.nodup, ?_, ?_⟩
  · intro id hid
    refine ⟨(hbase.apart id hid).1, fun l hm => ?_⟩
    rcases List.mem_append.1 hm with h | h
    · exact (hbase.apart id hid).2 l h
    · exact (hall l).2.2 id h hid
  · rw [g1]; simp

end

/-! ### Histories -/

theorem packagesIn_snoc (env : PbsEnv Cfg K C) (h : List (PbsOp (PoolSim Cfg K C) (PairRes K))) (o) :
    packagesIn env (h ++ [o]) = packagesIn env h ++ ((worldAfter env h).step (computeSeed env.md5) o).2.packed := by
  simp [packagesIn, run_concat, packages, worldAfter]

theorem pbsIdsIn_snoc (env : PbsEnv Cfg K C) (h : List (PbsOp (PoolSim Cfg K C) (PairRes K))) (o) :
    pbsIdsIn env (h ++ [o]) = pbsIdsIn env h ++ ((worldAfter env h).step (computeSeed env.md5) o).2.submitted.map (·.pbsId) := by
  simp [pbsIdsIn, run_concat, submissions, worldAfter]

theorem worldAfter_snoc (env : PbsEnv Cfg K C) (h : List (PbsOp (PoolSim Cfg K C) (PairRes K))) (o) :
    worldAfter env (h ++ [o]) = ((worldAfter env h).step (computeSeed env.md5) o).1 := by
  simp [run_concat, worldAfter]

theorem packagesIn_mono (env : PbsEnv Cfg K C) (a b : List (PbsOp (PoolSim Cfg K C) (PairRes K))) : packagesIn env a ⊆ packagesIn env (a ++ b) := by
  intro x hx
  rw [packagesIn, run_append_pbs, packages, List.flatMap_append]
  exact List.mem_append_left _ hx

theorem CleanPbs.pre {env : PbsEnv Cfg K C} {a b : List (PbsOp (PoolSim Cfg K C) (PairRes K))} (h : CleanPbs env (a ++ b)) : CleanPbs env a := by
  refine ⟨fun o ho => h.plain o (by simp [ho]), ?_, ?_, fun l hl => h.kept l (by simp [hl]), ?_, ?_⟩
  · have := h.ids
    rw [pbsIdsIn, run_append_pbs, submissions, List.flatMap_append, List.map_append] at this
    exact (List.nodup_append.1 this).1
  · intro before q fin rest e
    exact h.asked before q fin (rest ++ b) (by rw [e]; simp)
  · intro before listing rest e
    exact h.numbers before listing (rest ++ b) (by rw [e]; simp)
  · intro j
    have := h.once j
    rw [appendsOf_append, List.filterMap_append] at this
    exact (List.nodup_append.1 this).1

theorem WholeJobs.pre {env : PbsEnv Cfg K C} {a b : List (PbsOp (PoolSim Cfg K C) (PairRes K))} (h : WholeJobs env (a ++ b)) : WholeJobs env a := by
  intro before q qa rest e
  exact h before q qa (rest ++ b) (by rw [e]; simp)

theorem schedule_jobs {S R : Type} {w : PbsWorld S R} {subs ps} (i : JobsInv w subs ps) (id : SampleId) (seed l : Nat) (size : ℚ) (sim : S) (q : QsubAns)
    (hq : q.plain) (hn : ∀ s ∈ (w.schedule id seed l size sim q).2.submitted, s.pbsId ∉ subs) :
    JobsInv (w.schedule id seed l size sim q).1 (subs ++ (w.schedule id seed l size sim q).2.submitted.map (·.pbsId)) (ps ++ (w.schedule id seed l size sim q).2.packed) ∧
    outIds (w.schedule id seed l size sim q).1 = outIds w ++ [id] ∧ (w.schedule id seed l size sim q).1.pool.unfinished = w.pool.unfinished := by
  revert hn
  unfold PbsWorld.schedule
  simp only
  have i2 : JobsInv (⟨{ w.pool with scheduled := w.pool.scheduled ++ [(l, id, seed)], nInJob := w.pool.nInJob + 1, weight := w.pool.weight + size },
      { w.disk with sims := if (Dict.get? w.disk.sims l).isSome then w.disk.sims else Dict.set w.disk.sims l sim }⟩ : PbsWorld S R) subs ps :=
    i.of_sub (List.Sublist.refl _) rfl rfl (fun x hx => by simp only [List.map_append]; exact List.mem_append_left _ hx)
  split
  · intro hn
    obtain ⟨k1, k2, k3⟩ := execute_jobs i2 q hq hn
    refine ⟨k1, k2.trans ?_, k3⟩
    simp [outIds, jobIds]
  · intro _
    refine ⟨by simpa using i2, ?_, rfl⟩
    simp [outIds, jobIds]

theorem run_jobs {env : PbsEnv Cfg K C} (h : List (PbsOp (PoolSim Cfg K C) (PairRes K))) (hc : CleanPbs env h) :
    JobsInv (worldAfter env h) (pbsIdsIn env h) (packagesIn env h) := by
  induction h using List.reverseRecOn with
  | nil =>
    exact ⟨by simp [worldAfter, PbsWorld.run, PbsWorld.create], by simp [worldAfter, PbsWorld.run, PbsWorld.create], by simp [worldAfter, PbsWorld.run, PbsWorld.create],
      by simp [worldAfter, PbsWorld.run, PbsWorld.create], by simp [worldAfter, PbsWorld.run, PbsWorld.create], by simp [packagesIn, PbsWorld.run, packages],
      by simp [worldAfter, PbsWorld.run, PbsWorld.create]⟩
  | append_singleton h o ih =>
    have i := ih hc.pre
    have hids := hc.ids
    rw [pbsIdsIn_snoc] at hids
    have hnew : ∀ s ∈ ((worldAfter env h).step (computeSeed env.md5) o).2.submitted, s.pbsId ∉ pbsIdsIn env h := by
      intro s hs hm
      exact (List.nodup_append.1 hids).2.2 _ hm _ (List.mem_map.2 ⟨s, hs, rfl⟩) rfl
    rw [worldAfter_snoc, pbsIdsIn_snoc, packagesIn_snoc]
    have hq := hc.plain o (by simp)
    cases o with
    | schedule id l size sim q => exact (schedule_jobs i id _ l size sim q (hq q (by simp [PbsOp.qsubAns?])) hnew).1
    | execute q => exact (execute_jobs i q (hq q (by simp [PbsOp.qsubAns?])) hnew).1
    | get q qa =>
      obtain ⟨c, e1, _, e3, _⟩ := getFinished_core (worldAfter env h) q qa
      simp only [PbsWorld.step, e1, e3] at hnew ⊢
      have k := (execute_jobs i q (hq q (by simp [PbsOp.qsubAns?])) hnew).1
      obtain ⟨fin', _, f2, _⟩ := getFinished_parts (worldAfter env h) q qa k.pids k.files
      refine k.of_sub ?_ c.files c.jobCount (fun x hx => by rw [c.scheduled]; exact hx)
      rw [f2]; exact List.filter_sublist
    | permanent ids => simp only [PbsWorld.step, List.map_nil, List.append_nil]; exact i.of_sub (List.Sublist.refl _) rfl rfl fun x hx => hx
    | job j a =>
      simp only [PbsWorld.step, List.map_nil, List.append_nil]
      refine i.of_sub ?_ (apply_rest j _ a).1 rfl fun x hx => hx
      rw [(apply_rest j (worldAfter env h).disk a).2.2.2.2]
    | restart d listing =>
      cases d with
      | false => exact absurd (by simp) (hc.kept listing)
      | true =>
        have hlt := hc.numbers h listing [] rfl
        simp only [PbsWorld.step, List.map_nil, List.append_nil]
        refine ⟨i.pids, i.old, i.files, ?_, i.pack, ?_, i.own⟩
        · intro e he
          obtain ⟨ts, hts⟩ := i.pack e he
          exact hlt _ hts
        · intro pk hpk
          exact .inl (hlt pk hpk)

theorem kept_since {S R : Type} {h : List (PbsOp S R)} (hk : ∀ l, PbsOp.restart false l ∉ h) : sinceEmptied h = h := by
  induction h using List.reverseRecOn with
  | nil => rfl
  | append_singleton h o ih =>
    rw [sinceEmptied_snoc, ih fun l hl => hk l (by simp [hl]), if_neg]
    intro ho
    cases o with
    | restart d l =>
      cases d
      · exact hk l (by simp)
      · simp [PbsOp.empties] at ho
    | _ => simp [PbsOp.empties] at ho

theorem fails_run {S R : Type} (seedOf : SampleId → Nat) (h : List (PbsOp S R)) (hr : ∀ l, PbsOp.restart false l ∉ h) (j : Nat) :
    failRecords ((PbsWorld.create false [] ({} : PbsDisk S R)).run seedOf h).1.disk j = (appendsOf j h).filterMap failedOf := by
  induction h using List.reverseRecOn with
  | nil => simp [PbsWorld.run, PbsWorld.create, failRecords, appendsOf]
  | append_singleton h o ih =>
    have ih := ih fun l hm => hr l (by simp [hm])
    rw [run_concat, appendsOf_append, List.filterMap_append, ← ih]
    set w := ((PbsWorld.create false [] ({} : PbsDisk S R)).run seedOf h).1
    have same : ∀ w' : PbsWorld S R, w'.disk.failed = w.disk.failed → failRecords w'.disk j = failRecords w.disk j ++ [] := by
      intro w' e; simp [failRecords, e]
    simp only
    cases o with
    | schedule id l size sim q =>
      refine same _ ?_
      simp only [PbsWorld.step, PbsWorld.schedule]
      split
      · exact (execute_scheduledFiles _ q).1
      · rfl
    | execute q => exact same _ (execute_scheduledFiles w q).1
    | get q a =>
      refine same _ ?_
      obtain ⟨c, _⟩ := getFinished_core w q a
      exact c.failed.trans (execute_scheduledFiles w q).1
    | permanent ids => exact same _ rfl
    | job i a =>
      simp only [PbsWorld.step]
      by_cases e : i = j
      · subst e
        simp only [failRecords, (apply_self i w.disk a).2.1, appendsOf, List.filterMap_cons, if_true, List.filterMap_nil]
        cases failedOf a <;> simp
      · simp only [failRecords, (apply_other j i e w.disk a).2.1, appendsOf, List.filterMap_cons, if_neg e, List.filterMap_nil, List.append_nil]
    | restart d l =>
      cases d with
      | false => exact absurd (by simp) (hr l)
      | true => exact same _ rfl

theorem records_nodup {R : Type} : ∀ as : List (JobAppend R), (as.filterMap JobAppend.recordId).Nodup →
    ((as.filterMap succOf).map (·.2.1) ++ (as.filterMap failedOf).map (·.2.1)).Nodup := by
  intro as h
  refine (List.Perm.nodup_iff ?_).2 h
  clear h
  induction as with
  | nil => simp
  | cons a as ih =>
    cases a with
    | succ l id v =>
      simp only [List.filterMap_cons, succOf, failedOf, JobAppend.recordId, List.map_cons, List.cons_append]
      exact ih.cons _
    | failed l id m =>
      simp only [List.filterMap_cons, succOf, failedOf, JobAppend.recordId, List.map_cons]
      exact List.perm_middle.trans (ih.cons _)
    | _ => simpa only [List.filterMap_cons, succOf, failedOf, JobAppend.recordId] using ih

/-- Records of jobs, read off the history. -/
theorem recs_of {env : PbsEnv Cfg K C} {h : List (PbsOp (PoolSim Cfg K C) (PairRes K))} (hc : CleanPbs env h) (hj : HonestJobs env h) (hf : HonestFailures env h) :
    (∀ j id, (∃ l v, (l, id, v) ∈ succRecords (worldAfter env h).disk j) ∨ (∃ l m, (l, id, m) ∈ failRecords (worldAfter env h).disk j) →
      ∃ ts, (j, ts) ∈ packagesIn env h ∧ id ∈ ts.map (·.2.1)) ∧
    ∀ j, ((succRecords (worldAfter env h).disk j).map (·.2.1) ++ (failRecords (worldAfter env h).disk j).map (·.2.1)).Nodup := by
  have D := run_dir (computeSeed env.md5) h hc.kept
  have F := fails_run (computeSeed env.md5) h hc.kept
  have back : ∀ j a, a ∈ appendsOf j h → PbsOp.job j a ∈ h := by
    intro j a ha
    rw [appendsOf, List.mem_filterMap] at ha
    obtain ⟨o, ho, e⟩ := ha
    cases o with
    | job j' a' =>
      simp only at e
      split at e
      · rename_i hjj
        injection e with e
        subst hjj; subst e; exact ho
      · cases e
    | _ => simp at e
  constructor
  · rintro j id (⟨l, v, hm⟩ | ⟨l, m, hm⟩)
    · rw [worldAfter, D.recs, List.mem_filterMap] at hm
      obtain ⟨a, ha, e⟩ := hm
      cases a with
      | succ l' id' v' =>
        simp only [succOf, Option.some.injEq, Prod.mk.injEq] at e
        obtain ⟨rfl, rfl, rfl⟩ := e
        obtain ⟨a, b, hab⟩ := List.append_of_mem (back j _ ha)
        obtain ⟨ts, seed, h1, h2, _⟩ := hj a j l' id' v' b hab
        refine ⟨ts, ?_, List.mem_map.2 ⟨_, h2, rfl⟩⟩
        rw [hab]; exact packagesIn_mono env _ _ h1
      | _ => simp [succOf] at e
    · rw [worldAfter, F, List.mem_filterMap] at hm
      obtain ⟨a, ha, e⟩ := hm
      cases a with
      | failed l' id' m' =>
        simp only [failedOf, Option.some.injEq, Prod.mk.injEq] at e
        obtain ⟨rfl, rfl, rfl⟩ := e
        obtain ⟨a, b, hab⟩ := List.append_of_mem (back j _ ha)
        obtain ⟨ts, seed, h1, h2⟩ := hf a j l' id' m' b hab
        refine ⟨ts, ?_, List.mem_map.2 ⟨_, h2, rfl⟩⟩
        rw [hab]; exact packagesIn_mono env _ _ h1
      | _ => simp [failedOf] at e
  · intro j
    rw [worldAfter, D.recs, F]
    exact records_nodup _ (hc.once j)

theorem lastJobWith_append {ps qs : List (Nat × List Trip)} {id : SampleId} (h : ∀ pk ∈ qs, id ∉ pk.2.map (·.2.1)) : lastJobWith (ps ++ qs) id = lastJobWith ps id := by
  unfold lastJobWith
  rw [List.reverse_append, List.find?_append, List.find?_eq_none.2, Option.none_or]
  intro pk hpk
  simpa using h pk (List.mem_reverse.1 hpk)

/-- The directory in which a question looks for unfinished samples. -/
theorem whole_of {env : PbsEnv Cfg K C} {h : List (PbsOp (PoolSim Cfg K C) (PairRes K))} {q qa} (hc : CleanPbs env (h ++ [.get q qa])) (hj : HonestJobs env h) (hf : HonestFailures env h)
    (hw : WholeJobs env (h ++ [.get q qa])) (hap : ∀ id ∈ (worldAfter env h).pool.unfinished, id ∉ (worldAfter env h).pool.scheduled.map (·.2.1)) :
    WholeDir ((worldAfter env h).execute q).1.disk (worldAfter env h).pool.unfinished := by
  have hw1 : ((worldAfter env h).execute q).1 = worldAfter env (h ++ [.execute q]) := by rw [worldAfter_snoc]; rfl
  have hk : ∀ l, PbsOp.restart false l ∉ h ++ [PbsOp.execute (S := PoolSim Cfg K C) (R := PairRes K) q] := by
    intro l hl
    simp only [List.mem_append, List.mem_singleton, reduceCtorEq, or_false] at hl
    exact hc.pre.kept l hl
  obtain ⟨d1, _, d3⟩ := dir_facts env (h ++ [.execute q])
  have hs1 : sinceEmptied (h ++ [PbsOp.execute (S := PoolSim Cfg K C) (R := PairRes K) q]) = h ++ [.execute q] := kept_since hk
  have hs2 := kept_since hc.pre.kept
  have hlast : ∀ id ∈ (worldAfter env h).pool.unfinished, lastJobIn env (h ++ [.execute q]) id = lastJobIn env h id := by
    intro id hid
    rw [lastJobIn, lastJobIn, hs1, hs2, packagesIn_snoc]
    refine lastJobWith_append fun pk hpk => ?_
    rw [(execute_world (worldAfter env h) q).2.2.2 pk hpk]
    exact hap id hid
  have hsucc : ∀ j l id v, SuccIn (h ++ [PbsOp.execute (S := PoolSim Cfg K C) (R := PairRes K) q]) j l id v ↔ SuccIn h j l id v := by
    intro j l id v
    rw [SuccIn, SuccIn, hs1, hs2, appendsOf_append]
    simp [appendsOf]
  have hjob : ∀ id ∈ (worldAfter env h).pool.unfinished, ∀ j, jobOfSample ((worldAfter env h).execute q).1.disk id = .ok j ↔ lastJobIn env h id = some j := by
    intro id hid j
    rw [hw1, d1, hlast id hid]
    cases lastJobIn env h id with
    | none => simp only; split <;> simp
    | some k => simp
  constructor
  · intro id' hid' j hjo l id r hr hid
    rw [hw1, d3, hsucc] at hr
    obtain ⟨a, l', v', b⟩ := hw h q qa [] rfl _ rfl id hid id' hid' j l r ((hjob id' hid' j).1 hjo) hr
    refine ⟨(hjob id hid j).2 a, l', v', ?_⟩
    rw [hw1, d3, hsucc]; exact b
  · intro j
    have := (List.nodup_append.1 ((recs_of hc.pre hj hf).2 j)).1
    simp only [succRecords, (execute_world (worldAfter env h) q).2.1]
    exact this

end MLMC
