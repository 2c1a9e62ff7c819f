import Verif.Proofs.PbsCollect
/-! Property C33: recovering unfinished samples from the job files after a restart. -/
namespace MLMC
variable {S R : Type}

theorem appendWanted_inner (wanted : List SampleId) (l : Nat) (rs : List (SampleId × R)) :
    ∀ d : Dict Nat (List (SampleId × R)), (Dict.keys d).Nodup →
    let d' := rs.foldl (fun d r => if r.1 ∈ wanted then Dict.upd d l [] (· ++ [r]) else d) d
    (Dict.keys d').Nodup ∧ ∀ k, (Dict.get? d' k).getD [] =
      (Dict.get? d k).getD [] ++ if k = l then rs.filter (fun r => r.1 ∈ wanted) else [] := by
  induction rs with
  | nil => intro d h; exact ⟨h, by simp⟩
  | cons r rs ih =>
    intro d h
    simp only [List.foldl_cons]
    by_cases hr : r.1 ∈ wanted
    · simp only [hr, if_true]
      obtain ⟨a, b⟩ := ih (Dict.upd d l [] (· ++ [r])) (Dict.nodup_keys_upd _ _ _ _ h)
      refine ⟨a, fun k => ?_⟩
      rw [b k]
      by_cases hk : k = l
      · subst hk; rw [Dict.get?_upd_self]; simp [hr]
      · rw [Dict.get?_upd_ne _ _ _ hk]; simp [hk]
    · simp only [hr, if_false]
      obtain ⟨a, b⟩ := ih d h
      refine ⟨a, fun k => ?_⟩
      rw [b k]; simp [hr]

theorem appendWanted_spec (wanted : List SampleId) (e : Dict Nat (List (SampleId × R))) :
    ∀ d : Dict Nat (List (SampleId × R)), (Dict.keys d).Nodup →
    (Dict.keys (appendWanted wanted d e)).Nodup ∧ ∀ k, (Dict.get? (appendWanted wanted d e) k).getD [] =
      (Dict.get? d k).getD [] ++ (atLevel e k).filter (fun r => r.1 ∈ wanted) := by
  induction e with
  | nil => intro d h; exact ⟨h, by simp [appendWanted, atLevel]⟩
  | cons x e ih =>
    intro d h
    obtain ⟨a, b⟩ := appendWanted_inner wanted x.1 x.2 d h
    obtain ⟨a', b'⟩ := ih _ a
    refine ⟨a', fun k => ?_⟩
    have := b' k
    simp only [appendWanted, List.foldl_cons] at this ⊢
    rw [this, b k]
    by_cases hk : k = x.1
    · subst hk; simp [atLevel]
    · simp [atLevel, hk, Ne.symm hk]

/-- The successful records in the files of job `j`. -/
def succRecords (d : PbsDisk S R) (j : Nat) : List (Nat × SampleId × R) := (Dict.get? d.succ j).getD []

theorem readResults_ok {d : PbsDisk S R} {j : Nat} (h : (Dict.get? d.scheduled j).isSome) :
    ∃ r, readResults d j = .ok r ∧ r.succ = groupByLevel (succRecords d j) := by
  obtain ⟨ts, hts⟩ := Option.isSome_iff_exists.1 h
  exact ⟨_, by simp only [readResults, hts]; rfl, rfl⟩

theorem mem_group {α : Type} (rs : List (Nat × α)) (l : Nat) (x : α) : x ∈ atLevel (groupByLevel rs) l ↔ (l, x) ∈ rs := by
  rw [atLevel_of_nodup _ (group_nodup _), group_get, List.mem_filterMap]
  constructor
  · rintro ⟨⟨k, y⟩, hm, he⟩
    simp only at he
    split at he
    · rename_i h; simp only [Option.some.injEq] at he; subst h; subst he; exact hm
    · simp at he
  · intro h; exact ⟨(l, x), h, by simp⟩

theorem mem_wantedIds (wanted : List SampleId) (rs : List (Nat × SampleId × R)) (x : SampleId) :
    x ∈ wantedIds wanted (groupByLevel rs) ↔ x ∈ wanted ∧ ∃ l r, (l, x, r) ∈ rs := by
  rw [wantedIds, List.mem_filter, decide_eq_true_eq, and_comm]
  refine and_congr_right fun _ => ?_
  rw [List.mem_flatMap]
  constructor
  · rintro ⟨⟨l, ys⟩, hm, hx⟩
    obtain ⟨⟨y, r⟩, hy, rfl⟩ := List.mem_map.1 hx
    refine ⟨l, r, ?_⟩
    rw [← mem_group, atLevel_of_nodup _ (group_nodup _), Dict.get?_of_mem (group_nodup _) hm]
    exact hy
  · rintro ⟨l, r, hm⟩
    rw [← mem_group, atLevel, List.mem_flatMap] at hm
    obtain ⟨⟨k, ys⟩, h1, h2⟩ := hm
    simp only at h2
    split at h2
    · exact ⟨_, h1, List.mem_map.2 ⟨_, h2, rfl⟩⟩
    · simp at h2

/-- Conclusions about the loop of `_collect_unfinished` that starts with nothing collected from finished jobs. -/
theorem collectUnfinished_spec (wanted : List SampleId) (d : PbsDisk S R)
    (hj : ∀ id ∈ wanted, ∃ j, jobOfSample d id = .ok j ∧ (Dict.get? d.scheduled j).isSome) :
    ∀ (ids already : List SampleId) (a : Acc R), ids ⊆ wanted → (Dict.keys a.succ).Nodup → a.failed = [] → a.times = [] →
    (∀ x ∈ already, ∃ l r, (x, r) ∈ (Dict.get? a.succ l).getD []) →
    (∀ l x r, (x, r) ∈ (Dict.get? a.succ l).getD [] → x ∈ wanted ∧ x ∈ already ∧ ∃ id ∈ wanted, ∃ j, jobOfSample d id = .ok j ∧ (l, x, r) ∈ succRecords d j) →
    ∃ a', collectUnfinished wanted d ids already a = .ok a' ∧ a'.failed = [] ∧ a'.times = [] ∧ (Dict.keys a'.succ).Nodup ∧
      (∀ l x r, (x, r) ∈ (Dict.get? a.succ l).getD [] → (x, r) ∈ (Dict.get? a'.succ l).getD []) ∧
      (∀ l x r, (x, r) ∈ (Dict.get? a'.succ l).getD [] → x ∈ wanted ∧ ∃ id ∈ wanted, ∃ j, jobOfSample d id = .ok j ∧ (l, x, r) ∈ succRecords d j) ∧
      (∀ id ∈ ids, (∃ l r, (id, r) ∈ (Dict.get? a'.succ l).getD []) ∨ ∀ j, jobOfSample d id = .ok j → ∀ l r, (l, id, r) ∉ succRecords d j) := by
  intro ids
  induction ids with
  | nil =>
    intro already a _ hk hf ht _ hm
    exact ⟨a, rfl, hf, ht, hk, fun l x r h => h, fun l x r h => ⟨(hm l x r h).1, (hm l x r h).2.2⟩, by simp⟩
  | cons id ids ih =>
    intro already a hsub hk hf ht hal hm
    have hidw : id ∈ wanted := hsub (by simp)
    have hsub' : ids ⊆ wanted := fun x hx => hsub (List.mem_cons_of_mem _ hx)
    unfold collectUnfinished
    by_cases hin : id ∈ already
    · rw [if_pos hin]
      obtain ⟨a', e, k1, k2, k3, k4, k5, k6⟩ := ih already a hsub' hk hf ht hal hm
      refine ⟨a', e, k1, k2, k3, k4, k5, ?_⟩
      intro x hx
      rcases List.mem_cons.1 hx with rfl | hx
      · obtain ⟨l, r, h⟩ := hal x hin
        exact Or.inl ⟨l, r, k4 l x r h⟩
      · exact k6 x hx
    · rw [if_neg hin]
      obtain ⟨j, hjo, hsc⟩ := hj id hidw
      obtain ⟨r, hr, hrs⟩ := readResults_ok hsc
      rw [hjo]
      simp only [hr, hf, List.any_nil, Bool.false_eq_true, if_false, ht, ne_eq, not_true_eq_false]
      obtain ⟨s1, s2⟩ := appendWanted_spec wanted r.succ a.succ hk
      have hmem : ∀ l x y, (x, y) ∈ (Dict.get? (appendWanted wanted a.succ r.succ) l).getD [] ↔
          (x, y) ∈ (Dict.get? a.succ l).getD [] ∨ (l, x, y) ∈ succRecords d j ∧ x ∈ wanted := by
        intro l x y
        rw [s2 l, List.mem_append, List.mem_filter, hrs, mem_group, decide_eq_true_eq]
      obtain ⟨a', e, k1, k2, k3, k4, k5, k6⟩ := ih (already ++ wantedIds wanted r.succ)
        { a with succ := appendWanted wanted a.succ r.succ } hsub' s1 hf ht
        (by
          intro x hx
          rcases List.mem_append.1 hx with h | h
          · obtain ⟨l, y, hy⟩ := hal x h
            exact ⟨l, y, (hmem l x y).2 (Or.inl hy)⟩
          · rw [hrs, mem_wantedIds] at h
            obtain ⟨hw, l, y, hy⟩ := h
            exact ⟨l, y, (hmem l x y).2 (Or.inr ⟨hy, hw⟩)⟩)
        (by
          intro l x y h
          rcases (hmem l x y).1 h with h | ⟨h, hw⟩
          · obtain ⟨p, q, t⟩ := hm l x y h
            exact ⟨p, List.mem_append_left _ q, t⟩
          · refine ⟨hw, List.mem_append_right _ ?_, id, hidw, j, hjo, h⟩
            rw [hrs, mem_wantedIds]
            exact ⟨hw, l, y, h⟩)
      have hf' : a.failed = [] := hf
      have e' : collectUnfinished wanted d ids (already ++ wantedIds wanted r.succ)
          { succ := appendWanted wanted a.succ r.succ, failed := a.failed, times := a.times } = .ok a' := e
      rw [hf, ht] at e'
      refine ⟨a', e', k1, k2, k3, ?_, k5, ?_⟩
      · intro l x y h
        exact k4 l x y ((hmem l x y).2 (Or.inl h))
      · intro x hx
        rcases List.mem_cons.1 hx with rfl | hx
        · by_cases hex : ∃ l y, (l, x, y) ∈ succRecords d j
          · obtain ⟨l, y, hy⟩ := hex
            exact Or.inl ⟨l, y, k4 l x y ((hmem l x y).2 (Or.inr ⟨hy, hidw⟩))⟩
          · right
            intro j' hj' l y hy
            rw [hjo] at hj'
            simp only [Except.ok.injEq] at hj'
            subst hj'
            exact hex ⟨l, y, hy⟩
        · exact k6 x hx

/-- Nothing is collected twice if every wanted sample has a successful record in its own job. -/
theorem collectUnfinished_nodup (wanted : List SampleId) (d : PbsDisk S R)
    (hown : ∀ id' ∈ wanted, ∀ j, jobOfSample d id' = .ok j → ∀ l id r, (l, id, r) ∈ succRecords d j → id ∈ wanted → jobOfSample d id = .ok j)
    (hnd : ∀ id' ∈ wanted, ∀ j, jobOfSample d id' = .ok j → ((succRecords d j).map (·.2.1)).Nodup)
    (hdone : ∀ id ∈ wanted, ∃ j l r, jobOfSample d id = .ok j ∧ (Dict.get? d.scheduled j).isSome ∧ (l, id, r) ∈ succRecords d j) :
    ∀ (ids already : List SampleId) (a : Acc R), ids ⊆ wanted → (Dict.keys a.succ).Nodup → a.failed = [] → a.times = [] →
    (∀ x ∈ already, ∀ y ∈ wanted, jobOfSample d y = jobOfSample d x → y ∈ already) →
    (∀ l x r, (x, r) ∈ (Dict.get? a.succ l).getD [] → x ∈ already) →
    (∀ l, (((Dict.get? a.succ l).getD []).map (·.1)).Nodup) →
    ∀ a', collectUnfinished wanted d ids already a = .ok a' → ∀ l, (((Dict.get? a'.succ l).getD []).map (·.1)).Nodup := by
  intro ids
  induction ids with
  | nil =>
    intro already a _ _ _ _ _ _ hn a' e
    simp only [collectUnfinished, Except.ok.injEq] at e
    subst e; exact hn
  | cons id ids ih =>
    intro already a hsub hk hf ht hcl hal hn a' e
    have hidw : id ∈ wanted := hsub (by simp)
    have hsub' : ids ⊆ wanted := fun x hx => hsub (List.mem_cons_of_mem _ hx)
    unfold collectUnfinished at e
    by_cases hin : id ∈ already
    · rw [if_pos hin] at e
      exact ih already a hsub' hk hf ht hcl hal hn a' e
    · rw [if_neg hin] at e
      obtain ⟨j, l0, r0, hjo, hsc, hrec⟩ := hdone id hidw
      obtain ⟨r, hr, hrs⟩ := readResults_ok hsc
      rw [hjo] at e
      simp only [hr, hf, List.any_nil, Bool.false_eq_true, if_false, ht, ne_eq, not_true_eq_false] at e
      obtain ⟨s1, s2⟩ := appendWanted_spec wanted r.succ a.succ hk
      refine ih (already ++ wantedIds wanted r.succ) ⟨appendWanted wanted a.succ r.succ, [], []⟩ hsub' s1 rfl rfl ?_ ?_ ?_ a' e
      · intro x hx y hy hxy
        rcases List.mem_append.1 hx with h | h
        · exact List.mem_append_left _ (hcl x h y hy hxy)
        · apply List.mem_append_right
          rw [hrs, mem_wantedIds] at h ⊢
          obtain ⟨hw, l, z, hz⟩ := h
          refine ⟨hy, ?_⟩
          obtain ⟨j', l', r', h1, _, h3⟩ := hdone y hy
          rw [hxy, hown id hidw j hjo l x z hz hw] at h1
          simp only [Except.ok.injEq] at h1
          subst h1
          exact ⟨l', r', h3⟩
      · intro l x y h
        rw [s2 l, List.mem_append, List.mem_filter, hrs, mem_group, decide_eq_true_eq] at h
        rcases h with h | ⟨h, hw⟩
        · exact List.mem_append_left _ (hal l x y h)
        · apply List.mem_append_right
          rw [hrs, mem_wantedIds]; exact ⟨hw, l, y, h⟩
      · intro l
        simp only
        rw [s2 l, List.map_append, List.nodup_append]
        refine ⟨hn l, ?_, ?_⟩
        · have h1 : ((atLevel r.succ l).map (·.1)).Sublist ((succRecords d j).map (·.2.1)) := by
            rw [hrs, atLevel_of_nodup _ (group_nodup _), group_get]
            generalize succRecords d j = rs
            induction rs with
            | nil => exact List.Sublist.refl _
            | cons x rs ih =>
              by_cases hx : x.1 = l
              · simp only [List.filterMap_cons, hx, if_true, List.map_cons]; exact ih.cons₂ _
              · simp only [List.filterMap_cons, hx, if_false, List.map_cons]; exact ih.cons _
          exact ((hnd id hidw j hjo).sublist h1).sublist (List.filter_sublist.map _)
        · intro x hx y hy exy
          subst exy
          obtain ⟨⟨x', rx⟩, hx1, hx2⟩ := List.mem_map.1 hx
          simp only at hx2
          subst hx2
          obtain ⟨⟨y', ry⟩, hy1, hy2⟩ := List.mem_map.1 hy
          simp only at hy2
          subst hy2
          rw [List.mem_filter, hrs, mem_group, decide_eq_true_eq] at hy1
          have := hown id hidw j hjo l _ ry hy1.1 hy1.2
          exact hin (hcl _ (hal l _ rx hx1) id hidw (by rw [hjo, this]))

/-- C33, what holds: after a restart that keeps the directory, if every unfinished sample is in a job whose scheduled file
exists, and in the files of these jobs successful records of unfinished samples stand only in the sample's own job and at most once: the
first `get_finished` returns for every level exactly the written successful results of the unfinished samples, no failed samples, no
times and no running samples; if all unfinished samples have finished successfully, each is returned once.
Missing: failed samples, jobs still running, samples never packed, results finishing at the same time: see the counterexamples. -/
theorem C33_successes_recovered_partial (seedOf : SampleId → Nat) (listing : List Nat) (d : PbsDisk S R) (ids : List SampleId)
    (q : QsubAns) (qa : QstatAns)
    (hj : ∀ id ∈ ids, ∃ j, jobOfSample d id = .ok j ∧ (Dict.get? d.scheduled j).isSome)
    (hown : ∀ id' ∈ ids, ∀ j, jobOfSample d id' = .ok j → ∀ l id r, (l, id, r) ∈ succRecords d j → id ∈ ids → jobOfSample d id = .ok j)
    (hnd : ∀ id' ∈ ids, ∀ j, jobOfSample d id' = .ok j → ((succRecords d j).map (·.2.1)).Nodup) :
    let w := ((PbsWorld.create true listing d).step seedOf (.permanent ids)).1
    ∃ a, (w.step seedOf (.get q qa)).2.answer = some a ∧ a.failed = [] ∧ a.nOps = [] ∧ a.nRunning = 0 ∧
      (∀ l id r, (id, r) ∈ atLevel a.succ l ↔ id ∈ ids ∧ ∃ j, jobOfSample d id = .ok j ∧ (l, id, r) ∈ succRecords d j) ∧
      ((∀ id ∈ ids, ∃ j l r, jobOfSample d id = .ok j ∧ (l, id, r) ∈ succRecords d j) →
        ∀ l, ((atLevel a.succ l).map (·.1)).Nodup) := by
  intro w
  have hstep : (w.step seedOf (.get q qa)).2.answer = (w.getResultFiles [] []).2.answer := by
    simp only [PbsWorld.step, PbsWorld.getFinished]
    have h1 : w.execute q = (w, {}) := by
      simp [PbsWorld.execute, w, PbsWorld.step, PbsWorld.create]
    have h2 : w.pool.qstat qa = (w.pool, .ok ([], [])) := by
      simp [PbsPool.qstat, w, PbsWorld.step, PbsWorld.create]
    rw [h1]; simp only [h2]
  have hu : w.pool.unfinished = ids.dedup := rfl
  have hd : w.disk = d := rfl
  have hj' : ∀ id ∈ ids.dedup, ∃ j, jobOfSample d id = .ok j ∧ (Dict.get? d.scheduled j).isSome :=
    fun id h => hj id (List.mem_dedup.1 h)
  obtain ⟨a, e, k1, k2, k3, _, k5, k6⟩ := collectUnfinished_spec ids.dedup d hj' ids.dedup [] ({} : Acc R) (fun x hx => hx)
    (by simp [Dict.keys]) rfl rfl (by simp) (by simp)
  rw [hstep]
  unfold PbsWorld.getResultFiles
  simp only [nRunningOf, collectFinished, hu, hd]
  by_cases hemp : ids.dedup = []
  · rw [if_pos hemp]
    refine ⟨_, rfl, rfl, rfl, rfl, ?_, ?_⟩
    · intro l id r
      constructor
      · intro h; simp [atLevel] at h
      · rintro ⟨h, _⟩
        have : id ∈ ids.dedup := List.mem_dedup.2 h
        rw [hemp] at this; simp at this
    · intro _ l; simp [atLevel]
  · rw [if_neg hemp]
    simp only [e]
    refine ⟨_, rfl, k1, k2, rfl, ?_, ?_⟩
    · intro l id r
      simp only
      rw [atLevel_of_nodup _ k3]
      constructor
      · intro h
        obtain ⟨hw, id', hid', j, hjo, hrec⟩ := k5 l id r h
        rw [List.mem_dedup] at hw hid'
        exact ⟨hw, j, hown id' hid' j hjo l id r hrec hw, hrec⟩
      · rintro ⟨hw, j, hjo, hrec⟩
        rcases k6 id (List.mem_dedup.2 hw) with ⟨l', r', h⟩ | h
        · obtain ⟨_, id', hid', j', hjo', hrec'⟩ := k5 l' id r' h
          have hjj := hown id' (List.mem_dedup.1 hid') j' hjo' l' id r' hrec' hw
          rw [hjo, Except.ok.injEq] at hjj
          subst hjj
          have := List.inj_on_of_nodup_map (hnd id hw j hjo) hrec hrec' rfl
          simp only [Prod.mk.injEq, true_and] at this
          obtain ⟨rfl, rfl⟩ := this
          exact h
        · exact absurd hrec (h j hjo l r)
    · intro hdone l
      simp only
      rw [atLevel_of_nodup _ k3]
      refine collectUnfinished_nodup ids.dedup d (fun i hi j hj' l id r h hi' => hown i (List.mem_dedup.1 hi) j hj' l id r h (List.mem_dedup.1 hi'))
        (fun i hi => hnd i (List.mem_dedup.1 hi)) ?_ ids.dedup []
        ({} : Acc R) (fun x hx => hx) (by simp [Dict.keys]) rfl rfl (by simp) (by simp) (by simp) a e l
      intro id hid
      obtain ⟨j, l, r, h1, h2⟩ := hdone id (List.mem_dedup.1 hid)
      obtain ⟨j', h3, h4⟩ := hj id (List.mem_dedup.1 hid)
      rw [h1, Except.ok.injEq] at h3
      subst h3
      exact ⟨j, l, r, h1, h4, h2⟩

/-- A sample of level 0 that sends its package at once. -/
def sendOp (n pid : Nat) : PbsOp Unit Nat := .schedule (sampleTag 0 n) 0 2 () (.ok pid)

/-- A package of two samples, numbers `n` and `n + 1`. -/
def sendTwo (n pid : Nat) : List (PbsOp Unit Nat) := [.schedule (sampleTag 0 n) 0 (1/2) () .fail, sendOp (n + 1) pid]

def pbsRun (ops : List (PbsOp Unit Nat)) : PbsWorld Unit Nat × List (PbsOut Nat) :=
  (PbsWorld.create false [] ({} : PbsDisk Unit Nat)).run (fun _ => 1) ops

/-- Non-vacuity: two jobs finish while the main program is down; both results are returned, each once. -/
example :
    (answers (pbsRun [sendOp 0 70, sendOp 1 71, .restart true [0, 1], .job 0 (.succ 0 (sampleTag 0 0) 5),
      .job 1 (.succ 0 (sampleTag 0 1) 6), .permanent [sampleTag 0 1, sampleTag 0 0], .get .fail (.ok [])]).2).map (·.succ) =
      [[(0, [(sampleTag 0 1, 6), (sampleTag 0 0, 5)])]] := by
  decide +kernel

/-- Failed samples are not recovered, and a successful sample of the same job is returned twice. -/
theorem C33_failed_and_duplicate_counterexample :
    let r := pbsRun (sendTwo 0 70 ++ [.job 0 (.succ 0 (sampleTag 0 0) 5), .job 0 (.failed 0 (sampleTag 0 1) ['e']), .restart true [0],
      .permanent [sampleTag 0 0, sampleTag 0 1], .get .fail (.ok []), .get .fail (.ok [])])
    (answers r.2).map (·.succ) = [[(0, [(sampleTag 0 0, 5), (sampleTag 0 0, 5)])], []] ∧
    (answers r.2).map (·.failed) = [[], []] := by
  constructor <;> decide +kernel

/-- A sample whose job finishes after the first `get_finished` of the new program is never returned. -/
theorem C33_running_lost_counterexample :
    let r := pbsRun [sendOp 0 70, .restart true [0], .permanent [sampleTag 0 0], .get .fail (.ok []),
      .job 0 (.succ 0 (sampleTag 0 0) 5), .get .fail (.ok [70]), .get .fail (.ok [70])]
    (answers r.2).map (·.succ) = [[], [], []] ∧ (answers r.2).map (·.failed) = [[], [], []] := by
  constructor <;> decide +kernel

/-- A sample that was handed over but not packed before the crash makes every later `get_finished` raise. -/
theorem C33_pending_counterexample :
    let ops := [sendOp 0 70, .schedule (sampleTag 0 1) 0 (1/2) () (.ok 71), .restart true [0],
      .permanent [sampleTag 0 1], .get .fail (.ok []), .get .fail (.ok [])]
    (pbsRun ops).2.map (·.err) = [none, none, none, none, some .keyError, some .keyError] := by
  decide +kernel

/-- Without `debug` the new pool deletes the job files: nothing can be recovered. -/
theorem C33_not_debug_counterexample :
    (pbsRun [sendOp 0 70, .job 0 (.succ 0 (sampleTag 0 0) 5), .restart false [0], .permanent [sampleTag 0 0],
      .get .fail (.ok [])]).2.map (·.err) = [none, none, none, none, some .fileNotFound] := by
  decide +kernel

/-- A new job that finishes before the first `get_finished`: the call raises, and the new result is lost too. -/
theorem C33_new_job_counterexample :
    let r := pbsRun [sendOp 0 70, .job 0 (.succ 0 (sampleTag 0 0) 5), .restart true [0], .permanent [sampleTag 0 0],
      sendOp 1 71, .job 1 (.succ 0 (sampleTag 0 1) 6), .job 1 (.times [(0, 3, 1)]), .get .fail (.ok [71]), .permanent [],
      .get .fail (.ok [71])]
    r.2.map (·.err) = [none, none, none, none, none, none, none, some .typeError, none, none] ∧
    (answers r.2).map (·.succ) = [[]] ∧ (answers r.2).map (·.failed) = [[]] := by
  refine ⟨?_, ?_, ?_⟩ <;> decide +kernel

/-- A newly failed sample among the unfinished ones makes the call run for ever. -/
theorem C33_hang_counterexample :
    (pbsRun [sendOp 0 70, .restart true [0], .permanent [sampleTag 0 0], sendOp 0 71, .job 1 (.failed 0 (sampleTag 0 0) ['e']),
      .get .fail (.ok [71])]).2.map (·.err) = [none, none, none, none, none, some .hangs] := by
  decide +kernel

end MLMC
