import Verif.Proofs.Pbs
import Mathlib.Data.List.Induction
import Mathlib.Algebra.BigOperators.Group.List.Basic
/-! Helper lemmas about collecting the results of PBS jobs. -/
namespace MLMC
variable {S R : Type}

/-- What reading a job gives (nothing if its scheduled file is missing). -/
def jobRes (d : PbsDisk S R) (j : Nat) : JobResults R := match readResults d j with
  | .ok r => r
  | .error _ => {}

theorem extendBy_spec {α : Type} (e : Dict Nat (List α)) : ∀ d : Dict Nat (List α), (Dict.keys d).Nodup →
    (Dict.keys (extendBy d e)).Nodup ∧ ∀ l, (Dict.get? (extendBy d e) l).getD [] = (Dict.get? d l).getD [] ++ atLevel e l := by
  induction e with
  | nil => intro d h; exact ⟨h, by simp [extendBy, atLevel]⟩
  | cons x e ih =>
    intro d h
    obtain ⟨a, b⟩ := ih (Dict.upd d x.1 [] (· ++ x.2)) (Dict.nodup_keys_upd _ _ _ _ h)
    refine ⟨a, fun l => ?_⟩
    have := b l
    simp only [extendBy, List.foldl_cons] at this ⊢
    rw [this]
    by_cases hl : l = x.1
    · subst hl; rw [Dict.get?_upd_self]; simp [atLevel]
    · rw [Dict.get?_upd_ne _ _ _ hl]; simp [atLevel, Ne.symm hl]

theorem addTimes_spec (e : Dict Nat (List (ℚ × Nat))) : ∀ d : Dict Nat (ℚ × ℚ), (Dict.keys d).Nodup → (Dict.keys e).Nodup →
    (Dict.keys (addTimes d e)).Nodup ∧ ∀ l, (Dict.get? (addTimes d e) l).getD (0, 0) =
      (((Dict.get? d l).getD (0, 0)).1 + (match ((Dict.get? e l).getD []).getLast? with | none => 0 | some t => t.1),
       ((Dict.get? d l).getD (0, 0)).2 + (match ((Dict.get? e l).getD []).getLast? with | none => 0 | some t => (t.2 : ℚ))) := by
  induction e with
  | nil => intro d h _; exact ⟨h, by simp [addTimes]⟩
  | cons x e ih =>
    intro d h hn
    obtain ⟨k, ts⟩ := x
    simp only [Dict.keys, List.map_cons, List.nodup_cons] at hn
    set d' := (match ts.getLast? with
      | none => d
      | some t => Dict.upd d k (0, 0) fun y => (y.1 + t.1, y.2 + t.2)) with hd'
    have hnd : (Dict.keys d').Nodup := by
      rw [hd']
      split
      · exact h
      · exact Dict.nodup_keys_upd _ _ _ _ h
    obtain ⟨a, b⟩ := ih d' hnd hn.2
    have he : addTimes d ((k, ts) :: e) = addTimes d' e := rfl
    rw [he]
    refine ⟨a, fun l => ?_⟩
    rw [b l]
    have hk : Dict.get? e k = none := (Dict.get?_eq_none_iff e k).2 hn.1
    by_cases hl : l = k
    · subst hl
      rw [hk]
      simp only [Option.getD_none, List.getLast?_nil, add_zero, Dict.get?, if_true, Option.getD_some]
      rw [hd']
      cases ts.getLast? with
      | none => simp
      | some t => simp only [Dict.get?_upd_self, Option.getD_some]
    · have e1 : Dict.get? ((k, ts) :: e) l = Dict.get? e l := by simp [Dict.get?, Ne.symm hl]
      have e2 : Dict.get? d' l = Dict.get? d l := by
        rw [hd']; split
        · rfl
        · exact Dict.get?_upd_ne _ _ _ hl
      rw [e1, e2]

theorem filter_pid_perm {fs : List (Nat × Nat)} (hn : (fs.map (·.2)).Nodup) {j pid : Nat} (hm : (j, pid) ∈ fs) (ps : List Nat) :
    (fs.filter fun e => e.2 ∈ pid :: ps).Perm ((j, pid) :: (fs.filter fun e => e ≠ (j, pid)).filter fun e => e.2 ∈ ps) := by
  have hnf : fs.Nodup := hn.of_map _
  rw [List.perm_ext_iff_of_nodup (hnf.filter _)]
  · intro e
    simp only [List.mem_filter, List.mem_cons, decide_eq_true_eq]
    constructor
    · rintro ⟨h1, h2⟩
      by_cases he : e = (j, pid)
      · exact Or.inl he
      · rcases h2 with h2 | h2
        · exact absurd (List.inj_on_of_nodup_map hn h1 hm h2) he
        · exact Or.inr ⟨⟨h1, he⟩, h2⟩
    · rintro (rfl | ⟨⟨h1, _⟩, h2⟩)
      · exact ⟨hm, Or.inl rfl⟩
      · exact ⟨h1, Or.inr h2⟩
  · rw [List.nodup_cons]
    refine ⟨?_, (hnf.filter _).filter _⟩
    simp

theorem filter_pid_rest {fs : List (Nat × Nat)} (hn : (fs.map (·.2)).Nodup) {j pid : Nat} (hm : (j, pid) ∈ fs) (ps : List Nat) :
    (fs.filter fun e => e ≠ (j, pid)).filter (fun e => e.2 ∉ ps) = fs.filter fun e => e.2 ∉ pid :: ps := by
  rw [List.filter_filter]
  apply List.filter_congr
  intro e he
  simp only [List.mem_cons, not_or, Bool.decide_and, decide_not, ne_eq]
  have : (e = (j, pid)) ↔ e.2 = pid := by
    constructor
    · rintro rfl; rfl
    · intro h; exact List.inj_on_of_nodup_map hn he hm h
  simp only [this]
  rw [Bool.and_comm]

/-- The loop over finished jobs, for marker files with different PBS identifiers whose jobs can be read. -/
theorem collectFinished_spec : ∀ (fin : List Nat) (d : PbsDisk S R) (a : Acc R), (d.pbsFiles.map (·.2)).Nodup →
    (∀ e ∈ d.pbsFiles, ∃ ts, Dict.get? d.scheduled e.1 = some ts) →
    (Dict.keys a.succ).Nodup → (Dict.keys a.failed).Nodup → (Dict.keys a.times).Nodup →
    ∃ a', collectFinished fin d a = (d.withFiles (d.pbsFiles.filter fun e => e.2 ∉ fin), .ok a') ∧
      (Dict.keys a'.succ).Nodup ∧ (Dict.keys a'.failed).Nodup ∧ (Dict.keys a'.times).Nodup ∧
      ∀ l, ((Dict.get? a'.succ l).getD []).Perm ((Dict.get? a.succ l).getD [] ++
          (d.pbsFiles.filter fun e => e.2 ∈ fin).flatMap fun e => atLevel (jobRes d e.1).succ l) ∧
        ((Dict.get? a'.failed l).getD []).Perm ((Dict.get? a.failed l).getD [] ++
          (d.pbsFiles.filter fun e => e.2 ∈ fin).flatMap fun e => atLevel (jobRes d e.1).failed l) ∧
        ((Dict.get? a'.times l).getD (0, 0)).1 = ((Dict.get? a.times l).getD (0, 0)).1 +
          ((d.pbsFiles.filter fun e => e.2 ∈ fin).map fun e =>
            (match ((Dict.get? (jobRes d e.1).times l).getD []).getLast? with | none => (0 : ℚ) | some t => t.1)).sum ∧
        ((Dict.get? a'.times l).getD (0, 0)).2 = ((Dict.get? a.times l).getD (0, 0)).2 +
          ((d.pbsFiles.filter fun e => e.2 ∈ fin).map fun e =>
            (match ((Dict.get? (jobRes d e.1).times l).getD []).getLast? with | none => (0 : ℚ) | some t => (t.2 : ℚ))).sum := by
  intro fin
  induction fin with
  | nil =>
    intro d a _ _ h1 h2 h3
    refine ⟨a, ?_, h1, h2, h3, fun l => by simp⟩
    simp [collectFinished, PbsDisk.withFiles]
  | cons pid ps ih =>
    intro d a hn hs h1 h2 h3
    unfold collectFinished
    cases hj : d.jobOfPbs pid with
    | none =>
      have hno : ∀ e ∈ d.pbsFiles, e.2 ≠ pid := by
        simp only [PbsDisk.jobOfPbs, Option.map_eq_none_iff, List.find?_eq_none, decide_eq_true_eq] at hj
        exact hj
      obtain ⟨a', e, k1, k2, k3, k4⟩ := ih d a hn hs h1 h2 h3
      have f1 : (d.pbsFiles.filter fun e => e.2 ∉ pid :: ps) = d.pbsFiles.filter fun e => e.2 ∉ ps := by
        apply List.filter_congr; intro e he; simp [hno e he]
      have f2 : (d.pbsFiles.filter fun e => e.2 ∈ pid :: ps) = d.pbsFiles.filter fun e => e.2 ∈ ps := by
        apply List.filter_congr; intro e he; simp [hno e he]
      simp only [f1, f2]
      exact ⟨a', e, k1, k2, k3, k4⟩
    | some j =>
      have hm : (j, pid) ∈ d.pbsFiles := by
        simp only [PbsDisk.jobOfPbs, Option.map_eq_some_iff] at hj
        obtain ⟨⟨j', p'⟩, hf, rfl⟩ := hj
        have := List.find?_some hf
        simp only [decide_eq_true_eq] at this
        subst this
        exact List.mem_of_find?_eq_some hf
      obtain ⟨ts, hts⟩ := hs _ hm
      simp only
      have hr : readResults d j = .ok (jobRes d j) := by simp [jobRes, readResults, hts]
      have hnt : (Dict.keys (jobRes d j).times).Nodup := by
        simp only [jobRes, readResults, hts]; exact group_nodup _
      rw [hr]
      simp only
      obtain ⟨x1, x2⟩ := extendBy_spec (jobRes d j).succ a.succ h1
      obtain ⟨y1, y2⟩ := extendBy_spec (jobRes d j).failed a.failed h2
      obtain ⟨z1, z2⟩ := addTimes_spec (jobRes d j).times a.times h3 hnt
      obtain ⟨a', e, k1, k2, k3, k4⟩ := ih { d with pbsFiles := d.pbsFiles.filter fun e => e ≠ (j, pid) }
        ⟨extendBy a.succ (jobRes d j).succ, extendBy a.failed (jobRes d j).failed, addTimes a.times (jobRes d j).times⟩
        (hn.sublist (List.filter_sublist.map _)) (fun e he => hs e (List.mem_of_mem_filter he)) x1 y1 z1
      refine ⟨a', ?_, k1, k2, k3, ?_⟩
      · rw [e]
        simp only [PbsDisk.withFiles]
        rw [filter_pid_rest hn hm]
      · intro l
        obtain ⟨m1, m2, m3, m4⟩ := k4 l
        have hp := filter_pid_perm hn hm ps
        simp only at m1 m2 m3 m4
        refine ⟨?_, ?_, ?_, ?_⟩
        · refine m1.trans ?_
          rw [x2 l, List.append_assoc]
          exact ((hp.flatMap_right (fun e => atLevel (jobRes d e.1).succ l)).symm).append_left _
        · refine m2.trans ?_
          rw [y2 l, List.append_assoc]
          exact ((hp.flatMap_right (fun e => atLevel (jobRes d e.1).failed l)).symm).append_left _
        · rw [m3, z2 l, (hp.map _).sum_eq, List.map_cons, List.sum_cons]
          simp only
          rw [add_assoc]; rfl
        · rw [m4, z2 l, (hp.map _).sum_eq, List.map_cons, List.sum_cons]
          simp only
          rw [add_assoc]; rfl

/-- Invariant of collecting: `subs` accepted jobs, `out` outstanding ones, `apps` appends made so far by each job. -/
structure CInv (w : PbsWorld S R) (subs out : List Submitted) (apps : Nat → List (JobAppend R)) : Prop where
  files : w.disk.pbsFiles = out.map fun s => (s.job, s.pbsId)
  ids : ∀ s ∈ out, s.pbsId ∈ w.pool.pbsIds
  sub : w.pool.pbsIds.Sublist (subs.map (·.pbsId))
  out_sub : out.Sublist subs
  unf : w.pool.unfinished = []
  succ : ∀ j, (Dict.get? w.disk.succ j).getD [] = (apps j).filterMap succOf
  failed : ∀ j, (Dict.get? w.disk.failed j).getD [] = (apps j).filterMap failedOf
  times : ∀ j, (Dict.get? w.disk.times j).getD [] = (apps j).flatMap timesOf

theorem execute_cinv {w : PbsWorld S R} {subs out : List Submitted} {apps : Nat → List (JobAppend R)}
    (i : CInv w subs out apps) (q : QsubAns) (hq : q.plain)
    (hn : ((subs ++ (w.execute q).2.submitted).map (·.pbsId)).Nodup) :
    CInv (w.execute q).1 (subs ++ (w.execute q).2.submitted) (out ++ (w.execute q).2.submitted) apps ∧
    (w.execute q).2.answer = none := by
  unfold PbsWorld.execute at hn ⊢
  split
  · exact ⟨by simpa using i, rfl⟩
  · rename_i hne
    rw [if_neg hne] at hn
    cases q with
    | okNoFile => exact absurd hq (by simp [QsubAns.plain])
    | fail =>
      simp only [List.append_nil]
      exact ⟨⟨i.files, i.ids, i.sub, i.out_sub, i.unf, i.succ, i.failed, i.times⟩, trivial⟩
    | ok pid =>
      simp only [List.map_append, List.map_cons, List.map_nil] at hn
      have hpid : pid ∉ subs.map (·.pbsId) := by
        rw [List.nodup_append] at hn
        intro h
        exact hn.2.2 pid h pid (by simp) rfl
      refine ⟨⟨?_, ?_, ?_, ?_, i.unf, i.succ, i.failed, i.times⟩, rfl⟩
      · simp only
        rw [if_neg, i.files, List.map_append]
        · rfl
        · rw [i.files, List.mem_map]
          rintro ⟨s, hs, he⟩
          rw [Prod.mk.injEq] at he
          exact hpid (List.mem_map.2 ⟨s, i.out_sub.subset hs, he.2⟩)
      · intro s hs
        rcases List.mem_append.1 hs with h | h
        · exact List.mem_append_left _ (i.ids s h)
        · simp only [List.mem_singleton] at h; subst h; simp
      · rw [List.map_append]
        exact i.sub.append (List.Sublist.refl _)
      · exact i.out_sub.append (List.Sublist.refl _)

theorem qstatScan_spec (fin : List Nat) : ∀ n (ps : List Nat), ps.length ≤ n →
    (qstatScan fin ps).2.Sublist ps ∧ (∀ p ∈ ps, p ∉ fin → p ∈ (qstatScan fin ps).2) ∧
    (qstatScan fin ps).1.Sublist (ps.filter fun p => p ∉ fin) := by
  intro n
  induction n with
  | zero =>
    intro ps h
    have : ps = [] := List.length_eq_zero_iff.1 (Nat.le_zero.1 h)
    subst this
    simp [qstatScan]
  | succ n ih =>
    intro ps h
    cases ps with
    | nil => simp [qstatScan]
    | cons p rest =>
      by_cases hp : p ∉ fin
      · obtain ⟨a, b, c⟩ := ih rest (by simpa using h)
        unfold qstatScan
        rw [if_pos hp]
        refine ⟨a.cons₂ p, ?_, ?_⟩
        · intro x hx hxf
          rcases List.mem_cons.1 hx with e | e
          · subst e; simp
          · exact List.mem_cons_of_mem _ (b x e hxf)
        · rw [List.filter_cons_of_pos (by simpa using hp)]
          exact c.cons₂ p
      · cases rest with
        | nil =>
          unfold qstatScan
          rw [if_neg hp]
          refine ⟨by simp, ?_, by simp⟩
          intro x hx hxf
          simp only [List.mem_singleton] at hx
          subst hx; exact absurd hxf hp
        | cons y rest' =>
          obtain ⟨a, b, c⟩ := ih rest' (by simp at h; omega)
          unfold qstatScan
          rw [if_neg hp]
          refine ⟨(a.cons₂ y).cons p, ?_, ?_⟩
          · intro x hx hxf
            rcases List.mem_cons.1 hx with e | e
            · subst e; exact absurd hxf hp
            · rcases List.mem_cons.1 e with e | e
              · subst e; simp
              · exact List.mem_cons_of_mem _ (b x e hxf)
          · rw [List.filter_cons_of_neg (by simpa using hp)]
            exact c.trans ((List.sublist_cons_self y rest').filter _)

theorem find_pid {out : List Submitted} (hn : (out.map (·.pbsId)).Nodup) {s : Submitted} (hs : s ∈ out) (w : PbsDisk S R)
    (hf : w.pbsFiles = out.map fun s => (s.job, s.pbsId)) : w.jobOfPbs s.pbsId = some s.job := by
  unfold PbsDisk.jobOfPbs
  cases h : w.pbsFiles.find? fun e => e.2 = s.pbsId with
  | none =>
    rw [List.find?_eq_none] at h
    have := h (s.job, s.pbsId) (by rw [hf]; exact List.mem_map.2 ⟨s, hs, rfl⟩)
    simp at this
  | some e =>
    have h1 := List.find?_some h
    have h2 := List.mem_of_find?_eq_some h
    rw [hf, List.mem_map] at h2
    obtain ⟨s', hs', rfl⟩ := h2
    simp only [decide_eq_true_eq] at h1
    have := List.inj_on_of_nodup_map hn hs' hs h1
    subst this
    rfl

/-- Number of samples of the jobs among `out` with this PBS identifier. -/
def jobSize (out : List Submitted) (pid : Nat) : Nat := ((out.filter fun s => s.pbsId = pid).map (·.samples.length)).sum

theorem nRunningOf_spec {out : List Submitted} (hn : (out.map (·.pbsId)).Nodup) (d : PbsDisk S R)
    (hf : d.pbsFiles = out.map fun s => (s.job, s.pbsId)) (hs : ∀ s ∈ out, Dict.get? d.scheduled s.job = some s.samples) :
    ∀ ps, nRunningOf d ps = .ok ((ps.map (jobSize out)).sum) := by
  intro ps
  induction ps with
  | nil => rfl
  | cons p ps ih =>
    unfold nRunningOf
    cases hj : d.jobOfPbs p with
    | none =>
      simp only [ih, List.map_cons, List.sum_cons]
      have : jobSize out p = 0 := by
        unfold jobSize
        rw [List.filter_eq_nil_iff.2]
        · rfl
        · intro s hs'
          simp only [decide_eq_true_eq]
          intro e
          have := find_pid hn hs' d hf
          rw [e, hj] at this
          simp at this
      rw [this]; simp
    | some j =>
      obtain ⟨s, hs', hp⟩ : ∃ s ∈ out, s.pbsId = p := by
        simp only [PbsDisk.jobOfPbs, Option.map_eq_some_iff] at hj
        obtain ⟨e, he, _⟩ := hj
        have h1 := List.find?_some he
        have h2 := List.mem_of_find?_eq_some he
        rw [hf, List.mem_map] at h2
        obtain ⟨s', hs', rfl⟩ := h2
        exact ⟨s', hs', by simpa using h1⟩
      have h3 := find_pid hn hs' d hf
      rw [hp, hj, Option.some.injEq] at h3
      subst h3
      have hsz : jobSize out p = s.samples.length := by
        unfold jobSize
        have hnd : out.Nodup := hn.of_map _
        have : (out.filter fun x => x.pbsId = p) = [s] := by
          have hperm : (out.filter fun x => x.pbsId = p).Perm [s] := by
            rw [List.perm_ext_iff_of_nodup (hnd.filter _) (by simp)]
            intro x
            simp only [List.mem_filter, decide_eq_true_eq, List.mem_singleton]
            constructor
            · rintro ⟨a, b⟩; exact List.inj_on_of_nodup_map hn a hs' (b.trans hp.symm)
            · rintro rfl; exact ⟨hs', hp⟩
          exact List.perm_singleton.1 hperm
        rw [this]; simp
      simp only [jobNRunning, hs s hs', bind, Except.bind, ih, pure, Except.pure, List.map_cons, List.sum_cons, hsz]

/-- What an answer contains: the results of the jobs in `new`, read from `d`. -/
def AnswerOf (d : PbsDisk S R) (new : List Submitted) (a : PoolAnswer R) : Prop :=
  ∀ l, (atLevel a.succ l).Perm (new.flatMap fun s => atLevel (jobRes d s.job).succ l) ∧
    (atLevel a.failed l).Perm (new.flatMap fun s => atLevel (jobRes d s.job).failed l) ∧
    ((Dict.get? a.nOps l).getD (0, 0)).1 = (new.map fun s =>
      (match ((Dict.get? (jobRes d s.job).times l).getD []).getLast? with | none => (0 : ℚ) | some t => t.1)).sum ∧
    ((Dict.get? a.nOps l).getD (0, 0)).2 = (new.map fun s =>
      (match ((Dict.get? (jobRes d s.job).times l).getD []).getLast? with | none => (0 : ℚ) | some t => (t.2 : ℚ))).sum

/-- Collecting, once `qstat` answered. -/
theorem getResultFiles_spec {w : PbsWorld S R} {subs out : List Submitted} {apps : Nat → List (JobAppend R)}
    (i : CInv w subs out apps) (hn : (subs.map (·.pbsId)).Nodup)
    (hs : ∀ s ∈ subs, Dict.get? w.disk.scheduled s.job = some s.samples) (fin unf : List Nat) :
    ∃ a, (w.getResultFiles fin unf).2 = { answer := some a } ∧
      (w.getResultFiles fin unf).1 = { w with disk := w.disk.withFiles (w.disk.pbsFiles.filter fun e => e.2 ∉ fin) } ∧
      AnswerOf w.disk (out.filter fun s => s.pbsId ∈ fin) a ∧ a.nRunning = ((unf.map (jobSize out)).sum : Nat) := by
  have hno : (out.map (·.pbsId)).Nodup := hn.sublist (i.out_sub.map _)
  have hnf : (w.disk.pbsFiles.map (·.2)).Nodup := by
    rw [i.files, List.map_map]
    exact hno
  have hsf : ∀ e ∈ w.disk.pbsFiles, ∃ ts, Dict.get? w.disk.scheduled e.1 = some ts := by
    intro e he
    rw [i.files, List.mem_map] at he
    obtain ⟨s, h, rfl⟩ := he
    exact ⟨_, hs s (i.out_sub.subset h)⟩
  obtain ⟨a, e, k1, k2, k3, k4⟩ := collectFinished_spec fin w.disk ({} : Acc R) hnf hsf (by simp [Dict.keys]) (by simp [Dict.keys])
    (by simp [Dict.keys])
  have hfil : (w.disk.pbsFiles.filter fun e => e.2 ∈ fin) = (out.filter fun s => s.pbsId ∈ fin).map fun s => (s.job, s.pbsId) := by
    rw [i.files, List.filter_map]; rfl
  refine ⟨⟨a.succ, a.failed, ((unf.map (jobSize out)).sum : Nat), a.times⟩, ?_, ?_, ?_, rfl⟩
  · unfold PbsWorld.getResultFiles
    rw [nRunningOf_spec hno w.disk i.files (fun s h => hs s (i.out_sub.subset h))]
    simp only [e]
    rw [if_pos i.unf]
  · unfold PbsWorld.getResultFiles
    rw [nRunningOf_spec hno w.disk i.files (fun s h => hs s (i.out_sub.subset h))]
    simp only [e]
    rw [if_pos i.unf]
  · intro l
    obtain ⟨m1, m2, m3, m4⟩ := k4 l
    rw [hfil, List.flatMap_map] at m1 m2
    rw [hfil, List.map_map] at m3 m4
    refine ⟨?_, ?_, ?_, ?_⟩
    · rw [atLevel_of_nodup _ k1]; simpa using m1
    · rw [atLevel_of_nodup _ k2]; simpa using m2
    · refine m3.trans ?_
      simp only [Dict.get?_nil, Option.getD_none, zero_add]; rfl
    · refine m4.trans ?_
      simp only [Dict.get?_nil, Option.getD_none, zero_add]; rfl

/-- The running count of an answer with list `unf` of unfinished jobs. -/
def RunningOf (out : List Submitted) (unf : List Nat) (a : PoolAnswer R) : Prop := a.nRunning = ((unf.map (jobSize out)).sum : Nat)

theorem getFinished_spec {jc0 : Nat} {w : PbsWorld S R} {subs out : List Submitted} {apps : Nat → List (JobAppend R)} {h : List Trip}
    (i : CInv w subs out apps) (ij : JobInv jc0 w subs h) (q : QsubAns) (hq : q.plain) (qa : QstatAns)
    (hn : ((subs ++ (w.getFinished q qa).2.submitted).map (·.pbsId)).Nodup) :
    let o := (w.getFinished q qa).2
    let out1 := out ++ o.submitted
    (o.answer = none ∧ (o.err = some .qsub ∨ o.err = some .qstat) ∧ CInv (w.getFinished q qa).1 (subs ++ o.submitted) out1 apps) ∨
    ∃ a, o.answer = some a ∧ o.err = none ∧
      CInv (w.getFinished q qa).1 (subs ++ o.submitted) (out1.filter fun s => s.pbsId ∉ qa.finished) apps ∧
      AnswerOf (w.execute q).1.disk (out1.filter fun s => s.pbsId ∈ qa.finished) a ∧
      ((w.execute q).1.pool.pbsIds = [] ∧ a.nRunning = 0 ∨ RunningOf out1 (qstatScan qa.finished (w.execute q).1.pool.pbsIds).1 a) := by
  intro o out1
  have hsub := (getFinished_core w q qa).2.1
  simp only [hsub] at hn
  obtain ⟨i1, hans⟩ := execute_cinv i q hq hn
  have ij1 := execute_inv ij q hq
  have ho1 : out1 = out ++ (w.execute q).2.submitted := by rw [← hsub]
  have hsub' : o.submitted = (w.execute q).2.submitted := hsub
  rw [hsub', ho1]
  have herr : ∀ e, (w.execute q).2.err = some e → e = .qsub := by
    intro e
    unfold PbsWorld.execute
    split
    · simp
    · cases q with
      | fail => simp only; split <;> simp [eq_comm]
      | ok pid => simp
      | okNoFile pid => simp
  simp only [o]
  unfold PbsWorld.getFinished
  cases he : w.execute q with
  | mk w1 o1 =>
    rw [he] at i1 hans ij1 herr hn
    simp only at i1 hans ij1 herr hn ⊢
    cases hoe : o1.err with
    | some e =>
      have := herr e hoe
      subst this
      exact Or.inl ⟨by simpa using hans, Or.inl rfl, i1⟩
    | none =>
      simp only
      have hstale : ∀ (p : PbsPool), p.pbsIds.Sublist w1.pool.pbsIds → p.unfinished = w1.pool.unfinished →
          (∀ s ∈ out ++ o1.submitted, s.pbsId ∈ p.pbsIds ∨ s.pbsId ∈ qa.finished) →
          ∀ unf, ∃ a, ({ w1 with pool := p } : PbsWorld S R).getResultFiles qa.finished unf =
              ({ pool := p, disk := w1.disk.withFiles (w1.disk.pbsFiles.filter fun e => e.2 ∉ qa.finished) }, { answer := some a }) ∧
            AnswerOf w1.disk ((out ++ o1.submitted).filter fun s => s.pbsId ∈ qa.finished) a ∧
            RunningOf (out ++ o1.submitted) unf a ∧
            CInv { pool := p, disk := w1.disk.withFiles (w1.disk.pbsFiles.filter fun e => e.2 ∉ qa.finished) }
              (subs ++ o1.submitted) ((out ++ o1.submitted).filter fun s => s.pbsId ∉ qa.finished) apps := by
        intro p hp hu hall unf
        have ip : CInv { w1 with pool := { p with pbsIds := w1.pool.pbsIds } } (subs ++ o1.submitted) (out ++ o1.submitted) apps :=
          ⟨i1.files, i1.ids, i1.sub, i1.out_sub, by simp only; rw [hu]; exact i1.unf, i1.succ, i1.failed, i1.times⟩
        obtain ⟨a, e1, e2, e3, e4⟩ := getResultFiles_spec ip hn ij1.files qa.finished unf
        have hirr : ({ w1 with pool := p } : PbsWorld S R).getResultFiles qa.finished unf =
            ({ pool := p, disk := (({ w1 with pool := { p with pbsIds := w1.pool.pbsIds } } : PbsWorld S R).getResultFiles qa.finished unf).1.disk },
             (({ w1 with pool := { p with pbsIds := w1.pool.pbsIds } } : PbsWorld S R).getResultFiles qa.finished unf).2) := by
          have hu' : p.unfinished = [] := hu.trans i1.unf
          unfold PbsWorld.getResultFiles
          simp only [hu', if_true]
          cases nRunningOf w1.disk unf with
          | error e => rfl
          | ok n =>
            simp only
            cases hc : collectFinished qa.finished w1.disk ({} : Acc R) with
            | mk d r =>
              cases r with
              | error e => rfl
              | ok a => rfl
        refine ⟨a, ?_, e3, e4, ?_⟩
        · rw [hirr, e1, e2]
        · refine ⟨?_, ?_, hp.trans i1.sub, List.filter_sublist.trans i1.out_sub, hu.trans i1.unf, i1.succ, i1.failed, i1.times⟩
          · simp only [PbsDisk.withFiles]
            rw [i1.files, List.filter_map]; rfl
          · intro s hs
            simp only [List.mem_filter, decide_eq_true_eq] at hs
            exact (hall s hs.1).resolve_right hs.2
      by_cases hemp : w1.pool.pbsIds = []
      · have hqs : w1.pool.qstat qa = (w1.pool, .ok ([], [])) := by simp [PbsPool.qstat, hemp]
        rw [hqs]
        have hout : out ++ o1.submitted = [] := by
          rw [List.eq_nil_iff_forall_not_mem]
          intro s hs
          have := i1.ids s hs
          rw [hemp] at this
          simp at this
        right
        have hrun : ∀ fin, ∃ a, (w1.getResultFiles fin []) = ({ w1 with disk := w1.disk.withFiles (w1.disk.pbsFiles.filter fun e => e.2 ∉ fin) }, { answer := some a }) ∧
            AnswerOf w1.disk ((out ++ o1.submitted).filter fun s => s.pbsId ∈ fin) a ∧ a.nRunning = (0 : Nat) := by
          intro fin
          obtain ⟨a, e1, e2, e3, e4⟩ := getResultFiles_spec i1 hn ij1.files fin []
          exact ⟨a, by rw [← e1, ← e2], e3, e4⟩
        obtain ⟨a, e1, e3, e4⟩ := hrun []
        refine ⟨a, ?_, ?_, ?_, ?_, ?_⟩
        · show (({ w1 with pool := w1.pool } : PbsWorld S R).getResultFiles [] []).2.answer = some a
          rw [e1]
        · show (({ w1 with pool := w1.pool } : PbsWorld S R).getResultFiles [] []).2.err = none
          rw [e1]
        · show CInv (({ w1 with pool := w1.pool } : PbsWorld S R).getResultFiles [] []).1 _ _ _
          rw [e1, hout]
          refine ⟨?_, by simp, i1.sub, by simp, i1.unf, i1.succ, i1.failed, i1.times⟩
          simp only [PbsDisk.withFiles, i1.files, hout]; rfl
        · rw [hout] at e3 ⊢; exact e3
        · left; exact ⟨hemp, by simpa using e4⟩
      · cases qa with
        | fail =>
          by_cases hten : w1.pool.qstatFailed + 1 > 10
          · have hqs : w1.pool.qstat .fail = ({ w1.pool with qstatFailed := w1.pool.qstatFailed + 1 }, .error .qstat) := by
              simp only [PbsPool.qstat, if_neg hemp, if_pos hten]
            rw [hqs]
            left
            refine ⟨hans, Or.inr rfl, ?_⟩
            exact ⟨i1.files, i1.ids, i1.sub, i1.out_sub, i1.unf, i1.succ, i1.failed, i1.times⟩
          · have hqs : w1.pool.qstat .fail = ({ w1.pool with qstatFailed := w1.pool.qstatFailed + 1 }, .ok ([], w1.pool.pbsIds)) := by
              simp only [PbsPool.qstat, if_neg hemp, if_neg hten]
            rw [hqs]
            right
            obtain ⟨a, e1, e2, e3, e4⟩ := hstale { w1.pool with qstatFailed := w1.pool.qstatFailed + 1 } (List.Sublist.refl _) rfl
              (fun s hs => Or.inl (i1.ids s hs)) w1.pool.pbsIds
            simp only [QstatAns.finished] at e1 e2 e3 e4 ⊢
            rw [e1]
            refine ⟨a, rfl, rfl, e4, e2, Or.inr ?_⟩
            have hscan : ∀ ps : List Nat, (qstatScan [] ps).1 = ps := by
              intro ps
              induction ps with
              | nil => rfl
              | cons p ps ih =>
                unfold qstatScan
                rw [if_pos (List.not_mem_nil)]
                exact congrArg (p :: ·) ih
            rw [hscan]; exact e3
        | ok fin =>
          have hqs : w1.pool.qstat (.ok fin) = ({ w1.pool with qstatFailed := 0, pbsIds := (qstatScan fin w1.pool.pbsIds).2 },
              .ok (fin, (qstatScan fin w1.pool.pbsIds).1)) := by
            simp only [PbsPool.qstat, if_neg hemp]
          rw [hqs]
          right
          obtain ⟨s1, s2, _⟩ := qstatScan_spec fin _ w1.pool.pbsIds le_rfl
          obtain ⟨a, e1, e2, e3, e4⟩ := hstale { w1.pool with qstatFailed := 0, pbsIds := (qstatScan fin w1.pool.pbsIds).2 } s1 rfl
              (fun s hs => by
                by_cases hf : s.pbsId ∈ fin
                · exact Or.inr hf
                · exact Or.inl (s2 _ (i1.ids s hs) hf)) (qstatScan fin w1.pool.pbsIds).1
          simp only [QstatAns.finished] at e1 e2 e3 e4 ⊢
          rw [e1]
          exact ⟨a, rfl, rfl, e4, e2, Or.inr e3⟩

theorem appendsOf_append (j : Nat) (a b : List (PbsOp S R)) : appendsOf j (a ++ b) = appendsOf j a ++ appendsOf j b := by
  rw [appendsOf, appendsOf, appendsOf, ← List.filterMap_append]

theorem CInv.of_eq {w w' : PbsWorld S R} {subs out : List Submitted} {apps : Nat → List (JobAppend R)} (i : CInv w subs out apps)
    (h1 : w'.disk.pbsFiles = w.disk.pbsFiles) (h2 : w'.pool.pbsIds = w.pool.pbsIds) (h3 : w'.pool.unfinished = w.pool.unfinished)
    (h4 : w'.disk.succ = w.disk.succ) (h5 : w'.disk.failed = w.disk.failed) (h6 : w'.disk.times = w.disk.times) :
    CInv w' subs out apps :=
  ⟨by rw [h1]; exact i.files, by rw [h2]; exact i.ids, by rw [h2]; exact i.sub, i.out_sub, by rw [h3]; exact i.unf,
   by rw [h4]; exact i.succ, by rw [h5]; exact i.failed, by rw [h6]; exact i.times⟩

theorem step_cinv {jc0 : Nat} (seedOf : SampleId → Nat) {w : PbsWorld S R} {subs out : List Submitted}
    {apps : Nat → List (JobAppend R)} {h : List Trip}
    (i : CInv w subs out apps) (ij : JobInv jc0 w subs h) (o : PbsOp S R) (hq : ∀ q ∈ o.qsubAns?, q.plain)
    (hr : ∀ d l, o ≠ .restart d l) (hp : ∀ ids, o ≠ .permanent ids)
    (hn : ((subs ++ (w.step seedOf o).2.submitted).map (·.pbsId)).Nodup) :
    CInv (w.step seedOf o).1 (subs ++ (w.step seedOf o).2.submitted)
      ((out ++ (w.step seedOf o).2.submitted).filter fun s => s.pbsId ∉ reportedBy (o, (w.step seedOf o).2))
      (fun j => apps j ++ appendsOf j [o]) ∧
    (∀ a, (w.step seedOf o).2.answer = some a →
      ∃ q qa, o = .get q qa ∧
      AnswerOf (w.execute q).1.disk ((out ++ (w.step seedOf o).2.submitted).filter fun s => s.pbsId ∈ reportedBy (o, (w.step seedOf o).2)) a) := by
  have hnil : ∀ (q : PbsOp S R), (∀ j a, q ≠ .job j a) → (fun j => apps j ++ appendsOf j [q]) = apps := by
    intro q hq
    funext j
    have : appendsOf j [q] = [] := by
      cases q with
      | job k a => exact absurd rfl (hq k a)
      | _ => rfl
    rw [this, List.append_nil]
  cases o with
  | schedule id l size sim q =>
    rw [hnil _ (by simp)]
    simp only [PbsWorld.step, PbsWorld.schedule] at hn ⊢
    have i' : CInv ({ pool := { w.pool with
        scheduled := w.pool.scheduled ++ [(l, id, seedOf id)]
        nInJob := w.pool.nInJob + 1
        weight := w.pool.weight + size }, disk := { w.disk with sims := if (Dict.get? w.disk.sims l).isSome then w.disk.sims else Dict.set w.disk.sims l sim } } : PbsWorld S R) subs out apps :=
      i.of_eq rfl rfl rfl rfl rfl rfl
    split
    · rename_i hc
      rw [if_pos hc] at hn
      obtain ⟨k1, k2⟩ := execute_cinv i' q (hq q (by simp [PbsOp.qsubAns?])) hn
      refine ⟨by simpa [reportedBy] using k1, ?_⟩
      rw [k2]; simp
    · refine ⟨?_, by simp⟩
      simpa [reportedBy] using i'
  | execute q =>
    rw [hnil _ (by simp)]
    simp only [PbsWorld.step] at hn ⊢
    obtain ⟨k1, k2⟩ := execute_cinv i q (hq q (by simp [PbsOp.qsubAns?])) hn
    refine ⟨by simpa [reportedBy] using k1, ?_⟩
    rw [k2]; simp
  | get q qa =>
    rw [hnil _ (by simp)]
    rcases getFinished_spec i ij q (hq q (by simp [PbsOp.qsubAns?])) qa hn with ⟨k1, _, k3⟩ | ⟨a, k1, _, k3, k4, _⟩
    · have : reportedBy ((.get q qa : PbsOp S R), (w.step seedOf (.get q qa)).2) = [] := by simp [reportedBy, PbsWorld.step, k1]
      rw [this]
      refine ⟨by simpa [PbsWorld.step] using k3, ?_⟩
      intro a ha
      have ha' : (w.getFinished q qa).2.answer = some a := ha
      rw [k1] at ha'; simp at ha'
    · have : reportedBy ((.get q qa : PbsOp S R), (w.step seedOf (.get q qa)).2) = qa.finished := by simp [reportedBy, PbsWorld.step, k1]
      rw [this]
      refine ⟨k3, ?_⟩
      intro a' ha
      have ha' : (w.getFinished q qa).2.answer = some a' := ha
      rw [k1, Option.some.injEq] at ha'
      subst ha'
      exact ⟨q, qa, rfl, k4⟩
  | permanent ids => exact absurd rfl (hp ids)
  | job j a =>
    have hrep : reportedBy ((.job j a : PbsOp S R), (w.step seedOf (.job j a)).2) = [] := rfl
    rw [hrep]
    refine ⟨?_, by simp [PbsWorld.step]⟩
    simp only [PbsWorld.step, List.append_nil]
    obtain ⟨r1, r2, r3, r4, r5⟩ := apply_rest j w.disk a
    have happ : ∀ k, appendsOf k [(.job j a : PbsOp S R)] = if j = k then [a] else [] := by
      intro k
      by_cases hk : j = k <;> simp [appendsOf, hk]
    simp only [List.not_mem_nil, not_false_eq_true, decide_true, List.filter_true]
    refine ⟨by simp only [r5]; exact i.files, i.ids, i.sub, i.out_sub, i.unf, ?_, ?_, ?_⟩
    · intro k
      rw [happ]
      by_cases hk : j = k
      · subst hk; simp only [if_true, List.filterMap_append]; rw [(apply_self j w.disk a).1, i.succ]
        cases a <;> simp [succOf]
      · rw [if_neg hk, List.append_nil, (apply_other k j hk w.disk a).1]; exact i.succ k
    · intro k
      rw [happ]
      by_cases hk : j = k
      · subst hk; simp only [if_true, List.filterMap_append]; rw [(apply_self j w.disk a).2.1, i.failed]
        cases a <;> simp [failedOf]
      · rw [if_neg hk, List.append_nil, (apply_other k j hk w.disk a).2.1]; exact i.failed k
    · intro k
      rw [happ]
      by_cases hk : j = k
      · subst hk; simp only [if_true, List.flatMap_append]; rw [(apply_self j w.disk a).2.2, i.times]
        simp
      · rw [if_neg hk, List.append_nil, (apply_other k j hk w.disk a).2.2]; exact i.times k
  | restart d l => exact absurd rfl (hr d l)

theorem run_length (seedOf : SampleId → Nat) : ∀ (ops : List (PbsOp S R)) (w : PbsWorld S R),
    (w.run seedOf ops).2.length = ops.length := by
  intro ops
  induction ops with
  | nil => intro w; rfl
  | cons o ops ih => intro w; simp [PbsWorld.run, ih]

theorem run_concat (seedOf : SampleId → Nat) (ops : List (PbsOp S R)) (o : PbsOp S R) (w : PbsWorld S R) :
    w.run seedOf (ops ++ [o]) = (((w.run seedOf ops).1.step seedOf o).1, (w.run seedOf ops).2 ++ [((w.run seedOf ops).1.step seedOf o).2]) := by
  rw [run_append_pbs]; rfl

theorem events_concat (seedOf : SampleId → Nat) (w : PbsWorld S R) (ops : List (PbsOp S R)) (o : PbsOp S R) :
    eventsOf seedOf w (ops ++ [o]) = eventsOf seedOf w ops ++ [(o, ((w.run seedOf ops).1.step seedOf o).2)] := by
  unfold eventsOf
  rw [run_concat, List.zip_append (by rw [run_length])]
  rfl

theorem outstanding_concat (evs : List (PbsOp S R × PbsOut R)) (e : PbsOp S R × PbsOut R) :
    outstanding (evs ++ [e]) = (outstanding evs ++ e.2.submitted).filter fun s => s.pbsId ∉ reportedBy e := by
  simp [outstanding, List.foldl_append]

theorem submissions_concat (outs : List (PbsOut R)) (o : PbsOut R) : submissions (outs ++ [o]) = submissions outs ++ o.submitted := by
  simp [submissions, List.flatMap_append]

theorem run_cinv (seedOf : SampleId → Nat) (ops : List (PbsOp S R)) :
    let w0 := PbsWorld.create false [] ({} : PbsDisk S R)
    PlainQsub ops → NoRestart ops → NoPermanent ops →
    ((submissions (w0.run seedOf ops).2).map (·.pbsId)).Nodup →
    CInv (w0.run seedOf ops).1 (submissions (w0.run seedOf ops).2) (outstanding (eventsOf seedOf w0 ops)) (fun j => appendsOf j ops) := by
  intro w0
  induction ops using List.reverseRecOn with
  | nil =>
    intro _ _ _ _
    exact ⟨rfl, by simp [eventsOf, outstanding, PbsWorld.run], by simp [PbsWorld.run, w0, PbsWorld.create, submissions], by simp [eventsOf, outstanding],
      rfl, fun _ => rfl, fun _ => rfl, fun _ => rfl⟩
  | append_singleton ops o ih =>
    intro hq hr hp hn
    have hq' : PlainQsub ops := fun o ho => hq o (by simp [ho])
    have hr' : NoRestart ops := fun d l hm => hr d l (by simp [hm])
    rw [run_concat, submissions_concat] at hn
    have hn' : ((submissions (w0.run seedOf ops).2).map (·.pbsId)).Nodup := by
      rw [List.map_append] at hn
      exact (List.nodup_append.1 hn).1
    have i := ih hq' hr' (fun ids hm => hp ids (by simp [hm])) hn'
    have ij := run_inv seedOf ops _ [] [] (create_jobInv false [] ({} : PbsDisk S R)) hq' hr'
    rw [List.nil_append, List.nil_append] at ij
    have := (step_cinv seedOf i ij o (hq o (by simp)) (fun d l e => hr d l (by simp [e])) (fun ids e => hp ids (by simp [e])) hn).1
    rw [run_concat, submissions_concat, events_concat, outstanding_concat]
    have e : (fun j => appendsOf j (ops ++ [o])) = fun j => appendsOf j ops ++ appendsOf j [o] := by
      funext j; exact appendsOf_append j ops [o]
    rw [e]
    exact this

theorem mem_recIds (as : List (JobAppend R)) (l : Nat) (x : SampleId) :
    x ∈ recIds as l ↔ (l, x) ∈ (writtenRecords as).map fun r => (r.1, r.2.1) := by
  rw [recIds, List.mem_filterMap, List.mem_map]
  constructor
  · rintro ⟨⟨k, id, o⟩, hm, he⟩
    simp only at he
    split at he
    · rename_i h
      simp only [Option.some.injEq] at he
      subst h; subst he
      exact ⟨_, hm, rfl⟩
    · simp at he
  · rintro ⟨⟨k, id, o⟩, hm, he⟩
    simp only [Prod.mk.injEq] at he
    obtain ⟨rfl, rfl⟩ := he
    exact ⟨_, hm, by simp⟩

theorem jobRes_written (d : PbsDisk S R) (j : Nat) (ts : List Trip) (as : List (JobAppend R))
    (hs : Dict.get? d.scheduled j = some ts)
    (h1 : (Dict.get? d.succ j).getD [] = as.filterMap succOf)
    (h2 : (Dict.get? d.failed j).getD [] = as.filterMap failedOf)
    (h3 : (Dict.get? d.times j).getD [] = as.flatMap timesOf)
    (hn : ∀ l, (idsAt ts l).Nodup) (l : Nat) :
    atLevel (jobRes d j).succ l = writtenSucc as l ∧
    atLevel (jobRes d j).failed l = writtenFailed as l ++ (missingIds ts as l).map (fun id => (id, jobFailed)) ∧
    (Dict.get? (jobRes d j).times l).getD [] = writtenTimes as l := by
  simp only [jobRes, readResults, hs, h1, h2, h3]
  refine ⟨?_, ?_, ?_⟩
  · rw [atLevel_of_nodup _ (group_nodup _), group_get, writtenSucc_eq]
  · rw [atLevel_of_nodup _ (addMissing_nodup _ _ _ (group_nodup _)), addMissing_get _ _ _ _ (hn l), group_get, group_get,
      writtenSucc_eq, writtenFailed_eq]
    congr 2
    apply List.filter_congr
    intro x _
    have := (succ_failed_perm as l).mem_iff (a := x)
    simp only [List.mem_append] at this
    rw [decide_eq_decide, ← mem_recIds, ← this]
    tauto
  · rw [group_get, writtenTimes_eq]

theorem idsAt_nodup {h : List Trip} (hn : (h.map (·.2.1)).Nodup) (l : Nat) : (idsAt h l).Nodup := by
  have : (idsAt h l).Sublist (h.map (·.2.1)) := by
    induction h with
    | nil => exact List.Sublist.refl _
    | cons t h ih =>
      have ih' := ih (List.nodup_cons.1 hn).2
      by_cases ht : t.1 = l
      · simp only [idsAt, List.filterMap_cons, ht, if_true, List.map_cons] at ih' ⊢; exact ih'.cons₂ _
      · simp only [idsAt, List.filterMap_cons, ht, if_false, List.map_cons] at ih' ⊢; exact ih'.cons _
  exact hn.sublist this

theorem idsAt_append (a b : List Trip) (l : Nat) : idsAt (a ++ b) l = idsAt a l ++ idsAt b l := by
  rw [idsAt, idsAt, idsAt, ← List.filterMap_append]

theorem samples_nodup {jc0 : Nat} {w : PbsWorld S R} {subs : List Submitted} {h : List Trip} (ij : JobInv jc0 w subs h)
    (hn : (h.map (·.2.1)).Nodup) (s : Submitted) (hs : s ∈ subs) (l : Nat) : (idsAt s.samples l).Nodup := by
  apply idsAt_nodup
  have h1 : s.samples.Sublist (subs.flatMap (·.samples)) := by
    rw [List.flatMap]
    exact List.sublist_flatten_of_mem (List.mem_map.2 ⟨s, hs, rfl⟩)
  have h2 : s.samples.Sublist h := by
    rw [← ij.all]; exact h1.trans (List.sublist_append_left _ _)
  exact hn.sublist (h2.map _)

theorem filter_perm_append {α : Type} (p : α → Prop) [DecidablePred p] (l : List α) :
    (l.filter (fun x => p x) ++ l.filter fun x => ¬ p x).Perm l := by
  have := List.filter_append_perm (fun x => decide (p x)) l
  simpa using this

end MLMC
