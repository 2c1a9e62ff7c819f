import Verif.Spec.PbsTorn
import Verif.Proofs.PbsTorn
/-!
C136: A job that is killed while it appends a result leaves a file that cannot be parsed.  Polls that do not read this file are as if it were
complete.  A poll in which the job is reported as finished raises, the results of jobs read before it in the same poll are never returned by any
later poll, and after a restart no poll returns anything as long as a sample of the damaged job is unfinished.
-/
namespace MLMC
variable {S R : Type}

/-- C136: without a killed job nothing changes: histories are those of the pool of C26-C33. -/
theorem C136_no_damage (seedOf : SampleId → Nat) : ∀ (ops : List (PbsOp S R)) (w : PbsWorld S R),
    (TornWorld.run seedOf ⟨w, []⟩ (ops.map .op)).1 = ⟨(w.run seedOf ops).1, []⟩ ∧
    (TornWorld.run seedOf ⟨w, []⟩ (ops.map .op)).2 = (w.run seedOf ops).2 := by
  have hg : ∀ (w : PbsWorld S R) q a, w.getFinishedT [] q a = w.getFinished q a := by
    intro w q a
    have hr : ∀ (w : PbsWorld S R) fin unf, w.getResultFilesT [] fin unf = w.getResultFiles fin unf := by
      intro w fin unf
      unfold PbsWorld.getResultFilesT PbsWorld.getResultFiles
      rw [collectT_eq fin w.disk {} (by simp)]
      simp only [fun (d : PbsDisk S R) (u : List SampleId) (a : Acc R) => collectUT_eq (torn := []) u d u [] a (by simp)]
      rfl
    unfold PbsWorld.getFinishedT PbsWorld.getFinished
    simp only [hr]
    rfl
  have hs : ∀ (w : PbsWorld S R) o, (TornWorld.mk w []).step seedOf (.op o) = (⟨(w.step seedOf o).1, []⟩, (w.step seedOf o).2) := by
    intro w o
    cases o with
    | get q a => simp only [TornWorld.step, PbsWorld.step, hg]
    | restart d l => cases d <;> rfl
    | _ => rfl
  intro ops
  induction ops with
  | nil => intro w; exact ⟨rfl, rfl⟩
  | cons o ops ih =>
    intro w
    obtain ⟨i1, i2⟩ := ih (w.step seedOf o).1
    simp only [List.map_cons, TornWorld.run, PbsWorld.run, hs]
    exact ⟨i1, by rw [i2]⟩

/-- Where a sample is after `execute`. -/
theorem execute_where (w : PbsWorld S R) (q : QsubAns) (id : SampleId) (k : Nat) (h : jobOfSample (w.execute q).1.disk id = .ok k) :
    jobOfSample w.disk id = .ok k ∨ k = w.pool.jobCount := by
  have key : ∀ (n : Nat) (ts : List Trip) (m : Dict SampleId Nat), Dict.get? (ts.foldl (fun d t => Dict.set d t.2.1 n) m) id = some k →
      Dict.get? m id = some k ∨ k = n := by
    intro n ts
    induction ts with
    | nil => intro m h; exact .inl h
    | cons t ts ih =>
      intro m h
      rw [List.foldl_cons] at h
      rcases ih _ h with h | h
      · by_cases e : id = t.2.1
        · subst e; rw [Dict.get?_set_self] at h; cases h; exact .inr rfl
        · rw [Dict.get?_set_ne _ _ e] at h; exact .inl h
      · exact .inr h
  have save : ∀ (d' : PbsDisk S R), d'.jobOf = saveJobOf w.disk.jobOf w.pool.jobCount w.pool.scheduled → jobOfSample d' id = .ok k →
      jobOfSample w.disk id = .ok k ∨ k = w.pool.jobCount := by
    intro d' e h
    unfold jobOfSample at h
    rw [e] at h
    simp only [saveJobOf] at h
    have h' : Dict.get? (w.pool.scheduled.foldl (fun d t => Dict.set d t.2.1 w.pool.jobCount) (w.disk.jobOf.getD [])) id = some k := by
      split at h
      · cases h
      · next hh => rw [hh]; cases h; rfl
    rcases key _ _ _ h' with h1 | h1
    · left
      unfold jobOfSample
      cases hj : w.disk.jobOf with
      | none => rw [hj] at h1; simp [Dict.get?] at h1
      | some m => rw [hj] at h1; simp only [Option.getD_some] at h1; simp only [h1]
    · exact .inr h1
  unfold PbsWorld.execute at h
  by_cases he : w.pool.scheduled = []
  · rw [if_pos he] at h; exact .inl h
  · rw [if_neg he] at h
    cases q <;> exact save _ rfl h

theorem execute_files (w : PbsWorld S R) (q : QsubAns) (k pid : Nat) (h : (k, pid) ∈ (w.execute q).1.disk.pbsFiles) :
    (k, pid) ∈ w.disk.pbsFiles ∨ k = w.pool.jobCount ∧ q = .ok pid := by
  unfold PbsWorld.execute at h
  by_cases he : w.pool.scheduled = []
  · rw [if_pos he] at h; exact .inl h
  · rw [if_neg he] at h
    cases q with
    | fail => exact .inl h
    | okNoFile p => exact .inl h
    | ok p =>
      simp only at h
      split at h
      · exact .inl h
      · rcases List.mem_append.1 h with h | h
        · exact .inl h
        · rw [List.mem_singleton] at h; cases h; exact .inr ⟨rfl, rfl⟩

theorem execute_files_mono (w : PbsWorld S R) (q : QsubAns) (e : Nat × Nat) (h : e ∈ w.disk.pbsFiles) : e ∈ (w.execute q).1.disk.pbsFiles := by
  unfold PbsWorld.execute
  by_cases he : w.pool.scheduled = []
  · rw [if_pos he]; exact h
  · rw [if_neg he]
    cases q with
    | fail => exact h
    | okNoFile p => exact h
    | ok p => simp only; split <;> simp_all

theorem execute_answer (w : PbsWorld S R) (q : QsubAns) : (w.execute q).2.answer = none := by
  unfold PbsWorld.execute
  split
  · rfl
  · cases q <;> rfl

theorem execute_ids (w : PbsWorld S R) (q : QsubAns) (h : w.pool.pbsIds ≠ []) : (w.execute q).1.pool.pbsIds ≠ [] := by
  unfold PbsWorld.execute
  split
  · exact h
  · cases q <;> simp [h]

/-- **C136, first part**: a poll that does not come to a damaged file is as if all files were complete: no damaged job is reported as finished
while it has its marker file, and no sample the pool was asked to recover is in a damaged job. -/
theorem C136_undamaged_poll_partial (seedOf : SampleId → Nat) (t : TornWorld S R) (q : QsubAns) (a : QstatAns)
    (hlt : ∀ k ∈ t.torn, k < t.world.pool.jobCount)
    (hfin : ∀ fin, a = .ok fin → ∀ p ∈ fin, ∀ k ∈ t.torn, (k, p) ∉ t.world.disk.pbsFiles)
    (hun : ∀ id ∈ t.world.pool.unfinished, ∀ k ∈ t.torn, jobOfSample t.world.disk id ≠ .ok k) :
    t.step seedOf (.op (.get q a)) = (⟨(t.world.step seedOf (.get q a)).1, t.torn⟩, (t.world.step seedOf (.get q a)).2) := by
  have hg : t.world.getFinishedT t.torn q a = t.world.getFinished q a := by
    unfold PbsWorld.getFinishedT PbsWorld.getFinished
    have hu : (t.world.execute q).1.pool.unfinished = t.world.pool.unfinished := by
      unfold PbsWorld.execute; split
      · rfl
      · cases q <;> rfl
    have hf := execute_files t.world q
    have hw := execute_where t.world q
    rcases hx : t.world.execute q with ⟨w1, o1⟩
    rw [hx] at hf hw hu
    simp only at hf hw hu ⊢
    cases o1.err with
    | some e => rfl
    | none =>
      simp only
      have hpu : (w1.pool.qstat a).1.unfinished = w1.pool.unfinished := (qstat_keeps _ _).2.1
      have hpf : ∀ fin unf, (w1.pool.qstat a).2 = .ok (fin, unf) → fin = [] ∨ a = .ok fin := by
        intro fin unf h
        unfold PbsPool.qstat at h
        split at h
        · cases h; exact .inl rfl
        · cases a with
          | fail =>
            simp only at h
            split at h
            · cases h
            · cases h; exact .inl rfl
          | ok f => simp only at h; cases h; exact .inr rfl
      rcases hq : w1.pool.qstat a with ⟨p, (e | ⟨fin, unf⟩)⟩
      · rfl
      · rw [hq] at hpu hpf
        simp only
        have e1 : PbsWorld.getResultFilesT t.torn { w1 with pool := p } fin unf = PbsWorld.getResultFiles { w1 with pool := p } fin unf := by
          unfold PbsWorld.getResultFilesT PbsWorld.getResultFiles
          have hc : collectFinishedT t.torn fin w1.disk {} = collectFinished fin w1.disk {} := by
            refine collectT_eq _ _ _ fun p' hp' k hk hm => ?_
            rcases hpf fin unf rfl with h | h
            · rw [h] at hp'; simp at hp'
            · rcases hf k p' hm with h1 | ⟨h1, -⟩
              · exact hfin fin h p' hp' k hk h1
              · exact absurd (hlt k hk) (by omega)
          simp only [hc]
          cases nRunningOf w1.disk unf with
          | error e => rfl
          | ok n =>
            obtain ⟨⟨fs, hcore⟩, -⟩ := collectFinished_core fin w1.disk ({} : Acc R)
            rcases hcf : collectFinished fin w1.disk ({} : Acc R) with ⟨d, (e | b)⟩
            · rfl
            · simp only
              rw [hcf] at hcore
              simp only at hcore
              split
              · rfl
              · have := collectUT_eq (torn := t.torn) p.unfinished d p.unfinished [] b ?_
                · rw [this]; rfl
                intro id hid k hk h
                have hj : jobOfSample w1.disk id = .ok k := by rw [hcore] at h; exact h
                rcases hw id k hj with h1 | h1
                · exact hun id (by rw [← hu, ← hpu]; exact hid) k hk h1
                · exact absurd (hlt k hk) (by omega)
        rw [e1]
  simp only [TornWorld.step, PbsWorld.step, hg]

/-- **C136, second part**: a poll in which the damaged job `j` is reported as finished raises. -/
theorem C136_damaged_poll_raises (seedOf : SampleId → Nat) (t : TornWorld S R) (q : QsubAns) (fin : List Nat) (j pid : Nat) (hj : j ∈ t.torn)
    (hm : (j, pid) ∈ t.world.disk.pbsFiles) (hu : ∀ k, (k, pid) ∈ t.world.disk.pbsFiles → k = j) (hq : q ≠ .ok pid) (hp : pid ∈ fin)
    (hids : t.world.pool.pbsIds ≠ []) :
    (t.step seedOf (.op (.get q (.ok fin)))).2.answer = none ∧ (t.step seedOf (.op (.get q (.ok fin)))).2.err ≠ none := by
  simp only [TornWorld.step]
  unfold PbsWorld.getFinishedT
  have hf := execute_files t.world q
  have hf' := execute_files_mono t.world q (j, pid) hm
  have ha := execute_answer t.world q
  have hi := execute_ids t.world q hids
  rcases hx : t.world.execute q with ⟨w1, o1⟩
  rw [hx] at hf hf' ha hi
  simp only at hf hf' ha hi ⊢
  cases o1.err with
  | some e => exact ⟨ha, by simp⟩
  | none =>
    simp only [PbsPool.qstat, if_neg hi]
    obtain ⟨e, he⟩ := collectT_raises hj fin w1.disk {} hp hf' (fun k hk => by
      rcases hf k pid hk with h | ⟨-, h⟩
      · exact hu k h
      · exact absurd h hq)
    unfold PbsWorld.getResultFilesT
    simp only
    cases nRunningOf w1.disk (qstatScan fin w1.pool.pbsIds).1 with
    | error e => exact ⟨rfl, by simp⟩
    | ok n =>
      simp only
      rcases hc : collectFinishedT t.torn fin w1.disk ({} : Acc R) with ⟨d, (e' | b)⟩
      · exact ⟨rfl, by simp⟩
      · rw [hc] at he; cases he

/-- The sample is in a job without marker file. -/
structure LostInv (id : SampleId) (j : Nat) (t : TornWorld S R) : Prop where
  only : t.world.disk.OnlyIn id j
  files : ∀ pid, (j, pid) ∉ t.world.disk.pbsFiles
  sched : ∀ x ∈ t.world.pool.scheduled, x.2.1 ≠ id
  count : j < t.world.pool.jobCount
  unf : t.world.pool.unfinished = []

theorem lost_step (seedOf : SampleId → Nat) {id : SampleId} {j : Nat} {t : TornWorld S R} (h : LostInv id j t) (o : TornOp S R) (ho : o.Later id j) :
    LostInv id j (t.step seedOf o).1 ∧ ∀ a, (t.step seedOf o).2.answer = some a → ¬ a.About id := by
  have hex : ∀ (w : PbsWorld S R), w.disk.OnlyIn id j → (∀ pid, (j, pid) ∉ w.disk.pbsFiles) → (∀ x ∈ w.pool.scheduled, x.2.1 ≠ id) →
      j < w.pool.jobCount → w.pool.unfinished = [] → ∀ q torn, LostInv id j ⟨(w.execute q).1, torn⟩ := by
    intro w h1 h2 h3 h4 h5 q torn
    obtain ⟨k1, k2, k3, k4, k5, -⟩ := execute_keeps h1 h3 q
    refine ⟨k1, fun pid hm => ?_, k2, lt_of_lt_of_le h4 k4, k3.trans h5⟩
    rcases k5 j pid hm with h | h
    · exact h2 pid h
    · exact absurd h4 (by omega)
  cases o with
  | tear k => exact ⟨⟨h.only, h.files, h.sched, h.count, h.unf⟩, by intro a ha; cases ha⟩
  | op o =>
    cases o with
    | permanent ids => exact False.elim ho
    | restart d l => exact False.elim ho
    | job k a =>
      refine ⟨⟨job_keeps h.only k a ho, ?_, h.sched, h.count, h.unf⟩, by intro a ha; cases ha⟩
      intro pid hm
      simp only [TornWorld.step, PbsWorld.step, (apply_rest k t.world.disk a).2.2.2.2] at hm
      exact h.files pid hm
    | execute q =>
      exact ⟨hex _ h.only h.files h.sched h.count h.unf q t.torn, by
        intro a ha
        have := execute_answer t.world q
        simp only [TornWorld.step, PbsWorld.step] at ha
        rw [this] at ha; cases ha⟩
    | schedule i l size sim q =>
      have hi : i ≠ id := ho
      simp only [TornWorld.step, PbsWorld.step, PbsWorld.schedule]
      have h3 : ∀ x ∈ t.world.pool.scheduled ++ [(l, i, seedOf i)], x.2.1 ≠ id := by
        intro x hx
        rcases List.mem_append.1 hx with hx | hx
        · exact h.sched x hx
        · rw [List.mem_singleton] at hx; subst hx; exact hi
      split
      · refine ⟨hex _ ?_ ?_ ?_ ?_ ?_ q t.torn, ?_⟩
        · exact ⟨h.only.scheduled, h.only.succ, h.only.failed⟩
        · exact h.files
        · exact h3
        · exact h.count
        · exact h.unf
        intro a ha
        rw [execute_answer] at ha; cases ha
      · exact ⟨⟨⟨h.only.scheduled, h.only.succ, h.only.failed⟩, h.files, h3, h.count, h.unf⟩, by intro a ha; cases ha⟩
    | get q a =>
      simp only [TornWorld.step]
      unfold PbsWorld.getFinishedT
      have hE := hex t.world h.only h.files h.sched h.count h.unf q t.torn
      have hA := execute_answer t.world q
      rcases hx : t.world.execute q with ⟨w1, o1⟩
      rw [hx] at hE hA
      simp only at hE hA ⊢
      cases o1.err with
      | some e => exact ⟨hE, by intro b hb; simp only [hA] at hb; cases hb⟩
      | none =>
        simp only
        obtain ⟨q1, q2, q3⟩ := qstat_keeps w1.pool a
        rcases hq : w1.pool.qstat a with ⟨p, (e | ⟨fin, unf⟩)⟩
        · rw [hq] at q1 q2 q3
          simp only at q1 q2 q3 ⊢
          exact ⟨⟨hE.only, hE.files, by rw [q1]; exact hE.sched, by rw [q3]; exact hE.count, by rw [q2]; exact hE.unf⟩, by
            intro b hb; rw [hA] at hb; cases hb⟩
        · rw [hq] at q1 q2 q3
          simp only at q1 q2 q3 ⊢
          obtain ⟨⟨fs, f1, f2⟩, f3, f4, f5⟩ := filesT_keeps t.torn { w1 with pool := p } fin unf
          have hu : p.unfinished = [] := q2.trans hE.unf
          have hN : ∀ b, (PbsWorld.getResultFilesT t.torn { w1 with pool := p } fin unf).2.answer = some b → ¬ b.About id := by
            intro b hb
            unfold PbsWorld.getResultFilesT at hb
            simp only [hu] at hb
            cases hn : nRunningOf w1.disk unf with
            | error e => rw [hn] at hb; cases hb
            | ok n =>
              rw [hn] at hb
              simp only at hb
              have := fun c => collectT_notIn t.torn fin w1.disk ({} : Acc R) c hE.only hE.files (by intro e he; simp at he) (by intro e he; simp at he)
              rcases hc : collectFinishedT t.torn fin w1.disk ({} : Acc R) with ⟨d, (e | c)⟩
              · rw [hc] at hb; cases hb
              · rw [hc] at hb this
                simp only [if_true, Option.some.injEq] at hb
                obtain ⟨n1, n2⟩ := this c rfl
                subst hb
                rintro (⟨e, he, x, hx, hid⟩ | ⟨e, he, x, hx, hid⟩)
                · exact n1 e he x hx hid
                · exact n2 e he x hx hid
          refine ⟨⟨?_, ?_, ?_, ?_, ?_⟩, hN⟩
          · simp only [f1]; exact OnlyIn.withFiles hE.only fs
          · intro pid hm
            simp only [f1] at hm
            exact hE.files pid (f2 _ hm)
          · simp only [f3, q1]; exact hE.sched
          · simp only [f4, q3]; exact hE.count
          · rcases f5 with f5 | f5
            · simp only [f5, hu]
            · exact f5.1

theorem lost_run (seedOf : SampleId → Nat) {id : SampleId} {j : Nat} : ∀ (ops : List (TornOp S R)) {t : TornWorld S R}, LostInv id j t →
    (∀ o ∈ ops, o.Later id j) → ∀ out ∈ (t.run seedOf ops).2, ∀ a, out.answer = some a → ¬ a.About id := by
  intro ops
  induction ops with
  | nil => intro t _ _ out hm; simp [TornWorld.run] at hm
  | cons o ops ih =>
    intro t h ho out hm
    obtain ⟨s1, s2⟩ := lost_step seedOf h o (ho o List.mem_cons_self)
    simp only [TornWorld.run] at hm
    rcases List.mem_cons.1 hm with rfl | hm
    · exact s2
    · exact ih s1 (fun o' h' => ho o' (List.mem_cons_of_mem _ h')) out hm

/-- **C136, third part**: the other results of such a poll are lost.  Job `j` has the sample `id`, is complete and reported before the damaged
job `j'` in the same poll, after complete jobs only.  The poll returns nothing, and no later poll of the program ever returns a result or an
error message of `id`, whatever the program and the jobs do. -/
theorem C136_results_lost (seedOf : SampleId → Nat) (t : TornWorld S R) (q : QsubAns) (pre mid post : List Nat) (j pid j' pid' : Nat)
    (id : SampleId) (hj' : j' ∈ t.torn)
    (hm' : (j', pid') ∈ t.world.disk.pbsFiles) (hu' : ∀ k, (k, pid') ∈ t.world.disk.pbsFiles → k = j')
    (hu : ∀ k, (k, pid) ∈ t.world.disk.pbsFiles → k = j) (hv : ∀ p, (j, p) ∈ t.world.disk.pbsFiles → p = pid)
    (hread : ∀ p ∈ pre ++ [pid], t.world.disk.Readable t.torn p)
    (hsched : ∀ k p, (k, p) ∈ t.world.disk.pbsFiles → (Dict.get? t.world.disk.scheduled k).isSome)
    (hq : ∀ p ∈ pre ++ pid :: mid ++ pid' :: post, q ≠ .ok p) (hids : t.world.pool.pbsIds ≠ []) (hsubmit : (t.world.execute q).2.err = none)
    (honly : t.world.disk.OnlyIn id j) (hwait : ∀ x ∈ t.world.pool.scheduled, x.2.1 ≠ id) (hlt : j < t.world.pool.jobCount)
    (hun : t.world.pool.unfinished = []) :
    let x := t.step seedOf (.op (.get q (.ok (pre ++ pid :: mid ++ pid' :: post))))
    x.2.answer = none ∧ ∀ ops : List (TornOp S R), (∀ o ∈ ops, o.Later id j) → ∀ out ∈ (x.1.run seedOf ops).2, ∀ a, out.answer = some a → ¬ a.About id := by
  set fin := pre ++ pid :: mid ++ pid' :: post with hfin
  intro x
  have hraise := C136_damaged_poll_raises seedOf t q fin j' pid' hj' hm' hu' (hq pid' (by simp [hfin])) (by simp [hfin]) hids
  refine ⟨hraise.1, fun ops hops => lost_run seedOf ops ?_ hops⟩
  obtain ⟨k1, k2, k3, k4, k5, -⟩ := execute_keeps honly hwait q
  have hfl := execute_files t.world q
  have hi := execute_ids t.world q hids
  have hsc : ∀ k p, (k, p) ∈ (t.world.execute q).1.disk.pbsFiles → (Dict.get? (t.world.execute q).1.disk.scheduled k).isSome := by
    intro k p hm
    have key : ∀ (d : Dict Nat (List Trip)) n ts k, (Dict.get? d k).isSome ∨ k = n → (Dict.get? (Dict.set d n ts) k).isSome := by
      intro d n ts k h
      by_cases e : k = n
      · subst e; rw [Dict.get?_set_self]; rfl
      · rw [Dict.get?_set_ne _ _ e]; rcases h with h | h
        · exact h
        · exact absurd h e
    by_cases he : t.world.pool.scheduled = []
    · unfold PbsWorld.execute at hm ⊢
      rw [if_pos he] at hm ⊢
      exact hsched k p hm
    · have h2 : (Dict.get? t.world.disk.scheduled k).isSome ∨ k = t.world.pool.jobCount := by
        rcases hfl k p hm with h | h
        · exact .inl (hsched k p h)
        · exact .inr h.1
      unfold PbsWorld.execute
      rw [if_neg he]
      cases q <;> exact key _ _ _ _ h2
  have hx : x.1 = ⟨(t.world.getFinishedT t.torn q (.ok fin)).1, t.torn⟩ := rfl
  rw [hx]
  unfold PbsWorld.getFinishedT
  rcases hxx : t.world.execute q with ⟨w1, o1⟩
  rw [hxx] at k1 k2 k3 k4 hfl hi hsubmit hsc
  simp only at k1 k2 k3 k4 hfl hi hsubmit hsc ⊢
  rw [hsubmit]
  simp only [PbsPool.qstat, if_neg hi]
  unfold PbsWorld.getResultFilesT
  simp only
  have hn : ∀ us, ∃ n, nRunningOf w1.disk us = .ok n := by
    intro us
    induction us with
    | nil => exact ⟨0, rfl⟩
    | cons p us ih =>
      obtain ⟨n, hn⟩ := ih
      unfold nRunningOf
      cases hk : w1.disk.jobOfPbs p with
      | none => exact ⟨n, hn⟩
      | some k =>
        obtain ⟨ts, hts⟩ := Option.isSome_iff_exists.1 (hsc k p (jobOfPbs_mem hk))
        refine ⟨ts.length + n, ?_⟩
        simp only [jobNRunning, hts, hn]; rfl
  obtain ⟨n, hn⟩ := hn (qstatScan fin w1.pool.pbsIds).1
  rw [hn]
  simp only
  have hdel := collectT_deleted (torn := t.torn) (j := j) (pid := pid) pre (mid ++ pid' :: post) w1.disk ({} : Acc R) (by
      intro p hp k hk
      rcases hfl k p hk with h | ⟨-, h⟩
      · exact ⟨(hread p hp k h).1, hsc k p hk⟩
      · exact absurd h (hq p (by simp [hfin] at hp ⊢; tauto))) (by
      intro k hk
      rcases hfl k pid hk with h | ⟨-, h⟩
      · exact hu k h
      · exact absurd h (hq pid (by simp [hfin]))) (by
      intro p hp
      rcases hfl j p hp with h | ⟨h, -⟩
      · exact hv p h
      · exact absurd hlt (by omega))
  have hfe : pre ++ pid :: (mid ++ pid' :: post) = fin := by simp [hfin]
  rw [hfe] at hdel
  obtain ⟨fs, c1, c2⟩ := collectT_files t.torn fin w1.disk ({} : Acc R)
  obtain ⟨e, he⟩ := collectT_raises hj' fin w1.disk ({} : Acc R) (by simp [hfin] : pid' ∈ fin) (by
      have := execute_files_mono t.world q (j', pid') hm'; rw [hxx] at this; exact this) (by
      intro k hk
      rcases hfl k pid' hk with h | ⟨-, h⟩
      · exact hu' k h
      · exact absurd h (hq pid' (by simp [hfin])))
  rcases hc : collectFinishedT t.torn fin w1.disk ({} : Acc R) with ⟨d, (e' | b)⟩
  · rw [hc] at hdel c1
    simp only at hdel c1 ⊢
    refine ⟨by simp only [c1]; exact OnlyIn.withFiles k1 fs, hdel, k2, lt_of_lt_of_le hlt k4, k3.trans hun⟩
  · rw [hc] at he; cases he

/-- The sample is to be recovered from a damaged job. -/
structure BlockInv (id : SampleId) (j : Nat) (t : TornWorld S R) : Prop where
  only : t.world.disk.OnlyIn id j
  sched : ∀ x ∈ t.world.pool.scheduled, x.2.1 ≠ id
  unf : id ∈ t.world.pool.unfinished
  job : jobOfSample t.world.disk id = .ok j
  torn : j ∈ t.torn

theorem block_step (seedOf : SampleId → Nat) {id : SampleId} {j : Nat} {t : TornWorld S R} (h : BlockInv id j t) (o : TornOp S R) (ho : o.Later id j) :
    BlockInv id j (t.step seedOf o).1 ∧ (t.step seedOf o).2.answer = none := by
  have hex : ∀ (w : PbsWorld S R), w.disk.OnlyIn id j → (∀ x ∈ w.pool.scheduled, x.2.1 ≠ id) → id ∈ w.pool.unfinished →
      jobOfSample w.disk id = .ok j → ∀ q, BlockInv id j ⟨(w.execute q).1, t.torn⟩ := by
    intro w h1 h2 h3 h4 q
    obtain ⟨k1, k2, k3, -, -, k6⟩ := execute_keeps h1 h2 q
    exact ⟨k1, k2, by rw [k3]; exact h3, k6 j h4, h.torn⟩
  cases o with
  | tear k => exact ⟨⟨h.only, h.sched, h.unf, h.job, List.mem_append_left _ h.torn⟩, rfl⟩
  | op o =>
    cases o with
    | permanent ids => exact False.elim ho
    | restart d l => exact False.elim ho
    | job k a => exact ⟨⟨job_keeps h.only k a ho, h.sched, h.unf, (apply_jobOf _ k a id).trans h.job, h.torn⟩, rfl⟩
    | execute q => exact ⟨hex _ h.only h.sched h.unf h.job q, execute_answer t.world q⟩
    | schedule i l size sim q =>
      have hi : i ≠ id := ho
      simp only [TornWorld.step, PbsWorld.step, PbsWorld.schedule]
      have h3 : ∀ x ∈ t.world.pool.scheduled ++ [(l, i, seedOf i)], x.2.1 ≠ id := by
        intro x hx
        rcases List.mem_append.1 hx with hx | hx
        · exact h.sched x hx
        · rw [List.mem_singleton] at hx; subst hx; exact hi
      split
      · refine ⟨hex _ ?_ ?_ ?_ ?_ q, execute_answer _ _⟩
        · exact ⟨h.only.scheduled, h.only.succ, h.only.failed⟩
        · exact h3
        · exact h.unf
        · exact h.job
      · exact ⟨⟨⟨h.only.scheduled, h.only.succ, h.only.failed⟩, h3, h.unf, h.job, h.torn⟩, rfl⟩
    | get q a =>
      simp only [TornWorld.step]
      unfold PbsWorld.getFinishedT
      have hE := hex t.world h.only h.sched h.unf h.job q
      have hA := execute_answer t.world q
      rcases hx : t.world.execute q with ⟨w1, o1⟩
      rw [hx] at hE hA
      simp only at hE hA ⊢
      cases o1.err with
      | some e => exact ⟨hE, hA⟩
      | none =>
        simp only
        obtain ⟨q1, q2, q3⟩ := qstat_keeps w1.pool a
        rcases hq : w1.pool.qstat a with ⟨p, (e | ⟨fin, unf⟩)⟩
        · rw [hq] at q1 q2 q3
          simp only at q1 q2 q3 ⊢
          exact ⟨⟨hE.only, by rw [q1]; exact hE.sched, by rw [q2]; exact hE.unf, hE.job, h.torn⟩, hA⟩
        · rw [hq] at q1 q2 q3
          simp only at q1 q2 q3 ⊢
          obtain ⟨⟨fs, f1, f2⟩, f3, f4, f5⟩ := filesT_keeps t.torn { w1 with pool := p } fin unf
          have hN : (PbsWorld.getResultFilesT t.torn { w1 with pool := p } fin unf).2.answer = none := by
            unfold PbsWorld.getResultFilesT
            simp only
            cases nRunningOf w1.disk unf with
            | error e => rfl
            | ok n =>
              simp only
              obtain ⟨fs', c1, -⟩ := collectT_files t.torn fin w1.disk ({} : Acc R)
              rcases hc : collectFinishedT t.torn fin w1.disk ({} : Acc R) with ⟨d, (e | c)⟩
              · rfl
              · simp only
                rw [hc] at c1
                simp only at c1
                have hne : p.unfinished ≠ [] := by
                  rw [q2]; intro hnil; have := hE.unf; simp only [hnil] at this; simp at this
                rw [if_neg hne]
                obtain ⟨e, he⟩ := collectUT_raises h.torn p.unfinished d (by rw [c1]; exact OnlyIn.withFiles hE.only fs')
                  (by rw [c1]; exact hE.job) p.unfinished [] c (by rw [q2]; exact hE.unf) (by simp)
                rw [he]
          refine ⟨⟨?_, ?_, ?_, ?_, h.torn⟩, hN⟩
          · simp only [f1]; exact OnlyIn.withFiles hE.only fs
          · simp only [f3, q1]; exact hE.sched
          · rcases f5 with f5 | f5
            · simp only [f5, q2]; exact hE.unf
            · exact absurd hN f5.2
          · simp only [f1]; exact hE.job

/-- **C136, last part**: recovery after a restart is blocked for ever.  A new pool object on the directory (`debug=True`) is told to recover the
unfinished samples, one of which, `id`, belongs to the damaged job `j`.  Then no poll of the new program returns anything, whatever the program and
the jobs do. -/
theorem C136_recovery_blocked (seedOf : SampleId → Nat) (t : TornWorld S R) (listing : List Nat) (ids : List SampleId) (id : SampleId) (j : Nat)
    (hj : j ∈ t.torn) (hid : id ∈ ids) (hjob : jobOfSample t.world.disk id = .ok j) (honly : t.world.disk.OnlyIn id j)
    (ops : List (TornOp S R)) (hops : ∀ o ∈ ops, o.Later id j) :
    ∀ out ∈ (t.run seedOf (.op (.restart true listing) :: .op (.permanent ids) :: ops)).2, out.answer = none := by
  have key : ∀ (ops : List (TornOp S R)) (t : TornWorld S R), BlockInv id j t → (∀ o ∈ ops, o.Later id j) → ∀ out ∈ (t.run seedOf ops).2, out.answer = none := by
    intro ops
    induction ops with
    | nil => intro t _ _ out hm; simp [TornWorld.run] at hm
    | cons o ops ih =>
      intro t h ho out hm
      obtain ⟨s1, s2⟩ := block_step seedOf h o (ho o List.mem_cons_self)
      simp only [TornWorld.run] at hm
      rcases List.mem_cons.1 hm with rfl | hm
      · exact s2
      · exact ih _ s1 (fun o' h' => ho o' (List.mem_cons_of_mem _ h')) out hm
  intro out hm
  simp only [TornWorld.run, TornWorld.step, PbsWorld.step, PbsWorld.create, if_true] at hm
  rcases List.mem_cons.1 hm with rfl | hm
  · rfl
  rcases List.mem_cons.1 hm with rfl | hm
  · rfl
  refine key ops _ ?_ hops out hm
  exact ⟨honly, by simp, by simpa using hid, hjob, hj⟩

namespace ExPbsTorn

/-- Two jobs with one sample each; job 0 writes its result, job 1 is killed while writing. -/
def ops : List (TornOp Unit Nat) :=
  [.op (.schedule ['a'] 0 2 () (.ok 100)), .op (.schedule ['b'] 0 2 () (.ok 101)), .op (.job 0 (.succ 0 ['a'] 7)), .tear 1]

def t : TornWorld Unit Nat := (TornWorld.run (fun _ => 5) {} ops).1

theorem t_eq : t = ⟨⟨{ pbsIds := [100, 101], jobCount := 2 }, { sims := [(0, ())], jobOf := some [(['a'], 0), (['b'], 1)], scheduled := [(0, [(0, ['a'], 5)]), (1, [(0, ['b'], 5)])], scripts := [0, 1], pbsFiles := [(0, 100), (1, 101)], succ := [(0, [(0, ['a'], 7)])] }⟩, [1]⟩ := by
  unfold t ops
  simp [TornWorld.run, TornWorld.step, PbsWorld.step, PbsWorld.schedule, PbsWorld.execute, saveJobOf, Dict.set, Dict.upd, Dict.get?, JobAppend.apply]

theorem only (x : SampleId) (k : Nat) (hx : x = ['a'] ∧ k = 0 ∨ x = ['b'] ∧ k = 1) : t.world.disk.OnlyIn x k := by
  rw [t_eq]
  refine ⟨?_, ?_, ?_⟩
  · intro i ts hi hm
    have : i = 0 ∧ ts = [(0, ['a'], 5)] ∨ i = 1 ∧ ts = [(0, ['b'], 5)] := by
      simp only [Dict.get?] at hi
      split at hi
      · cases hi; exact .inl ⟨by omega, rfl⟩
      · split at hi
        · cases hi; exact .inr ⟨by omega, rfl⟩
        · cases hi
    rcases this with ⟨rfl, rfl⟩ | ⟨rfl, rfl⟩ <;> rcases hx with ⟨rfl, rfl⟩ | ⟨rfl, rfl⟩ <;> simp_all
  · intro i ts hi hm
    have : i = 0 ∧ ts = [(0, ['a'], 7)] := by
      simp only [Dict.get?] at hi
      split at hi
      · cases hi; exact ⟨by omega, rfl⟩
      · cases hi
    rcases this with ⟨rfl, rfl⟩
    rcases hx with ⟨rfl, rfl⟩ | ⟨rfl, rfl⟩ <;> simp_all
  · intro i ts hi hm
    simp [Dict.get?] at hi

/-- The poll in which both jobs are finished raises; nothing is ever returned about the sample of the complete job. -/
example (ops : List (TornOp Unit Nat)) (h : ∀ o ∈ ops, o.Later ['a'] 0) :
    (t.step (fun _ => 5) (.op (.get .fail (.ok [100, 101])))).2.answer = none ∧
    ∀ out ∈ ((t.step (fun _ => 5) (.op (.get .fail (.ok [100, 101])))).1.run (fun _ => 5) ops).2, ∀ a, out.answer = some a → ¬ a.About ['a'] := by
  have := C136_results_lost (fun _ => 5) t .fail [] [] [] 0 100 1 101 ['a'] (by rw [t_eq]; decide) (by rw [t_eq]; decide)
    (by rw [t_eq]; intro k hk; simpa using hk) (by rw [t_eq]; intro k hk; simpa using hk) (by rw [t_eq]; intro p hp; simpa using hp)
    (by
      rw [t_eq]; intro p hp k hk
      simp only [List.nil_append, List.mem_singleton] at hp
      subst hp
      have : k = 0 := by simpa using hk
      subst this
      decide)
    (by
      rw [t_eq]; intro k p hk
      have : k = 0 ∨ k = 1 := by simp at hk; omega
      rcases this with rfl | rfl <;> rfl)
    (by simp) (by rw [t_eq]; simp) (by rw [t_eq]; rfl) (only _ _ (.inl ⟨rfl, rfl⟩)) (by rw [t_eq]; simp) (by rw [t_eq]; decide) (by rw [t_eq])
  exact ⟨this.1, this.2 ops h⟩

/-- In the complete directory the same poll returns the result. -/
example : ((t.world.step (fun _ => 5) (.get .fail (.ok [100, 101]))).2.answer.map (·.succ)) = some [(0, [(['a'], 7)])] := by
  rw [t_eq]; decide +kernel

/-- A poll before the damaged job is reported returns it. -/
example : ((t.step (fun _ => 5) (.op (.get .fail (.ok [100])))).2.answer.map (·.succ)) = some [(0, [(['a'], 7)])] := by
  rw [C136_undamaged_poll_partial (fun _ => 5) t .fail (.ok [100]) (by rw [t_eq]; decide)
    (by rw [t_eq]; intro fin hf p hp k hk; cases hf; simp at hp hk ⊢; omega) (by rw [t_eq]; simp)]
  rw [t_eq]; decide +kernel

/-- After a restart the results stay out of reach. -/
example (ops : List (TornOp Unit Nat)) (h : ∀ o ∈ ops, o.Later ['b'] 1) :
    ∀ out ∈ (t.run (fun _ => 5) (.op (.restart true [0, 1]) :: .op (.permanent [['a'], ['b']]) :: ops)).2, out.answer = none :=
  C136_recovery_blocked (fun _ => 5) t [0, 1] [['a'], ['b']] ['b'] 1 (by rw [t_eq]; decide) (by simp) (by rw [t_eq]; rfl)
    (only _ _ (.inr ⟨rfl, rfl⟩)) ops h

end ExPbsTorn

end MLMC
