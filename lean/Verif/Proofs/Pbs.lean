import Verif.Proofs.PbsJob
/-! Helper lemmas about the PBS pool. -/
namespace MLMC
variable {S R : Type}

/-- Two worlds that differ only in the identifiers under watch, the marker files and the counters of `qstat`. -/
structure SameCore (w w' : PbsWorld S R) : Prop where
  scheduled : w'.pool.scheduled = w.pool.scheduled
  nInJob : w'.pool.nInJob = w.pool.nInJob
  weight : w'.pool.weight = w.pool.weight
  jobCount : w'.pool.jobCount = w.pool.jobCount
  qsubFailed : w'.pool.qsubFailed = w.pool.qsubFailed
  sims : w'.disk.sims = w.disk.sims
  jobOf : w'.disk.jobOf = w.disk.jobOf
  files : w'.disk.scheduled = w.disk.scheduled
  scripts : w'.disk.scripts = w.disk.scripts
  succ : w'.disk.succ = w.disk.succ
  failed : w'.disk.failed = w.disk.failed
  times : w'.disk.times = w.disk.times

theorem SameCore.refl (w : PbsWorld S R) : SameCore w w := ⟨rfl, rfl, rfl, rfl, rfl, rfl, rfl, rfl, rfl, rfl, rfl, rfl⟩

theorem SameCore.trans {a b c : PbsWorld S R} (h : SameCore a b) (k : SameCore b c) : SameCore a c :=
  ⟨k.1.trans h.1, k.2.trans h.2, k.3.trans h.3, k.4.trans h.4, k.5.trans h.5, k.6.trans h.6, k.7.trans h.7, k.8.trans h.8,
   k.9.trans h.9, k.10.trans h.10, k.11.trans h.11, k.12.trans h.12⟩

theorem qstat_core (p : PbsPool) (a : QstatAns) :
    (p.qstat a).1.scheduled = p.scheduled ∧ (p.qstat a).1.nInJob = p.nInJob ∧ (p.qstat a).1.weight = p.weight ∧
    (p.qstat a).1.jobCount = p.jobCount ∧ (p.qstat a).1.qsubFailed = p.qsubFailed ∧
    (p.qstat a).1.unfinished = p.unfinished ∧ (p.qstat a).2 ≠ .error .qsub := by
  unfold PbsPool.qstat
  split
  · exact ⟨rfl, rfl, rfl, rfl, rfl, rfl, by simp⟩
  · cases a with
    | fail =>
      simp only
      split <;> exact ⟨rfl, rfl, rfl, rfl, rfl, rfl, by simp⟩
    | ok fin => exact ⟨rfl, rfl, rfl, rfl, rfl, rfl, by simp⟩

/-- Changing only the marker files. -/
def PbsDisk.withFiles (d : PbsDisk S R) (fs : List (Nat × Nat)) : PbsDisk S R := { d with pbsFiles := fs }

theorem readResults_ne (d : PbsDisk S R) (j : Nat) : readResults d j ≠ .error .qsub := by
  unfold readResults
  simp only
  split <;> simp

theorem collectFinished_core : ∀ (fin : List Nat) (d : PbsDisk S R) (a : Acc R),
    (∃ fs, (collectFinished fin d a).1 = d.withFiles fs) ∧ (collectFinished fin d a).2 ≠ .error .qsub := by
  intro fin
  induction fin with
  | nil => intro d a; exact ⟨⟨d.pbsFiles, rfl⟩, by simp [collectFinished]⟩
  | cons pid ps ih =>
    intro d a
    unfold collectFinished
    cases hj : d.jobOfPbs pid with
    | none => exact ih d a
    | some j =>
      simp only
      cases hr : readResults d j with
      | error e =>
        refine ⟨⟨d.pbsFiles, rfl⟩, ?_⟩
        intro h
        simp only [Except.error.injEq] at h
        exact readResults_ne d j (h ▸ hr)
      | ok r =>
        obtain ⟨⟨fs, h1⟩, h2⟩ := ih { d with pbsFiles := d.pbsFiles.filter fun e => e ≠ (j, pid) }
          ⟨extendBy a.succ r.succ, extendBy a.failed r.failed, addTimes a.times r.times⟩
        exact ⟨⟨fs, h1⟩, h2⟩

theorem collectUnfinished_ne (wanted : List SampleId) (d : PbsDisk S R) : ∀ (ids already : List SampleId) (a : Acc R),
    collectUnfinished wanted d ids already a ≠ .error .qsub := by
  intro ids
  induction ids with
  | nil => intro al a; simp [collectUnfinished]
  | cons id ids ih =>
    intro al a
    unfold collectUnfinished
    split
    · exact ih _ _
    · cases hj : jobOfSample d id with
      | error e =>
        simp only
        intro h
        simp only [Except.error.injEq] at h
        subst h
        unfold jobOfSample at hj
        split at hj
        · simp at hj
        · split at hj <;> simp at hj
      | ok j =>
        simp only
        cases hr : readResults d j with
        | error e =>
          intro h
          simp only [Except.error.injEq] at h
          exact readResults_ne d j (h ▸ hr)
        | ok r =>
          simp only
          split
          · simp
          · split
            · simp
            · exact ih _ _

theorem nRunningOf_ne (d : PbsDisk S R) : ∀ ps, nRunningOf d ps ≠ .error .qsub := by
  intro ps
  induction ps with
  | nil => simp [nRunningOf]
  | cons p ps ih =>
    unfold nRunningOf
    cases d.jobOfPbs p with
    | none => exact ih
    | some j =>
      simp only [jobNRunning]
      cases hs : Dict.get? d.scheduled j with
      | none => simp [bind, Except.bind]
      | some ts =>
        simp only [bind, Except.bind, pure, Except.pure]
        cases hn : nRunningOf d ps with
        | ok n => simp
        | error e => simp only; intro h; exact ih (by rw [hn]; simpa using h)

theorem sameCore_withFiles (w : PbsWorld S R) (fs : List (Nat × Nat)) (u : List SampleId) :
    SameCore w { pool := { w.pool with unfinished := u }, disk := w.disk.withFiles fs } :=
  ⟨rfl, rfl, rfl, rfl, rfl, rfl, rfl, rfl, rfl, rfl, rfl, rfl⟩

theorem getResultFiles_core (w : PbsWorld S R) (fin unf : List Nat) :
    SameCore w (w.getResultFiles fin unf).1 ∧ (w.getResultFiles fin unf).2.err ≠ some .qsub := by
  unfold PbsWorld.getResultFiles
  cases hn : nRunningOf w.disk unf with
  | error e =>
    refine ⟨SameCore.refl _, ?_⟩
    simp only [ne_eq, Option.some.injEq]
    intro h; exact nRunningOf_ne _ _ (h ▸ hn)
  | ok n =>
    simp only
    obtain ⟨⟨fs, h1⟩, h2⟩ := collectFinished_core fin w.disk ({} : Acc R)
    cases hc : collectFinished fin w.disk ({} : Acc R) with
    | mk d r =>
      rw [hc] at h1 h2
      simp only at h1 h2
      subst h1
      cases r with
      | error e =>
        refine ⟨sameCore_withFiles w fs w.pool.unfinished, ?_⟩
        simp only [ne_eq, Option.some.injEq]
        intro h; exact h2 (by rw [h])
      | ok a =>
        simp only
        split
        · exact ⟨sameCore_withFiles w fs w.pool.unfinished, by simp⟩
        · cases hu : collectUnfinished w.pool.unfinished (w.disk.withFiles fs) w.pool.unfinished [] a with
          | error e =>
            refine ⟨sameCore_withFiles w fs w.pool.unfinished, ?_⟩
            simp only [ne_eq, Option.some.injEq]
            intro h; exact collectUnfinished_ne _ _ _ _ _ (h ▸ hu)
          | ok a' => exact ⟨sameCore_withFiles w fs [], by simp⟩

theorem getFinished_core (w : PbsWorld S R) (q : QsubAns) (a : QstatAns) :
    SameCore (w.execute q).1 (w.getFinished q a).1 ∧
    (w.getFinished q a).2.submitted = (w.execute q).2.submitted ∧
    (w.getFinished q a).2.qsub = (w.execute q).2.qsub ∧
    (w.getFinished q a).2.packed = (w.execute q).2.packed ∧
    ((w.getFinished q a).2.err = some .qsub ↔ (w.execute q).2.err = some .qsub) := by
  unfold PbsWorld.getFinished
  cases he : w.execute q with
  | mk w1 o1 =>
    simp only
    cases ho : o1.err with
    | some e => exact ⟨SameCore.refl _, rfl, rfl, by simp⟩
    | none =>
      simp only
      have hq := qstat_core w1.pool a
      cases hqs : w1.pool.qstat a with
      | mk p r =>
        rw [hqs] at hq
        obtain ⟨q1, q2, q3, q4, q5, q6, q7⟩ := hq
        simp only at q1 q2 q3 q4 q5 q6 q7
        have hcore : SameCore w1 { w1 with pool := p } := ⟨q1, q2, q3, q4, q5, rfl, rfl, rfl, rfl, rfl, rfl, rfl⟩
        cases r with
        | error e =>
          refine ⟨hcore, rfl, rfl, rfl, ?_⟩
          simp only [Option.some.injEq, reduceCtorEq, iff_false]
          intro h; exact q7 (by rw [h])
        | ok fu =>
          obtain ⟨fin, unf⟩ := fu
          simp only
          obtain ⟨g1, g2⟩ := getResultFiles_core { w1 with pool := p } fin unf
          refine ⟨hcore.trans g1, trivial, trivial, trivial, ?_⟩
          simp only [reduceCtorEq, iff_false]
          exact g2

/-- Job bookkeeping: `jc0` is the first job number. -/
structure JobInv (jc0 : Nat) (w : PbsWorld S R) (subs : List Submitted) (h : List Trip) : Prop where
  all : subs.flatMap (·.samples) ++ w.pool.scheduled = h
  jobs : subs.map (·.job) = List.range' jc0 subs.length
  count : w.pool.jobCount = jc0 + subs.length
  files : ∀ s ∈ subs, Dict.get? w.disk.scheduled s.job = some s.samples

theorem JobInv.of_core {jc0 : Nat} {w w' : PbsWorld S R} {subs : List Submitted} {h : List Trip} (i : JobInv jc0 w subs h)
    (c : SameCore w w') : JobInv jc0 w' subs h :=
  ⟨by rw [c.scheduled]; exact i.all, i.jobs, by rw [c.jobCount]; exact i.count, by rw [c.files]; exact i.files⟩

theorem JobInv.job_lt {jc0 : Nat} {w : PbsWorld S R} {subs : List Submitted} {h : List Trip} (i : JobInv jc0 w subs h) :
    ∀ s ∈ subs, s.job < w.pool.jobCount := by
  intro s hs
  have : s.job ∈ subs.map (·.job) := List.mem_map.2 ⟨s, hs, rfl⟩
  rw [i.jobs, List.mem_range'_1] at this
  rw [i.count]; exact this.2

theorem execute_inv {jc0 : Nat} {w : PbsWorld S R} {subs : List Submitted} {h : List Trip} (i : JobInv jc0 w subs h)
    (q : QsubAns) (hq : q.plain) : JobInv jc0 (w.execute q).1 (subs ++ (w.execute q).2.submitted) h := by
  unfold PbsWorld.execute
  split
  · simpa using i
  · cases q with
    | okNoFile => exact absurd hq (by simp [QsubAns.plain])
    | fail =>
      simp only [List.append_nil]
      refine ⟨i.all, i.jobs, i.count, fun s hs => ?_⟩
      rw [Dict.get?_set_ne _ _ (Nat.ne_of_lt (i.job_lt s hs))]
      exact i.files s hs
    | ok pid =>
      simp only
      refine ⟨?_, ?_, ?_, fun s hs => ?_⟩
      · simpa [List.flatMap_append] using i.all
      · rw [List.map_append, i.jobs, List.length_append, List.length_singleton, List.range'_1_concat]
        simp [i.count]
      · simp [i.count]; omega
      · rcases List.mem_append.1 hs with hs | hs
        · rw [Dict.get?_set_ne _ _ (Nat.ne_of_lt (i.job_lt s hs))]
          exact i.files s hs
        · simp only [List.mem_singleton] at hs
          subst hs
          exact Dict.get?_set_self _ _ _

theorem step_inv {jc0 : Nat} (seedOf : SampleId → Nat) {w : PbsWorld S R} {subs : List Submitted} {h : List Trip}
    (i : JobInv jc0 w subs h) (o : PbsOp S R) (hq : ∀ q ∈ o.qsubAns?, q.plain) (hr : ∀ d l, o ≠ .restart d l) :
    JobInv jc0 (w.step seedOf o).1 (subs ++ (w.step seedOf o).2.submitted) (h ++ handed seedOf [o]) := by
  cases o with
  | schedule id l size sim q =>
    have hq' : q.plain := hq q (by simp [PbsOp.qsubAns?])
    simp only [PbsWorld.step, PbsWorld.schedule]
    have hh : handed seedOf [(PbsOp.schedule id l size sim q : PbsOp S R)] = [(l, id, seedOf id)] := rfl
    rw [hh]
    split
    · apply execute_inv _ _ hq'
      exact ⟨by simp only [← List.append_assoc, i.all], i.jobs, i.count, i.files⟩
    · exact ⟨by simp only [List.append_nil, ← List.append_assoc, i.all], by simpa using i.jobs, by simpa using i.count,
        by simpa using i.files⟩
  | execute q =>
    have hq' : q.plain := hq q (by simp [PbsOp.qsubAns?])
    simpa [handed, PbsWorld.step] using execute_inv i q hq'
  | get q a =>
    have hq' : q.plain := hq q (by simp [PbsOp.qsubAns?])
    obtain ⟨c, e, _, _, _⟩ := getFinished_core w q a
    simp only [PbsWorld.step, e]
    have := (execute_inv i q hq').of_core c
    simpa [handed] using this
  | permanent ids =>
    have hh : handed seedOf [(PbsOp.permanent ids : PbsOp S R)] = [] := rfl
    rw [hh]
    simp only [PbsWorld.step, List.append_nil]
    exact ⟨i.all, i.jobs, i.count, i.files⟩
  | job j a =>
    simp only [PbsWorld.step, List.append_nil]
    have : JobInv jc0 { w with disk := a.apply j w.disk } subs h :=
      ⟨i.all, i.jobs, i.count, by simp only [(apply_rest j w.disk a).1]; exact i.files⟩
    simpa [handed] using this
  | restart d l => exact absurd rfl (hr d l)

theorem handed_cons (seedOf : SampleId → Nat) (o : PbsOp S R) (ops : List (PbsOp S R)) :
    handed seedOf (o :: ops) = handed seedOf [o] ++ handed seedOf ops := by
  rw [handed, handed, handed, ← List.filterMap_append, List.singleton_append]

theorem handed_append (seedOf : SampleId → Nat) (a b : List (PbsOp S R)) :
    handed seedOf (a ++ b) = handed seedOf a ++ handed seedOf b := by
  rw [handed, handed, handed, ← List.filterMap_append]

theorem run_inv {jc0 : Nat} (seedOf : SampleId → Nat) : ∀ (ops : List (PbsOp S R)) (w : PbsWorld S R) (subs : List Submitted)
    (h : List Trip), JobInv jc0 w subs h → PlainQsub ops → NoRestart ops →
    JobInv jc0 (w.run seedOf ops).1 (subs ++ submissions (w.run seedOf ops).2) (h ++ handed seedOf ops) := by
  intro ops
  induction ops with
  | nil => intro w subs h i _ _; simpa [PbsWorld.run, submissions, handed] using i
  | cons o ops ih =>
    intro w subs h i hq hr
    have hs := step_inv seedOf i o (hq o (by simp)) (fun d l e => hr d l (by simp [e]))
    have := ih _ _ _ hs (fun o ho => hq o (List.mem_cons_of_mem _ ho)) (fun d l hm => hr d l (List.mem_cons_of_mem _ hm))
    rw [handed_cons, ← List.append_assoc]
    simp only [PbsWorld.run, submissions, List.flatMap_cons, ← List.append_assoc] at this ⊢
    exact this

theorem run_append_pbs (seedOf : SampleId → Nat) : ∀ (a b : List (PbsOp S R)) (w : PbsWorld S R),
    (w.run seedOf (a ++ b)) = (((w.run seedOf a).1.run seedOf b).1, (w.run seedOf a).2 ++ ((w.run seedOf a).1.run seedOf b).2) := by
  intro a
  induction a with
  | nil => intro b w; rfl
  | cons o a ih => intro b w; simp only [List.cons_append, PbsWorld.run, ih]

theorem create_jobInv (debug : Bool) (listing : List Nat) (d : PbsDisk S R) :
    JobInv (PbsWorld.create debug listing d).pool.jobCount (PbsWorld.create debug listing d) [] [] := by
  cases debug <;> exact ⟨rfl, rfl, rfl, by simp⟩

end MLMC
