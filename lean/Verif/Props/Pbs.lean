import Verif.Proofs.Pbs
import Mathlib.Algebra.Order.Field.Rat
import Mathlib.Tactic.Linarith
/-! Properties C26–C29 and C34 of the PBS pool. -/
namespace MLMC
variable {S R : Type}

/-! ## C26 Every sample given to the PBS pool is in exactly one submitted job or still pending -/

/-- C26: for every history without restarts of the main program and every pattern of `qsub` failures: the accepted jobs' samples
followed by the pending package are exactly the samples handed over, in order; the scheduled file of every accepted job still
holds its samples; and accepted jobs have different numbers. -/
theorem C26_nothing_lost (seedOf : SampleId → Nat) (debug : Bool) (listing : List Nat) (d : PbsDisk S R)
    (ops : List (PbsOp S R)) (hq : PlainQsub ops) (hr : NoRestart ops) :
    let w := ((PbsWorld.create debug listing d).run seedOf ops).1
    let subs := submissions ((PbsWorld.create debug listing d).run seedOf ops).2
    subs.flatMap (·.samples) ++ w.pool.scheduled = handed seedOf ops ∧
    (∀ s ∈ subs, Dict.get? w.disk.scheduled s.job = some s.samples) ∧ (subs.map (·.job)).Nodup := by
  have i := run_inv seedOf ops _ [] [] (create_jobInv debug listing d) hq hr
  rw [List.nil_append, List.nil_append] at i
  exact ⟨i.all, i.files, by rw [i.jobs]; exact List.nodup_range'⟩

/-- C26 for one sample: if the identifiers handed over are different, a sample is either pending and in no accepted job, or
in exactly one accepted job and not pending. -/
theorem C26_in_exactly_one_job (seedOf : SampleId → Nat) (debug : Bool) (listing : List Nat) (d : PbsDisk S R)
    (ops : List (PbsOp S R)) (hq : PlainQsub ops) (hr : NoRestart ops)
    (hn : ((handed seedOf ops).map (·.2.1)).Nodup) (t : Trip) (ht : t ∈ handed seedOf ops) :
    let w := ((PbsWorld.create debug listing d).run seedOf ops).1
    let subs := submissions ((PbsWorld.create debug listing d).run seedOf ops).2
    (t ∈ w.pool.scheduled ∧ ∀ s ∈ subs, t ∉ s.samples) ∨
    (t ∉ w.pool.scheduled ∧ ∃ s ∈ subs, t ∈ s.samples ∧ ∀ s' ∈ subs, t ∈ s'.samples → s'.job = s.job) := by
  intro w subs
  obtain ⟨h1, h2, h3⟩ := C26_nothing_lost seedOf debug listing d ops hq hr
  have hnd : (subs.flatMap (·.samples) ++ w.pool.scheduled).Nodup := by rw [h1]; exact hn.of_map _
  rw [List.nodup_append] at hnd
  obtain ⟨n1, n2, n3⟩ := hnd
  rw [← h1, List.mem_append] at ht
  rcases ht with ht | ht
  · right
    refine ⟨fun hp => n3 t ht t hp rfl, ?_⟩
    obtain ⟨s, hs, hts⟩ := List.mem_flatMap.1 ht
    refine ⟨s, hs, hts, ?_⟩
    intro s' hs' hts'
    by_contra hne
    have hne' : s ≠ s' := fun e => hne (by rw [e])
    have hp := (List.nodup_flatMap.1 n1).2
    have : ∀ {l : List Submitted}, l.Pairwise (Function.onFun List.Disjoint fun x => x.samples) → s ∈ l → s' ∈ l → False := by
      intro l
      induction l with
      | nil => intro _ h; simp at h
      | cons x l ih =>
        intro hp a b
        obtain ⟨p1, p2⟩ := List.pairwise_cons.1 hp
        rcases List.mem_cons.1 a with a | a <;> rcases List.mem_cons.1 b with b | b
        · exact hne' (a.trans b.symm)
        · exact p1 s' b (a ▸ hts) hts'
        · exact p1 s a (b ▸ hts') hts
        · exact ih p2 a b
    exact this hp hs hs'
  · left
    exact ⟨ht, fun s hs hts => n3 t (List.mem_flatMap.2 ⟨s, hs, hts⟩) t ht rfl⟩

/-- Non-vacuity: two samples, a failed and a successful submission, a third sample pending. -/
example :
    let ops : List (PbsOp Unit Nat) := [.schedule (sampleTag 0 0) 0 2 () .fail, .schedule (sampleTag 0 1) 0 2 () (.ok 77),
      .schedule (sampleTag 1 0) 1 (1/2) () (.ok 78)]
    let r := (PbsWorld.create false [] ({} : PbsDisk Unit Nat)).run (fun _ => 1) ops
    submissions r.2 = [⟨0, 77, [(0, sampleTag 0 0, 1), (0, sampleTag 0 1, 1)]⟩] ∧ r.1.pool.scheduled = [(1, sampleTag 1 0, 1)] := by
  decide +kernel

/-- If the marker file cannot be written after `qsub` accepted the job, the package is submitted again: the sample is in
two accepted jobs. -/
theorem C26_marker_file_counterexample :
    let ops : List (PbsOp Unit Nat) := [.schedule (sampleTag 0 0) 0 2 () (.okNoFile 77), .execute (.ok 78)]
    let r := (PbsWorld.create false [] ({} : PbsDisk Unit Nat)).run (fun _ => 1) ops
    (submissions r.2).map (fun s => (s.job, s.samples.map (·.2.1))) = [(0, [sampleTag 0 0]), (1, [sampleTag 0 0])] := by
  decide +kernel

/-! ## C27 PBS packages respect the weight and count limits -/

/-- Sum of task sizes. -/
def totalSize (sz : Nat → ℚ) (ts : List Trip) : ℚ := (ts.map fun t => sz t.1).sum

/-- `qsub` always succeeds. -/
def QsubOk (ops : List (PbsOp S R)) : Prop := ∀ o ∈ ops, ∀ q ∈ o.qsubAns?, ∃ pid, q = .ok pid

/-- Task sizes are those of the levels. -/
def SizesOf (sz : Nat → ℚ) (ops : List (PbsOp S R)) : Prop :=
  ∀ id l size sim q, PbsOp.schedule id l size sim q ∈ ops → size = sz l

theorem totalSize_append (sz : Nat → ℚ) (a b : List Trip) : totalSize sz (a ++ b) = totalSize sz a + totalSize sz b := by
  simp [totalSize]

structure PackInv (sz : Nat → ℚ) (w : PbsWorld S R) : Prop where
  weight : w.pool.weight = totalSize sz w.pool.scheduled
  count : w.pool.nInJob = w.pool.scheduled.length
  light : w.pool.weight ≤ 1
  few : w.pool.nInJob ≤ 1000

theorem execute_ok (w : PbsWorld S R) (pid : Nat) :
    (w.execute (.ok pid)).1.pool.scheduled = [] ∧
    (w.pool.scheduled ≠ [] → (w.execute (.ok pid)).1.pool.weight = 0 ∧ (w.execute (.ok pid)).1.pool.nInJob = 0 ∧
      (w.execute (.ok pid)).2.submitted = [⟨w.pool.jobCount, pid, w.pool.scheduled⟩]) ∧
    (w.pool.scheduled = [] → w.execute (.ok pid) = (w, {})) := by
  unfold PbsWorld.execute
  by_cases h : w.pool.scheduled = []
  · simp [h]
  · simp [h]

theorem execute_ok_pack (sz : Nat → ℚ) {w : PbsWorld S R} (i : PackInv sz w) (pid : Nat) :
    PackInv sz (w.execute (.ok pid)).1 := by
  obtain ⟨h1, h2, h3⟩ := execute_ok w pid
  by_cases h : w.pool.scheduled = []
  · rw [h3 h]; exact i
  · obtain ⟨a, b, _⟩ := h2 h
    exact ⟨by rw [a, h1]; rfl, by rw [b, h1]; rfl, by rw [a]; norm_num, by rw [b]; norm_num⟩

/-- What a submitted job may look like: flushed below the limits, or sent by the sample that exceeded a limit. -/
def JobLimits (sz : Nat → ℚ) (seedOf : SampleId → Nat) (o : PbsOp S R) (s : Submitted) : Prop :=
  ((¬ ∃ id l size sim q, o = .schedule id l size sim q) ∧ totalSize sz s.samples ≤ 1 ∧ s.samples.length ≤ 1000) ∨
  ∃ id l size sim q, o = .schedule id l size sim q ∧ s.samples.getLast? = some (l, id, seedOf id) ∧
    totalSize sz s.samples.dropLast ≤ 1 ∧ s.samples.dropLast.length ≤ 1000 ∧
    (1 < totalSize sz s.samples ∨ 1000 < s.samples.length)

theorem execute_flush (sz : Nat → ℚ) {w : PbsWorld S R} (i : PackInv sz w) (pid : Nat) :
    ∀ s ∈ (w.execute (.ok pid)).2.submitted, totalSize sz s.samples ≤ 1 ∧ s.samples.length ≤ 1000 := by
  intro s hs
  by_cases h : w.pool.scheduled = []
  · rw [(execute_ok w pid).2.2 h] at hs; simp at hs
  · rw [((execute_ok w pid).2.1 h).2.2, List.mem_singleton] at hs
    subst hs
    exact ⟨by rw [← i.weight]; exact i.light, by rw [← i.count]; exact i.few⟩

theorem step_pack (seedOf : SampleId → Nat) (sz : Nat → ℚ) {w : PbsWorld S R} (i : PackInv sz w) (o : PbsOp S R)
    (hq : ∀ q ∈ o.qsubAns?, ∃ pid, q = .ok pid) (hr : ∀ d l, o ≠ .restart d l)
    (hs : ∀ id l size sim q, o = .schedule id l size sim q → size = sz l) :
    PackInv sz (w.step seedOf o).1 ∧ ∀ s ∈ (w.step seedOf o).2.submitted, JobLimits sz seedOf o s := by
  cases o with
  | schedule id l size sim q =>
    obtain ⟨pid, rfl⟩ := hq q (by simp [PbsOp.qsubAns?])
    have hsz := hs id l size sim _ rfl
    simp only [PbsWorld.step, PbsWorld.schedule]
    have hw : w.pool.weight + size = totalSize sz (w.pool.scheduled ++ [(l, id, seedOf id)]) := by
      rw [totalSize_append, ← i.weight, hsz]; simp [totalSize]
    have hc : w.pool.nInJob + 1 = (w.pool.scheduled ++ [(l, id, seedOf id)]).length := by simp [i.count]
    split
    · rename_i hcond
      have hx := execute_ok (R := R) (S := S)
          ⟨{ w.pool with scheduled := w.pool.scheduled ++ [(l, id, seedOf id)], nInJob := w.pool.nInJob + 1, weight := w.pool.weight + size },
           { w.disk with sims := if (Dict.get? w.disk.sims l).isSome then w.disk.sims else Dict.set w.disk.sims l sim }⟩ pid
      obtain ⟨h1, h2, _⟩ := hx
      obtain ⟨a, b, c⟩ := h2 (by simp)
      refine ⟨⟨by rw [a, h1]; rfl, by rw [b, h1]; rfl, by rw [a]; norm_num, by rw [b]; norm_num⟩, ?_⟩
      intro s hs'
      rw [c, List.mem_singleton] at hs'
      subst hs'
      refine Or.inr ⟨id, l, size, sim, _, rfl, by simp, ?_, ?_, ?_⟩
      · simp only [List.dropLast_concat]; rw [← i.weight]; exact i.light
      · simp only [List.dropLast_concat]; rw [← i.count]; exact i.few
      · simp only [← hw, ← hc]; exact hcond
    · rename_i hcond
      simp only [not_or, not_lt] at hcond
      exact ⟨⟨hw, hc, hcond.1, hcond.2⟩, by simp⟩
  | execute q =>
    obtain ⟨pid, rfl⟩ := hq q (by simp [PbsOp.qsubAns?])
    exact ⟨execute_ok_pack sz i pid, fun s hs => Or.inl ⟨by simp, execute_flush sz i pid s hs⟩⟩
  | get q a =>
    obtain ⟨pid, rfl⟩ := hq q (by simp [PbsOp.qsubAns?])
    obtain ⟨c, e, _, _, _⟩ := getFinished_core w (.ok pid) a
    have h := execute_ok_pack sz i pid
    simp only [PbsWorld.step, e]
    refine ⟨⟨by rw [c.weight, c.scheduled]; exact h.weight, by rw [c.nInJob, c.scheduled]; exact h.count,
      by rw [c.weight]; exact h.light, by rw [c.nInJob]; exact h.few⟩,
      fun s hs => Or.inl ⟨by simp, execute_flush sz i pid s hs⟩⟩
  | permanent ids => exact ⟨⟨i.weight, i.count, i.light, i.few⟩, by simp [PbsWorld.step]⟩
  | job j a => exact ⟨⟨i.weight, i.count, i.light, i.few⟩, by simp [PbsWorld.step]⟩
  | restart d l => exact absurd rfl (hr d l)

theorem run_pack (seedOf : SampleId → Nat) (sz : Nat → ℚ) : ∀ (ops : List (PbsOp S R)) (w : PbsWorld S R), PackInv sz w →
    QsubOk ops → NoRestart ops → SizesOf sz ops → PackInv sz (w.run seedOf ops).1 := by
  intro ops
  induction ops with
  | nil => intro w i _ _ _; exact i
  | cons o ops ih =>
    intro w i hq hr hs
    have h := (step_pack seedOf sz i o (hq o (by simp)) (fun d l e => hr d l (by simp [e]))
      (fun id l size sim q e => hs id l size sim q (by simp [e]))).1
    exact ih _ h (fun o ho => hq o (List.mem_cons_of_mem _ ho)) (fun d l hm => hr d l (List.mem_cons_of_mem _ hm))
      (fun id l size sim q hm => hs id l size sim q (List.mem_cons_of_mem _ hm))

/-- C27: with `qsub` working, after every history the pending package has total task size at most 1 and at most 1000 samples;
and every job accepted in the next call either was flushed below these limits by a call other than `schedule_sample`, or ends
with the sample just scheduled, was within the limits without it and exceeds one of them with it. -/
theorem C27_package_limits (seedOf : SampleId → Nat) (sz : Nat → ℚ) (debug : Bool) (listing : List Nat) (d : PbsDisk S R)
    (ops : List (PbsOp S R)) (o : PbsOp S R) (hq : QsubOk (ops ++ [o])) (hr : NoRestart (ops ++ [o]))
    (hs : SizesOf sz (ops ++ [o])) :
    let w := ((PbsWorld.create debug listing d).run seedOf ops).1
    totalSize sz w.pool.scheduled ≤ 1 ∧ w.pool.scheduled.length ≤ 1000 ∧
    ∀ s ∈ (w.step seedOf o).2.submitted, JobLimits sz seedOf o s := by
  intro w
  have i0 : PackInv sz (PbsWorld.create debug listing d) := by
    cases debug <;> exact ⟨rfl, rfl, by norm_num [PbsWorld.create], by norm_num [PbsWorld.create]⟩
  have i := run_pack seedOf sz ops _ i0 (fun o ho => hq o (by simp [ho])) (fun d l hm => hr d l (by simp [hm]))
    (fun id l size sim q hm => hs id l size sim q (by simp [hm]))
  refine ⟨by rw [← i.weight]; exact i.light, by rw [← i.count]; exact i.few, ?_⟩
  exact (step_pack seedOf sz i o (hq o (by simp)) (fun d l e => hr d l (by simp [e]))
      (fun id l size sim q e => hs id l size sim q (by simp [e]))).2

/-- Non-vacuity: task size 2/5 on level 0; the third sample sends the package. -/
example :
    let op (n : Nat) : PbsOp Unit Nat := .schedule (sampleTag 0 n) 0 (2/5) () (.ok (70 + n))
    let r := (PbsWorld.create false [] ({} : PbsDisk Unit Nat)).run (fun _ => 1) [op 0, op 1, op 2, op 3]
    (submissions r.2).map (fun s => (s.pbsId, s.samples.length)) = [(72, 3)] ∧ r.1.pool.scheduled.length = 1 := by
  decide +kernel

/-! ## C28 qsub failures are tolerated up to ten in a row -/

theorem failures_concat_true (h : List Bool) : failuresInARow (h ++ [true]) = 0 := by simp [failuresInARow]

theorem failures_concat_false (h : List Bool) : failuresInARow (h ++ [false]) = failuresInARow h + 1 := by
  simp [failuresInARow]

theorem execute_failed (w : PbsWorld S R) (q : QsubAns) (hq : q.plain) :
    (w.execute q).1.pool.qsubFailed = (match (w.execute q).2.qsub with
      | some true => 0 | some false => w.pool.qsubFailed + 1 | none => w.pool.qsubFailed) ∧
    ((w.execute q).2.err = some .qsub ↔ (w.execute q).2.qsub = some false ∧ 10 ≤ w.pool.qsubFailed) := by
  unfold PbsWorld.execute
  split
  · exact ⟨rfl, by simp⟩
  · cases q with
    | okNoFile => exact absurd hq (by simp [QsubAns.plain])
    | fail =>
      refine ⟨rfl, ?_⟩
      simp only [true_and]
      split
      · rename_i h; constructor
        · intro _; omega
        · intro _; rfl
      · rename_i h; constructor
        · intro h'; simp at h'
        · intro h'; omega
    | ok pid => exact ⟨rfl, by simp⟩

theorem step_failed (seedOf : SampleId → Nat) (w : PbsWorld S R) (o : PbsOp S R)
    (hq : ∀ q ∈ o.qsubAns?, q.plain) (hr : ∀ d l, o ≠ .restart d l) :
    (w.step seedOf o).1.pool.qsubFailed = (match (w.step seedOf o).2.qsub with
      | some true => 0 | some false => w.pool.qsubFailed + 1 | none => w.pool.qsubFailed) ∧
    ((w.step seedOf o).2.err = some .qsub ↔ (w.step seedOf o).2.qsub = some false ∧ 10 ≤ w.pool.qsubFailed) := by
  cases o with
  | schedule id l size sim q =>
    simp only [PbsWorld.step, PbsWorld.schedule]
    split
    · exact execute_failed _ q (hq q (by simp [PbsOp.qsubAns?]))
    · exact ⟨rfl, by simp⟩
  | execute q => exact execute_failed _ q (hq q (by simp [PbsOp.qsubAns?]))
  | get q a =>
    obtain ⟨c, _, e, _, f⟩ := getFinished_core w q a
    have := execute_failed w q (hq q (by simp [PbsOp.qsubAns?]))
    simp only [PbsWorld.step]
    rw [c.qsubFailed, e, f]
    exact this
  | permanent ids => exact ⟨rfl, by simp [PbsWorld.step]⟩
  | job j a => exact ⟨rfl, by simp [PbsWorld.step]⟩
  | restart d l => exact absurd rfl (hr d l)

theorem run_failed (seedOf : SampleId → Nat) : ∀ (ops : List (PbsOp S R)) (w : PbsWorld S R) (h : List Bool),
    w.pool.qsubFailed = failuresInARow h → PlainQsub ops → NoRestart ops →
    (w.run seedOf ops).1.pool.qsubFailed = failuresInARow (h ++ attempts (w.run seedOf ops).2) := by
  intro ops
  induction ops with
  | nil => intro w h i _ _; simpa [PbsWorld.run, attempts] using i
  | cons o ops ih =>
    intro w h i hq hr
    have hs := (step_failed seedOf w o (hq o (by simp)) (fun d l e => hr d l (by simp [e]))).1
    have i' : (w.step seedOf o).1.pool.qsubFailed = failuresInARow (h ++ (w.step seedOf o).2.qsub.toList) := by
      rw [hs]
      cases hb : (w.step seedOf o).2.qsub with
      | none => simpa using i
      | some b =>
        cases b
        · simp only [Option.toList]; rw [failures_concat_false, i]
        · simp only [Option.toList]; rw [failures_concat_true]
    have := ih _ _ i' (fun o ho => hq o (List.mem_cons_of_mem _ ho)) (fun d l hm => hr d l (List.mem_cons_of_mem _ hm))
    simp only [PbsWorld.run]
    rw [this]
    congr 1
    cases hb : (w.step seedOf o).2.qsub with
    | none => simp [attempts, hb]
    | some b => simp [attempts, hb]

/-- C28: after every history without restarts, a call raises the submission exception exactly when its submission attempt
fails and the ten attempts before it failed too (a success in between resets the count). -/
theorem C28_eleventh_failure_raises (seedOf : SampleId → Nat) (debug : Bool) (listing : List Nat) (d : PbsDisk S R)
    (ops : List (PbsOp S R)) (o : PbsOp S R) (hq : PlainQsub (ops ++ [o])) (hr : NoRestart (ops ++ [o])) :
    let r := (PbsWorld.create debug listing d).run seedOf ops
    let out := (r.1.step seedOf o).2
    out.err = some .qsub ↔ out.qsub = some false ∧ 10 ≤ failuresInARow (attempts r.2) := by
  intro r out
  have h0 : (PbsWorld.create debug listing d).pool.qsubFailed = failuresInARow [] := by cases debug <;> rfl
  have h := run_failed seedOf ops _ [] h0 (fun o ho => hq o (by simp [ho])) (fun d l hm => hr d l (by simp [hm]))
  rw [List.nil_append] at h
  rw [← h]
  exact (step_failed seedOf r.1 o (hq o (by simp)) (fun d l e => hr d l (by simp [e]))).2

theorem execute_packed (w : PbsWorld S R) (q : QsubAns) : ∀ p ∈ (w.execute q).2.packed,
    p = (w.pool.jobCount, w.pool.scheduled) := by
  unfold PbsWorld.execute
  split
  · simp
  · cases q <;> simp

theorem step_packed (seedOf : SampleId → Nat) (w : PbsWorld S R) (o : PbsOp S R) :
    ∀ p ∈ (w.step seedOf o).2.packed, p = (w.pool.jobCount, w.pool.scheduled ++ handed seedOf [o]) := by
  cases o with
  | schedule id l size sim q =>
    simp only [PbsWorld.step, PbsWorld.schedule]
    split
    · exact execute_packed _ q
    · simp
  | execute q => simpa [handed, PbsWorld.step] using execute_packed w q
  | get q a =>
    simp only [PbsWorld.step, (getFinished_core w q a).2.2.2.1]
    simpa [handed] using execute_packed w q
  | permanent ids => simp [PbsWorld.step]
  | job j a => simp [PbsWorld.step]
  | restart d l => simp [PbsWorld.step]

/-- C28, the retry: a package is written under the number that follows those of the accepted jobs, so a package that failed to
be submitted keeps its number, and it contains the samples not yet accepted and the new one. -/
theorem C28_retry_same_number (seedOf : SampleId → Nat) (debug : Bool) (listing : List Nat) (d : PbsDisk S R)
    (ops : List (PbsOp S R)) (o : PbsOp S R) (hq : PlainQsub (ops ++ [o])) (hr : NoRestart (ops ++ [o])) (j : Nat)
    (ts : List Trip) :
    let w0 := PbsWorld.create debug listing d
    let r := w0.run seedOf ops
    (j, ts) ∈ (r.1.step seedOf o).2.packed →
    j = w0.pool.jobCount + (submissions r.2).length ∧
    (submissions r.2).flatMap (·.samples) ++ ts = handed seedOf (ops ++ [o]) := by
  intro w0 r hp
  have i := run_inv seedOf ops _ [] [] (create_jobInv debug listing d) (fun o ho => hq o (by simp [ho]))
    (fun d l hm => hr d l (by simp [hm]))
  rw [List.nil_append, List.nil_append] at i
  have := step_packed seedOf r.1 o _ hp
  rw [Prod.mk.injEq] at this
  refine ⟨this.1.trans i.count, ?_⟩
  rw [this.2, handed_append, ← i.all, List.append_assoc]

/-- Non-vacuity: ten failures are tolerated, the eleventh raises; the twelfth attempt succeeds under the same number. -/
example :
    let op : PbsOp Unit Nat := .execute .fail
    let ops := PbsOp.schedule (sampleTag 0 0) 0 (1/2) () (.ok 1) :: List.replicate 11 op ++ [.execute (.ok 5)]
    let r := (PbsWorld.create false [] ({} : PbsDisk Unit Nat)).run (fun _ => 1) ops
    r.2.map (·.err) = List.replicate 11 none ++ [some .qsub, none] ∧ (submissions r.2).map (·.job) = [0] ∧
      (packages r.2).map (·.1) = List.replicate 12 0 := by
  decide +kernel

/-! ## C29 PBS job numbers are never reused -/

/-- Every restart keeps the directory, and lists the job scripts with the largest number last. -/
def GoodRestarts (seedOf : SampleId → Nat) (w : PbsWorld S R) (ops : List (PbsOp S R)) : Prop :=
  ∀ pre debug listing post, ops = pre ++ .restart debug listing :: post →
    debug = true ∧ listing.Perm (w.run seedOf pre).1.disk.scripts ∧ ∀ j ∈ listing, ∀ m, listing.getLast? = some m → j ≤ m

structure NumInv (w : PbsWorld S R) (subs : List Submitted) : Prop where
  scripts : ∀ j ∈ w.disk.scripts, j ≤ w.pool.jobCount
  jobs : ∀ s ∈ subs, s.job ∈ w.disk.scripts ∧ s.job < w.pool.jobCount
  nodup : (subs.map (·.job)).Nodup

theorem execute_num {w : PbsWorld S R} {subs : List Submitted} (i : NumInv w subs) (q : QsubAns) :
    NumInv (w.execute q).1 (subs ++ (w.execute q).2.submitted) := by
  have hs : ∀ x, x ∈ (if w.pool.jobCount ∈ w.disk.scripts then w.disk.scripts else w.disk.scripts ++ [w.pool.jobCount]) ↔
      x ∈ w.disk.scripts ∨ x = w.pool.jobCount := by
    intro x
    split
    · constructor
      · exact Or.inl
      · rintro (h | rfl) <;> assumption
    · simp
  have hnew : ∀ pid, ((subs ++ [(⟨w.pool.jobCount, pid, w.pool.scheduled⟩ : Submitted)]).map (·.job)).Nodup := by
    intro pid
    rw [List.map_append, List.nodup_append]
    refine ⟨i.nodup, by simp, ?_⟩
    intro a ha b hb e
    obtain ⟨s, hs, rfl⟩ := List.mem_map.1 ha
    simp only [List.map_cons, List.map_nil, List.mem_singleton] at hb
    have := (i.jobs s hs).2
    omega
  have hold : ∀ pid, ∀ s ∈ subs ++ [(⟨w.pool.jobCount, pid, w.pool.scheduled⟩ : Submitted)],
      (s.job ∈ w.disk.scripts ∨ s.job = w.pool.jobCount) ∧ s.job < w.pool.jobCount + 1 := by
    intro pid s hs
    rcases List.mem_append.1 hs with h | h
    · exact ⟨Or.inl (i.jobs s h).1, by have := (i.jobs s h).2; omega⟩
    · simp only [List.mem_singleton] at h; subst h; exact ⟨Or.inr rfl, by simp⟩
  have hle : ∀ j, (j ∈ w.disk.scripts ∨ j = w.pool.jobCount) → j ≤ w.pool.jobCount := by
    rintro j (h | rfl)
    · exact i.scripts j h
    · exact le_rfl
  unfold PbsWorld.execute
  split
  · simpa using i
  · cases q with
    | fail =>
      simp only [List.append_nil]
      exact ⟨fun j hj => hle j ((hs j).1 hj), fun s h => ⟨(hs _).2 (Or.inl (i.jobs s h).1), (i.jobs s h).2⟩, i.nodup⟩
    | ok pid =>
      exact ⟨fun j hj => Nat.le_succ_of_le (hle j ((hs j).1 hj)), fun s h => ⟨(hs _).2 (hold pid s h).1, (hold pid s h).2⟩, hnew pid⟩
    | okNoFile pid =>
      exact ⟨fun j hj => Nat.le_succ_of_le (hle j ((hs j).1 hj)), fun s h => ⟨(hs _).2 (hold pid s h).1, (hold pid s h).2⟩, hnew pid⟩

theorem step_num (seedOf : SampleId → Nat) {w : PbsWorld S R} {subs : List Submitted} (i : NumInv w subs) (o : PbsOp S R)
    (hr : ∀ debug listing, o = .restart debug listing → debug = true ∧ listing.Perm w.disk.scripts ∧
      ∀ j ∈ listing, ∀ m, listing.getLast? = some m → j ≤ m) :
    NumInv (w.step seedOf o).1 (subs ++ (w.step seedOf o).2.submitted) := by
  cases o with
  | schedule id l size sim q =>
    simp only [PbsWorld.step, PbsWorld.schedule]
    split
    · apply execute_num; exact ⟨i.scripts, i.jobs, i.nodup⟩
    · simp only [List.append_nil]; exact ⟨i.scripts, i.jobs, i.nodup⟩
  | execute q => exact execute_num i q
  | get q a =>
    obtain ⟨c, e, _, _, _⟩ := getFinished_core w q a
    have := execute_num i q
    simp only [PbsWorld.step, e]
    exact ⟨by rw [c.scripts, c.jobCount]; exact this.scripts, by rw [c.scripts, c.jobCount]; exact this.jobs, this.nodup⟩
  | permanent ids => simp only [PbsWorld.step, List.append_nil]; exact ⟨i.scripts, i.jobs, i.nodup⟩
  | job j a =>
    simp only [PbsWorld.step, List.append_nil]
    exact ⟨by simp only [(apply_rest j w.disk a).2.2.2.1]; exact i.scripts,
      by simp only [(apply_rest j w.disk a).2.2.2.1]; exact i.jobs, i.nodup⟩
  | restart d l =>
    obtain ⟨rfl, hp, hm⟩ := hr d l rfl
    simp only [PbsWorld.step, List.append_nil, PbsWorld.create, if_true]
    have key : ∀ j ∈ w.disk.scripts, j < getJobCount l := by
      intro j hj
      have hj' := hp.mem_iff.2 hj
      unfold getJobCount
      cases hl : l.getLast? with
      | none => rw [List.getLast?_eq_none_iff] at hl; subst hl; simp at hj'
      | some m => exact Nat.lt_succ_of_le (hm j hj' m hl)
    exact ⟨fun j hj => (key j hj).le, fun s hs => ⟨(i.jobs s hs).1, key _ (i.jobs s hs).1⟩, i.nodup⟩

theorem run_num (seedOf : SampleId → Nat) : ∀ (ops : List (PbsOp S R)) (w : PbsWorld S R) (subs : List Submitted),
    NumInv w subs → GoodRestarts seedOf w ops → NumInv (w.run seedOf ops).1 (subs ++ submissions (w.run seedOf ops).2) := by
  intro ops
  induction ops with
  | nil => intro w subs i _; simpa [PbsWorld.run, submissions] using i
  | cons o ops ih =>
    intro w subs i hg
    have hs := step_num seedOf i o (fun d l e => by
      have := hg [] d l ops (by simp [e])
      simpa [PbsWorld.run] using this)
    have := ih _ _ hs (fun pre d l post e => by
      have := hg (o :: pre) d l post (by simp [e])
      simpa [PbsWorld.run] using this)
    simp only [PbsWorld.run, submissions, List.flatMap_cons, ← List.append_assoc] at this ⊢
    exact this

/-- C29, with the assumption that the listing read at a restart ends with the largest number: accepted jobs have different
numbers in every history, with any number of restarts on the same directory and any `qsub` answers.
Missing: listings in another order, see the counterexamples. -/
theorem C29_job_numbers_not_reused_partial (seedOf : SampleId → Nat) (ops : List (PbsOp S R))
    (hg : GoodRestarts seedOf (PbsWorld.create false [] ({} : PbsDisk S R)) ops) :
    ((submissions ((PbsWorld.create false [] ({} : PbsDisk S R)).run seedOf ops).2).map (·.job)).Nodup := by
  have i0 : NumInv (PbsWorld.create false [] ({} : PbsDisk S R)) [] := ⟨by simp [PbsWorld.create], by simp, by simp⟩
  simpa using (run_num seedOf ops _ [] i0 hg).nodup

/-- Non-vacuity: two jobs, a restart with the listing in order, a third job. -/
example :
    let op (n : Nat) : PbsOp Unit Nat := .schedule (sampleTag 0 n) 0 2 () (.ok (70 + n))
    let w0 := PbsWorld.create false [] ({} : PbsDisk Unit Nat)
    let r := w0.run (fun _ => 1) [op 0, op 1, .restart true [0, 1], op 2]
    (w0.run (fun _ => 1) [op 0, op 1]).1.disk.scripts = [0, 1] ∧ (submissions r.2).map (·.job) = [0, 1, 2] := by
  decide +kernel

/-- If the directory listing is in another order, a job number is used again: the new package overwrites the scheduled file of
job 1, and the first job's sample is not in its file any more. -/
theorem C29_listing_order_counterexample :
    let op (n : Nat) : PbsOp Unit Nat := .schedule (sampleTag 0 n) 0 2 () (.ok (70 + n))
    let w0 := PbsWorld.create false [] ({} : PbsDisk Unit Nat)
    let r := w0.run (fun _ => 1) [op 0, op 1, .restart true [1, 0], op 2]
    [1, 0].Perm (w0.run (fun _ => 1) [op 0, op 1]).1.disk.scripts ∧ (submissions r.2).map (·.job) = [0, 1, 1] ∧
    Dict.get? r.1.disk.scheduled 1 = some [(0, sampleTag 0 2, 1)] := by
  intro op w0 r
  have h : (w0.run (fun _ => 1) [op 0, op 1]).1.disk.scripts = [0, 1] := by decide +kernel
  refine ⟨by rw [h]; exact List.Perm.swap _ _ _, ?_, ?_⟩ <;> decide +kernel

/-- Sorting the listing by file name would not be enough: the name of job 10000 comes before the name of job 9999. -/
theorem C29_sorted_names_counterexample :
    jobName 10000 < jobName 9999 ∧ getJobCount [10000, 9999] = 10000 := by
  decide +kernel

/-! ## C34 The sample to job map points to the latest job -/

structure MapInv (w : PbsWorld S R) (ps : List (Nat × List Trip)) : Prop where
  none : w.disk.jobOf = none ↔ ps = []
  get : ∀ id, Dict.get? (w.disk.jobOf.getD []) id = lastJobWith ps id

theorem MapInv.of_eq {w w' : PbsWorld S R} {ps : List (Nat × List Trip)} (i : MapInv w ps) (h : w'.disk.jobOf = w.disk.jobOf) :
    MapInv w' ps := ⟨by rw [h]; exact i.none, by rw [h]; exact i.get⟩

theorem foldl_set_get (j : Nat) (ts : List Trip) : ∀ (m : Dict SampleId Nat) (id : SampleId),
    Dict.get? (ts.foldl (fun d t => Dict.set d t.2.1 j) m) id =
      if id ∈ ts.map (·.2.1) then some j else Dict.get? m id := by
  induction ts with
  | nil => intro m id; simp
  | cons t ts ih =>
    intro m id
    rw [List.foldl_cons, ih]
    by_cases h : id ∈ ts.map (·.2.1)
    · simp [h]
    · by_cases e : id = t.2.1
      · subst e; simp [h, Dict.get?_set_self]
      · rw [if_neg h, Dict.get?_set_ne _ _ e, if_neg]
        simp only [List.map_cons, List.mem_cons, not_or]; exact ⟨e, h⟩

theorem lastJobWith_concat (ps : List (Nat × List Trip)) (j : Nat) (ts : List Trip) (id : SampleId) :
    lastJobWith (ps ++ [(j, ts)]) id = if id ∈ ts.map (·.2.1) then some j else lastJobWith ps id := by
  unfold lastJobWith
  rw [List.reverse_append]
  simp only [List.reverse_cons, List.reverse_nil, List.nil_append, List.cons_append, List.find?_cons]
  by_cases h : id ∈ ts.map (·.2.1)
  · simp only [h, decide_true, if_true, Option.map_some]
  · simp only [h, decide_false, if_false, Bool.false_eq_true]

theorem map_save {w w' : PbsWorld S R} {ps : List (Nat × List Trip)} (i : MapInv w ps) (j : Nat) (ts : List Trip)
    (h : w'.disk.jobOf = saveJobOf w.disk.jobOf j ts) : MapInv w' (ps ++ [(j, ts)]) := by
  constructor
  · rw [h]; simp [saveJobOf]
  · intro id
    rw [h, lastJobWith_concat, ← i.get id]
    exact foldl_set_get j ts _ id

theorem execute_map {w : PbsWorld S R} {ps : List (Nat × List Trip)} (i : MapInv w ps) (q : QsubAns) :
    MapInv (w.execute q).1 (ps ++ (w.execute q).2.packed) := by
  unfold PbsWorld.execute
  split
  · simpa using i
  · cases q <;> exact map_save i _ _ rfl

theorem step_map (seedOf : SampleId → Nat) {w : PbsWorld S R} {ps : List (Nat × List Trip)} (i : MapInv w ps) (o : PbsOp S R)
    (hr : ∀ debug listing, o = .restart debug listing → debug = true) :
    MapInv (w.step seedOf o).1 (ps ++ (w.step seedOf o).2.packed) := by
  cases o with
  | schedule id l size sim q =>
    simp only [PbsWorld.step, PbsWorld.schedule]
    split
    · apply execute_map; exact i.of_eq rfl
    · simp only [List.append_nil]; exact i.of_eq rfl
  | execute q => exact execute_map i q
  | get q a =>
    obtain ⟨c, _, _, e, _⟩ := getFinished_core w q a
    simp only [PbsWorld.step, e]
    exact (execute_map i q).of_eq c.jobOf
  | permanent ids => simp only [PbsWorld.step, List.append_nil]; exact i.of_eq rfl
  | job j a => simp only [PbsWorld.step, List.append_nil]; exact i.of_eq (apply_rest j w.disk a).2.2.1
  | restart d l =>
    obtain rfl := hr d l rfl
    simp only [PbsWorld.step, List.append_nil]; exact i.of_eq rfl

theorem run_map (seedOf : SampleId → Nat) : ∀ (ops : List (PbsOp S R)) (w : PbsWorld S R) (ps : List (Nat × List Trip)),
    MapInv w ps → (∀ l, .restart false l ∉ ops) → MapInv (w.run seedOf ops).1 (ps ++ packages (w.run seedOf ops).2) := by
  intro ops
  induction ops with
  | nil => intro w ps i _; simpa [PbsWorld.run, packages] using i
  | cons o ops ih =>
    intro w ps i hg
    have hs := step_map seedOf i o (fun d l e => by
      cases d with
      | true => rfl
      | false => exact absurd (by simp [e]) (hg l))
    have := ih _ _ hs (fun l hm => hg l (List.mem_cons_of_mem _ hm))
    simp only [PbsWorld.run, packages, List.flatMap_cons, ← List.append_assoc] at this ⊢
    exact this

/-- C34: after every history of packages, failed and repeated submissions and restarts that keep the directory, looking up a
sample gives the job of the last package written with it; a sample never packed raises. -/
theorem C34_map_points_to_last_job (seedOf : SampleId → Nat) (ops : List (PbsOp S R)) (hr : ∀ l, .restart false l ∉ ops)
    (id : SampleId) :
    let r := (PbsWorld.create false [] ({} : PbsDisk S R)).run seedOf ops
    jobOfSample r.1.disk id = match lastJobWith (packages r.2) id with
      | some j => .ok j
      | none => if packages r.2 = [] then .error .fileNotFound else .error .keyError := by
  intro r
  have i0 : MapInv (PbsWorld.create false [] ({} : PbsDisk S R)) [] := ⟨by simp [PbsWorld.create], fun _ => rfl⟩
  have i := run_map seedOf ops _ [] i0 hr
  rw [List.nil_append] at i
  have h1 := i.none
  have h2 := i.get id
  rw [← h2]
  unfold jobOfSample
  cases hj : r.1.disk.jobOf with
  | none => simp only [Option.getD_none, Dict.get?_nil]; rw [if_pos (h1.1 hj)]
  | some m =>
    simp only [Option.getD_some]
    have : packages r.2 ≠ [] := fun e => by have := h1.2 e; rw [hj] at this; simp at this
    cases Dict.get? m id with
    | none => simp only; rw [if_neg this]
    | some j => rfl

/-- C34 after restarts that empty the directory (`debug=False`): the same with the packages written since the last of them,
so together with the theorem above every history is covered. -/
theorem C34_after_emptying (seedOf : SampleId → Nat) (before : List (PbsOp S R)) (listing : List Nat) (ops : List (PbsOp S R))
    (hr : ∀ l, .restart false l ∉ ops) (id : SampleId) :
    let w := ((PbsWorld.create false [] ({} : PbsDisk S R)).run seedOf (before ++ [.restart false listing])).1
    let r := w.run seedOf ops
    jobOfSample r.1.disk id = match lastJobWith (packages r.2) id with
      | some j => .ok j
      | none => if packages r.2 = [] then .error .fileNotFound else .error .keyError := by
  have hw : ∀ (before : List (PbsOp S R)) (w : PbsWorld S R),
      (w.run seedOf (before ++ [.restart false listing])).1 = PbsWorld.create false [] ({} : PbsDisk S R) := by
    intro before
    induction before with
    | nil => intro w; rfl
    | cons o os ih => intro w; exact ih _
  intro w r
  have hw' : w = PbsWorld.create false [] ({} : PbsDisk S R) := hw before _
  have := C34_map_points_to_last_job seedOf ops hr id
  simp only [← hw'] at this
  exact this

/-- Non-vacuity: what was packed before the directory was emptied is forgotten. -/
example :
    let op (k : Nat) (q : QsubAns) : PbsOp Unit Nat := .schedule (sampleTag 0 k) 0 2 () q
    let w := ((PbsWorld.create false [] ({} : PbsDisk Unit Nat)).run (fun _ => 1) ([op 0 (.ok 5)] ++ [.restart false [0]])).1
    let r := w.run (fun _ => 1) [op 1 (.ok 6)]
    jobOfSample r.1.disk (sampleTag 0 1) = .ok 0 ∧ jobOfSample r.1.disk (sampleTag 0 0) = .error .keyError := by
  refine ⟨?_, ?_⟩
  · rw [C34_after_emptying _ _ _ _ (by simp)]; decide +kernel
  · rw [C34_after_emptying _ _ _ _ (by simp)]; decide +kernel

/-- Non-vacuity: a failed package, its retry under the same number, and the sample scheduled again later. -/
example :
    let op (q : QsubAns) : PbsOp Unit Nat := .schedule (sampleTag 0 0) 0 2 () q
    let r := (PbsWorld.create false [] ({} : PbsDisk Unit Nat)).run (fun _ => 1) [op .fail, .execute (.ok 5), op (.ok 6)]
    (packages r.2).map (·.1) = [0, 0, 1] ∧ jobOfSample r.1.disk (sampleTag 0 0) = .ok 1 := by
  refine ⟨by decide +kernel, ?_⟩
  rw [C34_map_points_to_last_job _ _ (by simp)]
  decide +kernel

end MLMC
