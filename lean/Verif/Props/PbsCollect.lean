import Verif.Proofs.PbsCollect
/-! Properties C31 and C32: collecting the results of PBS jobs. -/
namespace MLMC
variable {S R : Type}

/-! ## C31 PBS results are collected at most once and finally all -/

/-- C31, also when samples are handed over again (`renew_failed_samples`): in every history without restarts in which no job
contains a sample twice, a `get_finished` call that returns delivers exactly the results of the jobs first
reported as finished to it (outstanding before the call or accepted by it, and listed as finished by `qstat`): their written
results, their written failures, a failure for every sample with no record, and the sums of their last time records.
A call that does not return raises because of repeated failures of `qsub` or `qstat`. -/
theorem C31_collected_again_partial (seedOf : SampleId → Nat) (ops : List (PbsOp S R)) (q : QsubAns) (qa : QstatAns)
    (hq : PlainQsub (ops ++ [.get q qa])) (hr : NoRestart ops) (hp : NoPermanent ops) :
    let w0 := PbsWorld.create false [] ({} : PbsDisk S R)
    let r := w0.run seedOf ops
    let o := (r.1.step seedOf (.get q qa)).2
    let new := (outstanding (eventsOf seedOf w0 ops) ++ o.submitted).filter fun s => s.pbsId ∈ qa.finished
    (∀ s ∈ submissions r.2 ++ o.submitted, ∀ l, (idsAt s.samples l).Nodup) → ((submissions r.2 ++ o.submitted).map (·.pbsId)).Nodup →
    (o.answer = none → o.err = some .qsub ∨ o.err = some .qstat) ∧
    ∀ a, o.answer = some a → ∀ l,
      (atLevel a.succ l).Perm (new.flatMap fun s => writtenSucc (appendsOf s.job ops) l) ∧
      (atLevel a.failed l).Perm (new.flatMap fun s =>
        writtenFailed (appendsOf s.job ops) l ++ (missingIds s.samples (appendsOf s.job ops) l).map fun id => (id, jobFailed)) ∧
      (Dict.get? a.nOps l).getD (0, 0) =
        ((new.map fun s => lastTime (appendsOf s.job ops) l).sum, (new.map fun s => lastCount (appendsOf s.job ops) l).sum) := by
  intro w0 r o new hid hn
  have hq' : PlainQsub ops := fun o ho => hq o (by simp [ho])
  have hqq : q.plain := hq (.get q qa) (by simp) q (by simp [PbsOp.qsubAns?])
  have hn' : ((submissions r.2).map (·.pbsId)).Nodup := by
    rw [List.map_append] at hn; exact (List.nodup_append.1 hn).1
  have i := run_cinv seedOf ops hq' hr hp hn'
  have ij := run_inv seedOf ops _ [] [] (create_jobInv false [] ({} : PbsDisk S R)) hq' hr
  rw [List.nil_append, List.nil_append] at ij
  rcases getFinished_spec i ij q hqq qa hn with ⟨k1, k2, _⟩ | ⟨a, k1, _, _, k4, _⟩
  · refine ⟨fun _ => k2, ?_⟩
    intro a ha
    have : o.answer = none := k1
    rw [this] at ha; simp at ha
  · have k1' : o.answer = some a := k1
    refine ⟨fun h => by rw [h] at k1'; simp at k1', ?_⟩
    intro a' ha' l
    rw [k1', Option.some.injEq] at ha'
    subst ha'
    have hsub := (getFinished_core r.1 q qa).2.1
    have hn1 : ((submissions r.2 ++ (r.1.execute q).2.submitted).map (·.pbsId)).Nodup := by rw [← hsub]; exact hn
    obtain ⟨i1, _⟩ := execute_cinv i q hqq hn1
    have ij1 := execute_inv ij q hqq
    rw [← hsub] at i1 ij1
    have hjob : ∀ s ∈ new, ∀ l, _ := fun s hs => jobRes_written (r.1.execute q).1.disk s.job s.samples (appendsOf s.job ops)
      (ij1.files s (i1.out_sub.subset (List.mem_of_mem_filter hs))) (i1.succ _) (i1.failed _) (i1.times _)
      (hid s (i1.out_sub.subset (List.mem_of_mem_filter hs)))
    obtain ⟨m1, m2, m3, m4⟩ := k4 l
    refine ⟨?_, ?_, ?_⟩
    · have e : (new.flatMap fun s => atLevel (jobRes (r.1.execute q).1.disk s.job).succ l) =
          new.flatMap fun s => writtenSucc (appendsOf s.job ops) l :=
        List.flatMap_congr fun s hs => (hjob s hs l).1
      rw [← e]; exact m1
    · have e : (new.flatMap fun s => atLevel (jobRes (r.1.execute q).1.disk s.job).failed l) = new.flatMap fun s =>
          writtenFailed (appendsOf s.job ops) l ++ (missingIds s.samples (appendsOf s.job ops) l).map fun id => (id, jobFailed) :=
        List.flatMap_congr fun s hs => (hjob s hs l).2.1
      rw [← e]; exact m2
    · apply Prod.ext
      · refine m3.trans ?_
        congr 1
        apply List.map_congr_left
        intro s hs
        rw [(hjob s hs l).2.2]; rfl
      · refine m4.trans ?_
        congr 1
        apply List.map_congr_left
        intro s hs
        rw [(hjob s hs l).2.2]; rfl

/-- C31: in every history without restarts, a `get_finished` call that returns delivers exactly the results of the jobs first
reported as finished to it (outstanding before the call or accepted by it, and listed as finished by `qstat`): their written
results, their written failures, a failure for every sample with no record, and the sums of their last time records.
A call that does not return raises because of repeated failures of `qsub` or `qstat`. -/
theorem C31_collected_when_first_reported_partial (seedOf : SampleId → Nat) (ops : List (PbsOp S R)) (q : QsubAns) (qa : QstatAns)
    (hq : PlainQsub (ops ++ [.get q qa])) (hr : NoRestart ops) (hp : NoPermanent ops)
    (hid : ((handed seedOf ops).map (·.2.1)).Nodup) :
    let w0 := PbsWorld.create false [] ({} : PbsDisk S R)
    let r := w0.run seedOf ops
    let o := (r.1.step seedOf (.get q qa)).2
    let new := (outstanding (eventsOf seedOf w0 ops) ++ o.submitted).filter fun s => s.pbsId ∈ qa.finished
    ((submissions r.2 ++ o.submitted).map (·.pbsId)).Nodup →
    (o.answer = none → o.err = some .qsub ∨ o.err = some .qstat) ∧
    ∀ a, o.answer = some a → ∀ l,
      (atLevel a.succ l).Perm (new.flatMap fun s => writtenSucc (appendsOf s.job ops) l) ∧
      (atLevel a.failed l).Perm (new.flatMap fun s =>
        writtenFailed (appendsOf s.job ops) l ++ (missingIds s.samples (appendsOf s.job ops) l).map fun id => (id, jobFailed)) ∧
      (Dict.get? a.nOps l).getD (0, 0) =
        ((new.map fun s => lastTime (appendsOf s.job ops) l).sum, (new.map fun s => lastCount (appendsOf s.job ops) l).sum) := by
  intro w0 r o new hn
  refine C31_collected_again_partial seedOf ops q qa hq hr hp ?_ hn
  have hq' : PlainQsub ops := fun o ho => hq o (by simp [ho])
  have hqq : q.plain := hq (.get q qa) (by simp) q (by simp [PbsOp.qsubAns?])
  have ij := run_inv seedOf ops _ [] [] (create_jobInv false [] ({} : PbsDisk S R)) hq' hr
  rw [List.nil_append, List.nil_append] at ij
  have ij1 := execute_inv ij q hqq
  rw [← (getFinished_core r.1 q qa).2.1] at ij1
  exact samples_nodup ij1 hid

/-- C31, conservation, also when samples are handed over again: after every history without restarts in which no job contains a
sample twice, whatever the jobs have computed so far and whatever `qsub` and
`qstat` answered: the identifiers delivered by all answers, those in outstanding jobs and those still pending are together
exactly the identifiers handed over, each as often as it was handed over. -/
theorem C31_conservation_again_partial (seedOf : SampleId → Nat) (ops : List (PbsOp S R)) (hq : PlainQsub ops) (hr : NoRestart ops)
    (hp : NoPermanent ops) :
    let w0 := PbsWorld.create false [] ({} : PbsDisk S R)
    let r := w0.run seedOf ops
    (∀ s ∈ submissions r.2, ∀ l, (idsAt s.samples l).Nodup) → ((submissions r.2).map (·.pbsId)).Nodup → JobsRun ops (submissions r.2) → ∀ l,
    (deliveredAt (answers r.2) l ++ (outstanding (eventsOf seedOf w0 ops)).flatMap (fun s => idsAt s.samples l) ++
      idsAt r.1.pool.scheduled l).Perm (idsAt (handed seedOf ops) l) := by
  intro w0 r hid hn hj l
  have ij := run_inv seedOf ops _ [] [] (create_jobInv false [] ({} : PbsDisk S R)) hq hr
  rw [List.nil_append, List.nil_append] at ij
  have hall := ij.all
  have hflat : ∀ subs : List Submitted, idsAt (subs.flatMap (·.samples)) l = subs.flatMap fun s => idsAt s.samples l := by
    intro subs
    induction subs with
    | nil => rfl
    | cons s subs ih => rw [List.flatMap_cons, idsAt_append, ih, List.flatMap_cons]
  rw [← hall, idsAt_append, hflat]
  refine List.Perm.append_right _ ?_
  clear hall ij
  simp only [r] at hid hn hj ⊢
  clear r
  induction ops using List.reverseRecOn with
  | nil => exact List.Perm.refl _
  | append_singleton ops o ih =>
    have hq' : PlainQsub ops := fun o ho => hq o (by simp [ho])
    have hr' : NoRestart ops := fun d l hm => hr d l (by simp [hm])
    have hp' : NoPermanent ops := fun ids hm => hp ids (by simp [hm])
    rw [run_concat, submissions_concat] at hid hn hj
    have hn' : ((submissions (w0.run seedOf ops).2).map (·.pbsId)).Nodup := by
      rw [List.map_append] at hn
      exact (List.nodup_append.1 hn).1
    have hid' : ∀ s ∈ submissions (w0.run seedOf ops).2, ∀ l, (idsAt s.samples l).Nodup :=
      fun s hs => hid s (List.mem_append_left _ hs)
    have hj' : JobsRun ops (submissions (w0.run seedOf ops).2) := by
      intro s hs
      obtain ⟨sim, compute, clock, h⟩ := hj s (List.mem_append_left _ hs)
      rw [appendsOf_append] at h
      exact ⟨sim, compute, clock, (List.prefix_append _ _).trans h⟩
    have ih' := ih hq' hr' hp' hid' hn' hj'
    have i := run_cinv seedOf ops hq' hr' hp' hn'
    have ij := run_inv seedOf ops _ [] [] (create_jobInv false [] ({} : PbsDisk S R)) hq' hr'
    rw [List.nil_append, List.nil_append] at ij
    have hstep := step_cinv seedOf i ij o (hq o (by simp)) (fun d l e => hr d l (by simp [e])) (fun ids e => hp ids (by simp [e])) hn
    rw [run_concat, submissions_concat, events_concat, outstanding_concat]
    have ij1 := step_inv seedOf ij o (hq o (by simp)) (fun d l e => hr d l (by simp [e]))
    set w := (w0.run seedOf ops).1 with hw
    set o' := (w.step seedOf o).2 with ho'
    set out := outstanding (eventsOf seedOf w0 ops) with hout
    set subs := submissions (w0.run seedOf ops).2 with hsubs
    have hkey : (deliveredAt o'.answer.toList l).Perm (((out ++ o'.submitted).filter fun s => s.pbsId ∈ reportedBy (o, o')).flatMap
        fun s => idsAt s.samples l) := by
      cases hans : o'.answer with
      | none =>
        have : reportedBy (o, o') = [] := by
          cases o <;> simp [reportedBy, hans]
        rw [this]; simp [deliveredAt]
      | some a =>
        obtain ⟨q, qa, rfl, hA⟩ := hstep.2 a hans
        have hqq : q.plain := hq (.get q qa) (by simp) q (by simp [PbsOp.qsubAns?])
        have hsub := (getFinished_core w q qa).2.1
        have hn1 : ((subs ++ (w.execute q).2.submitted).map (·.pbsId)).Nodup := by rw [← hsub]; exact hn
        obtain ⟨i1, _⟩ := execute_cinv i q hqq hn1
        have ij2 := execute_inv ij q hqq
        rw [← hsub] at i1 ij2
        obtain ⟨m1, m2, _, _⟩ := hA l
        simp only [Option.toList, deliveredAt, List.flatMap_cons, List.flatMap_nil, List.append_nil]
        refine ((m1.map _).append (m2.map _)).trans ?_
        rw [List.map_flatMap, List.map_flatMap]
        refine (List.flatMap_append_perm _ _ _).trans ?_
        apply List.Perm.flatMap_left
        intro s hs
        have hs' := i1.out_sub.subset (List.mem_of_mem_filter hs)
        obtain ⟨sim, compute, clock, hpre⟩ := hj s hs'
        rw [appendsOf_append] at hpre
        have hpre' := (List.prefix_append _ _).trans hpre
        have hnd := hid s hs'
        obtain ⟨r, e1, _, _, _, _, _, _, e8⟩ := readResults_spec (w.execute q).1.disk s.job s.samples (appendsOf s.job ops)
          (ij2.files s hs') (i1.succ _) (i1.failed _) (i1.times _) hnd
          (fun l => (jobPrefix_records sim compute clock s.samples _ hpre' hnd l).1)
          (fun l => (jobPrefix_records sim compute clock s.samples _ hpre' hnd l).2)
        have : jobRes (w.execute q).1.disk s.job = r := by simp [jobRes, e1]
        rw [this]
        exact e8 l
    have hd : deliveredAt (answers ((w0.run seedOf ops).2 ++ [o'])) l =
        deliveredAt (answers (w0.run seedOf ops).2) l ++ deliveredAt o'.answer.toList l := by
      simp only [deliveredAt, answers, List.filterMap_append, List.flatMap_append]
      cases hh : o'.answer <;> simp [hh]
    rw [hd]
    have hfp := (filter_perm_append (fun s : Submitted => s.pbsId ∈ reportedBy (o, o')) (out ++ o'.submitted)).flatMap_right
      (fun s => idsAt s.samples l)
    rw [List.flatMap_append, List.flatMap_append] at hfp
    rw [List.append_assoc, List.flatMap_append]
    refine ((hkey.append_right _).append_left _).trans ?_
    refine (hfp.append_left _).trans ?_
    rw [← List.append_assoc]
    exact ih'.append_right _

/-- C31, conservation: after every history without restarts, whatever the jobs have computed so far and whatever `qsub` and
`qstat` answered: the identifiers delivered by all answers, those in outstanding jobs and those still pending are together
exactly the identifiers handed over, each once.  So nothing is delivered twice, and once no job is outstanding and nothing is
pending everything has been delivered. -/
theorem C31_conservation_partial (seedOf : SampleId → Nat) (ops : List (PbsOp S R)) (hq : PlainQsub ops) (hr : NoRestart ops)
    (hp : NoPermanent ops) (hid : ((handed seedOf ops).map (·.2.1)).Nodup) :
    let w0 := PbsWorld.create false [] ({} : PbsDisk S R)
    let r := w0.run seedOf ops
    ((submissions r.2).map (·.pbsId)).Nodup → JobsRun ops (submissions r.2) → ∀ l,
    (deliveredAt (answers r.2) l ++ (outstanding (eventsOf seedOf w0 ops)).flatMap (fun s => idsAt s.samples l) ++
      idsAt r.1.pool.scheduled l).Perm (idsAt (handed seedOf ops) l) := by
  intro w0 r hn hj l
  have ij := run_inv seedOf ops _ [] [] (create_jobInv false [] ({} : PbsDisk S R)) hq hr
  rw [List.nil_append, List.nil_append] at ij
  exact C31_conservation_again_partial seedOf ops hq hr hp (samples_nodup ij hid) hn hj l

/-- A history: two jobs of one and two samples; the first is reported as finished twice, the second died after one record. -/
def exampleHistory : List (PbsOp Unit Nat) :=
  [.schedule (sampleTag 0 0) 0 2 () (.ok 70), .schedule (sampleTag 1 0) 1 (1/2) () .fail, .schedule (sampleTag 1 1) 1 2 () (.ok 71),
   .job 0 (.succ 0 (sampleTag 0 0) 5), .get .fail (.ok [70]), .job 1 (.failed 1 (sampleTag 1 0) ['e']), .job 1 (.times [(0, 0, 0), (1, 3, 1)]),
   .get .fail .fail, .get .fail (.ok [71, 70])]

/-- Non-vacuity: what the example delivers. -/
example :
    let r := (PbsWorld.create false [] ({} : PbsDisk Unit Nat)).run (fun _ => 1) exampleHistory
    (answers r.2).map (·.succ) = [[(0, [(sampleTag 0 0, 5)])], [], []] ∧
    (answers r.2).map (·.failed) = [[], [], [(1, [(sampleTag 1 0, ['e']), (sampleTag 1 1, jobFailed)])]] ∧
    ((answers r.2).map (·.nOps)).getLast? = some [(0, (0, 0)), (1, (3, 1))] := by
  refine ⟨?_, ?_, ?_⟩ <;> decide +kernel

/-- C31 fails if the marker file of an accepted job could not be written: no call returns the results of that job, not even the one in which it is first
reported as finished. -/
theorem C31_marker_file_counterexample :
    let ops : List (PbsOp Unit Nat) := [.schedule (sampleTag 0 0) 0 2 () (.okNoFile 70), .job 0 (.succ 0 (sampleTag 0 0) 5), .get (.ok 71) (.ok [70]),
      .get .fail (.ok [70])]
    let r := (PbsWorld.create false [] ({} : PbsDisk Unit Nat)).run (fun _ => 1) ops
    (submissions r.2).map (fun s => (s.job, s.pbsId)) = [(0, 70), (1, 71)] ∧ (answers r.2).map (·.succ) = [[], []] ∧ (answers r.2).map (·.failed) = [[], []] := by
  refine ⟨?_, ?_, ?_⟩ <;> decide +kernel

/-- C31 fails across restarts: a new pool does not ask for the jobs of the old one, so the call in which such a job is first reported does not return
its results (they are recovered through `have_permanent_samples`, C33). -/
theorem C31_restart_counterexample :
    let ops : List (PbsOp Unit Nat) := [.schedule (sampleTag 0 0) 0 2 () (.ok 70), .job 0 (.succ 0 (sampleTag 0 0) 5), .restart true [0], .get .fail (.ok [70])]
    let r := (PbsWorld.create false [] ({} : PbsDisk Unit Nat)).run (fun _ => 1) ops
    (submissions r.2).map (fun s => (s.job, s.pbsId)) = [(0, 70)] ∧ (answers r.2).map (·.succ) = [[]] ∧ (answers r.2).map (·.failed) = [[]] := by
  refine ⟨?_, ?_, ?_⟩ <;> decide +kernel

/-! ## C32 PBS running count covers every unfinished job -/

theorem sublist_sum_le {a b : List Nat} (h : a.Sublist b) : a.sum ≤ b.sum := by
  induction h with
  | slnil => exact le_rfl
  | cons x _ ih => rw [List.sum_cons]; omega
  | cons_cons x _ ih => rw [List.sum_cons, List.sum_cons]; omega

theorem jobSize_cons (s : Submitted) (X : List Submitted) (p : Nat) :
    jobSize (s :: X) p = (if s.pbsId = p then s.samples.length else 0) + jobSize X p := by
  unfold jobSize
  by_cases h : s.pbsId = p <;> simp [h]

theorem sum_jobSize (X : List Submitted) : ∀ (L : List Nat), L.Nodup → (∀ s ∈ X, s.pbsId ∈ L) →
    (L.map (jobSize X)).sum = (X.map (·.samples.length)).sum := by
  induction X with
  | nil =>
    intro L _ _
    have : L.map (jobSize []) = L.map fun _ => 0 := List.map_congr_left fun p _ => rfl
    rw [this]; simp
  | cons s X ih =>
    intro L hL hm
    have h1 : (L.map (jobSize (s :: X))).sum = (L.map fun p => if s.pbsId = p then s.samples.length else 0).sum + (L.map (jobSize X)).sum := by
      rw [← List.sum_map_add]
      congr 1
      apply List.map_congr_left
      intro p _
      exact jobSize_cons s X p
    have h2 : ∀ L : List Nat, L.Nodup → s.pbsId ∈ L → (L.map fun p => if s.pbsId = p then s.samples.length else 0).sum = s.samples.length := by
      intro L
      induction L with
      | nil => intro _ h; simp at h
      | cons p L ihL =>
        intro hn hmem
        obtain ⟨n1, n2⟩ := List.nodup_cons.1 hn
        by_cases hp : s.pbsId = p
        · have : (L.map fun p => if s.pbsId = p then s.samples.length else 0) = L.map fun _ => 0 := by
            apply List.map_congr_left
            intro x hx
            rw [if_neg]
            intro e; exact n1 (by rw [← hp, e]; exact hx)
          rw [List.map_cons, this, List.sum_cons, if_pos hp]
          simp
        · rw [List.map_cons, List.sum_cons, if_neg hp, ihL n2 ((List.mem_cons.1 hmem).resolve_left hp)]
          simp
    rw [h1, h2 L hL (hm s (by simp)), ih L hL (fun s hs => hm s (List.mem_cons_of_mem _ hs))]
    simp

theorem jobSize_filter (X : List Submitted) (fin : List Nat) (p : Nat) (hp : p ∉ fin) :
    jobSize (X.filter fun s => s.pbsId ∉ fin) p = jobSize X p := by
  unfold jobSize
  rw [List.filter_filter]
  congr 2
  apply List.filter_congr
  intro s _
  by_cases h : s.pbsId = p
  · simp [h, hp]
  · simp [h]

theorem scan_ordered (fin : List Nat) : ∀ n (ps : List Nat), ps.length ≤ n → ps.Pairwise (fun a b => a ∈ fin → b ∈ fin) →
    (qstatScan fin ps).1 = ps.filter fun p => p ∉ fin := by
  intro n
  induction n with
  | zero =>
    intro ps h _
    have : ps = [] := List.length_eq_zero_iff.1 (Nat.le_zero.1 h)
    subst this
    simp [qstatScan]
  | succ n ih =>
    intro ps h hp
    cases ps with
    | nil => simp [qstatScan]
    | cons p rest =>
      obtain ⟨p1, p2⟩ := List.pairwise_cons.1 hp
      by_cases hpf : p ∉ fin
      · unfold qstatScan
        rw [if_pos hpf, List.filter_cons_of_pos (by simpa using hpf), ← ih rest (by simpa using h) p2]
      · have hall := fun x hx => p1 x hx (not_not.1 hpf)
        have hnil : ∀ l : List Nat, (∀ x ∈ l, x ∈ fin) → (l.filter fun p => p ∉ fin) = [] := by
          intro l hl
          rw [List.filter_eq_nil_iff]
          intro x hx; simpa using hl x hx
        rw [List.filter_cons_of_neg (by simpa using hpf), hnil rest hall]
        cases rest with
        | nil => unfold qstatScan; rw [if_neg hpf]
        | cons y rest' =>
          have := ih rest' (by simp at h; omega) (List.pairwise_cons.1 p2).2
          rw [hnil rest' (fun x hx => hall x (List.mem_cons_of_mem _ hx))] at this
          unfold qstatScan
          rw [if_neg hpf]
          exact this

/-- C32, what holds: the running count never exceeds the number of samples in the jobs still outstanding after the call, and it
is equal to it if no job reported as finished was accepted before one not reported as finished.
Missing: the case of a finished job followed by an unfinished one, see the counterexample. -/
theorem C32_running_count_partial (seedOf : SampleId → Nat) (ops : List (PbsOp S R)) (q : QsubAns) (qa : QstatAns)
    (hq : PlainQsub (ops ++ [.get q qa])) (hr : NoRestart ops) (hp : NoPermanent ops) :
    let w0 := PbsWorld.create false [] ({} : PbsDisk S R)
    let r := w0.run seedOf ops
    let o := (r.1.step seedOf (.get q qa)).2
    let left := (outstanding (eventsOf seedOf w0 (ops ++ [.get q qa]))).map (·.samples.length)
    let subs := submissions r.2 ++ o.submitted
    (subs.map (·.pbsId)).Nodup →
    ∀ a, o.answer = some a → a.nRunning ≤ left.sum ∧
      (subs.Pairwise (fun s s' => s.pbsId ∈ qa.finished → s'.pbsId ∈ qa.finished) → a.nRunning = left.sum) := by
  intro w0 r o left subs hn a ha
  have hq' : PlainQsub ops := fun o ho => hq o (by simp [ho])
  have hqq : q.plain := hq (.get q qa) (by simp) q (by simp [PbsOp.qsubAns?])
  have hn' : ((submissions r.2).map (·.pbsId)).Nodup := by
    rw [List.map_append] at hn; exact (List.nodup_append.1 hn).1
  have i := run_cinv seedOf ops hq' hr hp hn'
  have ij := run_inv seedOf ops _ [] [] (create_jobInv false [] ({} : PbsDisk S R)) hq' hr
  rw [List.nil_append, List.nil_append] at ij
  have hsub := (getFinished_core r.1 q qa).2.1
  have hn1 : ((submissions r.2 ++ (r.1.execute q).2.submitted).map (·.pbsId)).Nodup := by rw [← hsub]; exact hn
  obtain ⟨i1, _⟩ := execute_cinv i q hqq hn1
  rw [← hsub] at i1
  have hrep : reportedBy ((.get q qa : PbsOp S R), o) = qa.finished := by simp [reportedBy, ha]
  have hleft : left = ((outstanding (eventsOf seedOf w0 ops) ++ o.submitted).filter fun s => s.pbsId ∉ qa.finished).map (·.samples.length) := by
    simp only [left]
    rw [events_concat, outstanding_concat]
    have : reportedBy ((.get q qa : PbsOp S R), ((w0.run seedOf ops).1.step seedOf (.get q qa)).2) = qa.finished := hrep
    rw [this]
  rcases getFinished_spec i ij q hqq qa hn with ⟨k1, _, _⟩ | ⟨a', k1, _, _, _, k5⟩
  · have : o.answer = none := k1
    rw [this] at ha; simp at ha
  · have k1' : o.answer = some a' := k1
    rw [ha, Option.some.injEq] at k1'
    subst k1'
    have hsum : (((r.1.execute q).1.pool.pbsIds.filter fun p => p ∉ qa.finished).map (jobSize (outstanding (eventsOf seedOf w0 ops) ++ o.submitted))).sum
        = left.sum := by
      rw [hleft]
      rw [← sum_jobSize _ ((r.1.execute q).1.pool.pbsIds.filter fun p => p ∉ qa.finished)]
      · congr 1
        apply List.map_congr_left
        intro p hp
        simp only [List.mem_filter, decide_eq_true_eq] at hp
        exact (jobSize_filter _ _ _ hp.2).symm
      · exact (hn.sublist i1.sub).filter _
      · intro s hs
        simp only [List.mem_filter, decide_eq_true_eq] at hs ⊢
        exact ⟨i1.ids s hs.1, hs.2⟩
    rcases k5 with ⟨hemp, h0⟩ | hrun
    · rw [hemp] at hsum
      simp only [List.filter_nil, List.map_nil, List.sum_nil] at hsum
      rw [h0, ← hsum]; simp
    · have hrun' : a.nRunning = (((qstatScan qa.finished (r.1.execute q).1.pool.pbsIds).1.map
        (jobSize (outstanding (eventsOf seedOf w0 ops) ++ o.submitted))).sum : Nat) := hrun
      rw [hrun', ← hsum]
      refine ⟨?_, ?_⟩
      · have h3 := (qstatScan_spec qa.finished _ (r.1.execute q).1.pool.pbsIds le_rfl).2.2
        exact_mod_cast sublist_sum_le (h3.map _)
      · intro hpw
        have : (r.1.execute q).1.pool.pbsIds.Pairwise (fun a b => a ∈ qa.finished → b ∈ qa.finished) :=
          List.Pairwise.sublist i1.sub (List.pairwise_map.2 hpw)
        rw [scan_ordered _ _ _ le_rfl this]

/-- Non-vacuity: with the second of two jobs finished, the count is that of the first. -/
example :
    let op (n : Nat) : PbsOp Unit Nat := .schedule (sampleTag 0 n) 0 2 () (.ok (70 + n))
    let r := (PbsWorld.create false [] ({} : PbsDisk Unit Nat)).run (fun _ => 1) [op 0, op 1, .get .fail (.ok [71])]
    (answers r.2).map (·.nRunning) = [1] := by
  decide +kernel

/-- The full claim fails: the job after a finished one is overlooked, so 0 running samples are reported while a job with one
sample is unfinished (and the sampler stops waiting). -/
theorem C32_counterexample :
    let op (n : Nat) : PbsOp Unit Nat := .schedule (sampleTag 0 n) 0 2 () (.ok (70 + n))
    let ops := [op 0, op 1, .get .fail (.ok [70])]
    let w0 := PbsWorld.create false [] ({} : PbsDisk Unit Nat)
    (answers (w0.run (fun _ => 1) ops).2).map (·.nRunning) = [0] ∧
    (outstanding (eventsOf (fun _ => 1) w0 ops)).map (·.samples.length) = [1] := by
  constructor <;> decide +kernel

/-- A sample whose package could not be submitted is not counted either. -/
theorem C32_pending_counterexample :
    let ops : List (PbsOp Unit Nat) := [.schedule (sampleTag 0 0) 0 2 () .fail, .get .fail (.ok [])]
    let r := (PbsWorld.create false [] ({} : PbsDisk Unit Nat)).run (fun _ => 1) ops
    (answers r.2).map (·.nRunning) = [0] ∧ r.1.pool.scheduled.length = 1 := by
  constructor <;> decide +kernel

end MLMC
