import Verif.Props.PbsRestart
import Verif.Proofs.PbsSessions
/-! # C106 Programs with PBS, killed and started again any number of times on the same file and directory -/
namespace MLMC
variable {Cfg K C : Type}

/-- C106: however programs call the sampler (`renew_failed_samples` too), are killed or die of exceptions and are started again (any number
of times, each with a new or an old directory, any listing of job scripts, any list of unfinished identifiers, any answers of `qsub` and
`qstat`), if job processes record only what the simulation of a sample computes and failures of their own samples: on every level of the file the scheduled list is the samples `0 … k-1`, and every stored
value is the right value of the sample whose identifier is stored at the same position. -/
theorem C106_values_right (env : PbsEnv Cfg K C) (es : List (PbsEvent K)) (p : PbsProg Cfg K C)
    (hp : (PbsProg.start env).events env es = some p) (hj : HonestJobs env p.hist) (hf : HonestFailures env p.hist)
    (l : Nat) (hl : l < env.sims.length) :
    ∃ (x : LevelGroup (PairRes K)) (k : Nat) (stored : List (SampleId × PairRes K)), p.sys.store[l]? = some x ∧
      x.scheduled = (List.range k).map (sampleTag l) ∧ x.collectedIds = stored.map (·.1) ∧
      x.collectedValues = (if stored = [] then none else some (stored.map (·.2))) ∧ (∀ s ∈ stored, RightValue env l s.1 s.2) ∧
      ∃ failed, x.failed = some failed ∧ ∀ s ∈ failed, ∃ i, s.1 = sampleTag l i := by
  obtain ⟨h0, i0⟩ := sess_start env
  obtain ⟨⟨m, -, hs, -⟩, hi⟩ := sched_events (keep := False) es h0 i0 (fun k => k.elim) hp
  rw [List.nil_append] at hs
  obtain ⟨y, y1, y2, y3, y4, y5⟩ := hdf_fresh_spec env.sims.length l hl m
  rw [← hs.store] at y1
  obtain ⟨k, hk⟩ := (tagLists_inv hi).2 l y y1
  have hok := (worldOk_run p.hist (hs.ops hj hf) hj hf).2.2
  refine ⟨y, k, savedSucc m l, y1, ?_, y3, y4, fun s hs' => ?_, savedFailed m l, y5, fun s hs' => ?_⟩
  · rw [hk, levelTags, List.range_eq_range']
  · obtain ⟨a, ha, hx⟩ := hs.succ l s hs'
    exact (hok a ha l).1 s hx
  · obtain ⟨a, ha, hx⟩ := hs.failed l s hs'
    exact (hok a ha l).2 s hx

/-- C106: nothing in the file is lost, changed or moved: what is in the file after some events is a prefix of what is there after more;
only `renew_failed_samples` clears failures. -/
theorem C106_nothing_lost (env : PbsEnv Cfg K C) (es more : List (PbsEvent K)) (p q : PbsProg Cfg K C)
    (hp : (PbsProg.start env).events env es = some p) (hq : p.events env more = some q) (l : Nat) (hl : l < env.sims.length) :
    ∃ x y : LevelGroup (PairRes K), p.sys.store[l]? = some x ∧ q.sys.store[l]? = some y ∧
      x.scheduled <+: y.scheduled ∧ x.collectedIds <+: y.collectedIds ∧
      x.collectedValues.getD [] <+: y.collectedValues.getD [] ∧
      ((∀ cmds, PbsEvent.renew cmds ∉ more) → x.failed.getD [] <+: y.failed.getD []) := by
  obtain ⟨h0, i0⟩ := sess_start env
  obtain ⟨⟨m, -, hs, -⟩, hi⟩ := sched_events (keep := False) es h0 i0 (fun k => k.elim) hp
  rw [List.nil_append] at hs
  obtain ⟨⟨m', hc, hs', -⟩, -⟩ := sched_events (keep := ∀ cmds, PbsEvent.renew cmds ∉ more) more hs hi (fun k => k) hq
  obtain ⟨x, x1, x2, x3, x4, x5⟩ := hdf_fresh_spec env.sims.length l hl m
  obtain ⟨y, y1, y2, y3, y4, y5⟩ := hdf_fresh_spec env.sims.length l hl (m ++ m')
  have e : ∀ L : List (SampleId × PairRes K), (if L = [] then none else some (L.map (·.2))).getD [] = L.map (·.2) := by
    intro L; by_cases h : L = [] <;> simp [h]
  have hpre : savedSucc m l <+: savedSucc (m ++ m') l := by
    simp only [savedSucc, List.flatMap_append]; exact List.prefix_append _ _
  refine ⟨x, y, by rw [hs.store]; exact x1, by rw [hs'.store]; exact y1, ?_, ?_, ?_, ?_⟩
  · rw [x2, y2]; simp only [savedSched, List.flatMap_append]; exact List.prefix_append _ _
  · rw [x3, y3]; exact hpre.map _
  · rw [x4, y4, e, e]; exact hpre.map _
  · intro hk; rw [x5, y5]; exact savedFailed_prefix m l m' (hc hk)

namespace ExPbsSess
open ExPbsProg (env sim simAt)

/-- Appends of job `j` with sample `i`. -/
def run (j i : Nat) : List (Nat × JobAppend (PairRes (Option ℚ))) :=
  (jobAppends simAt (pbsCompute env.md5) (fun _ => (0, 1)) [(0, sampleTag 0 i, computeSeed env.md5 (sampleTag 0 i))]).map (j, ·)

/-- A record of the history agrees with the assumption about jobs. -/
def HonestAt (env : PbsEnv Unit (Option ℚ) Unit) (h : List (PbsOp (PoolSim Unit (Option ℚ) Unit) (PairRes (Option ℚ)))) (k : Nat) : Bool :=
  match h[k]? with
  | some (.job j (.succ l id v)) => (packagesIn env (h.take k)).any fun pk => decide (pk.1 = j) && pk.2.any fun t =>
      decide (t.1 = l) && decide (t.2.1 = id) && match Dict.get? (worldAfter env (h.take k)).disk.sims l with
        | some s => match pbsCompute env.md5 s id t.2.2 with
          | .ok v' => decide (v' = v)
          | .error _ => false
        | none => false
  | _ => true

theorem honest {env : PbsEnv Unit (Option ℚ) Unit} {h} (hc : ∀ k ∈ List.range h.length, HonestAt env h k = true) : HonestJobs env h := by
  intro before j l id v rest e
  have hk := hc before.length (by rw [e]; simp)
  rw [e] at hk
  simp only [HonestAt, List.getElem?_append_right (Nat.le_refl _), Nat.sub_self, List.getElem?_cons_zero, List.take_left', List.any_eq_true,
    Bool.and_eq_true, decide_eq_true_eq] at hk
  obtain ⟨pk, h1, rfl, t, h3, ⟨rfl, rfl⟩, h5⟩ := hk
  split at h5
  · rename_i s hs
    split at h5
    · rename_i v' hv
      rw [decide_eq_true_eq] at h5
      subst h5
      exact ⟨pk.2, t.2.2, h1, h3, before, s, List.prefix_refl _, hs, hv⟩
    · cases h5
  · cases h5

/-- The same for recorded failures. -/
def FailAt (env : PbsEnv Unit (Option ℚ) Unit) (h : List (PbsOp (PoolSim Unit (Option ℚ) Unit) (PairRes (Option ℚ)))) (k : Nat) : Bool :=
  match h[k]? with
  | some (.job j (.failed l id _)) => (packagesIn env (h.take k)).any fun pk => decide (pk.1 = j) && pk.2.any fun t =>
      decide (t.1 = l) && decide (t.2.1 = id)
  | _ => true

theorem honestFailures {env : PbsEnv Unit (Option ℚ) Unit} {h} (hc : ∀ k ∈ List.range h.length, FailAt env h k = true) : HonestFailures env h := by
  intro before j l id v rest e
  have hk := hc before.length (by rw [e]; simp)
  rw [e] at hk
  simp only [FailAt, List.getElem?_append_right (Nat.le_refl _), Nat.sub_self, List.getElem?_cons_zero, List.take_left', List.any_eq_true,
    Bool.and_eq_true, decide_eq_true_eq] at hk
  obtain ⟨pk, h1, rfl, t, h3, rfl, rfl⟩ := hk
  exact ⟨pk.2, t.2.2, h1, h3⟩

/-- The state after these events (the start if there is none). -/
def final (es : List (PbsEvent (Option ℚ))) : PbsProg Unit (Option ℚ) Unit := ((PbsProg.start env).events env es).getD (.start env)

/-- Four programs.  The first schedules two samples and is killed after collecting the first one but before storing it; the second
gets it again, schedules a third sample and is killed before the sample is listed as scheduled; the third is stopped by `qstat`, and the
fourth schedules the third sample again and gets its result. -/
def es : List (PbsEvent (Option ℚ)) := [
  .call (.setInitial [2]), .call (.schedule (some 0) [] fun i => ([], .ok (69 + i))), .call (.pause (run 0 0)),
  .restart (.killed (.unstored [] { qsub := .fail, qstat := .ok [70] })) [] true [0, 1] [sampleTag 0 0, sampleTag 0 1],
  .call (.ask (some 1) [{ qsub := .fail, qstat := .fail, time := 2 }]),
  .call (.setInitial [3]),
  .restart (.killed (.inSchedule (fun _ => ([], .ok 75)) 2)) [] true [0, 1, 2] [],
  .restart (.inGet [] { qsub := .fail, qstat := .fail }) [] true [0, 1, 2] [],
  .call (.setInitial [3]), .call (.schedule (some 0) [] fun _ => ([], .ok 76)), .call (.pause (run 3 2)),
  .call (.ask none [{ qsub := .fail, qstat := .ok [76] }])]

/-- The hypotheses of both theorems hold for these programs, and values are stored by two of them. -/
example : (PbsProg.start env).events env es = some (final es) ∧ HonestJobs env (final es).hist ∧ HonestFailures env (final es).hist ∧
    (final es).sys.store.map (·.collectedIds) = [[sampleTag 0 0, sampleTag 0 2]] ∧
    (final es).sys.store.map (·.scheduled) = [[sampleTag 0 0, sampleTag 0 1, sampleTag 0 2]] :=
  ⟨ExPbsRestart.getD_some (by decide +kernel), honest (by decide +kernel), honestFailures (by decide +kernel), by decide +kernel, by decide +kernel⟩

/-- Programs that renew: the job of sample 0 dies, job 1 records that sample 1 failed; a program is killed after it handed sample 0 over again,
the next one renews both and gets sample 0. -/
def esRenew : List (PbsEvent (Option ℚ)) := [
  .call (.setInitial [2]), .call (.schedule (some 0) [] fun i => ([], .ok (69 + i))), .call (.pause [(1, .failed 0 (sampleTag 0 1) [])]),
  .call (.ask none [{ qsub := .fail, qstat := .ok [70, 71] }]),
  .restart (.inRenew (fun _ => ([], .ok 75)) 1) [] true [0, 1, 2] [],
  .renew (fun i => ([], .ok (80 + i))), .call (.pause (run 3 0)),
  .call (.ask (some 1) [{ qsub := .fail, qstat := .ok [80], time := 2 }])]

/-- The hypotheses hold for these programs too; the failures are cleared and the renewed sample is stored. -/
example : (PbsProg.start env).events env esRenew = some (final esRenew) ∧ HonestJobs env (final esRenew).hist ∧
    HonestFailures env (final esRenew).hist ∧ (final (esRenew.take 4)).sys.store.map (fun x => (x.failed.getD []).map (·.1)) = [[sampleTag 0 0, sampleTag 0 1]] ∧
    (final esRenew).sys.store.map (·.collectedIds) = [[sampleTag 0 0]] ∧ (final esRenew).sys.store.map (·.failed) = [some []] :=
  ⟨ExPbsRestart.getD_some (by decide +kernel), honest (by decide +kernel), honestFailures (by decide +kernel), by decide +kernel, by decide +kernel,
    by decide +kernel⟩

/-- `qstat` reports jobs it was asked for. -/
def AskedAt (env : PbsEnv Unit (Option ℚ) Unit) (h : List (PbsOp (PoolSim Unit (Option ℚ) Unit) (PairRes (Option ℚ)))) (k : Nat) : Bool :=
  match h[k]? with
  | some (.get q (.ok fin)) => fin.all fun pid => decide (pid ∈ ((worldAfter env (h.take k)).execute q).1.pool.pbsIds)
  | _ => true

theorem asked {env : PbsEnv Unit (Option ℚ) Unit} {h} (hc : ∀ k ∈ List.range h.length, AskedAt env h k = true) : AskedOnly (computeSeed env.md5) h := by
  intro before q fin rest e pid hpid
  have hk := hc before.length (by rw [e]; simp)
  rw [e] at hk
  simp only [AskedAt, List.getElem?_append_right (Nat.le_refl _), Nat.sub_self, List.getElem?_cons_zero, List.take_left', List.all_eq_true,
    decide_eq_true_eq] at hk
  exact hk pid hpid

/-- Two samples make a job. -/
def pairs : PbsEnv Unit (Option ℚ) Unit := { env with size := fun _ => 2 / 3 }

/-- As `C106_sample_twice_counterexample` tells. -/
def twice : List (PbsEvent (Option ℚ)) := [
  .call (.setInitial [2]), .call (.schedule (some 0) [] fun _ => ([], .ok 70)), .restart (.killed .between) [] true [0] [sampleTag 0 0, sampleTag 0 1],
  .call (.ask none [{ jobs := (run 0 0).take 1, qsub := .fail, qstat := .fail }])]

/-- The state after them. -/
def twiceEnd : PbsProg Unit (Option ℚ) Unit := ((PbsProg.start pairs).events pairs twice).getD (.start pairs)

/-- The examples above are of this kind. -/
example : AskedOnly (computeSeed env.md5) (final es).hist ∧ AskedOnly (computeSeed env.md5) (final esRenew).hist :=
  ⟨asked (by decide +kernel), asked (by decide +kernel)⟩

end ExPbsSess

/-- Each value is right, but a sample can be counted twice: a program is killed while a job of two samples runs; the job has recorded the
first one when the next program asks for samples, and looking for the second one reads the job's file again.  Two samples are scheduled,
one has run, two results are stored. -/
theorem C106_sample_twice_counterexample : ∃ (env : PbsEnv Unit (Option ℚ) Unit) (es : List (PbsEvent (Option ℚ))) (p : PbsProg Unit (Option ℚ) Unit),
    env.Proper ∧ (PbsProg.start env).events env es = some p ∧ HonestJobs env p.hist ∧
    HonestFailures env p.hist ∧ AskedOnly (computeSeed env.md5) p.hist ∧
    p.sys.store.map (·.scheduled) = [[sampleTag 0 0, sampleTag 0 1]] ∧ p.sys.store.map (·.collectedIds) = [[sampleTag 0 0, sampleTag 0 0]] :=
  ⟨ExPbsSess.pairs, ExPbsSess.twice, ExPbsSess.twiceEnd, ExPbsProg.proper, ExPbsRestart.getD_some (by decide +kernel),
    ExPbsSess.honest (by decide +kernel), ExPbsSess.honestFailures (by decide +kernel), ExPbsSess.asked (by decide +kernel), by decide +kernel, by decide +kernel⟩

end MLMC
