import Verif.Model.PbsSim
import Verif.Props.PbsCollect
import Verif.Props.Pool
/-! Properties C12 and C35 for the PBS pool: which simulation and seed a sample is computed with. -/
namespace MLMC
variable {S R Cfg K C : Type}

/-! ## C35 the level simulation read by a job -/

/-- The first simulation handed over for level `l`. -/
def firstSim (ops : List (PbsOp S R)) (l : Nat) : Option S :=
  ops.findSome? fun | .schedule _ k _ sim _ => if k = l then some sim else none | _ => none

theorem execute_sims (w : PbsWorld S R) (q : QsubAns) : (w.execute q).1.disk.sims = w.disk.sims := by
  unfold PbsWorld.execute
  split
  · rfl
  · cases q <;> rfl

/-- C35, the simulation: in every history (restarts keep the directory), the file read by jobs for a level holds the first
simulation handed over for this level. -/
theorem C35_level_simulation_is_first (seedOf : SampleId → Nat) (ops : List (PbsOp S R)) (hr : ∀ l, .restart false l ∉ ops) (l : Nat) :
    Dict.get? ((PbsWorld.create false [] ({} : PbsDisk S R)).run seedOf ops).1.disk.sims l = firstSim ops l := by
  induction ops using List.reverseRecOn with
  | nil => rfl
  | append_singleton ops o ih =>
    have ih' := ih (fun l h => hr l (by simp [h]))
    rw [run_concat]
    simp only
    set w := ((PbsWorld.create false [] ({} : PbsDisk S R)).run seedOf ops).1
    have hf : firstSim (ops ++ [o]) l = (firstSim ops l).or (firstSim [o] l) := by
      simp only [firstSim, List.findSome?_append]
    rw [hf, ← ih']
    have hnone : ∀ o' : PbsOp S R, (∀ id k size sim q, o' ≠ .schedule id k size sim q) → firstSim [o'] l = none := by
      intro o' h
      cases o' with
      | schedule id k size sim q => exact absurd rfl (h id k size sim q)
      | _ => rfl
    cases o with
    | schedule id k size sim q =>
      have h1 : (w.step seedOf (.schedule id k size sim q)).1.disk.sims =
          if (Dict.get? w.disk.sims k).isSome then w.disk.sims else Dict.set w.disk.sims k sim := by
        simp only [PbsWorld.step, PbsWorld.schedule]
        split
        · rw [execute_sims]
        · rfl
      rw [h1]
      have h2 : firstSim [(.schedule id k size sim q : PbsOp S R)] l = if k = l then some sim else none := by
        simp only [firstSim, List.findSome?_cons, List.findSome?_nil]
        split <;> simp_all
      rw [h2]
      by_cases hk : k = l
      · subst hk
        cases hg : Dict.get? w.disk.sims k with
        | none => simp [Dict.get?_set_self]
        | some s => simp [hg]
      · rw [if_neg hk, Option.or_none]
        split
        · rfl
        · exact Dict.get?_set_ne _ _ (Ne.symm hk)
    | execute q =>
      rw [hnone _ (by simp), Option.or_none]
      simp only [PbsWorld.step, execute_sims]
    | get q a =>
      rw [hnone _ (by simp), Option.or_none]
      simp only [PbsWorld.step]
      rw [(getFinished_core w q a).1.sims, execute_sims]
    | permanent ids => rw [hnone _ (by simp), Option.or_none]; rfl
    | job j a =>
      rw [hnone _ (by simp), Option.or_none]
      simp only [PbsWorld.step, (apply_rest j w.disk a).2.1]
    | restart d li =>
      cases d with
      | true => rw [hnone _ (by simp), Option.or_none]; rfl
      | false => exact absurd (by simp) (hr li)

/-- Non-vacuity, and a pitfall: a simulation handed over after a restart with another configuration is not used by jobs; the
file of the earlier run stays. -/
theorem C35_stale_simulation_counterexample :
    let ops : List (PbsOp Nat Nat) := [.schedule (sampleTag 0 0) 0 2 7 (.ok 70), .restart true [0], .schedule (sampleTag 0 1) 0 2 8 (.ok 71)]
    Dict.get? ((PbsWorld.create false [] ({} : PbsDisk Nat Nat)).run (fun _ => 1) ops).1.disk.sims 0 = some 7 := by
  decide +kernel

/-! ## C12 for the PBS pool -/

theorem jobLoop_record (sim : Nat → Option S) (compute : S → SampleId → Nat → Except Msg R) (clock : Nat → ℚ × ℚ) :
    ∀ (ts : List Trip) (cur cnt n : Nat) (l : Nat) (id : SampleId) (o : Except Msg R),
      (l, id, o) ∈ writtenRecords (jobLoop sim compute clock ts cur cnt n) →
      ∃ seed s, (l, id, seed) ∈ ts ∧ sim l = some s ∧ o = compute s id seed := by
  intro ts
  induction ts with
  | nil => intro _ _ _ l id o h; simp [jobLoop, writtenRecords] at h
  | cons t ts ih =>
    intro cur cnt n l id o h
    obtain ⟨k, id', seed⟩ := t
    simp only [jobLoop] at h
    cases hs : sim k with
    | none => rw [hs] at h; simp [writtenRecords] at h
    | some s =>
      rw [hs] at h
      simp only at h
      rw [records_outcome, records_times, List.mem_cons] at h
      rcases h with h | h
      · simp only [Prod.mk.injEq] at h
        obtain ⟨rfl, rfl, rfl⟩ := h
        exact ⟨seed, s, by simp, hs, rfl⟩
      · obtain ⟨seed', s', h1, h2, h3⟩ := ih _ _ _ l id o h
        exact ⟨seed', s', List.mem_cons_of_mem _ h1, h2, h3⟩

theorem writtenSucc_mem (as : List (JobAppend R)) (l : Nat) (id : SampleId) (r : R) (h : (id, r) ∈ writtenSucc as l) :
    (l, id, .ok r) ∈ writtenRecords as := by
  rw [writtenSucc, List.mem_filterMap] at h
  obtain ⟨a, ha, he⟩ := h
  rw [writtenRecords, List.mem_filterMap]
  refine ⟨a, ha, ?_⟩
  cases a with
  | succ k id' r' =>
    simp only at he
    split at he
    · rename_i hk; simp only [Option.some.injEq, Prod.mk.injEq] at he; obtain ⟨rfl, rfl⟩ := he; subst hk; rfl
    · simp at he
  | failed k id' m => simp at he
  | times rs => simp at he

theorem pbsCompute_ok (md5 : SampleId → List UInt8) (sim : PoolSim Cfg K C) (id : SampleId) (seed : Nat) (r : ResPart K × ResPart K) :
    pbsCompute md5 sim id seed = .ok r ↔
      sim.calculate sim.cfg seed = .pair r.1 r.2 ∧ WellFormed sim.fmt (sim.calculate sim.cfg seed) := by
  obtain ⟨h1, h2, _⟩ := C11_success_iff_well_formed md5 sim id (some seed) 0
  simp only [Option.getD_some] at h1 h2
  unfold pbsCompute
  simp only
  constructor
  · intro h
    split at h
    · rename_i r' he hr
      simp only [Except.ok.injEq] at h
      subst h
      obtain ⟨f, c, e1, e2⟩ := h2 he
      rw [hr, Option.some.injEq] at e2
      subst e2
      exact ⟨e1, h1.1 he⟩
    · simp at h
  · rintro ⟨e, hw⟩
    have he := h1.2 hw
    obtain ⟨f, c, e1, e2⟩ := h2 he
    rw [e1] at e
    simp only [SimOut.pair.injEq] at e
    obtain ⟨rfl, rfl⟩ := e
    rw [he, e2]

/-- Jobs run the simulations stored on disk. -/
def JobsRunSims (md5 : SampleId → List UInt8) (sims : Nat → Option (PoolSim Cfg K C))
    (ops : List (PbsOp (PoolSim Cfg K C) (ResPart K × ResPart K))) (subs : List Submitted) : Prop :=
  ∀ s ∈ subs, ∃ clock, appendsOf s.job ops <+: jobAppends sims (pbsCompute md5) clock s.samples

/-- C12 for the PBS pool: whenever a result of a sample is delivered, in any history without restarts, it is what the simulation
handed over first for its level computes from its configuration and the seed of the identifier, exactly as in the other pools
(`C12_result_function_of_id_and_level`). -/
theorem C12_pbs_result_function_of_id_and_level (md5 : SampleId → List UInt8)
    (ops : List (PbsOp (PoolSim Cfg K C) (ResPart K × ResPart K))) (q : QsubAns) (qa : QstatAns)
    (hq : PlainQsub (ops ++ [.get q qa])) (hr : NoRestart ops) (hp : NoPermanent ops)
    (hid : ((handed (computeSeed md5) ops).map (·.2.1)).Nodup) :
    let w0 := PbsWorld.create false [] ({} : PbsDisk (PoolSim Cfg K C) (ResPart K × ResPart K))
    let r := w0.run (computeSeed md5) ops
    let o := (r.1.step (computeSeed md5) (.get q qa)).2
    ((submissions r.2 ++ o.submitted).map (·.pbsId)).Nodup →
    JobsRunSims md5 (fun l => Dict.get? r.1.disk.sims l) ops (submissions r.2 ++ o.submitted) →
    ∀ a, o.answer = some a → ∀ l id res, (id, res) ∈ atLevel a.succ l →
      ∃ sim, firstSim ops l = some sim ∧ outcome md5 id sim = .pair res.1 res.2 ∧ WellFormed sim.fmt (outcome md5 id sim) := by
  intro w0 r o hn hj a ha l id res hm
  have hC := (C31_collected_when_first_reported_partial (computeSeed md5) ops q qa hq hr hp hid hn).2 a ha l
  have hm' := hC.1.mem_iff.1 hm
  obtain ⟨s, hs, hws⟩ := List.mem_flatMap.1 hm'
  have hn' : ((submissions r.2).map (·.pbsId)).Nodup := by
    rw [List.map_append] at hn; exact (List.nodup_append.1 hn).1
  have hq' : PlainQsub ops := fun o ho => hq o (by simp [ho])
  have hqq : q.plain := hq (.get q qa) (by simp) q (by simp [PbsOp.qsubAns?])
  have i := run_cinv (computeSeed md5) ops hq' hr hp hn'
  have hsubs : s ∈ submissions r.2 ++ o.submitted := by
    rcases List.mem_append.1 (List.mem_of_mem_filter hs) with h | h
    · exact List.mem_append_left _ (i.out_sub.subset h)
    · exact List.mem_append_right _ h
  obtain ⟨clock, hpre⟩ := hj s hsubs
  have hrec := (records_prefix hpre).subset (writtenSucc_mem _ _ _ _ hws)
  obtain ⟨seed, sim, h1, h2, h3⟩ := jobLoop_record _ _ _ _ _ _ _ _ _ _ hrec
  have h1' : (l, id, seed) ∈ s.samples := (sort_perm _).mem_iff.1 h1
  have hseed : seed = computeSeed md5 id := by
    have ij := run_inv (computeSeed md5) ops _ [] [] (create_jobInv false [] ({} : PbsDisk (PoolSim Cfg K C) (ResPart K × ResPart K))) hq' hr
    rw [List.nil_append, List.nil_append] at ij
    have ij1 := execute_inv ij q hqq
    have hsub := (getFinished_core r.1 q qa).2.1
    have hin : (l, id, seed) ∈ handed (computeSeed md5) ops := by
      rw [← ij1.all, List.mem_append]
      left
      rw [List.mem_flatMap]
      refine ⟨s, ?_, h1'⟩
      rw [← hsub]; exact hsubs
    simp only [handed, List.mem_filterMap] at hin
    obtain ⟨op, _, he⟩ := hin
    cases op with
    | schedule id' l' size sim' q' =>
      simp only [Option.some.injEq, Prod.mk.injEq] at he
      obtain ⟨_, rfl, rfl⟩ := he
      rfl
    | _ => simp at he
  subst hseed
  obtain ⟨e1, e2⟩ := (pbsCompute_ok md5 sim id _ res).1 h3.symm
  refine ⟨sim, ?_, e1, e2⟩
  rw [← C35_level_simulation_is_first (computeSeed md5) ops (fun l h => hr _ _ h) l]
  exact h2

/-- Non-vacuity: one sample, its job (which runs the stored simulation), and the answer. -/
example :
    let sim := exampleSim 0 0 false
    let id := sampleTag 0 0
    let ops : List (PbsOp (PoolSim Nat Nat Nat) (ResPart Nat × ResPart Nat)) := [.schedule id 0 2 sim (.ok 70),
      .execute (.ok 70), .job 0 (.succ 0 id (.array [computeSeed exampleMd5 id], .array [0]))]
    let r := (PbsWorld.create false [] ({} : PbsDisk (PoolSim Nat Nat Nat) (ResPart Nat × ResPart Nat))).run (computeSeed exampleMd5) ops
    let o := (r.1.step (computeSeed exampleMd5) (.get .fail (.ok [70]))).2
    JobsRunSims exampleMd5 (fun l => Dict.get? r.1.disk.sims l) ops (submissions r.2 ++ o.submitted) ∧
    (o.answer.map fun a => (atLevel a.succ 0).map (·.1)) = some [id] ∧
    (o.answer.map fun a => (atLevel a.succ 0).map (·.2.1)) = some [.array [computeSeed exampleMd5 id]] := by
  intro sim id ops r o
  refine ⟨?_, by decide +kernel, by decide +kernel⟩
  intro s hs
  have hs' : s ∈ [(⟨0, 70, [(0, id, computeSeed exampleMd5 id)]⟩ : Submitted)] := by
    have : submissions r.2 ++ o.submitted = [⟨0, 70, [(0, id, computeSeed exampleMd5 id)]⟩] := by decide +kernel
    rwa [this] at hs
  rw [List.mem_singleton] at hs'
  subst hs'
  refine ⟨fun _ => (0, 0), [.times [(0, (0 : ℚ), 1)]], ?_⟩
  decide +kernel

end MLMC
