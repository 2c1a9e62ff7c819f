import Verif.Props.PbsRecover
import Verif.Proofs.PbsOnceProg
/-! # C138 Each sample is stored once over any number of programs with PBS -/
namespace MLMC
variable {Cfg K C : Type}

/-- C138: programs with PBS, that may renew failed samples, were killed or died and were started again any number of times, each on the
old directory and with unfinished samples of the file.  If PBS gives no identifier twice, job numbers are not used again, no job records a
sample twice, and no job is read half recorded or with failures (`WholeJobs`), then no sample of any level is stored twice, or as failed
twice, or both with results and as failed, and only samples listed as scheduled are stored. -/
theorem C138_stored_once_partial (env : PbsEnv Cfg K C) (es : List (PbsEvent K)) (p : PbsProg Cfg K C)
    (hp : (PbsProg.start env).events env es = some p) (hu : GivesUnfinished env es)
    (hc : CleanPbs env p.hist) (hw : WholeJobs env p.hist) (hj : HonestJobs env p.hist) (hf : HonestFailures env p.hist)
    (l : Nat) (x : LevelGroup (PairRes K)) (hx : p.sys.store[l]? = some x) (done : List SampleId)
    (hd : done = x.collectedIds ++ (x.failed.getD []).map (·.1)) :
    done.Nodup ∧ done ⊆ x.scheduled ∧ done.length ≤ x.scheduled.length := by
  obtain ⟨s0, i0⟩ := sess_start env
  have h := once_events es s0 i0 (once_start env) hu hp ⟨hc, hw, hj, hf⟩
  obtain ⟨-, hi⟩ := sched_events (keep := False) es s0 i0 (fun k => k.elim) hp
  obtain ⟨k, hk⟩ := (tagLists_inv hi).2 l x hx
  have hst : finIds p.sys.store l = done := by simp [finIds, storedIds, failedIds, hx, hd]
  have h1 := h.nodup l
  have h2 := h.stored l
  rw [hst] at h1 h2
  have h3 : done ⊆ x.scheduled := by
    intro id hid
    obtain ⟨i, rfl, -, hl⟩ := h2 id hid
    simp only [listedN, hx, Option.map_some, Option.getD_some, hk, levelTags, List.length_map, List.length_range'] at hl
    rw [hk]
    simp only [levelTags, List.mem_map, List.mem_range']
    exact ⟨i, ⟨i, by omega, by omega⟩, rfl⟩
  exact ⟨h1, h3, (h1.subperm h3).length_le⟩

namespace ExPbsOnce
open ExPbsProg (env sim simAt)
open ExPbsSess (run es final pairs honest honestFailures asked HonestAt)

abbrev Op := PbsOp (PoolSim Unit (Option ℚ) Unit) (PairRes (Option ℚ))

def isPlain (o : Op) : Bool := match o.qsubAns? with
  | some (.okNoFile _) => false
  | _ => true

/-- Samples recorded, with the numbers of jobs. -/
def records (h : List Op) : List (Nat × SampleId) :=
  h.filterMap fun | .job j (.succ _ id _) => some (j, id) | .job j (.failed _ id _) => some (j, id) | _ => none

def NumbersAt (env : PbsEnv Unit (Option ℚ) Unit) (h : List Op) (k : Nat) : Bool := match h[k]? with
  | some (.restart true listing) => (packagesIn env (h.take k)).all fun pk => decide (pk.1 < getJobCount listing)
  | some (.restart false _) => false
  | _ => true

theorem clean {env : PbsEnv Unit (Option ℚ) Unit} {h : List Op} (h1 : ∀ o ∈ h, isPlain o = true) (h2 : (pbsIdsIn env h).Nodup)
    (h3 : AskedOnly (computeSeed env.md5) h) (h4 : ∀ k ∈ List.range h.length, NumbersAt env h k = true) (h5 : (records h).Nodup) : CleanPbs env h := by
  refine ⟨?_, h2, h3, ?_, ?_, ?_⟩
  · intro o ho q hq
    have := h1 o ho
    rw [Option.mem_def] at hq
    unfold isPlain at this
    rw [hq] at this
    cases q <;> trivial
  · intro listing hm
    obtain ⟨k, hk, e⟩ := List.getElem_of_mem hm
    have := h4 k (List.mem_range.2 hk)
    rw [NumbersAt, List.getElem?_eq_getElem hk, e] at this
    cases this
  · intro before listing rest e pk hpk
    have hk := h4 before.length (by rw [e]; simp)
    rw [e] at hk
    simp only [NumbersAt, List.getElem?_append_right (Nat.le_refl _), Nat.sub_self, List.getElem?_cons_zero, List.take_left', List.all_eq_true,
      decide_eq_true_eq] at hk
    exact hk pk hpk
  · intro j
    have hsub : (((appendsOf j h).filterMap JobAppend.recordId).map fun id => (j, id)).Sublist (records h) := by
      clear h1 h2 h3 h4 h5
      induction h with
      | nil => exact List.Sublist.slnil
      | cons o h ih =>
        cases o with
        | job i a =>
          by_cases e : i = j
          · subst e
            cases a with
            | succ l id v =>
              simp only [appendsOf, records, List.filterMap_cons, if_pos, JobAppend.recordId, List.map_cons]
              exact ih.cons_cons _
            | failed l id v =>
              simp only [appendsOf, records, List.filterMap_cons, if_pos, JobAppend.recordId, List.map_cons]
              exact ih.cons_cons _
            | _ => simpa only [appendsOf, records, List.filterMap_cons, if_pos, JobAppend.recordId, List.map_cons] using ih
          · have e1 : appendsOf j (PbsOp.job i a :: h) = appendsOf j h := by simp [appendsOf, e]
            rw [e1]
            cases a with
            | succ l id v => exact ih.trans (List.sublist_cons_self _ _)
            | failed l id v => exact ih.trans (List.sublist_cons_self _ _)
            | _ => exact ih
        | _ => exact ih
    exact (h5.sublist hsub).of_map _

/-- A question of the history agrees with `WholeJobs`. -/
def WholeAt (env : PbsEnv Unit (Option ℚ) Unit) (h : List Op) (k : Nat) : Bool := match h[k]? with
  | some (.get _ _) => (worldAfter env (h.take k)).pool.unfinished.all fun id => (worldAfter env (h.take k)).pool.unfinished.all fun id' =>
      match lastJobIn env (h.take k) id' with
      | none => true
      | some j => (appendsOf j (sinceEmptied (h.take k))).all fun a => decide (a.succId = some id → lastJobIn env (h.take k) id = some j ∧
          some id' ∈ (appendsOf j (sinceEmptied (h.take k))).map JobAppend.succId)
  | _ => true

theorem whole {env : PbsEnv Unit (Option ℚ) Unit} {h : List Op} (hc : ∀ k ∈ List.range h.length, WholeAt env h k = true) : WholeJobs env h := by
  intro before q qa rest e u hu id hid id' hid' j l v hl hs
  have hk := hc before.length (by rw [e]; simp)
  rw [e] at hk
  simp only [WholeAt, List.getElem?_append_right (Nat.le_refl _), Nat.sub_self, List.getElem?_cons_zero, List.take_left', List.all_eq_true] at hk
  rw [← hu] at hk
  have := hk id hid id' hid'
  rw [hl] at this
  simp only [List.all_eq_true, decide_eq_true_eq] at this
  obtain ⟨a, b⟩ := this _ hs rfl
  refine ⟨a, ?_⟩
  obtain ⟨x, hx, e⟩ := List.mem_map.1 b
  cases x with
  | succ l' i' v' =>
    simp only [JobAppend.succId, Option.some.injEq] at e
    subst e
    exact ⟨l', v', hx⟩
  | _ => cases e

/-- A new program agrees with `GivesUnfinished`. -/
def GivesAt (env : PbsEnv Unit (Option ℚ) Unit) (es : List (PbsEvent (Option ℚ))) (k : Nat) : Bool := match es[k]? with
  | some (.restart e _ _ _ ids) => match ((PbsProg.start env).events env (es.take k)).bind fun p => p.ending env e with
    | none => true
    | some p1 => match hdfUnfinishedIds p1.sys.store with
      | .ok u => ids.all fun id => decide (id ∈ u)
      | .error _ => false
  | _ => true

theorem gives {env : PbsEnv Unit (Option ℚ) Unit} {es} (hc : ∀ k ∈ List.range es.length, GivesAt env es k = true) : GivesUnfinished env es := by
  intro es1 e js debug listing ids es2 he p p1 hp hp1
  have hk := hc es1.length (by rw [he]; simp)
  rw [he] at hk
  simp only [GivesAt, List.getElem?_append_right (Nat.le_refl _), Nat.sub_self, List.getElem?_cons_zero, List.take_left', hp, Option.bind_some, hp1] at hk
  split at hk
  · rename_i u hu
    exact ⟨u, hu, by simpa using hk⟩
  · cases hk

/-- Every sample is fine; two of them make a job. -/
def good : PbsEnv Unit (Option ℚ) Unit := { pairs with md5 := fun _ => [7, 0, 0, 0] }

/-- Appends of job `j` with these samples. -/
def runs (env : PbsEnv Unit (Option ℚ) Unit) (j : Nat) (is : List Nat) : List (Nat × JobAppend (PairRes (Option ℚ))) :=
  (jobAppends simAt (pbsCompute env.md5) (fun _ => (0, 1)) (is.map fun i => (0, sampleTag 0 i, computeSeed env.md5 (sampleTag 0 i)))).map (j, ·)

/-- Three programs: the first hands four samples over in two jobs and stores the first two; the second is killed when it has got the others,
recorded in the meantime, but not stored them, and the third stores them; then it hands two more over and stores them. -/
def three : List (PbsEvent (Option ℚ)) := [
  .call (.setInitial [4]), .call (.schedule (some 0) [] fun i => ([], .ok (70 + i))), .call (.pause (runs good 0 [0, 1])),
  .call (.ask (some 1) [{ qsub := .fail, qstat := .ok [72], time := 2 }]),
  .restart (.killed .between) (runs good 1 [2, 3]) true [0, 1] [sampleTag 0 3, sampleTag 0 2],
  .restart (.killed (.unstored [] { qsub := .fail, qstat := .fail })) [] true [0, 1] [sampleTag 0 2, sampleTag 0 3],
  .call (.ask none [{ qsub := .fail, qstat := .fail }]),
  .call (.setInitial [6]), .call (.schedule (some 0) [] fun i => ([], .ok (90 + i))), .call (.pause (runs good 2 [4, 5])),
  .call (.ask none [{ qsub := .fail, qstat := .ok [92] }])]

def threeEnd : PbsProg Unit (Option ℚ) Unit := ((PbsProg.start good).events good three).getD (.start good)

/-- A sample fails, is renewed and fails again; the program is killed, and the next one renews the sample and finds it failed once more. -/
def again : List (PbsEvent (Option ℚ)) := [
  .call (.setInitial [2]), .call (.schedule (some 0) [] fun _ => ([], .ok 70)), .call (.pause (runs pairs 0 [0, 1])),
  .call (.ask none [{ qsub := .fail, qstat := .ok [70] }]),
  .renew fun _ => ([], .fail), .call (.ask (some 1) [{ qsub := .ok 71, qstat := .ok [], time := 2 }]), .call (.pause (runs pairs 1 [1])),
  .call (.ask none [{ qsub := .fail, qstat := .ok [71] }]),
  .restart (.killed .between) [] true [0, 1] [],
  .renew fun _ => ([], .fail), .call (.ask (some 1) [{ qsub := .ok 72, qstat := .ok [], time := 2 }]), .call (.pause (runs pairs 2 [1])),
  .call (.ask none [{ qsub := .fail, qstat := .ok [72] }])]

def againEnd : PbsProg Unit (Option ℚ) Unit := ((PbsProg.start pairs).events pairs again).getD (.start pairs)

/-- A job that has ended, with a failed sample. -/
def mixed : List (PbsEvent (Option ℚ)) := [
  .call (.setInitial [2]), .call (.schedule (some 0) [] fun _ => ([], .ok 70)),
  .restart (.killed .between) (runs pairs 0 [0, 1]) true [0] [sampleTag 0 0, sampleTag 0 1],
  .call (.ask none [{ qsub := .fail, qstat := .fail }])]

def mixedEnd : PbsProg Unit (Option ℚ) Unit := ((PbsProg.start pairs).events pairs mixed).getD (.start pairs)

/-- Three samples make a job. -/
def triples : PbsEnv Unit (Option ℚ) Unit := { env with size := fun _ => 2 / 5 }

/-- Three samples are handed over as job 0. -/
def many : List (PbsEvent (Option ℚ)) := [.call (.setInitial [3]), .call (.schedule (some 0) [] fun _ => ([], .ok 70))]

def manyEnd : PbsProg Unit (Option ℚ) Unit := ((PbsProg.start triples).events triples many).getD (.start triples)

/-- The next program; job 0 has been killed when it had recorded its first sample. -/
def manyNext : PbsProg Unit (Option ℚ) Unit := manyEnd.next triples ((runs triples 0 [0]).take 1) true [0] [sampleTag 0 0, sampleTag 0 1, sampleTag 0 2]

def manyAsked : PbsProg Unit (Option ℚ) Unit := (manyNext.ask triples none [{ qsub := .fail, qstat := .fail }]).getD manyNext

/-- No job that these samples were last written into has recorded a success of `y`. -/
def Unrecorded (h : List Op) (ids : List SampleId) (y : SampleId) : Bool := ids.all fun id' => match lastJobIn triples h id' with
  | none => true
  | some j => (appendsOf j (sinceEmptied h)).all fun a => decide (a.succId ≠ some y)

theorem unrecorded {h : List Op} {ids : List SampleId} {y : SampleId} (hu : Unrecorded h ids y = true) :
    ∀ id' ∈ ids, ∀ j' l' v', lastJobIn triples h id' = some j' → ¬ SuccIn h j' l' y v' := by
  intro id' hid j' l' v' hl hs
  simp only [Unrecorded, List.all_eq_true] at hu
  have := hu id' hid
  rw [hl] at this
  simp only [List.all_eq_true, decide_eq_true_eq] at this
  exact this _ hs rfl

end ExPbsOnce

/-- The hypotheses hold for programs that are killed three times, and what each stored is kept. -/
example : (PbsProg.start ExPbsOnce.good).events ExPbsOnce.good ExPbsOnce.three = some ExPbsOnce.threeEnd ∧
    GivesUnfinished ExPbsOnce.good ExPbsOnce.three ∧ CleanPbs ExPbsOnce.good ExPbsOnce.threeEnd.hist ∧ WholeJobs ExPbsOnce.good ExPbsOnce.threeEnd.hist ∧
    HonestJobs ExPbsOnce.good ExPbsOnce.threeEnd.hist ∧ HonestFailures ExPbsOnce.good ExPbsOnce.threeEnd.hist ∧
    ExPbsOnce.threeEnd.sys.store.map (·.collectedIds) = [(List.range 6).map (sampleTag 0)] :=
  ⟨ExPbsRestart.getD_some (by decide +kernel),
    ExPbsOnce.gives (by decide +kernel), ExPbsOnce.clean (by decide +kernel) (by decide +kernel) (ExPbsSess.asked (by decide +kernel)) (by decide +kernel) (by decide +kernel),
    ExPbsOnce.whole (by decide +kernel), ExPbsSess.honest (by decide +kernel), ExPbsSess.honestFailures (by decide +kernel), by decide +kernel⟩

/-- And for programs that renew a sample that fails each time. -/
example : (PbsProg.start ExPbsSess.pairs).events ExPbsSess.pairs ExPbsOnce.again = some ExPbsOnce.againEnd ∧
    GivesUnfinished ExPbsSess.pairs ExPbsOnce.again ∧ CleanPbs ExPbsSess.pairs ExPbsOnce.againEnd.hist ∧ WholeJobs ExPbsSess.pairs ExPbsOnce.againEnd.hist ∧
    HonestJobs ExPbsSess.pairs ExPbsOnce.againEnd.hist ∧ HonestFailures ExPbsSess.pairs ExPbsOnce.againEnd.hist ∧
    ExPbsOnce.againEnd.sys.renewed = [(0, sampleTag 0 1)] ∧ ExPbsOnce.againEnd.sys.store.map (·.collectedIds) = [[sampleTag 0 0]] ∧
    ExPbsOnce.againEnd.sys.store.map (fun x => (x.failed.getD []).map (·.1)) = [[sampleTag 0 1]] :=
  ⟨ExPbsRestart.getD_some (by decide +kernel),
    ExPbsOnce.gives (by decide +kernel), ExPbsOnce.clean (by decide +kernel) (by decide +kernel) (ExPbsSess.asked (by decide +kernel)) (by decide +kernel) (by decide +kernel),
    ExPbsOnce.whole (by decide +kernel), ExPbsSess.honest (by decide +kernel), ExPbsSess.honestFailures (by decide +kernel), by decide +kernel, by decide +kernel, by decide +kernel⟩

/-- Against C138 without `WholeJobs`: a program is killed while a job of two samples runs; the job ends with one success and one failure, all
recorded, and the next program gets both samples as unfinished.  It stores the success twice: looking for the failed sample reads the job's
results again. -/
theorem C138_failed_neighbour_counterexample : ∃ (env : PbsEnv Unit (Option ℚ) Unit) (es : List (PbsEvent (Option ℚ))) (p : PbsProg Unit (Option ℚ) Unit),
    env.Proper ∧ (PbsProg.start env).events env es = some p ∧ GivesUnfinished env es ∧ CleanPbs env p.hist ∧
    HonestJobs env p.hist ∧ HonestFailures env p.hist ∧
    p.sys.store.map (·.scheduled) = [[sampleTag 0 0, sampleTag 0 1]] ∧ p.sys.store.map (·.collectedIds) = [[sampleTag 0 0, sampleTag 0 0]] :=
  ⟨ExPbsSess.pairs, ExPbsOnce.mixed, ExPbsOnce.mixedEnd, ExPbsProg.proper, ExPbsRestart.getD_some (by decide +kernel),
    ExPbsOnce.gives (by decide +kernel), ExPbsOnce.clean (by decide +kernel) (by decide +kernel) (ExPbsSess.asked (by decide +kernel)) (by decide +kernel) (by decide +kernel),
    ExPbsSess.honest (by decide +kernel), ExPbsSess.honestFailures (by decide +kernel), by decide +kernel, by decide +kernel⟩

theorem collectUnfinished_copies {S R : Type} (wanted : List SampleId) (d : PbsDisk S R) (j l : Nat) (x : SampleId) (v : R) (hx : x ∈ wanted)
    (hv : (l, x, v) ∈ succRecords d j) (dead : SampleId → Bool) (h1 : ∀ y, dead y = true → jobOfSample d y = .ok j)
    (h2 : ∀ y, dead y = true → ∀ id' ∈ wanted, ∀ j', jobOfSample d id' = .ok j' → ∀ l' v', (l', y, v') ∉ succRecords d j') :
    ∀ (ids already : List SampleId) (a b : Acc R), ids ⊆ wanted → (∀ y ∈ already, dead y = false) → (Dict.keys a.succ).Nodup →
    collectUnfinished wanted d ids already a = .ok b → (Dict.keys b.succ).Nodup ∧
    (ids.filter dead).length + (((Dict.get? a.succ l).getD []).map (·.1)).count x ≤ (((Dict.get? b.succ l).getD []).map (·.1)).count x := by
  intro ids
  induction ids with
  | nil =>
    intro already a b _ _ hk h
    simp only [collectUnfinished, Except.ok.injEq] at h
    subst h
    exact ⟨hk, by simp⟩
  | cons id ids ih =>
    intro already a b hsub hal hk h
    have hidw : id ∈ wanted := hsub (by simp)
    have hsub' : ids ⊆ wanted := fun x hx => hsub (List.mem_cons_of_mem _ hx)
    unfold collectUnfinished at h
    by_cases hin : id ∈ already
    · rw [if_pos hin] at h
      rw [List.filter_cons, hal id hin]
      exact ih already a b hsub' hal hk h
    · rw [if_neg hin] at h
      cases hjo : jobOfSample d id with
      | error e => rw [hjo] at h; cases h
      | ok j' =>
        rw [hjo] at h
        simp only at h
        cases hr : readResults d j' with
        | error e => rw [hr] at h; cases h
        | ok r =>
          rw [hr] at h
          simp only at h
          have hrs := readResults_succ hr
          split at h
          · cases h
          · split at h
            · cases h
            · obtain ⟨s1, s2⟩ := appendWanted_spec wanted r.succ a.succ hk
              obtain ⟨k1, k2⟩ := ih (already ++ wantedIds wanted r.succ) ⟨appendWanted wanted a.succ r.succ, a.failed, a.times⟩ b hsub' (by
                intro y hy
                rcases List.mem_append.1 hy with hy | hy
                · exact hal y hy
                · by_contra hd
                  rw [Bool.not_eq_false] at hd
                  rw [hrs, mem_wantedIds] at hy
                  obtain ⟨-, l', v', hm⟩ := hy
                  exact h2 y hd id hidw j' hjo l' v' hm) s1 h
              refine ⟨k1, le_trans ?_ k2⟩
              simp only
              rw [s2 l, List.map_append, List.count_append]
              cases hd : dead id with
              | false => rw [List.filter_cons, hd]; simp only [Bool.false_eq_true, if_false]; omega
              | true =>
                have hj := h1 id hd
                rw [hjo] at hj
                injection hj with hj
                subst hj
                have : 0 < (((atLevel r.succ l).filter fun r => decide (r.1 ∈ wanted)).map (·.1)).count x := by
                  rw [List.count_pos_iff, List.mem_map]
                  refine ⟨(x, v), List.mem_filter.2 ⟨?_, by simpa using hx⟩, rfl⟩
                  rw [hrs, mem_group]; exact hv
                rw [List.filter_cons, hd]
                simp only [if_true, List.length_cons]
                omega

/-- In general: if a job has recorded the success of a sample which the next program gets as unfinished, and `dead` are samples it gets that were
last written into this job and have no success recorded in any job that is read, then its first question stores the sample at least once
for each of them. -/
theorem C138_copies (env : PbsEnv Cfg K C) (es : List (PbsEvent K)) (p p1 : PbsProg Cfg K C)
    (hp : (PbsProg.start env).events env es = some p) (e : PbsEnd K) (he : p.ending env e = some p1)
    (js : List (Nat × JobAppend (PairRes K))) (debug : Bool) (listing : List Nat) (ids : List SampleId)
    (r : PbsRound K) (rs : List (PbsRound K)) (timeout : Option ℚ) (ht : ∀ t, timeout = some t → 0 < t)
    (h : List (PbsOp (PoolSim Cfg K C) (PairRes K))) (hh : h = ((p1.next env js debug listing ids).jobs env r.jobs).hist)
    (q : PbsProg Cfg K C) (hq : (p1.next env js debug listing ids).ask env timeout (r :: rs) = some q)
    (id : SampleId) (hid : id ∈ ids) (j l : Nat) (v : PairRes K) (hj : SuccIn h j l id v)
    (dead : List SampleId) (hn : dead.Nodup) (hd : ∀ y ∈ dead, y ∈ ids ∧ lastJobIn env h y = some j ∧
      ∀ id' ∈ ids, ∀ j' l' v', lastJobIn env h id' = some j' → ¬ SuccIn h j' l' y v')
    (x : LevelGroup (PairRes K)) (hx : q.sys.store[l]? = some x) : dead.length ≤ x.collectedIds.count id := by
  obtain ⟨-, -, s2, S2⟩ := next_sess hp he js r.jobs debug listing ids
  obtain ⟨n1, n2, n3⟩ := next_pool env js r.jobs debug listing ids p1
  have hw : ((p1.next env js debug listing ids).jobs env r.jobs).world = worldAfter env h := by rw [S2.world, hh]
  obtain ⟨d1, d2, d3⟩ := dir_facts env h
  have hjob : ∀ id j, jobOfSample (worldAfter env h).disk id = .ok j ↔ lastJobIn env h id = some j := by
    intro id j
    rw [d1]
    cases lastJobIn env h id with
    | none => simp only; split <;> simp
    | some k => simp
  have hmem : ∀ id, id ∈ ids.dedup ↔ id ∈ ids := fun id => List.mem_dedup
  rw [hw] at n1 n2 n3
  -- the question is one poll
  have hstep : ∃ m, (p1.next env js debug listing ids).collect env r = some (m, q) := by
    have hwait : ∀ t, (p1.next env js debug listing ids).wait env t (r :: rs) = some q → ∃ m, (p1.next env js debug listing ids).collect env r = some (m, q) := by
      intro t hq
      simp only [PbsProg.wait] at hq
      split at hq
      · cases hq
      · rename_i m q' hm
        have hm0 : m = 0 := by
          have hm' := hm
          simp only [PbsProg.collect] at hm'
          split at hm'
          · cases hm'
          · rename_i a ha
            simp only [Option.some.injEq, Prod.mk.injEq] at hm'
            rw [← hm'.1]
            simp only [PbsProg.pool, PbsWorld.step, hw] at ha
            rw [first_get _ n1 n2] at ha
            unfold PbsWorld.getResultFiles at ha
            simp only [nRunningOf, collectFinished] at ha
            split at ha
            · injection ha with ha; rw [← ha]; rfl
            · split at ha
              · cases ha
              · injection ha with ha; rw [← ha]; rfl
        subst hm0
        split at hq
        · injection hq with hq; subst hq; exact ⟨_, hm⟩
        · simp only [if_false, lt_self_iff_false] at hq
          injection hq with hq; subst hq; exact ⟨_, hm⟩
    cases timeout with
    | none => exact hwait 0 hq
    | some t =>
      simp only [PbsProg.ask, not_le.2 (ht t rfl), if_false] at hq
      exact hwait t hq
  obtain ⟨m, hm⟩ := hstep
  simp only [PbsProg.collect] at hm
  split at hm
  · cases hm
  · rename_i a ha
    simp only [Option.some.injEq, Prod.mk.injEq] at hm
    obtain ⟨-, rfl⟩ := hm
    simp only [PbsProg.pool, PbsWorld.step, hw] at ha
    rw [first_get _ n1 n2] at ha
    unfold PbsWorld.getResultFiles at ha
    simp only [nRunningOf, collectFinished] at ha
    rw [n3] at ha
    have hne : ids.dedup ≠ [] := by
      intro e0
      have := (hmem id).2 hid
      rw [e0] at this; cases this
    rw [if_neg hne] at ha
    split at ha
    · cases ha
    · rename_i b hb
      obtain ⟨k1, k2⟩ := collectUnfinished_copies ids.dedup (worldAfter env h).disk j l id v ((hmem id).2 hid) ((d3 _ _ _ _).2 hj)
        (fun y => decide (y ∈ dead)) (fun y hy => (hjob y j).2 (hd y (by simpa using hy)).2.1)
        (fun y hy id' hid' j' hj' l' v' hs => (hd y (by simpa using hy)).2.2 id' ((hmem id').1 hid') j' l' v' ((hjob _ _).1 hj') ((d3 _ _ _ _).1 hs))
        ids.dedup [] {} b (fun x hx => hx) (by simp) (by simp [Dict.keys]) hb
      have hlen : dead.length ≤ (ids.dedup.filter fun y => decide (y ∈ dead)).length := by
        refine (hn.subperm ?_).length_le
        intro y hy
        exact List.mem_filter.2 ⟨(hmem y).2 (hd y hy).1, by simpa using hy⟩
      have hst : storedIds (storeSamples ((p1.next env js debug listing ids).jobs env r.jobs).sys.store a) l = x.collectedIds := by
        rw [storedIds]
        have hx' : (storeSamples ((p1.next env js debug listing ids).jobs env r.jobs).sys.store a)[l]? = some x := hx
        rw [hx']; rfl
      injection ha with ha
      have hsucc : atLevel a.succ l = (Dict.get? b.succ l).getD [] := by
        rw [← ha]; exact atLevel_of_nodup _ k1 l
      rcases (storeSamples_ids ((p1.next env js debug listing ids).jobs env r.jobs).sys.store a l).1 with e1 | ⟨e0, e1⟩
      · rw [hst] at e1
        rw [e1, List.count_append, hsucc]
        omega
      · exfalso
        have hx' : (storeSamples ((p1.next env js debug listing ids).jobs env r.jobs).sys.store a)[l]? = some x := hx
        have hg : storeSamples ((p1.next env js debug listing ids).jobs env r.jobs).sys.store a =
          hdfStep (hdfStep ((p1.next env js debug listing ids).jobs env r.jobs).sys.store (.samples a.succ a.failed)) (.nOps a.nOps) := rfl
        rw [hg, hdfStep_get, hdfStep_get, e0] at hx'
        cases hx'

/-- A case: two samples of a killed job are unrecorded; the recorded one is stored three times. -/
example : (PbsProg.start ExPbsOnce.triples).events ExPbsOnce.triples ExPbsOnce.many = some ExPbsOnce.manyEnd ∧
    ExPbsOnce.manyEnd.ending ExPbsOnce.triples (.killed .between) = some ExPbsOnce.manyEnd ∧
    ExPbsOnce.manyNext.ask ExPbsOnce.triples none [{ qsub := .fail, qstat := .fail }] = some ExPbsOnce.manyAsked ∧
    (∃ v, SuccIn ExPbsOnce.manyNext.hist 0 0 (sampleTag 0 0) v) ∧
    (∀ y ∈ [sampleTag 0 1, sampleTag 0 2], y ∈ [sampleTag 0 0, sampleTag 0 1, sampleTag 0 2] ∧ lastJobIn ExPbsOnce.triples ExPbsOnce.manyNext.hist y = some 0 ∧
      ∀ id' ∈ [sampleTag 0 0, sampleTag 0 1, sampleTag 0 2], ∀ j' l' v', lastJobIn ExPbsOnce.triples ExPbsOnce.manyNext.hist id' = some j' →
        ¬ SuccIn ExPbsOnce.manyNext.hist j' l' y v') ∧
    ExPbsOnce.manyAsked.sys.store.map (·.collectedIds) = [[sampleTag 0 0, sampleTag 0 0, sampleTag 0 0]] := by
  refine ⟨ExPbsRestart.getD_some (by decide +kernel), rfl, ?_, ⟨(.array [some 48], .array [some 0]), ?_⟩, ?_, by decide +kernel⟩
  · have h : (ExPbsOnce.manyNext.ask ExPbsOnce.triples none [{ qsub := .fail, qstat := .fail }]).isSome = true := by decide +kernel
    obtain ⟨q, hq⟩ := Option.isSome_iff_exists.1 h
    rw [ExPbsOnce.manyAsked, hq]; rfl
  · unfold SuccIn; decide +kernel
  · intro y hy
    simp only [List.mem_cons, List.not_mem_nil, or_false] at hy
    rcases hy with rfl | rfl
    · exact ⟨by simp, by decide +kernel, ExPbsOnce.unrecorded (by decide +kernel)⟩
    · exact ⟨by simp, by decide +kernel, ExPbsOnce.unrecorded (by decide +kernel)⟩

end MLMC
