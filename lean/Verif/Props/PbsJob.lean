import Verif.Proofs.PbsJob
import Verif.Props.Pool
/-! Properties C30, C35 of the PBS job process and the PBS part of C12. -/
namespace MLMC
variable {S R : Type}

/-! ## C30 Reading a finished job's results accounts for every sample of the job exactly once -/

/-- C30: job `j` was written with scheduled samples `ts` (different identifiers in a level) and has no result files yet; its
process was stopped after any number `n` of file appends.  Then `read_results` succeeds and, for every level: the successful
samples are exactly the written successes; the failed ones are the written failures followed by "job failed" for exactly the
samples without a record; and together they are the scheduled samples of the level, each once. -/
theorem C30_read_results_exact (sim : Nat → Option S) (compute : S → SampleId → Nat → Except Msg R) (clock : Nat → ℚ × ℚ)
    (d : PbsDisk S R) (j : Nat) (ts : List Trip) (n : Nat) (hs : Dict.get? d.scheduled j = some ts)
    (h0 : Dict.get? d.succ j = none ∧ Dict.get? d.failed j = none ∧ Dict.get? d.times j = none)
    (hn : ∀ l, (idsAt ts l).Nodup) :
    let appends := jobAppends sim compute clock ts
    let written := appends.take n
    ∃ r, readResults (runJob j appends n d) j = .ok r ∧
      ∀ l, atLevel r.succ l = writtenSucc written l ∧
        atLevel r.failed l = writtenFailed written l ++
          ((idsAt ts l).filter fun id => (l, id) ∉ (writtenRecords written).map fun r => (r.1, r.2.1)).map (fun id => (id, jobFailed)) ∧
        ((atLevel r.succ l).map (·.1) ++ (atLevel r.failed l).map (·.1)).Perm (idsAt ts l) ∧
        (Dict.get? r.times l).getD [] = writtenTimes written l := by
  intro appends written
  obtain ⟨f1, f2, f3, f4⟩ := foldl_apply j written d
  rw [h0.1] at f1; rw [h0.2.1] at f2; rw [h0.2.2] at f3
  have hpre : written <+: jobAppends sim compute clock ts := List.take_prefix _ _
  obtain ⟨r, h1, _, _, _, h2, h3, h4, h5⟩ := readResults_spec (runJob j appends n d) j ts written (by rw [show (runJob j appends n d).scheduled = d.scheduled from f4, hs])
    f1 f2 f3 hn
    (fun l => (jobPrefix_records sim compute clock ts written hpre hn l).1)
    (fun l => (jobPrefix_records sim compute clock ts written hpre hn l).2)
  refine ⟨r, h1, fun l => ⟨h2 l, ?_, h5 l, h4 l⟩⟩
  rw [h3 l]
  congr 2
  apply List.filter_congr
  intro x _
  rw [decide_eq_decide, not_iff_not, recIds, List.mem_filterMap, List.mem_map]
  constructor
  · rintro ⟨⟨k, id, o⟩, hm, he⟩
    simp only at he
    split at he
    · rename_i hk; simp only [Option.some.injEq] at he; subst hk; subst he; exact ⟨_, hm, rfl⟩
    · exact absurd he (by simp)
  · rintro ⟨⟨k, id, o⟩, hm, he⟩
    simp only [Prod.mk.injEq] at he
    exact ⟨_, hm, by simp [he]⟩

/-- Three samples of two levels. -/
def exampleTrips : List Trip := [(1, sampleTag 1 0, 5), (0, sampleTag 0 0, 6), (1, sampleTag 1 1, 7)]

/-- A simulation that returns the seed. -/
def exampleCompute (_ : Unit) (_ : SampleId) (seed : Nat) : Except Msg Nat := .ok seed

/-- The disk after its first three file appends. -/
def exampleDisk : PbsDisk Unit Nat :=
  runJob 3 (jobAppends (fun _ => some ()) exampleCompute (fun _ => (1, 2)) exampleTrips) 3 { scheduled := [(3, exampleTrips)] }

/-- Non-vacuity and an illustration: a job of three samples dies after its second sample. -/
example : (readResults exampleDisk 3).toOption.map (fun r => r.succ) =
      some [(0, [(sampleTag 0 0, 6)]), (1, [(sampleTag 1 0, 5)])] ∧
    (readResults exampleDisk 3).toOption.map (fun r => r.failed) = some [(1, [(sampleTag 1 1, jobFailed)])] :=
  ⟨by decide +kernel, by decide +kernel⟩

/-! ## C35 A PBS job computes each scheduled sample with its own level's simulation and seed -/

theorem filter_orderedInsert (l : Nat) (a : Trip) (ts : List Trip) :
    (ts.orderedInsert (fun a b => a.1 ≤ b.1) a).filter (fun t => t.1 = l) = (a :: ts).filter fun t => t.1 = l := by
  induction ts with
  | nil => rfl
  | cons b ts ih =>
    by_cases h : a.1 ≤ b.1
    · rw [List.orderedInsert_cons, if_pos h]
    · rw [List.orderedInsert_cons, if_neg h]
      by_cases hb : b.1 = l
      · have ha : a.1 ≠ l := by omega
        rw [List.filter_cons_of_pos (by simpa using hb), ih, List.filter_cons_of_neg (by simpa using ha),
          List.filter_cons_of_neg (by simpa using ha), List.filter_cons_of_pos (by simpa using hb)]
      · rw [List.filter_cons_of_neg (by simpa using hb), ih]
        by_cases ha : a.1 = l
        · rw [List.filter_cons_of_pos (by simpa using ha), List.filter_cons_of_pos (by simpa using ha),
            List.filter_cons_of_neg (by simpa using hb)]
        · rw [List.filter_cons_of_neg (by simpa using ha), List.filter_cons_of_neg (by simpa using ha),
            List.filter_cons_of_neg (by simpa using hb)]

theorem filter_sort (l : Nat) (ts : List Trip) : (sortByLevel ts).filter (fun t => t.1 = l) = ts.filter fun t => t.1 = l := by
  induction ts with
  | nil => rfl
  | cons a ts ih =>
    rw [sortByLevel, List.insertionSort_cons, filter_orderedInsert, List.filter_cons, List.filter_cons]
    rw [sortByLevel] at ih
    rw [ih]

theorem sort_sorted (ts : List Trip) : (sortByLevel ts).Pairwise fun a b => a.1 ≤ b.1 := by
  have : Std.Total (fun a b : Trip => a.1 ≤ b.1) := ⟨fun a b => Nat.le_total _ _⟩
  have : IsTrans Trip (fun a b : Trip => a.1 ≤ b.1) := ⟨fun _ _ _ => Nat.le_trans⟩
  exact List.pairwise_insertionSort _ _

theorem jobLoop_all (sim : Nat → Option S) (s : Nat → S) (compute : S → SampleId → Nat → Except Msg R) (clock : Nat → ℚ × ℚ) :
    ∀ (ts : List Trip) (cur cnt n : Nat), (∀ t ∈ ts, sim t.1 = some (s t.1)) →
      writtenRecords (jobLoop sim compute clock ts cur cnt n) =
        ts.map fun t => (t.1, t.2.1, compute (s t.1) t.2.1 t.2.2) := by
  intro ts
  induction ts with
  | nil => intro _ _ _ _; rfl
  | cons t ts ih =>
    intro cur cnt n h
    obtain ⟨l, id, seed⟩ := t
    have h1 := h (l, id, seed) (by simp)
    simp only at h1
    simp only [jobLoop, h1]
    rw [records_outcome, records_times, ih _ _ _ (fun t ht => h t (List.mem_cons_of_mem _ ht)), List.map_cons]

theorem times_outcome (l k : Nat) (id : SampleId) (o : Except Msg R) (as : List (JobAppend R)) :
    writtenTimes (JobAppend.ofOutcome k id o :: as) l = writtenTimes as l := by
  cases o <;> rfl

theorem times_times (l : Nat) (rs : List (Nat × ℚ × Nat)) (as : List (JobAppend R)) :
    writtenTimes (JobAppend.times rs :: as) l = rs.filterMap (fun r => if r.1 = l then some r.2 else none) ++ writtenTimes as l := rfl

theorem jobLoop_times_absent (sim : Nat → Option S) (compute : S → SampleId → Nat → Except Msg R)
    (clock : Nat → ℚ × ℚ) (l : Nat) : ∀ (ts : List Trip) (cur cnt n : Nat), (∀ t ∈ ts, t.1 ≠ l) →
      ∀ x ∈ writtenTimes (jobLoop sim compute clock ts cur cnt n) l, l = cur ∧ x.2 = cnt := by
  intro ts
  induction ts with
  | nil => intro cur cnt n _ x hx; simp [jobLoop, writtenTimes] at hx
  | cons t ts ih =>
    intro cur cnt n h x hx
    obtain ⟨k, id, seed⟩ := t
    have hk : k ≠ l := h (k, id, seed) (by simp)
    simp only [jobLoop] at hx
    cases hsim : sim k with
    | none => simp [hsim, writtenTimes] at hx
    | some s =>
      simp only [hsim] at hx
      rw [times_outcome, times_times, List.mem_append] at hx
      rcases hx with hx | hx
      · simp only [List.filterMap_append, List.mem_append, List.mem_filterMap] at hx
        rcases hx with ⟨r, hr, he⟩ | ⟨r, hr, he⟩
        · split at hr
          · simp only [List.mem_singleton] at hr
            subst hr
            simp only at he
            split at he
            · rename_i hc
              simp only [Option.some.injEq] at he
              subst he
              exact ⟨hc.symm, rfl⟩
            · simp at he
          · simp at hr
        · simp only [List.mem_singleton] at hr
          subst hr
          simp [hk] at he
      · exact absurd (ih k _ _ (fun t ht => h t (List.mem_cons_of_mem _ ht)) x hx).1.symm hk

theorem getLast?_append_of_ne {α : Type} (a b : List α) (h : b ≠ []) : (a ++ b).getLast? = b.getLast? := by
  cases b with
  | nil => exact absurd rfl h
  | cons x b => rw [List.getLast?_append, List.getLast?_eq_some_getLast h]; rfl

theorem jobLoop_times (sim : Nat → Option S) (compute : S → SampleId → Nat → Except Msg R)
    (clock : Nat → ℚ × ℚ) (l : Nat) : ∀ (ts : List Trip) (cur cnt n : Nat), (∀ t ∈ ts, (sim t.1).isSome) →
      ts.Pairwise (fun a b => a.1 ≤ b.1) → (∀ t ∈ ts, cur ≤ t.1) → (∃ t ∈ ts, t.1 = l) →
      ∃ t, (writtenTimes (jobLoop sim compute clock ts cur cnt n) l).getLast? =
        some (t, (if l = cur then cnt else 0) + (ts.filter fun t => t.1 = l).length) := by
  intro ts
  induction ts with
  | nil => intro _ _ _ _ _ _ h; simp at h
  | cons t ts ih =>
    intro cur cnt n hsim hsort hcur hex
    obtain ⟨k, id, seed⟩ := t
    obtain ⟨s, hs⟩ := Option.isSome_iff_exists.1 (hsim (k, id, seed) (by simp))
    simp only at hs
    have hck : cur ≤ k := hcur (k, id, seed) (by simp)
    have hkt : ∀ t ∈ ts, k ≤ t.1 := (List.pairwise_cons.1 hsort).1
    have hlist : writtenTimes (jobLoop sim compute clock ((k, id, seed) :: ts) cur cnt n) l =
        ((if cur ≠ k then [(cur, (clock n).1, cnt)] else []) ++ [(k, (clock n).2, (if cur ≠ k then 0 else cnt) + 1)]).filterMap
          (fun r => if r.1 = l then some r.2 else none) ++
        writtenTimes (jobLoop sim compute clock ts k ((if cur ≠ k then 0 else cnt) + 1) (n + 1)) l := by
      simp only [jobLoop, hs]
      rw [times_outcome, times_times]
    rw [hlist]
    by_cases hrest : ∃ t ∈ ts, t.1 = l
    · obtain ⟨t, ht⟩ := ih k ((if cur ≠ k then 0 else cnt) + 1) (n + 1) (fun t ht => hsim t (List.mem_cons_of_mem _ ht))
        (List.pairwise_cons.1 hsort).2 hkt hrest
      have hne : writtenTimes (jobLoop sim compute clock ts k ((if cur ≠ k then 0 else cnt) + 1) (n + 1)) l ≠ [] := by
        intro e; rw [e] at ht; simp at ht
      rw [getLast?_append_of_ne _ _ hne, ht]
      refine ⟨t, ?_⟩
      obtain ⟨u, hu, hul⟩ := hrest
      have hkl : k ≤ l := hul ▸ hkt u hu
      congr 2
      by_cases hl : l = k
      · subst hl
        by_cases hc : cur = l
        · subst hc; simp; omega
        · have hc' : ¬ l = cur := fun e => hc e.symm
          simp [hc, hc']; omega
      · have hl' : ¬ k = l := fun e => hl e.symm
        have hc' : ¬ l = cur := by omega
        simp [hl, hl', hc']
    · have hkl : k = l := by
        obtain ⟨u, hu, hul⟩ := hex
        rcases List.mem_cons.1 hu with e | hu
        · rw [e] at hul; exact hul
        · exact absurd ⟨u, hu, hul⟩ hrest
      subst hkl
      have hnone : ∀ t ∈ ts, t.1 ≠ k := fun t ht e => hrest ⟨t, ht, e⟩
      have hfil : ts.filter (fun t => t.1 = k) = [] := by
        rw [List.filter_eq_nil_iff]; intro t ht; simpa using hnone t ht
      have habs := jobLoop_times_absent sim compute clock k ts k ((if cur ≠ k then 0 else cnt) + 1) (n + 1) hnone
      have hcount : (if k = cur then cnt else 0) + ((( k, id, seed) :: ts).filter fun t => t.1 = k).length =
          (if cur ≠ k then 0 else cnt) + 1 := by
        rw [List.filter_cons_of_pos (by simp), hfil]
        by_cases hc : cur = k
        · subst hc; simp
        · have hc' : ¬ k = cur := fun e => hc e.symm
          simp [hc, hc']
      rw [hcount]
      cases hw : writtenTimes (jobLoop sim compute clock ts k ((if cur ≠ k then 0 else cnt) + 1) (n + 1)) k with
      | nil =>
        refine ⟨(clock n).2, ?_⟩
        rw [List.append_nil, List.filterMap_append, getLast?_append_of_ne _ _ (by simp)]
        simp
      | cons x xs =>
        rw [getLast?_append_of_ne _ _ (by simp)]
        have hmem : ((x :: xs).getLast (by simp)) ∈ writtenTimes (jobLoop sim compute clock ts k ((if cur ≠ k then 0 else cnt) + 1) (n + 1)) k := by
          rw [hw]; exact List.getLast_mem _
        have := (habs _ hmem).2
        refine ⟨((x :: xs).getLast (by simp)).1, ?_⟩
        rw [List.getLast?_eq_some_getLast (by simp), ← this]

/-- C35: a job whose level simulations are all on disk, running to its end, writes one record for every scheduled triple, in
an order that is a rearrangement of the scheduled list, ascending in the level and unchanged inside a level; the record's
outcome is that of the level's own simulation run with the stored seed; and for every level with samples the last time record
carries the number of its samples. -/
theorem C35_job_computes_each_sample (sim : Nat → Option S) (s : Nat → S) (compute : S → SampleId → Nat → Except Msg R)
    (clock : Nat → ℚ × ℚ) (ts : List Trip) (hs : ∀ t ∈ ts, sim t.1 = some (s t.1)) :
    ∃ order : List Trip, order.Perm ts ∧ order.Pairwise (fun a b => a.1 ≤ b.1) ∧
      (∀ l, order.filter (fun t => t.1 = l) = ts.filter fun t => t.1 = l) ∧
      writtenRecords (jobAppends sim compute clock ts) = order.map (fun t => (t.1, t.2.1, compute (s t.1) t.2.1 t.2.2)) ∧
      ∀ l, (∃ t ∈ ts, t.1 = l) → ∃ time, (writtenTimes (jobAppends sim compute clock ts) l).getLast? =
        some (time, (ts.filter fun t => t.1 = l).length) := by
  have hp := sort_perm ts
  refine ⟨sortByLevel ts, hp, sort_sorted ts, fun l => filter_sort l ts,
    jobLoop_all sim s compute clock _ _ _ _ (fun t ht => hs t (hp.subset ht)), ?_⟩
  rintro l ⟨t, ht, htl⟩
  obtain ⟨time, h⟩ := jobLoop_times sim compute clock l (sortByLevel ts) 0 0 0 (fun t ht => by rw [hs t (hp.subset ht)]; rfl)
    (sort_sorted ts) (fun _ _ => Nat.zero_le _) ⟨t, hp.symm.subset ht, htl⟩
  refine ⟨time, ?_⟩
  rw [jobAppends, h, filter_sort]
  simp

/-- Non-vacuity: samples of levels 1, 0, 1; the second one fails. -/
example :
    let ts : List Trip := [(1, sampleTag 1 0, 5), (0, sampleTag 0 0, 6), (1, sampleTag 1 1, 7)]
    let compute : Nat → SampleId → Nat → Except Msg Nat := fun s _ seed => if seed = 6 then .error ['e'] else .ok (10 * s + seed)
    writtenSucc (jobAppends (fun l => some l) compute (fun _ => (1, 2)) ts) 1 = [(sampleTag 1 0, 15), (sampleTag 1 1, 17)] ∧
    writtenFailed (jobAppends (fun l => some l) compute (fun _ => (1, 2)) ts) 0 = [(sampleTag 0 0, ['e'])] ∧
    writtenTimes (jobAppends (fun l => some l) compute (fun _ => (1, 2)) ts) 1 = [(2, 1), (2, 2)] ∧
    writtenTimes (jobAppends (fun l => some l) compute (fun _ => (1, 2)) ts) 0 = [(2, 1), (1, 1)] := by decide +kernel

end MLMC
