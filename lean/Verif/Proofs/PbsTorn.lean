import Verif.Spec.PbsTorn
import Verif.Proofs.Pbs
import Verif.Proofs.PbsJob
import Verif.Proofs.PbsCollect
/-! Helper lemmas about result files that cannot be read. -/
namespace MLMC
variable {S R : Type}

/-- No entry of the dictionary is about the sample. -/
def NotIn {α : Type} (id : SampleId) (d : Dict Nat (List (SampleId × α))) : Prop := ∀ e ∈ d, ∀ x ∈ e.2, x.1 ≠ id

theorem notIn_upd {α : Type} {id : SampleId} {d : Dict Nat (List (SampleId × α))} (h : NotIn id d) (l : Nat) (ys : List (SampleId × α))
    (hy : ∀ y ∈ ys, y.1 ≠ id) : NotIn id (Dict.upd d l [] (· ++ ys)) := by
  induction d with
  | nil =>
    intro e he x hx
    simp only [Dict.upd, List.mem_singleton] at he
    subst he
    exact hy x (by simpa using hx)
  | cons p d ih =>
    obtain ⟨k, v⟩ := p
    have hd : NotIn id d := fun e he => h e (List.mem_cons_of_mem _ he)
    simp only [Dict.upd]
    split
    · intro e he x hx
      rcases List.mem_cons.1 he with rfl | he
      · rcases List.mem_append.1 hx with hx | hx
        · exact h (k, v) (List.mem_cons_self) x hx
        · exact hy x hx
      · exact hd e he x hx
    · intro e he x hx
      rcases List.mem_cons.1 he with rfl | he
      · exact h (k, v) (List.mem_cons_self) x hx
      · exact ih hd e he x hx

theorem notIn_group {α : Type} {id : SampleId} (rs : List (Nat × SampleId × α)) (hr : ∀ r ∈ rs, r.2.1 ≠ id) : NotIn id (groupByLevel rs) := by
  have key : ∀ (rs : List (Nat × SampleId × α)) (d : Dict Nat (List (SampleId × α))), NotIn id d → (∀ r ∈ rs, r.2.1 ≠ id) →
      NotIn id (rs.foldl (fun d r => Dict.upd d r.1 [] (· ++ [r.2])) d) := by
    intro rs
    induction rs with
    | nil => intro d h _; exact h
    | cons r rs ih =>
      intro d h hr
      exact ih _ (notIn_upd h _ _ (by intro y hy; rw [List.mem_singleton] at hy; subst hy; exact hr r List.mem_cons_self))
        fun r' h' => hr r' (List.mem_cons_of_mem _ h')
  exact key rs [] (by intro e he; simp at he) hr

theorem notIn_missing {id : SampleId} (succ : Dict Nat (List (SampleId × R))) : ∀ (ts : List Trip) (f : Dict Nat (List (SampleId × Msg))),
    NotIn id f → (∀ t ∈ ts, t.2.1 ≠ id) → NotIn id (addMissing succ f ts) := by
  intro ts
  induction ts with
  | nil => intro f h _; exact h
  | cons t ts ih =>
    intro f h ht
    obtain ⟨l, i, s⟩ := t
    simp only [addMissing]
    refine ih _ ?_ fun t' h' => ht t' (List.mem_cons_of_mem _ h')
    split
    · exact notIn_upd h _ _ (by intro y hy; rw [List.mem_singleton] at hy; subst hy; exact ht _ List.mem_cons_self)
    · exact h

theorem notIn_extend {α : Type} {id : SampleId} : ∀ (e d : Dict Nat (List (SampleId × α))), NotIn id d → NotIn id e → NotIn id (extendBy d e) := by
  intro e
  induction e with
  | nil => intro d h _; exact h
  | cons x e ih =>
    intro d h he
    exact ih _ (notIn_upd h _ _ (he x List.mem_cons_self)) fun y hy => he y (List.mem_cons_of_mem _ hy)

theorem notIn_read {d : PbsDisk S R} {id : SampleId} {j k : Nat} (ho : d.OnlyIn id j) (hk : k ≠ j) {r : JobResults R}
    (hr : readResults d k = .ok r) : NotIn id r.succ ∧ NotIn id r.failed := by
  unfold readResults at hr
  simp only at hr
  cases hts : Dict.get? d.scheduled k with
  | none => rw [hts] at hr; cases hr
  | some ts =>
    rw [hts] at hr
    simp only [Except.ok.injEq] at hr
    subst hr
    refine ⟨notIn_group _ ?_, notIn_missing _ _ _ (notIn_group _ ?_) fun t ht e => hk (ho.scheduled k ts hts ⟨t, ht, e⟩)⟩
    · intro r hr e
      cases hs : Dict.get? d.succ k with
      | none => rw [hs] at hr; simp at hr
      | some rs => rw [hs] at hr; exact hk (ho.succ k rs hs ⟨r, hr, e⟩)
    · intro r hr e
      cases hs : Dict.get? d.failed k with
      | none => rw [hs] at hr; simp at hr
      | some rs => rw [hs] at hr; exact hk (ho.failed k rs hs ⟨r, hr, e⟩)

theorem jobOfPbs_mem {d : PbsDisk S R} {pid j : Nat} (h : d.jobOfPbs pid = some j) : (j, pid) ∈ d.pbsFiles := by
  unfold PbsDisk.jobOfPbs at h
  cases hf : d.pbsFiles.find? (fun e => e.2 = pid) with
  | none => rw [hf] at h; simp at h
  | some e =>
    rw [hf] at h
    simp only [Option.map_some, Option.some.injEq] at h
    have h1 := List.mem_of_find?_eq_some hf
    have h2 := List.find?_some hf
    simp only [decide_eq_true_eq] at h2
    rw [← h, ← h2]; exact h1

theorem jobOfPbs_none {d : PbsDisk S R} {pid : Nat} (h : d.jobOfPbs pid = none) (k : Nat) : (k, pid) ∉ d.pbsFiles := by
  unfold PbsDisk.jobOfPbs at h
  intro hm
  rw [Option.map_eq_none_iff, List.find?_eq_none] at h
  exact h _ hm (by simp)

/-- What collecting keeps: only marker files go. -/
theorem collectT_files (torn : List Nat) : ∀ (fin : List Nat) (d : PbsDisk S R) (a : Acc R),
    ∃ fs, (collectFinishedT torn fin d a).1 = d.withFiles fs ∧ ∀ e ∈ fs, e ∈ d.pbsFiles := by
  intro fin
  induction fin with
  | nil => intro d a; exact ⟨d.pbsFiles, rfl, fun e h => h⟩
  | cons pid ps ih =>
    intro d a
    unfold collectFinishedT
    cases hj : d.jobOfPbs pid with
    | none => exact ih d a
    | some j =>
      simp only
      cases hr : readTorn torn d j with
      | error e => exact ⟨d.pbsFiles, rfl, fun e h => h⟩
      | ok r =>
        obtain ⟨fs, h1, h2⟩ := ih { d with pbsFiles := d.pbsFiles.filter fun e => e ≠ (j, pid) }
          ⟨extendBy a.succ r.succ, extendBy a.failed r.failed, addTimes a.times r.times⟩
        exact ⟨fs, h1, fun e he => List.mem_of_mem_filter (h2 e he)⟩

theorem OnlyIn.withFiles {d : PbsDisk S R} {id : SampleId} {j : Nat} (h : d.OnlyIn id j) (fs) : (d.withFiles fs).OnlyIn id j :=
  ⟨h.scheduled, h.succ, h.failed⟩

/-- Answers about a sample come from the job that has it. -/
theorem collectT_notIn {id : SampleId} {j : Nat} (torn : List Nat) : ∀ (fin : List Nat) (d : PbsDisk S R) (a b : Acc R), d.OnlyIn id j →
    (∀ pid, (j, pid) ∉ d.pbsFiles) → NotIn id a.succ → NotIn id a.failed → (collectFinishedT torn fin d a).2 = .ok b →
    NotIn id b.succ ∧ NotIn id b.failed := by
  intro fin
  induction fin with
  | nil =>
    intro d a b _ _ h1 h2 h
    simp only [collectFinishedT, Except.ok.injEq] at h
    subst h; exact ⟨h1, h2⟩
  | cons pid ps ih =>
    intro d a b ho hf h1 h2 h
    unfold collectFinishedT at h
    cases hj : d.jobOfPbs pid with
    | none => rw [hj] at h; exact ih d a b ho hf h1 h2 h
    | some k =>
      rw [hj] at h
      simp only at h
      have hk : k ≠ j := by rintro rfl; exact hf pid (jobOfPbs_mem hj)
      cases hr : readTorn torn d k with
      | error e => rw [hr] at h; cases h
      | ok r =>
        rw [hr] at h
        simp only at h
        have hr' : readResults d k = .ok r := by
          unfold readTorn at hr; split at hr
          · cases hr
          · exact hr
        obtain ⟨n1, n2⟩ := notIn_read ho hk hr'
        refine ih _ _ b ?_ ?_ ?_ ?_ h
        · exact ⟨ho.scheduled, ho.succ, ho.failed⟩
        · intro pid' hm; exact hf pid' (List.mem_of_mem_filter hm)
        · exact notIn_extend _ _ h1 n1
        · exact notIn_extend _ _ h2 n2

/-- A finished job whose file cannot be read makes the collecting raise. -/
theorem collectT_raises {torn : List Nat} {j pid : Nat} (hj : j ∈ torn) : ∀ (fin : List Nat) (d : PbsDisk S R) (a : Acc R), pid ∈ fin →
    (j, pid) ∈ d.pbsFiles → (∀ k, (k, pid) ∈ d.pbsFiles → k = j) → ∃ e, (collectFinishedT torn fin d a).2 = .error e := by
  intro fin
  induction fin with
  | nil => intro d a h; simp at h
  | cons p ps ih =>
    intro d a hp hm hu
    unfold collectFinishedT
    by_cases he : p = pid
    · subst he
      cases hk : d.jobOfPbs p with
      | none => exact absurd hm (jobOfPbs_none hk j)
      | some k =>
        have := hu k (jobOfPbs_mem hk)
        subst this
        simp only [readTorn, if_pos hj]
        exact ⟨_, rfl⟩
    · have hp' : pid ∈ ps := by
        rcases List.mem_cons.1 hp with h | h
        · exact absurd h.symm he
        · exact h
      cases hk : d.jobOfPbs p with
      | none => exact ih d a hp' hm hu
      | some k =>
        simp only
        cases hr : readTorn torn d k with
        | error e => exact ⟨e, rfl⟩
        | ok r =>
          refine ih _ _ hp' ?_ fun k' hk' => hu k' (List.mem_of_mem_filter hk')
          simp only [List.mem_filter, decide_eq_true_eq]
          exact ⟨hm, by rintro ⟨⟩; exact he rfl⟩

theorem collectT_none {torn : List Nat} (d : PbsDisk S R) (a : Acc R) (p : Nat) (ps : List Nat) (h : d.jobOfPbs p = none) :
    collectFinishedT torn (p :: ps) d a = collectFinishedT torn ps d a := by
  conv_lhs => unfold collectFinishedT
  rw [h]

/-- Jobs in front of it are read, and their marker files deleted. -/
theorem collectT_deleted {torn : List Nat} {j pid : Nat} : ∀ (pre post : List Nat) (d : PbsDisk S R) (a : Acc R),
    (∀ p ∈ pre ++ [pid], d.Readable torn p) → (∀ k, (k, pid) ∈ d.pbsFiles → k = j) → (∀ p, (j, p) ∈ d.pbsFiles → p = pid) →
    ∀ p, (j, p) ∉ (collectFinishedT torn (pre ++ pid :: post) d a).1.pbsFiles := by
  intro pre
  induction pre with
  | nil =>
    intro post d a hr hu hv p hm
    have key : ∀ (post : List Nat) (d : PbsDisk S R) (a : Acc R), (∀ p, (j, p) ∉ d.pbsFiles) →
        (j, p) ∉ (collectFinishedT torn post d a).1.pbsFiles := by
      intro post d a h hm
      obtain ⟨fs, h1, h2⟩ := collectT_files torn post d a
      rw [h1] at hm
      exact h p (h2 _ hm)
    rw [List.nil_append] at hm
    cases hk : d.jobOfPbs pid with
    | none =>
      rw [collectT_none _ _ _ _ hk] at hm
      exact key post d a (fun p' h' => jobOfPbs_none hk j (hv p' h' ▸ h')) hm
    | some k =>
      have hkm := jobOfPbs_mem hk
      have := hu k hkm
      subst this
      obtain ⟨r1, r2⟩ := hr pid (by simp) k hkm
      obtain ⟨ts, hts⟩ := Option.isSome_iff_exists.1 r2
      unfold collectFinishedT at hm
      rw [hk] at hm
      simp only [readTorn, if_neg r1, readResults, hts] at hm
      refine key post _ _ (fun p' h' => ?_) hm
      simp only [List.mem_filter, decide_eq_true_eq] at h'
      exact h'.2 (by rw [hv p' h'.1])
  | cons x pre ih =>
    intro post d a hr hu hv p hm
    rw [List.cons_append] at hm
    cases hk : d.jobOfPbs x with
    | none =>
      rw [collectT_none _ _ _ _ hk] at hm
      exact ih post d a (fun p hp => hr p (by simp at hp ⊢; tauto)) hu hv p hm
    | some k =>
      obtain ⟨r1, r2⟩ := hr x (by simp) k (jobOfPbs_mem hk)
      obtain ⟨ts, hts⟩ := Option.isSome_iff_exists.1 r2
      unfold collectFinishedT at hm
      rw [hk] at hm
      simp only [readTorn, if_neg r1, readResults, hts] at hm
      refine ih post _ _ ?_ ?_ ?_ p hm
      · intro p hp k' hk'
        exact hr p (by simp at hp ⊢; tauto) k' (List.mem_of_mem_filter hk')
      · intro k' hk'; exact hu k' (List.mem_of_mem_filter hk')
      · intro p' hp'; exact hv p' (List.mem_of_mem_filter hp')

/-- Without a damaged file in reach the collecting is that of the undamaged directory. -/
theorem collectT_eq {torn : List Nat} : ∀ (fin : List Nat) (d : PbsDisk S R) (a : Acc R), (∀ p ∈ fin, ∀ k ∈ torn, (k, p) ∉ d.pbsFiles) →
    collectFinishedT torn fin d a = collectFinished fin d a := by
  intro fin
  induction fin with
  | nil => intro d a _; rfl
  | cons p ps ih =>
    intro d a h
    unfold collectFinishedT collectFinished
    cases hk : d.jobOfPbs p with
    | none => exact ih d a fun q hq => h q (List.mem_cons_of_mem _ hq)
    | some k =>
      have hn : k ∉ torn := fun hc => h p List.mem_cons_self k hc (jobOfPbs_mem hk)
      simp only [readTorn, if_neg hn]
      cases readResults d k with
      | error e => rfl
      | ok r => exact ih _ _ fun q hq k' hk' hm => h q (List.mem_cons_of_mem _ hq) k' hk' (List.mem_of_mem_filter hm)

theorem collectUT_eq {torn : List Nat} (wanted : List SampleId) (d : PbsDisk S R) : ∀ (ids already : List SampleId) (a : Acc R),
    (∀ id ∈ ids, ∀ k ∈ torn, jobOfSample d id ≠ .ok k) →
    collectUnfinishedT torn wanted d ids already a = collectUnfinished wanted d ids already a := by
  intro ids
  induction ids with
  | nil => intro al a _; rfl
  | cons x ids ih =>
    intro al a h
    have ht : ∀ id ∈ ids, ∀ k ∈ torn, jobOfSample d id ≠ .ok k := fun i hi => h i (List.mem_cons_of_mem _ hi)
    unfold collectUnfinishedT collectUnfinished
    split
    · exact ih al a ht
    · cases hj : jobOfSample d x with
      | error e => rfl
      | ok k =>
        have hn : k ∉ torn := fun hc => h x List.mem_cons_self k hc hj
        simp only [readTorn, if_neg hn]
        cases readResults d k with
        | error e => rfl
        | ok r =>
          simp only
          split
          · rfl
          split
          · rfl
          · exact ih _ _ ht

/-- An unfinished sample of a job whose file cannot be read makes the recovery raise. -/
theorem collectUT_raises {torn : List Nat} {id : SampleId} {j : Nat} (hj : j ∈ torn) (wanted : List SampleId) (d : PbsDisk S R)
    (ho : d.OnlyIn id j) (hd : jobOfSample d id = .ok j) : ∀ (ids already : List SampleId) (a : Acc R), id ∈ ids → id ∉ already →
    ∃ e, collectUnfinishedT torn wanted d ids already a = .error e := by
  intro ids
  induction ids with
  | nil => intro al a h; simp at h
  | cons x ids ih =>
    intro al a hm hn
    unfold collectUnfinishedT
    by_cases hx : x = id
    · subst hx
      rw [if_neg hn, hd]
      simp only [readTorn, if_pos hj]
      exact ⟨_, rfl⟩
    · have hm' : id ∈ ids := by
        rcases List.mem_cons.1 hm with h | h
        · exact absurd h.symm hx
        · exact h
      split
      · exact ih al a hm' hn
      · cases hk : jobOfSample d x with
        | error e => exact ⟨e, rfl⟩
        | ok k =>
          simp only
          cases hr : readTorn torn d k with
          | error e => exact ⟨e, rfl⟩
          | ok r =>
            simp only
            split
            · exact ⟨_, rfl⟩
            split
            · exact ⟨_, rfl⟩
            · refine ih _ _ hm' ?_
              have hkt : k ∉ torn ∧ readResults d k = .ok r := by
                unfold readTorn at hr; split at hr
                · cases hr
                · next h => exact ⟨h, hr⟩
              have hkj : k ≠ j := by rintro rfl; exact hkt.1 hj
              have hni := (notIn_read ho hkj hkt.2).1
              rw [List.mem_append]
              rintro (h | h)
              · exact hn h
              · unfold wantedIds at h
                have h1 := List.mem_of_mem_filter h
                simp only [List.mem_flatMap, List.mem_map] at h1
                obtain ⟨e, he, y, hy, rfl⟩ := h1
                exact hni e he y hy rfl

theorem not_mem_trips {id : SampleId} {ts : List Trip} (h : ∀ t ∈ ts, t.2.1 ≠ id) : ¬ ∃ t ∈ ts, t.2.1 = id := by
  rintro ⟨t, ht, e⟩; exact h t ht e

theorem only_set {d : PbsDisk S R} {id : SampleId} {j : Nat} (ho : d.OnlyIn id j) (n : Nat) (ts : List Trip) (h : ∀ t ∈ ts, t.2.1 ≠ id)
    {d' : PbsDisk S R} (e1 : d'.scheduled = Dict.set d.scheduled n ts) (e2 : d'.succ = d.succ) (e3 : d'.failed = d.failed) : d'.OnlyIn id j := by
  refine ⟨?_, ?_, ?_⟩
  · intro k us hk hm
    rw [e1] at hk
    by_cases hkn : k = n
    · subst hkn
      rw [Dict.get?_set_self] at hk
      cases hk
      exact absurd hm (not_mem_trips h)
    · rw [Dict.get?_set_ne _ _ hkn] at hk
      exact ho.scheduled k us hk hm
  · rw [e2]; exact ho.succ
  · rw [e3]; exact ho.failed

theorem saveJobOf_other {id : SampleId} (n : Nat) : ∀ (ts : List Trip) (m : Dict SampleId Nat), (∀ t ∈ ts, t.2.1 ≠ id) →
    Dict.get? (ts.foldl (fun d t => Dict.set d t.2.1 n) m) id = Dict.get? m id := by
  intro ts
  induction ts with
  | nil => intro m _; rfl
  | cons t ts ih =>
    intro m h
    rw [List.foldl_cons, ih _ fun t' h' => h t' (List.mem_cons_of_mem _ h')]
    exact Dict.get?_set_ne _ _ (Ne.symm (h t List.mem_cons_self))

theorem jobOfSample_save {d d' : PbsDisk S R} {id : SampleId} {j : Nat} (n : Nat) (ts : List Trip) (h : ∀ t ∈ ts, t.2.1 ≠ id)
    (e : d'.jobOf = saveJobOf d.jobOf n ts) (hd : jobOfSample d id = .ok j) : jobOfSample d' id = .ok j := by
  unfold jobOfSample at hd ⊢
  rw [e]
  cases hj : d.jobOf with
  | none => rw [hj] at hd; cases hd
  | some m =>
    rw [hj] at hd
    simp only [saveJobOf, Option.getD_some, saveJobOf_other n ts m h]
    exact hd

/-- What `execute` keeps for a sample that is not waiting. -/
theorem execute_keeps {w : PbsWorld S R} {id : SampleId} {j : Nat} (ho : w.disk.OnlyIn id j) (hs : ∀ t ∈ w.pool.scheduled, t.2.1 ≠ id) (q : QsubAns) :
    (w.execute q).1.disk.OnlyIn id j ∧ (∀ t ∈ (w.execute q).1.pool.scheduled, t.2.1 ≠ id) ∧
    (w.execute q).1.pool.unfinished = w.pool.unfinished ∧ w.pool.jobCount ≤ (w.execute q).1.pool.jobCount ∧
    (∀ k pid, (k, pid) ∈ (w.execute q).1.disk.pbsFiles → (k, pid) ∈ w.disk.pbsFiles ∨ k = w.pool.jobCount) ∧
    (∀ k, jobOfSample w.disk id = .ok k → jobOfSample (w.execute q).1.disk id = .ok k) := by
  unfold PbsWorld.execute
  by_cases he : w.pool.scheduled = []
  · rw [if_pos he]; exact ⟨ho, hs, rfl, le_refl _, fun _ _ h => .inl h, fun _ h => h⟩
  · rw [if_neg he]
    cases q with
    | fail => exact ⟨only_set ho _ _ hs rfl rfl rfl, hs, rfl, le_refl _, fun _ _ h => .inl h, fun _ h => jobOfSample_save _ _ hs rfl h⟩
    | ok pid =>
      refine ⟨only_set ho _ _ hs rfl rfl rfl, by simp, rfl, Nat.le_succ _, ?_, fun _ h => jobOfSample_save _ _ hs rfl h⟩
      intro k p hk
      simp only at hk
      split at hk
      · exact .inl hk
      · rcases List.mem_append.1 hk with hk | hk
        · exact .inl hk
        · rw [List.mem_singleton] at hk; exact .inr (congrArg Prod.fst hk)
    | okNoFile pid =>
      exact ⟨only_set ho _ _ hs rfl rfl rfl, hs, rfl, Nat.le_succ _, fun _ _ h => .inl h, fun _ h => jobOfSample_save _ _ hs rfl h⟩

theorem job_keeps {d : PbsDisk S R} {id : SampleId} {j : Nat} (ho : d.OnlyIn id j) (k : Nat) (a : JobAppend R) (h : k = j ∨ ¬ a.About id) :
    (a.apply k d).OnlyIn id j := by
  refine ⟨?_, ?_, ?_⟩
  · rw [(apply_rest k d a).1]; exact ho.scheduled
  · intro i rs hi hm
    by_cases hik : k = i
    · subst hik
      rcases h with h | h
      · exact h
      · have := (apply_self k d a).1
        rw [hi] at this
        obtain ⟨r, hr, e⟩ := hm
        simp only [Option.getD_some] at this
        rw [this] at hr
        rcases List.mem_append.1 hr with hr | hr
        · cases hs : Dict.get? d.succ k with
          | none => rw [hs] at hr; simp at hr
          | some us => rw [hs] at hr; exact ho.succ k us hs ⟨r, hr, e⟩
        · cases a <;> simp [succOf] at hr
          subst hr
          exact absurd e h
    · rw [(apply_other i k hik d a).1] at hi
      exact ho.succ i rs hi hm
  · intro i rs hi hm
    by_cases hik : k = i
    · subst hik
      rcases h with h | h
      · exact h
      · have := (apply_self k d a).2.1
        rw [hi] at this
        obtain ⟨r, hr, e⟩ := hm
        simp only [Option.getD_some] at this
        rw [this] at hr
        rcases List.mem_append.1 hr with hr | hr
        · cases hs : Dict.get? d.failed k with
          | none => rw [hs] at hr; simp at hr
          | some us => rw [hs] at hr; exact ho.failed k us hs ⟨r, hr, e⟩
        · cases a <;> simp [failedOf] at hr
          subst hr
          exact absurd e h
    · rw [(apply_other i k hik d a).2.1] at hi
      exact ho.failed i rs hi hm

theorem apply_jobOf (d : PbsDisk S R) (k : Nat) (a : JobAppend R) (id : SampleId) : jobOfSample (a.apply k d) id = jobOfSample d id := by
  unfold jobOfSample
  rw [(apply_rest k d a).2.2.1]

theorem qstat_keeps (p : PbsPool) (a : QstatAns) : (p.qstat a).1.scheduled = p.scheduled ∧ (p.qstat a).1.unfinished = p.unfinished ∧
    (p.qstat a).1.jobCount = p.jobCount := by
  unfold PbsPool.qstat
  split
  · exact ⟨rfl, rfl, rfl⟩
  · cases a with
    | fail => simp only; split <;> exact ⟨rfl, rfl, rfl⟩
    | ok fin => exact ⟨rfl, rfl, rfl⟩

/-- What one poll does: it may delete marker files, and forget the unfinished samples if it answers. -/
theorem filesT_keeps (torn : List Nat) (w : PbsWorld S R) (fin unf : List Nat) :
    (∃ fs, (w.getResultFilesT torn fin unf).1.disk = w.disk.withFiles fs ∧ ∀ e ∈ fs, e ∈ w.disk.pbsFiles) ∧
    (w.getResultFilesT torn fin unf).1.pool.scheduled = w.pool.scheduled ∧
    (w.getResultFilesT torn fin unf).1.pool.jobCount = w.pool.jobCount ∧
    ((w.getResultFilesT torn fin unf).1.pool.unfinished = w.pool.unfinished ∨
      (w.getResultFilesT torn fin unf).1.pool.unfinished = [] ∧ (w.getResultFilesT torn fin unf).2.answer ≠ none) := by
  unfold PbsWorld.getResultFilesT
  cases nRunningOf w.disk unf with
  | error e => exact ⟨⟨w.disk.pbsFiles, rfl, fun _ h => h⟩, rfl, rfl, .inl rfl⟩
  | ok n =>
    obtain ⟨fs, h1, h2⟩ := collectT_files torn fin w.disk {}
    simp only
    rcases hc : collectFinishedT torn fin w.disk {} with ⟨d, (e | a)⟩
    · rw [hc] at h1; exact ⟨⟨fs, h1, h2⟩, rfl, rfl, .inl rfl⟩
    · rw [hc] at h1
      simp only
      split
      · exact ⟨⟨fs, h1, h2⟩, rfl, rfl, .inl rfl⟩
      · cases collectUnfinishedT torn w.pool.unfinished d w.pool.unfinished [] a with
        | error e => exact ⟨⟨fs, h1, h2⟩, rfl, rfl, .inl rfl⟩
        | ok b => exact ⟨⟨fs, h1, h2⟩, rfl, rfl, .inr ⟨rfl, by simp⟩⟩

end MLMC
