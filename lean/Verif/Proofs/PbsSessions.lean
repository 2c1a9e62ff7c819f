import Verif.Proofs.PbsRestart
import Verif.Spec.PbsSessions
/-! Invariants of programs with PBS one after another. -/
namespace MLMC
variable {Cfg K C : Type}

/-- Samples handed over are the sampler's own. -/
def OpOk (env : PbsEnv Cfg K C) : PbsOp (PoolSim Cfg K C) (PairRes K) → Prop
  | .schedule id l _ sim _ => (∃ i, id = sampleTag l i) ∧ env.sims[l]? = some sim
  | _ => True

def TripOk (env : PbsEnv Cfg K C) (t : Trip) : Prop := (∃ i, t.2.1 = sampleTag t.1 i) ∧ t.2.2 = computeSeed env.md5 t.2.1

/-- Failures a job has recorded. -/
def failRecords {S R : Type} (d : PbsDisk S R) (j : Nat) : List (Nat × SampleId × Msg) := (Dict.get? d.failed j).getD []

structure WorldOk (env : PbsEnv Cfg K C) (w : PbsWorld (PoolSim Cfg K C) (PairRes K)) : Prop where
  sims : ∀ l s, Dict.get? w.disk.sims l = some s → env.sims[l]? = some s
  sched : ∀ t ∈ w.pool.scheduled, TripOk env t
  recs : ∀ j l id v, (l, id, v) ∈ succRecords w.disk j → RightValue env l id v
  files : ∀ j ts, Dict.get? w.disk.scheduled j = some ts → ∀ t ∈ ts, TripOk env t
  fails : ∀ j l id m, (l, id, m) ∈ failRecords w.disk j → ∃ i, id = sampleTag l i

section
variable {S R : Type}

theorem execute_world (w : PbsWorld S R) (q : QsubAns) : (w.execute q).1.disk.sims = w.disk.sims ∧ (w.execute q).1.disk.succ = w.disk.succ ∧
    (∀ t ∈ (w.execute q).1.pool.scheduled, t ∈ w.pool.scheduled) ∧ ∀ pk ∈ (w.execute q).2.packed, pk.2 = w.pool.scheduled := by
  unfold PbsWorld.execute
  split
  · simp
  · cases q <;> simp

theorem execute_scheduledFiles (w : PbsWorld S R) (q : QsubAns) : (w.execute q).1.disk.failed = w.disk.failed ∧
    ∀ j ts, Dict.get? (w.execute q).1.disk.scheduled j = some ts → Dict.get? w.disk.scheduled j = some ts ∨ ts = w.pool.scheduled := by
  unfold PbsWorld.execute
  split
  · exact ⟨rfl, fun j ts h => .inl h⟩
  · have key : ∀ j ts, Dict.get? (Dict.set w.disk.scheduled w.pool.jobCount w.pool.scheduled) j = some ts →
        Dict.get? w.disk.scheduled j = some ts ∨ ts = w.pool.scheduled := by
      intro j ts h
      by_cases e : j = w.pool.jobCount
      · subst e
        rw [Dict.get?_set_self] at h
        injection h with h
        exact .inr h.symm
      · rw [Dict.get?_set_ne _ _ e] at h
        exact .inl h
    cases q <;> exact ⟨rfl, key⟩

/-- Every entry of the dictionary has the property. -/
def AllIn {α : Type} (P : Nat → α → Prop) (d : Dict Nat (List α)) : Prop := ∀ e ∈ d, ∀ x ∈ e.2, P e.1 x

theorem allIn_upd {α : Type} {P : Nat → α → Prop} {d : Dict Nat (List α)} (h : AllIn P d) (l : Nat) (ys : List α)
    (hy : ∀ y ∈ ys, P l y) : AllIn P (Dict.upd d l [] (· ++ ys)) := by
  induction d with
  | nil =>
    intro e he x hx
    simp only [Dict.upd, List.mem_singleton] at he
    subst he
    exact hy x (by simpa using hx)
  | cons p d ih =>
    obtain ⟨k, v⟩ := p
    have hd : AllIn P d := fun e he => h e (List.mem_cons_of_mem _ he)
    simp only [Dict.upd]
    split
    · rename_i hk
      intro e he x hx
      rcases List.mem_cons.1 he with rfl | he
      · rcases List.mem_append.1 hx with hx | hx
        · exact h (k, v) (List.mem_cons_self) x hx
        · exact hk ▸ hy x hx
      · exact hd e he x hx
    · intro e he x hx
      rcases List.mem_cons.1 he with rfl | he
      · exact h (k, v) (List.mem_cons_self) x hx
      · exact ih hd e he x hx

theorem allIn_group {α : Type} {P : Nat → α → Prop} (rs : List (Nat × α)) (hr : ∀ r ∈ rs, P r.1 r.2) : AllIn P (groupByLevel rs) := by
  have key : ∀ (rs : List (Nat × α)) (d : Dict Nat (List α)), AllIn P d → (∀ r ∈ rs, P r.1 r.2) →
      AllIn P (rs.foldl (fun d r => Dict.upd d r.1 [] (· ++ [r.2])) d) := by
    intro rs
    induction rs with
    | nil => intro d h _; exact h
    | cons r rs ih =>
      intro d h hr
      exact ih _ (allIn_upd h _ _ (by intro y hy; rw [List.mem_singleton] at hy; subst hy; exact hr r List.mem_cons_self))
        fun r' h' => hr r' (List.mem_cons_of_mem _ h')
  exact key rs [] (by intro e he; simp at he) hr

theorem allIn_missing {P : Nat → SampleId × Msg → Prop} (succ : Dict Nat (List (SampleId × R))) : ∀ (ts : List Trip) (f : Dict Nat (List (SampleId × Msg))),
    AllIn P f → (∀ t ∈ ts, P t.1 (t.2.1, jobFailed)) → AllIn P (addMissing succ f ts) := by
  intro ts
  induction ts with
  | nil => intro f h _; exact h
  | cons t ts ih =>
    intro f h ht
    obtain ⟨l, i, s⟩ := t
    simp only [addMissing]
    refine ih _ ?_ fun t' h' => ht t' (List.mem_cons_of_mem _ h')
    split
    · exact allIn_upd h _ _ (by intro y hy; rw [List.mem_singleton] at hy; subst hy; exact ht _ List.mem_cons_self)
    · exact h

theorem allIn_extend {α : Type} {P : Nat → α → Prop} : ∀ (e d : Dict Nat (List α)), AllIn P d → AllIn P e → AllIn P (extendBy d e) := by
  intro e
  induction e with
  | nil => intro d h _; exact h
  | cons x e ih =>
    intro d h he
    exact ih _ (allIn_upd h _ _ (he x List.mem_cons_self)) fun y hy => he y (List.mem_cons_of_mem _ hy)

theorem allIn_atLevel {α : Type} {P : Nat → α → Prop} {d : Dict Nat (List α)} (h : AllIn P d) (l : Nat) : ∀ x ∈ atLevel d l, P l x := by
  intro x hx
  simp only [atLevel, List.mem_flatMap] at hx
  obtain ⟨e, he, hx⟩ := hx
  split at hx
  · rename_i hl
    exact hl ▸ h e he x hx
  · simp at hx

/-- All failures the files of a disk tell of have the property. -/
def FailuresOk (P : Nat → SampleId × Msg → Prop) (d : PbsDisk S R) : Prop :=
  (∀ j, ∀ r ∈ failRecords d j, P r.1 r.2) ∧ ∀ j ts, Dict.get? d.scheduled j = some ts → ∀ t ∈ ts, P t.1 (t.2.1, jobFailed)

theorem readResults_failed {P : Nat → SampleId × Msg → Prop} {d : PbsDisk S R} (hd : FailuresOk P d) {j : Nat} {r} (h : readResults d j = .ok r) :
    AllIn P r.failed := by
  unfold readResults at h
  simp only at h
  split at h
  · cases h
  · rename_i ts hts
    injection h with h; subst h
    exact allIn_missing _ _ _ (allIn_group _ (hd.1 j)) (hd.2 j ts hts)

theorem collectFinished_failed {P : Nat → SampleId × Msg → Prop} : ∀ (fin : List Nat) (d : PbsDisk S R) (a b : Acc R),
    FailuresOk P d → AllIn P a.failed → (collectFinished fin d a).2 = .ok b → AllIn P b.failed := by
  intro fin
  induction fin with
  | nil => intro d a b _ ha h; simp only [collectFinished, Except.ok.injEq] at h; subst h; exact ha
  | cons pid ps ih =>
    intro d a b hd ha h
    unfold collectFinished at h
    cases hj : d.jobOfPbs pid with
    | none => rw [hj] at h; exact ih d a b hd ha h
    | some j =>
      rw [hj] at h
      simp only at h
      split at h
      · cases h
      · rename_i r hr
        refine ih _ _ _ ?_ ?_ h
        · exact hd
        · exact allIn_extend _ _ ha (readResults_failed hd hr)

theorem collectUnfinished_failed (wanted : List SampleId) (d : PbsDisk S R) : ∀ (ids already : List SampleId) (a b : Acc R),
    collectUnfinished wanted d ids already a = .ok b → b.failed = a.failed := by
  intro ids
  induction ids with
  | nil => intro al a b h; simp only [collectUnfinished, Except.ok.injEq] at h; subst h; rfl
  | cons id ids ih =>
    intro al a b h
    unfold collectUnfinished at h
    split at h
    · exact ih _ _ _ h
    · split at h
      · cases h
      · split at h
        · cases h
        · split at h
          · cases h
          · split at h
            · cases h
            · exact (ih _ _ _ h).trans rfl

theorem getResultFiles_failed {P : Nat → SampleId × Msg → Prop} (w : PbsWorld S R) (fin unf : List Nat)
    (hd : FailuresOk P w.disk) (a : PoolAnswer R) (h : (w.getResultFiles fin unf).2.answer = some a) : AllIn P a.failed := by
  unfold PbsWorld.getResultFiles at h
  split at h
  · simp at h
  · have hc := fun b => collectFinished_failed (P := P) fin w.disk {} b hd (by intro e he; simp at he)
    split at h
    · simp at h
    · rename_i d b hb
      rw [hb] at hc
      have c2 := hc b rfl
      split at h
      · simp only [Option.some.injEq] at h
        subst h; exact c2
      · split at h
        · simp at h
        · rename_i b' hb'
          simp only [Option.some.injEq] at h
          subst h
          show AllIn P b'.failed
          rw [collectUnfinished_failed _ _ _ _ _ _ hb']; exact c2

theorem getFinished_failed {P : Nat → SampleId × Msg → Prop} (w : PbsWorld S R) (q : QsubAns) (qa : QstatAns)
    (hd : FailuresOk P (w.execute q).1.disk) (a : PoolAnswer R) (h : (w.getFinished q qa).2.answer = some a) : AllIn P a.failed := by
  have hea := execute_answer w q
  unfold PbsWorld.getFinished at h
  cases he : w.execute q with
  | mk w1 o1 =>
    rw [he] at h hd hea
    simp only at h hd hea
    split at h
    · simp [hea] at h
    · split at h
      · simp [hea] at h
      · rename_i p fin unf hp
        exact getResultFiles_failed { w1 with pool := p } fin unf hd a h

theorem readResults_succ {d : PbsDisk S R} {j : Nat} {r} (h : readResults d j = .ok r) : r.succ = groupByLevel (succRecords d j) := by
  unfold readResults at h
  simp only at h
  split at h
  · cases h
  · injection h with h; subst h; rfl

theorem collectFinished_succ (P : Nat → SampleId × R → Prop) : ∀ (fin : List Nat) (d : PbsDisk S R) (a b : Acc R),
    (∀ j l x, (l, x) ∈ succRecords d j → P l x) → (Dict.keys a.succ).Nodup → (∀ l, ∀ x ∈ atLevel a.succ l, P l x) →
    (collectFinished fin d a).2 = .ok b → (Dict.keys b.succ).Nodup ∧ ∀ l, ∀ x ∈ atLevel b.succ l, P l x := by
  intro fin
  induction fin with
  | nil => intro d a b _ hn ha h; simp only [collectFinished, Except.ok.injEq] at h; subst h; exact ⟨hn, ha⟩
  | cons pid ps ih =>
    intro d a b hd hn ha h
    unfold collectFinished at h
    cases hj : d.jobOfPbs pid with
    | none => rw [hj] at h; exact ih d a b hd hn ha h
    | some j =>
      rw [hj] at h
      simp only at h
      split at h
      · cases h
      · rename_i r hr
        obtain ⟨e1, e2⟩ := extendBy_spec r.succ a.succ hn
        refine ih _ _ _ ?_ ?_ ?_ h
        · exact hd
        · exact e1
        · intro l x hx
          simp only at hx
          rw [atLevel_of_nodup _ e1, e2, ← atLevel_of_nodup _ hn, List.mem_append] at hx
          rcases hx with hx | hx
          · exact ha l x hx
          · rw [readResults_succ hr] at hx
            exact hd j l x ((mem_group _ _ _).1 hx)

theorem collectUnfinished_succ (P : Nat → SampleId × R → Prop) (wanted : List SampleId) (d : PbsDisk S R)
    (hd : ∀ j l x, (l, x) ∈ succRecords d j → P l x) : ∀ (ids already : List SampleId) (a b : Acc R),
    (Dict.keys a.succ).Nodup → (∀ l, ∀ x ∈ atLevel a.succ l, P l x) → collectUnfinished wanted d ids already a = .ok b →
    ∀ l, ∀ x ∈ atLevel b.succ l, P l x := by
  intro ids
  induction ids with
  | nil => intro al a b _ ha h; simp only [collectUnfinished, Except.ok.injEq] at h; subst h; exact ha
  | cons id ids ih =>
    intro al a b hn ha h
    unfold collectUnfinished at h
    split at h
    · exact ih _ _ _ hn ha h
    · split at h
      · cases h
      · split at h
        · cases h
        · rename_i r hr
          split at h
          · cases h
          · split at h
            · cases h
            · obtain ⟨e1, e2⟩ := appendWanted_spec wanted r.succ a.succ hn
              refine ih _ _ _ ?_ ?_ h
              · exact e1
              · intro l x hx
                simp only at hx
                rw [atLevel_of_nodup _ e1, e2, ← atLevel_of_nodup _ hn, List.mem_append] at hx
                rcases hx with hx | hx
                · exact ha l x hx
                · rw [readResults_succ hr] at hx
                  exact hd _ l x ((mem_group _ _ _).1 (List.mem_of_mem_filter hx))

theorem getResultFiles_succ (P : Nat → SampleId × R → Prop) (w : PbsWorld S R) (fin unf : List Nat)
    (hd : ∀ j l x, (l, x) ∈ succRecords w.disk j → P l x) (a : PoolAnswer R) (h : (w.getResultFiles fin unf).2.answer = some a) :
    ∀ l, ∀ x ∈ atLevel a.succ l, P l x := by
  unfold PbsWorld.getResultFiles at h
  split at h
  · simp at h
  · obtain ⟨⟨fs, hfs⟩, -⟩ := collectFinished_core fin w.disk ({} : Acc R)
    have hc := fun b => collectFinished_succ P fin w.disk {} b hd (by simp [Dict.keys]) (by simp [atLevel])
    split at h
    · simp at h
    · rename_i d b hb
      rw [hb] at hc hfs
      simp only at hfs
      obtain ⟨c1, c2⟩ := hc b rfl
      split at h
      · simp only [Option.some.injEq] at h
        subst h; exact c2
      · split at h
        · simp at h
        · rename_i b' hb'
          simp only [Option.some.injEq] at h
          subst h
          refine collectUnfinished_succ P _ d ?_ _ _ _ _ c1 c2 hb'
          rw [hfs]; exact hd

theorem getFinished_succ (P : Nat → SampleId × R → Prop) (w : PbsWorld S R) (q : QsubAns) (qa : QstatAns)
    (hd : ∀ j l x, (l, x) ∈ succRecords w.disk j → P l x) (a : PoolAnswer R) (h : (w.getFinished q qa).2.answer = some a) :
    ∀ l, ∀ x ∈ atLevel a.succ l, P l x := by
  have hex := (execute_world w q).2.1
  have hea := execute_answer w q
  unfold PbsWorld.getFinished at h
  cases he : w.execute q with
  | mk w1 o1 =>
    rw [he] at h hex hea
    simp only at h hex hea
    split at h
    · simp [hea] at h
    · split at h
      · simp [hea] at h
      · rename_i p fin unf hp
        refine getResultFiles_succ P { w1 with pool := p } fin unf ?_ a h
        intro j l x hx
        refine hd j l x ?_
        simpa only [succRecords, hex] using hx

end

/-- One step keeps all in order, if a recorded value is right. -/
theorem worldOk_step {env : PbsEnv Cfg K C} {w : PbsWorld (PoolSim Cfg K C) (PairRes K)} (h : WorldOk env w) (o) (ho : OpOk env o)
    (hj : ∀ j l id v, o = .job j (.succ l id v) → RightValue env l id v)
    (hf : ∀ j l id m, o = .job j (.failed l id m) → ∃ i, id = sampleTag l i) :
    WorldOk env (w.step (computeSeed env.md5) o).1 ∧ (∀ pk ∈ (w.step (computeSeed env.md5) o).2.packed, ∀ t ∈ pk.2, TripOk env t) ∧
    ∀ a, (w.step (computeSeed env.md5) o).2.answer = some a → ∀ l, (∀ x ∈ atLevel a.succ l, RightValue env l x.1 x.2) ∧
      ∀ x ∈ atLevel a.failed l, ∃ i, x.1 = sampleTag l i := by
  have hexec : ∀ (w : PbsWorld (PoolSim Cfg K C) (PairRes K)) q, WorldOk env w → WorldOk env (w.execute q).1 ∧
      (∀ pk ∈ (w.execute q).2.packed, ∀ t ∈ pk.2, TripOk env t) := by
    intro w q h
    obtain ⟨e1, e2, e3, e4⟩ := execute_world w q
    obtain ⟨e5, e6⟩ := execute_scheduledFiles w q
    refine ⟨⟨?_, fun t ht => h.sched t (e3 t ht), ?_, ?_, ?_⟩, fun pk hpk t ht => h.sched t (by rw [← e4 pk hpk]; exact ht)⟩
    · rw [e1]; exact h.sims
    · intro j l id v hm
      simp only [succRecords, e2] at hm
      exact h.recs j l id v hm
    · intro j ts hts
      rcases e6 j ts hts with hts | rfl
      · exact h.files j ts hts
      · exact h.sched
    · intro j l id m hm
      simp only [failRecords, e5] at hm
      exact h.fails j l id m hm
  cases o with
  | schedule id l size sim q =>
    have h1 : WorldOk env (⟨{ w.pool with scheduled := w.pool.scheduled ++ [(l, id, computeSeed env.md5 id)], nInJob := w.pool.nInJob + 1, weight := w.pool.weight + size },
        { w.disk with sims := if (Dict.get? w.disk.sims l).isSome then w.disk.sims else Dict.set w.disk.sims l sim }⟩ : PbsWorld _ _) := by
      refine ⟨?_, ?_, h.recs, h.files, h.fails⟩
      · intro k s hk
        simp only at hk
        split at hk
        · exact h.sims k s hk
        · by_cases e : k = l
          · subst e
            rw [Dict.get?_set_self] at hk
            injection hk with hk
            subst hk; exact ho.2
          · rw [Dict.get?_set_ne _ _ e] at hk
            exact h.sims k s hk
      · intro t ht
        rcases List.mem_append.1 ht with ht | ht
        · exact h.sched t ht
        · rw [List.mem_singleton] at ht
          subst ht
          exact ⟨ho.1, rfl⟩
    refine ⟨?_, ?_, fun a ha => ?_⟩
    · simp only [PbsWorld.step, PbsWorld.schedule]
      split
      · exact (hexec _ q h1).1
      · exact h1
    · simp only [PbsWorld.step, PbsWorld.schedule]
      split
      · exact (hexec _ q h1).2
      · simp
    · simp only [PbsWorld.step, schedule_answer] at ha
      cases ha
  | execute q => exact ⟨(hexec w q h).1, (hexec w q h).2, fun a ha => by simp only [PbsWorld.step, execute_answer] at ha; cases ha⟩
  | get q qa =>
    obtain ⟨c, e1, e2, e3, e4⟩ := getFinished_core w q qa
    obtain ⟨x1, x2⟩ := hexec w q h
    refine ⟨⟨?_, ?_, ?_, ?_, ?_⟩, ?_, ?_⟩
    · simp only [PbsWorld.step]; rw [c.sims]; exact x1.sims
    · simp only [PbsWorld.step]; rw [c.scheduled]; exact x1.sched
    · intro j l id v hm
      simp only [PbsWorld.step, succRecords] at hm
      rw [c.succ] at hm
      exact x1.recs j l id v hm
    · simp only [PbsWorld.step]; rw [c.files]; exact x1.files
    · intro j l id m hm
      simp only [PbsWorld.step, failRecords] at hm
      rw [c.failed] at hm
      exact x1.fails j l id m hm
    · simp only [PbsWorld.step]; rw [e3]; exact x2
    · intro a ha l
      refine ⟨getFinished_succ (fun l x => RightValue env l x.1 x.2) w q qa (fun j l x hx => h.recs j l x.1 x.2 hx) a ha l, ?_⟩
      refine allIn_atLevel (P := fun l (x : SampleId × Msg) => ∃ i, x.1 = sampleTag l i) (getFinished_failed w q qa ⟨?_, ?_⟩ a ha) l
      · exact fun j r hr => x1.fails j r.1 r.2.1 r.2.2 hr
      · exact fun j ts hts t ht => (x1.files j ts hts t ht).1
  | permanent ids => exact ⟨⟨h.sims, h.sched, h.recs, h.files, h.fails⟩, by simp [PbsWorld.step], by simp [PbsWorld.step]⟩
  | job j a =>
    refine ⟨⟨?_, h.sched, ?_, ?_, ?_⟩, by simp [PbsWorld.step], by simp [PbsWorld.step]⟩
    · simp only [PbsWorld.step]; rw [(apply_rest j w.disk a).2.1]; exact h.sims
    · intro j' l id v hm
      cases a with
      | succ l' id' r =>
        simp only [PbsWorld.step, JobAppend.apply, succRecords] at hm
        by_cases e : j' = j
        · subst e
          rw [Dict.get?_upd_self] at hm
          simp only [Option.getD_some, List.mem_append, List.mem_singleton, Prod.mk.injEq] at hm
          rcases hm with hm | ⟨rfl, rfl, rfl⟩
          · exact h.recs j' l id v hm
          · exact hj _ _ _ _ rfl
        · rw [Dict.get?_upd_ne _ _ _ e] at hm
          exact h.recs j' l id v hm
      | failed l' id' m => exact h.recs j' l id v hm
      | times rs => exact h.recs j' l id v hm
    · simp only [PbsWorld.step]; rw [(apply_rest j w.disk a).1]; exact h.files
    · intro j' l id m hm
      cases a with
      | failed l' id' m' =>
        simp only [PbsWorld.step, JobAppend.apply, failRecords] at hm
        by_cases e : j' = j
        · subst e
          rw [Dict.get?_upd_self] at hm
          simp only [Option.getD_some, List.mem_append, List.mem_singleton, Prod.mk.injEq] at hm
          rcases hm with hm | ⟨rfl, rfl, rfl⟩
          · exact h.fails j' l id m hm
          · exact hf _ _ _ _ rfl
        · rw [Dict.get?_upd_ne _ _ _ e] at hm
          exact h.fails j' l id m hm
      | succ l' id' r => exact h.fails j' l id m hm
      | times rs => exact h.fails j' l id m hm
  | restart d l =>
    refine ⟨?_, by simp [PbsWorld.step], by simp [PbsWorld.step]⟩
    cases d
    · exact ⟨by simp [PbsWorld.step, PbsWorld.create, Dict.get?], by simp [PbsWorld.step, PbsWorld.create],
        by simp [PbsWorld.step, PbsWorld.create, succRecords, Dict.get?], by simp [PbsWorld.step, PbsWorld.create, Dict.get?],
        by simp [PbsWorld.step, PbsWorld.create, failRecords, Dict.get?]⟩
    · exact ⟨h.sims, by simp [PbsWorld.step, PbsWorld.create], h.recs, h.files, h.fails⟩

theorem honest_prefix {env : PbsEnv Cfg K C} {h e : List (PbsOp (PoolSim Cfg K C) (PairRes K))} (hh : HonestJobs env (h ++ e)) : HonestJobs env h := by
  intro before j l id v rest he
  exact hh before j l id v (rest ++ e) (by rw [he]; simp)

theorem honestFailures_prefix {env : PbsEnv Cfg K C} {h e : List (PbsOp (PoolSim Cfg K C) (PairRes K))} (hh : HonestFailures env (h ++ e)) :
    HonestFailures env h := by
  intro before j l id v rest he
  exact hh before j l id v (rest ++ e) (by rw [he]; simp)

theorem worldOk_run {env : PbsEnv Cfg K C} (h : List (PbsOp (PoolSim Cfg K C) (PairRes K))) (ho : ∀ o ∈ h, OpOk env o) (hh : HonestJobs env h) (hf : HonestFailures env h) :
    (∀ early, early <+: h → WorldOk env (worldAfter env early)) ∧ (∀ pk ∈ packagesIn env h, ∀ t ∈ pk.2, TripOk env t) ∧
    ∀ a ∈ answers ((PbsWorld.create false [] {}).run (computeSeed env.md5) h).2, ∀ l, (∀ x ∈ atLevel a.succ l, RightValue env l x.1 x.2) ∧
      ∀ x ∈ atLevel a.failed l, ∃ i, x.1 = sampleTag l i := by
  induction h using List.reverseRecOn with
  | nil =>
    refine ⟨?_, by simp [packagesIn, PbsWorld.run, packages], by simp [PbsWorld.run, answers]⟩
    intro early he
    rw [List.prefix_nil] at he
    subst he
    exact ⟨by simp [worldAfter, PbsWorld.run, PbsWorld.create, Dict.get?], by simp [worldAfter, PbsWorld.run, PbsWorld.create],
      by simp [worldAfter, PbsWorld.run, PbsWorld.create, succRecords, Dict.get?], by simp [worldAfter, PbsWorld.run, PbsWorld.create, Dict.get?],
      by simp [worldAfter, PbsWorld.run, PbsWorld.create, failRecords, Dict.get?]⟩
  | append_singleton h o ih =>
    obtain ⟨i1, i2, i3⟩ := ih (fun o' ho' => ho o' (by simp [ho'])) (honest_prefix hh) (honestFailures_prefix hf)
    have hw := i1 h (List.prefix_refl _)
    obtain ⟨s1, s2, s3⟩ := worldOk_step hw o (ho o (by simp)) (by
      intro j l id v e
      obtain ⟨ts, seed, h1, h2, early, sim, h3, h4, h5⟩ := hh h j l id v [] (by rw [e])
      obtain ⟨t1, t2⟩ := i2 _ h1 _ h2
      simp only at t1 t2
      obtain ⟨i, hi⟩ := t1
      rw [t2] at h5
      exact ⟨i, sim, hi, (i1 early h3).sims l sim h4, (pbsCompute_ok env.md5 sim id _ v).1 h5⟩) (by
      intro j l id m e
      obtain ⟨ts, seed, h1, h2⟩ := hf h j l id m [] (by rw [e])
      exact (i2 _ h1 _ h2).1)
    refine ⟨?_, ?_, ?_⟩
    · intro early he
      rcases (List.prefix_concat_iff).1 he with he | he
      · rw [he, worldAfter, run_concat]; exact s1
      · exact i1 early he
    · intro pk hpk
      simp only [packagesIn, run_concat, packages, List.flatMap_append, List.flatMap_cons, List.flatMap_nil, List.append_nil, List.mem_append] at hpk
      rcases hpk with hpk | hpk
      · exact i2 pk hpk
      · exact s2 pk hpk
    · intro a ha
      rw [run_concat, answers_concat] at ha
      rcases List.mem_append.1 ha with ha | ha
      · exact i3 a ha
      · rw [Option.mem_toList] at ha
        exact s3 a ha

/-! ### Programs -/

/-- What holds between any two elementary actions of any program. -/
structure Sess (env : PbsEnv Cfg K C) (p : PbsProg Cfg K C) (sops : List (StoreOp (PairRes K))) : Prop where
  world : p.world = worldAfter env p.hist
  ops : HonestJobs env p.hist → HonestFailures env p.hist → ∀ o ∈ p.hist, OpOk env o
  store : p.sys.store = hdfRun (hdfFresh _ env.sims.length) sops
  succ : ∀ l, ∀ x ∈ savedSucc sops l, ∃ a ∈ answers (p.outs env), x ∈ atLevel a.succ l
  failed : ∀ l, ∀ x ∈ savedFailed sops l, ∃ a ∈ answers (p.outs env), x ∈ atLevel a.failed l

/-- `q` goes on from `p`; `keep`: without renewing. -/
def Goes (keep : Prop) (env : PbsEnv Cfg K C) (p : PbsProg Cfg K C) (sops : List (StoreOp (PairRes K))) (q : PbsProg Cfg K C) : Prop :=
  ∃ more, (keep → StoreOp.clearFailed ∉ more) ∧ Sess env q (sops ++ more) ∧ ∃ e, q.hist = p.hist ++ e

theorem Sess.refl {keep : Prop} {env : PbsEnv Cfg K C} {p : PbsProg Cfg K C} {sops} (h : Sess env p sops) : Goes keep env p sops p :=
  ⟨[], by simp, by rw [List.append_nil]; exact h, [], by simp⟩

theorem Goes.trans {keep : Prop} {env : PbsEnv Cfg K C} {p q r : PbsProg Cfg K C} {sops} (h : Goes keep env p sops q)
    (h2 : ∀ s, Sess env q s → Goes keep env q s r) : Goes keep env p sops r := by
  obtain ⟨m, h1, hs, e, he⟩ := h
  obtain ⟨m', h1', hs', e', he'⟩ := h2 _ hs
  exact ⟨m ++ m', fun k => by simp [h1 k, h1' k], by rw [← List.append_assoc]; exact hs', e ++ e', by rw [he', he, List.append_assoc]⟩

theorem goes_pool {keep : Prop} {env : PbsEnv Cfg K C} {p : PbsProg Cfg K C} {sops} (h : Sess env p sops) (o)
    (ho : HonestJobs env p.hist → HonestFailures env p.hist → OpOk env o) :
    Goes keep env p sops (p.pool env o).1 := by
  refine ⟨[], by simp, ?_, [o], rfl⟩
  rw [List.append_nil]
  refine ⟨?_, ?_, h.store, ?_, ?_⟩
  · simp only [PbsProg.pool, worldAfter, run_concat, h.world]
  · intro hh hf o' ho'
    have hh1 : HonestJobs env p.hist := honest_prefix (e := [o]) hh
    have hf1 : HonestFailures env p.hist := honestFailures_prefix (e := [o]) hf
    rcases List.mem_append.1 ho' with ho' | ho'
    · exact h.ops hh1 hf1 o' ho'
    · rw [List.mem_singleton] at ho'; subst ho'; exact ho hh1 hf1
  · intro l x hx
    obtain ⟨a, ha, hm⟩ := h.succ l x hx
    obtain ⟨r, hr⟩ := outs_prefix env (p := p) (q := (p.pool env o).1) (e := [o]) rfl
    refine ⟨a, ?_, hm⟩
    rw [hr, answers, List.filterMap_append]
    exact List.mem_append_left _ ha
  · intro l x hx
    obtain ⟨a, ha, hm⟩ := h.failed l x hx
    obtain ⟨r, hr⟩ := outs_prefix env (p := p) (q := (p.pool env o).1) (e := [o]) rfl
    refine ⟨a, ?_, hm⟩
    rw [hr, answers, List.filterMap_append]
    exact List.mem_append_left _ ha

theorem goes_jobs {keep : Prop} {env : PbsEnv Cfg K C} (js : List (Nat × JobAppend (PairRes K))) : ∀ {p : PbsProg Cfg K C} {sops}, Sess env p sops →
    Goes keep env p sops (p.jobs env js) := by
  induction js with
  | nil => intro p sops h; exact h.refl
  | cons j js ih => intro p sops h; exact (goes_pool h (.job j.1 j.2) fun _ _ => trivial).trans fun s hs => ih hs

/-- The sampler's variables do not matter. -/
theorem Goes.sys {keep : Prop} {env : PbsEnv Cfg K C} {p q : PbsProg Cfg K C} {sops} (h : Goes keep env p sops q) (y : Sys (PairRes K)) (hy : y.store = q.sys.store) :
    Goes keep env p sops { q with sys := y } := by
  obtain ⟨m, h1, hs, he⟩ := h
  exact ⟨m, h1, ⟨hs.world, hs.ops, hy.trans hs.store, hs.succ, hs.failed⟩, he⟩

theorem goes_act {keep : Prop} {env : PbsEnv Cfg K C} {p q : PbsProg Cfg K C} {sops} (h : Sess env p sops) {js qs a} (hq : p.act env js qs a = some q) :
    Goes keep env p sops q ∧ q.sys = a.apply p.sys := by
  cases a with
  | begin l =>
    simp only [PbsProg.act, Option.some.injEq] at hq; subst hq
    exact ⟨h.refl.sys _ rfl, rfl⟩
  | save l =>
    simp only [PbsProg.act, Option.some.injEq] at hq; subst hq
    refine ⟨⟨[.scheduled l p.sys.pending], by simp, ⟨h.world, h.ops, ?_, ?_, ?_⟩, [], by simp⟩, rfl⟩
    · rw [hdfRun_snoc, ← h.store]; rfl
    · intro l'; rw [progSucc_snoc, List.append_nil]; exact h.succ l'
    · intro l'; rw [progFailed_snoc]; exact h.failed l'
  | hand l =>
    simp only [PbsProg.act] at hq
    split at hq
    · rename_i k sim hk hs
      split at hq
      · cases hq
      · injection hq with hq
        subst hq
        have hsys : (((p.jobs env js).pool env (.schedule (sampleTag l k) l (env.size l) sim qs)).1).sys = p.sys := jobs_sys env js p
        refine ⟨Goes.sys ((goes_jobs js h).trans fun s hs' => goes_pool hs' (.schedule (sampleTag l k) l (env.size l) sim qs) fun _ _ => ⟨⟨k, rfl⟩, hs⟩) _ ?_, ?_⟩
        · simp only [hsys, SchedAct.apply]; split <;> rfl
        · simp only [hsys]
    · cases hq

theorem goes_acts {keep : Prop} {env : PbsEnv Cfg K C} (cmds : Nat → List (Nat × JobAppend (PairRes K)) × QsubAns) : ∀ (as : List SchedAct) (i : Nat)
    {p q : PbsProg Cfg K C} {sops}, Sess env p sops → p.acts env cmds i as = some q → Goes keep env p sops q ∧ q.sys = runActs as p.sys := by
  intro as
  induction as with
  | nil => intro i p q sops h hq; simp only [PbsProg.acts, Option.some.injEq] at hq; subst hq; exact ⟨h.refl, rfl⟩
  | cons a as ih =>
    intro i p q sops h hq
    simp only [PbsProg.acts] at hq
    split at hq
    · cases hq
    · rename_i r hr
      obtain ⟨g1, e1⟩ := goes_act h hr
      refine ⟨g1.trans fun s hs => (ih _ hs hq).1, ?_⟩
      obtain ⟨m, -, hs, -⟩ := g1
      rw [(ih _ hs hq).2, e1]; rfl

theorem goes_collect {keep : Prop} {env : PbsEnv Cfg K C} {p q : PbsProg Cfg K C} {sops} (h : Sess env p sops) {r : PbsRound K} {n : ℤ}
    (hq : p.collect env r = some (n, q)) : Goes keep env p sops q ∧ ∃ a b c, q.sys = p.sys.step (.poll a b c) := by
  simp only [PbsProg.collect] at hq
  split at hq
  · cases hq
  · rename_i a ha
    simp only [Option.some.injEq, Prod.mk.injEq] at hq
    obtain ⟨-, rfl⟩ := hq
    have hsys : ((p.jobs env r.jobs).pool env (.get r.qsub r.qstat)).1.sys = p.sys := jobs_sys env r.jobs p
    refine ⟨?_, a.succ, a.failed, a.nOps, by simp only [hsys]; rfl⟩
    refine (goes_jobs r.jobs h).trans fun s hs => ?_
    obtain ⟨m, m1, g, e, he⟩ := goes_pool (keep := keep) hs (.get r.qsub r.qstat) fun _ _ => trivial
    refine ⟨m ++ [.samples a.succ a.failed, .nOps a.nOps], fun k => by simp [m1 k], ⟨g.world, g.ops, ?_, ?_, ?_⟩, e, he⟩
    · rw [show s ++ (m ++ [StoreOp.samples a.succ a.failed, .nOps a.nOps]) = ((s ++ m) ++ [.samples a.succ a.failed]) ++ [.nOps a.nOps] by simp,
        hdfRun_snoc, hdfRun_snoc, ← g.store]
      rfl
    · intro l x hx
      rw [show s ++ (m ++ [StoreOp.samples a.succ a.failed, .nOps a.nOps]) = ((s ++ m) ++ [.samples a.succ a.failed]) ++ [.nOps a.nOps] by simp,
        progSucc_snoc, progSucc_snoc, List.append_nil, List.mem_append] at hx
      rcases hx with hx | hx
      · exact g.succ l x hx
      · refine ⟨a, ?_, hx⟩
        show a ∈ answers (((p.jobs env r.jobs).pool env (.get r.qsub r.qstat)).1.outs env)
        have hh : ((p.jobs env r.jobs).pool env (.get r.qsub r.qstat)).1.hist = (p.jobs env r.jobs).hist ++ [.get r.qsub r.qstat] := rfl
        rw [PbsProg.outs, hh, run_concat, answers_concat]
        refine List.mem_append_right _ ?_
        rw [Option.mem_toList, ← ha]
        simp only [PbsProg.pool, hs.world, worldAfter]
    · intro l x hx
      rw [show s ++ (m ++ [StoreOp.samples a.succ a.failed, .nOps a.nOps]) = ((s ++ m) ++ [.samples a.succ a.failed]) ++ [.nOps a.nOps] by simp,
        progFailed_snoc, progFailed_snoc] at hx
      rcases List.mem_append.1 hx with hx | hx
      · exact g.failed l x hx
      · refine ⟨a, ?_, hx⟩
        show a ∈ answers (((p.jobs env r.jobs).pool env (.get r.qsub r.qstat)).1.outs env)
        have hh : ((p.jobs env r.jobs).pool env (.get r.qsub r.qstat)).1.hist = (p.jobs env r.jobs).hist ++ [.get r.qsub r.qstat] := rfl
        rw [PbsProg.outs, hh, run_concat, answers_concat]
        refine List.mem_append_right _ ?_
        rw [Option.mem_toList, ← ha]
        simp only [PbsProg.pool, hs.world, worldAfter]

/-- Keeping the lists of scheduled samples in order. -/
theorem sched_collect {keep : Prop} {env : PbsEnv Cfg K C} {n : Nat} {p q : PbsProg Cfg K C} {sops} (h : Sess env p sops) (hi : SchedInv n p.sys) {r : PbsRound K} {m : ℤ}
    (hq : p.collect env r = some (m, q)) : Goes keep env p sops q ∧ SchedInv n q.sys := by
  obtain ⟨g, a, b, c, e⟩ := goes_collect h hq
  exact ⟨g, by rw [e]; exact schedInv_step hi _ rfl⟩

theorem Goes.transI {keep : Prop} {env : PbsEnv Cfg K C} {n : Nat} {p q r : PbsProg Cfg K C} {sops} (h : Goes keep env p sops q ∧ SchedInv n q.sys)
    (h2 : ∀ s, Sess env q s → SchedInv n q.sys → Goes keep env q s r ∧ SchedInv n r.sys) : Goes keep env p sops r ∧ SchedInv n r.sys := by
  refine ⟨h.1.trans fun s hs => (h2 s hs h.2).1, ?_⟩
  obtain ⟨m, -, hs, -⟩ := h.1
  exact (h2 _ hs h.2).2

theorem sched_rounds {keep : Prop} {env : PbsEnv Cfg K C} {n : Nat} : ∀ (rs : List (PbsRound K)) {p q : PbsProg Cfg K C} {sops}, Sess env p sops → SchedInv n p.sys →
    p.rounds env rs = some q → Goes keep env p sops q ∧ SchedInv n q.sys := by
  intro rs
  induction rs with
  | nil => intro p q sops h hi hq; simp only [PbsProg.rounds, Option.some.injEq] at hq; subst hq; exact ⟨h.refl, hi⟩
  | cons r rs ih =>
    intro p q sops h hi hq
    simp only [PbsProg.rounds] at hq
    split at hq
    · cases hq
    · rename_i m q' hm
      exact Goes.transI (sched_collect h hi hm) fun s hs hi' => ih hs hi' hq

theorem sched_wait {keep : Prop} {env : PbsEnv Cfg K C} {n : Nat} (timeout : ℚ) : ∀ (rs : List (PbsRound K)) {p q : PbsProg Cfg K C} {sops}, Sess env p sops →
    SchedInv n p.sys → p.wait env timeout rs = some q → Goes keep env p sops q ∧ SchedInv n q.sys := by
  intro rs
  induction rs with
  | nil => intro p q sops _ _ hq; cases hq
  | cons r rs ih =>
    intro p q sops h hi hq
    simp only [PbsProg.wait] at hq
    split at hq
    · cases hq
    · rename_i m q' hm
      have h1 := sched_collect (keep := keep) h hi hm
      split at hq
      · injection hq with hq; subst hq; exact h1
      · split at hq
        · exact Goes.transI h1 fun s hs hi' => ih hs hi' hq
        · injection hq with hq; subst hq; exact h1

theorem sched_ask {keep : Prop} {env : PbsEnv Cfg K C} {n : Nat} {p q : PbsProg Cfg K C} {sops} (h : Sess env p sops) (hi : SchedInv n p.sys) (timeout : Option ℚ)
    (rs : List (PbsRound K)) (hq : p.ask env timeout rs = some q) : Goes keep env p sops q ∧ SchedInv n q.sys := by
  cases timeout with
  | none => exact sched_wait 0 rs h hi hq
  | some t =>
    simp only [PbsProg.ask] at hq
    split at hq
    · injection hq with hq; subst hq; exact ⟨h.refl, hi⟩
    · exact sched_wait t rs h hi hq

theorem sched_step {keep : Prop} {env : PbsEnv Cfg K C} {n : Nat} {p q : PbsProg Cfg K C} {sops} (h : Sess env p sops) (hi : SchedInv n p.sys) (o : PbsProgOp K)
    (hq : p.step env o = some q) : Goes keep env p sops q ∧ SchedInv n q.sys := by
  cases o with
  | setInitial v =>
    simp only [PbsProg.step, Option.some.injEq] at hq; subst hq
    exact ⟨h.refl.sys _ rfl, schedInv_step hi (.setInitial v) rfl⟩
  | setTarget v =>
    simp only [PbsProg.step] at hq
    split at hq
    · injection hq with hq; subst hq
      exact ⟨h.refl.sys _ rfl, schedInv_step hi (.setTarget v) rfl⟩
    · cases hq
  | ask timeout rounds => exact sched_ask h hi timeout rounds hq
  | schedule timeout rounds cmds =>
    simp only [PbsProg.step] at hq
    cases ha : p.ask env timeout rounds with
    | none => rw [ha] at hq; cases hq
    | some r =>
      rw [ha, Option.bind_some] at hq
      refine Goes.transI (sched_ask h hi timeout rounds ha) fun s hs hi' => ?_
      simp only [PbsProg.scheduleSamples] at hq
      split at hq
      · rename_i hl
        obtain ⟨g, e⟩ := goes_acts cmds _ _ hs hq
        refine ⟨g, ?_⟩
        have := schedInv_step hi' .schedule rfl
        simp only [Sys.step, Sys.schedule, hl, true_or, if_true] at this
        rw [e]; exact this
      · cases hq
  | pause js =>
    simp only [PbsProg.step, Option.some.injEq] at hq; subst hq
    exact ⟨goes_jobs js h, by rw [jobs_sys]; exact hi⟩

/-- Lists of scheduled samples in the file. -/
def TagLists (n : Nat) (g : HdfLevels (PairRes K)) : Prop := g.length = n ∧ ∀ (l : Nat) x, g[l]? = some x → ∃ k, x.scheduled = levelTags l 0 k

theorem tagLists_inv {n : Nat} {s : Sys (PairRes K)} (h : SchedInv n s) : TagLists n s.store := by
  refine ⟨h.storeLen, fun l x hx => ?_⟩
  have := h.sched l
  simp only [schedOf, List.getElem?_map, hx, Option.map_some] at this
  cases hk : s.nSched[l]? with
  | none => rw [hk] at this; cases this
  | some k => rw [hk] at this; exact ⟨k, Option.some.inj this⟩

theorem construct_inv {n : Nat} {g : HdfLevels (PairRes K)} (h : TagLists n g) : SchedInv n (Sys.construct g [] []) := by
  refine ⟨by simp [Sys.construct, hdfLoadScheduled, h.1], ?_, by simp [Sys.construct], by simp [Sys.construct]⟩
  intro l
  simp only [Sys.construct, schedOf, hdfLoadScheduled, List.map_map, List.getElem?_map]
  cases hx : g[l]? with
  | none => rfl
  | some x =>
    obtain ⟨k, hk⟩ := h.2 l x hx
    simp [hk]

theorem tagLists_acts {n : Nat} {s : Sys (PairRes K)} (h : SchedInv n s) (hl : s.target.length = s.nSched.length) (j : Nat) :
    TagLists n (runActs ((schedActs 0 s.plan).take j) s).store := by
  have hp : s.plan.length = n := by simp [Sys.plan, hl, h.len]
  have key := runActs_take s.plan 0 s j (by rw [hp, h.len]; omega)
  have hlen : (runActs ((schedActs 0 s.plan).take j) s).store.length = s.store.length := by
    have h1 : ∀ l : Nat, ((runActs ((schedActs 0 s.plan).take j) s).store[l]?).isSome = (s.store[l]?).isSome := by
      intro l
      obtain ⟨b, hb⟩ := key l
      rw [hb]; simp
    have a := h1 (runActs ((schedActs 0 s.plan).take j) s).store.length
    have b := h1 s.store.length
    simp at a b
    omega
  refine ⟨hlen.trans h.storeLen, fun l x hx => ?_⟩
  obtain ⟨b, hb⟩ := key l
  rw [hx] at hb
  cases hy : s.store[l]? with
  | none => rw [hy] at hb; cases hb
  | some y =>
    rw [hy] at hb
    simp only [Option.map_some, Option.some.injEq] at hb
    subst hb
    have := h.sched l
    simp only [schedOf, List.getElem?_map, hy, Option.map_some] at this
    cases hk : s.nSched[l]? with
    | none => rw [hk] at this; cases this
    | some k =>
      rw [hk, Option.map_some, Option.some.injEq] at this
      simp only [this, Option.getD_some]
      cases b
      · exact ⟨k, by simp⟩
      · refine ⟨k + planAt 0 s.plan l, ?_⟩
        have := levelTags_append l 0 k (planAt 0 s.plan l)
        rw [Nat.zero_add] at this
        simpa using this

theorem goes_kill {keep : Prop} {env : PbsEnv Cfg K C} {n : Nat} {p q : PbsProg Cfg K C} {sops} (h : Sess env p sops) (hi : SchedInv n p.sys) (kl : PbsKill K)
    (hq : p.kill env kl = some q) : Goes keep env p sops q ∧ TagLists n q.sys.store := by
  cases kl with
  | between => simp only [PbsProg.kill, Option.some.injEq] at hq; subst hq; exact ⟨h.refl, tagLists_inv hi⟩
  | inSchedule cmds j =>
    simp only [PbsProg.kill] at hq
    split at hq
    · rename_i hl
      obtain ⟨g, e⟩ := goes_acts cmds _ _ h hq
      exact ⟨g, by rw [e]; exact tagLists_acts hi hl j⟩
    · cases hq
  | inAsk rs => exact ⟨(sched_rounds rs h hi hq).1, tagLists_inv (sched_rounds (keep := keep) rs h hi hq).2⟩
  | unstored rs r =>
    simp only [PbsProg.kill] at hq
    cases hr : p.rounds env rs with
    | none => rw [hr] at hq; cases hq
    | some m =>
      rw [hr] at hq
      simp only [Option.bind_some] at hq
      split at hq
      · cases hq
      · injection hq with hq
        subst hq
        obtain ⟨g, i⟩ := sched_rounds rs h hi hr
        refine ⟨g.trans fun s hs => (goes_jobs r.jobs hs).trans fun s' hs' => goes_pool hs' _ fun _ _ => trivial, ?_⟩
        show TagLists n (m.jobs env r.jobs).sys.store
        rw [jobs_sys]; exact tagLists_inv i

/-- Failed samples of the file are the sampler's own. -/
theorem renewList_tags {env : PbsEnv Cfg K C} {p : PbsProg Cfg K C} {sops} (h : Sess env p sops) {failed} (hf : hdfFailedSamples p.sys.store = .ok failed)
    (hj : HonestJobs env p.hist) (hf' : HonestFailures env p.hist) : ∀ e ∈ renewList failed, ∃ i, e.2 = sampleTag e.1 i := by
  rw [h.store, failed_fresh] at hf
  injection hf with hf
  subst hf
  rintro ⟨l, id⟩ he
  simp only [renewList, List.mem_flatMap, List.mem_map, Prod.exists, Prod.mk.injEq] at he
  obtain ⟨ids, l', hm, id', hid, rfl, rfl⟩ := he
  rw [List.mem_zipIdx_iff_getElem?, List.getElem?_map] at hm
  simp only at hm
  cases hr : (List.range env.sims.length)[l']? with
  | none => rw [hr] at hm; cases hm
  | some k =>
    rw [hr, Option.map_some, Option.some.injEq] at hm
    obtain ⟨hk, e⟩ := List.getElem?_eq_some_iff.1 hr
    rw [List.getElem_range] at e
    subst e
    rw [← hm, List.mem_map] at hid
    obtain ⟨x, hx, rfl⟩ := hid
    obtain ⟨a, ha, hxa⟩ := h.failed l' x hx
    exact ((worldOk_run p.hist (h.ops hj hf') hj hf').2.2 a ha l').2 x hxa

theorem goes_renewLoop {keep : Prop} {env : PbsEnv Cfg K C} (cmds : Nat → List (Nat × JobAppend (PairRes K)) × QsubAns) : ∀ (L : List (Nat × SampleId)) (i : Nat)
    {p q : PbsProg Cfg K C} {sops}, Sess env p sops → (HonestJobs env p.hist → HonestFailures env p.hist → ∀ e ∈ L, ∃ i, e.2 = sampleTag e.1 i) →
    p.renewLoop env cmds i L = some q → Goes keep env p sops q ∧ q.sys = { p.sys with renewed := p.sys.renewed ++ L } := by
  intro L
  induction L with
  | nil =>
    intro i p q sops h _ hq
    simp only [PbsProg.renewLoop, Option.some.injEq] at hq; subst hq
    exact ⟨h.refl, by simp⟩
  | cons e L ih =>
    obtain ⟨l, id⟩ := e
    intro i p q sops h hL hq
    simp only [PbsProg.renewLoop] at hq
    split at hq
    · cases hq
    · rename_i sim hs
      split at hq
      · cases hq
      · have g : ∀ keep, Goes keep env p sops ((p.jobs env (cmds i).1).pool env (.schedule id l (env.size l) sim (cmds i).2)).1 := by
          intro keep
          have gj := goes_jobs (keep := keep) (cmds i).1 h
          obtain ⟨-, -, -, ej, hej⟩ := gj
          refine (goes_jobs (cmds i).1 h).trans fun s hs' => goes_pool hs' _ fun a b => ⟨?_, hs⟩
          rw [hej] at a b
          exact hL (honest_prefix a) (honestFailures_prefix b) (l, id) (by simp)
        have hsys : ((p.jobs env (cmds i).1).pool env (.schedule id l (env.size l) sim (cmds i).2)).1.sys = p.sys := jobs_sys env _ p
        set x := ((p.jobs env (cmds i).1).pool env (.schedule id l (env.size l) sim (cmds i).2)).1 with hx
        have g2 : Goes keep env p sops { x with sys := { x.sys with renewed := x.sys.renewed ++ [(l, id)] } } := Goes.sys (g keep) _ rfl
        have g3 := g2
        obtain ⟨mm, -, hs2, e2, he2⟩ := g3
        have hL2 : HonestJobs env (p.hist ++ e2) → HonestFailures env (p.hist ++ e2) → ∀ e ∈ L, ∃ i, e.2 = sampleTag e.1 i :=
          fun a b e he => hL (honest_prefix a) (honestFailures_prefix b) e (by simp [he])
        rw [← he2] at hL2
        refine ⟨g2.trans fun s hs' => (ih _ hs' hL2 hq).1, ?_⟩
        rw [(ih _ hs2 hL2 hq).2]
        simp [hsys]

theorem goes_renewing {keep : Prop} {env : PbsEnv Cfg K C} {p q : PbsProg Cfg K C} {sops} (h : Sess env p sops) (cmds) (j : Nat)
    (hq : p.renewing env cmds j = some q) : Goes keep env p sops q ∧ q.sys.store = p.sys.store := by
  simp only [PbsProg.renewing] at hq
  split at hq
  · cases hq
  · rename_i failed hf
    obtain ⟨g, e⟩ := goes_renewLoop (keep := keep) cmds _ 0 h (fun a b e he => renewList_tags h hf a b e (List.mem_of_mem_take he)) hq
    exact ⟨g, by rw [e]⟩

theorem sched_renew {keep : Prop} (hk : ¬ keep) {env : PbsEnv Cfg K C} {n : Nat} {p q : PbsProg Cfg K C} {sops} (h : Sess env p sops) (hi : SchedInv n p.sys) (cmds)
    (hq : p.renew env cmds = some q) : Goes keep env p sops q ∧ SchedInv n q.sys := by
  simp only [PbsProg.renew] at hq
  cases hf : hdfFailedSamples p.sys.store with
  | error e => rw [hf] at hq; cases hq
  | ok failed =>
    rw [hf] at hq
    obtain ⟨r, hr, rfl⟩ := Option.map_eq_some_iff.1 hq
    obtain ⟨g, e⟩ := goes_renewLoop (keep := keep) cmds (renewList failed) 0 h (renewList_tags h hf) hr
    constructor
    · refine g.trans fun s hs => ⟨[.clearFailed], fun k => absurd k hk, ⟨hs.world, hs.ops, ?_, ?_, ?_⟩, [], by simp⟩
      · rw [hdfRun_snoc, ← hs.store]; rfl
      · intro l'; rw [progSucc_snoc, List.append_nil]; exact hs.succ l'
      · intro l' x hx; rw [progFailed_snoc] at hx; simp at hx
    · have := schedInv_step hi .renew rfl
      simp only [Sys.step, Sys.renew, hf] at this
      rw [e]; exact this

theorem goes_ending {keep : Prop} {env : PbsEnv Cfg K C} {n : Nat} {p q : PbsProg Cfg K C} {sops} (h : Sess env p sops) (hi : SchedInv n p.sys) (e : PbsEnd K)
    (hq : p.ending env e = some q) : Goes keep env p sops q ∧ TagLists n q.sys.store := by
  cases e with
  | killed kl => exact goes_kill h hi kl hq
  | inGet rs r =>
    simp only [PbsProg.ending] at hq
    cases hr : p.rounds env rs with
    | none => rw [hr] at hq; cases hq
    | some m =>
      rw [hr] at hq
      simp only [Option.map_some, Option.some.injEq] at hq
      subst hq
      obtain ⟨g, i⟩ := sched_rounds rs h hi hr
      refine ⟨g.trans fun s hs => (goes_jobs r.jobs hs).trans fun s' hs' => goes_pool hs' _ fun _ _ => trivial, ?_⟩
      show TagLists n (m.jobs env r.jobs).sys.store
      rw [jobs_sys]; exact tagLists_inv i
  | inHand cmds j =>
    simp only [PbsProg.ending] at hq
    cases hr : p.kill env (.inSchedule cmds j) with
    | none => rw [hr] at hq; cases hq
    | some m =>
      rw [hr] at hq
      simp only [Option.bind_some] at hq
      obtain ⟨g, i⟩ := goes_kill h hi _ hr
      split at hq
      · rename_i l _
        split at hq
        · rename_i k sim hk hs
          injection hq with hq
          subst hq
          refine ⟨g.trans fun s hs1 => (goes_jobs _ hs1).trans fun s' hs' => goes_pool hs' (.schedule (sampleTag l k) l (env.size l) sim (cmds j).2) fun _ _ => ⟨⟨k, rfl⟩, hs⟩, ?_⟩
          show TagLists n (m.jobs env (cmds j).1).sys.store
          rw [jobs_sys]; exact i
        · cases hq
      · cases hq
  | inRenew cmds j =>
    obtain ⟨g, e⟩ := goes_renewing (keep := keep) h cmds j hq
    exact ⟨g, by rw [e]; exact tagLists_inv hi⟩
  | inRenewHand cmds j =>
    simp only [PbsProg.ending] at hq
    cases hr : p.renewing env cmds j with
    | none => rw [hr] at hq; cases hq
    | some m =>
      rw [hr] at hq
      simp only [Option.bind_some] at hq
      obtain ⟨g, e⟩ := goes_renewing (keep := keep) h cmds j hr
      split at hq
      · cases hq
      · rename_i failed hf
        split at hq
        · cases hq
        · rename_i x hx
          obtain ⟨sim, hs, rfl⟩ := Option.map_eq_some_iff.1 hq
          constructor
          · obtain ⟨-, -, -, em, hem⟩ := id g
            refine g.trans fun s hs1 => ?_
            have gj := goes_jobs (keep := keep) (cmds j).1 hs1
            obtain ⟨-, -, -, ej, hej⟩ := id gj
            refine gj.trans fun s' hs' => goes_pool hs' _ fun a b => ⟨?_, hs⟩
            rw [hej, hem, List.append_assoc] at a b
            exact renewList_tags h hf (honest_prefix a) (honestFailures_prefix b) x (List.mem_of_getElem? hx)
          · show TagLists n (m.jobs env (cmds j).1).sys.store
            rw [jobs_sys, e]; exact tagLists_inv hi

theorem sched_event {keep : Prop} {env : PbsEnv Cfg K C} {n : Nat} {p q : PbsProg Cfg K C} {sops} (h : Sess env p sops) (hi : SchedInv n p.sys) (e : PbsEvent K)
    (hk : keep → ∀ cmds, e ≠ .renew cmds) (hq : p.event env e = some q) : Goes keep env p sops q ∧ SchedInv n q.sys := by
  cases e with
  | call o => exact sched_step h hi o hq
  | renew cmds => exact sched_renew (fun k => hk k cmds rfl) h hi cmds hq
  | restart e js debug listing ids =>
    simp only [PbsProg.event] at hq
    cases hr : p.ending env e with
    | none => rw [hr] at hq; cases hq
    | some m =>
      rw [hr] at hq
      simp only [Option.map_some, Option.some.injEq] at hq
      subst hq
      obtain ⟨g, i⟩ := goes_ending h hi e hr
      constructor
      · refine g.trans fun s hs => (Goes.sys (goes_jobs js hs) (Sys.construct (m.jobs env js).sys.store [] []) rfl).trans fun s' hs' => ?_
        exact (goes_pool hs' (.restart debug listing) fun _ _ => trivial).trans fun s2 hs2 => goes_pool hs2 (.permanent ids) fun _ _ => trivial
      · show SchedInv n (Sys.construct (m.jobs env js).sys.store [] [])
        rw [jobs_sys]; exact construct_inv i

theorem sched_events {keep : Prop} {env : PbsEnv Cfg K C} {n : Nat} : ∀ (es : List (PbsEvent K)) {p q : PbsProg Cfg K C} {sops}, Sess env p sops → SchedInv n p.sys →
    (keep → ∀ cmds, PbsEvent.renew cmds ∉ es) → p.events env es = some q → Goes keep env p sops q ∧ SchedInv n q.sys := by
  intro es
  induction es with
  | nil => intro p q sops h hi _ hq; simp only [PbsProg.events, Option.some.injEq] at hq; subst hq; exact ⟨h.refl, hi⟩
  | cons e es ih =>
    intro p q sops h hi hk hq
    simp only [PbsProg.events] at hq
    cases hr : p.event env e with
    | none => rw [hr] at hq; cases hq
    | some m =>
      rw [hr, Option.bind_some] at hq
      exact Goes.transI (sched_event h hi e (fun k cmds he => hk k cmds (by rw [he]; exact List.mem_cons_self)) hr) fun s hs hi' =>
        ih hs hi' (fun k cmds hm => hk k cmds (List.mem_cons_of_mem _ hm)) hq

theorem sess_start (env : PbsEnv Cfg K C) : Sess env (PbsProg.start env) [] ∧ SchedInv env.sims.length (PbsProg.start env).sys :=
  ⟨⟨rfl, by simp [PbsProg.start], rfl, by simp [savedSucc], by simp [savedFailed]⟩, schedInv_fresh _⟩

theorem savedFailed_prefix {V : Type} (sops : List (StoreOp V)) (l : Nat) : ∀ (more : List (StoreOp V)), StoreOp.clearFailed ∉ more →
    savedFailed sops l <+: savedFailed (sops ++ more) l := by
  intro more
  induction more using List.reverseRecOn with
  | nil => intro _; simp
  | append_singleton more o ih =>
    intro h
    have h1 := ih (fun hm => h (by simp [hm]))
    rw [← List.append_assoc, progFailed_snoc]
    cases o with
    | samples s f => exact h1.trans (List.prefix_append _ _)
    | clearFailed => exact absurd (by simp) h
    | scheduled l' ids => exact h1
    | nOps e => exact h1

end MLMC
