import Verif.Spec.Workspace
import Verif.Proofs.Dict
/-
The invariant of samples in their own directories.
-/
namespace MLMC.Work
variable {C R : Type}

@[simp] theorem upd_self {α β : Type} [DecidableEq α] (f : α → β) (a : α) (b : β) : upd f a b a = b := if_pos rfl
theorem upd_ne {α β : Type} [DecidableEq α] (f : α → β) {a x : α} (b : β) (h : x ≠ a) : upd f a b x = f x := if_neg h

theorem rm_get (fs : FS C) (p q : Path) : Dict.get? (fs.rmdir p).dirs q = if q = p then none else Dict.get? fs.dirs q := by
  show Dict.get? (fs.dirs.filter fun e => e.1 ≠ p) q = _
  induction fs.dirs with
  | nil => split <;> rfl
  | cons e d ih =>
    obtain ⟨a, k⟩ := e
    rw [List.filter_cons]
    by_cases h : a = p
    · rw [if_neg (by simp [h]), ih]
      split
      · rfl
      · rename_i hq
        simp only [Dict.get?]
        rw [if_neg (by rw [h]; exact fun e => hq e.symm)]
    · rw [if_pos (by simpa using h)]
      simp only [Dict.get?]
      rw [ih]
      by_cases ha : a = q
      · rw [if_pos ha, if_neg (by rw [← ha]; exact h), if_pos ha]
      · rw [if_neg ha, if_neg ha]

/-- The invariant. -/
structure Inv (out : Path) (jobs : Nat → Job C R) (w0 w : World C R) : Prop where
  ok : w.fs.Ok
  old : ∀ p k, Dict.get? w0.fs.dirs p = some k → Dict.get? w.fs.dirs p = some k
  files : ∀ k, k < w0.fs.next → w.fs.files k = w0.fs.files k
  next : w0.fs.next ≤ w.fs.next
  sample : ∀ i k, Dict.get? w.fs.dirs (sampleDir out (jobs i)) = some k → w0.fs.next ≤ k
  waiting : ∀ i, w.phase i = .waiting → Dict.get? w.fs.dirs (sampleDir out (jobs i)) = none
  copying : ∀ i k rest, w.phase i = .copying k rest → Dict.get? w.fs.dirs (sampleDir out (jobs i)) = some k ∧ ∃ dn, (jobs i).common = dn ++ rest ∧ w.fs.files k = startContent w0.fs dn
  running : ∀ i p, w.phase i = .running p → ∃ k, Dict.get? w.fs.dirs (sampleDir out (jobs i)) = some k ∧ w.cwd (jobs i).proc = ⟨sampleDir out (jobs i), k⟩ ∧
    alone p (w.fs.files k) = alone (jobs i).prog (startContent w0.fs (jobs i).common)
  finished : ∀ i o, w.phase i = .finished o → o = alone (jobs i).prog (startContent w0.fs (jobs i).common)
  copyFailed : ∀ i, w.phase i ≠ .copyFailed

theorem inv_start (out : Path) (jobs : Nat → Job C R) (w : World C R) (h : Start out jobs w) : Inv out jobs w w where
  ok := h.fs
  old _ _ := id
  files _ _ := rfl
  next := Nat.le_refl _
  sample i k hk := by rw [h.new i] at hk; cases hk
  waiting i _ := h.new i
  copying i k r hp := by rw [h.waiting i] at hp; cases hp
  running i p hp := by rw [h.waiting i] at hp; cases hp
  finished i o hp := by rw [h.waiting i] at hp; cases hp
  copyFailed i hp := by rw [h.waiting i] at hp; cases hp

theorem dir_ne {out : Path} {jobs : Nat → Job C R} {w0 : World C R} (h : Start out jobs w0) {i j : Nat} (hij : i ≠ j) : sampleDir out (jobs i) ≠ sampleDir out (jobs j) := by
  intro e
  unfold sampleDir at e
  have := List.append_cancel_left e
  exact hij (h.ids i j (List.cons.inj this).1)

theorem startContent_snoc (fs : FS C) (l : List Common) (c : Common) (x : C) (hx : c.read fs ⟨[], 0⟩ = some x) : startContent fs (l ++ [c]) = upd (startContent fs l) c.name (some x) := by
  funext n
  unfold startContent upd
  rw [List.reverse_append, List.reverse_singleton, List.singleton_append, List.find?_cons]
  by_cases hn : c.name = n
  · rw [if_pos hn.symm]
    simp [hn, hx]
  · rw [if_neg fun e => hn e.symm]
    simp [hn]

theorem read_old {out : Path} {jobs : Nat → Job C R} {w0 w : World C R} (h0 : w0.fs.Ok) (h : Inv out jobs w0 w) (l : Loc) (d : Path) (n : Name) (x : C) (hx : (Common.abs d n).read w0.fs ⟨[], 0⟩ = some x) :
    (Common.abs d n).read w.fs l = some x := by
  unfold Common.read at *
  simp only at *
  cases hd : Dict.get? w0.fs.dirs d with
  | none => rw [hd] at hx; cases hx
  | some k =>
    rw [hd] at hx
    rw [h.old d k hd]
    show w.fs.files k n = some x
    rw [h.files k (h0.fresh d k hd)]
    exact hx

/-- A change of the content of the directory of sample `i` and of its phase keeps the invariant for the other samples. -/
theorem inv_files {out : Path} {jobs : Nat → Job C R} {w0 w : World C R} (h0 : Start out jobs w0) (h : Inv out jobs w0 w) (i k : Nat) (c : Content C) (ph : Phase C R)
    (hk : Dict.get? w.fs.dirs (sampleDir out (jobs i)) = some k)
    (hw : ph ≠ .waiting)
    (hc : ∀ k' rest, ph = .copying k' rest → k' = k ∧ ∃ dn, (jobs i).common = dn ++ rest ∧ c = startContent w0.fs dn)
    (hr : ∀ p, ph = .running p → w.cwd (jobs i).proc = ⟨sampleDir out (jobs i), k⟩ ∧ alone p c = alone (jobs i).prog (startContent w0.fs (jobs i).common))
    (hf : ∀ o, ph = .finished o → o = alone (jobs i).prog (startContent w0.fs (jobs i).common)) (hx : ph ≠ .copyFailed) :
    Inv out jobs w0 { w with fs := { w.fs with files := upd w.fs.files k c }, phase := upd w.phase i ph } where
  ok := ⟨h.ok.fresh, h.ok.inj⟩
  old := h.old
  files k' hk' := by
    show upd w.fs.files k c k' = _
    rw [upd_ne]
    · exact h.files k' hk'
    · have := h.sample i k hk
      omega
  next := h.next
  sample := h.sample
  waiting j hp := by
    by_cases hj : j = i
    · subst hj
      exact absurd ((upd_self w.phase j ph).symm.trans hp) hw
    · exact h.waiting j ((upd_ne _ _ hj).symm.trans hp)
  copying j k' rest hp := by
    by_cases hj : j = i
    · subst hj
      obtain ⟨rfl, dn, h1, h2⟩ := hc k' rest ((upd_self w.phase j ph).symm.trans hp)
      exact ⟨hk, dn, h1, by show upd w.fs.files k' c k' = _; rw [upd_self, h2]⟩
    · obtain ⟨h1, dn, h2, h3⟩ := h.copying j k' rest ((upd_ne _ _ hj).symm.trans hp)
      refine ⟨h1, dn, h2, ?_⟩
      show upd w.fs.files k c k' = _
      rw [upd_ne, h3]
      rintro rfl
      exact dir_ne h0 hj (h.ok.inj _ _ _ h1 hk)
  running j p hp := by
    by_cases hj : j = i
    · subst hj
      obtain ⟨h1, h2⟩ := hr p ((upd_self w.phase j ph).symm.trans hp)
      exact ⟨k, hk, h1, by show alone p (upd w.fs.files k c k) = _; rw [upd_self, h2]⟩
    · obtain ⟨k', h1, h2, h3⟩ := h.running j p ((upd_ne _ _ hj).symm.trans hp)
      refine ⟨k', h1, h2, ?_⟩
      show alone p (upd w.fs.files k c k') = _
      rw [upd_ne, h3]
      rintro rfl
      exact dir_ne h0 hj (h.ok.inj _ _ _ h1 hk)
  finished j o hp := by
    by_cases hj : j = i
    · subst hj
      exact hf o ((upd_self w.phase j ph).symm.trans hp)
    · exact h.finished j o ((upd_ne _ _ hj).symm.trans hp)
  copyFailed j hp := by
    by_cases hj : j = i
    · subst hj
      exact hx ((upd_self w.phase j ph).symm.trans hp)
    · exact h.copyFailed j ((upd_ne _ _ hj).symm.trans hp)

theorem upd_same (f : Nat → Content C) (k : Nat) : upd f k (f k) = f := by
  funext x
  by_cases h : x = k
  · rw [h, upd_self]
  · rw [upd_ne _ _ h]

theorem inv_phase {out : Path} {jobs : Nat → Job C R} {w0 w : World C R} (h0 : Start out jobs w0) (h : Inv out jobs w0 w) (i k : Nat) (o : Outcome R)
    (hk : Dict.get? w.fs.dirs (sampleDir out (jobs i)) = some k) (hf : o = alone (jobs i).prog (startContent w0.fs (jobs i).common)) :
    Inv out jobs w0 { w with phase := upd w.phase i (.finished o) } := by
  have := inv_files h0 h i k (w.fs.files k) (.finished o) hk (by simp) (by simp) (by simp) (by rintro o' e; cases e; exact hf) (by simp)
  rw [upd_same] at this
  exact this

theorem inv_step {out : Path} {jobs : Nat → Job C R} {w0 w : World C R} (h0 : Start out jobs w0) (h : Inv out jobs w0 w) (i : Nat)
    (hg : (∃ k, w.phase i = .copying k []) → ∀ j, j ≠ i → (jobs j).proc = (jobs i).proc → ¬ (w.phase j).busy) : Inv out jobs w0 (step out jobs w i) := by
  unfold step
  simp only
  cases hp : w.phase i with
  | waiting =>
    have hnone := h.waiting i hp
    simp only [FS.mkdir, hnone]
    have hget : ∀ q, Dict.get? (Dict.set w.fs.dirs (sampleDir out (jobs i)) w.fs.next) q = if q = sampleDir out (jobs i) then some w.fs.next else Dict.get? w.fs.dirs q := by
      intro q
      split
      · rename_i e; rw [e, Dict.get?_set_self]
      · rename_i e; rw [Dict.get?_set_ne _ _ e]
    constructor
    · constructor
      · intro p k hk
        simp only [hget] at hk
        split at hk
        · cases hk; exact Nat.lt_succ_self _
        · exact Nat.lt_succ_of_lt (h.ok.fresh p k hk)
      · intro p q k hk hq
        simp only [hget] at hk hq
        split at hk <;> split at hq
        · rename_i a b; rw [a, b]
        · cases hk; exact absurd (h.ok.fresh q _ hq) (Nat.lt_irrefl _)
        · cases hq; exact absurd (h.ok.fresh p _ hk) (Nat.lt_irrefl _)
        · exact h.ok.inj p q k hk hq
    · intro p k hk
      simp only [hget]
      rw [if_neg, h.old p k hk]
      rintro rfl
      rw [h0.new i] at hk
      cases hk
    · intro k hk
      show upd w.fs.files w.fs.next _ k = _
      rw [upd_ne, h.files k hk]
      have := h.next
      omega
    · exact Nat.le_succ_of_le h.next
    · intro j k hk
      simp only [hget] at hk
      split at hk
      · cases hk; exact h.next
      · exact h.sample j k hk
    · intro j hj
      by_cases e : j = i
      · subst e; simp at hj
      · simp only [hget]
        rw [if_neg (dir_ne h0 e)]
        exact h.waiting j ((upd_ne _ _ e).symm.trans hj)
    · intro j k rest hj
      by_cases e : j = i
      · subst e
        simp only [upd_self, Phase.copying.injEq] at hj
        obtain ⟨rfl, rfl⟩ := hj
        refine ⟨by simp [hget], [], rfl, ?_⟩
        show upd w.fs.files w.fs.next _ w.fs.next = _
        rw [upd_self]
        funext n
        rfl
      · obtain ⟨h1, dn, h2, h3⟩ := h.copying j k rest ((upd_ne _ _ e).symm.trans hj)
        refine ⟨by simp only [hget]; rw [if_neg (dir_ne h0 e), h1], dn, h2, ?_⟩
        show upd w.fs.files w.fs.next _ k = _
        rw [upd_ne, h3]
        have := h.ok.fresh _ _ h1
        omega
    · intro j p hj
      by_cases e : j = i
      · subst e; simp at hj
      · obtain ⟨k, h1, h2, h3⟩ := h.running j p ((upd_ne _ _ e).symm.trans hj)
        refine ⟨k, by simp only [hget]; rw [if_neg (dir_ne h0 e), h1], h2, ?_⟩
        show alone p (upd w.fs.files w.fs.next _ k) = _
        rw [upd_ne, h3]
        have := h.ok.fresh _ _ h1
        omega
    · intro j o hj
      by_cases e : j = i
      · subst e; simp at hj
      · exact h.finished j o ((upd_ne _ _ e).symm.trans hj)
    · intro j hj
      by_cases e : j = i
      · subst e; simp at hj
      · exact h.copyFailed j ((upd_ne _ _ e).symm.trans hj)
  | copying k rest =>
    obtain ⟨hk, dn, hd, hf⟩ := h.copying i k rest hp
    cases rest with
    | cons c rest =>
      obtain ⟨d, n, x, rfl, hx⟩ := h0.common i c (by rw [hd]; simp)
      simp only [read_old h0.fs h _ d n x hx]
      exact inv_files h0 h i k _ (.copying k rest) hk (by simp) (by
        rintro k' r e
        cases e
        exact ⟨rfl, dn ++ [.abs d n], by rw [hd, List.append_assoc, List.singleton_append], by rw [startContent_snoc _ _ _ x hx, hf]⟩) (by simp) (by simp) (by simp)
    | nil =>
      simp only
      have hnob : ∀ j, j ≠ i → (jobs j).proc = (jobs i).proc → ∀ p, w.phase j ≠ .running p := fun j hj hpr p e => hg ⟨k, hp⟩ j hj hpr (by rw [e]; trivial)
      constructor
      · exact h.ok
      · exact h.old
      · exact h.files
      · exact h.next
      · exact h.sample
      · intro j hj
        by_cases e : j = i
        · subst e; simp at hj
        · exact h.waiting j ((upd_ne _ _ e).symm.trans hj)
      · intro j k' r hj
        by_cases e : j = i
        · subst e; simp at hj
        · exact h.copying j k' r ((upd_ne _ _ e).symm.trans hj)
      · intro j p hj
        by_cases e : j = i
        · subst e
          simp only [upd_self, Phase.running.injEq] at hj
          subst hj
          refine ⟨k, hk, by simp, ?_⟩
          rw [hf, hd, List.append_nil]
        · have hj' := (upd_ne _ _ e).symm.trans hj
          obtain ⟨k', h1, h2, h3⟩ := h.running j p hj'
          refine ⟨k', h1, ?_, h3⟩
          show upd w.cwd _ _ _ = _
          rw [upd_ne, h2]
          exact fun hpr => hnob j e hpr p hj'
      · intro j o hj
        by_cases e : j = i
        · subst e; simp at hj
        · exact h.finished j o ((upd_ne _ _ e).symm.trans hj)
      · intro j hj
        by_cases e : j = i
        · subst e; simp at hj
        · exact h.copyFailed j ((upd_ne _ _ e).symm.trans hj)
  | running p =>
    obtain ⟨k, hk, hc, ha⟩ := h.running i p hp
    cases p with
    | ret r => exact inv_phase h0 h i k _ hk ha
    | raise => exact inv_phase h0 h i k _ hk ha
    | act f g =>
      simp only [hc]
      rw [if_pos (by unfold Loc.alive; simp [hk])]
      exact inv_files h0 h i k _ (.running (g (w.fs.files k))) hk (by simp) (by simp) (by rintro p e; cases e; exact ⟨hc, ha⟩) (by simp) (by simp)
  | finished o => exact h
  | copyFailed => exact h

theorem inv_collect {out : Path} {jobs : Nat → Job C R} {w0 w : World C R} (h0 : Start out jobs w0) (h : Inv out jobs w0 w) (i : Nat) (hf : ∃ o, w.phase i = .finished o) :
    Inv out jobs w0 (collect out jobs w i) := by
  obtain ⟨o, hf⟩ := hf
  have hne : ∀ j, w.phase j ≠ .finished o → sampleDir out (jobs j) ≠ sampleDir out (jobs i) := fun j hj => dir_ne h0 (fun e => hj (e ▸ hf))
  unfold collect
  constructor
  · constructor
    · intro p k hk
      rw [rm_get] at hk
      split at hk
      · cases hk
      · exact h.ok.fresh p k hk
    · intro p q k hk hq
      rw [rm_get] at hk hq
      split at hk
      · cases hk
      · split at hq
        · cases hq
        · exact h.ok.inj p q k hk hq
  · intro p k hk
    rw [rm_get, if_neg, h.old p k hk]
    rintro rfl
    rw [h0.new i] at hk
    cases hk
  · exact h.files
  · exact h.next
  · intro j k hk
    rw [rm_get] at hk
    split at hk
    · cases hk
    · exact h.sample j k hk
  · intro j hj
    rw [rm_get]
    split
    · rfl
    · exact h.waiting j hj
  · intro j k r hj
    obtain ⟨h1, h2⟩ := h.copying j k r hj
    exact ⟨by rw [rm_get, if_neg (hne j (by rw [show w.phase j = _ from hj]; simp)), h1], h2⟩
  · intro j p hj
    obtain ⟨k, h1, h2⟩ := h.running j p hj
    exact ⟨k, by rw [rm_get, if_neg (hne j (by rw [show w.phase j = _ from hj]; simp)), h1], h2⟩
  · exact h.finished
  · exact h.copyFailed

theorem inv_run {out : Path} {jobs : Nat → Job C R} {w0 : World C R} (h0 : Start out jobs w0) {w : World C R} {evs : List Ev} (hr : Possible false out jobs w evs) (h : Inv out jobs w0 w) :
    Inv out jobs w0 (run out jobs w evs) := by
  induction hr with
  | nil w => exact h
  | step w i evs hg _ ih => exact ih (inv_step h0 h i fun _ => hg rfl)
  | collect w i evs hf _ ih => exact ih (inv_collect h0 h i hf)

theorem run_append (out : Path) (jobs : Nat → Job C R) : ∀ (a b : List Ev) (w : World C R), run out jobs w (a ++ b) = run out jobs (run out jobs w a) b
  | [], _, _ => rfl
  | .step _ :: a, b, _ => run_append out jobs a b _
  | .collect _ :: a, b, _ => run_append out jobs a b _

theorem step_other (out : Path) (jobs : Nat → Job C R) (w : World C R) {i j : Nat} (h : j ≠ i) : (step out jobs w i).phase j = w.phase j := by
  unfold step
  simp only
  split <;> try (first | rfl | exact upd_ne _ _ h)
  · split
    · exact upd_ne _ _ h
    · exact upd_ne _ _ h
  · split
    · exact upd_ne _ _ h
    · exact upd_ne _ _ h

/-- `m` actions of one sample. -/
def steps (i m : Nat) : List Ev := List.replicate m (.step i)

theorem steps_other (out : Path) (jobs : Nat → Job C R) {i j : Nat} (h : j ≠ i) : ∀ (m : Nat) (w : World C R), (run out jobs w (steps i m)).phase j = w.phase j
  | 0, _ => rfl
  | m + 1, w => by
    show (run out jobs (step out jobs w i) (steps i m)).phase j = _
    rw [steps_other out jobs h m, step_other out jobs w h]

theorem possible_steps (th : Bool) (out : Path) (jobs : Nat → Job C R) (i : Nat) : ∀ (m : Nat) (w : World C R) (_ : th = false → ∀ j, j ≠ i → (jobs j).proc = (jobs i).proc → ¬ (w.phase j).busy),
    Possible th out jobs w (steps i m)
  | 0, w, _ => .nil w
  | m + 1, w, h => .step w i _ h (possible_steps th out jobs i m _ fun ht j hj hp => by rw [step_other out jobs w hj]; exact h ht j hj hp)

theorem possible_append {th : Bool} {out : Path} {jobs : Nat → Job C R} {w : World C R} {a b : List Ev} (ha : Possible th out jobs w a) (hb : Possible th out jobs (run out jobs w a) b) :
    Possible th out jobs w (a ++ b) := by
  induction ha with
  | nil w => exact hb
  | step w i evs hg _ ih => exact .step w i _ hg (ih hb)
  | collect w i evs hf _ ih => exact .collect w i _ hf (ih hb)

/-- A simulation runs to its end in the current directory of its process. -/
theorem finish (out : Path) (jobs : Nat → Job C R) (i : Nat) : ∀ (p : Prog C R) (w : World C R), w.phase i = .running p → (w.cwd (jobs i).proc).alive w.fs = true →
    ∃ m, (run out jobs w (steps i m)).phase i = .finished (alone p (w.fs.files (w.cwd (jobs i).proc).no))
  | .ret r, w, hp, _ => ⟨1, by simp [steps, run, step, hp, alone]⟩
  | .raise, w, hp, _ => ⟨1, by simp [steps, run, step, hp, alone]⟩
  | .act f k, w, hp, ha => by
    have hs : step out jobs w i = { w with fs := { w.fs with files := upd w.fs.files (w.cwd (jobs i).proc).no (f (w.fs.files (w.cwd (jobs i).proc).no)) }, phase := upd w.phase i (.running (k (w.fs.files (w.cwd (jobs i).proc).no))) } := by
      unfold step
      simp only [hp, ha, if_true]
    obtain ⟨m, hm⟩ := finish out jobs i (k (w.fs.files (w.cwd (jobs i).proc).no)) (step out jobs w i) (by rw [hs]; simp) (by rw [hs]; exact ha)
    refine ⟨m + 1, ?_⟩
    show (run out jobs (step out jobs w i) (steps i m)).phase i = _
    rw [hm, hs]
    simp [alone]

/-- All files are copied. -/
theorem copied {out : Path} {jobs : Nat → Job C R} {w0 : World C R} (h0 : Start out jobs w0) (i : Nat) : ∀ (rest : List Common) (k : Nat) (w : World C R), Inv out jobs w0 w → w.phase i = .copying k rest →
    Inv out jobs w0 (run out jobs w (steps i rest.length)) ∧ (run out jobs w (steps i rest.length)).phase i = .copying k [] ∧ (run out jobs w (steps i rest.length)).cwd = w.cwd
  | [], k, w, h, hp => ⟨h, hp, rfl⟩
  | c :: rest, k, w, h, hp => by
    obtain ⟨hk, dn, hd, hf⟩ := h.copying i k _ hp
    obtain ⟨d, n, x, rfl, hx⟩ := h0.common i c (by rw [hd]; simp)
    have hi := inv_step h0 h i (by rintro ⟨k', e⟩; rw [hp] at e; cases e)
    have hs : (step out jobs w i).phase i = .copying k rest ∧ (step out jobs w i).cwd = w.cwd := by
      unfold step
      simp only [hp, read_old h0.fs h _ d n x hx]
      exact ⟨upd_self _ _ _, trivial⟩
    obtain ⟨a, b, c⟩ := copied h0 i rest k _ hi hs.1
    exact ⟨a, b, c.trans hs.2⟩

/-- A waiting sample gets its directory with all files. -/
theorem prepared {out : Path} {jobs : Nat → Job C R} {w0 w : World C R} (h0 : Start out jobs w0) (h : Inv out jobs w0 w) (i : Nat) (hp : w.phase i = .waiting) :
    ∃ m k, Inv out jobs w0 (run out jobs w (steps i m)) ∧ (run out jobs w (steps i m)).phase i = .copying k [] ∧ (run out jobs w (steps i m)).cwd = w.cwd := by
  have hi := inv_step h0 h i (by rintro ⟨k', e⟩; rw [hp] at e; cases e)
  have hs : ∃ k, (step out jobs w i).phase i = .copying k (jobs i).common ∧ (step out jobs w i).cwd = w.cwd := by
    unfold step
    simp only [hp]
    exact ⟨_, upd_self _ _ _, trivial⟩
  obtain ⟨k, h1, h2⟩ := hs
  obtain ⟨a, b, c⟩ := copied h0 i _ k _ hi h1
  exact ⟨(jobs i).common.length + 1, k, a, b, c.trans h2⟩

theorem enter (out : Path) (jobs : Nat → Job C R) (w : World C R) (i k : Nat) (hp : w.phase i = .copying k []) :
    step out jobs w i = { w with cwd := upd w.cwd (jobs i).proc ⟨sampleDir out (jobs i), k⟩, phase := upd w.phase i (.running (jobs i).prog) } := by
  unfold step
  simp only [hp]
end MLMC.Work
