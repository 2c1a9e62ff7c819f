import Verif.Proofs.Qstat
/-
C100: the texts by which jobs are identified.
-/
namespace MLMC.Qstat

/-- **C100**, what is taken as finished: for every table of jobs, a number is taken as a finished job exactly if it is the number of a row with state F, or of a row in which a column that ends with a digit
is followed after one blank by a column that begins with F. -/
theorem C100_taken_as_finished (header : List Char) (hh : ∀ c ∈ header, c.isDigit = false) (rows : List Row) (hok : ∀ r ∈ rows, r.Ok) (id : List Char) :
    id ∈ finishedJobs (header ++ rows.flatMap Row.text) ↔ ∃ r ∈ rows, r.number = id ∧
      (r.state = 'F' ∨ Confusing r.server r.gapName r.name ∨ Confusing r.name r.gapUser r.user ∨ Confusing r.user r.gapTime r.time) := by
  rw [skip_text header _ hh, rows_finished (fun r => hasMark r.tail) rows hok fun _ _ => rfl]
  simp only [List.mem_map, List.mem_filter]
  constructor
  · rintro ⟨r, ⟨hr, hm⟩, rfl⟩
    exact ⟨r, hr, rfl, (tail_mark r (hok r hr)).1 hm⟩
  · rintro ⟨r, hr, rfl, hm⟩
    exact ⟨r, ⟨hr, (tail_mark r (hok r hr)).2 hm⟩, rfl⟩

/-- **C100**, finished jobs: every job reported as finished is taken as finished. -/
theorem C100_finished_found (header : List Char) (hh : ∀ c ∈ header, c.isDigit = false) (rows : List Row) (hok : ∀ r ∈ rows, r.Ok) (r : Row) (hr : r ∈ rows) (hF : r.state = 'F') :
    r.number ∈ finishedJobs (header ++ rows.flatMap Row.text) :=
  (C100_taken_as_finished header hh rows hok r.number).2 ⟨r, hr, rfl, Or.inl hF⟩

/-- **C100** (partial): if no row has confusing columns, the jobs taken as finished are exactly those reported as finished, in the order of the table.  Missing: rows with confusing columns,
below. -/
theorem C100_exactly_finished_partial (header : List Char) (hh : ∀ c ∈ header, c.isDigit = false) (rows : List Row) (hok : ∀ r ∈ rows, r.Ok)
    (hc : ∀ r ∈ rows, ¬ Confusing r.server r.gapName r.name ∧ ¬ Confusing r.name r.gapUser r.user ∧ ¬ Confusing r.user r.gapTime r.time) :
    finishedJobs (header ++ rows.flatMap Row.text) = (rows.filter fun r => r.state = 'F').map Row.number := by
  rw [skip_text header _ hh, rows_finished (fun r => decide (r.state = 'F')) rows hok]
  intro r hr
  obtain ⟨h1, h2, h3⟩ := hc r hr
  rw [Bool.eq_iff_iff, tail_mark r (hok r hr), decide_eq_true_iff]
  constructor
  · rintro (h | h | h | h)
    · exact h
    · exact absurd h h1
    · exact absurd h h2
    · exact absurd h h3
  · exact Or.inl

/-- The columns of `qstat` of OpenPBS: name and user have 16 characters and one blank between them. -/
def row (number name user time : String) (state : Char) : Row :=
  { number := number.toList, server := "pbs".toList, gapName := 17 - number.length - 3, name := name.toList, gapUser := 17 - name.length, user := user.toList, gapTime := 18 - user.length + (8 - time.length),
    time := time.toList, state := state, gapQueue := 1, queue := "q_2h".toList }

/-- A running job with the 16 characters long name `flow_sample_run1` of the user Frank. -/
def running : Row := row "4711" "flow_sample_run1" "Frank" "00:10:02" 'R'
/-- A finished job. -/
def done : Row := row "4712" "flow" "Frank" "00:20:02" 'F'

theorem running_ok : running.Ok := by
  constructor <;> first | decide | (constructor <;> decide) | exact ⟨"00:10:0".toList, '2', by decide, by decide⟩
theorem done_ok : done.Ok := by
  constructor <;> first | decide | (constructor <;> decide) | exact ⟨"00:20:0".toList, '2', by decide, by decide⟩

/-- **C100** is false with confusing columns: the running job is taken as finished. -/
theorem C100_running_counterexample : running.Ok ∧ running.state = 'R' ∧ finishedJobs ("Job id\n".toList ++ [running, done].flatMap Row.text) = ["4711".toList, "4712".toList] :=
  ⟨running_ok, rfl, by decide +kernel⟩

/-- The hypotheses hold for a running and a finished job. -/
example : (row "4711" "flow" "Frank" "00:10:02" 'R').Ok ∧ done.Ok ∧ ¬ Confusing "flow".toList 13 "Frank".toList ∧
    finishedJobs ("Job id\n".toList ++ [row "4711" "flow" "Frank" "00:10:02" 'R', done].flatMap Row.text) = ["4712".toList] := by
  refine ⟨?_, done_ok, fun h => ?_, by decide +kernel⟩
  · constructor <;> first | decide | (constructor <;> decide) | exact ⟨"00:10:0".toList, '2', by decide, by decide⟩
  · have := h.2.1
    omega

/-- **C100**, submission: for an answer `number.server` of `qsub` the stored identifier is the number, the one that the table shows. -/
theorem C100_submitted_id (number rest : List Char) (hd : ∀ c ∈ number, c.isDigit = true) : qsubId (number ++ '.' :: rest) = number := by
  rw [qsubId]
  exact (takeWhile_stop _ number '.' rest (fun c hc => by simpa using (digit_ne (hd c hc)).2.2.1) (by decide)).1

/-- A text of digits. -/
def Digits (s : List Char) : Prop := s ≠ [] ∧ ∀ c ∈ s, c.isDigit = true

theorem zpad_ne (j : Nat) : jobName j ≠ [] := by
  intro h
  have h1 : (jobName j).length = 0 := by rw [h]; rfl
  rw [jobName, zpad] at h1
  simp at h1

theorem suffix_iff (j' : Nat) (id id' : List Char) (h : Digits id) (h' : Digits id') : ('_' :: id) <:+ idFile j' id' ↔ id' = id := by
  constructor
  · rintro ⟨pre, hp⟩
    rw [idFile] at hp
    -- both texts have their last underscore before the identifier
    have key : ∀ (a b x y : List Char), (∀ c ∈ x, c ≠ '_') → (∀ c ∈ y, c ≠ '_') → a ++ '_' :: x = b ++ '_' :: y → x = y := by
      intro a b x y hx hy he
      have e1 := congrArg (fun l => (l.reverse.takeWhile (· ≠ '_')).reverse) he
      simp only [List.reverse_append, List.reverse_cons, List.append_assoc, List.singleton_append] at e1
      rw [(takeWhile_stop _ x.reverse '_' a.reverse (fun c hc => by simpa using hx c (List.mem_reverse.1 hc)) (by decide)).1,
        (takeWhile_stop _ y.reverse '_' b.reverse (fun c hc => by simpa using hy c (List.mem_reverse.1 hc)) (by decide)).1] at e1
      simpa using e1
    exact (key pre (jobName j') id id' (fun c hc => (digit_ne (h.2 c hc)).2.2.2) (fun c hc => (digit_ne (h'.2 c hc)).2.2.2) hp).symm
  · rintro rfl
    exact ⟨jobName j', rfl⟩

theorem jobOfFrom_idFile (n j : Nat) (id : List Char) (h : Digits id) (hn : 0 < n) : jobOfFrom n (idFile j id) = some (jobName j) := by
  obtain ⟨m, rfl⟩ : ∃ m, n = m + 1 := ⟨n - 1, by omega⟩
  have hne := zpad_ne j
  have hd : ∀ c ∈ jobName j, c.isDigit = true := fun c hc => isDigit_of_mem_zpad hc
  obtain ⟨ht, hw⟩ := takeWhile_stop Char.isDigit (jobName j) '_' id hd (by decide)
  rw [idFile]
  generalize hj : jobName j = J at *
  cases J with
  | nil => exact absurd rfl hne
  | cons d ds =>
    cases id with
    | nil => exact absurd rfl h.1
    | cons e es =>
      rw [List.cons_append] at ht hw ⊢
      rw [jobOfFrom]
      simp only [ht, hw, h.2 e (List.mem_cons_self ..), if_true]

/-- **C100**, job of an identifier: in a jobs directory with the files of submitted jobs, one for each identifier, and any other files that do not end with a digit (scripts, results, outputs), the job found for an identifier is
the one submitted with it; for an identifier without a file none is found. -/
theorem C100_job_of_identifier (files : List (List Char)) (ids : List (Nat × List Char)) (hids : ∀ p ∈ ids, Digits p.2) (hu : ∀ p ∈ ids, ∀ q ∈ ids, p.2 = q.2 → p.1 = q.1)
    (hin : ∀ p ∈ ids, idFile p.1 p.2 ∈ files) (hf : ∀ f ∈ files, (∃ p ∈ ids, f = idFile p.1 p.2) ∨ ¬ EndsInDigit f) (id : List Char) (hd : Digits id) :
    (∀ j, (j, id) ∈ ids → jobOf files id = some (jobName j)) ∧ ((∀ j, (j, id) ∉ ids) → jobOf files id = none) := by
  have hmem : ∀ f, f ∈ globId files id ↔ ∃ j, (j, id) ∈ ids ∧ f = idFile j id := by
    intro f
    rw [globId, List.mem_filter, List.isSuffixOf_iff_suffix]
    constructor
    · rintro ⟨hm, hs⟩
      rcases hf f hm with ⟨⟨j', id'⟩, hp, rfl⟩ | hne
      · have := (suffix_iff j' id id' hd (hids _ hp)).1 hs
        subst this
        exact ⟨j', hp, rfl⟩
      · obtain ⟨pre, rfl⟩ := hs
        refine absurd ?_ hne
        obtain ⟨v, c, hc⟩ : ∃ v c, id = v ++ [c] := ⟨id.dropLast, id.getLast hd.1, (List.dropLast_append_getLast hd.1).symm⟩
        exact ⟨pre ++ '_' :: v, c, by rw [hc]; simp, hd.2 c (by rw [hc]; simp)⟩
    · rintro ⟨j, hp, rfl⟩
      exact ⟨hin _ hp, ⟨jobName j, rfl⟩⟩
  constructor
  · intro j hj
    unfold jobOf
    cases hg : globId files id with
    | nil =>
      have := (hmem (idFile j id)).2 ⟨j, hj, rfl⟩
      rw [hg] at this
      simp at this
    | cons f fs =>
      obtain ⟨j', hj', rfl⟩ := (hmem f).1 (by rw [hg]; exact List.mem_cons_self ..)
      have e : j' = j := hu _ hj' _ hj rfl
      subst e
      exact jobOfFrom_idFile _ _ _ hd (by rw [idFile]; simp)
  · intro hno
    unfold jobOf
    cases hg : globId files id with
    | nil => rfl
    | cons f fs =>
      obtain ⟨j', hj', _⟩ := (hmem f).1 (by rw [hg]; exact List.mem_cons_self ..)
      exact absurd hj' (hno j')

/-- Two jobs with identifiers of which one is the end of the other. -/
example : jobOf ["0000_job.sh".toList, "0000_112".toList, "0001_12".toList, "0001_scheduled.yaml".toList] "12".toList = some "0001".toList := by decide +kernel
end MLMC.Qstat
