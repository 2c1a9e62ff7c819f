import Verif.Model.Qstat
import Verif.Spec.Qstat
import Verif.Proofs.Tag
/-
Lemmas about the regular expressions.
-/
namespace MLMC.Qstat

/-- The text goes on with a blank and the letter F. -/
def startF : List Char → Bool
  | ' ' :: 'F' :: _ => true
  | _ => false

/-- A digit, a blank and the letter F are somewhere in the text. -/
def hasMark : List Char → Bool
  | [] => false
  | c :: s => (c.isDigit && startF s) || hasMark s

/-- No line break. -/
def NoNL (s : List Char) : Prop := ∀ c ∈ s, c ≠ '\n'

theorem startF_line (t rest : List Char) : startF (t ++ '\n' :: rest) = startF t := by
  match t with
  | [] => rfl
  | [c] =>
    by_cases h : c = ' '
    · subst h; rfl
    · simp only [List.cons_append, List.nil_append]
      unfold startF
      split
      · rename_i h1; simp at h1
      · split
        · rename_i h1; simp at h1
        · rfl
  | c :: d :: t =>
    simp only [List.cons_append]
    unfold startF
    split
    · rename_i h1
      simp only [List.cons.injEq] at h1
      obtain ⟨rfl, rfl, _⟩ := h1
      rfl
    · rename_i hn
      split
      · rename_i h1
        simp only [List.cons.injEq] at h1
        obtain ⟨rfl, rfl, _⟩ := h1
        exact absurd rfl (hn _)
      · rfl

theorem startF_some {s : List Char} (h : startF s = true) : ∃ r, s = ' ' :: 'F' :: r := by
  unfold startF at h
  split at h
  · exact ⟨_, rfl⟩
  · cases h

theorem startF_none {s : List Char} (h : startF s = false) (r : List Char) : s ≠ ' ' :: 'F' :: r := by
  rintro rfl
  simp [startF] at h

theorem afterF_some {s r : List Char} (h : afterF s = some r) : s = ' ' :: 'F' :: r := by
  unfold afterF at h
  split at h
  · cases h; rfl
  · cases h

theorem lastMark_none : ∀ (t rest : List Char), NoNL t → hasMark t = false → lastMark (t ++ '\n' :: rest) = none
  | [], rest, _, _ => by simp [lastMark]
  | c :: t, rest, hn, hm => by
    rw [hasMark, Bool.or_eq_false_iff] at hm
    have hc : c ≠ '\n' := hn c (List.mem_cons_self ..)
    rw [List.cons_append, lastMark, if_neg hc, lastMark_none t rest (fun x hx => hn x (List.mem_cons_of_mem _ hx)) hm.2]
    simp only
    split
    · rename_i hd
      rw [hd, Bool.true_and] at hm
      have := hm.1
      rw [← startF_line t rest] at this
      cases ha : afterF (t ++ '\n' :: rest) with
      | none => rfl
      | some r => exact absurd (afterF_some ha) (startF_none this r)
    · rfl

theorem lastMark_some : ∀ (t rest : List Char), NoNL t → hasMark t = true →
    ∃ b, lastMark (t ++ '\n' :: rest) = some (b ++ '\n' :: rest) ∧ NoNL b ∧ hasMark b = false
  | [], rest, _, h => by simp [hasMark] at h
  | c :: t, rest, hn, hm => by
    have hc : c ≠ '\n' := hn c (List.mem_cons_self ..)
    have hn' : NoNL t := fun x hx => hn x (List.mem_cons_of_mem _ hx)
    rw [List.cons_append, lastMark, if_neg hc]
    cases ht : hasMark t with
    | true =>
      obtain ⟨b, hb, h1, h2⟩ := lastMark_some t rest hn' ht
      exact ⟨b, by rw [hb], h1, h2⟩
    | false =>
      rw [hasMark, ht, Bool.or_false, Bool.and_eq_true] at hm
      obtain ⟨hd, hs⟩ := hm
      obtain ⟨r, rfl⟩ := startF_some hs
      rw [lastMark_none _ rest hn' ht]
      simp only [hd, if_true, List.cons_append]
      refine ⟨r, by rw [afterF], fun x hx => hn' x (by simp [hx]), ?_⟩
      rw [hasMark, Bool.or_eq_false_iff] at ht
      have h2 := ht.2
      rw [hasMark, Bool.or_eq_false_iff] at h2
      exact h2.2

theorem lastMark_length : ∀ (s r : List Char), lastMark s = some r → r.length < s.length
  | [], r, h => by simp [lastMark] at h
  | c :: s, r, h => by
    rw [lastMark] at h
    split at h
    · cases h
    · split at h
      · rename_i r' hr'
        cases h
        have := lastMark_length s r hr'
        simp; omega
      · split at h
        · have := afterF_some h
          subst this
          simp; omega
        · cases h

theorem matchHere_length {s g r : List Char} (h : matchHere s = some (g, r)) : r.length < s.length := by
  unfold matchHere at h
  simp only at h
  split at h
  · cases h
  · split at h
    · rename_i t ht
      rw [Option.map_eq_some_iff] at h
      obtain ⟨r', hr', he⟩ := h
      cases he
      have h1 := lastMark_length t r hr'
      have h2 : (s.dropWhile Char.isDigit).length ≤ s.length := (List.dropWhile_suffix _).length_le
      rw [ht] at h2
      simp at h2
      omega
    · cases h

theorem findFrom_fuel : ∀ (n m : Nat) (s : List Char), s.length ≤ n → s.length ≤ m → findFrom n s = findFrom m s
  | 0, 0, s, _, _ => rfl
  | 0, m + 1, s, h, _ => by
    have : s = [] := List.length_eq_zero_iff.1 (by omega)
    subst this; rfl
  | n + 1, 0, s, _, h => by
    have : s = [] := List.length_eq_zero_iff.1 (by omega)
    subst this; rfl
  | n + 1, m + 1, [], _, _ => rfl
  | n + 1, m + 1, c :: s, h1, h2 => by
    rw [findFrom, findFrom]
    simp only [List.length_cons] at h1 h2
    cases hm : matchHere (c :: s) with
    | none => exact findFrom_fuel n m s (by omega) (by omega)
    | some gr =>
      obtain ⟨g, r⟩ := gr
      have := matchHere_length hm
      simp only [List.length_cons] at this
      simp only
      rw [findFrom_fuel n m r (by omega) (by omega)]

theorem finishedJobs_cons_none {c : Char} {s : List Char} (h : matchHere (c :: s) = none) : finishedJobs (c :: s) = finishedJobs s := by
  rw [finishedJobs, List.length_cons, findFrom, h]
  rfl

theorem finishedJobs_some {s g r : List Char} (h : matchHere s = some (g, r)) : finishedJobs s = g :: finishedJobs r := by
  cases s with
  | nil => simp [matchHere] at h
  | cons c s =>
    have := matchHere_length h
    simp only [List.length_cons] at this
    rw [finishedJobs, List.length_cons, findFrom, h]
    simp only
    rw [findFrom_fuel s.length r.length r (by omega) le_rfl]
    rfl

theorem takeWhile_stop {α : Type} (p : α → Bool) (a : List α) (c : α) (b : List α) (ha : ∀ x ∈ a, p x = true) (hc : p c = false) :
    (a ++ c :: b).takeWhile p = a ∧ (a ++ c :: b).dropWhile p = c :: b := by
  induction a with
  | nil => simp [hc]
  | cons x a ih =>
    have hx := ha x (List.mem_cons_self ..)
    obtain ⟨h1, h2⟩ := ih fun y hy => ha y (List.mem_cons_of_mem _ hy)
    constructor
    · rw [List.cons_append, List.takeWhile_cons, hx]; simp [h1]
    · rw [List.cons_append, List.dropWhile_cons, hx]; simpa using h2

theorem nl_not_digit : Char.isDigit '\n' = false := by decide

theorem hasMark_append_false : ∀ (a b : List Char), hasMark (a ++ b) = false → hasMark b = false
  | [], _, h => h
  | c :: a, b, h => by
    rw [List.cons_append, hasMark, Bool.or_eq_false_iff] at h
    exact hasMark_append_false a b h.2

theorem dropWhile_line (b rest : List Char) : ∃ a d, b = a ++ d ∧ (b ++ '\n' :: rest).dropWhile Char.isDigit = d ++ '\n' :: rest := by
  induction b with
  | nil => exact ⟨[], [], rfl, by simp [nl_not_digit]⟩
  | cons c b ih =>
    by_cases hc : c.isDigit = true
    · obtain ⟨a, d, h1, h2⟩ := ih
      exact ⟨c :: a, d, by rw [h1]; rfl, by rw [List.cons_append, List.dropWhile_cons, hc]; simpa using h2⟩
    · refine ⟨[], c :: b, rfl, ?_⟩
      rw [List.cons_append, List.dropWhile_cons, if_neg hc]

/-- No match begins in a line without the mark. -/
theorem matchHere_line (b rest : List Char) (hn : NoNL b) (hm : hasMark b = false) : matchHere (b ++ '\n' :: rest) = none := by
  unfold matchHere
  simp only
  split
  · rfl
  · obtain ⟨a, d, hb, hd⟩ := dropWhile_line b rest
    rw [hd]
    cases d with
    | nil => simp
    | cons c t =>
      split
      · rename_i t' ht
        simp only [List.cons_append, List.cons.injEq] at ht
        obtain ⟨rfl, rfl⟩ := ht
        rw [hb] at hm
        have h1 := hasMark_append_false a ('.' :: t) hm
        rw [hasMark, Bool.or_eq_false_iff] at h1
        rw [lastMark_none t rest (fun x hx => hn x (by rw [hb]; simp [hx])) h1.2]
        rfl
      · rfl

theorem skip_line : ∀ (b rest : List Char), NoNL b → hasMark b = false → finishedJobs (b ++ '\n' :: rest) = finishedJobs rest
  | [], rest, hn, hm => by
    rw [List.nil_append]
    exact finishedJobs_cons_none (matchHere_line [] rest hn hm)
  | c :: b, rest, hn, hm => by
    have h1 := matchHere_line (c :: b) rest hn hm
    rw [List.cons_append] at h1 ⊢
    rw [finishedJobs_cons_none h1]
    exact skip_line b rest (fun x hx => hn x (List.mem_cons_of_mem _ hx)) (hasMark_append_false [c] b hm)

/-- Text without digits is skipped. -/
theorem skip_text : ∀ (h rest : List Char), (∀ c ∈ h, c.isDigit = false) → finishedJobs (h ++ rest) = finishedJobs rest
  | [], rest, _ => rfl
  | c :: h, rest, hd => by
    have hc := hd c (List.mem_cons_self ..)
    have : matchHere (c :: (h ++ rest)) = none := by
      unfold matchHere
      simp [hc]
    rw [List.cons_append, finishedJobs_cons_none this]
    exact skip_text h rest fun x hx => hd x (List.mem_cons_of_mem _ hx)

/-! ### The mark of a row -/

/-- The last character is a digit, as a computation. -/
def endsDigit (w : List Char) : Bool := (w.getLast?.map Char.isDigit).getD false

theorem endsDigit_iff (w : List Char) : endsDigit w = true ↔ EndsInDigit w := by
  unfold endsDigit EndsInDigit
  constructor
  · intro h
    cases hl : w.getLast? with
    | none => simp [hl] at h
    | some c =>
      rw [hl] at h
      obtain ⟨v, rfl⟩ := List.getLast?_eq_some_iff.1 hl
      exact ⟨v, c, rfl, by simpa using h⟩
  · rintro ⟨v, c, rfl, hc⟩
    simp [hc]

theorem startF_ne {c : Char} (h : c ≠ ' ') (s : List Char) : startF (c :: s) = false := by
  unfold startF
  split
  · rename_i h1
    simp only [List.cons.injEq] at h1
    exact absurd h1.1 h
  · rfl

theorem hasMark_word : ∀ (w x : List Char), w ≠ [] → (∀ c ∈ w, c ≠ ' ') → hasMark (w ++ x) = ((endsDigit w && startF x) || hasMark x)
  | [], _, h, _ => absurd rfl h
  | [c], x, _, _ => by simp [hasMark, endsDigit]
  | c :: d :: w, x, _, h => by
    rw [List.cons_append, hasMark, hasMark_word (d :: w) x (by simp) fun y hy => h y (List.mem_cons_of_mem _ hy), List.cons_append, startF_ne (h d (by simp))]
    simp [endsDigit]

theorem blank_not_digit : Char.isDigit ' ' = false := by decide

theorem hasMark_blanks (n : Nat) (x : List Char) : hasMark (blanks n ++ x) = hasMark x := by
  induction n with
  | zero => rfl
  | succ n ih =>
    rw [blanks, List.replicate_succ, List.cons_append, hasMark, blank_not_digit, Bool.false_and, Bool.false_or]
    exact ih

theorem startF_gap (n : Nat) (w x : List Char) (hn : 0 < n) (hw : Word w) : startF (blanks n ++ (w ++ x)) = true ↔ n = 1 ∧ ∃ t, w = 'F' :: t := by
  obtain ⟨hne, hb⟩ := hw
  cases w with
  | nil => exact absurd rfl hne
  | cons c w =>
    obtain ⟨m, rfl⟩ : ∃ m, n = m + 1 := ⟨n - 1, by omega⟩
    cases m with
    | zero =>
      constructor
      · intro h
        obtain ⟨r, hr⟩ := startF_some h
        simp only [blanks, List.replicate_succ, List.replicate_zero, List.cons_append, List.nil_append, List.cons.injEq, true_and] at hr
        exact ⟨rfl, w, by rw [hr.1]⟩
      · rintro ⟨_, t, ht⟩
        rw [ht]
        rfl
    | succ m =>
      constructor
      · intro h
        obtain ⟨r, hr⟩ := startF_some h
        simp [blanks, List.replicate_succ] at hr
      · rintro ⟨h, _⟩
        omega

theorem word_mark (v : List Char) (n : Nat) (w x : List Char) (hv : Word v) (hn : 0 < n) (hw : Word w) :
    hasMark (v ++ (blanks n ++ (w ++ x))) = true ↔ Confusing v n w ∨ hasMark (w ++ x) = true := by
  rw [hasMark_word v _ hv.1 (fun c hc => (hv.2 c hc).1), hasMark_blanks, Bool.or_eq_true, Bool.and_eq_true, endsDigit_iff, startF_gap n w x hn hw]
  rfl

/-- What follows the number and the point in a row, without the line break. -/
def Row.tail (r : Row) : List Char :=
  r.server ++ (blanks r.gapName ++ (r.name ++ (blanks r.gapUser ++ (r.user ++ (blanks r.gapTime ++ (r.time ++ ' ' :: r.state :: (blanks r.gapQueue ++ r.queue)))))))

theorem Row.text_eq (r : Row) : r.text = (r.number ++ '.' :: r.tail) ++ ['\n'] := by
  simp [Row.text, Row.tail]

theorem tail_mark (r : Row) (h : r.Ok) : hasMark r.tail = true ↔
    r.state = 'F' ∨ Confusing r.server r.gapName r.name ∨ Confusing r.name r.gapUser r.user ∨ Confusing r.user r.gapTime r.time := by
  obtain ⟨g1, g2, g3, g4⟩ := h.gaps
  rw [Row.tail, word_mark _ _ _ _ h.server g1 h.name, word_mark _ _ _ _ h.name g2 h.user, word_mark _ _ _ _ h.user g3 h.time,
    hasMark_word _ _ h.time.1 (fun c hc => (h.time.2 c hc).1)]
  have e1 : endsDigit r.time = true := (endsDigit_iff _).2 h.seconds
  have e2 : startF (' ' :: r.state :: (blanks r.gapQueue ++ r.queue)) = true ↔ r.state = 'F' := by
    constructor
    · intro hs
      obtain ⟨x, hx⟩ := startF_some hs
      simp only [List.cons.injEq, true_and] at hx
      exact hx.1
    · intro hs; rw [hs]; rfl
  have e3 : hasMark (' ' :: r.state :: (blanks r.gapQueue ++ r.queue)) = false := by
    rw [hasMark, blank_not_digit, hasMark, h.state.1, hasMark_blanks]
    simp only [Bool.false_and, Bool.false_or]
    have := hasMark_word r.queue [] h.queue.1 (fun c hc => (h.queue.2 c hc).1)
    rw [List.append_nil] at this
    rw [this]
    simp [startF, hasMark]
  rw [e1, e3, Bool.true_and, Bool.or_false, e2]
  constructor
  · rintro (h | h | h | h)
    · exact Or.inr (Or.inl h)
    · exact Or.inr (Or.inr (Or.inl h))
    · exact Or.inr (Or.inr (Or.inr h))
    · exact Or.inl h
  · rintro (h | h | h | h)
    · exact Or.inr (Or.inr (Or.inr h))
    · exact Or.inl h
    · exact Or.inr (Or.inl h)
    · exact Or.inr (Or.inr (Or.inl h))

theorem digit_ne {c : Char} (h : c.isDigit = true) : c ≠ ' ' ∧ c ≠ '\n' ∧ c ≠ '.' ∧ c ≠ '_' := by
  refine ⟨?_, ?_, ?_, ?_⟩ <;> rintro rfl <;> revert h <;> decide

theorem tail_nonl (r : Row) (h : r.Ok) : NoNL r.tail := by
  intro c hc
  simp only [Row.tail, List.mem_append, List.mem_cons, blanks, List.mem_replicate] at hc
  have hb : (' ' : Char) ≠ '\n' := by decide
  rcases hc with hc | ⟨_, hc⟩ | hc | ⟨_, hc⟩ | hc | ⟨_, hc⟩ | hc | hc | hc | ⟨_, hc⟩ | hc
  · exact (h.server.2 c hc).2
  · rw [hc]; exact hb
  · exact (h.name.2 c hc).2
  · rw [hc]; exact hb
  · exact (h.user.2 c hc).2
  · rw [hc]; exact hb
  · exact (h.time.2 c hc).2
  · rw [hc]; exact hb
  · rw [hc]; exact h.state.2.2
  · rw [hc]; exact hb
  · exact (h.queue.2 c hc).2

theorem point_not_digit : Char.isDigit '.' = false := by decide

/-- One row. -/
theorem row_step (r : Row) (h : r.Ok) (rest : List Char) :
    (hasMark r.tail = true → finishedJobs (r.text ++ rest) = r.number :: finishedJobs rest) ∧
    (hasMark r.tail = false → finishedJobs (r.text ++ rest) = finishedJobs rest) := by
  have hn := tail_nonl r h
  have e : r.text ++ rest = r.number ++ '.' :: (r.tail ++ '\n' :: rest) := by rw [Row.text_eq]; simp
  constructor
  · intro hm
    obtain ⟨b, hb, h1, h2⟩ := lastMark_some r.tail rest hn hm
    rw [e]
    obtain ⟨ht, hd⟩ := takeWhile_stop Char.isDigit r.number '.' (r.tail ++ '\n' :: rest) h.number.2 point_not_digit
    have : matchHere (r.number ++ '.' :: (r.tail ++ '\n' :: rest)) = some (r.number, b ++ '\n' :: rest) := by
      unfold matchHere
      simp only [ht, hd, if_neg h.number.1, hb, Option.map_some]
    rw [finishedJobs_some this, skip_line b rest h1 h2]
  · intro hm
    rw [Row.text_eq, List.append_assoc, List.singleton_append]
    apply skip_line
    · intro c hc
      rcases List.mem_append.1 hc with hc | hc
      · exact (digit_ne (h.number.2 c hc)).2.1
      · rcases List.mem_cons.1 hc with rfl | hc
        · decide
        · exact hn c hc
    · rw [hasMark_word _ _ h.number.1 (fun c hc => (digit_ne (h.number.2 c hc)).1), hasMark, point_not_digit, hm, startF_ne (by decide)]
      simp

theorem rows_finished (p : Row → Bool) : ∀ (rows : List Row), (∀ r ∈ rows, r.Ok) → (∀ r ∈ rows, hasMark r.tail = p r) →
    finishedJobs (rows.flatMap Row.text) = (rows.filter p).map Row.number
  | [], _, _ => by simp [finishedJobs, findFrom]
  | r :: rows, hok, hp => by
    have ih := rows_finished p rows (fun x hx => hok x (List.mem_cons_of_mem _ hx)) (fun x hx => hp x (List.mem_cons_of_mem _ hx))
    obtain ⟨h1, h2⟩ := row_step r (hok r (List.mem_cons_self ..)) (rows.flatMap Row.text)
    have hpr := hp r (List.mem_cons_self ..)
    rw [List.flatMap_cons]
    cases hb : p r with
    | true => rw [h1 (hpr.trans hb), ih, List.filter_cons_of_pos hb, List.map_cons]
    | false => rw [h2 (hpr.trans hb), ih, List.filter_cons_of_neg (by simp [hb])]
end MLMC.Qstat
