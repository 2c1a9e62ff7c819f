import Verif.Spec.Gmsh
import Verif.Proofs.Dict
import Mathlib.Data.List.TakeWhile
/-! Helper lemmas: texts, lines, words and numbers. -/
namespace MLMC.Gm

/-- A non-empty text without white space. -/
def IsWord (w : Str) : Prop := w ≠ [] ∧ ∀ c ∈ w, isSp c = false

/-- A text without line ends. -/
def NoNl (l : Str) : Prop := ∀ c ∈ l, c ≠ '\n' ∧ c ≠ '\r'

instance (l : Str) : Decidable (NoNl l) := inferInstanceAs (Decidable (∀ c ∈ l, _))

theorem NoNl.append_iff {a b : Str} : NoNl (a ++ b) ↔ NoNl a ∧ NoNl b := by
  simp only [NoNl, List.mem_append, or_imp, forall_and]; tauto

theorem NoNl.cons_iff {c : Char} {b : Str} : NoNl (c :: b) ↔ (c ≠ '\n' ∧ c ≠ '\r') ∧ NoNl b := by simp [NoNl]

theorem FieldName.noNl {n : Str} (h : FieldName n) : NoNl n := fun _ hc => ⟨fun e => h.line.1 (e ▸ hc), fun e => h.line.2 (e ▸ hc)⟩

theorem linesFrom_line : ∀ (l cur r : Str), NoNl l → linesFrom cur (l ++ '\n' :: r) = (cur.reverse ++ l) :: linesFrom [] r
  | [], cur, r, _ => by simp [linesFrom]
  | c :: l, cur, r, h => by
    rw [NoNl.cons_iff] at h
    simp only [List.cons_append, linesFrom]
    rw [if_neg h.1.1, linesFrom_line l (c :: cur) r h.2]
    simp

theorem textMode_line : ∀ (l r : Str), NoNl l → textMode false (l ++ '\n' :: r) = l ++ '\n' :: textMode false r
  | [], r, _ => by simp [textMode]
  | c :: l, r, h => by
    rw [NoNl.cons_iff] at h
    simp only [List.cons_append, textMode]
    rw [if_neg h.1.2, if_neg (by simp), textMode_line l r h.2]

theorem lines_unlines : ∀ (ls : List Str), (∀ l ∈ ls, NoNl l) → lines (unlines ls) = ls
  | [], _ => rfl
  | l :: ls, h => by
    have ih := lines_unlines ls (fun l' h' => h l' (by simp [h']))
    simp only [unlines, lines] at ih ⊢
    rw [List.flatMap_cons, List.append_assoc]
    change linesFrom [] (textMode false (l ++ '\n' :: (ls.flatMap (· ++ ['\n'])))) = _
    rw [textMode_line l _ (h l (by simp)), linesFrom_line l [] _ (h l (by simp)), ih]
    rfl

theorem splitFrom_word : ∀ (w cur s : Str), (∀ c ∈ w, isSp c = false) → splitFrom cur (w ++ s) = splitFrom (w.reverse ++ cur) s
  | [], _, _, _ => rfl
  | c :: w, cur, s, h => by
    simp only [List.cons_append, splitFrom]
    rw [if_neg (by simp [h c (by simp)]), splitFrom_word w (c :: cur) s (fun c' h' => h c' (by simp [h']))]
    simp

theorem split_word_sp (w s : Str) (h : IsWord w) : split (w ++ ' ' :: s) = w :: split s := by
  rw [split, splitFrom_word w [] _ h.2]
  simp only [splitFrom]
  rw [if_pos (by decide), if_neg (by simp [h.1])]
  simp [split]

theorem split_word (w : Str) (h : IsWord w) : split w = [w] := by
  have := splitFrom_word w [] [] h.2
  rw [List.append_nil] at this
  rw [split, this]
  simp [splitFrom, h.1]

theorem split_sp (s : Str) : split (' ' :: s) = split s := by
  simp only [split, splitFrom]
  rw [if_pos (by decide), if_pos trivial]

theorem split_joinSp : ∀ (ws : List Str), (∀ w ∈ ws, IsWord w) → split (joinSp ws) = ws
  | [], _ => rfl
  | [w], h => split_word w (h w (by simp))
  | w :: w' :: ws, h => by
    rw [joinSp, split_word_sp w _ (h w (by simp)), split_joinSp (w' :: ws) (fun x hx => h x (by simp [hx]))]
    simp

theorem split_joinSp_sp (ws : List Str) (s : Str) (h : ∀ w ∈ ws, IsWord w) : split (joinSp ws ++ ' ' :: s) = ws ++ split s := by
  induction ws with
  | nil => simp [joinSp, split_sp]
  | cons w ws ih =>
    have ih := ih (fun x hx => h x (by simp [hx]))
    cases ws with
    | nil => simp only [joinSp]; rw [split_word_sp w _ (h w (by simp))]; rfl
    | cons w' ws =>
      simp only [joinSp, List.append_assoc, List.cons_append] at ih ⊢
      rw [split_word_sp w _ (h w (by simp)), ih]

theorem splitFrom_trail : ∀ (sp cur : Str), (∀ c ∈ sp, isSp c = true) → splitFrom cur sp = splitFrom cur []
  | [], _, _ => rfl
  | c :: sp, cur, h => by
    simp only [splitFrom]
    rw [if_pos (h c (by simp)), splitFrom_trail sp [] (fun c' h' => h c' (by simp [h']))]
    simp [splitFrom]

theorem splitFrom_append_trail : ∀ (a sp cur : Str), (∀ c ∈ sp, isSp c = true) → splitFrom cur (a ++ sp) = splitFrom cur a
  | [], sp, cur, h => splitFrom_trail sp cur h
  | c :: a, sp, cur, h => by
    simp only [List.cons_append, splitFrom]
    rw [splitFrom_append_trail a sp [] h, splitFrom_append_trail a sp (c :: cur) h]

theorem stripBy_spec (p : Char → Bool) (s : Str) : ∃ sp, s.dropWhile p = stripBy p s ++ sp ∧ ∀ c ∈ sp, p c = true := by
  refine ⟨((s.dropWhile p).reverse.takeWhile p).reverse, ?_, ?_⟩
  · rw [stripBy, ← List.reverse_append, List.takeWhile_append_dropWhile, List.reverse_reverse]
  · intro c hc
    rw [List.mem_reverse] at hc
    exact List.mem_takeWhile_imp hc

/-- A line that starts with a character that is no white space. -/
theorem strip_cons (c : Char) (s : Str) (hc : isSp c = false) : ∃ s', strip (c :: s) = c :: s' ∧ split (strip (c :: s)) = split (c :: s) := by
  obtain ⟨sp, h1, h2⟩ := stripBy_spec isSp (c :: s)
  rw [List.dropWhile_cons_of_neg (by simp [hc])] at h1
  have h3 : split (strip (c :: s)) = split (c :: s) := by
    conv_rhs => rw [h1]
    rw [split, split, splitFrom_append_trail _ _ _ h2]
    rfl
  cases h : strip (c :: s) with
  | nil =>
    exfalso
    rw [show stripBy isSp (c :: s) = [] from h, List.nil_append] at h1
    have := h2 c (by rw [← h1]; simp)
    simp [hc] at this
  | cons d s' =>
    rw [show stripBy isSp (c :: s) = d :: s' from h, List.cons_append, List.cons.injEq] at h1
    refine ⟨s', by rw [h1.1], ?_⟩
    rw [← h3, h]

theorem stripBy_quoted (q : Char) (p : Char → Bool) (hq : p q = true) (n : Str) (h1 : ∀ c, n.head? = some c → p c = false) (h2 : ∀ c, n.getLast? = some c → p c = false) :
    stripBy p (q :: (n ++ [q])) = n := by
  rw [stripBy, List.dropWhile_cons_of_pos hq]
  cases n with
  | nil => simp [hq]
  | cons c n =>
    rw [List.cons_append, List.dropWhile_cons_of_neg (by simp [h1 c rfl]), ← List.cons_append, List.reverse_append, List.reverse_singleton, List.singleton_append, List.dropWhile_cons_of_pos hq]
    have h3 : (c :: n).reverse.head? = (c :: n).getLast? := by rw [List.head?_reverse]
    cases hr : (c :: n).reverse with
    | nil => simp at hr
    | cons d r =>
      rw [hr, List.head?_cons] at h3
      rw [List.dropWhile_cons_of_neg (by simp [h2 d h3.symm]), ← hr, List.reverse_reverse]

theorem strip_quoted (n : Str) : strip ('"' :: (n ++ ['"'])) = '"' :: (n ++ ['"']) := by
  rw [strip, stripBy, List.dropWhile_cons_of_neg (by decide)]
  rw [← List.cons_append, List.reverse_append, List.reverse_singleton, List.singleton_append, List.dropWhile_cons_of_neg (by decide)]
  simp

/-! Integers -/

theorem toDigits_ne_nil (n : Nat) : Nat.toDigits 10 n ≠ [] := by
  intro h
  have := Nat.length_toDigits_pos (b := 10) (n := n)
  rw [h] at this
  simp at this

theorem isDigit_toDigits {n : Nat} {c : Char} (h : c ∈ Nat.toDigits 10 n) : c.isDigit = true := Nat.isDigit_of_mem_toDigits (by decide) (by decide) h

theorem parseNat_toDigits (n : Nat) : parseNat (Nat.toDigits 10 n) = some n := by
  rw [parseNat, if_neg (toDigits_ne_nil n), if_pos (List.all_eq_true.2 fun c h => isDigit_toDigits h)]
  rw [Nat.ofDigitChars_toDigits (by decide) (by decide)]

theorem isSp_digit {c : Char} (h : c.isDigit = true) : isSp c = false := by
  have h1 : 48 ≤ c.toNat ∧ c.toNat ≤ 57 := by
    simp only [Char.isDigit, Bool.and_eq_true, decide_eq_true_eq] at h
    exact h
  simp only [isSp, Bool.or_eq_false_iff, Bool.and_eq_false_iff, decide_eq_false_iff_not]
  omega

theorem isWord_toDigits (n : Nat) : IsWord (Nat.toDigits 10 n) := ⟨toDigits_ne_nil n, fun _ h => isSp_digit (isDigit_toDigits h)⟩

theorem isWord_showInt (z : ℤ) : IsWord (showInt z) := by
  cases z with
  | ofNat n => exact isWord_toDigits n
  | negSucc n =>
    refine ⟨by simp [showInt], ?_⟩
    intro c hc
    rcases List.mem_cons.1 hc with rfl | hc
    · decide
    · exact (isWord_toDigits _).2 c hc

theorem parseInt_showInt (z : ℤ) : parseInt (showInt z) = some z := by
  cases z with
  | ofNat n =>
    have hd : ∀ c s, Nat.toDigits 10 n = c :: s → c ≠ '-' ∧ c ≠ '+' := by
      intro c s h
      have := isDigit_toDigits (n := n) (c := c) (by rw [h]; simp)
      constructor <;> (rintro rfl; revert this; decide)
    have hp := parseNat_toDigits n
    simp only [showInt]
    cases h : Nat.toDigits 10 n with
    | nil => exact absurd h (toDigits_ne_nil n)
    | cons c s =>
      obtain ⟨h1, h2⟩ := hd c s h
      rw [h] at hp
      unfold parseInt
      split
      · rename_i heq; simp at heq; exact absurd heq.1 h1
      · rename_i heq; simp at heq; exact absurd heq.1 h2
      · rw [hp]; rfl
  | negSucc n =>
    simp only [showInt, parseInt]
    rw [parseNat_toDigits]
    simp [Int.negSucc_eq]

/-- The first character of a printed integer. -/
theorem showInt_cons (z : ℤ) : ∃ c s, showInt z = c :: s ∧ c ≠ '$' ∧ isSp c = false := by
  have hw := isWord_showInt z
  cases h : showInt z with
  | nil => exact absurd h hw.1
  | cons c s =>
    refine ⟨c, s, rfl, ?_, hw.2 c (by rw [h]; simp)⟩
    rintro rfl
    cases z with
    | ofNat n =>
      have := isDigit_toDigits (n := n) (c := '$') (by simp only [showInt] at h; rw [h]; simp)
      revert this; decide
    | negSucc n => simp [showInt] at h

theorem isWord_not_nl {w : Str} (h : ∀ c ∈ w, isSp c = false) : NoNl w := fun c hm => by
  have := h c hm
  constructor <;> (rintro rfl; revert this; decide)

theorem joinSp_not_nl : ∀ (ws : List Str), (∀ w ∈ ws, NoNl w) → NoNl (joinSp ws)
  | [], _ => by simp [joinSp, NoNl]
  | [w], h => h w (by simp)
  | w :: w' :: ws, h => by
    have ih := joinSp_not_nl (w' :: ws) (fun x hx => h x (by simp [hx]))
    simp only [joinSp, NoNl.append_iff, NoNl.cons_iff]
    exact ⟨h w (by simp), by decide, ih⟩

end MLMC.Gm
