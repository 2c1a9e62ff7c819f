import Verif.Model.Tag
/-! Helper lemmas: decimal rendering is injective. -/
namespace MLMC

theorem ofDigitChars_replicate_zero (k : Nat) (l : List Char) :
    Nat.ofDigitChars 10 (List.replicate k '0' ++ l) 0 = Nat.ofDigitChars 10 l 0 := by
  induction k with
  | zero => simp
  | succ k ih =>
    simp only [List.replicate_succ, List.cons_append]
    simpa [Nat.ofDigitChars] using ih

theorem value_zpad (w n : Nat) : Nat.ofDigitChars 10 (zpad w n) 0 = n := by
  rw [zpad, ofDigitChars_replicate_zero]
  exact Nat.ofDigitChars_toDigits (by decide) (by decide)

theorem zpad_injective (w : Nat) {m n : Nat} (h : zpad w m = zpad w n) : m = n := by
  rw [← value_zpad w m, ← value_zpad w n, h]

theorem isDigit_of_mem_zpad {w n : Nat} {c : Char} (h : c ∈ zpad w n) : c.isDigit = true := by
  rw [zpad, List.mem_append] at h
  rcases h with h | h
  · have := (List.mem_replicate.1 h).2; subst this; decide
  · exact Nat.isDigit_of_mem_toDigits (by decide) (by decide) h

/-- Splitting at the first separator is unambiguous. -/
theorem append_sep_inj {p : Char → Bool} {s : Char} (hs : p s = false) :
    ∀ {a b c d : List Char}, (∀ x ∈ a, p x = true) → (∀ x ∈ b, p x = true) →
      a ++ s :: c = b ++ s :: d → a = b ∧ c = d
  | [], [], _, _, _, _, h => by simpa using h
  | [], y :: b, _, _, _, hb, h => by
      have hy := hb y (by simp)
      simp at h; rw [← h.1] at hy; simp [hs] at hy
  | x :: a, [], _, _, ha, _, h => by
      have hx := ha x (by simp)
      simp at h; rw [h.1] at hx; simp [hs] at hx
  | x :: a, y :: b, c, d, ha, hb, h => by
      simp only [List.cons_append, List.cons.injEq] at h
      have := append_sep_inj hs (a := a) (b := b) (c := c) (d := d)
        (fun z hz => ha z (by simp [hz])) (fun z hz => hb z (by simp [hz])) h.2
      exact ⟨by rw [h.1, this.1], this.2⟩

theorem sampleTag_injective {l l' n n' : Nat} (h : sampleTag l n = sampleTag l' n') : l = l' ∧ n = n' := by
  simp only [sampleTag, List.cons.injEq, true_and] at h
  have := append_sep_inj (p := Char.isDigit) (s := '_') (by decide)
    (fun _ => isDigit_of_mem_zpad) (fun _ => isDigit_of_mem_zpad) h
  refine ⟨zpad_injective 2 this.1, ?_⟩
  have h2 := this.2
  simp only [List.cons.injEq, true_and] at h2
  exact zpad_injective 7 h2

end MLMC
