import Verif.Spec.Plots
import Mathlib.Analysis.Convex.SpecificFunctions.Basic
import Mathlib.Tactic.Linarith
/-
Helper lemmas about plots.
-/
namespace MLMC.Plot

section Round
variable {F : Type} [Field F] [LinearOrder F] [IsStrictOrderedRing F] [FloorRing F]

theorem npRound_le {x : F} {M : ℤ} (h : x < (M : F) + 1 / 2) : npRound x ≤ M := by
  have h0 := Int.floor_le x
  have h1 := Int.lt_floor_add_one x
  have hf : ⌊x⌋ ≤ M := by
    have : (⌊x⌋ : F) < (M : F) + 1 := by linarith
    have : ⌊x⌋ < M + 1 := by exact_mod_cast this
    omega
  rcases lt_or_eq_of_le hf with hlt | heq
  · simp only [npRound]; split_ifs <;> omega
  · have : x - (⌊x⌋ : F) < 1 / 2 := by rw [heq]; linarith
    simp only [npRound]; rw [if_pos this]; omega

theorem le_npRound {x : F} {M : ℤ} (h : (M : F) - 1 / 2 < x) : M ≤ npRound x := by
  have h0 := Int.floor_le x
  have h1 := Int.lt_floor_add_one x
  have hf : M - 1 ≤ ⌊x⌋ := by
    have : (M : F) - 1 < (⌊x⌋ : F) + 1 := by linarith
    have : M - 1 < ⌊x⌋ + 1 := by exact_mod_cast this
    omega
  rcases lt_or_eq_of_le hf with hlt | heq
  · simp only [npRound]; split_ifs <;> omega
  · have hc : ((M : F)) - 1 = (⌊x⌋ : F) := by exact_mod_cast heq
    have h2 : 1 / 2 < x - (⌊x⌋ : F) := by rw [← hc]; linarith
    simp only [npRound]; rw [if_neg (not_lt.2 h2.le), if_pos h2]; omega

theorem npRound_nearest (x : F) : |x - (npRound x : F)| ≤ 1 / 2 := by
  have h0 := Int.floor_le x
  have h1 := Int.lt_floor_add_one x
  simp only [npRound]
  rw [abs_le]
  split_ifs with h2 h3 h4
  · constructor <;> linarith
  · push_cast; constructor <;> linarith
  · constructor <;> linarith [not_lt.1 h2, not_lt.1 h3]
  · push_cast; constructor <;> linarith [not_lt.1 h2, not_lt.1 h3]

end Round

theorem raiseFrom_length (p : ℤ) (l : List ℤ) : (raiseFrom p l).length = l.length := by
  induction l generalizing p with
  | nil => rfl
  | cons x xs ih => simp [raiseFrom, ih]

theorem makeUnique_length (l : List ℤ) : (makeUnique l).length = l.length := by
  cases l with
  | nil => rfl
  | cons x xs => simp [makeUnique, raiseFrom_length]

theorem raiseFrom_lt (p : ℤ) (l : List ℤ) : (∀ y ∈ raiseFrom p l, p < y) ∧ (raiseFrom p l).Pairwise (· < ·) := by
  induction l generalizing p with
  | nil => exact ⟨by simp [raiseFrom], .nil⟩
  | cons x xs ih =>
    obtain ⟨h1, h2⟩ := ih (max x (p + 1))
    refine ⟨?_, .cons h1 h2⟩
    intro y hy
    simp only [raiseFrom, List.mem_cons] at hy
    rcases hy with rfl | hy
    · omega
    · have := h1 y hy; omega

theorem raiseFrom_above (p : ℤ) (l : List ℤ) : List.Forall₂ (· ≤ ·) l (raiseFrom p l) := by
  induction l generalizing p with
  | nil => exact .nil
  | cons x xs ih => exact .cons (le_max_left _ _) (ih _)

theorem raiseFrom_least (p : ℤ) {l t : List ℤ} (h : List.Forall₂ (· ≤ ·) l t) (hp : ∀ y ∈ t, p < y) (ht : t.Pairwise (· < ·)) :
    List.Forall₂ (· ≤ ·) (raiseFrom p l) t := by
  induction h generalizing p with
  | nil => exact .nil
  | @cons a b l t hab _ ih =>
    have hb : max a (p + 1) ≤ b := by have := hp b (by simp); omega
    have ht' := List.pairwise_cons.1 ht
    exact .cons hb (ih _ (fun y hy => by have := ht'.1 y hy; omega) ht'.2)

theorem makeUnique_least (l : List ℤ) : LeastIncreasing l (makeUnique l) := by
  cases l with
  | nil => exact ⟨.nil, .nil, fun t _ h => h⟩
  | cons x xs =>
    obtain ⟨h1, h2⟩ := raiseFrom_lt x xs
    refine ⟨.cons h1 h2, .cons le_rfl (raiseFrom_above x xs), fun t ht h => ?_⟩
    cases h with
    | @cons _ b _ t hxb hr =>
      have ht' := List.pairwise_cons.1 ht
      exact .cons hxb (raiseFrom_least x hr (fun y hy => by have := ht'.1 y hy; omega) ht'.2)

/-- A geometric sequence from 1 to `N` with at most `N` members is below the straight line that ends in `N` with slope one. -/
theorem geom_below {N : ℝ} {k i : Nat} (hk : 1 ≤ k) (hi : i < k) (hN : (k : ℝ) ≤ N) :
    (1 : ℝ) * (N / 1) ^ ((i : ℝ) / ((k : ℝ) - 1)) ≤ N - ((k : ℝ) - 1 - i) := by
  have hk1 : (1 : ℝ) ≤ k := by exact_mod_cast hk
  rw [one_mul, div_one]
  rcases Nat.lt_or_ge 1 k with h2 | h2
  · have hk2 : (0 : ℝ) < (k : ℝ) - 1 := by
      have : (1 : ℝ) < k := by exact_mod_cast h2
      linarith
    have hi' : (i : ℝ) ≤ (k : ℝ) - 1 := by
      have : ((i + 1 : Nat) : ℝ) ≤ k := by exact_mod_cast hi
      push_cast at this; linarith
    set t : ℝ := (i : ℝ) / ((k : ℝ) - 1) with ht
    have ht0 : 0 ≤ t := by positivity
    have ht1 : t ≤ 1 := (div_le_one hk2).2 hi'
    have hb := rpow_one_add_le_one_add_mul_self (s := N - 1) (by linarith) ht0 ht1
    have hN1 : 1 + (N - 1) = N := by ring
    rw [hN1] at hb
    have hti : t * ((k : ℝ) - 1) = i := by rw [ht]; field_simp
    have : (1 - t) * ((k : ℝ) - 1) ≤ (1 - t) * (N - 1) := mul_le_mul_of_nonneg_left (by linarith) (by linarith)
    nlinarith
  · have : k = 1 := by omega
    subst this
    have : i = 0 := by omega
    subst this
    simp only [Nat.cast_zero, Nat.cast_one, sub_self, zero_div, Real.rpow_zero, sub_zero]
    simpa using hN

end MLMC.Plot
