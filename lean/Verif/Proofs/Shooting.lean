import Verif.Spec.Shooting
import Mathlib.Tactic.Linarith
import Mathlib.Tactic.FieldSimp
import Mathlib.Tactic.Ring
import Mathlib.Data.List.GetD
/-
Trajectories of the shooting simulations.
-/
namespace MLMC.Shoot
variable {K : Type} [Field K] [LinearOrder K] [FloorRing K] [IsStrictOrderedRing K]

/-- The velocity after `k` steps. -/
def velocity (v0 dt : K) (f : Nat → K) (k : Nat) : K := v0 + dt * ∑ i ∈ Finset.range k, f i

omit [LinearOrder K] [FloorRing K] [IsStrictOrderedRing K] in
theorem position_succ (x0 v0 dt : K) (f : Nat → K) (k : Nat) : position x0 v0 dt f k + dt * velocity v0 dt f k = position x0 v0 dt f (k + 1) := by
  unfold position velocity
  rw [Finset.sum_range_succ]
  have : ∑ i ∈ Finset.range k, (((k + 1 : Nat) : K) - 1 - (i : K)) * f i = ∑ i ∈ Finset.range k, ((k : K) - 1 - (i : K)) * f i + ∑ i ∈ Finset.range k, f i := by
    rw [← Finset.sum_add_distrib]
    exact Finset.sum_congr rfl fun i _ => by push_cast; ring
  rw [this]
  push_cast
  ring

omit [LinearOrder K] [FloorRing K] [IsStrictOrderedRing K] in
theorem velocity_succ (v0 dt : K) (f : Nat → K) (k : Nat) : velocity v0 dt f k + dt * f k = velocity v0 dt f (k + 1) := by
  unfold velocity
  rw [Finset.sum_range_succ]
  ring

open Classical in
theorem loop_eq (c : Config K) (hT : 0 < c.maxTime) (n : Nat) (hn : 0 < n) (f g : Nat → K) (F : List (K × K)) (hF : F.length = n) (hf : ∀ i (h : i < n), F[i] = (f i, g i)) (X V : K × K) :
    ∀ i, i < n → loop c (c.maxTime / (n : K)) i (position X.1 V.1 (c.maxTime / n) f i, position X.2 V.2 (c.maxTime / n) g i)
        (velocity V.1 (c.maxTime / n) f i, velocity V.2 (c.maxTime / n) g i) (F.drop i) =
      if ∀ k, i < k → k ≤ n → Inside c (position X.1 V.1 (c.maxTime / n) f k) (position X.2 V.2 (c.maxTime / n) g k) then
        some (position X.1 V.1 (c.maxTime / n) f n, position X.2 V.2 (c.maxTime / n) g n) else none := by
  intro i hi
  induction hd : n - i using Nat.strong_induction_on generalizing i with
  | _ d ih =>
  have hn0 : (0 : K) < n := by exact_mod_cast hn
  rw [List.drop_eq_getElem_cons (by omega), hf i hi, loop]
  simp only [position_succ, velocity_succ]
  have hin : (position X.1 V.1 (c.maxTime / n) f (i + 1) > c.right ∨ position X.1 V.1 (c.maxTime / n) f (i + 1) < c.left ∨
      position X.2 V.2 (c.maxTime / n) g (i + 1) > c.top ∨ position X.2 V.2 (c.maxTime / n) g (i + 1) < c.bottom) ↔
      ¬ Inside c (position X.1 V.1 (c.maxTime / n) f (i + 1)) (position X.2 V.2 (c.maxTime / n) g (i + 1)) := by
    unfold Inside
    constructor
    · rintro (h | h | h | h) ⟨h1, h2, h3, h4⟩ <;> linarith
    · intro h
      by_contra hc
      push Not at hc
      exact h ⟨hc.2.1, hc.1, hc.2.2.2, hc.2.2.1⟩
  have htime : c.maxTime / (n : K) * ((i : K) + 1) ≥ c.maxTime ↔ i + 1 = n := by
    rw [ge_iff_le, div_mul_eq_mul_div, le_div_iff₀ hn0, mul_le_mul_iff_right₀ hT]
    constructor
    · intro h
      have : n ≤ i + 1 := by exact_mod_cast h
      omega
    · intro h; rw [← h]; push_cast; exact le_refl _
  by_cases ho : Inside c (position X.1 V.1 (c.maxTime / n) f (i + 1)) (position X.2 V.2 (c.maxTime / n) g (i + 1))
  · rw [if_neg (fun h => hin.1 h ho)]
    by_cases ht : i + 1 = n
    · rw [if_pos (htime.2 ht), if_pos, ht]
      intro k h1 h2
      rw [show k = i + 1 by omega]
      exact ho
    · rw [if_neg (fun h => ht (htime.1 h)), ih (n - (i + 1)) (by omega) (i + 1) (by omega) rfl]
      congr 1
      apply propext
      constructor
      · intro h k h1 h2
        by_cases hk : k = i + 1
        · rw [hk]; exact ho
        · exact h k (by omega) h2
      · intro h k h1 h2; exact h k (by omega) h2
  · rw [if_pos (hin.2 ho), if_neg (fun h => ho (h (i + 1) (by omega) (by omega)))]

theorem loop_start (c : Config K) (hT : 0 < c.maxTime) (n : Nat) (hn : 0 < n) (f g : Nat → K) (F : List (K × K)) (hF : F.length = n) (hf : ∀ i (h : i < n), F[i] = (f i, g i)) (X V : K × K) :
    ((∀ k, 1 ≤ k → k ≤ n → Inside c (position X.1 V.1 (c.maxTime / n) f k) (position X.2 V.2 (c.maxTime / n) g k)) →
      loop c (c.maxTime / (n : K)) 0 X V F = some (position X.1 V.1 (c.maxTime / n) f n, position X.2 V.2 (c.maxTime / n) g n)) ∧
    (¬ (∀ k, 1 ≤ k → k ≤ n → Inside c (position X.1 V.1 (c.maxTime / n) f k) (position X.2 V.2 (c.maxTime / n) g k)) → loop c (c.maxTime / (n : K)) 0 X V F = none) := by
  have h := loop_eq c hT n hn f g F hF hf X V 0 hn
  simp only [List.drop_zero] at h
  have e1 : ∀ (x v dt : K) (f : Nat → K), position x v dt f 0 = x := by intros; simp [position]
  have e2 : ∀ (v dt : K) (f : Nat → K), velocity v dt f 0 = v := by intros; simp [velocity]
  simp only [e1, e2] at h
  exact ⟨fun a => h.trans (if_pos a), fun a => h.trans (if_neg a)⟩

theorem run1D_eq (c : Config K) (hT : 0 < c.maxTime) (n : Nat) (hn : 0 < n) (φ : K → K) : run1D c ((linspace0 (c.velX * c.maxTime) n).map φ) = shot c n φ := by
  have hl : ((linspace0 (c.velX * c.maxTime) n).map φ).length = n := by simp [linspace0]
  unfold run1D
  rw [if_neg (by intro h; rw [h] at hl; simp at hl; omega), hl]
  have h := loop_start c hT n hn (fun i => φ (if n = 1 then 0 else (i : K) * (c.velX * c.maxTime / ((n : K) - 1)))) (fun i => φ (if n = 1 then 0 else (i : K) * (c.velX * c.maxTime / ((n : K) - 1))))
    (((linspace0 (c.velX * c.maxTime) n).map φ).map fun x => (x, x)) (by simp [linspace0]) (by intro i hi; simp [linspace0]) (c.startX, c.startY) (c.velX, c.velY)
  unfold shot
  exact (Classical.em _).elim (fun a => (congrArg (Option.map (·.2)) (h.1 a)).trans (if_pos a).symm) (fun a => (congrArg (Option.map (·.2)) (h.2 a)).trans (if_neg a).symm)

theorem run2D_eq (c : Config K) (hT : 0 < c.maxTime) (n : Nat) (hn : 0 < n) (φ ψ : K → K) :
    run2D c (List.zip ((linspace0 (c.velX * c.maxTime) n).map φ) ((linspace0 (c.velX * c.maxTime) n).map ψ)) = shot2 c n φ ψ := by
  have hl : (List.zip ((linspace0 (c.velX * c.maxTime) n).map φ) ((linspace0 (c.velX * c.maxTime) n).map ψ)).length = n := by simp [linspace0]
  unfold run2D
  rw [hl]
  have h := loop_start c hT n hn (fun i => φ (if n = 1 then 0 else (i : K) * (c.velX * c.maxTime / ((n : K) - 1)))) (fun i => ψ (if n = 1 then 0 else (i : K) * (c.velX * c.maxTime / ((n : K) - 1))))
    (List.zip ((linspace0 (c.velX * c.maxTime) n).map φ) ((linspace0 (c.velX * c.maxTime) n).map ψ)) hl (by intro i hi; simp [linspace0]) (c.startX, c.startY) (c.velX, c.velY)
  unfold shot2
  exact (Classical.em _).elim (fun a => (h.1 a).trans (if_pos a).symm) (fun a => (h.2 a).trans (if_neg a).symm)

end MLMC.Shoot
