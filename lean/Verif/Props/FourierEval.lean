import Verif.Props.Moments
/-! # C56: what `eval` of Fourier functions gives -/
namespace MLMC.Mom

/-- C56, in general: `eval(i, x)` of Fourier functions is column `i - 1` of `eval_all` for every `i` from 2 on, so never the documented function; `eval(1, x)` is 0 and `eval(0, x)` is 1. -/
theorem C56_fourier_eval_shifted (m : Moments) (x t : ℝ) (ht : m.transform x = some t) (hf : m.family = .fourier) (size : Nat) (row : List (Option ℝ)) (h : m.evalAll x size = .ok row) :
    m.eval 0 x = .ok (some 1) ∧ m.eval 1 x = .ok (some 0) ∧ ∀ i, i + 1 < size → 1 ≤ i → m.eval (i + 1) x = .ok (row.getD i none) := by
  have e : ∀ i, m.eval i x = .ok (if i = 0 then some 1 else if i % 2 = 1 then some (Real.sin (((i : ℝ) - 1) / 2 * t)) else some (Real.cos ((i : ℝ) / 2 * t))) := by
    intro i
    unfold Moments.eval
    rw [hf]
    simp only [ht, Option.map_some]
  refine ⟨by rw [e]; simp, by rw [e]; simp, fun i hi h1 => ?_⟩
  unfold Moments.evalAll at h
  rw [if_neg (by omega), ht] at h
  injection h with h; subst h
  rw [e, if_neg (by omega), List.getD_eq_getElem?_getD, List.getElem?_map, List.getElem?_range (by omega)]
  simp only [Option.map_some, Option.getD_some, hf, col, four]
  have hi0 : ¬ i = 0 := by omega
  by_cases hp : i % 2 = 1
  · have hq : ¬ (i + 1) % 2 = 1 := by omega
    simp only [if_neg hi0, if_neg hq, if_pos hp]
    obtain ⟨k, rfl⟩ : ∃ k, i = 2 * k + 1 := ⟨i / 2, by omega⟩
    rw [show (2 * k + 1 + 1) / 2 = k + 1 by omega]
    push_cast
    congr 3
    ring
  · have hq : (i + 1) % 2 = 1 := by omega
    simp only [if_neg hi0, if_pos hq, if_neg hp]
    obtain ⟨k, rfl⟩ : ∃ k, i = 2 * k := ⟨i / 2, by omega⟩
    rw [show 2 * k / 2 = k by omega]
    push_cast
    congr 3
    ring

/-- Fourier functions on their default domain at 0. -/
example : ∃ m row, construct .fourier 3 (0, 2 * Real.pi) .none false true = .ok m ∧ m.evalAll 0 3 = .ok row ∧ m.eval 2 0 = .ok (row.getD 1 none) := by
  obtain ⟨m, h, ht, hf⟩ := ex_fourier
  obtain ⟨row, hr⟩ : ∃ row, m.evalAll 0 3 = .ok row := ⟨_, by unfold Moments.evalAll; rw [if_neg (by omega), ht]⟩
  exact ⟨m, row, h, hr, (C56_fourier_eval_shifted m 0 0 ht hf 3 row hr).2.2 1 (by omega) (by omega)⟩

end MLMC.Mom
