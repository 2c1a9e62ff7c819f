import Verif.Model.StagedFit
import Verif.Spec.StagedFit
import Mathlib.Data.List.GetD
import Mathlib.Tactic.Linarith
import Mathlib.Tactic.FieldSimp
import Mathlib.Tactic.Ring
import Mathlib.Algebra.Ring.Parity
/-! Helper lemmas: the sizes and tolerances of the stages. -/
namespace MLMC.Staged

theorem pyRound_near (x : ℚ) : x - 1 / 2 ≤ pyRound x ∧ (pyRound x : ℚ) ≤ x + 1 / 2 := by
  have h1 := Int.floor_le x
  have h2 := Int.lt_floor_add_one x
  unfold pyRound
  split_ifs <;> push_cast <;> constructor <;> linarith

theorem pyRound_mono {x y : ℚ} (h : x ≤ y) : pyRound x ≤ pyRound y := by
  have hf : ⌊x⌋ ≤ ⌊y⌋ := Int.floor_le_floor h
  rcases lt_or_eq_of_le hf with hlt | heq
  · have a : pyRound x ≤ ⌊x⌋ + 1 := by unfold pyRound; split_ifs <;> omega
    have b : ⌊y⌋ ≤ pyRound y := by unfold pyRound; split_ifs <;> omega
    omega
  · unfold pyRound
    rw [heq]
    split_ifs <;> first | omega | (exfalso; linarith)

theorem pyRound_pos {x : ℚ} (h : 1 / 2 < x) : 1 ≤ pyRound x := by
  have := (pyRound_near x).1
  have h' : (0 : ℚ) < pyRound x := by linarith
  exact_mod_cast h'

theorem oddSize_cast {s : ℚ} (h : 2 < s) : ((oddSize s : Nat) : ℚ) = 2 * pyRound ((s - 1) / 2) + 1 := by
  have h1 : 1 ≤ pyRound ((s - 1) / 2) := pyRound_pos (by linarith)
  have : ((oddSize s : Nat) : ℤ) = 2 * pyRound ((s - 1) / 2) + 1 := by
    unfold oddSize
    rw [Int.toNat_of_nonneg (by omega)]
  exact_mod_cast this

theorem oddSize_near {s : ℚ} (h : 2 < s) : s - 1 ≤ oddSize s ∧ (oddSize s : ℚ) ≤ s + 1 := by
  rw [oddSize_cast h]
  have := pyRound_near ((s - 1) / 2)
  constructor <;> linarith [this.1, this.2]

theorem oddSize_mono {s t : ℚ} (h : s ≤ t) : oddSize s ≤ oddSize t := by
  unfold oddSize
  have := pyRound_mono (show (s - 1) / 2 ≤ (t - 1) / 2 by linarith)
  omega

theorem oddSize_odd {s : ℚ} (h : 2 < s) : Odd (oddSize s) ∧ 3 ≤ oddSize s := by
  have h1 : 1 ≤ pyRound ((s - 1) / 2) := pyRound_pos (by linarith)
  have : ((oddSize s : Nat) : ℤ) = 2 * pyRound ((s - 1) / 2) + 1 := by
    unfold oddSize
    rw [Int.toNat_of_nonneg (by omega)]
  refine ⟨⟨(pyRound ((s - 1) / 2)).toNat, ?_⟩, ?_⟩ <;> omega

/-- The next larger size is larger, but by little more than a fifth. -/
def Step (s t : Nat) : Prop := s < t ∧ 5 * t ≤ 6 * s + 11

/-- Invariant of the loop. -/
structure Inv (n : Nat) (size : ℚ) (acc : List Nat) : Prop where
  chain : acc.IsChain Step
  last : acc.getLast? = some n
  odd : ∀ s ∈ acc.dropLast, Odd s ∧ 3 ≤ s
  head : ∃ h, acc.head? = some h ∧ oddSize (size / (6 / 5)) ≤ h ∧ (h : ℚ) ≤ size + 1

theorem inv_step {n : Nat} {size : ℚ} {acc : List Nat} (h : Inv n size acc) (hs : 4 < size) :
    Inv n (size / (6 / 5)) (if acc.head? = some (oddSize (size / (6 / 5))) then acc else oddSize (size / (6 / 5)) :: acc) ∧
    (if acc.head? = some (oddSize (size / (6 / 5))) then acc else oddSize (size / (6 / 5)) :: acc).head? = some (oddSize (size / (6 / 5))) := by
  set s' : ℚ := size / (6 / 5) with hs'
  have h2 : 2 < s' := by rw [hs', lt_div_iff₀ (by norm_num)]; linarith
  have hm : oddSize (s' / (6 / 5)) ≤ oddSize s' := oddSize_mono (by rw [div_le_iff₀ (by norm_num)]; linarith)
  obtain ⟨x, hx, hle, hxs⟩ := h.head
  obtain ⟨t, rfl⟩ : ∃ t, acc = x :: t := by
    cases acc with
    | nil => simp at hx
    | cons y t => exact ⟨t, by simpa using hx⟩
  by_cases he : (x :: t).head? = some (oddSize s')
  · rw [if_pos he]
    refine ⟨⟨h.chain, h.last, h.odd, oddSize s', he, hm, (oddSize_near h2).2⟩, he⟩
  · rw [if_neg he]
    have hne : oddSize s' ≠ x := fun e => he (by rw [e]; rfl)
    refine ⟨⟨?_, ?_, ?_, oddSize s', rfl, hm, (oddSize_near h2).2⟩, rfl⟩
    · refine List.isChain_cons_cons.2 ⟨⟨lt_of_le_of_ne hle hne, ?_⟩, h.chain⟩
      have h3 := (oddSize_near h2).1
      have h4 : (6 / 5 : ℚ) * s' = size := by rw [hs']; field_simp
      have : (5 * x : ℚ) ≤ 6 * oddSize s' + 11 := by linarith
      exact_mod_cast this
    · rw [List.getLast?_cons_cons]; exact h.last
    · rw [List.dropLast_cons₂]
      intro s hs
      rcases List.mem_cons.1 hs with rfl | hs
      · exact oddSize_odd h2
      · exact h.odd s hs

theorem sizeLoop_inv (n : Nat) : ∀ (fuel : Nat) (size : ℚ) (acc : List Nat), Inv n size acc → size ≤ 4 + 2 / 3 * fuel →
    (4 < size ∨ acc.head? = some (oddSize size)) →
    ∃ size', size' ≤ 4 ∧ Inv n size' (sizeLoop fuel size acc) ∧ (sizeLoop fuel size acc).head? = some (oddSize size')
  | 0, size, acc, h, hf, hh => by
    simp only [Nat.cast_zero, mul_zero, add_zero] at hf
    rcases hh with hh | hh
    · linarith
    · exact ⟨size, hf, h, hh⟩
  | fuel + 1, size, acc, h, hf, hh => by
    rw [sizeLoop]
    split_ifs with h4 he
    · have hst := inv_step h h4
      rw [if_pos he] at hst
      refine sizeLoop_inv n fuel _ _ hst.1 ?_ (.inr hst.2)
      rw [div_le_iff₀ (by norm_num)]
      push_cast at hf ⊢
      linarith
    · have hst := inv_step h h4
      rw [if_neg he] at hst
      refine sizeLoop_inv n fuel _ _ hst.1 ?_ (.inr hst.2)
      rw [div_le_iff₀ (by norm_num)]
      push_cast at hf ⊢
      linarith
    · rcases hh with hh | hh
      · exact absurd hh h4
      · exact ⟨size, not_lt.1 h4, h, hh⟩

theorem inv_start (n : Nat) (hn : 6 ≤ n) : Inv n (n : ℚ) [n] := by
  have hn' : (6 : ℚ) ≤ n := by exact_mod_cast hn
  refine ⟨List.isChain_singleton _, rfl, by simp, n, rfl, ?_, by linarith⟩
  have h2 : (2 : ℚ) < n / (6 / 5) := by rw [lt_div_iff₀ (by norm_num)]; linarith
  have := (oddSize_near h2).2
  have h3 : (n : ℚ) / (6 / 5) + 1 ≤ n := by
    rw [← le_sub_iff_add_le, div_le_iff₀ (by norm_num)]; linarith
  exact_mod_cast this.trans h3

theorem sizes_inv (n : Nat) (hn : 6 ≤ n) : ∃ size', size' ≤ 4 ∧ Inv n size' (sizes n) ∧ (sizes n).head? = some (oddSize size') := by
  rw [sizes, if_neg (by omega)]
  have hn' : (6 : ℚ) ≤ n := by exact_mod_cast hn
  exact sizeLoop_inv n (2 * n) n [n] (inv_start n hn) (by push_cast; linarith) (.inl (by linarith))


/-! ### Tolerances -/

theorem tol_eq {tol t0 t : ℝ} : Real.exp (Real.log tol * t + Real.log t0 * (1 - t)) = Real.exp (Real.log t0 - (Real.log t0 - Real.log tol) * t) := by
  congr 1; ring

theorem head_le_of_pairwise {ss : List Nat} (h : ss.Pairwise (· < ·)) {s : Nat} (hs : s ∈ ss) : ss.headD 0 ≤ s := by
  cases ss with
  | nil => simp at hs
  | cons a t =>
    rcases List.mem_cons.1 hs with rfl | hs
    · exact le_refl _
    · exact ((List.pairwise_cons.1 h).1 s hs).le

theorem le_last_of_pairwise {ss : List Nat} (h : ss.Pairwise (· < ·)) {s : Nat} (hs : s ∈ ss) : s ≤ ss.getLastD 0 := by
  induction ss generalizing s with
  | nil => simp at hs
  | cons a t ih =>
    obtain ⟨h1, h2⟩ := List.pairwise_cons.1 h
    cases t with
    | nil => simp at hs; simp [hs]
    | cons b u =>
      have hl : (a :: b :: u).getLastD 0 = (b :: u).getLastD 0 := by simp
      rw [hl]
      rcases List.mem_cons.1 hs with rfl | hs
      · exact ((h1 b (by simp)).le).trans (ih h2 (by simp))
      · exact ih h2 hs

/-! ### Stages -/

/-- What the next stage gets from the multipliers `m` of the last one. -/
def Gets (reg : ℝ) (m : List ℝ) (p : Problem) : Prop :=
  p.start = m ++ List.replicate (p.size - m.length) 0 ∧ p.last = m ∧ (norm m = 0 → p.stab = none) ∧ (norm m ≠ 0 → p.stab = some (reg / norm m))

theorem extendSize_ok (reg : ℝ) (s : St) (new : Nat) (h : s.mult.length ≤ new) :
    ∃ s', extendSize reg s new = .ok s' ∧ s'.mult.length = new ∧ ∀ tol, Gets reg s.mult ⟨new, tol, s'.mult, s'.last, s'.stab⟩ := by
  refine ⟨_, by rw [extendSize, if_neg (by omega)], by simp; omega, fun tol => ⟨rfl, rfl, fun h => by simp [h], fun h => by simp [h]⟩⟩

theorem stages_ok (opt : Problem → List ℝ) (reg : ℝ) (hopt : ∀ p, (opt p).length = p.start.length) :
    ∀ (l : List (Nat × ℝ)) (s : St), (s.mult.length :: l.map Prod.fst).IsChain (· ≤ ·) →
    ∃ ps fin, stages opt reg l s = .ok (ps, fin) ∧ ps.map (fun q => (q.1.size, q.1.tol)) = l ∧
      (∀ q ∈ ps, q.2 = opt q.1 ∧ q.1.start.length = q.1.size) ∧
      ps.IsChain (fun q r => Gets reg q.2 r.1) ∧ (∀ q, ps.head? = some q → Gets reg s.mult q.1) ∧
      (ps.getLast?.map Prod.snd).getD s.mult = fin
  | [], s, _ => ⟨[], s.mult, rfl, rfl, by simp, List.isChain_nil, by simp, rfl⟩
  | (size, tol) :: rest, s, h => by
    obtain ⟨h1, h2⟩ := List.isChain_cons_cons.1 h
    obtain ⟨s', e, hl, hg⟩ := extendSize_ok reg s size h1
    obtain ⟨ps, fin, e2, hm, hq, hc, hh, hf⟩ := stages_ok opt reg hopt rest { s' with mult := opt ⟨size, tol, s'.mult, s'.last, s'.stab⟩ } (by
      have : (opt ⟨size, tol, s'.mult, s'.last, s'.stab⟩).length = size := by rw [hopt]; exact hl
      simpa [this] using h2)
    refine ⟨(⟨size, tol, s'.mult, s'.last, s'.stab⟩, opt ⟨size, tol, s'.mult, s'.last, s'.stab⟩) :: ps, fin, ?_, by simp [hm], ?_, ?_, ?_, ?_⟩
    · rw [stages, e]
      simp only [Except.bind]
      rw [e2]
      rfl
    · intro q hq'
      rcases List.mem_cons.1 hq' with rfl | hq'
      · exact ⟨rfl, hl⟩
      · exact hq q hq'
    · cases ps with
      | nil => exact List.isChain_singleton _
      | cons r rs => exact List.isChain_cons_cons.2 ⟨hh r rfl, hc⟩
    · intro q hq'
      obtain rfl : _ = q := by simpa using hq'
      exact hg tol
    · cases ps with
      | nil => simpa using hf
      | cons r rs =>
        rw [List.getLast?_cons_cons]
        simpa [List.getLast?_cons] using hf

theorem dens_append_zeros (phi : Nat → ℝ → ℝ) (sigma : Nat → ℝ) (m : List ℝ) (k : Nat) (x : ℝ) :
    dens phi sigma (m ++ List.replicate k 0) x = dens phi sigma m x := by
  unfold dens
  congr 2
  rw [List.length_append, List.length_replicate, Finset.sum_range_add]
  have h2 : ∑ i ∈ Finset.range k, phi (m.length + i) x * (m ++ List.replicate k 0).getD (m.length + i) 0 / sigma (m.length + i) = 0 := by
    refine Finset.sum_eq_zero fun i _ => ?_
    rw [List.getD_append_right _ _ _ _ (by omega)]
    have : (List.replicate k (0 : ℝ)).getD (m.length + i - m.length) 0 = 0 := by
      simp only [List.getD_eq_getElem?_getD, List.getElem?_replicate]
      split <;> rfl
    rw [this]; simp
  rw [h2, add_zero]
  refine Finset.sum_congr rfl fun i hi => ?_
  rw [List.getD_append _ _ _ _ (Finset.mem_range.1 hi)]

theorem norm_single (c : ℝ) (k : Nat) : norm (c :: List.replicate k 0) = |c| := by
  unfold norm
  simp [Real.sqrt_sq_eq_abs]

end MLMC.Staged
