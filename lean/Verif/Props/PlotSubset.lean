import Verif.Proofs.Plots
/-
The moments shown in plots of variances (C143).
-/
namespace MLMC
open Plot

/-- Exact geometric numbers are near ones: the hypothesis of the theorems below can be met. -/
theorem exactGeomspace_near : NearGeomspace exactGeomspace := by
  intro lo hi _ _ k
  refine ⟨by simp [exactGeomspace], fun i h => ?_⟩
  simp [exactGeomspace]

/-- Without a number of moments all of them but the zeroth are shown, in order. -/
theorem C143_all (geo : ℝ → ℝ → Nat → List ℝ) (n : Nat) :
    ∃ s, momentsSubset geo n none = .ok s ∧ s.Pairwise (· < ·) ∧ ∀ m : ℤ, m ∈ s ↔ 1 ≤ m ∧ m < n := by
  refine ⟨_, rfl, ?_, ?_⟩
  · rw [List.pairwise_map]
    exact List.pairwise_lt_range.imp fun h => by omega
  · intro m
    simp only [List.mem_map, List.mem_range]
    constructor
    · rintro ⟨i, hi, rfl⟩; omega
    · rintro ⟨h1, h2⟩; exact ⟨(m - 1).toNat, by omega, by omega⟩

theorem subset_rounded {geo : ℝ → ℝ → Nat → List ℝ} (hgeo : NearGeomspace geo) {n k : Nat} (hn : 2 ≤ n) :
    momentsSubset geo n (some (k : ℤ)) = .ok (makeUnique ((geo 1 ((n - 1 : Nat) : ℝ) k).map npRound)) ∧
    ((geo 1 ((n - 1 : Nat) : ℝ) k).map npRound).length = k := by
  have h1 : (1 : ℝ) ≤ ((n - 1 : Nat) : ℝ) := by exact_mod_cast (by omega : 1 ≤ n - 1)
  refine ⟨?_, by simpa using (hgeo 1 _ one_pos h1 k).1⟩
  simp only [momentsSubset]
  rw [if_neg (by omega)]
  simp

/-- The first rounded number is 1, the last one (of two or more) is the number of the last moment. -/
theorem rounded_ends {geo : ℝ → ℝ → Nat → List ℝ} (hgeo : NearGeomspace geo) {N k : Nat} (hN : 1 ≤ N) (hk : 1 ≤ k) :
    ((geo 1 (N : ℝ) k).map npRound)[0]? = some 1 ∧ (2 ≤ k → ((geo 1 (N : ℝ) k).map npRound)[k - 1]? = some (N : ℤ)) := by
  have h1 : (1 : ℝ) ≤ (N : ℝ) := by exact_mod_cast hN
  obtain ⟨hl, hg⟩ := hgeo 1 _ one_pos h1 k
  have key : ∀ i M : Nat, i < k → (1 : ℝ) * ((N : ℝ) / 1) ^ ((i : ℝ) / ((k : ℝ) - 1)) = (M : ℝ) →
      ((geo 1 (N : ℝ) k).map npRound)[i]? = some (M : ℤ) := by
    intro i M hi he
    have := hg i (by omega)
    rw [he, abs_lt] at this
    rw [List.getElem?_map, List.getElem?_eq_getElem (by omega)]
    simp only [Option.map_some, Option.some.injEq]
    exact le_antisymm (npRound_le (by push_cast; linarith)) (le_npRound (by push_cast; linarith))
  constructor
  · refine (key 0 1 (by omega) ?_).trans (by simp)
    simp
  · intro h2
    refine key (k - 1) N (by omega) ?_
    have hk' : (0 : ℝ) < (k : ℝ) - 1 := by
      have : (1 : ℝ) < k := by exact_mod_cast h2
      linarith
    rw [show (((k - 1 : Nat) : ℝ)) = (k : ℝ) - 1 by push_cast [Nat.cast_sub hk]; ring, div_self hk'.ne', Real.rpow_one]
    ring

/-- **C143.** Asked for `k` of `n` moments, `1 ≤ k < n`, `moments_subset` gives `k` different existing moments: they increase, begin with 1, end (if there are at least
two) with the last moment, and are the nearest integers to geometric numbers, raised as little as possible to be different. -/
theorem C143_subset {geo : ℝ → ℝ → Nat → List ℝ} (hgeo : NearGeomspace geo) {n k : Nat} (hk : 1 ≤ k) (hkn : k < n) :
    ∃ s, momentsSubset geo n (some (k : ℤ)) = .ok s ∧ s.length = k ∧ s.Pairwise (· < ·) ∧ (∀ m ∈ s, 1 ≤ m ∧ m < (n : ℤ)) ∧
      s.head? = some 1 ∧ (2 ≤ k → s.getLast? = some ((n : ℤ) - 1)) ∧
      ∃ r, List.Forall₂ (fun (x : ℝ) (m : ℤ) => |x - (m : ℝ)| ≤ 1 / 2) (geo 1 ((n - 1 : Nat) : ℝ) k) r ∧ LeastIncreasing r s := by
  obtain ⟨hs, hlen⟩ := subset_rounded hgeo (n := n) (k := k) (by omega)
  obtain ⟨h0, hlast⟩ := rounded_ends hgeo (N := n - 1) (k := k) (by omega) hk
  have hN1 : (1 : ℝ) ≤ ((n - 1 : Nat) : ℝ) := by exact_mod_cast (by omega : 1 ≤ n - 1)
  have hgs := hgeo 1 ((n - 1 : Nat) : ℝ) one_pos hN1 k
  obtain ⟨hl, hg⟩ := hgs
  set g := geo 1 ((n - 1 : Nat) : ℝ) k with hgdef
  have hleast := makeUnique_least (g.map npRound)
  have hsl : (makeUnique (g.map npRound)).length = k := by rw [makeUnique_length, hlen]
  -- the straight line ending in the last moment
  let t : List ℤ := (List.range k).map fun i : Nat => (n : ℤ) - 1 - ((k : ℤ) - 1 - i)
  have ht : t.Pairwise (· < ·) := by
    rw [List.pairwise_map]
    exact List.pairwise_lt_range.imp fun h => by omega
  have hrt : List.Forall₂ (· ≤ ·) (g.map npRound) t := by
    rw [List.forall₂_iff_get]
    refine ⟨by simp [t, hl], fun i h1 h2 => ?_⟩
    simp only [List.length_map] at h1
    simp only [List.get_eq_getElem, List.getElem_map, t, List.getElem_range]
    apply npRound_le
    have ha := (abs_lt.1 (hg i h1)).2
    have hb := geom_below (N := ((n - 1 : Nat) : ℝ)) hk (by omega : i < k) (by exact_mod_cast (by omega : k ≤ n - 1))
    have hc : ((n - 1 : Nat) : ℝ) = (n : ℝ) - 1 := by push_cast [Nat.cast_sub (by omega : 1 ≤ n)]; ring
    have hd : ((((n : ℤ) - 1 - ((k : ℤ) - 1 - (i : ℤ)) : ℤ)) : ℝ) = (n : ℝ) - 1 - ((k : ℝ) - 1 - (i : ℝ)) := by push_cast; ring
    rw [hd]
    rw [hc] at ha hb
    linarith
  have hst := hleast.least t ht hrt
  have hup : ∀ m ∈ makeUnique (g.map npRound), m < (n : ℤ) := by
    intro m hm
    obtain ⟨i, hi, rfl⟩ := List.getElem_of_mem hm
    have := (List.forall₂_iff_get.1 hst).2 i hi (by simp [t]; omega)
    simp only [List.get_eq_getElem, t, List.getElem_map, List.getElem_range] at this
    omega
  have hhead : (makeUnique (g.map npRound)).head? = some 1 := by
    cases hgm : g.map npRound with
    | nil => rw [hgm] at h0; simp at h0
    | cons x xs => rw [hgm] at h0; simp only [List.getElem?_cons_zero, Option.some.injEq] at h0; subst h0; rfl
  refine ⟨_, hs, hsl, hleast.increasing, fun m hm => ⟨?_, hup m hm⟩, hhead, fun h2 => ?_, g.map npRound, ?_, hleast⟩
  · cases hmu : makeUnique (g.map npRound) with
    | nil => rw [hmu] at hm; cases hm
    | cons x xs =>
      have hinc := hleast.increasing
      rw [hmu] at hhead hm hinc
      simp only [List.head?_cons, Option.some.injEq] at hhead
      subst hhead
      rcases List.mem_cons.1 hm with rfl | hm
      · exact le_rfl
      · exact ((List.pairwise_cons.1 hinc).1 m hm).le
  · rw [List.getLast?_eq_getElem?, hsl, List.getElem?_eq_getElem (by omega)]
    simp only [Option.some.injEq]
    apply le_antisymm
    · have := hup _ (List.getElem_mem (by omega : k - 1 < (makeUnique (g.map npRound)).length))
      omega
    · have h3 := hlast h2
      rw [List.getElem?_eq_getElem (by omega)] at h3
      simp only [Option.some.injEq] at h3
      have h4 := (List.forall₂_iff_get.1 hleast.above).2 (k - 1) (by omega) (by omega)
      simp only [List.get_eq_getElem] at h4
      rw [h3] at h4
      omega
  · rw [List.forall₂_map_right_iff]
    exact List.forall₂_same.2 fun x _ => npRound_nearest x

/-- **C143.** Asked for as many moments as there are, or more, it names a moment that does not exist; asked for some when there is one moment only, it raises. -/
theorem C143_too_many {geo : ℝ → ℝ → Nat → List ℝ} (hgeo : NearGeomspace geo) {n k : Nat} (hkn : n ≤ k) :
    (n ≤ 1 → momentsSubset geo n (some (k : ℤ)) = .error .valueError) ∧
    (2 ≤ n → ∃ s, momentsSubset geo n (some (k : ℤ)) = .ok s ∧ ∃ m ∈ s, (n : ℤ) ≤ m) := by
  constructor
  · intro hn
    simp only [momentsSubset]
    rw [if_pos (Or.inr hn)]
  · intro hn
    obtain ⟨hs, hlen⟩ := subset_rounded hgeo (n := n) (k := k) hn
    obtain ⟨h0, _⟩ := rounded_ends hgeo (N := n - 1) (k := k) (by omega) (by omega)
    refine ⟨_, hs, ?_⟩
    set r := (geo 1 ((n - 1 : Nat) : ℝ) k).map npRound with hr
    have hleast := makeUnique_least r
    have hsl : (makeUnique r).length = k := by rw [makeUnique_length, hlen]
    have hgrow : ∀ i (h : i < (makeUnique r).length), ((i : ℤ) + 1) ≤ (makeUnique r)[i] := by
      intro i
      induction i with
      | zero =>
        intro h
        have h4 := (List.forall₂_iff_get.1 hleast.above).2 0 (by omega) h
        rw [List.getElem?_eq_getElem (by omega)] at h0
        simp only [Option.some.injEq] at h0
        simp only [List.get_eq_getElem] at h4
        rw [h0] at h4
        simpa using h4
      | succ i ih =>
        intro h
        have h1 := ih (by omega)
        have h2 := List.pairwise_iff_getElem.1 hleast.increasing i (i + 1) (by omega) h (by omega)
        push_cast
        omega
    refine ⟨(makeUnique r)[k - 1]'(by omega), List.getElem_mem _, ?_⟩
    have := hgrow (k - 1) (by omega)
    omega

/-- Ten of 65 moments, as with exact geometric numbers from 1 to 64: 1, 2^(6/9), ... . -/
example : makeUnique (([1, 8/5, 5/2, 4, 32/5, 10, 16, 127/5, 202/5, 64] : List ℚ).map npRound) = [1, 2, 3, 4, 6, 10, 16, 25, 40, 64] := by decide +kernel

/-- Four of nine moments are 1, 2, 4 and 8. -/
example : momentsSubset (fun _ _ _ => ([1, 2, 4, 8] : List ℚ)) 9 (some 4) = .ok [1, 2, 4, 8] := by decide +kernel

/-- Six of seven moments: the geometric numbers 1, 1.43, 2.05, 2.93, 4.19, 6 give 1, 1, 2, 3, 4, 6, made different 1, 2, 3, 4, 5, 6. -/
example : momentsSubset (fun _ _ _ => ([1, 143/100, 205/100, 293/100, 419/100, 6] : List ℚ)) 7 (some 6) = .ok [1, 2, 3, 4, 5, 6] := by decide +kernel

end MLMC
