import Verif.Proofs.Adding
/-! Property C05: `process_adding_samples`. -/
namespace MLMC
variable {V : Type}

/-- C05, one call.  For every level with estimate `e`, previous target `t` and `k` samples scheduled, one call of
`process_adding_samples` with coefficient `0 < c ≤ 1`
* never reduces the number of scheduled samples,
* strictly increases it if it was below the estimate,
* does not go beyond the rounded-up estimate (nor beyond targets set earlier) on a level below the estimate,
* leaves a level at or above its estimate alone (unless an earlier target still asks for more),
and it returns `True` exactly when the new number of scheduled samples asked for reaches the estimate at every level. -/
theorem C05_adding_one_call (s : Sys V) (est : List ℚ) (c : ℚ) (hc0 : 0 < c) (hc1 : c ≤ 1)
    (he : est.length = s.nSched.length) (ht : s.target.length = s.nSched.length) :
    (∀ (l : Nat) (e t : ℚ) (k : Nat), est[l]? = some e → s.target[l]? = some t → s.nSched[l]? = some k →
      ∃ k', (s.processAdding est c).1.nSched[l]? = some k' ∧ k ≤ k' ∧
        ((k : ℚ) < e → k < k' ∧ (k' : ℤ) ≤ max ⌊t⌋ ⌈e⌉) ∧
        (e ≤ k → k' = max k ⌊t⌋.toNat)) ∧
    ((s.processAdding est c).2 = true →
      ∀ (l : Nat) (e : ℚ) (k' : Nat), est[l]? = some e → (s.processAdding est c).1.nSched[l]? = some k' → e ≤ k') ∧
    ((∀ (l : Nat) (t : ℚ), s.target[l]? = some t → ∃ k : Nat, s.nSched[l]? = some k ∧ t ≤ k) →
      (∀ (l : Nat) (e : ℚ) (k' : Nat), est[l]? = some e → (s.processAdding est c).1.nSched[l]? = some k' → e ≤ k') →
      (s.processAdding est c).2 = true) := by
  have get : ∀ {α : Type} (a : List α), a.length = s.nSched.length → ∀ (l : Nat) (k' : Nat),
      (s.processAdding est c).1.nSched[l]? = some k' → ∃ x, a[l]? = some x := by
    intro α a ha l k' h
    have hlt : l < (s.processAdding est c).1.nSched.length := by
      rcases Nat.lt_or_ge l (s.processAdding est c).1.nSched.length with h' | h'
      · exact h'
      · rw [List.getElem?_eq_none h'] at h; simp at h
    rw [(processAdding_lengths s est c he ht).1, ← ha] at hlt
    exact ⟨_, List.getElem?_eq_getElem hlt⟩
  have hres : (s.processAdding est c).2 = addResult est (addSamplesVec est s.nSched c) := by
    simp [Sys.processAdding, he]
  refine ⟨?_, ?_, ?_⟩
  · intro l e t k hel htl hkl
    obtain ⟨h1, _⟩ := processAdding_get s est c he ht l e t k hel htl hkl
    refine ⟨_, h1, le_max_left _ _, ?_, ?_⟩
    · intro hlt
      have g := addSamples_gt e k c hc0 hlt
      have u := addSamples_le e k c hc1 hlt.le
      have f1 : addSamples e k c ≤ ⌊max t ((addSamples e k c : ℤ) : ℚ)⌋ := Int.le_floor.2 (le_max_right _ _)
      have f2 : ⌊max t ((addSamples e k c : ℤ) : ℚ)⌋ = max ⌊t⌋ (addSamples e k c) := by
        rw [Int.floor_mono.map_max, Int.floor_intCast]
      refine ⟨by omega, by omega⟩
    · intro hle
      have g := addSamples_above e k c hle
      rw [g]
      have f2 : ⌊max t (((k : ℤ) : ℤ) : ℚ)⌋ = max ⌊t⌋ (k : ℤ) := by
        rw [Int.floor_mono.map_max, Int.floor_intCast]
      rw [f2]; omega
  · intro hT l e k' hel hk'
    rw [hres, addResult_iff] at hT
    obtain ⟨t, htl⟩ := get s.target ht l k' hk'
    obtain ⟨k, hkl⟩ := get s.nSched rfl l k' hk'
    obtain ⟨h1, _⟩ := processAdding_get s est c he ht l e t k hel htl hkl
    rw [h1] at hk'
    simp only [Option.some.injEq] at hk'
    have hle := hT l e (addSamples e k c) hel (by simp [addSamplesVec, List.getElem?_zipWith, hel, hkl])
    have f1 : addSamples e k c ≤ ⌊max t ((addSamples e k c : ℤ) : ℚ)⌋ := Int.le_floor.2 (le_max_right _ _)
    have : (addSamples e k c : ℤ) ≤ (k' : ℤ) := by omega
    calc e ≤ ((addSamples e k c : ℤ) : ℚ) := hle
      _ ≤ ((k' : ℤ) : ℚ) := by exact_mod_cast this
      _ = k' := by simp
  · intro hbelow hall
    rw [hres, addResult_iff]
    intro l e z hel hz
    have hlt : l < s.nSched.length := by
      have : l < est.length := by
        rcases Nat.lt_or_ge l est.length with h' | h'
        · exact h'
        · rw [List.getElem?_eq_none h'] at hel; simp at hel
      omega
    have hkl : s.nSched[l]? = some s.nSched[l] := List.getElem?_eq_getElem hlt
    have htl : s.target[l]? = some (s.target[l]'(by omega)) := List.getElem?_eq_getElem (by omega)
    obtain ⟨h1, _⟩ := processAdding_get s est c he ht l e _ _ hel htl hkl
    have h2 := hall l e _ hel h1
    obtain ⟨k, hk, htk⟩ := hbelow l _ htl
    rw [hkl] at hk
    simp only [Option.some.injEq] at hk
    simp only [addSamplesVec, List.getElem?_zipWith, hel, hkl, Option.map_some, Option.bind_some] at hz
    have hz' : z = addSamples e (s.nSched[l] : Nat) c := by simpa using hz.symm
    subst hz'
    have g := addSamples_ge e (s.nSched[l] : Nat) c hc0
    have hmax : max (s.target[l]'(by omega)) ((addSamples e (s.nSched[l] : Nat) c : ℤ) : ℚ)
        = ((addSamples e (s.nSched[l] : Nat) c : ℤ) : ℚ) := by
      apply max_eq_right
      refine htk.trans ?_
      rw [← hk]
      exact_mod_cast g
    rw [hmax, Int.floor_intCast] at h2
    refine h2.trans ?_
    have : ((max s.nSched[l] (addSamples e (s.nSched[l] : Nat) c).toNat : Nat) : ℤ) ≤ addSamples e (s.nSched[l] : Nat) c := by
      omega
    exact_mod_cast this

/-- `n` successive calls with a fixed estimate. -/
def addLoop (est : List ℚ) (c : ℚ) : Nat → Sys V → Sys V
  | 0, s => s
  | n + 1, s => addLoop est c n (s.processAdding est c).1

/-- C05, termination: repeating the call with a fixed estimate returns `True` after finitely many calls. -/
theorem C05_adding_terminates (s : Sys V) (est : List ℚ) (c : ℚ) (hc0 : 0 < c) (hc1 : c ≤ 1)
    (he : est.length = s.nSched.length) (ht : s.target.length = s.nSched.length) :
    ∃ n, ((addLoop est c n s).processAdding est c).2 = true := by
  have main : ∀ (m : Nat) (s : Sys V), missingSum est s.nSched ≤ m → est.length = s.nSched.length →
      s.target.length = s.nSched.length → ∃ n, ((addLoop est c n s).processAdding est c).2 = true := by
    intro m
    induction m with
    | zero =>
      intro s hm he ht
      refine ⟨0, ?_⟩
      by_contra hf
      have hres : (s.processAdding est c).2 = addResult est (addSamplesVec est s.nSched c) := by
        simp [Sys.processAdding, he]
      simp only [addLoop] at hf
      rw [hres, addResult_iff] at hf
      push Not at hf
      obtain ⟨l, e, z, hel, hz, hlt⟩ := hf
      cases hkl : s.nSched[l]? with
      | none => simp [addSamplesVec, List.getElem?_zipWith, hel, hkl] at hz
      | some k =>
        simp [addSamplesVec, List.getElem?_zipWith, hel, hkl] at hz
        have g := addSamples_ge e k c hc0
        have hk : (k : ℚ) < e := by
          have : ((k : ℤ) : ℚ) ≤ ((z : ℤ) : ℚ) := by rw [← hz]; exact_mod_cast g
          push_cast at this; linarith
        have hmiss : 1 ≤ missing e k := by
          have : (k : ℤ) < ⌈e⌉ := Int.lt_ceil.2 (by exact_mod_cast hk)
          unfold missing; omega
        have hmem : missing e k ∈ List.zipWith missing est s.nSched := by
          apply List.mem_of_getElem? (i := l)
          simp [List.getElem?_zipWith, hel, hkl]
        have := List.single_le_sum (fun x _ => Nat.zero_le x) _ hmem
        unfold missingSum at hm
        omega
    | succ m ih =>
      intro s hm he ht
      by_cases hT : (s.processAdding est c).2 = true
      · exact ⟨0, hT⟩
      · have hlens := processAdding_lengths s est c he ht
        have hone := (C05_adding_one_call s est c hc0 hc1 he ht).1
        have hmono : ∀ (l : Nat) (e : ℚ) (k k' : Nat), est[l]? = some e → s.nSched[l]? = some k →
            (s.processAdding est c).1.nSched[l]? = some k' → k ≤ k' ∧ ((k : ℚ) < e → k < k') := by
          intro l e k k' hel hkl hk'
          have hlt : l < s.nSched.length := by
            rcases Nat.lt_or_ge l s.nSched.length with h' | h'
            · exact h'
            · rw [List.getElem?_eq_none h'] at hkl; simp at hkl
          have htl : s.target[l]? = some (s.target[l]'(by omega)) := List.getElem?_eq_getElem (by omega)
          obtain ⟨k2, h1, h2, h3, _⟩ := hone l e _ k hel htl hkl
          rw [hk'] at h1
          simp only [Option.some.injEq] at h1
          subst h1
          exact ⟨h2, fun h => (h3 h).1⟩
        have hdec : missingSum est (s.processAdding est c).1.nSched < missingSum est s.nSched := by
          apply missingSum_lt est _ _ he.symm (by rw [hlens.1]; exact he.symm)
          · intro l e k k' a b d
            have := (hmono l e k k' a b d).1
            unfold missing; omega
          · have hres : (s.processAdding est c).2 = addResult est (addSamplesVec est s.nSched c) := by
              simp [Sys.processAdding, he]
            rw [hres, addResult_iff] at hT
            push Not at hT
            obtain ⟨l, e, z, hel, hz, hlt⟩ := hT
            cases hkl : s.nSched[l]? with
            | none => simp [addSamplesVec, List.getElem?_zipWith, hel, hkl] at hz
            | some k =>
              simp [addSamplesVec, List.getElem?_zipWith, hel, hkl] at hz
              have g := addSamples_ge e k c hc0
              have hk : (k : ℚ) < e := by
                have : ((k : ℤ) : ℚ) ≤ ((z : ℤ) : ℚ) := by rw [← hz]; exact_mod_cast g
                push_cast at this; linarith
              have hlt' : l < (s.processAdding est c).1.nSched.length := by
                rw [hlens.1]
                rcases Nat.lt_or_ge l s.nSched.length with h' | h'
                · exact h'
                · rw [List.getElem?_eq_none h'] at hkl; simp at hkl
              have hk' := List.getElem?_eq_getElem hlt'
              have := (hmono l e k _ hel hkl hk').2 hk
              refine ⟨l, e, k, _, hel, hkl, hk', ?_⟩
              have : (k : ℤ) < ⌈e⌉ := Int.lt_ceil.2 (by exact_mod_cast hk)
              unfold missing; omega
        obtain ⟨n, hn⟩ := ih (s.processAdding est c).1 (by omega) (by rw [hlens.1]; exact he)
          (by rw [hlens.1, hlens.2])
        exact ⟨n + 1, hn⟩
  exact main _ s le_rfl he ht

/-- Non-vacuity: three levels, estimate (40, 7, 3) from (10, 10, 1) scheduled, default coefficient 1/10: the first call
schedules (13, 10, 2) and is not done; repeated calls reach the estimate. -/
example :
    let s : Sys Unit := (Sys.fresh Unit 3).run [.setInitial [10, 10, 1], .schedule]
    s.target.length = s.nSched.length ∧
    (s.processAdding [40, 7, 3] (1/10)).1.nSched = [13, 10, 2] ∧ (s.processAdding [40, 7, 3] (1/10)).2 = false ∧
    (addLoop [40, 7, 3] (1/10) 20 s).nSched = [40, 10, 3] := by
  decide +kernel

end MLMC
