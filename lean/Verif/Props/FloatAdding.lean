import Verif.Proofs.FloatAdding
/-! Property C162: `process_adding_samples` in floating-point arithmetic. -/
namespace MLMC
variable {V : Type}

/-- C162, one call, as C05 but in doubles.  For estimates below 2^53 - 1, for every level with estimate `e`, previous target `t` and `k` samples scheduled, one call of
`process_adding_samples` with coefficient `2^-26 ≤ c ≤ 1` (the default is 0.1)
* never reduces the number of scheduled samples,
* strictly increases it if it was below the estimate,
* does not go beyond the rounded-up estimate (nor beyond targets set earlier) on a level below the estimate,
* leaves a level at or above its estimate alone (unless an earlier target still asks for more),
and it returns `True` exactly when the new number of scheduled samples asked for reaches the estimate at every level. -/
theorem C162_adding_one_call (s : Sys V) (est : List ℚ) (c : ℚ) (hc0 : 1 / 2 ^ 26 ≤ c) (hc1 : c ≤ 1) (hbig : ∀ e ∈ est, e < 2 ^ 53 - 1)
    (he : est.length = s.nSched.length) (ht : s.target.length = s.nSched.length) :
    (∀ (l : Nat) (e t : ℚ) (k : Nat), est[l]? = some e → s.target[l]? = some t → s.nSched[l]? = some k →
      ∃ k', (s.flProcessAdding est c).1.nSched[l]? = some k' ∧ k ≤ k' ∧
        ((k : ℚ) < e → k < k' ∧ (k' : ℤ) ≤ max ⌊t⌋ ⌈e⌉) ∧
        (e ≤ k → k' = max k ⌊t⌋.toNat)) ∧
    ((s.flProcessAdding est c).2 = true →
      ∀ (l : Nat) (e : ℚ) (k' : Nat), est[l]? = some e → (s.flProcessAdding est c).1.nSched[l]? = some k' → e ≤ k') ∧
    ((∀ (l : Nat) (t : ℚ), s.target[l]? = some t → ∃ k : Nat, s.nSched[l]? = some k ∧ t ≤ k) →
      (∀ (l : Nat) (e : ℚ) (k' : Nat), est[l]? = some e → (s.flProcessAdding est c).1.nSched[l]? = some k' → e ≤ k') →
      (s.flProcessAdding est c).2 = true) := by
  have get : ∀ {α : Type} (a : List α), a.length = s.nSched.length → ∀ (l : Nat) (k' : Nat),
      (s.flProcessAdding est c).1.nSched[l]? = some k' → ∃ x, a[l]? = some x := by
    intro α a ha l k' h
    have hlt : l < (s.flProcessAdding est c).1.nSched.length := by
      rcases Nat.lt_or_ge l (s.flProcessAdding est c).1.nSched.length with h' | h'
      · exact h'
      · rw [List.getElem?_eq_none h'] at h; simp at h
    rw [(flProcessAdding_lengths s est c he ht).1, ← ha] at hlt
    exact ⟨_, List.getElem?_eq_getElem hlt⟩
  have hres : (s.flProcessAdding est c).2 = addResult est (flAddSamplesVec est s.nSched c) := by
    simp [Sys.flProcessAdding, he]
  refine ⟨?_, ?_, ?_⟩
  · intro l e t k hel htl hkl
    obtain ⟨h1, _⟩ := flProcessAdding_get s est c he ht l e t k hel htl hkl
    refine ⟨_, h1, le_max_left _ _, ?_, ?_⟩
    · intro hlt
      have g := flAddSamples_gt e k c hc0 hlt
      have u := flAddSamples_le e k c (lt_of_lt_of_le (by norm_num) hc0) hc1 hlt.le (hbig e (List.mem_of_getElem? hel))
      have f1 : flAddSamples e k c ≤ ⌊max t ((flAddSamples e k c : ℤ) : ℚ)⌋ := Int.le_floor.2 (le_max_right _ _)
      have f2 : ⌊max t ((flAddSamples e k c : ℤ) : ℚ)⌋ = max ⌊t⌋ (flAddSamples e k c) := by
        rw [Int.floor_mono.map_max, Int.floor_intCast]
      refine ⟨by omega, by omega⟩
    · intro hle
      have g := flAddSamples_above e k c (lt_of_lt_of_le (by norm_num) hc0) hle
      rw [g]
      have f2 : ⌊max t (((k : ℤ) : ℤ) : ℚ)⌋ = max ⌊t⌋ (k : ℤ) := by
        rw [Int.floor_mono.map_max, Int.floor_intCast]
      rw [f2]; omega
  · intro hT l e k' hel hk'
    rw [hres, addResult_iff] at hT
    obtain ⟨t, htl⟩ := get s.target ht l k' hk'
    obtain ⟨k, hkl⟩ := get s.nSched rfl l k' hk'
    obtain ⟨h1, _⟩ := flProcessAdding_get s est c he ht l e t k hel htl hkl
    rw [h1] at hk'
    simp only [Option.some.injEq] at hk'
    have hle := hT l e (flAddSamples e k c) hel (by simp [flAddSamplesVec, List.getElem?_zipWith, hel, hkl])
    have f1 : flAddSamples e k c ≤ ⌊max t ((flAddSamples e k c : ℤ) : ℚ)⌋ := Int.le_floor.2 (le_max_right _ _)
    have : (flAddSamples e k c : ℤ) ≤ (k' : ℤ) := by omega
    calc e ≤ ((flAddSamples e k c : ℤ) : ℚ) := hle
      _ ≤ ((k' : ℤ) : ℚ) := by exact_mod_cast this
      _ = k' := by simp
  · intro hbelow hall
    rw [hres, addResult_iff]
    intro l e z hel hz
    have hlt : l < s.nSched.length := by
      have : l < est.length := by
        rcases Nat.lt_or_ge l est.length with h' | h'
        · exact h'
        · rw [List.getElem?_eq_none h'] at hel; simp at hel
      omega
    have hkl : s.nSched[l]? = some s.nSched[l] := List.getElem?_eq_getElem hlt
    have htl : s.target[l]? = some (s.target[l]'(by omega)) := List.getElem?_eq_getElem (by omega)
    obtain ⟨h1, _⟩ := flProcessAdding_get s est c he ht l e _ _ hel htl hkl
    have h2 := hall l e _ hel h1
    obtain ⟨k, hk, htk⟩ := hbelow l _ htl
    rw [hkl] at hk
    simp only [Option.some.injEq] at hk
    simp only [flAddSamplesVec, List.getElem?_zipWith, hel, hkl, Option.map_some, Option.bind_some] at hz
    have hz' : z = flAddSamples e (s.nSched[l] : Nat) c := by simpa using hz.symm
    subst hz'
    have g := flAddSamples_ge e (s.nSched[l] : Nat) c hc0
    have hmax : max (s.target[l]'(by omega)) ((flAddSamples e (s.nSched[l] : Nat) c : ℤ) : ℚ)
        = ((flAddSamples e (s.nSched[l] : Nat) c : ℤ) : ℚ) := by
      apply max_eq_right
      refine htk.trans ?_
      rw [← hk]
      exact_mod_cast g
    rw [hmax, Int.floor_intCast] at h2
    refine h2.trans ?_
    have : ((max s.nSched[l] (flAddSamples e (s.nSched[l] : Nat) c).toNat : Nat) : ℤ) ≤ flAddSamples e (s.nSched[l] : Nat) c := by
      omega
    exact_mod_cast this

/-- `n` successive calls with a fixed estimate. -/
def flAddLoop (est : List ℚ) (c : ℚ) : Nat → Sys V → Sys V
  | 0, s => s
  | n + 1, s => flAddLoop est c n (s.flProcessAdding est c).1

/-- C162, termination: repeating the call with a fixed estimate returns `True` after finitely many calls, also in doubles, for coefficients not below 2^-26. -/
theorem C162_adding_terminates (s : Sys V) (est : List ℚ) (c : ℚ) (hc0 : 1 / 2 ^ 26 ≤ c) (hc1 : c ≤ 1) (hbig : ∀ e ∈ est, e < 2 ^ 53 - 1)
    (he : est.length = s.nSched.length) (ht : s.target.length = s.nSched.length) :
    ∃ n, ((flAddLoop est c n s).flProcessAdding est c).2 = true := by
  have main : ∀ (m : Nat) (s : Sys V), missingSum est s.nSched ≤ m → est.length = s.nSched.length →
      s.target.length = s.nSched.length → ∃ n, ((flAddLoop est c n s).flProcessAdding est c).2 = true := by
    intro m
    induction m with
    | zero =>
      intro s hm he ht
      refine ⟨0, ?_⟩
      by_contra hf
      have hres : (s.flProcessAdding est c).2 = addResult est (flAddSamplesVec est s.nSched c) := by
        simp [Sys.flProcessAdding, he]
      simp only [flAddLoop] at hf
      rw [hres, addResult_iff] at hf
      push Not at hf
      obtain ⟨l, e, z, hel, hz, hlt⟩ := hf
      cases hkl : s.nSched[l]? with
      | none => simp [flAddSamplesVec, List.getElem?_zipWith, hel, hkl] at hz
      | some k =>
        simp [flAddSamplesVec, List.getElem?_zipWith, hel, hkl] at hz
        have g := flAddSamples_ge e k c hc0
        have hk : (k : ℚ) < e := by
          have : ((k : ℤ) : ℚ) ≤ ((z : ℤ) : ℚ) := by rw [← hz]; exact_mod_cast g
          push_cast at this; linarith
        have hmiss : 1 ≤ missing e k := by
          have : (k : ℤ) < ⌈e⌉ := Int.lt_ceil.2 (by exact_mod_cast hk)
          unfold missing; omega
        have hmem : missing e k ∈ List.zipWith missing est s.nSched := by
          apply List.mem_of_getElem? (i := l)
          simp [List.getElem?_zipWith, hel, hkl]
        have := List.single_le_sum (fun x _ => Nat.zero_le x) _ hmem
        unfold missingSum at hm
        omega
    | succ m ih =>
      intro s hm he ht
      by_cases hT : (s.flProcessAdding est c).2 = true
      · exact ⟨0, hT⟩
      · have hlens := flProcessAdding_lengths s est c he ht
        have hone := (C162_adding_one_call s est c hc0 hc1 hbig he ht).1
        have hmono : ∀ (l : Nat) (e : ℚ) (k k' : Nat), est[l]? = some e → s.nSched[l]? = some k →
            (s.flProcessAdding est c).1.nSched[l]? = some k' → k ≤ k' ∧ ((k : ℚ) < e → k < k') := by
          intro l e k k' hel hkl hk'
          have hlt : l < s.nSched.length := by
            rcases Nat.lt_or_ge l s.nSched.length with h' | h'
            · exact h'
            · rw [List.getElem?_eq_none h'] at hkl; simp at hkl
          have htl : s.target[l]? = some (s.target[l]'(by omega)) := List.getElem?_eq_getElem (by omega)
          obtain ⟨k2, h1, h2, h3, _⟩ := hone l e _ k hel htl hkl
          rw [hk'] at h1
          simp only [Option.some.injEq] at h1
          subst h1
          exact ⟨h2, fun h => (h3 h).1⟩
        have hdec : missingSum est (s.flProcessAdding est c).1.nSched < missingSum est s.nSched := by
          apply missingSum_lt est _ _ he.symm (by rw [hlens.1]; exact he.symm)
          · intro l e k k' a b d
            have := (hmono l e k k' a b d).1
            unfold missing; omega
          · have hres : (s.flProcessAdding est c).2 = addResult est (flAddSamplesVec est s.nSched c) := by
              simp [Sys.flProcessAdding, he]
            rw [hres, addResult_iff] at hT
            push Not at hT
            obtain ⟨l, e, z, hel, hz, hlt⟩ := hT
            cases hkl : s.nSched[l]? with
            | none => simp [flAddSamplesVec, List.getElem?_zipWith, hel, hkl] at hz
            | some k =>
              simp [flAddSamplesVec, List.getElem?_zipWith, hel, hkl] at hz
              have g := flAddSamples_ge e k c hc0
              have hk : (k : ℚ) < e := by
                have : ((k : ℤ) : ℚ) ≤ ((z : ℤ) : ℚ) := by rw [← hz]; exact_mod_cast g
                push_cast at this; linarith
              have hlt' : l < (s.flProcessAdding est c).1.nSched.length := by
                rw [hlens.1]
                rcases Nat.lt_or_ge l s.nSched.length with h' | h'
                · exact h'
                · rw [List.getElem?_eq_none h'] at hkl; simp at hkl
              have hk' := List.getElem?_eq_getElem hlt'
              have := (hmono l e k _ hel hkl hk').2 hk
              refine ⟨l, e, k, _, hel, hkl, hk', ?_⟩
              have : (k : ℤ) < ⌈e⌉ := Int.lt_ceil.2 (by exact_mod_cast hk)
              unfold missing; omega
        obtain ⟨n, hn⟩ := ih (s.flProcessAdding est c).1 (by omega) (by rw [hlens.1]; exact he)
          (by rw [hlens.1, hlens.2])
        exact ⟨n + 1, hn⟩
  exact main _ s le_rfl he ht

/-- Calls with estimates that are computed anew before every call: `ests n` is the estimate of call `n`. -/
def flAddLoopVar (ests : Nat → List ℚ) (c : ℚ) (s : Sys V) : Nat → Sys V
  | 0 => s
  | n + 1 => ((flAddLoopVar ests c s n).flProcessAdding (ests n) c).1

/-- A call that returns `False` brings the numbers of samples nearer to every bound of its estimates. -/
theorem flProcessAdding_decreases (s : Sys V) (est bound : List ℚ) (c : ℚ) (hc0 : 1 / 2 ^ 26 ≤ c) (hc1 : c ≤ 1) (hbig : ∀ e ∈ est, e < 2 ^ 53 - 1) (he : est.length = s.nSched.length)
    (ht : s.target.length = s.nSched.length) (hb : bound.length = s.nSched.length) (hle : ∀ (l : Nat) (e b : ℚ), est[l]? = some e → bound[l]? = some b → e ≤ b)
    (hF : (s.flProcessAdding est c).2 = false) : missingSum bound (s.flProcessAdding est c).1.nSched < missingSum bound s.nSched := by
  have hlens := flProcessAdding_lengths s est c he ht
  have hone := (C162_adding_one_call s est c hc0 hc1 hbig he ht).1
  have some_of : ∀ {α β : Type} {a : List α} {b : List β} {l : Nat} {x : α}, a.length = b.length → a[l]? = some x → ∃ y, b[l]? = some y := by
    intro α β a b l x hab hx
    have : l < a.length := by
      rcases Nat.lt_or_ge l a.length with h | h
      · exact h
      · rw [List.getElem?_eq_none h] at hx; cases hx
    exact ⟨_, List.getElem?_eq_getElem (by omega)⟩
  have hmono : ∀ (l : Nat) (e : ℚ) (k k' : Nat), est[l]? = some e → s.nSched[l]? = some k → (s.flProcessAdding est c).1.nSched[l]? = some k' → k ≤ k' ∧ ((k : ℚ) < e → k < k') := by
    intro l e k k' hel hkl hk'
    obtain ⟨t, htl⟩ := some_of (b := s.target) ht.symm hkl
    obtain ⟨k2, h1, h2, h3, _⟩ := hone l e t k hel htl hkl
    rw [hk'] at h1
    obtain rfl : k' = k2 := by simpa using h1
    exact ⟨h2, fun h => (h3 h).1⟩
  apply missingSum_lt bound _ _ hb.symm (by rw [hlens.1]; exact hb.symm)
  · intro l b k k' _ hkl hk'
    obtain ⟨e, hel⟩ := some_of (b := est) he.symm hkl
    have := (hmono l e k k' hel hkl hk').1
    unfold missing; omega
  · have hres : (s.flProcessAdding est c).2 = addResult est (flAddSamplesVec est s.nSched c) := by
      simp [Sys.flProcessAdding, he]
    have hT : ¬ addResult est (flAddSamplesVec est s.nSched c) = true := by rw [← hres, hF]; simp
    rw [addResult_iff] at hT
    push Not at hT
    obtain ⟨l, e, z, hel, hz, hlt⟩ := hT
    obtain ⟨k, hkl⟩ := some_of he hel
    have hz' : flAddSamples e k c = z := by simpa [flAddSamplesVec, List.getElem?_zipWith, hel, hkl] using hz
    have g := flAddSamples_ge e k c hc0
    have hk : (k : ℚ) < e := by
      have : ((k : ℤ) : ℚ) ≤ ((z : ℤ) : ℚ) := by rw [← hz']; exact_mod_cast g
      push_cast at this; linarith
    obtain ⟨k', hk'⟩ := some_of (b := (s.flProcessAdding est c).1.nSched) (by rw [hlens.1]; exact he) hel
    obtain ⟨b, hbl⟩ := some_of (b := bound) (by rw [hb]; exact he) hel
    have := (hmono l e k k' hel hkl hk').2 hk
    refine ⟨l, b, k, k', hbl, hkl, hk', ?_⟩
    have : (k : ℤ) < ⌈b⌉ := Int.lt_ceil.2 (by have := hle l e b hel hbl; push_cast; linarith)
    unfold missing; omega

/-- C162, termination with estimates computed anew before every call (the loop of the documentation): if they stay below a bound for each level, the call returns `True` after at most one call more than
samples are missing to the bound. -/
theorem C162_changing_estimates (s : Sys V) (ests : Nat → List ℚ) (bound : List Nat) (c : ℚ) (hc0 : 1 / 2 ^ 26 ≤ c) (hc1 : c ≤ 1) (hbig : ∀ b ∈ bound, b < 2 ^ 53 - 1)
    (he : ∀ n, (ests n).length = s.nSched.length) (ht : s.target.length = s.nSched.length) (hb : bound.length = s.nSched.length)
    (hle : ∀ (n l : Nat) (e : ℚ) (b : Nat), (ests n)[l]? = some e → bound[l]? = some b → e ≤ b) :
    ∃ n ≤ (List.zipWith (fun b k => b - k) bound s.nSched).sum, ((flAddLoopVar ests c s n).flProcessAdding (ests n) c).2 = true := by
  set m := (List.zipWith (fun b k => b - k) bound s.nSched).sum with hm
  have hmiss : missingSum (bound.map fun b : Nat => (b : ℚ)) s.nSched = m := by
    rw [hm, missingSum, List.zipWith_map_left]
    congr 2
    funext b k
    unfold missing
    rw [Int.ceil_natCast]
    omega
  by_contra hno
  push Not at hno
  have key : ∀ n ≤ m + 1, (flAddLoopVar ests c s n).nSched.length = s.nSched.length ∧ (flAddLoopVar ests c s n).target.length = s.nSched.length ∧
      missingSum (bound.map fun b : Nat => (b : ℚ)) (flAddLoopVar ests c s n).nSched + n ≤ m := by
    intro n
    induction n with
    | zero => exact fun _ => ⟨rfl, ht, by rw [flAddLoopVar, hmiss]; simp⟩
    | succ n ih =>
      intro hn
      obtain ⟨h1, h2, h3⟩ := ih (by omega)
      have hlens := flProcessAdding_lengths (flAddLoopVar ests c s n) (ests n) c (by rw [h1, he]) (by rw [h1, h2])
      have hdec := flProcessAdding_decreases (flAddLoopVar ests c s n) (ests n) (bound.map fun b : Nat => (b : ℚ)) c hc0 hc1 ?_ (by rw [h1, he]) (by rw [h1, h2]) (by rw [h1, List.length_map, hb]) ?_
        (by simpa using hno n (by omega))
      · refine ⟨by rw [flAddLoopVar, hlens.1, h1], by rw [flAddLoopVar, hlens.2, h1], ?_⟩
        rw [flAddLoopVar]
        omega
      · intro e hemem
        obtain ⟨l, hl, rfl⟩ := List.getElem_of_mem hemem
        have hl' : l < bound.length := by rw [hb, ← he n]; exact hl
        have h := hle n l _ _ (List.getElem?_eq_getElem hl) (List.getElem?_eq_getElem hl')
        have hbb : ((bound[l] : Nat) : ℚ) < 2 ^ 53 - 1 := by
          have := hbig _ (List.getElem_mem hl')
          have h2 : ((bound[l] : Nat) : ℚ) + 1 < 2 ^ 53 := by exact_mod_cast (by omega : bound[l] + 1 < 2 ^ 53)
          linarith
        linarith
      · intro l e b hel hbl
        rw [List.getElem?_map] at hbl
        cases hbo : bound[l]? with
        | none => rw [hbo] at hbl; cases hbl
        | some b' =>
          rw [hbo] at hbl
          obtain rfl : (b' : ℚ) = b := by simpa using hbl
          exact hle n l e b' hel hbo
  have := (key (m + 1) le_rfl).2.2
  omega

/-- Estimates that alternate between (40, 7, 3) and (30, 12, 3). -/
example (s : Sys V) (ht : s.target.length = 3) (hs : s.nSched.length = 3) := C162_changing_estimates s (fun n => if n % 2 = 0 then [40, 7, 3] else [30, 12, 3]) [40, 12, 3] (Fl.double (1 / 10))
  (by decide +kernel) (by decide +kernel) (by decide) (fun n => by rw [hs]; split <;> rfl) (by rw [hs, ht]) (by rw [hs]; rfl) (by
    intro n l e b h1 h2
    rcases l with _ | _ | _ | l
    all_goals
      by_cases hn : n % 2 = 0
      all_goals
        simp [hn] at h1 h2
        try (subst h1; subst h2; norm_num))

/-- C162, what is not true: for a positive coefficient that is too small, rounding takes every step back.  One sample scheduled, two wanted, coefficient 2^-54: no number of calls schedules another sample
or returns `True`, whereas in exact arithmetic the first call reaches the estimate. -/
theorem C162_counterexample_small_coefficient (s : Sys V) (ht : s.target = [1]) (hs : s.nSched = [1]) :
    (∀ n, (flAddLoop [2] (1 / 2 ^ 54) n s).nSched = [1] ∧ ((flAddLoop [2] (1 / 2 ^ 54) n s).flProcessAdding [2] (1 / 2 ^ 54)).2 = false) ∧
    (s.processAdding [2] (1 / 2 ^ 54)).1.nSched = [2] := by
  have hz : flAddSamples 2 1 (1 / 2 ^ 54) = 1 := by decide +kernel
  have hvec : flAddSamplesVec [2] [1] (1 / 2 ^ 54) = [1] := by
    simp only [flAddSamplesVec, List.zipWith_cons_cons, List.zipWith_nil_left, Nat.cast_one, hz]
  have hstep : ∀ s : Sys V, s.target = [1] → s.nSched = [1] → (s.flProcessAdding [2] (1 / 2 ^ 54)).1.target = [1] ∧ (s.flProcessAdding [2] (1 / 2 ^ 54)).1.nSched = [1] ∧
      (s.flProcessAdding [2] (1 / 2 ^ 54)).2 = false := by
    intro s ht hs
    obtain ⟨h1, h2⟩ := flProcessAdding_get s [2] (1 / 2 ^ 54) (by rw [hs]; rfl) (by rw [hs, ht]; rfl) 0 2 1 1 rfl (by rw [ht]; rfl) (by rw [hs]; rfl)
    obtain ⟨h3, h4⟩ := flProcessAdding_lengths s [2] (1 / 2 ^ 54) (by rw [hs]; rfl) (by rw [hs, ht]; rfl)
    rw [Nat.cast_one, hz] at h1 h2
    rw [hs] at h3 h4
    have one : ∀ {α : Type} {l : List α} {x : α}, l.length = 1 → l[0]? = some x → l = [x] := by
      intro α l x hl hx
      match l, hl with
      | [y], _ => simpa using hx
    refine ⟨?_, ?_, ?_⟩
    · rw [one h4 h2]; norm_num
    · rw [one h3 h1]; norm_num
    · simp only [Sys.flProcessAdding, hs, List.length_cons, List.length_nil, if_true, hvec]
      decide +kernel
  constructor
  · intro n
    induction n generalizing s with
    | zero => exact ⟨hs, (hstep s ht hs).2.2⟩
    | succ n ih => exact ih _ (hstep s ht hs).1 (hstep s ht hs).2.1
  · have h := processAdding_get s [2] (1 / 2 ^ 54) (by rw [hs]; rfl) (by rw [hs, ht]; rfl) 0 2 1 1 rfl (by rw [ht]; rfl) (by rw [hs]; rfl)
    have h3 := (processAdding_lengths s [2] (1 / 2 ^ 54) (by rw [hs]; rfl) (by rw [hs, ht]; rfl)).1
    have hz' : addSamples 2 1 (1 / 2 ^ 54) = 2 := by decide +kernel
    rw [hs] at h3
    have h1 := h.1
    rw [Nat.cast_one, hz'] at h1
    match (s.processAdding [2] (1 / 2 ^ 54)).1.nSched, h3, h1 with
    | [y], _, h1 => simpa using h1

/-- A sampler with one scheduled sample meets the hypotheses. -/
example : let s : Sys Unit := (Sys.fresh Unit 1).run [.setInitial [1], .schedule]
    s.target = [1] ∧ s.nSched = [1] := by decide +kernel

/-- Non-vacuity: three levels, estimate (40, 7, 3) from (10, 10, 1) scheduled, default coefficient, the double 0.1, which is greater than 1/10.  Exact arithmetic with this coefficient would schedule 14 samples
on level 0, since 30 * 0.1 > 3; doubles round 30 * 0.1 to 3 and the first call schedules 13. -/
example :
    let s : Sys Unit := (Sys.fresh Unit 3).run [.setInitial [10, 10, 1], .schedule]
    s.target.length = s.nSched.length ∧ 1 / 2 ^ 26 ≤ Fl.double (1 / 10) ∧ Fl.double (1 / 10) ≤ 1 ∧
    (s.flProcessAdding [40, 7, 3] (Fl.double (1/10))).1.nSched = [13, 10, 2] ∧ (s.flProcessAdding [40, 7, 3] (Fl.double (1/10))).2 = false ∧
    (s.processAdding [40, 7, 3] (Fl.double (1/10))).1.nSched = [14, 10, 2] ∧
    (flAddLoop [40, 7, 3] (Fl.double (1/10)) 20 s).nSched = [40, 10, 3] := by
  decide +kernel

end MLMC
