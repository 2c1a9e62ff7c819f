import Verif.Proofs.Sampler
import Mathlib.Algebra.Order.BigOperators.Group.List
import Mathlib.Tactic.Positivity
/-! Helper lemmas about `process_adding_samples`. -/
namespace MLMC
variable {V : Type}

theorem addSamples_ge (e : ℚ) (s : Nat) (c : ℚ) (hc : 0 < c) : (s : ℤ) ≤ addSamples e s c := by
  unfold addSamples
  have h : ((s : ℤ) : ℚ) ≤ (if e < s then (s : ℚ) else if e * c > e - s then e else s + (e - s) * c) := by
    push_cast
    split
    · exact le_refl _
    · rename_i h; push Not at h
      split
      · exact h
      · have : 0 ≤ (e - s) * c := mul_nonneg (by linarith) hc.le
        linarith
  have := h.trans (Int.le_ceil _)
  exact_mod_cast this

theorem addSamples_le (e : ℚ) (s : Nat) (c : ℚ) (hc : c ≤ 1) (h : (s : ℚ) ≤ e) : addSamples e s c ≤ ⌈e⌉ := by
  unfold addSamples
  apply Int.ceil_mono
  split
  · linarith
  · split
    · exact le_refl _
    · nlinarith

theorem addSamples_gt (e : ℚ) (s : Nat) (c : ℚ) (hc : 0 < c) (h : (s : ℚ) < e) : (s : ℤ) < addSamples e s c := by
  unfold addSamples
  rw [Int.lt_ceil]
  push_cast
  split
  · linarith
  · split
    · exact h
    · have : 0 < (e - s) * c := mul_pos (by linarith) hc
      linarith

theorem addSamples_above (e : ℚ) (s : Nat) (c : ℚ) (h : e ≤ s) : addSamples e s c = s := by
  unfold addSamples
  have : (if e < s then (s : ℚ) else if e * c > e - s then e else s + (e - s) * c) = s := by
    split
    · rfl
    · have : e = s := by linarith
      split <;> simp [this]
  simp only [this]; simp

theorem mem_greaterItems {est : List ℚ} {n : List ℤ} {i : Nat} :
    i ∈ greaterItems est n ↔ ∃ e k, est[i]? = some e ∧ n[i]? = some k ∧ (k : ℚ) < e := by
  simp only [greaterItems, List.mem_filter, List.mem_range]
  constructor
  · rintro ⟨_, h⟩
    cases he : est[i]? with
    | none => simp [he] at h
    | some e =>
      cases hk : n[i]? with
      | none => simp [he, hk] at h
      | some k => simp [he, hk] at h; exact ⟨e, k, rfl, rfl, h⟩
  · rintro ⟨e, k, he, hk, h⟩
    have h1 : i < est.length := by
      rcases Nat.lt_or_ge i est.length with h | h
      · exact h
      · rw [List.getElem?_eq_none h] at he; simp at he
    have h2 : i < n.length := by
      rcases Nat.lt_or_ge i n.length with h | h
      · exact h
      · rw [List.getElem?_eq_none h] at hk; simp at hk
    exact ⟨by omega, by simp [he, hk, h]⟩

theorem addResult_iff (est : List ℚ) (n : List ℤ) :
    addResult est n = true ↔ ∀ (i : Nat) (e : ℚ) (k : ℤ), est[i]? = some e → n[i]? = some k → e ≤ k := by
  unfold addResult
  rw [List.all_eq_true]
  constructor
  · intro h i e k he hk
    by_contra hlt
    push Not at hlt
    have hm : i ∈ greaterItems est n := mem_greaterItems.2 ⟨e, k, he, hk, hlt⟩
    have := h i hm
    simp [he, hk] at this
    linarith
  · intro h i hi
    obtain ⟨e, k, he, hk, hlt⟩ := mem_greaterItems.1 hi
    have := h i e k he hk
    linarith

theorem setLevelTarget_get (ts v : List ℚ) (hv : v.length = ts.length) (l : Nat) (t r : ℚ) (ht : ts[l]? = some t)
    (hr : v[l]? = some r) : (setLevelTarget ts v)[l]? = some (max t r) := by
  induction ts generalizing v l with
  | nil => simp at ht
  | cons a ts ih =>
    cases v with
    | nil => simp at hv
    | cons b v =>
      cases l with
      | zero => simp at ht hr; subst ht; subst hr; simp [setLevelTarget]
      | succ l =>
        simp at ht hr hv
        simpa [setLevelTarget] using ih v hv l ht hr

theorem setLevelTarget_length (ts v : List ℚ) (hv : v.length = ts.length) :
    (setLevelTarget ts v).length = ts.length := by
  induction ts generalizing v with
  | nil => simp [setLevelTarget]
  | cons a ts ih =>
    cases v with
    | nil => simp at hv
    | cons b v => simp at hv; simp [setLevelTarget, ih v hv]

/-- Closed form of one call: counts per level. -/
theorem processAdding_get (s : Sys V) (est : List ℚ) (c : ℚ) (he : est.length = s.nSched.length)
    (ht : s.target.length = s.nSched.length) (l : Nat) (e t : ℚ) (k : Nat)
    (hel : est[l]? = some e) (htl : s.target[l]? = some t) (hkl : s.nSched[l]? = some k) :
    (s.processAdding est c).1.nSched[l]? = some (max k ⌊max t (addSamples e k c)⌋.toNat) ∧
    (s.processAdding est c).1.target[l]? = some (max t (addSamples e k c)) := by
  simp only [Sys.processAdding, he, if_true]
  have hlen : ((addSamplesVec est s.nSched c).map (fun z : ℤ => (z : ℚ))).length = s.target.length := by
    simp [addSamplesVec, he, ht]
  have hvl : ((addSamplesVec est s.nSched c).map (fun z : ℤ => (z : ℚ)))[l]? = some ((addSamples e k c : ℤ) : ℚ) := by
    simp [addSamplesVec, List.getElem?_map, List.getElem?_zipWith, hel, hkl]
  have htgt := setLevelTarget_get s.target _ hlen l t _ htl hvl
  have hcl := schedule_closed
    { s with target := setLevelTarget s.target ((addSamplesVec est s.nSched c).map (fun z : ℤ => (z : ℚ))) }
    (Or.inl (by simp only; rw [setLevelTarget_length _ _ hlen, ht]))
  obtain ⟨h1, _, _, _, h5, _, _⟩ := hcl
  constructor
  · rw [h5 l]
    have hp := plan_get
      { s with target := setLevelTarget s.target ((addSamplesVec est s.nSched c).map (fun z : ℤ => (z : ℚ))) } l
    simp only [htgt, hkl] at hp
    rw [hp]
    simp only [hkl, Option.map_some, Option.getD_some, add_planCount]
  · rw [h1]; exact htgt

theorem processAdding_lengths (s : Sys V) (est : List ℚ) (c : ℚ) (he : est.length = s.nSched.length)
    (ht : s.target.length = s.nSched.length) :
    (s.processAdding est c).1.nSched.length = s.nSched.length ∧
    (s.processAdding est c).1.target.length = s.nSched.length := by
  simp only [Sys.processAdding, he, if_true]
  have hlen : ((addSamplesVec est s.nSched c).map (fun z : ℤ => (z : ℚ))).length = s.target.length := by
    simp [addSamplesVec, he, ht]
  have hcl := schedule_closed
    { s with target := setLevelTarget s.target ((addSamplesVec est s.nSched c).map (fun z : ℤ => (z : ℚ))) }
    (Or.inl (by simp only; rw [setLevelTarget_length _ _ hlen, ht]))
  obtain ⟨h1, _, h3, _⟩ := hcl
  exact ⟨h3, by rw [h1]; simp only; rw [setLevelTarget_length _ _ hlen, ht]⟩

/-- What remains to be scheduled on a level. -/
def missing (e : ℚ) (k : Nat) : Nat := (⌈e⌉ - k).toNat

def missingSum (est : List ℚ) (ns : List Nat) : Nat := (List.zipWith missing est ns).sum

theorem missingSum_le : ∀ (est : List ℚ) (ns ns' : List Nat), ns.length = est.length → ns'.length = est.length →
    (∀ (l : Nat) (e : ℚ) (k k' : Nat), est[l]? = some e → ns[l]? = some k → ns'[l]? = some k' →
      missing e k' ≤ missing e k) → missingSum est ns' ≤ missingSum est ns
  | [], ns, ns', _, _, _ => by simp [missingSum]
  | e :: est, n :: ns, n' :: ns', h1, h2, h => by
      have h0 := h 0 e n n' rfl rfl rfl
      have := missingSum_le est ns ns' (by simpa using h1) (by simpa using h2)
        (fun l e k k' a b c => h (l + 1) e k k' (by simpa using a) (by simpa using b) (by simpa using c))
      simp only [missingSum, List.zipWith_cons_cons, List.sum_cons] at *
      omega
  | _ :: _, [], _, h1, _, _ => by simp at h1
  | _ :: _, _ :: _, [], _, h2, _ => by simp at h2

theorem missingSum_lt : ∀ (est : List ℚ) (ns ns' : List Nat), ns.length = est.length → ns'.length = est.length →
    (∀ (l : Nat) (e : ℚ) (k k' : Nat), est[l]? = some e → ns[l]? = some k → ns'[l]? = some k' →
      missing e k' ≤ missing e k) →
    (∃ (l : Nat) (e : ℚ) (k k' : Nat), est[l]? = some e ∧ ns[l]? = some k ∧ ns'[l]? = some k' ∧
      missing e k' < missing e k) → missingSum est ns' < missingSum est ns
  | [], ns, ns', _, _, _, ⟨l, e, k, k', h, _⟩ => by simp at h
  | e :: est, n :: ns, n' :: ns', h1, h2, h, ⟨l, e1, k, k', a, b, c, d⟩ => by
      have h0 := h 0 e n n' rfl rfl rfl
      have hle := missingSum_le est ns ns' (by simpa using h1) (by simpa using h2)
        (fun l e k k' a b c => h (l + 1) e k k' (by simpa using a) (by simpa using b) (by simpa using c))
      cases l with
      | zero =>
        simp only [List.getElem?_cons_zero, Option.some.injEq] at a b c
        subst a; subst b; subst c
        simp only [missingSum, List.zipWith_cons_cons, List.sum_cons] at *
        omega
      | succ l =>
        have := missingSum_lt est ns ns' (by simpa using h1) (by simpa using h2)
          (fun l e k k' a b c => h (l + 1) e k k' (by simpa using a) (by simpa using b) (by simpa using c))
          ⟨l, e1, k, k', by simpa using a, by simpa using b, by simpa using c, d⟩
        simp only [missingSum, List.zipWith_cons_cons, List.sum_cons] at *
        omega
  | _ :: _, [], _, h1, _, _, _ => by simp at h1
  | _ :: _, _ :: _, [], _, h2, _, _ => by simp at h2

end MLMC
