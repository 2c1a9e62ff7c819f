import Verif.Model.Dict
/-! Helper lemmas about dictionaries. -/
namespace MLMC.Dict
variable {κ α : Type} [DecidableEq κ]

@[simp] theorem get?_nil (k : κ) : get? ([] : Dict κ α) k = none := rfl

theorem get?_upd_self (d : Dict κ α) (k : κ) (dflt : α) (f : α → α) :
    get? (upd d k dflt f) k = some (f ((get? d k).getD dflt)) := by
  induction d with
  | nil => simp [upd, get?]
  | cons p t ih =>
    obtain ⟨k', v⟩ := p
    by_cases h : k' = k
    · simp [upd, get?, h]
    · simp [upd, get?, h, ih]

theorem get?_upd_ne (d : Dict κ α) {k j : κ} (dflt : α) (f : α → α) (h : j ≠ k) :
    get? (upd d k dflt f) j = get? d j := by
  induction d with
  | nil => simp [upd, get?, Ne.symm h]
  | cons p t ih =>
    obtain ⟨k', v⟩ := p
    by_cases hk : k' = k
    · subst hk; simp [upd, get?, Ne.symm h]
    · simp [upd, get?, hk, ih]

theorem get?_set_self (d : Dict κ α) (k : κ) (v : α) : get? (set d k v) k = some v := by
  simp [set, get?_upd_self]

theorem get?_set_ne (d : Dict κ α) {k j : κ} (v : α) (h : j ≠ k) : get? (set d k v) j = get? d j := by
  simp [set, get?_upd_ne _ _ _ h]

theorem get?_isSome_iff (d : Dict κ α) (k : κ) : (get? d k).isSome ↔ k ∈ keys d := by
  induction d with
  | nil => simp [keys]
  | cons p t ih =>
    obtain ⟨k', v⟩ := p
    by_cases h : k' = k
    · simp [get?, keys, h]
    · have h' : k ≠ k' := fun e => h e.symm
      simp only [get?, h, if_false, ih, keys, List.map_cons, List.mem_cons, h', false_or]

theorem get?_eq_none_iff (d : Dict κ α) (k : κ) : get? d k = none ↔ k ∉ keys d := by
  rw [← get?_isSome_iff]; cases get? d k <;> simp

theorem keys_upd (d : Dict κ α) (k : κ) (dflt : α) (f : α → α) :
    keys (upd d k dflt f) = if k ∈ keys d then keys d else keys d ++ [k] := by
  induction d with
  | nil => simp [upd, keys]
  | cons p t ih =>
    obtain ⟨k', v⟩ := p
    by_cases h : k' = k
    · simp [upd, keys, h]
    · have h' : k ≠ k' := fun e => h e.symm
      simp only [keys] at ih
      simp only [upd, h, if_false, keys, List.map_cons, List.mem_cons, h', false_or, ih]
      split <;> simp [*]

theorem nodup_keys_upd (d : Dict κ α) (k : κ) (dflt : α) (f : α → α) (h : (keys d).Nodup) :
    (keys (upd d k dflt f)).Nodup := by
  rw [keys_upd]
  split
  · exact h
  · rename_i hk
    rw [List.nodup_append]
    exact ⟨h, by simp, by intro a ha b hb; simp at hb; subst hb; intro e; subst e; exact hk ha⟩

theorem mem_keys_upd (d : Dict κ α) (k j : κ) (dflt : α) (f : α → α) :
    j ∈ keys (upd d k dflt f) ↔ j = k ∨ j ∈ keys d := by
  rw [keys_upd]; split
  · constructor
    · exact Or.inr
    · rintro (rfl | h) <;> assumption
  · simp [or_comm]

theorem mem_of_get? {d : Dict κ α} {k : κ} {v : α} (h : get? d k = some v) : (k, v) ∈ d := by
  induction d with
  | nil => simp at h
  | cons p t ih =>
    obtain ⟨k', w⟩ := p
    by_cases hk : k' = k
    · simp [get?, hk] at h; subst h; subst hk; simp
    · simp [get?, hk] at h; exact List.mem_cons_of_mem _ (ih h)

theorem get?_of_mem {d : Dict κ α} {k : κ} {v : α} (hn : (keys d).Nodup) (h : (k, v) ∈ d) :
    get? d k = some v := by
  induction d with
  | nil => simp at h
  | cons p t ih =>
    obtain ⟨k', w⟩ := p
    simp only [keys, List.map_cons, List.nodup_cons] at hn
    rcases List.mem_cons.1 h with e | h'
    · cases e; simp [get?]
    · have : k ∈ List.map (·.1) t := List.mem_map.2 ⟨_, h', rfl⟩
      have hk : k' ≠ k := fun e => hn.1 (e ▸ this)
      simp [get?, hk, ih hn.2 h']

end MLMC.Dict
