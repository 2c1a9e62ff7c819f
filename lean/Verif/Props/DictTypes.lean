import Verif.Props.QuantityParts
/-! # C41 Which types a dictionary of quantities may have -/
namespace MLMC
variable {K : Type} [Inhabited K]

/-- Creating a quantity does not raise a `TypeError` by itself. -/
theorem mk_no_typeError (oid : Nat) (t : QType) (op : List (QVal K) → Except PyErr (QVal K)) (qs : List (Quantity K)) : Quantity.mk oid t op qs ≠ .error .typeError := by
  have hs : ∀ (qs : List (Quantity K)) (s : Option SelId), Quantity.setSelection s qs ≠ .error .typeError := by
    intro qs
    induction qs with
    | nil => intro s h; cases s <;> cases h
    | cons q qs ih =>
      intro s h
      cases s with
      | none => unfold Quantity.setSelection at h; exact ih _ h
      | some s =>
        unfold Quantity.setSelection at h
        split at h
        · cases h
        · exact ih _ h
  intro h
  unfold Quantity.mk at h
  simp only [bind, Except.bind] at h
  split at h
  · rename_i e he
    injection h with h
    subst h
    exact hs _ _ he
  · split at h <;> cases h

/-- C41: a dictionary of quantities whose first entry is made of conditions is refused with a `TypeError` exactly if another entry is made of numbers; if it is accepted, its type lists the types
of the parts under their keys.  A first entry made of numbers is compatible with everything. -/
theorem C41_dict_types (oid : Nat) (k : PartKey) (q : Quantity K) (rest : List (PartKey × Quantity K)) (hk : (((k, q) :: rest).map (·.1)).Nodup) :
    (Quantity.qDict oid ((k, q) :: rest) = .error .typeError ↔ q.qtype.baseBool = true ∧ ∃ x ∈ rest, x.2.qtype.baseBool = false) ∧
    ∀ d, Quantity.qDict oid ((k, q) :: rest) = .ok d → d.qtype = .dict ((k, q.qtype) :: rest.map fun x => (x.1, x.2.qtype)) := by
  have hp := pyDict_nodup (((k, q) :: rest).map fun x => (x.1, x.2.qtype)) (by rwa [List.map_map])
  rw [List.map_cons] at hp
  have e : QType.mkDict (((k, q) :: rest).map fun x => (x.1, x.2.qtype)) =
      if q.qtype.baseBool && !((rest.map fun x => (x.1, x.2.qtype)).all fun x => x.2.baseBool) then .error .typeError else .ok (.dict ((k, q.qtype) :: rest.map fun x => (x.1, x.2.qtype))) := by
    rw [List.map_cons]
    unfold QType.mkDict
    rw [hp]
  have hc : (q.qtype.baseBool && !((rest.map fun x => (x.1, x.2.qtype)).all fun x => x.2.baseBool)) = true ↔ q.qtype.baseBool = true ∧ ∃ x ∈ rest, x.2.qtype.baseBool = false := by
    simp
  unfold Quantity.qDict
  rw [e, ← hc]
  by_cases h : (q.qtype.baseBool && !((rest.map fun x => (x.1, x.2.qtype)).all fun x => x.2.baseBool)) = true
  · rw [if_pos h]
    exact ⟨⟨fun _ => h, fun _ => rfl⟩, fun d hd => by cases hd⟩
  · rw [if_neg h]
    refine ⟨⟨fun hx => absurd hx (mk_no_typeError _ _ _ _), fun hx => absurd hx h⟩, fun d hd => ?_⟩
    have hd' : Quantity.mk oid (.dict ((k, q.qtype) :: rest.map fun x => (x.1, x.2.qtype))) concatArr (((k, q) :: rest).map (·.2)) = .ok d := hd
    rw [(mk_ok hd').1]
    rfl

namespace ExDictTypes

def num : Quantity ℚ := .storage 1 .scalar
def cond : Quantity ℚ := .node 3 .bool false (cmpArr (Arr.processMask fun a b => decide (a < b))) [num, .const 2 .scalar [5]]

example : num.compare 3 (fun a b => decide (a < b)) (.const 2 .scalar [5]) = .ok cond := rfl

end ExDictTypes

open ExDictTypes in
/-- C41: whether a dictionary of a condition and a number is refused depends on the order of the entries: with the number first it is created, and its type claims two values. -/
theorem C41_dict_types_counterexample : Quantity.qDict 9 [(.str ['a'], cond), (.str ['b'], num)] = .error .typeError ∧
    ∃ d, Quantity.qDict 9 [(.str ['b'], num), (.str ['a'], cond)] = .ok d ∧ d.qtype.size = 2 ∧ d.qtype.baseBool = false :=
  ⟨((C41_dict_types 9 (.str ['a']) cond [(.str ['b'], num)] (by decide)).1).2 ⟨rfl, _, List.mem_singleton.2 rfl, rfl⟩, _, rfl, rfl, rfl⟩

end MLMC
