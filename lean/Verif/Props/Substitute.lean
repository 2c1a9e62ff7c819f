import Verif.Proofs.Substitute
import Mathlib.Data.List.Infix
/-
Placeholder substitution (C64).
-/
namespace MLMC.Sub

/-- **C64** (partial: names without angle brackets; values without angle brackets that are not parts of names).  However the template is cut into plain
characters and placeholders, the output has every placeholder replaced by the value of its name and every other character unchanged, and the returned names are
those that occur, in the order of the dictionary. -/
theorem C64_substitution_partial (params : Dict Str Str) (hd : (Dict.keys params).Nodup) (hN : ∀ n ∈ Dict.keys params, GoodName n)
    (hV : ∀ e ∈ params, GoodValue (Dict.keys params) e.2) (pieces : List Piece) (hc : Complete (Dict.keys params) pieces) :
    substitutePlaceholders (source pieces) params =
      (filled (fun n => (Dict.get? params n).getD []) pieces, (Dict.keys params).filter fun n => decide (Piece.ph n ∈ pieces)) := by
  obtain ⟨σ, h1, h2, -⟩ := fold_mixed (Dict.keys params) hN pieces hc params (fun _ => none) [] (by intro _ _ h; cases h)
    (fun e he => ⟨List.mem_map.2 ⟨e, he, rfl⟩, hV e he, rfl⟩) hd
  rw [mixed_source] at h1
  rw [substitutePlaceholders, h1, mixed_filled σ (fun n => (Dict.get? params n).getD [])]
  · rfl
  · intro n hn
    obtain ⟨e, he, rfl⟩ := List.mem_map.1 (complete_mem _ pieces hc n hn)
    rw [h2 e he, Dict.get?_of_mem hd (show (e.1, e.2) ∈ params from he)]
    rfl

/-- Every template can be cut into such pieces. -/
theorem C64_every_template_has_pieces (names : List Str) (hN : ∀ n ∈ names, GoodName n) (text : Str) : ∃ pieces, source pieces = text ∧ Complete names pieces :=
  pieces_exist names hN text.length text (Nat.le_refl _)

/-- **C64** A text in which no placeholder of a given name occurs is unchanged and no name is reported, whatever the names and values. -/
theorem C64_text_without_placeholders (params : Dict Str Str) (text : Str) (h : ∀ n ∈ Dict.keys params, ¬ ('<' :: (n ++ ['>'])) <:+: text) :
    substitutePlaceholders text params = (text, []) := by
  have key : ∀ (ps : List (Str × Str)), (∀ e ∈ ps, ¬ placeholder e.1 <:+: text) → ps.foldl subStep (text, []) = (text, []) := by
    intro ps
    induction ps with
    | nil => intro _; rfl
    | cons e ps ih =>
      intro hp
      have h0 : ¬ count (placeholder e.1) text > 0 := by
        rw [count, count_pos_iff _ (by simp [placeholder])]
        exact hp e (by simp)
      rw [List.foldl_cons]
      have : subStep (text, []) e = (text, []) := by simp only [subStep]; rw [if_neg h0]
      rw [this]
      exact ih (fun e' he' => hp e' (by simp [he']))
  exact key params (fun e he => h e.1 (List.mem_map.2 ⟨e, he, rfl⟩))

/-- **C64** (partial, same conditions) A name is reported if and only if its placeholder occurs in the template. -/
theorem C64_reported_names_partial (params : Dict Str Str) (hd : (Dict.keys params).Nodup) (hN : ∀ n ∈ Dict.keys params, GoodName n)
    (hV : ∀ e ∈ params, GoodValue (Dict.keys params) e.2) (text : Str) (n : Str) :
    n ∈ (substitutePlaceholders text params).2 ↔ n ∈ Dict.keys params ∧ ('<' :: (n ++ ['>'])) <:+: text := by
  obtain ⟨t, rfl, hc⟩ := C64_every_template_has_pieces (Dict.keys params) hN text
  rw [C64_substitution_partial params hd hN hV t hc, List.mem_filter]
  refine and_congr_right fun hn => ?_
  rw [decide_eq_true_iff, ← count_mixed (Dict.keys params) hN (fun _ => none) (by intro _ _ h; cases h) n hn rfl t hc, mixed_source]
  exact count_pos_iff _ (by simp [placeholder]) _

/-- The parameters `FlowSim` uses for a one-field model satisfy the conditions, and the template is filled. -/
example :
    let field := fun n : Str => "!FieldElementwise {mesh_data_file: $INPUT_DIR$/fields_sample.msh, field_name: ".toList ++ n ++ "}".toList
    let params := yamlParams field ["conductivity".toList] "/work/mesh.msh".toList "0.1".toList "0.01".toList
    (Dict.keys params).Nodup ∧ (∀ n ∈ Dict.keys params, GoodName n) ∧ (∀ e ∈ params, GoodValue (Dict.keys params) e.2) ∧
    substituteYaml "mesh: <mesh_file>\nK: <conductivity>\ndt: <dt>".toList field ["conductivity".toList] "/work/mesh.msh".toList "0.1".toList "0.01".toList =
      ("mesh: /work/mesh.msh\nK: !FieldElementwise {mesh_data_file: $INPUT_DIR$/fields_sample.msh, field_name: conductivity}\ndt: <dt>".toList,
        ["conductivity".toList, "mesh_file".toList]) := by
  unfold GoodName GoodValue
  decide +kernel

/-- **C64** fails when a value contains the placeholder of a later name: it is replaced too, and a name that does not occur in the template is reported. -/
theorem C64_counterexample_value : substitutePlaceholders "<a>".toList [("a".toList, "<b>".toList), ("b".toList, "x".toList)] = ("x".toList, ["a".toList, "b".toList]) ∧
    ¬ ("<b>".toList <:+: "<a>".toList) := by decide +kernel

/-- **C64** also fails when a value completes a placeholder in the surrounding text. -/
theorem C64_counterexample_nested : substitutePlaceholders "<<a>>".toList [("a".toList, "b".toList), ("b".toList, "x".toList)] = ("x".toList, ["a".toList, "b".toList]) ∧
    ¬ ("<b>".toList <:+: "<<a>>".toList) := by decide +kernel

end MLMC.Sub
