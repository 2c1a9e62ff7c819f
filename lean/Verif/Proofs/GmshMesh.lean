import Verif.Proofs.GmshRead
/-! Helper lemmas: reading written meshes. -/
namespace MLMC.Gm
variable {F : Type}

/-- A state inside a section. -/
def inMode (m : Mesh F) (mode : Mode) : St F := { mesh := m, mode := mode, ftype := some 0, head := none, cur := ([], 0), nComp := 0, stopped := false }

/-- The line with the number of items in a section is ignored. -/
theorem step_count (co : Codec F) (m : Mesh F) (mode : Mode) (hm : mode = .physical ∨ mode = .nodes ∨ mode = .elements) (z : ℤ) :
    step co (inMode m mode) (showInt z) = .ok (inMode m mode) := by
  obtain ⟨c, s, h1, h2, h3⟩ := showInt_cons z
  have hsp := split_word _ (isWord_showInt z)
  rw [h1] at hsp ⊢
  rw [step_row co _ rfl rfl (by rcases hm with rfl | rfl | rfl <;> simp [inMode]) _ _ h3 h2, hsp]
  rcases hm with rfl | rfl | rfl
  · simp [row, inMode, physicalRow, bind, Except.bind]
  · simp [row, inMode, nodeRow, bind, Except.bind]
  · simp [row, inMode, bind, Except.bind]

theorem step_physical (co : Codec F) (m : Mesh F) (e : Str × (ℤ × ℤ)) (hn : ∀ c ∈ e.1, isSp c = false) :
    step co (inMode m .physical) (physicalLine e) = .ok (inMode { m with physical := Dict.set m.physical ('"' :: (e.1 ++ ['"'])) e.2 } .physical) := by
  obtain ⟨name, i, d⟩ := e
  have hw : IsWord ('"' :: (name ++ ['"'])) := by
    refine ⟨by simp, ?_⟩
    intro c hc
    simp only [List.mem_cons, List.mem_append, List.not_mem_nil, or_false] at hc
    rcases hc with rfl | hc | rfl
    · decide
    · exact hn c hc
    · decide
  have hsp : split (physicalLine (name, i, d)) = [showInt d, showInt i, '"' :: (name ++ ['"'])] := by
    simp only [physicalLine]
    rw [split_word_sp _ _ (isWord_showInt d)]
    rw [show showInt i ++ " \"".toList ++ name ++ ['"'] = showInt i ++ ' ' :: ('"' :: (name ++ ['"'])) from by simp]
    rw [split_word_sp _ _ (isWord_showInt i), split_word _ hw]
  obtain ⟨c, s, h1, h2, h3⟩ := showInt_cons d
  have hl : ∃ s', physicalLine (name, i, d) = c :: s' := ⟨_, by simp only [physicalLine]; rw [h1]; rfl⟩
  obtain ⟨s', hl⟩ := hl
  rw [hl] at hsp ⊢
  rw [step_row co _ rfl rfl (by simp [inMode]) _ _ h3 h2, hsp]
  simp [row, inMode, physicalRow, parseInt_showInt, bind, Except.bind]

theorem step_node (co : Codec F) (h : Lawful co) (m : Mesh F) (e : ℤ × List F) (h3 : e.2.length = 3) :
    step co (inMode m .nodes) (nodeLine co e) = .ok (inMode { m with nodes := Dict.set m.nodes e.1 e.2 } .nodes) := by
  obtain ⟨i, xs⟩ := e
  have hsp := split_dataLine co h i xs
  obtain ⟨c, s, h1, h2, h4⟩ := showInt_cons i
  change step co _ (dataLine co i xs) = _
  have hl : dataLine co i xs = c :: (s ++ ' ' :: joinSp (xs.map co.render)) := by rw [dataLine, h1]; rfl
  rw [hl] at hsp ⊢
  rw [step_row co _ rfl rfl (by simp [inMode]) _ _ h4 h2, hsp]
  match xs, h3 with
  | [x, y, z], _ =>
    have hp := parseFloats_render co h [x, y, z]
    simp only [List.map_cons, List.map_nil] at hp
    simp [row, inMode, nodeRow, parseInt_showInt, bind, Except.bind, hp]

theorem step_element (co : Codec F) (m : Mesh F) (e : ℤ × (ℤ × List ℤ × List ℤ)) (h3 : 3 ≤ e.2.2.1.length + e.2.2.2.length) :
    step co (inMode m .elements) (elementLine e) = .ok (inMode { m with elements := Dict.set m.elements e.1 e.2 } .elements) := by
  obtain ⟨i, ty, tags, nodes⟩ := e
  have hw : ∀ (zs : List ℤ), ∀ w ∈ zs.map showInt, IsWord w := by
    intro zs w hw
    obtain ⟨x, -, rfl⟩ := List.mem_map.1 hw
    exact isWord_showInt x
  have hsp : split (elementLine (i, ty, tags, nodes)) = (i :: ty :: (tags.length : ℤ) :: (tags ++ nodes)).map showInt := by
    simp only [elementLine]
    rw [split_word_sp _ _ (isWord_showInt i), split_word_sp _ _ (isWord_showInt ty), split_word_sp _ _ (isWord_showInt _), split_joinSp_sp _ _ (hw tags), split_joinSp _ (hw nodes)]
    simp
  obtain ⟨c, s, h1, h2, h4⟩ := showInt_cons i
  have hl : ∃ s', elementLine (i, ty, tags, nodes) = c :: s' := ⟨_, by simp only [elementLine]; rw [h1]; rfl⟩
  obtain ⟨s', hl⟩ := hl
  rw [hl] at hsp ⊢
  rw [step_row co _ rfl rfl (by simp [inMode]) _ _ h4 h2, hsp]
  have hlen : 5 < ((i :: ty :: (tags.length : ℤ) :: (tags ++ nodes)).map showInt).length := by
    simp at h3 ⊢; omega
  have he : elementRow (inMode m .elements) ((i :: ty :: (tags.length : ℤ) :: (tags ++ nodes)).map showInt) =
      .ok (inMode { m with elements := Dict.set m.elements i (ty, tags, nodes) } .elements) := by
    simp only [elementRow, parseInts_showInt]
    simp [inMode]
  simp only [row]
  simp only [inMode, reduceCtorEq, if_false, bind, Except.bind, hlen, and_self, if_true]
  exact he

theorem fold_section {α : Type} (co : Codec F) (mode : Mode) (line : α → Str) (add : Mesh F → α → Mesh F)
    (P : α → Prop) (hstep : ∀ m a, P a → step co (inMode m mode) (line a) = .ok (inMode (add m a) mode)) : ∀ (l : List α) (m : Mesh F), (∀ a ∈ l, P a) →
    (l.map line).foldlM (step co) (inMode m mode) = .ok (inMode (l.foldl add m) mode)
  | [], _, _ => rfl
  | a :: l, m, h => by
    rw [List.map_cons, List.foldlM_cons, hstep m a (h a (by simp))]
    simp only [bind, Except.bind]
    rw [fold_section co mode line add P hstep l _ (fun b hb => h b (by simp [hb]))]
    rfl

theorem fold_physical (l : List (Str × (ℤ × ℤ))) (m : Mesh F) : l.foldl (fun m e => { m with physical := Dict.set m.physical ('"' :: (e.1 ++ ['"'])) e.2 }) m =
    { m with physical := (l.map fun e => ('"' :: (e.1 ++ ['"']), e.2)).foldl (fun d e => Dict.set d e.1 e.2) m.physical } := by
  induction l generalizing m with
  | nil => rfl
  | cons a l ih => rw [List.foldl_cons, ih]; rfl

theorem fold_nodes (l : List (ℤ × List F)) (m : Mesh F) : l.foldl (fun m e => { m with nodes := Dict.set m.nodes e.1 e.2 }) m =
    { m with nodes := l.foldl (fun d e => Dict.set d e.1 e.2) m.nodes } := by
  induction l generalizing m with
  | nil => rfl
  | cons a l ih => rw [List.foldl_cons, ih]; rfl

theorem fold_elements (l : List (ℤ × (ℤ × List ℤ × List ℤ))) (m : Mesh F) : l.foldl (fun m e => { m with elements := Dict.set m.elements e.1 e.2 }) m =
    { m with elements := l.foldl (fun d e => Dict.set d e.1 e.2) m.elements } := by
  induction l generalizing m with
  | nil => rfl
  | cons a l ih => rw [List.foldl_cons, ih]; rfl

theorem get?_perm {κ α : Type} [DecidableEq κ] {d d' : Dict κ α} (hp : d.Perm d') (hn : (Dict.keys d).Nodup) (k : κ) : Dict.get? d k = Dict.get? d' k := by
  have hn' : (Dict.keys d').Nodup := (hp.map (fun e : κ × α => e.1)).nodup_iff.1 hn
  cases h : Dict.get? d k with
  | some v => exact (Dict.get?_of_mem hn' (hp.mem_iff.1 (Dict.mem_of_get? h))).symm
  | none =>
    rw [Dict.get?_eq_none_iff] at h
    symm
    rw [Dict.get?_eq_none_iff]
    intro hm
    exact h ((hp.map (fun e : κ × α => e.1)).mem_iff.2 hm)

/-- The name with its quotes. -/
def quoted (n : Str) : Str := '"' :: (n ++ ['"'])

theorem quoted_inj {a b : Str} (h : quoted a = quoted b) : a = b := by
  simp only [quoted, List.cons.injEq, true_and] at h
  exact List.append_cancel_right h

/-- The lines of a mesh file. -/
def meshLines (co : Codec F) (ph : List (Str × (ℤ × ℤ))) (nd : List (ℤ × List F)) (el : List (ℤ × (ℤ × List ℤ × List ℤ))) (a b c : ℤ) : List Str :=
  prelude ++ (["$PhysicalNames".toList, showInt a] ++ (ph.map physicalLine ++ (["$EndPhysicalNames".toList, "$Nodes".toList, showInt b] ++
    (nd.map (nodeLine co) ++ (["$EndNodes".toList, "$Elements".toList, showInt c] ++ (el.map elementLine ++ ["$EndElements".toList]))))))

theorem meshLines_not_nl (co : Codec F) (h : Lawful co) (ph : List (Str × (ℤ × ℤ))) (nd : List (ℤ × List F)) (el : List (ℤ × (ℤ × List ℤ × List ℤ))) (a b c : ℤ)
    (hp : ∀ e ∈ ph, ∀ c ∈ e.1, isSp c = false) : ∀ l ∈ meshLines co ph nd el a b c, NoNl l := by
  have hi : ∀ z, NoNl (showInt z) := fun z => isWord_not_nl (isWord_showInt z).2
  have hj : ∀ zs : List ℤ, NoNl (joinSp (zs.map showInt)) := by
    intro zs
    refine joinSp_not_nl _ ?_
    intro w hw
    obtain ⟨x, -, rfl⟩ := List.mem_map.1 hw
    exact hi x
  have hf : ∀ xs : List F, NoNl (joinSp (xs.map co.render)) := by
    intro zs
    refine joinSp_not_nl _ ?_
    intro w hw
    obtain ⟨x, -, rfl⟩ := List.mem_map.1 hw
    exact isWord_not_nl (isWord_render co h x).2
  intro l hl
  simp only [meshLines, prelude, List.mem_append, List.mem_cons, List.not_mem_nil, or_false, List.mem_map] at hl
  rcases hl with (rfl | rfl | rfl) | (rfl | rfl) | ⟨e, he, rfl⟩ | (rfl | rfl | rfl) | ⟨e, he, rfl⟩ | (rfl | rfl | rfl) | ⟨e, he, rfl⟩ | rfl
  · decide
  · decide
  · decide
  · decide
  · exact hi _
  · have : NoNl e.1 := isWord_not_nl (hp e he)
    have hq : NoNl " \"".toList := by decide
    simp only [physicalLine, NoNl.append_iff, NoNl.cons_iff]
    exact ⟨hi _, by decide, ⟨⟨hi _, hq⟩, this⟩, by decide, by simp [NoNl]⟩
  · decide
  · decide
  · exact hi _
  · simp only [nodeLine, NoNl.append_iff, NoNl.cons_iff]; exact ⟨hi _, by decide, hf _⟩
  · decide
  · decide
  · exact hi _
  · simp only [elementLine, NoNl.append_iff, NoNl.cons_iff]
    exact ⟨hi _, by decide, hi _, by decide, hi _, by decide, hj _, by decide, hj _⟩
  · decide

theorem read_meshLines (co : Codec F) (h : Lawful co) (ph : List (Str × (ℤ × ℤ))) (nd : List (ℤ × List F)) (el : List (ℤ × (ℤ × List ℤ × List ℤ))) (a b c : ℤ)
    (hp : ∀ e ∈ ph, ∀ c ∈ e.1, isSp c = false) (hn : ∀ e ∈ nd, e.2.length = 3) (he : ∀ e ∈ el, 3 ≤ e.2.2.1.length + e.2.2.2.length) :
    (meshLines co ph nd el a b c).foldlM (step co) ({} : St F) = .ok (inMode
      { nodes := nd.foldl (fun d e => Dict.set d e.1 e.2) [], elements := el.foldl (fun d e => Dict.set d e.1 e.2) [], physical := (ph.map fun e => (quoted e.1, e.2)).foldl (fun d e => Dict.set d e.1 e.2) [], data := [] } .none) := by
  have hsec : ∀ (m : Mesh F) (mode mode' : Mode) (l : Str), strip l = l → l.head? = some '$' → section_ (inMode m mode) l = inMode m mode' → step co (inMode m mode) l = .ok (inMode m mode') := by
    intro m mode mode' l h1 h2 h3
    rw [step_section co _ rfl rfl l h1 h2, h3]
  rw [meshLines, List.foldlM_append, read_prelude]
  simp only [bind, Except.bind]
  rw [show ({ ftype := some 0 } : St F) = inMode {} .none from rfl]
  rw [List.foldlM_append]
  simp only [List.foldlM_cons, List.foldlM_nil, bind, Except.bind, pure, Except.pure]
  rw [hsec _ .none .physical _ (by decide) (by decide) rfl]
  simp only []
  rw [step_count co _ _ (by simp)]
  simp only []
  rw [List.foldlM_append, fold_section co .physical physicalLine _ (fun e => ∀ c ∈ e.1, isSp c = false) (fun m e he => step_physical co m e he) ph _ hp, fold_physical]
  simp only [bind, Except.bind]
  rw [List.foldlM_append]
  simp only [List.foldlM_cons, List.foldlM_nil, bind, Except.bind, pure, Except.pure]
  rw [hsec _ .physical .none _ (by decide) (by decide) rfl]
  simp only []
  rw [hsec _ .none .nodes _ (by decide) (by decide) rfl]
  simp only []
  rw [step_count co _ _ (by simp)]
  simp only []
  rw [List.foldlM_append, fold_section co .nodes (nodeLine co) _ (fun e => e.2.length = 3) (fun m e he => step_node co h m e he) nd _ hn, fold_nodes]
  simp only [bind, Except.bind]
  rw [List.foldlM_append]
  simp only [List.foldlM_cons, List.foldlM_nil, bind, Except.bind, pure, Except.pure]
  rw [hsec _ .nodes .none _ (by decide) (by decide) rfl]
  simp only []
  rw [hsec _ .none .elements _ (by decide) (by decide) rfl]
  simp only []
  rw [step_count co _ _ (by simp)]
  simp only []
  rw [List.foldlM_append, fold_section co .elements elementLine _ (fun e => 3 ≤ e.2.2.1.length + e.2.2.2.length) (fun m e he => step_element co m e he) el _ he, fold_elements]
  simp only [bind, Except.bind, List.foldlM_cons, List.foldlM_nil, pure, Except.pure]
  rw [hsec _ .elements .none _ (by decide) (by decide) rfl]
  rfl

/-- Reading a written mesh. -/
theorem read_mesh (co : Codec F) (h : Lawful co) (m : Mesh F) (hP : (Dict.keys m.physical).Nodup) (hN : (Dict.keys m.nodes).Nodup) (hE : (Dict.keys m.elements).Nodup)
    (hp : ∀ e ∈ m.physical, ∀ c ∈ e.1, isSp c = false) (hn : ∀ e ∈ m.nodes, e.2.length = 3) (he : ∀ e ∈ m.elements, 3 ≤ e.2.2.1.length + e.2.2.2.length) :
    ∃ m' : Mesh F, readFile co (writeAscii co m) = .ok m' ∧ m'.nodes.Perm m.nodes ∧ m'.elements.Perm m.elements ∧ m'.physical.Perm (m.physical.map fun e => (quoted e.1, e.2)) ∧ m'.data = [] := by
  have pP : (m.physical.mergeSort fun a b => strLe a.1 b.1).Perm m.physical := List.mergeSort_perm _ _
  have pN : (sortedItems m.nodes).Perm m.nodes := List.mergeSort_perm _ _
  have pE : (sortedItems m.elements).Perm m.elements := List.mergeSort_perm _ _
  have hw : writeAscii co m = unlines (meshLines co (m.physical.mergeSort fun a b => strLe a.1 b.1) (sortedItems m.nodes) (sortedItems m.elements) m.physical.length m.nodes.length m.elements.length) := by
    simp [writeAscii, meshLines, prelude]
  generalize (m.physical.mergeSort fun a b => strLe a.1 b.1) = ph at pP hw
  generalize sortedItems m.nodes = nd at pN hw
  generalize sortedItems m.elements = el at pE hw
  have nodup : ∀ {κ α : Type} [DecidableEq κ] {d d' : Dict κ α}, d.Perm d' → (Dict.keys d').Nodup → d.foldl (fun d e => Dict.set d e.1 e.2) [] = d := by
    intro κ α _ d d' hp hd
    rw [setAll_new d [] (by rw [List.nil_append]; exact (hp.map (fun e : κ × α => e.1)).nodup_iff.2 hd), List.nil_append]
  rw [hw, readFile, lines_unlines _ (meshLines_not_nl co h ph nd el _ _ _ (fun e h' => hp e (pP.mem_iff.1 h'))),
    read_meshLines co h ph nd el _ _ _ (fun e h' => hp e (pP.mem_iff.1 h')) (fun e h' => hn e (pN.mem_iff.1 h')) (fun e h' => he e (pE.mem_iff.1 h'))]
  have hq : (Dict.keys (m.physical.map fun e => (quoted e.1, e.2))).Nodup := by
    have e1 : Dict.keys (m.physical.map fun e => (quoted e.1, e.2)) = (Dict.keys m.physical).map quoted := by simp [Dict.keys]
    rw [e1]
    exact hP.map fun _ _ => quoted_inj
  rw [nodup pN hN, nodup pE hE, nodup (pP.map fun e => (quoted e.1, e.2)) hq]
  exact ⟨_, rfl, pN, pE, pP.map _, rfl⟩

end MLMC.Gm
