import Verif.Spec.Gmsh1
import Verif.Props.Gmsh
/-! # C95 Reading of mesh files of format 1.0 -/
namespace MLMC.Gm
variable {F : Type}

theorem foldlM_stop {α β : Type} {f : β → α → Except PyErr β} {s : β} {l : α} {x : PyErr} (h : f s l = .error x) (ls : List α) :
    (l :: ls).foldlM f s = .error x := by
  rw [List.foldlM_cons, h]; rfl

/-- `C95` fails: `read` raises for every mesh file of format 1.0, whatever it contains (the name `ftype` is only bound by a `$MeshFormat` section). -/
theorem C95_format1_counterexample (co : Codec F) (h : Lawful co) (nodes : List (ℤ × List F)) (els : List Element1) :
    readFile co (unlines (format1 co nodes els)) = .error .unboundLocal := by
  have hi : ∀ z, NoNl (showInt z) := fun z => isWord_not_nl (isWord_showInt z).2
  rw [readFile, lines_unlines]
  · have h1 : step co ({} : St F) "$NOD".toList = .ok { ({} : St F) with mode := .nodes } := by
      rw [step_section co _ rfl rfl _ (by decide) (by decide)]; rfl
    have h2 : step co ({ ({} : St F) with mode := .nodes }) (showInt (nodes.length : ℤ)) = .error .unboundLocal := by
      obtain ⟨c, s, h1, h2, h3⟩ := showInt_cons (nodes.length : ℤ)
      rw [h1, step_row co _ rfl rfl (by simp) _ _ h3 h2]
      simp [row, nodeRow, bind, Except.bind]
    simp only [format1, List.cons_append, List.nil_append, List.append_assoc]
    rw [List.foldlM_cons, h1]
    simp only [bind, Except.bind]
    rw [foldlM_stop h2]
  · intro l hl
    simp only [format1, List.mem_append, List.mem_cons, List.not_mem_nil, or_false, List.mem_map] at hl
    rcases hl with (((rfl | rfl) | ⟨e, he, rfl⟩) | rfl) | ((rfl | rfl) | ⟨e, he, rfl⟩) | rfl
    · decide
    · exact hi _
    · refine joinSp_not_nl _ ?_
      intro w hw
      simp only [List.mem_cons, List.mem_map] at hw
      rcases hw with rfl | ⟨x, -, rfl⟩
      · exact hi _
      · exact isWord_not_nl (isWord_render co h x).2
    · decide
    · decide
    · exact hi _
    · refine joinSp_not_nl _ ?_
      intro w hw
      rw [← List.map_append] at hw
      obtain ⟨x, -, rfl⟩ := List.mem_map.1 hw
      exact hi x
    · decide

theorem step_count1 (co : Codec F) (m : Mesh F) (z : ℤ) : step co (inMode m .elements1) (showInt z) = .ok (inMode m .elements1) := by
  obtain ⟨c, s, h1, h2, h3⟩ := showInt_cons z
  have hsp := split_word _ (isWord_showInt z)
  rw [h1] at hsp ⊢
  rw [step_row co _ rfl rfl (by simp [inMode]) _ _ h3 h2, hsp]
  simp [row, inMode, bind, Except.bind]

theorem step_node1 (co : Codec F) (h : Lawful co) (m : Mesh F) (e : ℤ × List F) (h3 : e.2.length = 3) :
    step co (inMode m .nodes) (node1Line co e) = .ok (inMode { m with nodes := Dict.set m.nodes e.1 e.2 } .nodes) := by
  rw [← step_node co h m e h3]
  obtain ⟨i, xs⟩ := e
  match xs, h3 with
  | [x, y, z], _ => simp [node1Line, nodeLine, joinSp]

theorem step_element1 (co : Codec F) (m : Mesh F) (e : Element1) (h1 : e.nodes ≠ []) :
    step co (inMode m .elements1) e.line =
      .ok (inMode { m with elements := Dict.set m.elements e.id (e.type, [e.physical, e.elementary], e.nodes) } .elements1) := by
  have hl : e.line = joinSp ((e.id :: e.type :: e.physical :: e.elementary :: (e.nodes.length : ℤ) :: e.nodes).map showInt) := by
    simp [Element1.line]
  have hsp : split e.line = (e.id :: e.type :: e.physical :: e.elementary :: (e.nodes.length : ℤ) :: e.nodes).map showInt := by
    rw [hl, split_joinSp]
    intro w hw
    obtain ⟨x, -, rfl⟩ := List.mem_map.1 hw
    exact isWord_showInt x
  obtain ⟨c, s, e1, e2, e3⟩ := showInt_cons e.id
  have hl' : ∃ s', e.line = c :: s' := ⟨_, by rw [hl]; simp only [List.map_cons, joinSp]; rw [e1]; rfl⟩
  obtain ⟨s', hl'⟩ := hl'
  rw [hl'] at hsp ⊢
  rw [step_row co _ rfl rfl (by simp [inMode]) _ _ e3 e2, hsp]
  have hlen : 5 < ((e.id :: e.type :: e.physical :: e.elementary :: (e.nodes.length : ℤ) :: e.nodes).map showInt).length := by
    have := List.length_pos_of_ne_nil h1
    simp; omega
  have he : elementRow (inMode m .elements1) ((e.id :: e.type :: e.physical :: e.elementary :: (e.nodes.length : ℤ) :: e.nodes).map showInt) =
      .ok (inMode { m with elements := Dict.set m.elements e.id (e.type, [e.physical, e.elementary], e.nodes) } .elements1) := by
    simp only [elementRow, parseInts_showInt]
    simp [inMode]
  simp only [row]
  simp only [inMode, reduceCtorEq, if_false, bind, Except.bind, hlen, and_self, if_true]
  exact he

theorem fold_elements1 (l : List Element1) (m : Mesh F) :
    l.foldl (fun m e => { m with elements := Dict.set m.elements e.id (e.type, [e.physical, e.elementary], e.nodes) }) m =
    { m with elements := (l.map fun e => (e.id, (e.type, [e.physical, e.elementary], e.nodes))).foldl (fun d e => Dict.set d e.1 e.2) m.elements } := by
  induction l generalizing m with
  | nil => rfl
  | cons a l ih => rw [List.foldl_cons, ih]; rfl

/-- `C95`, only for files with an additional `$MeshFormat` section in front: nodes and elements of format 1.0 are then read as written (distinct numbers,
three coordinates, at least one node of each element).  Not for files as the format defines them, see the counterexample. -/
theorem C95_format1_partial (co : Codec F) (h : Lawful co) (nodes : List (ℤ × List F)) (els : List Element1)
    (hN : (nodes.map (·.1)).Nodup) (hE : (els.map (·.id)).Nodup) (h3 : ∀ n ∈ nodes, n.2.length = 3) (h1 : ∀ e ∈ els, e.nodes ≠ []) :
    ∃ m : Mesh F, readFile co (unlines (["$MeshFormat".toList, "2.2 0 8".toList, "$EndMeshFormat".toList] ++ format1 co nodes els)) = .ok m ∧
      m.nodes = nodes ∧ m.elements = els.map (fun e => (e.id, (e.type, [e.physical, e.elementary], e.nodes))) ∧ m.physical = [] ∧ m.data = [] := by
  have hi : ∀ z, NoNl (showInt z) := fun z => isWord_not_nl (isWord_showInt z).2
  have hsec : ∀ (m : Mesh F) (mode mode' : Mode) (l : Str), strip l = l → l.head? = some '$' → section_ (inMode m mode) l = inMode m mode' → step co (inMode m mode) l = .ok (inMode m mode') := by
    intro m mode mode' l h1 h2 h3
    rw [step_section co _ rfl rfl l h1 h2, h3]
  have hr : (prelude ++ format1 co nodes els).foldlM (step co) ({} : St F) =
      .ok (inMode { nodes := nodes, elements := els.map (fun e => (e.id, (e.type, [e.physical, e.elementary], e.nodes))) } .none) := by
    rw [List.foldlM_append, read_prelude]
    simp only [bind, Except.bind]
    rw [show ({ ftype := some 0 } : St F) = inMode {} .none from rfl]
    simp only [format1, List.append_assoc]
    rw [List.foldlM_append]
    simp only [List.foldlM_cons, List.foldlM_nil, bind, Except.bind, pure, Except.pure]
    rw [hsec _ .none .nodes _ (by decide) (by decide) rfl]
    simp only []
    rw [step_count co _ _ (by simp)]
    simp only []
    rw [List.foldlM_append, fold_section co .nodes (node1Line co) _ (fun e => e.2.length = 3) (fun m e he => step_node1 co h m e he) nodes _ h3, fold_nodes]
    simp only [bind, Except.bind]
    rw [List.foldlM_append]
    simp only [List.foldlM_cons, List.foldlM_nil, bind, Except.bind, pure, Except.pure]
    rw [hsec _ .nodes .none _ (by decide) (by decide) rfl]
    simp only []
    rw [List.foldlM_append]
    simp only [List.foldlM_cons, List.foldlM_nil, bind, Except.bind, pure, Except.pure]
    rw [hsec _ .none .elements1 _ (by decide) (by decide) rfl]
    simp only []
    rw [step_count1]
    simp only []
    rw [List.foldlM_append, fold_section co .elements1 Element1.line _ (fun e => e.nodes ≠ []) (fun m e he => step_element1 co m e he) els _ h1, fold_elements1]
    simp only [bind, Except.bind, List.foldlM_cons, List.foldlM_nil, pure, Except.pure]
    rw [hsec _ .elements1 .none _ (by decide) (by decide) rfl]
    rw [setAll_new nodes [] (by simpa [Dict.keys] using hN), setAll_new _ [] (by simpa [Dict.keys, List.map_map, Function.comp_def] using hE)]
    rfl
  refine ⟨{ nodes := nodes, elements := els.map (fun e => (e.id, (e.type, [e.physical, e.elementary], e.nodes))) }, ?_, rfl, rfl, rfl, rfl⟩
  change readFile co (unlines (prelude ++ format1 co nodes els)) = _
  rw [readFile, lines_unlines, hr]
  · rfl
  · intro l hl
    simp only [prelude, format1, List.mem_append, List.mem_cons, List.not_mem_nil, or_false, List.mem_map] at hl
    rcases hl with (rfl | rfl | rfl) | (((rfl | rfl) | ⟨e, he, rfl⟩) | rfl) | ((rfl | rfl) | ⟨e, he, rfl⟩) | rfl
    · decide
    · decide
    · decide
    · decide
    · exact hi _
    · refine joinSp_not_nl _ ?_
      intro w hw
      simp only [List.mem_cons, List.mem_map] at hw
      rcases hw with rfl | ⟨x, -, rfl⟩
      · exact hi _
      · exact isWord_not_nl (isWord_render co h x).2
    · decide
    · decide
    · exact hi _
    · refine joinSp_not_nl _ ?_
      intro w hw
      rw [← List.map_append] at hw
      obtain ⟨x, -, rfl⟩ := List.mem_map.1 hw
      exact hi x
    · decide

/-- A line and a point on two nodes. -/
example : ∃ m : Mesh ℤ, readFile halfCodec (unlines (["$MeshFormat".toList, "2.2 0 8".toList, "$EndMeshFormat".toList] ++
    format1 halfCodec [(1, [0, 0, 0]), (4, [1, 0, 0])] [⟨2, 1, 7, 8, [1, 4]⟩, ⟨3, 15, 9, 9, [4]⟩])) = .ok m ∧
    m.elements = [(2, (1, [7, 8], [1, 4])), (3, (15, [9, 9], [4]))] := by
  obtain ⟨m, h1, -, h2, -⟩ := C95_format1_partial halfCodec halfCodec_lawful [(1, [0, 0, 0]), (4, [1, 0, 0])] [⟨2, 1, 7, 8, [1, 4]⟩, ⟨3, 15, 9, 9, [4]⟩]
    (by decide) (by decide) (by decide) (by decide)
  exact ⟨m, h1, h2⟩

end MLMC.Gm
