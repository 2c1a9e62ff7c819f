import Verif.Proofs.GmshMesh
/-
Field files (C65) and mesh files (C66).
-/
namespace MLMC.Gm
variable {F : Type}

/-- **C65** (partial: at most four components, no element listed twice, field names that survive quoting).  Writing succeeds, and reading the written file gives, for
each field and in the same order, one record with time index 0 and time 0 that assigns to each element id its row of values; nothing else is read. -/
theorem C65_fields_roundtrip_partial (co : Codec F) (h : Lawful co) (ids : List ℤ) (hids : ids.Nodup) (fields : Dict Str (List (List F))) (hd : (Dict.keys fields).Nodup)
    (hf : ∀ e ∈ fields, FieldName e.1 ∧ e.2 ≠ [] ∧ ∃ k ≤ 4, ∀ r ∈ e.2, r.length = k) :
    ∃ text, writeFields co ids fields = .ok text ∧
      readFile co text = .ok { nodes := [], elements := [], physical := [], data := fields.map fun e => (e.1, [(0, (0, ids.zip e.2))]) } := by
  have hw : ∀ (fs : List (Str × List (List F))), (∀ e ∈ fs, e.2 ≠ []) → ∃ ls, fs.mapM (fun e => elementDataLines co ids e.1 e.2) = .ok ls := by
    intro fs
    induction fs with
    | nil => intro _; exact ⟨[], rfl⟩
    | cons e fs ih =>
      intro hne
      obtain ⟨ls, hls⟩ := ih (fun e' he' => hne e' (by simp [he']))
      obtain ⟨n, v⟩ := e
      cases v with
      | nil => exact absurd rfl (hne (n, []) (by simp))
      | cons v vs =>
        rw [List.mapM_cons, hls]
        exact ⟨_, rfl⟩
  obtain ⟨ls, hls⟩ := hw fields (fun e he => (hf e he).2.1)
  refine ⟨unlines (prelude ++ ls.flatten), by simp only [writeFields, hls]; rfl, ?_⟩
  have hnl : ∀ l ∈ prelude ++ ls.flatten, NoNl l := by
    intro l hl
    rcases List.mem_append.1 hl with hl | hl
    · simp only [prelude, List.mem_cons, List.not_mem_nil, or_false] at hl
      rcases hl with rfl | rfl | rfl <;> decide
    · obtain ⟨l', h1, h2⟩ := List.mem_flatten.1 hl
      have : ∀ (fs : List (Str × List (List F))) (ls : List (List Str)), (∀ e ∈ fs, NoNl e.1) → fs.mapM (fun e => elementDataLines co ids e.1 e.2) = .ok ls →
          ∀ l' ∈ ls, ∀ l ∈ l', NoNl l := by
        intro fs
        induction fs with
        | nil => intro ls _ h; cases h; simp
        | cons e fs ih =>
          intro ls hn h
          rw [List.mapM_cons] at h
          cases h1 : elementDataLines co ids e.1 e.2 with
          | error x => rw [h1] at h; cases h
          | ok l1 =>
            cases h2 : fs.mapM (fun e => elementDataLines co ids e.1 e.2) with
            | error x => rw [h1, h2] at h; cases h
            | ok l2 =>
              rw [h1, h2] at h; cases h
              intro l' hl'
              rcases List.mem_cons.1 hl' with rfl | hl'
              · exact elementDataLines_not_nl co ‹_› ids e.1 (hn e (by simp)) e.2 _ h1
              · exact ih l2 (fun e' he' => hn e' (by simp [he'])) h2 l' hl'
      exact this fields ls (fun e he => (hf e he).1.noNl) hls l' h1 l h2
  rw [readFile, lines_unlines _ hnl, List.foldlM_append, read_prelude]
  simp only [bind, Except.bind]
  obtain ⟨cur, k, hr⟩ := read_fields co h ids hids ({} : Mesh F) fields [] ([], 0) 0 ls hd (fun e he => ⟨(hf e he).1, (hf e he).2.2⟩) hls
  have hr' : List.foldlM (step co) ({ ftype := some 0 } : St F) ls.flatten = .ok (between { data := fields.map (record ids) } cur k) := hr
  rw [hr']
  simp only []
  rw [finish_between]
  rfl

/-- **C65** fails for five and more components: a written file with such a field cannot be read, whatever the values, ids and name (reading stops with an error:
a data row with more than five columns is also read as an element). -/
theorem C65_counterexample_five_components (co : Codec F) (h : Lawful co) (hint : ∀ x, parseInt (co.render x) = none) (i : ℤ) (ids : List ℤ) (name : Str) (hn : FieldName name)
    (row0 : List F) (rows : List (List F)) (h5 : 5 ≤ row0.length) :
    ∃ text, writeFields co (i :: ids) [(name, row0 :: rows)] = .ok text ∧ readFile co text = .error .other := by
  have hl : elementDataLines co (i :: ids) name (row0 :: rows) = .ok (headLines name row0.length (row0 :: rows).length ++
      (dataLine co i row0 :: List.zipWith (dataLine co) ids rows) ++ ["$EndElementData".toList]) := rfl
  have hnl := elementDataLines_not_nl co h (i :: ids) name hn.noNl (row0 :: rows) _ hl
  refine ⟨unlines (prelude ++ (headLines name row0.length (row0 :: rows).length ++ (dataLine co i row0 :: List.zipWith (dataLine co) ids rows) ++ ["$EndElementData".toList])), ?_, ?_⟩
  · simp only [writeFields, List.mapM_cons, List.mapM_nil, hl, bind, Except.bind, pure, Except.pure, List.flatten_cons, List.flatten_nil, List.append_nil]
    rfl
  · rw [readFile, lines_unlines, List.foldlM_append, read_prelude]
    · simp only [bind, Except.bind]
      rw [List.foldlM_append, List.foldlM_append]
      have h1 := read_head co ({} : Mesh F) ([], 0) 0 name hn (by simp [Dict.keys]) row0.length (row0 :: rows).length
      have h1' : (headLines name row0.length (row0 :: rows).length).foldlM (step co) ({ ftype := some 0 } : St F) = .ok (inData {} name row0.length []) := h1
      rw [h1']
      simp only [bind, Except.bind, List.foldlM_cons]
      have h2 : step co (inData ({} : Mesh F) name row0.length []) (dataLine co i row0) = .error .other := by
        obtain ⟨c, s, e1, e2, e3⟩ := showInt_cons i
        have hsp := split_dataLine co h i row0
        have hl : dataLine co i row0 = c :: (s ++ ' ' :: joinSp (row0.map co.render)) := by rw [dataLine, e1]; rfl
        rw [hl] at hsp ⊢
        rw [step_row co _ rfl rfl (by simp [inData]) _ _ e3 e2, hsp]
        have hdr : dataRow co (inData ({} : Mesh F) name row0.length []) (showInt i :: row0.map co.render) = .ok (inData {} name row0.length (Dict.set [] i row0)) := by
          simp only [dataRow, parseInt_showInt, parseFloats_render co h]
          rw [if_neg (by simp [inData])]
          simp only [inData, upd_set]
          simp [Dict.upd]
        simp only [row]
        rw [if_pos (show (inData ({} : Mesh F) name (row0.length : ℤ) []).mode = .data from rfl), hdr]
        have hlen : 5 < (showInt i :: row0.map co.render).length := by simp; omega
        simp only [bind, Except.bind, inData, reduceCtorEq, if_false, hlen, and_true, if_true]
        have hp : parseInts (showInt i :: row0.map co.render) = none := by
          cases row0 with
          | nil => simp at h5
          | cons x xs =>
            simp only [parseInts, List.map_cons, List.mapM_cons, parseInt_showInt, hint]
            rfl
        simp only [elementRow, hp]
      rw [h2]
    · intro l hl
      rcases List.mem_append.1 hl with hl | hl
      · simp only [prelude, List.mem_cons, List.not_mem_nil, or_false] at hl
        rcases hl with rfl | rfl | rfl <;> decide
      · exact hnl l hl

/-- A codec for checking the assumptions: numbers printed as decimal texts with a fraction. -/
def halfCodec : Codec ℤ where
  render n := showInt n ++ ".5".toList
  parse s := if s.drop (s.length - 2) = ".5".toList then parseInt (s.take (s.length - 2)) else none

theorem halfCodec_lawful : Lawful halfCodec where
  parse_render x := by
    simp only [halfCodec]
    have h2 : (showInt x ++ ".5".toList).length - 2 = (showInt x).length := by simp
    rw [h2, List.drop_left, List.take_left, if_pos rfl, parseInt_showInt]
  nonempty x := by simp [halfCodec]
  word x := by
    intro c hc
    simp only [halfCodec, List.mem_append] at hc
    rcases hc with hc | hc
    · exact (isWord_showInt x).2 c hc
    · revert c; decide

/-- The hypotheses of the two theorems are met. -/
example : ∃ text, writeFields halfCodec [3, 7] [("conductivity".toList, [[1], [2]]), ("v".toList, [[1, 2, 3], [4, 5, 6]])] = .ok text ∧
    readFile halfCodec text = .ok { nodes := [], elements := [], physical := [], data := [("conductivity".toList, [(0, (0, [(3, [1]), (7, [2])]))]), ("v".toList, [(0, (0, [(3, [1, 2, 3]), (7, [4, 5, 6])]))])] } := by
  refine C65_fields_roundtrip_partial halfCodec halfCodec_lawful [3, 7] (by decide) _ (by decide) ?_
  intro e he
  simp only [List.mem_cons, List.not_mem_nil, or_false] at he
  rcases he with rfl | rfl
  · exact ⟨⟨by decide, by decide, by decide⟩, by simp, 1, by decide, by simp⟩
  · exact ⟨⟨by decide, by decide, by decide⟩, by simp, 3, by decide, by simp⟩

theorem halfCodec_not_int (x : ℤ) : parseInt (halfCodec.render x) = none := by
  have hall : ∀ s : Str, parseNat (s ++ ".5".toList) = none := by
    intro s
    rw [parseNat, if_neg (by simp), if_neg]
    rw [List.all_eq_true]
    intro h
    have := h '.' (by simp)
    revert this; decide
  simp only [halfCodec]
  cases hx : showInt x with
  | nil => exact absurd hx (isWord_showInt x).1
  | cons c s =>
    rw [List.cons_append]
    have h1 := hall s
    have h2 := hall (c :: s)
    unfold parseInt
    split
    · rename_i heq; cases heq; rw [h1]; rfl
    · rename_i heq; cases heq; rw [h1]; rfl
    · rename_i heq _ ; rw [← List.cons_append, h2]; rfl

example : ∃ text, writeFields halfCodec [1] [("t".toList, [[1, 0, 0, 1, 2]])] = .ok text ∧ readFile halfCodec text = .error .other :=
  C65_counterexample_five_components halfCodec halfCodec_lawful halfCodec_not_int 1 [] _ ⟨by decide, by decide, by decide⟩ _ [] (by decide)

/-- **C65** fails when an element is listed twice: only its last row is read back. -/
theorem C65_counterexample_repeated_element : ∃ text m, writeFields halfCodec [3, 3] [("k".toList, [[1], [2]])] = .ok text ∧ readFile halfCodec text = .ok m ∧
    Dict.get? m.data "k".toList = some [(0, (0, [(3, [2])]))] := by
  refine ⟨_, _, rfl, rfl, ?_⟩
  decide +kernel

/-- **C65** fails for names with a carriage return: the file is written, and reading it raises (text mode reads a carriage return as the end of a line). -/
theorem C65_counterexample_carriage_return : ∃ text, writeFields halfCodec [3] [("a\rb".toList, [[1]])] = .ok text ∧ readFile halfCodec text = .error .valueError := by
  exact ⟨_, rfl, rfl⟩

/-- **C66** (partial: three coordinates per node, at least three tags and nodes per element, physical names without white space).  Reading a written mesh gives the same
coordinates for every node id, the same type, tags and nodes for every element id, and the physical groups under their names in quotes; nothing else is read. -/
theorem C66_mesh_roundtrip_partial (co : Codec F) (h : Lawful co) (m : Mesh F) (hP : (Dict.keys m.physical).Nodup) (hN : (Dict.keys m.nodes).Nodup)
    (hE : (Dict.keys m.elements).Nodup) (hp : ∀ e ∈ m.physical, ∀ c ∈ e.1, isSp c = false) (hn : ∀ e ∈ m.nodes, e.2.length = 3)
    (he : ∀ e ∈ m.elements, 3 ≤ e.2.2.1.length + e.2.2.2.length) :
    ∃ m' : Mesh F, readFile co (writeAscii co m) = .ok m' ∧ (∀ i, Dict.get? m'.nodes i = Dict.get? m.nodes i) ∧
      (∀ i, Dict.get? m'.elements i = Dict.get? m.elements i) ∧ (∀ n, Dict.get? m'.physical ('"' :: (n ++ ['"'])) = Dict.get? m.physical n) ∧
      (∀ q ∈ Dict.keys m'.physical, ∃ n, q = '"' :: (n ++ ['"'])) ∧ m'.data = [] := by
  obtain ⟨m', h1, h2, h3, h4, h5⟩ := read_mesh co h m hP hN hE hp hn he
  have e1 : Dict.keys (m.physical.map fun e => (quoted e.1, e.2)) = (Dict.keys m.physical).map quoted := by simp [Dict.keys]
  have hq : (Dict.keys (m.physical.map fun e => (quoted e.1, e.2))).Nodup := by
    rw [e1]
    exact hP.map fun _ _ => quoted_inj
  refine ⟨m', h1, fun i => (get?_perm h2.symm hN i).symm, fun i => (get?_perm h3.symm hE i).symm, ?_, ?_, h5⟩
  · intro n
    rw [← get?_perm h4.symm hq]
    have : ∀ (d : Dict Str (ℤ × ℤ)), Dict.get? (d.map fun e => (quoted e.1, e.2)) (quoted n) = Dict.get? d n := by
      intro d
      induction d with
      | nil => rfl
      | cons e d ih =>
        obtain ⟨k, v⟩ := e
        by_cases hk : k = n
        · simp [Dict.get?, hk]
        · simp only [List.map_cons, Dict.get?, hk, if_false, if_neg (fun e => hk (quoted_inj e))]
          exact ih
    exact this m.physical
  · intro q hq'
    have : q ∈ Dict.keys (m.physical.map fun e => (quoted e.1, e.2)) := (h4.map (fun e : Str × (ℤ × ℤ) => e.1)).mem_iff.1 hq'
    rw [e1] at this
    obtain ⟨n, -, rfl⟩ := List.mem_map.1 this
    exact ⟨n, rfl⟩

theorem strLe_total : ∀ a b : Str, (strLe a b || strLe b a) = true
  | [], _ => by simp [strLe]
  | _ :: _, [] => by simp [strLe]
  | a :: s, b :: t => by
    simp only [strLe]
    by_cases h : a = b
    · subst h; simpa using strLe_total s t
    · simp only [h, Ne.symm h, if_false]
      simpa using UInt32.le_total a.val b.val

theorem strLe_antisymm : ∀ a b : Str, strLe a b = true → strLe b a = true → a = b
  | [], [], _, _ => rfl
  | [], _ :: _, _, h => by simp [strLe] at h
  | _ :: _, [], h, _ => by simp [strLe] at h
  | a :: s, b :: t, h1, h2 => by
    simp only [strLe] at h1 h2
    by_cases h : a = b
    · subst h
      rw [if_pos rfl] at h1 h2
      rw [strLe_antisymm s t h1 h2]
    · rw [if_neg h, decide_eq_true_eq] at h1
      rw [if_neg (Ne.symm h), decide_eq_true_eq] at h2
      exact absurd (Char.ext (UInt32.le_antisymm h1 h2)) h

theorem strLe_trans : ∀ a b c : Str, strLe a b = true → strLe b c = true → strLe a c = true
  | [], _, _, _, _ => by simp [strLe]
  | _ :: _, [], _, h, _ => by simp [strLe] at h
  | _ :: _, _ :: _, [], _, h => by simp [strLe] at h
  | a :: s, b :: t, c :: u, h1, h2 => by
    simp only [strLe] at h1 h2 ⊢
    by_cases hab : a = b
    · subst hab
      rw [if_pos rfl] at h1
      by_cases hac : a = c
      · subst hac
        rw [if_pos rfl] at h2 ⊢
        exact strLe_trans s t u h1 h2
      · rw [if_neg hac] at h2 ⊢
        exact h2
    · rw [if_neg hab, decide_eq_true_eq] at h1
      by_cases hbc : b = c
      · subst hbc
        rw [if_neg hab, decide_eq_true_eq]
        exact h1
      · rw [if_neg hbc, decide_eq_true_eq] at h2
        have hac : a ≠ c := by
          rintro rfl
          exact hab (Char.ext (UInt32.le_antisymm h1 h2))
        rw [if_neg hac, decide_eq_true_eq]
        exact UInt32.le_trans h1 h2

/-- The comparison is the lexicographic order by character codes. -/
theorem strLe_iff : ∀ a b : Str, strLe a b = true ↔ a ≤ b
  | [], b => by simp [strLe]
  | _ :: _, [] => by simp [strLe]
  | a :: s, b :: t => by
    rw [List.cons_le_cons_iff]
    simp only [strLe]
    by_cases h : a = b
    · subst h; simpa using strLe_iff s t
    · rw [if_neg h, decide_eq_true_eq]
      constructor
      · intro h1; exact .inl (Char.lt_def.2 (UInt32.lt_of_le_of_ne h1 fun e => h (Char.ext e)))
      · rintro (h1 | h1)
        · exact UInt32.le_of_lt (Char.lt_def.1 h1)
        · exact absurd h1.1 h

theorem sort_unique {α κ : Type} (le : κ → κ → Bool) (key : α → κ) (htot : ∀ a b, (le a b || le b a) = true) (hanti : ∀ a b, le a b = true → le b a = true → a = b)
    (htr : ∀ a b c, le a b = true → le b c = true → le a c = true) {xs ys : List α} (hp : xs.Perm ys) (hn : (xs.map key).Nodup) :
    xs.mergeSort (fun a b => le (key a) (key b)) = ys.mergeSort fun a b => le (key a) (key b) := by
  have hinj : ∀ a ∈ xs, ∀ b ∈ xs, key a = key b → a = b := fun a ha b hb h => List.inj_on_of_nodup_map hn ha hb h
  refine List.Perm.eq_of_pairwise (le := fun a b => le (key a) (key b) = true) ?_ (List.pairwise_mergeSort (fun a b c => htr (key a) (key b) (key c)) (fun a b => htot (key a) (key b)) xs)
    (List.pairwise_mergeSort (fun a b c => htr (key a) (key b) (key c)) (fun a b => htot (key a) (key b)) ys) ((List.mergeSort_perm xs _).trans (hp.trans (List.mergeSort_perm ys _).symm))
  intro a b ha hb h1 h2
  exact hinj a (List.mem_mergeSort.1 ha) b (hp.mem_iff.2 (List.mem_mergeSort.1 hb)) (hanti _ _ h1 h2)

/-- **C66**: the written text depends on the mesh only, not on the order in which its nodes, elements and physical groups were added. -/
theorem C66_same_text (co : Codec F) (m m' : Mesh F) (hP : (Dict.keys m.physical).Nodup) (hN : (Dict.keys m.nodes).Nodup) (hE : (Dict.keys m.elements).Nodup)
    (h1 : m'.physical.Perm m.physical) (h2 : m'.nodes.Perm m.nodes) (h3 : m'.elements.Perm m.elements) : writeAscii co m' = writeAscii co m := by
  have hint : ∀ {α : Type} {d d' : Dict ℤ α}, (Dict.keys d).Nodup → d'.Perm d → sortedItems d' = sortedItems d := by
    intro α d d' hd hp
    exact (sort_unique (fun a b : ℤ => decide (a ≤ b)) (fun e : ℤ × α => e.1) (fun a b => by simpa using le_total a b) (fun a b h1 h2 => by simp at h1 h2; omega)
      (fun a b c h1 h2 => by simp at *; omega) hp.symm hd).symm
  have hs := (sort_unique strLe (fun e : Str × (ℤ × ℤ) => e.1) strLe_total strLe_antisymm strLe_trans h1.symm hP).symm
  unfold writeAscii
  rw [hs, hint hN h2, hint hE h3, h1.length_eq, h2.length_eq, h3.length_eq]

/-- **C66**: nodes and elements are listed by increasing number, and the physical groups by name. -/
theorem C66_listed_in_order (co : Codec F) (m : Mesh F) : ∃ (P : Dict Str (ℤ × ℤ)) (N : Dict ℤ (List F)) (E : Dict ℤ (ℤ × List ℤ × List ℤ)),
    P.Perm m.physical ∧ N.Perm m.nodes ∧ E.Perm m.elements ∧ P.Pairwise (fun a b => a.1 ≤ b.1) ∧ N.Pairwise (fun a b => a.1 ≤ b.1) ∧ E.Pairwise (fun a b => a.1 ≤ b.1) ∧
    writeAscii co m = unlines (["$MeshFormat".toList, "2.2 0 8".toList, "$EndMeshFormat".toList, "$PhysicalNames".toList, showInt P.length] ++ P.map physicalLine ++
      ["$EndPhysicalNames".toList, "$Nodes".toList, showInt N.length] ++ N.map (nodeLine co) ++ ["$EndNodes".toList, "$Elements".toList, showInt E.length] ++
      E.map elementLine ++ ["$EndElements".toList]) := by
  have hint : ∀ {α : Type} (d : Dict ℤ α), (sortedItems d).Pairwise fun a b => a.1 ≤ b.1 := by
    intro α d
    have := List.pairwise_mergeSort (le := fun a b : ℤ × α => decide (a.1 ≤ b.1)) (fun a b c h1 h2 => by simp at *; omega) (fun a b => by simpa using le_total a.1 b.1) d
    exact this.imp fun h => by simpa using h
  refine ⟨_, _, _, List.mergeSort_perm m.physical fun a b => strLe a.1 b.1, List.mergeSort_perm _ _, List.mergeSort_perm _ _,
    (List.pairwise_mergeSort (fun a b c => strLe_trans a.1 b.1 c.1) (fun a b => strLe_total a.1 b.1) m.physical).imp fun h => (strLe_iff _ _).1 h, hint m.nodes, hint m.elements, ?_⟩
  simp only [List.length_mergeSort]
  rfl

/-- A triangle and a boundary line. -/
def sampleMesh : Mesh ℤ where
  nodes := [(1, [0, 0, 0]), (2, [1, 0, 0]), (10, [0, 1, 0])]
  elements := [(7, (2, [1, 5], [1, 2, 10])), (3, (1, [2, 5], [1, 2]))]
  physical := [("plane".toList, (1, 2)), (".bc_outflow".toList, (2, 1))]

example : ∃ m' : Mesh ℤ, readFile halfCodec (writeAscii halfCodec sampleMesh) = .ok m' ∧ Dict.get? m'.elements 3 = some (1, [2, 5], [1, 2]) ∧
    Dict.get? m'.nodes 10 = some [0, 1, 0] ∧ Dict.get? m'.physical "\".bc_outflow\"".toList = some (2, 1) := by
  obtain ⟨m', h1, h2, h3, h4, -, -⟩ := C66_mesh_roundtrip_partial halfCodec halfCodec_lawful sampleMesh (by decide) (by decide) (by decide) (by decide) (by decide) (by decide)
  exact ⟨m', h1, by rw [h3]; decide, by rw [h2]; decide, (h4 ".bc_outflow".toList).trans (by decide)⟩

/-- **C66** fails for the physical names: they come back with their quotes, so no name of the written mesh is found. -/
theorem C66_counterexample_quotes : ∃ m' : Mesh ℤ, readFile halfCodec (writeAscii halfCodec sampleMesh) = .ok m' ∧ Dict.get? sampleMesh.physical "plane".toList = some (1, 2) ∧
    Dict.get? m'.physical "plane".toList = none := by
  obtain ⟨m', h1, -, -, -, h5, -⟩ := C66_mesh_roundtrip_partial halfCodec halfCodec_lawful sampleMesh (by decide) (by decide) (by decide) (by decide) (by decide) (by decide)
  refine ⟨m', h1, by decide, (Dict.get?_eq_none_iff _ _).2 fun hm => ?_⟩
  obtain ⟨n, hn⟩ := h5 _ hm
  have := congrArg List.head? hn
  revert this
  simp

/-- **C66** A physical name with a space is lost. -/
theorem C66_counterexample_space : ∃ m' : Mesh ℤ, readFile halfCodec (writeAscii halfCodec { physical := [("outer wall".toList, (1, 2))] }) = .ok m' ∧ m'.physical = [] := by
  simp only [writeAscii, sortedItems, List.mergeSort_singleton, List.mergeSort_nil]
  refine ⟨_, rfl, ?_⟩
  decide +kernel

/-- **C66** A point element with one tag is lost, and so is a line without tags. -/
theorem C66_counterexample_short_element : (∃ m' : Mesh ℤ, readFile halfCodec (writeAscii halfCodec { elements := [(1, (15, [4], [1]))] }) = .ok m' ∧ m'.elements = []) ∧
    ∃ m' : Mesh ℤ, readFile halfCodec (writeAscii halfCodec { elements := [(2, (1, [], [1, 2]))] }) = .ok m' ∧ m'.elements = [] := by
  simp only [writeAscii, sortedItems, List.mergeSort_singleton, List.mergeSort_nil]
  refine ⟨⟨_, rfl, ?_⟩, ⟨_, rfl, ?_⟩⟩ <;> decide +kernel

/-- A text with each line feed replaced by `e`. -/
def withEnds (e t : Str) : Str := t.flatMap fun c => if c = '\n' then e else [c]

theorem textMode_dos : ∀ t : Str, '\r' ∉ t → textMode false (withEnds ['\r', '\n'] t) = textMode false t
  | [], _ => rfl
  | c :: t, h => by
    have ht := textMode_dos t fun hh => h (List.mem_cons_of_mem _ hh)
    have hc : c ≠ '\r' := fun e => h (e ▸ List.mem_cons_self)
    have he : withEnds ['\r', '\n'] (c :: t) = (if c = '\n' then ['\r', '\n'] else [c]) ++ withEnds ['\r', '\n'] t := rfl
    rw [he]
    by_cases hn : c = '\n'
    · subst hn
      simpa [textMode] using ht
    · simpa [textMode, hn, hc] using ht

theorem textMode_mac : ∀ (t : Str) (cr : Bool), '\r' ∉ t → textMode cr (withEnds ['\r'] t) = textMode false t
  | [], _, _ => rfl
  | c :: t, cr, h => by
    have ht := fun b => textMode_mac t b fun hh => h (List.mem_cons_of_mem _ hh)
    have hc : c ≠ '\r' := fun e => h (e ▸ List.mem_cons_self)
    have he : withEnds ['\r'] (c :: t) = (if c = '\n' then ['\r'] else [c]) ++ withEnds ['\r'] t := rfl
    rw [he]
    by_cases hn : c = '\n'
    · subst hn
      simpa [textMode] using ht true
    · simpa [textMode, hn, hc] using ht false

/-- C66, line ends: a mesh file means the same, or fails in the same way, with the line ends of Windows or of old Macs. -/
theorem C66_line_ends (co : Codec F) (t : Str) (h : '\r' ∉ t) :
    readFile co (withEnds ['\r', '\n'] t) = readFile co t ∧ readFile co (withEnds ['\r'] t) = readFile co t := by
  unfold readFile lines
  rw [textMode_dos t h, textMode_mac t false h]
  exact ⟨rfl, rfl⟩

example : '\r' ∉ "$MeshFormat\n2.2 0 8\n$EndMeshFormat\n$PhysicalNames\n1\n2 7 \"plane\"\n$EndPhysicalNames\n".toList ∧
    (readFile halfCodec "$MeshFormat\r\n2.2 0 8\r\n$EndMeshFormat\r\n$PhysicalNames\r\n1\r\n2 7 \"plane\"\r\n$EndPhysicalNames\r\n".toList).toOption.map (·.physical) = some [("\"plane\"".toList, (7, 2))] := by
  decide +kernel

end MLMC.Gm
