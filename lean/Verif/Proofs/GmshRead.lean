import Verif.Proofs.Gmsh
/-! Helper lemmas: reading the lines of written files. -/
namespace MLMC.Gm
variable {F : Type}

theorem step_section (co : Codec F) (s : St F) (hs : s.stopped = false) (hh : s.head = none) (l : Str) (h1 : strip l = l) (h2 : l.head? = some '$') :
    step co s l = .ok (section_ s l) := by
  simp only [step, hs, hh, h1, h2]
  simp

theorem step_row (co : Codec F) (s : St F) (hs : s.stopped = false) (hh : s.head = none) (hm : s.mode ≠ .none) (c : Char) (l : Str) (hc : isSp c = false) (h2 : c ≠ '$') :
    step co s (c :: l) = row co s (split (c :: l)) := by
  obtain ⟨l', h3, h4⟩ := strip_cons c l hc
  have h5 : strip (c :: l) ≠ [] := by rw [h3]; simp
  have h6 : (strip (c :: l)).head? ≠ some '$' := by rw [h3]; simpa using h2
  simp only [step, hs, hh, h4]
  rw [if_neg (by simp), if_neg h6, if_neg hm]
  simp only [h5, if_false]
  cases row co s (split (c :: l)) <;> rfl

theorem step_skip (co : Codec F) (s : St F) (hs : s.stopped = false) (hh : s.head = none) (hm : s.mode = .none) (c : Char) (l : Str) (hc : isSp c = false) (h2 : c ≠ '$') :
    step co s (c :: l) = .ok s := by
  obtain ⟨l', h3, h4⟩ := strip_cons c l hc
  have h5 : strip (c :: l) ≠ [] := by rw [h3]; simp
  have h6 : (strip (c :: l)).head? ≠ some '$' := by rw [h3]; simpa using h2
  simp only [step, hs, hh]
  rw [if_neg (by simp), if_neg h6, if_pos hm]
  simp only [h5, if_false]
  rfl

/-- The format section. -/
def prelude : List Str := ["$MeshFormat".toList, "2.2 0 8".toList, "$EndMeshFormat".toList]

theorem read_prelude (co : Codec F) : prelude.foldlM (step co) ({} : St F) = .ok { ({} : St F) with ftype := some 0 } := by
  have h1 : step co ({} : St F) "$MeshFormat".toList = .ok { ({} : St F) with mode := .format } := by
    rw [step_section co _ rfl rfl _ (by decide) (by decide)]
    rfl
  have h2 : step co { ({} : St F) with mode := .format } "2.2 0 8".toList = .ok { ({} : St F) with mode := .format, ftype := some 0 } := by
    rw [show "2.2 0 8".toList = '2' :: ".2 0 8".toList from rfl, step_row co _ rfl rfl (by simp) _ _ (by decide) (by decide)]
    rw [show split ('2' :: ".2 0 8".toList) = ["2.2".toList, "0".toList, "8".toList] from by decide]
    simp only [row, formatRow, show parseInt "0".toList = some 0 from by decide, show parseInt "8".toList = some 8 from by decide]
    rfl
  have h3 : step co { ({} : St F) with mode := .format, ftype := some 0 } "$EndMeshFormat".toList = .ok { ({} : St F) with ftype := some 0 } := by
    rw [step_section co _ rfl rfl _ (by decide) (by decide)]
    rfl
  simp only [prelude, List.foldlM_cons, List.foldlM_nil, h1, h2, h3, bind, Except.bind, pure, Except.pure]

theorem parseFloats_render (co : Codec F) (h : Lawful co) (xs : List F) : parseFloats co (xs.map co.render) = some xs := by
  induction xs with
  | nil => rfl
  | cons x xs ih =>
    simp only [parseFloats] at ih ⊢
    rw [List.map_cons, List.mapM_cons, h.parse_render x, ih]
    rfl

theorem parseInts_showInt (zs : List ℤ) : parseInts (zs.map showInt) = some zs := by
  induction zs with
  | nil => rfl
  | cons x xs ih =>
    simp only [parseInts] at ih ⊢
    rw [List.map_cons, List.mapM_cons, parseInt_showInt x, ih]
    rfl

theorem isWord_render (co : Codec F) (h : Lawful co) (x : F) : IsWord (co.render x) := ⟨h.nonempty x, h.word x⟩

/-- A line of element data. -/
def dataLine (co : Codec F) (i : ℤ) (r : List F) : Str := showInt i ++ ' ' :: joinSp (r.map co.render)

theorem split_dataLine (co : Codec F) (h : Lawful co) (i : ℤ) (r : List F) : split (dataLine co i r) = showInt i :: r.map co.render := by
  rw [dataLine, split_word_sp _ _ (isWord_showInt i), split_joinSp]
  intro w hw
  obtain ⟨x, -, rfl⟩ := List.mem_map.1 hw
  exact isWord_render co h x

/-- The state while the data of a field are read: `name` and the values so far. -/
def inData (m : Mesh F) (name : Str) (k : ℤ) (d : Dict ℤ (List F)) : St F :=
  { mesh := { m with data := Dict.set m.data name [(0, (0, d))] }, mode := .data, ftype := some 0, head := none, cur := (name, 0), nComp := k, stopped := false }

theorem upd_set {κ α : Type} [DecidableEq κ] (d : Dict κ α) (k : κ) (v dflt : α) (f : α → α) : Dict.upd (Dict.set d k v) k dflt f = Dict.set d k (f v) := by
  induction d with
  | nil => simp [Dict.set, Dict.upd]
  | cons p d ih =>
    obtain ⟨k', w⟩ := p
    by_cases h : k' = k
    · simp [Dict.set, Dict.upd, h]
    · simp only [Dict.set, Dict.upd, h, if_false, List.cons.injEq, true_and] at ih ⊢
      exact ih

theorem step_dataLine (co : Codec F) (h : Lawful co) (m : Mesh F) (name : Str) (k : Nat) (hk : k ≤ 4) (d : Dict ℤ (List F)) (i : ℤ) (r : List F) (hr : r.length = k) :
    step co (inData m name k d) (dataLine co i r) = .ok (inData m name k (Dict.set d i r)) := by
  obtain ⟨c, s, h1, h2, h3⟩ := showInt_cons i
  have hsp := split_dataLine co h i r
  have hl : dataLine co i r = c :: (s ++ ' ' :: joinSp (r.map co.render)) := by rw [dataLine, h1]; rfl
  rw [hl] at hsp ⊢
  rw [step_row co _ rfl rfl (by simp [inData]) _ _ h3 h2, hsp]
  have hdr : dataRow co (inData m name k d) (showInt i :: r.map co.render) = .ok (inData m name k (Dict.set d i r)) := by
    simp only [dataRow, parseInt_showInt, parseFloats_render co h]
    rw [if_neg (by simp [inData, hr])]
    simp only [inData, upd_set]
    simp [Dict.upd]
  simp only [row]
  rw [if_pos (show (inData m name (k : ℤ) d).mode = .data from rfl), hdr]
  have hl : ¬ 5 < (showInt i :: r.map co.render).length := by simp; omega
  simp only [bind, Except.bind, inData, reduceCtorEq, if_false, hl, and_false, false_and, zero_ne_one]

theorem fold_dataLines (co : Codec F) (h : Lawful co) (m : Mesh F) (name : Str) (k : Nat) (hk : k ≤ 4) : ∀ (ids : List ℤ) (rows : List (List F)) (d : Dict ℤ (List F)),
    (∀ r ∈ rows, r.length = k) → (List.zipWith (dataLine co) ids rows).foldlM (step co) (inData m name k d) =
      .ok (inData m name k ((ids.zip rows).foldl (fun d e => Dict.set d e.1 e.2) d))
  | [], _, d, _ => rfl
  | _ :: _, [], d, _ => rfl
  | i :: ids, r :: rows, d, hr => by
    rw [List.zipWith_cons_cons, List.foldlM_cons, step_dataLine co h m name k hk d i r (hr r (by simp))]
    simp only [bind, Except.bind]
    rw [fold_dataLines co h m name k hk ids rows _ (fun r' h' => hr r' (by simp [h']))]
    rfl

/-- A state between sections. -/
def between (m : Mesh F) (cur : Str × ℤ) (k : ℤ) : St F := { mesh := m, mode := .none, ftype := some 0, head := none, cur := cur, nComp := k, stopped := false }

theorem headInt_showInt (z : ℤ) : headInt (showInt z) = .ok z := by
  simp only [headInt, split_word _ (isWord_showInt z), parseInt_showInt]

/-- The header of the data of a field. -/
def headLines (name : Str) (k n : ℤ) : List Str :=
  ["$ElementData".toList, "1".toList, '"' :: (name ++ ['"']), "1".toList, "0".toList, "3".toList, "0".toList, showInt k, showInt n]

/-- A state while a header is read. -/
def inHead (m : Mesh F) (cur : Str × ℤ) (k : ℤ) (acc : List Str) : St F := { mesh := m, mode := .none, ftype := some 0, head := some acc, cur := cur, nComp := k, stopped := false }

theorem read_head (co : Codec F) (m : Mesh F) (cur : Str × ℤ) (k0 : ℤ) (name : Str) (hn : FieldName name) (hnew : name ∉ Dict.keys m.data) (k n : ℤ) :
    (headLines name k n).foldlM (step co) (between m cur k0) = .ok (inData m name k []) := by
  have h1 : step co (between m cur k0) "$ElementData".toList = .ok (inHead m cur k0 []) := by
    rw [step_section co _ rfl rfl _ (by decide) (by decide)]
    rfl
  have hacc : ∀ (acc : List Str) (l : Str), acc.length ≠ 7 → step co (inHead m cur k0 acc) l = .ok (inHead m cur k0 (acc ++ [l])) := by
    intro acc l ha
    simp [step, inHead, ha]
  have hlast : ∀ (acc : List Str) (l : Str), acc.length = 7 → step co (inHead m cur k0 acc) l = startData (inHead m cur k0 acc) (acc ++ [l]) := by
    intro acc l ha
    simp [step, inHead, ha]
  simp only [headLines, List.foldlM_cons, List.foldlM_nil, h1, bind, Except.bind]
  rw [hacc _ _ (by decide)]; simp only []
  rw [hacc _ _ (by simp)]; simp only []
  rw [hacc _ _ (by simp)]; simp only []
  rw [hacc _ _ (by simp)]; simp only []
  rw [hacc _ _ (by simp)]; simp only []
  rw [hacc _ _ (by simp)]; simp only []
  rw [hacc _ _ (by simp)]; simp only []
  rw [hlast _ _ (by simp)]
  have hf : stripBy (fun c => decide (c = '"')) (strip ('"' :: (name ++ ['"']))) = name := by
    rw [strip_quoted]
    refine stripBy_quoted '"' _ (by decide) name ?_ ?_
    · intro c hc
      by_contra h'
      simp at h'
      exact hn.start (by rw [hc, h'])
    · intro c hc
      by_contra h'
      simp at h'
      exact hn.stop (by rw [hc, h'])
  have e1 : headInt "1".toList = .ok 1 := by decide
  have e0 : headInt "0".toList = .ok 0 := by decide
  have e3 : headInt "3".toList = .ok 3 := by decide
  simp only [List.nil_append, List.cons_append, startData, e1, e0, e3, headInt_showInt, bind, Except.bind, ne_eq, not_true_eq_false, if_false]
  simp only [hf]
  have hg : Dict.get? (inHead m cur k0 ([] : List Str)).mesh.data name = none := (Dict.get?_eq_none_iff _ _).2 hnew
  simp only [inHead] at hg ⊢
  simp only [hg, Option.getD_none]
  rw [if_neg (by simp [Dict.keys])]
  rfl

/-- The lines of one field. -/
def fieldLines (co : Codec F) (ids : List ℤ) (name : Str) (k : Nat) (values : List (List F)) : List Str :=
  headLines name k values.length ++ List.zipWith (dataLine co) ids values ++ ["$EndElementData".toList]

theorem read_field (co : Codec F) (h : Lawful co) (m : Mesh F) (cur : Str × ℤ) (k0 : ℤ) (ids : List ℤ) (name : Str) (hn : FieldName name) (hnew : name ∉ Dict.keys m.data)
    (k : Nat) (hk : k ≤ 4) (values : List (List F)) (hv : ∀ r ∈ values, r.length = k) :
    (fieldLines co ids name k values).foldlM (step co) (between m cur k0) =
      .ok (between { m with data := Dict.set m.data name [(0, (0, (ids.zip values).foldl (fun d e => Dict.set d e.1 e.2) []))] } (name, 0) k) := by
  rw [fieldLines, List.foldlM_append, List.foldlM_append, read_head co m cur k0 name hn hnew]
  simp only [bind, Except.bind]
  rw [fold_dataLines co h m name k hk ids values [] hv]
  simp only [List.foldlM_cons, List.foldlM_nil, bind, Except.bind]
  rw [step_section co _ rfl rfl _ (by decide) (by decide)]
  rfl

theorem set_new {κ α : Type} [DecidableEq κ] : ∀ (d : Dict κ α) (k : κ) (v : α), k ∉ Dict.keys d → Dict.set d k v = d ++ [(k, v)]
  | [], _, _, _ => by simp [Dict.set, Dict.upd]
  | (k', w) :: d, k, v, h => by
    simp only [Dict.keys, List.map_cons, List.mem_cons, not_or] at h
    have ih := set_new d k v h.2
    simp only [Dict.set] at ih ⊢
    simp only [Dict.upd, if_neg (Ne.symm h.1), List.cons_append, ih]

theorem setAll_new {κ α : Type} [DecidableEq κ] : ∀ (l d : Dict κ α), (Dict.keys (d ++ l)).Nodup → l.foldl (fun d e => Dict.set d e.1 e.2) d = d ++ l
  | [], d, _ => by simp
  | (k, v) :: l, d, h => by
    have hk : k ∉ Dict.keys d := by
      intro hm
      simp only [Dict.keys, List.map_append, List.map_cons, List.nodup_append] at h
      exact h.2.2 k hm k (by simp) rfl
    rw [List.foldl_cons]
    simp only []
    rw [set_new d k v hk, setAll_new l (d ++ [(k, v)]) (by simpa using h)]
    simp

theorem zip_keys_sublist {κ α : Type} : ∀ (l : List κ) (r : List α), (Dict.keys (l.zip r)).Sublist l
  | [], _ => by simp [Dict.keys]
  | _ :: _, [] => by simp [Dict.keys]
  | a :: l, b :: r => by
    have := zip_keys_sublist l r
    simp only [Dict.keys] at this ⊢
    simpa using this.cons_cons a

/-- What is read for a field. -/
def record (ids : List ℤ) (e : Str × List (List F)) : Str × Dict ℤ (ℤ × Dict ℤ (List F)) := (e.1, [(0, (0, ids.zip e.2))])

theorem read_fields (co : Codec F) (h : Lawful co) (ids : List ℤ) (hids : ids.Nodup) (m : Mesh F) : ∀ (fields : List (Str × List (List F))) (done : List (Str × List (List F)))
    (cur : Str × ℤ) (k0 : ℤ) (ls : List (List Str)), ((done ++ fields).map (·.1)).Nodup →
    (∀ e ∈ fields, FieldName e.1 ∧ ∃ k ≤ 4, ∀ r ∈ e.2, r.length = k) →
    fields.mapM (fun e => elementDataLines co ids e.1 e.2) = .ok ls →
    ∃ cur' k', ls.flatten.foldlM (step co) (between { m with data := done.map (record ids) } cur k0) = .ok (between { m with data := (done ++ fields).map (record ids) } cur' k')
  | [], done, cur, k0, ls, _, _, hl => by
    cases hl
    exact ⟨cur, k0, by simp; rfl⟩
  | (name, values) :: fields, done, cur, k0, ls, hd, hf, hl => by
    obtain ⟨hn, k, hk, hr⟩ := hf (name, values) (by simp)
    rw [List.mapM_cons] at hl
    simp only [] at hl hr hn
    cases values with
    | nil => simp [elementDataLines, bind, Except.bind] at hl
    | cons v values =>
      have hv : v.length = k := hr v (by simp)
      have he : elementDataLines co ids name (v :: values) = .ok (fieldLines co ids name k (v :: values)) := by
        simp only [elementDataLines, fieldLines, headLines, ← hv]
        rfl
      rw [he] at hl
      cases hl' : fields.mapM (fun e => elementDataLines co ids e.1 e.2) with
      | error e => rw [hl'] at hl; cases hl
      | ok ls' =>
        rw [hl'] at hl
        cases hl
        have hnew : name ∉ Dict.keys (done.map (record ids)) := by
          intro hm
          simp only [Dict.keys, List.map_map] at hm
          simp only [List.map_append, List.map_cons, List.nodup_append] at hd
          refine hd.2.2 name ?_ name (by simp) rfl
          obtain ⟨e, he, e1⟩ := List.mem_map.1 hm
          exact List.mem_map.2 ⟨e, he, e1⟩
        have h1 := read_field co h { m with data := done.map (record ids) } cur k0 ids name hn hnew k hk (v :: values) hr
        have hz : (ids.zip (v :: values)).foldl (fun d e => Dict.set d e.1 e.2) [] = ids.zip (v :: values) := by
          rw [setAll_new]
          · simp
          · rw [List.nil_append]
            refine hids.sublist ?_
            exact zip_keys_sublist ids (v :: values)
        rw [hz, set_new _ _ _ hnew] at h1
        obtain ⟨cur', k', h2⟩ := read_fields co h ids hids m fields (done ++ [(name, v :: values)]) (name, 0) k ls' (by simpa using hd) (fun e he => hf e (by simp [he])) hl'
        refine ⟨cur', k', ?_⟩
        rw [List.flatten_cons, List.foldlM_append, h1]
        simp only [bind, Except.bind]
        simp only [List.map_append, List.map_cons, List.map_nil, record] at h2 ⊢
        rw [h2]
        simp

theorem elementDataLines_not_nl (co : Codec F) (h : Lawful co) (ids : List ℤ) (name : Str) (hn : NoNl name) (values : List (List F)) (ls : List Str)
    (hl : elementDataLines co ids name values = .ok ls) : ∀ l ∈ ls, NoNl l := by
  cases values with
  | nil => cases hl
  | cons v values =>
    cases hl
    intro l hl
    simp only [List.mem_append] at hl
    rcases hl with (hl | hl) | hl
    · simp only [List.mem_cons, List.not_mem_nil, or_false] at hl
      rcases hl with rfl | rfl | rfl | rfl | rfl | rfl | rfl | rfl | rfl
      · decide
      · decide
      · simp only [NoNl.append_iff, NoNl.cons_iff]; exact ⟨by decide, hn, by decide, by simp [NoNl]⟩
      · decide
      · decide
      · decide
      · decide
      · exact isWord_not_nl (isWord_showInt _).2
      · exact isWord_not_nl (isWord_showInt _).2
    · rw [List.mem_iff_getElem] at hl
      obtain ⟨i, hi, rfl⟩ := hl
      rw [List.getElem_zipWith]
      simp only [NoNl.append_iff, NoNl.cons_iff]
      refine ⟨isWord_not_nl (isWord_showInt _).2, by decide, joinSp_not_nl _ ?_⟩
      intro w hw
      obtain ⟨x, -, rfl⟩ := List.mem_map.1 hw
      exact isWord_not_nl (isWord_render co h x).2
    · simp only [List.mem_cons, List.not_mem_nil, or_false] at hl
      subst hl
      decide

theorem finish_between (co : Codec F) (m : Mesh F) (cur : Str × ℤ) (k : ℤ) : finish co (between m cur k) = .ok m := by
  simp only [finish, between, step]
  rfl

end MLMC.Gm
