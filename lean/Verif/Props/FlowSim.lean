import Verif.Proofs.FlowSim
import Verif.Proofs.Substitute
import Mathlib.Algebra.Order.Ring.Rat
/-
C63, C67, C68, C75, C76: flow simulations.
-/
namespace MLMC.Flow
open Gm
variable {K : Type} [Field K] [LinearOrder K]

/-! ### C67 -/

/-- The records that count: through `.bc_outflow`, before the first record of a positive time. -/
def initialOutflow (items : List (BalanceItem K)) : List (BalanceItem K) :=
  (items.takeWhile fun it => decide (it.time ≤ 0)).filter fun it => it.region = ".bc_outflow"

theorem fluxLoop_eq : ∀ (items : List (BalanceItem K)) (t : K) (f : Bool),
    fluxLoop items t f = if ∃ it ∈ initialOutflow items, 1 / 10 ^ 10 < it.fluxIn then .error .other
      else .ok (t + ((initialOutflow items).map (·.flux)).sum, f || !(initialOutflow items).isEmpty)
  | [], t, f => by simp [fluxLoop, initialOutflow]
  | it :: rest, t, f => by
    unfold fluxLoop
    by_cases h0 : it.time > 0
    · have : initialOutflow (it :: rest) = [] := by
        unfold initialOutflow
        rw [List.takeWhile_cons_of_neg (by simpa using h0)]; rfl
      simp [h0, this]
    · rw [if_neg h0]
      have ht : it.time ≤ 0 := not_lt.1 h0
      by_cases hr : it.region = ".bc_outflow"
      · have : initialOutflow (it :: rest) = it :: initialOutflow rest := by
          unfold initialOutflow
          rw [List.takeWhile_cons_of_pos (by simpa using ht), List.filter_cons_of_pos (by simpa using hr)]
        rw [if_pos (by simp [hr]), this]
        by_cases hf : it.fluxIn > 1 / 10 ^ 10
        · rw [if_pos hf, if_pos ⟨it, by simp, hf⟩]
        · rw [if_neg hf, fluxLoop_eq rest]
          have : (∃ x ∈ it :: initialOutflow rest, 1 / 10 ^ 10 < x.fluxIn) ↔ ∃ x ∈ initialOutflow rest, 1 / 10 ^ 10 < x.fluxIn := by
            constructor
            · rintro ⟨x, hx, h⟩
              rcases List.mem_cons.1 hx with rfl | hx
              · exact absurd h hf
              · exact ⟨x, hx, h⟩
            · rintro ⟨x, hx, h⟩; exact ⟨x, by simp [hx], h⟩
          simp only [this, List.map_cons, List.sum_cons, add_assoc, List.isEmpty_cons, Bool.true_or, Bool.not_false, Bool.or_true]
      · have : initialOutflow (it :: rest) = initialOutflow rest := by
          unfold initialOutflow
          rw [List.takeWhile_cons_of_pos (by simpa using ht), List.filter_cons_of_neg (by simpa using hr)]
        rw [if_neg (by simpa using hr), this, fluxLoop_eq rest]

/-- C67: the result is minus the sum of the fluxes of these records; it is an error if there is none or if one of them has an inflow above the tolerance 1e-10. -/
theorem C67_initial_outflow (items : List (BalanceItem K)) :
    (initialOutflow items ≠ [] → (∀ it ∈ initialOutflow items, it.fluxIn ≤ 1 / 10 ^ 10) → extractResult items = .ok [-((initialOutflow items).map (·.flux)).sum]) ∧
    (initialOutflow items = [] → extractResult items = .error .other) ∧
    (∀ it ∈ initialOutflow items, 1 / 10 ^ 10 < it.fluxIn → extractResult items = .error .other) := by
  unfold extractResult
  rw [fluxLoop_eq]
  refine ⟨fun h1 h2 => ?_, fun h1 => ?_, fun it hit h => ?_⟩
  · rw [if_neg (by rintro ⟨it, hi, h⟩; exact absurd h (not_lt.2 (h2 it hi)))]
    cases h : initialOutflow items with
    | nil => exact absurd h h1
    | cons a l => simp [Except.bind]
  · rw [h1]; simp [Except.bind]
  · rw [if_pos ⟨it, hit, h⟩]; rfl

/-- Records of a later time do not count, other regions are skipped. -/
example : extractResult ([⟨0, ".bc_outflow", -3, 0⟩, ⟨0, "bulk", 7, 1⟩, ⟨0, ".bc_outflow", -1, 0⟩, ⟨1, ".bc_outflow", -50, 3⟩] : List (BalanceItem ℚ)) = .ok [4] := by
  decide +kernel

/-! ### C68 -/

variable [IsStrictOrderedRing K]

/-- C68: for a complete mesh whose groups with the same id are all boundary or all bulk groups: exactly the elements outside the boundary regions, in mesh order, with their
region ids and the averages of their nodes; at most one coordinate is left out, and only if it varies by less than 1e-10. -/
theorem C68_bulk_elements_partial (m : Mesh K) (h : Complete m) (hi : IdsAgree m) (hb : bulk m ≠ []) :
    ∃ r, extractMesh m = .ok r ∧ r.eleIds = (bulk m).map (·.1) ∧ r.regionIds = (bulk m).map region ∧
      ∃ axes : List Nat, r.points = (bulk m).map (fun e => axes.map (nodeAverage m e)) ∧
        (axes = [0, 1, 2] ∨ ∃ a < 3, axes = [0, 1, 2].erase a ∧ ∀ e ∈ bulk m, ∀ e' ∈ bulk m, nodeAverage m e a - nodeAverage m e' a < 1 / 10 ^ 10) := by
  obtain ⟨rm, hr, -⟩ := extractMesh_eq m h hi hb
  refine ⟨_, hr, rfl, rfl, keptAxes ((bulk m).map fun e => (List.range 3).map (nodeAverage m e)), ?_, ?_⟩
  · refine List.map_congr_left fun e _ => List.map_congr_left fun j hj => ?_
    have h3 : j < 3 := by
      rcases keptAxes_spec ((bulk m).map fun e => (List.range 3).map (nodeAverage m e)) (by simpa using hb) with h | ⟨a, ha, h, -⟩
      · rw [h] at hj; revert hj; simp; omega
      · rw [h] at hj; have := List.mem_of_mem_erase hj; revert this; simp; omega
    rw [List.getD_eq_getElem?_getD, List.getElem?_map, List.getElem?_range h3]; rfl
  · rcases keptAxes_spec ((bulk m).map fun e => (List.range 3).map (nodeAverage m e)) (by simpa using hb) with h | ⟨a, ha, h, h'⟩
    · exact .inl h
    · refine .inr ⟨a, ha, h, fun e he e' he' => ?_⟩
      have := h' _ (List.mem_map.2 ⟨e, he, rfl⟩) _ (List.mem_map.2 ⟨e', he', rfl⟩)
      simpa [List.getD_eq_getElem?_getD, List.getElem?_map, List.getElem?_range ha] using this

theorem regions_other : ∀ (ph : Dict Gm.Str (ℤ × ℤ)) (s r : Dict ℤ Bool × Dict Gm.Str ℤ) (i : ℤ), ph.foldlM regionStep s = .ok r → (∀ e ∈ ph, e.2.1 ≠ i) →
    Dict.get? r.1 i = Dict.get? s.1 i
  | [], s, r, i, h, _ => by cases h; rfl
  | e :: ph, s, r, i, h, hn => by
    rw [List.foldlM_cons] at h
    unfold regionStep at h
    split at h
    · cases h
    · rw [regions_other ph _ r i h fun e he => hn e (by simp [he]), Dict.get?_set_ne]
      exact fun hh => hn e (by simp) hh.symm

theorem bulkElements_error (bc : Dict ℤ Bool) (e : Elem) (x : PyErr) (hx : isBulk bc e = .error x) : ∀ es : List Elem, e ∈ es → ∃ y, bulkElements bc es = .error y
  | [], h => by simp at h
  | e' :: es, h => by
    simp only [bulkElements, bind, Except.bind]
    rcases List.mem_cons.1 h with rfl | h
    · exact ⟨x, by rw [hx]⟩
    · obtain ⟨y, hy⟩ := bulkElements_error bc e x hx es h
      cases isBulk bc e' with
      | error z => exact ⟨z, rfl⟩
      | ok b => exact ⟨y, by simp only [hy]⟩

omit [IsStrictOrderedRing K] in
/-- C68: a mesh with an element of a region without name is refused. -/
theorem C68_unnamed_region (m : Mesh K) (e : Elem) (he : e ∈ m.elements) (hn : ∀ g ∈ m.physical, g.2.1 ≠ region e) : ∃ x, extractMesh m = .error x := by
  unfold extractMesh
  change ∃ x, Except.bind _ _ = _
  cases h : m.physical.foldlM regionStep (([] : Dict ℤ Bool), ([] : Dict Gm.Str ℤ)) with
  | error x => exact ⟨x, rfl⟩
  | ok r =>
    have h1 := regions_other _ _ _ _ h hn
    have h2 : ∃ x, isBulk r.1 e = .error x := by
      unfold isBulk
      cases ht : e.2.2.1 with
      | nil => exact ⟨_, rfl⟩
      | cons a l =>
        have : region e = a := by simp [region, ht]
        rw [this] at h1
        simp only [h1, Dict.get?_nil]
        exact ⟨_, rfl⟩
    obtain ⟨x, h2⟩ := h2
    obtain ⟨y, h3⟩ := bulkElements_error r.1 e x h2 m.elements he
    exact ⟨y, by simp only [Except.bind, bind, h3]⟩

/-! Meshes for the examples: triangles in the unit square, the line `.left` on the boundary. -/

def squareNodes : Dict ℤ (List ℚ) := [(1, [0, 0, 0]), (2, [1, 0, 0]), (3, [1, 1, 0]), (4, [0, 1, 0]), (5, [1/2, 1/3, 0]), (6, [1/4, 1/2, 0])]

def squareGroups : Dict Gm.Str (ℤ × ℤ) := [("\".left\"".toList, (1, 1)), ("\"plane\"".toList, (2, 2))]

def square (elements : List Elem) : Mesh ℚ := ⟨squareNodes, elements, squareGroups, []⟩

def fineSquare : Mesh ℚ := square [(10, (1, [1, 5], [1, 4])), (11, (2, [2, 6], [1, 2, 5])), (12, (2, [2, 6], [2, 3, 5])), (13, (2, [2, 6], [3, 4, 5])), (14, (2, [2, 6], [4, 1, 5]))]

def coarseSquare : Mesh ℚ := square [(7, (1, [1, 5], [1, 4])), (8, (2, [2, 6], [1, 2, 4])), (9, (2, [2, 6], [2, 3, 4]))]

theorem quoted_left : Quoted "\".left\"".toList ".left".toList := ⟨['"'], ['"'], by decide, by decide, by decide, by decide⟩
theorem quoted_plane : Quoted "\"plane\"".toList "plane".toList := ⟨['"'], ['"'], by decide, by decide, by decide, by decide⟩

theorem square_complete (es : List Elem) (h1 : ∀ e ∈ es, e.2.2.1 ≠ [] ∧ (region e = 1 ∨ region e = 2)) (h2 : ∀ e ∈ es, e.2.2.2 ≠ [] ∧ ∀ i ∈ e.2.2.2, i ∈ squareNodes.map (·.1)) :
    Complete (square es) where
  names := by
    intro e he
    simp only [square, squareGroups, List.mem_cons, List.not_mem_nil, or_false] at he
    rcases he with rfl | rfl
    · exact ⟨".left".toList, by decide, quoted_left⟩
    · exact ⟨"plane".toList, by decide, quoted_plane⟩
  region := by
    intro e he
    refine ⟨(h1 e he).1, ?_⟩
    rcases (h1 e he).2 with h | h <;> rw [h]
    · exact ⟨_, _, List.mem_cons_self⟩
    · exact ⟨_, _, List.mem_cons_of_mem _ List.mem_cons_self⟩
  nodes := by
    intro e he
    refine ⟨(h2 e he).1, fun i hi => ?_⟩
    have h := (h2 e he).2 i hi
    have : ∀ i ∈ squareNodes.map (·.1), (Dict.get? squareNodes i).any (fun x => x.length = 3) = true := by decide +kernel
    have h := this i h
    change ∃ x, Dict.get? squareNodes i = some x ∧ _
    cases hx : Dict.get? squareNodes i with
    | none => rw [hx] at h; cases h
    | some x => rw [hx] at h; exact ⟨x, rfl, by simpa using h⟩

theorem square_agree (es : List Elem) : IdsAgree (square es) := by
  intro e he e' he' hi
  simp only [square, squareGroups, List.mem_cons, List.not_mem_nil, or_false] at he he'
  rcases he with rfl | rfl <;> rcases he' with rfl | rfl
  · exact id
  · simp at hi
  · simp at hi
  · exact id

theorem square_boundary (es : List Elem) (e : Elem) : Boundary (square es) e ↔ region e = 1 := by
  constructor
  · rintro ⟨n, s, dim, hm, hq⟩
    simp only [square, squareGroups, List.mem_cons, List.not_mem_nil, or_false, Prod.mk.injEq] at hm
    rcases hm with ⟨-, h, -⟩ | ⟨rfl, -, -⟩
    · exact h
    · have := quoted_unique quoted_plane hq
      exact absurd this (by simp)
  · intro h
    exact ⟨_, "left".toList, 1, by rw [h]; exact List.mem_cons_self, quoted_left⟩

theorem square_bulk (es : List Elem) : bulk (square es) = es.filter fun e => region e ≠ 1 := by
  unfold bulk
  refine List.filter_congr fun e _ => ?_
  simp [square_boundary]

/-- The hypotheses of `C68_bulk_elements_partial` hold for the mesh `fineSquare`, which has a boundary element and four others. -/
example : ∃ r, extractMesh fineSquare = .ok r ∧ r.eleIds = [11, 12, 13, 14] := by
  obtain ⟨r, h, h1, -⟩ := C68_bulk_elements_partial fineSquare (square_complete _ (by decide) (by decide)) (square_agree _) (by rw [fineSquare, square_bulk]; decide)
  exact ⟨r, h, by rw [h1, fineSquare, square_bulk]; decide⟩

/-- Two groups with the same id, a line and a surface (Gmsh numbers groups separately for each dimension). -/
def sharedId (physical : Dict Gm.Str (ℤ × ℤ)) : Mesh ℚ := ⟨squareNodes, [(10, (1, [1, 5], [1, 4])), (11, (2, [1, 6], [1, 2, 4])), (12, (2, [2, 6], [2, 3, 4]))], physical, []⟩

/-- C68 fails if a boundary line and a surface have the same id: the line element 10 of the group `.left` is returned if `plane` comes later, the surface element 11 of the group
`plane` is missing if `.left` comes later. -/
theorem C68_counterexample :
    (extractMesh (sharedId [("\".left\"".toList, (1, 1)), ("\"plane\"".toList, (1, 2)), ("\"rock\"".toList, (2, 2))])).map (·.eleIds) = .ok [10, 11, 12] ∧
    (extractMesh (sharedId [("\"plane\"".toList, (1, 2)), ("\".left\"".toList, (1, 1)), ("\"rock\"".toList, (2, 2))])).map (·.eleIds) = .ok [12] := by
  decide +kernel

/-! ### C63 -/

/-- The result of a run: from the water balance written by the solver. -/
def runResult (o : Option (List (BalanceItem K))) : Except PyErr (List K) :=
  match o with
  | some b => extractResult b
  | none => .error .other

omit [IsStrictOrderedRing K] in
theorem readResult_solveIn (solve : Solver K) (ids : List ℤ) (s : InputSample K) (d : Dir K) (hd : Dict.get? d balanceFile = none) :
    readResult (solveIn solve ids s d) = runResult (solve ids s) := by
  unfold readResult solveIn
  cases solve ids s with
  | some b => simp only [Dict.get?_set_self]; rfl
  | none => simp only [Dict.get?_set_ne d (.fields ids s) (show balanceFile ≠ fieldsFile by decide), hd]; rfl

theorem fineName_ne (n : Gm.Str) : fineName n ≠ balanceFile := by
  unfold fineName
  split_ifs with h
  · rintro rfl; exact absurd h (by decide)
  · intro h
    exact absurd (congrArg List.head? h) (by rw [List.head?_append_of_ne_nil _ (by decide)]; decide)

omit [Field K] [LinearOrder K] [IsStrictOrderedRing K] in
theorem renameFine_balance (d : Dir K) : Dict.get? (renameFine d) balanceFile = none := by
  unfold renameFine
  suffices h : ∀ (d r : Dir K), Dict.get? r balanceFile = none → Dict.get? (d.foldl (fun r e => Dict.set r (fineName e.1) e.2) r) balanceFile = none from by
    refine h _ _ ?_
    rw [Dict.get?_eq_none_iff]
    intro hm
    obtain ⟨e, he, h1⟩ := List.mem_map.1 hm
    have h2 := of_decide_eq_true (List.mem_filter.1 he).2
    exact fineName_ne e.1 (h2.trans h1)
  intro d
  induction d with
  | nil => exact fun r h => h
  | cons e d ih =>
    intro r h
    rw [List.foldl_cons]
    exact ih _ (by rw [Dict.get?_set_ne r e.2 (Ne.symm (fineName_ne e.1)), h])

omit [IsStrictOrderedRing K] in
theorem runBoth_eq (sf sc : Solver K) (fi ci : List ℤ) (fs cs : InputSample K) (d : Dir K) (hd : Dict.get? d balanceFile = none) :
    runBoth sf sc fi ci fs cs d = (runResult (sf fi fs)).bind fun f =>
      if cs ≠ [] then (runResult (sc ci cs)).map fun c => (f, c) else .ok (f, List.replicate f.length 0) := by
  unfold runBoth
  simp only [readResult_solveIn sf fi fs d hd, readResult_solveIn sc ci cs _ (renameFine_balance _)]

omit [IsStrictOrderedRing K] in
theorem jointSample_eq (draw : Nat → Nat → List (List K) → List K) (u : List String) (step : K) (f c : MeshData K) (hs : step ≠ 0)
    (hfl : f.regionIds.length = f.points.length) (hcl : c.regionIds.length = c.points.length)
    (hd : (draw 0 0 (f.points ++ c.points)).length = f.points.length + c.points.length)
    (hp : ∀ p ∈ f.points, ∀ q ∈ c.points, p.length = q.length) (hm : sameMap f.regionMap c.regionMap) :
    jointSample draw (some u) step f (some c) = .ok (if "conductivity" ∈ u then
      ([(.user "conductivity", ((draw 0 0 (f.points ++ c.points)).take f.points.length).map fun v => [v])],
       [(.user "conductivity", ((draw 0 0 (f.points ++ c.points)).drop f.points.length).map fun v => [v])]) else ([], [])) := by
  have := flow_sample draw u (f.points ++ c.points) (f.regionIds ++ c.regionIds) f.regionMap (by simp [hfl, hcl]) (by simpa using hd)
  unfold jointSample makeFields concatPoints
  simp only [if_pos hp, if_pos hm, Except.bind]
  cases hF : sampleFields (K := K) (some u) with
  | error x => rw [hF] at this; simp [Except.bind] at this
  | ok F =>
    rw [hF] at this
    simp only [Except.bind] at this
    simp only
    cases hpl : F.setPoints (f.points ++ c.points) (fldRegionIds (f.regionIds ++ c.regionIds)) (fldRegionMap f.regionMap) with
    | error x => rw [hpl] at this; simp at this
    | ok pl =>
      rw [hpl] at this
      simp only at this
      simp only [this, Except.map, splitSample, ne_eq, hs, not_false_iff, if_true]
      split_ifs <;> rfl

omit [IsStrictOrderedRing K] in
theorem jointSample_zero (draw : Nat → Nat → List (List K) → List K) (u : List String) (f : MeshData K)
    (hfl : f.regionIds.length = f.points.length) (hd : (draw 0 0 f.points).length = f.points.length) :
    jointSample draw (some u) 0 f none = .ok (if "conductivity" ∈ u then ([(.user "conductivity", (draw 0 0 f.points).map fun v => [v])], []) else ([], [])) := by
  have := flow_sample draw u f.points f.regionIds f.regionMap hfl hd
  unfold jointSample makeFields
  cases hF : sampleFields (K := K) (some u) with
  | error x => rw [hF] at this; simp [Except.bind] at this
  | ok F =>
    rw [hF] at this
    simp only [Except.bind] at this
    simp only [Except.bind]
    cases hpl : F.setPoints f.points (fldRegionIds f.regionIds) (fldRegionMap f.regionMap) with
    | error x => rw [hpl] at this; simp at this
    | ok pl =>
      rw [hpl] at this
      simp only at this
      simp only [this, Except.map, splitSample]
      split_ifs with h <;> simp_all
      exact List.take_of_length_le (by simp [hd])

theorem planar_axes (m : Mesh K) (hb : bulk m ≠ []) (h : Planar m) : keptAxes ((bulk m).map fun e => (List.range 3).map (nodeAverage m e)) = [0, 1] := by
  have hne : ((bulk m).map fun e => (List.range 3).map (nodeAverage m e)) ≠ [] := by simpa using hb
  have g : ∀ (e : Elem) (j : Nat), j < 3 → ((List.range 3).map (nodeAverage m e)).getD j 0 = nodeAverage m e j := by
    intro e j hj
    rw [List.getD_eq_getElem?_getD, List.getElem?_map, List.getElem?_range hj]; rfl
  apply keptAxes_planar _ hne
  · obtain ⟨e, he, e', he', h⟩ := h.x
    have := (extent_spec _ hne 0).2 _ (List.mem_map.2 ⟨e, he, rfl⟩) _ (List.mem_map.2 ⟨e', he', rfl⟩)
    rw [g e 0 (by omega), g e' 0 (by omega)] at this
    exact h.trans this
  · obtain ⟨e, he, e', he', h⟩ := h.y
    have := (extent_spec _ hne 1).2 _ (List.mem_map.2 ⟨e, he, rfl⟩) _ (List.mem_map.2 ⟨e', he', rfl⟩)
    rw [g e 1 (by omega), g e' 1 (by omega)] at this
    exact h.trans this
  · obtain ⟨a, ha, b, hb, he⟩ := (extent_spec _ hne 2).1
    obtain ⟨e, h1, rfl⟩ := List.mem_map.1 ha
    obtain ⟨e', h2, rfl⟩ := List.mem_map.1 hb
    rw [he, g e 2 (by omega), g e' 2 (by omega)]
    exact h.z e h1 e' h2

theorem planar_mesh (m : Mesh K) (h : Complete m) (hi : IdsAgree m) (hp : Planar m) :
    ∃ rm, extractMesh m = .ok ⟨(bulk m).map fun e => [nodeAverage m e 0, nodeAverage m e 1], (bulk m).map region, (bulk m).map (·.1), rm⟩ ∧
      ∃ bc, m.physical.foldlM regionStep (([] : Dict ℤ Bool), ([] : Dict Gm.Str ℤ)) = .ok (bc, rm) := by
  have hb : bulk m ≠ [] := by obtain ⟨e, he, -⟩ := hp.x; exact List.ne_nil_of_mem he
  obtain ⟨rm, h1, h2⟩ := extractMesh_eq m h hi hb
  refine ⟨rm, ?_, h2⟩
  rw [h1, planar_axes m hb hp]; rfl

theorem take_drop_map {α β : Type} (g : α → β) (a b : List α) : ((a ++ b).map g).take a.length = a.map g ∧ ((a ++ b).map g).drop a.length = b.map g := by
  rw [List.map_append]
  exact ⟨by rw [List.take_append_of_le_length (by simp), List.take_of_length_le (by simp)], by rw [List.drop_append_of_le_length (by simp)]; simp⟩

/-- C63: both meshes in a horizontal plane, extending in both directions, with the same physical groups; the template uses the field; the directory holds no balance of an
earlier attempt.  For every realization `φ` of the random field, every element of the fine mesh gets the value at its own center and so does every element of the coarse mesh,
in mesh order; the two results are those of the two runs. -/
theorem C63_same_realization_partial (solveFine solveCoarse : Solver K) (draw : Nat → Nat → List (List K) → List K) (φ : List K → K) (hφ : ∀ pts, draw 0 0 pts = pts.map φ)
    (used : List String) (hu : "conductivity" ∈ used) (step : K) (hs : step ≠ 0) (mf mc : Mesh K) (d : Dir K) (hd : Dict.get? d balanceFile = none)
    (hf : Complete mf) (hfi : IdsAgree mf) (hfp : Planar mf) (hc : Complete mc) (hci : IdsAgree mc) (hcp : Planar mc) (hg : mf.physical = mc.physical) :
    calculate solveFine solveCoarse draw (some used) step mf mc d =
      (runResult (solveFine ((bulk mf).map (·.1)) [(.user "conductivity", (bulk mf).map fun e => [φ [nodeAverage mf e 0, nodeAverage mf e 1]])])).bind fun f =>
      (runResult (solveCoarse ((bulk mc).map (·.1)) [(.user "conductivity", (bulk mc).map fun e => [φ [nodeAverage mc e 0, nodeAverage mc e 1]])])).map fun c => (f, c) := by
  obtain ⟨rm, h1, bc, h2⟩ := planar_mesh mf hf hfi hfp
  obtain ⟨rm', h1', bc', h2'⟩ := planar_mesh mc hc hci hcp
  rw [hg] at h2
  rw [h2] at h2'
  injection h2' with h2'
  injection h2' with h3 h4
  subst h4
  unfold calculate
  rw [h1, h1']
  simp only [Except.bind, if_pos hs]
  rw [jointSample_eq draw used step _ _ hs (by simp) (by simp) (by simp [hφ]) (by
    intro p hp q hq
    obtain ⟨_, _, rfl⟩ := List.mem_map.1 hp
    obtain ⟨_, _, rfl⟩ := List.mem_map.1 hq
    rfl) (by exact fun _ _ => rfl)]
  simp only [if_pos hu, Except.bind, hφ]
  rw [runBoth_eq _ _ _ _ _ _ _ hd, (take_drop_map φ _ _).1, (take_drop_map φ _ _).2]
  simp only [List.map_map, ne_eq, List.cons_ne_nil, not_false_iff, if_true]
  rfl

/-- C63 with coarse step zero: no coarse run, whatever the coarse mesh and solver; the coarse result is 0. -/
theorem C63_one_level_partial (solveFine solveCoarse : Solver K) (draw : Nat → Nat → List (List K) → List K) (φ : List K → K) (hφ : ∀ pts, draw 0 0 pts = pts.map φ)
    (used : List String) (hu : "conductivity" ∈ used) (mf mc : Mesh K) (d : Dir K) (hd : Dict.get? d balanceFile = none)
    (hf : Complete mf) (hfi : IdsAgree mf) (hfp : Planar mf) :
    calculate solveFine solveCoarse draw (some used) 0 mf mc d =
      (runResult (solveFine ((bulk mf).map (·.1)) [(.user "conductivity", (bulk mf).map fun e => [φ [nodeAverage mf e 0, nodeAverage mf e 1]])])).map fun f =>
        (f, List.replicate f.length 0) := by
  obtain ⟨rm, h1, bc, h2⟩ := planar_mesh mf hf hfi hfp
  unfold calculate
  rw [h1]
  simp only [Except.bind, ne_eq, not_true_eq_false, if_false]
  rw [jointSample_zero draw used _ (by simp) (by simp [hφ])]
  simp only [if_pos hu, Except.bind, hφ]
  rw [runBoth_eq _ _ _ _ _ _ _ hd]
  simp only [List.map_map, ne_eq, not_true_eq_false, if_false]
  rfl

theorem fineSquare_planar : Planar fineSquare := by
  have e : bulk fineSquare = [(11, (2, [2, 6], [1, 2, 5])), (12, (2, [2, 6], [2, 3, 5])), (13, (2, [2, 6], [3, 4, 5])), (14, (2, [2, 6], [4, 1, 5]))] := by
    rw [fineSquare, square_bulk]; decide
  constructor
  · rw [e]; decide +kernel
  · rw [e]; decide +kernel
  · rw [e]; decide +kernel

theorem coarseSquare_planar : Planar coarseSquare := by
  have e : bulk coarseSquare = [(8, (2, [2, 6], [1, 2, 4])), (9, (2, [2, 6], [2, 3, 4]))] := by
    rw [coarseSquare, square_bulk]; decide
  constructor
  · rw [e]; decide +kernel
  · rw [e]; decide +kernel
  · rw [e]; decide +kernel

/-- A solver for the examples: the outflow is the sum of the given values. -/
def sumSolver : Solver ℚ := fun _ s => some [⟨0, ".bc_outflow", -((s.map fun e => (e.2.map List.sum).sum).sum), 0⟩]

/-- The hypotheses of `C63_same_realization_partial` hold for the two meshes of the unit square. -/
example (draw : Nat → Nat → List (List ℚ) → List ℚ) (φ : List ℚ → ℚ) (hφ : ∀ pts, draw 0 0 pts = pts.map φ) :
    ∃ f c, calculate sumSolver sumSolver draw (some ["conductivity"]) 1 fineSquare coarseSquare [] = .ok ([f], [c]) ∧ c = φ [1 / 3, 1 / 3] + φ [2 / 3, 2 / 3] := by
  have e : bulk coarseSquare = [(8, (2, [2, 6], [1, 2, 4])), (9, (2, [2, 6], [2, 3, 4]))] := by
    rw [coarseSquare, square_bulk]; decide
  have a : nodeAverage coarseSquare (8, (2, [2, 6], [1, 2, 4])) 0 = 1 / 3 ∧ nodeAverage coarseSquare (8, (2, [2, 6], [1, 2, 4])) 1 = 1 / 3 ∧
    nodeAverage coarseSquare (9, (2, [2, 6], [2, 3, 4])) 0 = 2 / 3 ∧ nodeAverage coarseSquare (9, (2, [2, 6], [2, 3, 4])) 1 = 2 / 3 := by decide +kernel
  rw [C63_same_realization_partial sumSolver sumSolver draw φ hφ ["conductivity"] (by simp) 1 (by simp) fineSquare coarseSquare [] rfl
    (square_complete _ (by decide) (by decide)) (square_agree _) fineSquare_planar (square_complete _ (by decide) (by decide)) (square_agree _) coarseSquare_planar rfl, e]
  simp only [List.map_cons, List.map_nil, a.1, a.2.1, a.2.2.1, a.2.2.2]
  have o : ∀ x : ℚ, extractResult [⟨0, ".bc_outflow", x, 0⟩] = .ok [-x] := by
    intro x
    have := (C67_initial_outflow ([⟨0, ".bc_outflow", x, 0⟩] : List (BalanceItem ℚ))).1
    have e : initialOutflow ([⟨0, ".bc_outflow", x, 0⟩] : List (BalanceItem ℚ)) = [⟨0, ".bc_outflow", x, 0⟩] := by simp [initialOutflow]
    rw [e] at this
    simpa using this
  simp only [runResult, sumSolver, o, Except.bind, Except.map]
  refine ⟨_, _, rfl, ?_⟩
  simp

omit [IsStrictOrderedRing K] in
theorem region_map : ∀ (ph : Dict Gm.Str (ℤ × ℤ)) (s r : Dict ℤ Bool × Dict Gm.Str ℤ), ph.foldlM regionStep s = .ok r →
    ∀ n, ((∃ e ∈ ph, unquote e.1 = n) ∨ Dict.get? s.2 n ≠ none → Dict.get? r.2 n ≠ none) ∧
      (∀ i, Dict.get? r.2 n = some i → (∃ e ∈ ph, unquote e.1 = n ∧ e.2.1 = i) ∨ Dict.get? s.2 n = some i)
  | [], s, r, h => by
    rw [List.foldlM_nil] at h
    injection h with h
    subst h
    simp
  | e :: ph, s, r, h => by
    rw [List.foldlM_cons] at h
    intro n
    cases hu : unquote e.1 with
    | nil => unfold regionStep at h; rw [hu] at h; cases h
    | cons c t =>
      have hs : regionStep s e = .ok (Dict.set s.1 e.2.1 (decide (c = '.')), Dict.set s.2 (c :: t) e.2.1) := by unfold regionStep; rw [hu]
      rw [hs] at h
      have ih := region_map ph _ r h n
      by_cases hn : n = c :: t
      · subst hn
        refine ⟨fun _ => ih.1 (.inr ?_), fun i hi => ?_⟩
        · simp only [Dict.get?_set_self]; simp
        · rcases ih.2 i hi with ⟨e', he', h1, h2⟩ | h1
          · exact .inl ⟨e', by simp [he'], h1, h2⟩
          · simp only [Dict.get?_set_self, Option.some.injEq] at h1
            exact .inl ⟨e, by simp, hu, h1⟩
      · have hg : Dict.get? (Dict.set s.2 (c :: t) e.2.1) n = Dict.get? s.2 n := Dict.get?_set_ne _ _ hn
        refine ⟨fun hx => ih.1 ?_, fun i hi => ?_⟩
        · rcases hx with ⟨e', he', h1⟩ | hx
          · rcases List.mem_cons.1 he' with rfl | he'
            · exact absurd (h1.symm.trans hu) hn
            · exact .inl ⟨e', he', h1⟩
          · exact .inr (by simp only [hg]; exact hx)
        · rcases ih.2 i hi with ⟨e', he', h1, h2⟩ | h1
          · exact .inl ⟨e', by simp [he'], h1, h2⟩
          · exact .inr (by simpa only [hg] using h1)

omit [IsStrictOrderedRing K] in
theorem extract_regions (m : Mesh K) (h : Complete m) (r : MeshData K) (hr : extractMesh m = .ok r) (n : Gm.Str) :
    ((∃ i, HasRegion m n i) → n ∈ Dict.keys r.regionMap) ∧ ∀ i, Dict.get? r.regionMap n = some i → HasRegion m n i := by
  obtain ⟨q, hq, -⟩ := regions_ok m.physical ([], []) h.names
  have hm := region_map _ _ _ hq n
  have e : r.regionMap = q.2 := by
    unfold extractMesh at hr
    simp only [bind, Except.bind, hq] at hr
    split at hr
    · cases hr
    · split at hr
      · cases hr
      · split_ifs at hr
        injection hr with hr
        rw [← hr]
  rw [e]
  constructor
  · rintro ⟨i, n', dim, h1, h2⟩
    by_contra hc
    exact hm.1 (.inl ⟨_, h1, unquote_eq h2⟩) ((Dict.get?_eq_none_iff _ _).2 hc)
  · intro i hi
    rcases hm.2 i hi with ⟨e', he', h1, h2⟩ | h1
    · obtain ⟨t, -, ht⟩ := h.names e' he'
      rw [unquote_eq ht] at h1
      subst h1
      subst h2
      exact ⟨e'.1, e'.2.2, he', ht⟩
    · simp at h1

omit [IsStrictOrderedRing K] in
/-- C63: meshes of the two steps with different regions (a name that one of them has, but the other does not have with the same id) are refused: the sample fails. -/
theorem C63_different_regions_raise (solveFine solveCoarse : Solver K) (draw : Nat → Nat → List (List K) → List K) (used : Option (List String)) (step : K) (hs : step ≠ 0)
    (mf mc : Mesh K) (d : Dir K) (hf : Complete mf) (hc : Complete mc) (n : Gm.Str)
    (hn : (∃ i, HasRegion mf n i) ∨ ∃ i, HasRegion mc n i) (hd : ∀ i, HasRegion mf n i → ¬ HasRegion mc n i) :
    ∃ x, calculate solveFine solveCoarse draw used step mf mc d = .error x := by
  unfold calculate
  cases hf' : extractMesh mf with
  | error x => exact ⟨x, rfl⟩
  | ok fm =>
    cases hc' : extractMesh mc with
    | error x => exact ⟨x, by simp only [Except.bind, if_pos hs]⟩
    | ok cm =>
      have h1 := extract_regions mf hf fm hf' n
      have h2 := extract_regions mc hc cm hc' n
      have hno : ¬ sameMap fm.regionMap cm.regionMap := by
        intro hm
        have hk : n ∈ Dict.keys fm.regionMap ++ Dict.keys cm.regionMap := by
          rcases hn with hn | hn
          · exact List.mem_append_left _ (h1.1 hn)
          · exact List.mem_append_right _ (h2.1 hn)
        have he := hm n hk
        cases hg : Dict.get? fm.regionMap n with
        | some i => exact hd i (h1.2 i hg) (h2.2 i (he ▸ hg))
        | none =>
          have hg2 : Dict.get? cm.regionMap n = none := he ▸ hg
          rw [Dict.get?_eq_none_iff] at hg hg2
          rcases List.mem_append.1 hk with hk | hk
          exacts [hg hk, hg2 hk]
      have hj : ∃ x, jointSample draw used step fm (some cm) = .error x := by
        unfold jointSample
        cases sampleFields (K := K) used with
        | error x => exact ⟨x, rfl⟩
        | ok F =>
          simp only [Except.bind, makeFields, if_neg hno]
          cases concatPoints fm.points cm.points with
          | error x => exact ⟨x, rfl⟩
          | ok l => exact ⟨_, rfl⟩
      obtain ⟨x, hx⟩ := hj
      exact ⟨x, by simp only [Except.bind, if_pos hs, hx]⟩

/-- The coarse mesh of the unit square with one more region. -/
def coarseRock : Mesh ℚ := ⟨squareNodes, coarseSquare.elements, squareGroups ++ [("rock".toList, (3, 2))], []⟩

example : ∃ x, calculate sumSolver sumSolver (fun _ _ pts => pts.map fun p => p.getD 1 0) (some ["conductivity"]) 1 fineSquare coarseRock [] = .error x := by
  have hq : Quoted "rock".toList "rock".toList := ⟨[], [], by decide, by decide, by decide, by decide⟩
  have hc : Complete coarseSquare := square_complete _ (by decide) (by decide)
  refine C63_different_regions_raise _ _ _ _ 1 (by simp) fineSquare coarseRock [] (square_complete _ (by decide) (by decide))
    ⟨?_, fun e he => ⟨(hc.region e he).1, ?_⟩, hc.nodes⟩ "rock".toList (.inr ⟨3, _, 2, by simp [coarseRock], hq⟩) ?_
  · intro e he
    rcases List.mem_append.1 he with he | he
    · exact hc.names e he
    · rw [List.mem_singleton] at he
      exact ⟨"rock".toList, by decide, he ▸ hq⟩
  · obtain ⟨n, dim, h⟩ := (hc.region e he).2
    exact ⟨n, dim, List.mem_append_left _ h⟩
  · rintro i ⟨n, dim, h, hn⟩
    have : n = "\".left\"".toList ∨ n = "\"plane\"".toList := by
      rcases List.mem_cons.1 h with h | h
      · exact .inl (congrArg Prod.fst h)
      · exact .inr (congrArg Prod.fst (List.mem_singleton.1 h))
    rcases this with rfl | rfl
    · exact absurd (quoted_unique hn quoted_left) (by decide)
    · exact absurd (quoted_unique hn quoted_plane) (by decide)

/-- A triangle with three elements and with one element. -/
def fineTriangle : Mesh ℚ := square [(1, (2, [2, 6], [1, 2, 6])), (2, (2, [2, 6], [2, 4, 6])), (3, (2, [2, 6], [4, 1, 6]))]
def coarseTriangle : Mesh ℚ := square [(1, (2, [2, 6], [1, 2, 4]))]

/-- C63 fails for a coarse mesh of one element (or with all centers on a line `x = const`): the coordinate `x` is left out instead of `z`.  Here the realization is
`φ (x, y) = y`; the center of the coarse element is (1/3, 1/3, 0), its value should be 1/3, the coarse run gets 0. -/
theorem C63_counterexample_axes :
    Complete fineTriangle ∧ IdsAgree fineTriangle ∧ Complete coarseTriangle ∧ IdsAgree coarseTriangle ∧ fineTriangle.physical = coarseTriangle.physical ∧
    (nodeAverage coarseTriangle (1, (2, [2, 6], [1, 2, 4])) 0, nodeAverage coarseTriangle (1, (2, [2, 6], [1, 2, 4])) 1) = (1 / 3, 1 / 3) ∧
    calculate sumSolver sumSolver (fun _ _ pts => pts.map fun p => p.getD 1 0) (some ["conductivity"]) 1 fineTriangle coarseTriangle [] = .ok ([7 / 6], [0]) := by
  refine ⟨square_complete _ (by decide) (by decide), square_agree _, square_complete _ (by decide) (by decide), square_agree _, rfl, by decide +kernel, by decide +kernel⟩

/-- C63 fails for a template that does not use the field: on every level the coarse solver is not run and the coarse result is 0. -/
theorem C63_counterexample_unused (solveFine solveCoarse : Solver K) (draw : Nat → Nat → List (List K) → List K) (φ : List K → K) (hφ : ∀ pts, draw 0 0 pts = pts.map φ)
    (used : List String) (hu : "conductivity" ∉ used) (step : K) (hs : step ≠ 0) (mf mc : Mesh K) (d : Dir K) (hd : Dict.get? d balanceFile = none)
    (hf : Complete mf) (hfi : IdsAgree mf) (hfp : Planar mf) (hc : Complete mc) (hci : IdsAgree mc) (hcp : Planar mc) (hg : mf.physical = mc.physical) :
    calculate solveFine solveCoarse draw (some used) step mf mc d =
      (runResult (solveFine ((bulk mf).map (·.1)) [])).map fun f => (f, List.replicate f.length 0) := by
  obtain ⟨rm, h1, bc, h2⟩ := planar_mesh mf hf hfi hfp
  obtain ⟨rm', h1', bc', h2'⟩ := planar_mesh mc hc hci hcp
  rw [hg] at h2
  rw [h2] at h2'
  injection h2' with h2'
  injection h2' with h3 h4
  subst h4
  unfold calculate
  rw [h1, h1']
  simp only [Except.bind, if_pos hs]
  rw [jointSample_eq draw used step _ _ hs (by simp) (by simp) (by simp [hφ]) (by
    intro p hp q hq
    obtain ⟨_, _, rfl⟩ := List.mem_map.1 hp
    obtain ⟨_, _, rfl⟩ := List.mem_map.1 hq
    rfl) (by exact fun _ _ => rfl)]
  simp only [if_neg hu, Except.bind]
  rw [runBoth_eq _ _ _ _ _ _ _ hd]
  simp only [ne_eq, not_true_eq_false, if_false]
  rfl

/-! ### C75 -/

omit [IsStrictOrderedRing K] in
/-- C75: a coarse result is read from what the coarse run itself has written; it is never taken from the fine run, nor from an earlier attempt in the same directory. -/
theorem C75_coarse_result_own_run (solveFine solveCoarse : Solver K) (draw : Nat → Nat → List (List K) → List K) (used : Option (List String)) (step : K) (mf mc : Mesh K)
    (d : Dir K) (f c : List K) (h : calculate solveFine solveCoarse draw used step mf mc d = .ok (f, c)) :
    c = List.replicate f.length 0 ∨ ∃ ids s b, solveCoarse ids s = some b ∧ extractResult b = .ok c := by
  have key : ∀ (fi ci : List ℤ) (fs cs : InputSample K), runBoth solveFine solveCoarse fi ci fs cs d = .ok (f, c) →
      c = List.replicate f.length 0 ∨ ∃ ids s b, solveCoarse ids s = some b ∧ extractResult b = .ok c := by
    intro fi ci fs cs h
    unfold runBoth at h
    simp only at h
    cases hr : readResult (solveIn solveFine fi fs d) with
    | error x => rw [hr] at h; cases h
    | ok f' =>
      rw [hr] at h
      simp only [Except.bind] at h
      split_ifs at h with hc
      · rw [readResult_solveIn _ _ _ _ (renameFine_balance _)] at h
        cases ho : solveCoarse ci cs with
        | none => rw [ho] at h; cases h
        | some b =>
          rw [ho] at h
          change (extractResult b).map _ = _ at h
          cases hb : extractResult b with
          | error x => rw [hb] at h; cases h
          | ok c' => rw [hb] at h; injection h with h; injection h with h1 h2; exact .inr ⟨ci, cs, b, ho, by rw [hb, h2]⟩
      · injection h with h; injection h with h1 h2; subst h1; exact .inl h2.symm
  unfold calculate at h
  cases hf : extractMesh mf with
  | error x => rw [hf] at h; cases h
  | ok fm =>
    rw [hf] at h
    simp only [Except.bind] at h
    split_ifs at h with hs
    · cases hc : extractMesh mc with
      | error x => rw [hc] at h; cases h
      | ok cm =>
        rw [hc] at h
        simp only at h
        cases hj : jointSample draw used step fm (some cm) with
        | error x => rw [hj] at h; cases h
        | ok s => rw [hj] at h; exact key _ _ _ _ h
    · cases hj : jointSample draw used step fm none with
      | error x => rw [hj] at h; cases h
      | ok s => rw [hj] at h; exact key _ _ _ _ h

/-- C75: in a directory without a balance file, the fine result is read from what the fine run itself has written. -/
theorem C75_fine_result_own_run_partial (solveFine solveCoarse : Solver K) (draw : Nat → Nat → List (List K) → List K) (used : Option (List String)) (step : K) (mf mc : Mesh K)
    (d : Dir K) (hd : Dict.get? d balanceFile = none) (f c : List K) (h : calculate solveFine solveCoarse draw used step mf mc d = .ok (f, c)) :
    ∃ ids s b, solveFine ids s = some b ∧ extractResult b = .ok f := by
  have key : ∀ (fi ci : List ℤ) (fs cs : InputSample K), runBoth solveFine solveCoarse fi ci fs cs d = .ok (f, c) →
      ∃ ids s b, solveFine ids s = some b ∧ extractResult b = .ok f := by
    intro fi ci fs cs h
    rw [runBoth_eq _ _ _ _ _ _ _ hd] at h
    cases ho : solveFine fi fs with
    | none => rw [ho] at h; cases h
    | some b =>
      rw [ho] at h
      change (extractResult b).bind _ = _ at h
      cases hb : extractResult b with
      | error x => rw [hb] at h; cases h
      | ok f' =>
        rw [hb] at h
        simp only [Except.bind] at h
        refine ⟨fi, fs, b, ho, ?_⟩
        split_ifs at h with hc
        · cases hr : runResult (solveCoarse ci cs) with
          | error x => rw [hr] at h; cases h
          | ok c' => rw [hr] at h; injection h with h; injection h with h1 h2; rw [hb, h1]
        · injection h with h; injection h with h1 h2; rw [hb, h1]
  unfold calculate at h
  cases hf : extractMesh mf with
  | error x => rw [hf] at h; cases h
  | ok fm =>
    rw [hf] at h
    simp only [Except.bind] at h
    split_ifs at h with hs
    · cases hc : extractMesh mc with
      | error x => rw [hc] at h; cases h
      | ok cm =>
        rw [hc] at h
        simp only at h
        cases hj : jointSample draw used step fm (some cm) with
        | error x => rw [hj] at h; cases h
        | ok s => rw [hj] at h; exact key _ _ _ _ h
    · cases hj : jointSample draw used step fm none with
      | error x => rw [hj] at h; cases h
      | ok s => rw [hj] at h; exact key _ _ _ _ h

/-- C75 fails for a directory with the output of an earlier attempt (directories are reused, see /repo/mlmc/sampling_pool.py:129-138): the fine run writes nothing, the sample
is successful with the old result 5. -/
theorem C75_counterexample_stale :
    calculate (fun _ _ => none) sumSolver (fun _ _ pts => pts.map fun p => p.getD 1 0) (some ["conductivity"]) 0 fineSquare coarseSquare
      [(balanceFile, .balance [⟨0, ".bc_outflow", -5, 0⟩])] = .ok ([5], [0]) := by
  decide +kernel

/-- The hypotheses of `C75_coarse_result_own_run` and `C75_fine_result_own_run_partial` can be met. -/
example : calculate sumSolver sumSolver (fun _ _ pts => pts.map fun p => p.getD 1 0) (some ["conductivity"]) 1 fineSquare coarseSquare [] = .ok ([16 / 9], [1]) := by
  decide +kernel

/-! ### C76 -/

theorem used_hp (fieldText : Sub.Str → Sub.Str) (meshFile h1 h2 : Sub.Str) : Sub.yamlParams fieldText ["conductivity".toList] meshFile h1 h2 = [("conductivity".toList, fieldText "conductivity".toList), ("mesh_file".toList, meshFile),
    ("timestep_h1".toList, h1), ("timestep_h2".toList, h2)] := by
    simp [Sub.yamlParams, Dict.set, Dict.upd]

theorem subFold_mono : ∀ (ps : Dict Sub.Str Sub.Str) (s : Sub.Str × List Sub.Str) (x : Sub.Str), x ∈ s.2 → x ∈ (ps.foldl Sub.subStep s).2 := by
    intro ps
    induction ps with
    | nil => exact fun _ _ h => h
    | cons e ps ih =>
      intro s x hx
      rw [List.foldl_cons]
      apply ih
      unfold Sub.subStep
      split_ifs
      · simp [hx]
      · exact hx

theorem first_reported (n v : Sub.Str) (ps : Dict Sub.Str Sub.Str) (t : Sub.Str) (ht : Sub.placeholder n <:+: t) :
   n ∈ (Sub.substitutePlaceholders t ((n, v) :: ps)).2 := by
  have hc : Sub.count (Sub.placeholder n) t > 0 := (Sub.count_pos_iff _ (by simp [Sub.placeholder]) t).2 ht
  unfold Sub.substitutePlaceholders
  rw [List.foldl_cons]
  apply subFold_mono
  unfold Sub.subStep
  rw [if_pos hc]
  exact List.mem_append_right _ (List.mem_singleton.2 rfl)

/-- C76: an object that prepares the common files knows that the template uses the field. -/
theorem C76_prepared_partial (template : Sub.Str) (fieldText : Sub.Str → Sub.Str) (meshFile h1 h2 : Sub.Str) (ht : "<conductivity>".toList <:+: template) :
    ∃ used, levelUsedParams true template fieldText meshFile h1 h2 = some used ∧ "conductivity" ∈ used := by
  have e : Sub.placeholder "conductivity".toList = "<conductivity>".toList := by decide
  have := first_reported "conductivity".toList (fieldText "conductivity".toList) [("mesh_file".toList, meshFile),
    ("timestep_h1".toList, h1), ("timestep_h2".toList, h2)] template (e.symm ▸ ht)
  rw [← used_hp] at this
  exact ⟨_, if_pos rfl, List.mem_map.2 ⟨_, this, String.ofList_toList⟩⟩

example : ∃ used, levelUsedParams true "conductivity: <conductivity>".toList (fun n => n) "mesh.msh".toList "1".toList "1".toList = some used ∧ "conductivity" ∈ used :=
  C76_prepared_partial _ _ _ _ _ (by decide +kernel)

omit [IsStrictOrderedRing K] in
/-- C76 fails: a `FlowSim` object that does not prepare the common files itself (`clean` false, to reuse existing files) has no list of used fields: every sample of every
level fails. -/
theorem C76_counterexample (solveFine solveCoarse : Solver K) (draw : Nat → Nat → List (List K) → List K) (step : K) (mf mc : Mesh K) (d : Dir K)
    (template : Sub.Str) (fieldText : Sub.Str → Sub.Str) (meshFile h1 h2 : Sub.Str) :
    ∃ x, calculate solveFine solveCoarse draw (levelUsedParams false template fieldText meshFile h1 h2) step mf mc d = .error x := by
  have hj : ∀ f c, jointSample draw (levelUsedParams false template fieldText meshFile h1 h2) step f c = .error .typeError := fun f c => rfl
  unfold calculate
  cases extractMesh mf with
  | error x => exact ⟨x, rfl⟩
  | ok fm =>
    simp only [Except.bind]
    split_ifs with hs
    · cases extractMesh mc with
      | error x => exact ⟨x, rfl⟩
      | ok cm => exact ⟨.typeError, by simp only [hj]⟩
    · exact ⟨.typeError, by simp only [hj]⟩

end MLMC.Flow
