import Verif.Spec.FlowSim
import Verif.Proofs.Dict
import Mathlib.Algebra.Order.Ring.Defs
import Mathlib.Algebra.Order.Field.Basic
import Mathlib.Data.List.TakeWhile
import Mathlib.Tactic.Linarith
/-! Helper lemmas about flow simulations. -/
namespace MLMC.Flow
open Gm
variable {K : Type} [Field K] [LinearOrder K]

def isQ (c : Char) : Bool := c = '"' || c = '\''

theorem isQ_iff (c : Char) : isQ c = true ↔ c = '"' ∨ c = '\'' := by simp [isQ]

theorem dropWhile_append_all {p : Char → Bool} : ∀ (q s : Gm.Str), (∀ c ∈ q, p c = true) → (q ++ s).dropWhile p = s.dropWhile p
  | [], _, _ => rfl
  | c :: q, s, h => by
    rw [List.cons_append, List.dropWhile_cons_of_pos (h c (by simp))]
    exact dropWhile_append_all q s fun c hc => h c (by simp [hc])

theorem dropWhile_head {p : Char → Bool} (s : Gm.Str) (h : ∀ c, s.head? = some c → p c = false) : s.dropWhile p = s := by
  cases s with
  | nil => rfl
  | cons c s => rw [List.dropWhile_cons_of_neg]; simp [h c rfl]

theorem unquote_eq {n s : Gm.Str} (h : Quoted n s) : unquote n = s := by
  obtain ⟨q, q', hq, rfl, h1, h2⟩ := h
  have a1 : ∀ c ∈ q, isQ c = true := fun c hc => (isQ_iff c).2 (hq c (by simp [hc]))
  have a2 : ∀ c ∈ q', isQ c = true := fun c hc => (isQ_iff c).2 (hq c (by simp [hc]))
  have b1 : ∀ c, s.head? = some c → isQ c = false := fun c hc => by have := h1 c hc; simp [isQ, this]
  have b2 : ∀ c, s.getLast? = some c → isQ c = false := fun c hc => by have := h2 c hc; simp [isQ, this]
  change (((q ++ s ++ q').dropWhile isQ).reverse.dropWhile isQ).reverse = s
  rw [List.append_assoc, dropWhile_append_all _ _ a1]
  cases s with
  | nil =>
    have : ([] ++ q').dropWhile isQ = [] := by rw [List.nil_append, List.dropWhile_eq_nil_iff]; exact a2
    rw [this]; rfl
  | cons c s =>
    rw [List.cons_append, List.dropWhile_cons_of_neg (by simp [b1 c rfl])]
    rw [← List.cons_append, List.reverse_append, dropWhile_append_all _ _ (by simpa using a2), dropWhile_head, List.reverse_reverse]
    intro d hd; rw [List.head?_reverse] at hd; exact b2 d hd

theorem quoted_unique {n s t : Gm.Str} (h : Quoted n s) (h' : Quoted n t) : s = t := by rw [← unquote_eq h, unquote_eq h']

theorem dot_iff {n s : Gm.Str} (h : Quoted n s) : (∃ t, Quoted n ('.' :: t)) ↔ s.head? = some '.' := by
  constructor
  · rintro ⟨t, ht⟩; rw [quoted_unique h ht]; rfl
  · intro hh
    cases s with
    | nil => simp at hh
    | cons c s => simp only [List.head?_cons, Option.some.injEq] at hh; subst hh; exact ⟨s, h⟩

/-- The first loop succeeds; an id is known iff it occurs, and is marked by one of the groups with this id. -/
theorem regions_ok : ∀ (ph : Dict Gm.Str (ℤ × ℤ)) (s : Dict ℤ Bool × Dict Gm.Str ℤ), (∀ e ∈ ph, ∃ t, t ≠ [] ∧ Quoted e.1 t) →
    ∃ r, ph.foldlM regionStep s = .ok r ∧
      (∀ i, (∃ e ∈ ph, e.2.1 = i) → ∃ e ∈ ph, e.2.1 = i ∧ ∃ b, Dict.get? r.1 i = some b ∧ (b = true ↔ ∃ t, Quoted e.1 ('.' :: t))) ∧
      (∀ i, (∀ e ∈ ph, e.2.1 ≠ i) → Dict.get? r.1 i = Dict.get? s.1 i)
  | [], s, _ => ⟨s, rfl, by simp, by simp⟩
  | e :: ph, s, h => by
    obtain ⟨t, ht, hq⟩ := h e (by simp)
    obtain ⟨c, t', rfl⟩ := List.exists_cons_of_ne_nil ht
    obtain ⟨r, hr, h1, h2⟩ := regions_ok ph (Dict.set s.1 e.2.1 (decide (c = '.')), Dict.set s.2 (c :: t') e.2.1) fun e he => h e (by simp [he])
    refine ⟨r, ?_, ?_, ?_⟩
    · rw [List.foldlM_cons]
      have : regionStep s e = .ok (Dict.set s.1 e.2.1 (decide (c = '.')), Dict.set s.2 (c :: t') e.2.1) := by
        unfold regionStep; rw [unquote_eq hq]
      rw [this]; exact hr
    · rintro i ⟨e', he', hi⟩
      by_cases hx : ∃ e' ∈ ph, e'.2.1 = i
      · obtain ⟨e'', h3, h4, h5⟩ := h1 i hx
        exact ⟨e'', by simp [h3], h4, h5⟩
      · have hi' : e.2.1 = i := by
          rcases List.mem_cons.1 he' with rfl | he'
          · exact hi
          · exact absurd ⟨e', he', hi⟩ hx
        refine ⟨e, by simp, hi', decide (c = '.'), ?_, ?_⟩
        · rw [h2 i fun e' he' hh => hx ⟨e', he', hh⟩, ← hi', Dict.get?_set_self]
        · rw [dot_iff hq]; simp
    · intro i hi
      rw [h2 i fun e' he' => hi e' (by simp [he']), Dict.get?_set_ne]
      exact fun hh => hi e (by simp) hh.symm

theorem bulkElements_eq (bc : Dict ℤ Bool) (p : Elem → Bool) : ∀ es : List Elem, (∀ e ∈ es, isBulk bc e = .ok (p e)) → bulkElements bc es = .ok (es.filter p)
  | [], _ => rfl
  | e :: es, h => by
    have a := h e (by simp)
    have b := bulkElements_eq bc p es fun e he => h e (by simp [he])
    simp only [bulkElements, bind, Except.bind, a, b, List.filter_cons]

theorem mapM_ok {α β : Type} (f : α → Except PyErr β) (g : α → β) : ∀ l : List α, (∀ a ∈ l, f a = .ok (g a)) → l.mapM f = .ok (l.map g)
  | [], _ => rfl
  | a :: l, h => by
    rw [List.mapM_cons, h a (by simp), mapM_ok f g l fun a ha => h a (by simp [ha])]; rfl

theorem center_eq {m : Mesh K} {e : Elem} (h : e.2.2.2 ≠ [] ∧ ∀ i ∈ e.2.2.2, ∃ x, Dict.get? m.nodes i = some x ∧ x.length = 3) :
    center m e = .ok ((List.range 3).map (nodeAverage m e)) := by
  have := mapM_ok (nodeCoords m) (fun i => (Dict.get? m.nodes i).getD []) e.2.2.2 (by
    intro i hi
    obtain ⟨x, hx, hl⟩ := h.2 i hi
    simp [nodeCoords, hx, hl])
  simp only [center, bind, Except.bind, this]
  rw [if_neg (by simpa using h.1)]
  simp only [List.map_map, List.length_map]
  rfl

theorem foldl_max_mem : ∀ (xs : List K) (a : K), xs.foldl max a ∈ a :: xs ∧ ∀ x ∈ a :: xs, x ≤ xs.foldl max a
  | [], a => by simp
  | x :: xs, a => by
    obtain ⟨h1, h2⟩ := foldl_max_mem xs (max a x)
    rw [List.foldl_cons]
    constructor
    · rcases List.mem_cons.1 h1 with h | h
      · rcases max_choice a x with hm | hm
        · rw [h, hm]; simp
        · rw [h, hm]; simp
      · simp [h]
    · intro y hy
      have h3 := h2 (max a x) (by simp)
      rcases List.mem_cons.1 hy with rfl | hy
      · exact (le_max_left _ _).trans h3
      · rcases List.mem_cons.1 hy with rfl | hy
        · exact (le_max_right _ _).trans h3
        · exact h2 y (by simp [hy])

theorem foldl_min_mem : ∀ (xs : List K) (a : K), xs.foldl min a ∈ a :: xs ∧ ∀ x ∈ a :: xs, xs.foldl min a ≤ x
  | [], a => by simp
  | x :: xs, a => by
    obtain ⟨h1, h2⟩ := foldl_min_mem xs (min a x)
    rw [List.foldl_cons]
    constructor
    · rcases List.mem_cons.1 h1 with h | h
      · rcases min_choice a x with hm | hm
        · rw [h, hm]; simp
        · rw [h, hm]; simp
      · simp [h]
    · intro y hy
      have h3 := h2 (min a x) (by simp)
      rcases List.mem_cons.1 hy with rfl | hy
      · exact h3.trans (min_le_left _ _)
      · rcases List.mem_cons.1 hy with rfl | hy
        · exact h3.trans (min_le_right _ _)
        · exact h2 y (by simp [hy])

variable [IsStrictOrderedRing K]

theorem extent_spec (cs : List (List K)) (h : cs ≠ []) (j : Nat) :
    (∃ a ∈ cs, ∃ b ∈ cs, extent cs j = a.getD j 0 - b.getD j 0) ∧ ∀ a ∈ cs, ∀ b ∈ cs, a.getD j 0 - b.getD j 0 ≤ extent cs j := by
  obtain ⟨c, cs', rfl⟩ := List.exists_cons_of_ne_nil h
  have e : extent (c :: cs') j = ((c :: cs').map fun c => c.getD j 0).foldl max (c.getD j 0) - ((c :: cs').map fun c => c.getD j 0).foldl min (c.getD j 0) := rfl
  obtain ⟨h1, h2⟩ := foldl_max_mem ((c :: cs').map fun c => c.getD j 0) (c.getD j 0)
  obtain ⟨h3, h4⟩ := foldl_min_mem ((c :: cs').map fun c => c.getD j 0) (c.getD j 0)
  have mm : ∀ x, x ∈ c.getD j 0 :: ((c :: cs').map fun c => c.getD j 0) → ∃ a ∈ c :: cs', x = a.getD j 0 := by
    intro x hx
    rcases List.mem_cons.1 hx with rfl | hx
    · exact ⟨c, by simp, rfl⟩
    · obtain ⟨a, ha, rfl⟩ := List.mem_map.1 hx; exact ⟨a, ha, rfl⟩
  refine ⟨?_, ?_⟩
  · obtain ⟨a, ha, ea⟩ := mm _ h1
    obtain ⟨b, hb, eb⟩ := mm _ h3
    exact ⟨a, ha, b, hb, by rw [e, ea, eb]⟩
  · intro a ha b hb
    rw [e]
    have x1 := h2 (a.getD j 0) (List.mem_cons_of_mem _ (List.mem_map.2 ⟨a, ha, rfl⟩))
    have x2 := h4 (b.getD j 0) (List.mem_cons_of_mem _ (List.mem_map.2 ⟨b, hb, rfl⟩))
    exact sub_le_sub x1 x2

theorem keptAxes_spec (cs : List (List K)) (h : cs ≠ []) :
    keptAxes cs = [0, 1, 2] ∨ ∃ a, a < 3 ∧ keptAxes cs = [0, 1, 2].erase a ∧ (∀ p ∈ cs, ∀ q ∈ cs, p.getD a 0 - q.getD a 0 < 1 / 10 ^ 10) := by
  unfold keptAxes
  by_cases hlt : extent cs (minAxis (extent cs)) < 1 / 10 ^ 10
  · right
    refine ⟨minAxis (extent cs), ?_, if_pos hlt, ?_⟩
    · unfold minAxis; split_ifs <;> omega
    · intro p hp q hq
      exact ((extent_spec cs h _).2 p hp q hq).trans_lt hlt
  · left; exact if_neg hlt

theorem keptAxes_planar (cs : List (List K)) (h : cs ≠ []) (h0 : 1 / 10 ^ 10 ≤ extent cs 0) (h1 : 1 / 10 ^ 10 ≤ extent cs 1) (h2 : extent cs 2 < 1 / 10 ^ 10) :
    keptAxes cs = [0, 1] := by
  have : minAxis (extent cs) = 2 := by
    unfold minAxis
    rw [if_neg (not_le.2 (h2.trans_le h0)), if_neg (not_le.2 (h2.trans_le h1))]
    split_ifs <;> rfl
  unfold keptAxes
  simp only [this]
  rw [if_pos h2]; rfl

open Classical in
/-- `extract_mesh` of a complete mesh. -/
theorem extractMesh_eq (m : Mesh K) (h : Complete m) (hi : IdsAgree m) (hb : bulk m ≠ []) :
    ∃ rm, extractMesh m = .ok
      { points := (bulk m).map fun e => (keptAxes ((bulk m).map fun e => (List.range 3).map (nodeAverage m e))).map fun j => ((List.range 3).map (nodeAverage m e)).getD j 0
        regionIds := (bulk m).map region
        eleIds := (bulk m).map (·.1)
        regionMap := rm } ∧ ∃ bc, m.physical.foldlM regionStep (([] : Dict ℤ Bool), ([] : Dict Gm.Str ℤ)) = .ok (bc, rm) := by
  obtain ⟨r, hr, h1, -⟩ := regions_ok m.physical ([], []) h.names
  have hbk : ∀ e ∈ m.elements, isBulk r.1 e = .ok (decide (¬ Boundary m e)) := by
    intro e he
    obtain ⟨ht, n, dim, hn⟩ := h.region e he
    obtain ⟨x, ts, hx⟩ := List.exists_cons_of_ne_nil ht
    have hreg : region e = x := by simp [region, hx]
    obtain ⟨g, hg, hgi, b, hgb, hb'⟩ := h1 (region e) ⟨_, hn, rfl⟩
    have : Boundary m e ↔ b = true := by
      rw [hb']
      constructor
      · rintro ⟨n', s, d', hm, hq⟩
        exact hi _ hm g hg (by rw [hgi]) ⟨s, hq⟩
      · rintro ⟨s, hs⟩
        refine ⟨g.1, s, g.2.2, ?_, hs⟩
        rw [← hgi]; exact hg
    rw [hreg] at hgb
    simp only [isBulk, hx, hgb, this]
    cases b <;> simp
  have e1 := bulkElements_eq r.1 _ m.elements hbk
  have e1' : bulkElements r.1 m.elements = .ok (bulk m) := e1
  have e2 := mapM_ok (center m) (fun e => (List.range 3).map (nodeAverage m e)) (bulk m) (fun e he => center_eq (h.nodes e (List.mem_of_mem_filter he)))
  refine ⟨r.2, ?_, r.1, hr⟩
  unfold extractMesh
  change Except.bind _ _ = _
  rw [hr]
  simp only [Except.bind, bind, e1', e2]
  rw [if_neg (by simpa using hb), List.map_map]
  rfl

/-! ### Field samples -/

omit [IsStrictOrderedRing K] in
theorem scatter_range (v : List K) : Fld.scatter v.length (List.range v.length) v = .ok v := by
  unfold Fld.scatter
  rw [if_pos (by simp)]
  congr 1
  suffices h : ∀ (w pre : List K) (z : List K), z.length = w.length →
      ((List.range' pre.length w.length).zip w).foldl (fun v x => v.set x.1 x.2) (pre ++ z) = pre ++ w by
    have := h v [] (List.replicate v.length 0) (by simp)
    simpa [List.range_eq_range'] using this
  intro w
  induction w with
  | nil => intro pre z hz; simp at hz; simp [hz]
  | cons x w ih =>
    intro pre z hz
    cases z with
    | nil => simp at hz
    | cons y z =>
      rw [List.length_cons, List.range'_succ, List.zip_cons_cons, List.foldl_cons]
      have := ih (pre ++ [x]) z (by simpa using hz)
      simp only [List.length_append, List.length_cons, List.length_nil, zero_add, List.append_assoc, List.cons_append, List.nil_append] at this
      simpa using this

omit [IsStrictOrderedRing K] in
/-- The sample of the single random field on a set of points. -/
theorem flow_sample (draw : Nat → Nat → List (List K) → List K) (u : List String) (pts : List (List K)) (ids : List ℤ) (rm : Dict Gm.Str ℤ)
    (hl : ids.length = pts.length) (hd : (draw 0 0 pts).length = pts.length) :
    ((sampleFields (some u)).bind fun F => (F.setPoints pts (fldRegionIds ids) (fldRegionMap rm)).bind fun pl => pl.sample draw)
      = .ok (if "conductivity" ∈ u then [(.user "conductivity", draw 0 0 pts)] else []) := by
  have h1 : sampleFields (K := K) (some u) = .ok ⟨[⟨0, .user "conductivity", .random 0, [], [], decide ("conductivity" ∈ u)⟩], [(.user "conductivity", 0)], 1⟩ := rfl
  rw [h1]
  simp only [Except.bind, Fld.Fields.setPoints]
  rw [if_neg (by simp [fldRegionIds, hl])]
  have hr : (List.range pts.length).filterMap (fun i => pts[i]?) = pts := by
    apply List.ext_getElem?
    intro i
    rw [show (List.range pts.length).filterMap (fun i => pts[i]?) = pts from ?_]
    have : ∀ (l : List (List K)), (List.range l.length).filterMap (fun i => l[i]?) = l := by
      intro l
      induction l with
      | nil => rfl
      | cons a l ih =>
        rw [List.length_cons, List.range_succ_eq_map, List.filterMap_cons]
        simp only [List.getElem?_cons_zero, List.filterMap_map]
        congr 1
    exact this pts
  have h2 : Fld.placeLoop pts (fldRegionIds ids) (fldRegionMap rm) [(⟨0, .user "conductivity", .random 0, [], [], decide ("conductivity" ∈ u)⟩ : Fld.FieldObj K)] []
      = .ok ([(⟨0, .user "conductivity", .random 0, [], [], decide ("conductivity" ∈ u)⟩, List.range pts.length)], [(0, pts)]) := by
    have : (fldRegionIds ids).length = pts.length := by simp [fldRegionIds, hl]
    simp only [Fld.placeLoop, Fld.pointIds, bind, Except.bind, this, hr, Dict.set, Dict.upd]
  simp only [h2, bind, Except.bind]
  simp only [Fld.Placed.sample, Fld.sampleLoop, Fld.sampleField, Dict.get?, bind, Except.bind, if_true]
  by_cases hu : "conductivity" ∈ u
  · simp only [hu, decide_true, if_true]
    have := scatter_range (draw 0 0 pts)
    rw [hd] at this
    rw [this]; rfl
  · simp only [hu, decide_false, Bool.false_eq_true, if_false]; rfl

end MLMC.Flow
