import Verif.Spec.FracGeom
import Verif.Proofs.Dict
import Verif.Proofs.Tag
/-
C130: regions of a box with fractures.
-/
namespace MLMC.Frac
variable {K : Type}

/-- The first four regions. -/
def fixed [Zero K] (meshStep : K) : List (Region K) :=
  [⟨"NONE".toList, -1, 0, false, true, 0⟩, ⟨"bulk_0".toList, 2, meshStep, false, false, 1⟩, ⟨".bc_inflow".toList, 1, 0, true, false, 2⟩, ⟨".bc_outflow".toList, 1, 0, true, false, 3⟩]

theorem makeRegions_eq [Zero K] (meshStep : K) (fracStep : K) (n : Nat) :
    makeRegions meshStep n fracStep = fixed meshStep ++ (List.range n).map fun i => ⟨fracName i, 1, fracStep, false, false, 4 + i⟩ := by
  induction n with
  | zero => rfl
  | succ n ih =>
    have h : makeRegions meshStep (n + 1) fracStep = addReg (makeRegions meshStep n fracStep) (fracName n) 1 fracStep false false := by
      unfold makeRegions
      rw [List.range_succ, List.foldl_append]
      rfl
    rw [h, ih, addReg, List.range_succ, List.map_append, List.append_assoc]
    congr 3
    simp [fixed]
    omega

/-- **C130**: the regions: the number of each region is its position, all names are different, and there is one region of dimension 1 with the step of the fractures for each fracture. -/
theorem C130_regions [Zero K] (meshStep : K) (fracStep : K) (n : Nat) :
    (makeRegions meshStep n fracStep).length = 4 + n ∧
    (∀ (k : Nat) (r : Region K), (makeRegions meshStep n fracStep)[k]? = some r → r.id = k) ∧
    ((makeRegions meshStep n fracStep).map (·.name)).Nodup ∧
    (makeRegions meshStep n fracStep)[1]? = some ⟨"bulk_0".toList, 2, meshStep, false, false, 1⟩ ∧
    ∀ i < n, (makeRegions meshStep n fracStep)[4 + i]? = some ⟨fracName i, 1, fracStep, false, false, 4 + i⟩ := by
  rw [makeRegions_eq]
  have hf : ∀ i < n, (fixed meshStep ++ (List.range n).map fun i => (⟨fracName i, 1, fracStep, false, false, 4 + i⟩ : Region K))[4 + i]? = some ⟨fracName i, 1, fracStep, false, false, 4 + i⟩ := by
    intro i hi
    rw [List.getElem?_append_right (by simp [fixed])]
    simp [fixed, hi]
  refine ⟨by simp [fixed]; omega, ?_, ?_, rfl, hf⟩
  · intro k r h
    by_cases hk : k < 4
    · rw [List.getElem?_append_left (by simpa [fixed] using hk)] at h
      match k, hk with
      | 0, _ => cases h; rfl
      | 1, _ => cases h; rfl
      | 2, _ => cases h; rfl
      | 3, _ => cases h; rfl
    · have hk2 : k < 4 + n := by
        have := (List.getElem?_eq_some_iff.1 h).1
        simp [fixed] at this
        omega
      have := hf (k - 4) (by omega)
      rw [show 4 + (k - 4) = k by omega, h] at this
      cases this
      rfl
  · rw [List.map_append, List.nodup_append]
    refine ⟨by simp only [fixed, List.map_cons, List.map_nil]; decide +kernel, ?_, ?_⟩
    · rw [List.map_map]
      refine List.Nodup.map (fun i j h => ?_) List.nodup_range
      have h2 : Nat.toDigits 10 i = Nat.toDigits 10 j := List.append_cancel_left (h : fracName i = fracName j)
      exact zpad_injective 0 (by simpa [zpad] using h2)
    · intro a ha b hb
      rw [List.map_map, List.mem_map] at hb
      obtain ⟨i, _, rfl⟩ := hb
      intro he
      subst he
      have hhead : (fracName i).head? = some 'f' := rfl
      change fracName i ∈ _ at ha
      simp only [fixed, List.map_cons, List.map_nil, List.mem_cons, List.not_mem_nil, or_false] at ha
      rcases ha with h | h | h | h <;> (rw [h] at hhead; revert hhead; decide +kernel)

theorem get_foldl_set (r : Region K) (k : Nat) : ∀ (l : List Nat) (d : Dict Nat (Region K)),
    Dict.get? (l.foldl (fun d x => Dict.set d x r) d) k = if k ∈ l then some r else Dict.get? d k
  | [], d => by simp
  | x :: l, d => by
    rw [List.foldl_cons, get_foldl_set r k l]
    by_cases h : k ∈ l
    · rw [if_pos h, if_pos (List.mem_cons_of_mem _ h)]
    · rw [if_neg h]
      by_cases hx : k = x
      · subst hx
        rw [Dict.get?_set_self, if_pos List.mem_cons_self]
      · rw [Dict.get?_set_ne _ _ hx, if_neg (by simp [hx, h])]

theorem get_foldl_pairs (r : Region K) (k : Nat) (l : Dict Nat Nat) (d : Dict Nat (Region K)) :
    Dict.get? (l.foldl (fun d e => Dict.set d e.1 r) d) k = if k ∈ l.keys then some r else Dict.get? d k := by
  rw [← get_foldl_set r k l.keys d, Dict.keys, List.foldl_map]

theorem fracLoop_spec (regions : List (Region K)) (R : Nat → Region K) : ∀ (fs : List (Dict Nat Nat)) (i : Nat) (d : Dict Nat (Region K)),
    (∀ j < fs.length, regions[4 + (i + j)]? = some (R (i + j))) → ∃ d', fracLoop regions i fs d = .ok d' ∧ ∀ s,
      (∀ (j : Nat) (f : Dict Nat Nat), fs[j]? = some f → s ∈ f.keys → (∀ (j' : Nat) (f' : Dict Nat Nat), j < j' → fs[j']? = some f' → s ∉ f'.keys) → Dict.get? d' s = some (R (i + j))) ∧
      ((∀ (j : Nat) (f : Dict Nat Nat), fs[j]? = some f → s ∉ f.keys) → Dict.get? d' s = Dict.get? d s) ∧ ((Dict.get? d s).isSome → (Dict.get? d' s).isSome)
  | [], i, d, _ => ⟨d, rfl, fun s => ⟨(by simp), (fun _ => rfl), id⟩⟩
  | f :: fs, i, d, h => by
    have h0 := h 0 (by simp)
    obtain ⟨d', h1, h2⟩ := fracLoop_spec regions R fs (i + 1) (f.foldl (fun d e => Dict.set d e.1 (R i)) d) (by
      intro j hj
      have := h (j + 1) (by simpa using hj)
      rwa [show i + (j + 1) = i + 1 + j by omega] at this)
    have hstep : fracLoop regions i (f :: fs) d = fracLoop regions (i + 1) fs (f.foldl (fun d e => Dict.set d e.1 (R i)) d) := by
      cases f with
      | nil => rfl
      | cons e f =>
        rw [Nat.add_zero] at h0
        rw [fracLoop, regionAt, h0]
        rfl
        simp
    refine ⟨d', by rw [hstep, h1], fun s => ?_⟩
    obtain ⟨g1, g2, g3⟩ := h2 s
    refine ⟨?_, ?_, ?_⟩
    · intro j f' hj hs hlast
      match j, hj with
      | 0, hj =>
        cases hj
        rw [g2 (fun j f' hf => hlast (j + 1) f' (by omega) hf), get_foldl_pairs, if_pos hs]
        rfl
      | j + 1, hj =>
        have := g1 j f' hj hs (fun j' f'' hjj hf => hlast (j' + 1) f'' (by omega) hf)
        rwa [show i + 1 + j = i + (j + 1) by omega] at this
    · intro hno
      rw [g2 (fun j f' hf => hno (j + 1) f' hf), get_foldl_pairs, if_neg (hno 0 f rfl)]
    · intro hd
      refine g3 ?_
      rw [get_foldl_pairs]
      split
      · rfl
      · exact hd

theorem boundary_spec {inflow outflow : Nat} (hne : inflow ≠ outflow) (rin rout : Region K) (s : Nat) : ∀ (l : Dict Nat Nat) (d : Dict Nat (Region K)), l.keys.Nodup →
    (Dict.get? l s = some inflow → Dict.get? (l.foldl (boundaryStep inflow outflow rin rout) d) s = some rin) ∧
    (Dict.get? l s = some outflow → Dict.get? (l.foldl (boundaryStep inflow outflow rin rout) d) s = some rout) ∧
    (Dict.get? l s ≠ some inflow → Dict.get? l s ≠ some outflow → Dict.get? (l.foldl (boundaryStep inflow outflow rin rout) d) s = Dict.get? d s)
  | [], d, _ => ⟨(by intro h; cases h), (by intro h; cases h), fun _ _ => rfl⟩
  | (k, v) :: l, d, hnd => by
    have hk : k ∉ Dict.keys l ∧ (Dict.keys l).Nodup := List.nodup_cons.1 hnd
    obtain ⟨g1, g2, g3⟩ := boundary_spec hne rin rout s l (boundaryStep inflow outflow rin rout d (k, v)) hk.2
    rw [List.foldl_cons]
    by_cases hs : k = s
    · subst hs
      have hnone : Dict.get? l k = none := (Dict.get?_eq_none_iff _ _).2 hk.1
      have hget : Dict.get? ((k, v) :: l) k = some v := by simp [Dict.get?]
      rw [hget, g3 (by rw [hnone]; simp) (by rw [hnone]; simp)]
      simp only [boundaryStep, Option.some.injEq]
      refine ⟨?_, ?_, ?_⟩
      · intro h
        rw [if_neg (by rw [h]; exact hne), if_pos h, Dict.get?_set_self]
      · intro h
        rw [if_pos h, Dict.get?_set_self]
      · intro h1 h2
        rw [if_neg (fun h => h2 (by rw [h])), if_neg (fun h => h1 (by rw [h]))]
    · have hget : Dict.get? ((k, v) :: l) s = Dict.get? l s := by simp [Dict.get?, hs]
      have hstep : Dict.get? (boundaryStep inflow outflow rin rout d (k, v)) s = Dict.get? d s := by
        simp only [boundaryStep]
        split <;> split <;> simp [Dict.get?_set_ne _ _ (Ne.symm hs)]
      rw [hget]
      exact ⟨g1, g2, fun h1 h2 => (g3 h1 h2).trans hstep⟩

theorem polygon_spec (bulk : Region K) (p : Nat) : ∀ (l : Dict Nat Nat) (d : Dict Nat (Region K)), l.keys.Nodup →
    ((∃ q, q ≠ 0 ∧ Dict.get? l p = some q) → Dict.get? (l.foldl (fun d e => if e.2 = 0 then d else Dict.set d e.1 bulk) d) p = some bulk) ∧
    ((¬ ∃ q, q ≠ 0 ∧ Dict.get? l p = some q) → Dict.get? (l.foldl (fun d e => if e.2 = 0 then d else Dict.set d e.1 bulk) d) p = Dict.get? d p)
  | [], d, _ => ⟨(by rintro ⟨q, _, h⟩; cases h), fun _ => rfl⟩
  | (k, v) :: l, d, hnd => by
    have hk : k ∉ Dict.keys l ∧ (Dict.keys l).Nodup := List.nodup_cons.1 hnd
    obtain ⟨g1, g2⟩ := polygon_spec bulk p l (if v = 0 then d else Dict.set d k bulk) hk.2
    rw [List.foldl_cons]
    by_cases hs : k = p
    · subst hs
      have hnone : Dict.get? l k = none := (Dict.get?_eq_none_iff _ _).2 hk.1
      have hget : Dict.get? ((k, v) :: l) k = some v := by simp [Dict.get?]
      rw [hget, g2 (by rw [hnone]; simp)]
      by_cases hv : v = 0
      · simp [hv]
      · simp [hv, Dict.get?_set_self]
    · have hget : Dict.get? ((k, v) :: l) p = Dict.get? l p := by simp [Dict.get?, hs]
      have hstep : Dict.get? (if v = 0 then d else Dict.set d k bulk) p = Dict.get? d p := by
        split
        · rfl
        · exact Dict.get?_set_ne _ _ (Ne.symm hs)
      rw [hget]
      exact ⟨g1, fun h => (g2 h).trans hstep⟩

theorem idsOf_spec (d : Dict Nat (Region K)) : ∀ (ids : List Nat), (∀ k ∈ ids, (Dict.get? d k).isSome) →
    ∃ r, idsOf d ids = .ok r ∧ r.length = ids.length ∧ ∀ (j k : Nat), ids[j]? = some k → ∃ x, Dict.get? d k = some x ∧ r[j]? = some x.id
  | [], _ => ⟨[], rfl, rfl, (by intro j k h; simp at h)⟩
  | k :: ids, h => by
    obtain ⟨r, h1, h2, h3⟩ := idsOf_spec d ids fun k hk => h k (List.mem_cons_of_mem _ hk)
    obtain ⟨x, hx⟩ := Option.isSome_iff_exists.1 (h k List.mem_cons_self)
    refine ⟨x.id :: r, ?_, by simp [h2], ?_⟩
    · unfold idsOf at h1 ⊢
      rw [List.mapM_cons, h1, hx]
      rfl
    · intro j k' hj
      match j, hj with
      | 0, hj => cases hj; exact ⟨x, hx, rfl⟩
      | j + 1, hj => exact h3 j k' hj

/-- **C130** (partial): for every decomposition, segments on the inflow and outflow sides of the box are in the regions of these sides; every other segment of fractures is in the region of the last
fracture it is a part of, and segments of no fracture in none; polygons inside the box are in the bulk region, the others and all points in none.  Missing: segments on two fractures, or on a fracture and
the inflow or outflow side (counterexamples below). -/
theorem C130_geometry_partial [Zero K] (meshStep fracStep : K) (n : Nat) (D : Common) (h : D.Ok n) :
    ∃ g, geometry meshStep n fracStep D = .ok g ∧ g.regions = makeRegions meshStep n fracStep ∧
      g.segmentIds.length = D.segments.length ∧ g.polygonIds.length = D.polygons.length ∧ g.nodeIds.length = D.points.length ∧
      (∀ (j s : Nat), D.segments[j]? = some s → ∃ id, g.segmentIds[j]? = some id ∧
        (OnSide D D.inflow s → g.IsRegion id ".bc_inflow".toList) ∧ (OnSide D D.outflow s → g.IsRegion id ".bc_outflow".toList) ∧
        (¬ OnSide D D.inflow s → ¬ OnSide D D.outflow s →
          (∀ i, OnFracture D i s → (∀ i', i < i' → ¬ OnFracture D i' s) → g.IsRegion id (fracName i)) ∧ ((∀ i, ¬ OnFracture D i s) → g.IsRegion id "NONE".toList))) ∧
      (∀ (j p : Nat), D.polygons[j]? = some p → ∃ id, g.polygonIds[j]? = some id ∧ (InBox D p → g.IsRegion id "bulk_0".toList) ∧ (¬ InBox D p → g.IsRegion id "NONE".toList)) ∧
      (∀ (j v : Nat), D.points[j]? = some v → ∃ id, g.nodeIds[j]? = some id ∧ g.IsRegion id "NONE".toList) := by
  obtain ⟨_, hid, _, _, hfr⟩ := C130_regions meshStep fracStep n
  set regions := makeRegions meshStep n fracStep with hreg
  have e0 : regions[0]? = some ⟨"NONE".toList, -1, 0, false, true, 0⟩ := by rw [hreg, makeRegions_eq]; rfl
  have e1 : regions[1]? = some ⟨"bulk_0".toList, 2, meshStep, false, false, 1⟩ := by rw [hreg, makeRegions_eq]; rfl
  have e2 : regions[2]? = some ⟨".bc_inflow".toList, 1, 0, true, false, 2⟩ := by rw [hreg, makeRegions_eq]; rfl
  have e3 : regions[3]? = some ⟨".bc_outflow".toList, 1, 0, true, false, 3⟩ := by rw [hreg, makeRegions_eq]; rfl
  generalize hn0 : (⟨"NONE".toList, -1, 0, false, true, 0⟩ : Region K) = none_ at e0
  generalize hn1 : (⟨"bulk_0".toList, 2, meshStep, false, false, 1⟩ : Region K) = bulk at e1
  generalize hn2 : (⟨".bc_inflow".toList, 1, 0, true, false, 2⟩ : Region K) = rin at e2
  generalize hn3 : (⟨".bc_outflow".toList, 1, 0, true, false, 3⟩ : Region K) = rout at e3
  have hinit : ∀ (ids : List Nat) k, Dict.get? (ids.foldl (fun d k => Dict.set d k none_) ([] : Dict Nat (Region K))) k = if k ∈ ids then some none_ else none := fun ids k => by
    rw [get_foldl_set]
    rfl
  obtain ⟨segs, f1, f2⟩ := fracLoop_spec regions (fun i => ⟨fracName i, 1, fracStep, false, false, 4 + i⟩) D.fracSegments 0
    (D.segments.foldl (fun d k => Dict.set d k none_) []) (fun j hj => by rw [Nat.zero_add]; exact hfr j (h.fractures ▸ hj))
  have hmaps : regionMaps regions D = .ok (D.points.foldl (fun d k => Dict.set d k none_) [], D.boxSegments.foldl (boundaryStep D.inflow D.outflow rin rout) segs,
      D.boxPolygons.foldl (fun d e => if e.2 = 0 then d else Dict.set d e.1 bulk) (D.polygons.foldl (fun d k => Dict.set d k none_) [])) := by
    simp only [regionMaps, regionAt, e0, e1, e2, e3, bind, Except.bind, f1]
  have is : ∀ (g : Geometry K) (k : Nat) (r : Region K), g.regions = regions → regions[k]? = some r → g.IsRegion r.id r.name := by
    intro g k r hg hr
    have := hid k r hr
    exact ⟨r, by rw [hg, this, hr], rfl, rfl⟩
  have hsegs : ∀ s ∈ D.segments, (Dict.get? (D.boxSegments.foldl (boundaryStep D.inflow D.outflow rin rout) segs) s).isSome := by
    intro s hs
    obtain ⟨b1, b2, b3⟩ := boundary_spec h.sides rin rout s D.boxSegments segs h.boxSegments
    by_cases hi : Dict.get? D.boxSegments s = some D.inflow
    · rw [b1 hi]; rfl
    · by_cases ho : Dict.get? D.boxSegments s = some D.outflow
      · rw [b2 ho]; rfl
      · rw [b3 hi ho]
        exact (f2 s).2.2 (by rw [hinit, if_pos hs]; rfl)
  have hpolys : ∀ p ∈ D.polygons, (Dict.get? (D.boxPolygons.foldl (fun d e => if e.2 = 0 then d else Dict.set d e.1 bulk) (D.polygons.foldl (fun d k => Dict.set d k none_) [])) p).isSome := by
    intro p hp
    obtain ⟨b1, b2⟩ := polygon_spec bulk p D.boxPolygons (D.polygons.foldl (fun d k => Dict.set d k none_) []) h.boxPolygons
    by_cases hq : ∃ q, q ≠ 0 ∧ Dict.get? D.boxPolygons p = some q
    · rw [b1 hq]; rfl
    · rw [b2 hq, hinit, if_pos hp]; rfl
  obtain ⟨ps, p1, p2, p3⟩ := idsOf_spec _ D.polygons hpolys
  obtain ⟨ss, s1, s2, s3⟩ := idsOf_spec _ D.segments hsegs
  obtain ⟨vs, v1, v2, v3⟩ := idsOf_spec (D.points.foldl (fun d k => Dict.set d k none_) ([] : Dict Nat (Region K))) D.points (fun k hk => by rw [hinit, if_pos hk]; rfl)
  refine ⟨⟨regions, ps, ss, vs⟩, ?_, rfl, s2, p2, v2, ?_, ?_, ?_⟩
  · simp only [geometry, ← hreg, hmaps, bind, Except.bind, p1, s1, v1]
  · intro j s hj
    obtain ⟨x, hx, hjx⟩ := s3 j s hj
    obtain ⟨b1, b2, b3⟩ := boundary_spec h.sides rin rout s D.boxSegments segs h.boxSegments
    refine ⟨x.id, hjx, ?_, ?_, ?_⟩
    · intro hi
      rw [b1 hi] at hx
      cases hx
      have := is ⟨regions, ps, ss, vs⟩ 2 rin rfl e2
      rwa [← hn2] at this ⊢
    · intro ho
      rw [b2 ho] at hx
      cases hx
      have := is ⟨regions, ps, ss, vs⟩ 3 rout rfl e3
      rwa [← hn3] at this ⊢
    · intro hi ho
      rw [b3 hi ho] at hx
      constructor
      · rintro i ⟨f, hf, hs⟩ hlast
        rw [(f2 s).1 i f hf hs (fun j' f' hjj hf' hs' => hlast j' hjj ⟨f', hf', hs'⟩), Nat.zero_add] at hx
        cases hx
        exact is ⟨regions, ps, ss, vs⟩ (4 + i) _ rfl (hfr i (by
          have := (List.getElem?_eq_some_iff.1 hf).1
          rwa [h.fractures] at this))
      · intro hno
        rw [(f2 s).2.1 (fun j f hf hs => hno j ⟨f, hf, hs⟩), hinit, if_pos (List.mem_of_getElem? hj)] at hx
        cases hx
        have := is ⟨regions, ps, ss, vs⟩ 0 none_ rfl e0
        rwa [← hn0] at this ⊢
  · intro j p hj
    obtain ⟨x, hx, hjx⟩ := p3 j p hj
    obtain ⟨b1, b2⟩ := polygon_spec bulk p D.boxPolygons (D.polygons.foldl (fun d k => Dict.set d k none_) []) h.boxPolygons
    refine ⟨x.id, hjx, ?_, ?_⟩
    · intro hq
      rw [b1 hq] at hx
      cases hx
      have := is ⟨regions, ps, ss, vs⟩ 1 bulk rfl e1
      rwa [← hn1] at this ⊢
    · intro hq
      rw [b2 hq, hinit, if_pos (List.mem_of_getElem? hj)] at hx
      cases hx
      have := is ⟨regions, ps, ss, vs⟩ 0 none_ rfl e0
      rwa [← hn0] at this ⊢
  · intro j v hj
    obtain ⟨x, hx, hjx⟩ := v3 j v hj
    rw [hinit, if_pos (List.mem_of_getElem? hj)] at hx
    cases hx
    refine ⟨_, hjx, ?_⟩
    have := is ⟨regions, ps, ss, vs⟩ 0 none_ rfl e0
    rwa [← hn0] at this ⊢

/-- A box whose sides are the segments 0 (left), 1 (outflow), 2 (right), 3 (inflow), with two crossing fractures inside: segments 4, 5 of the first and 6, 7 of the second. -/
def cross : Common := ⟨[0, 1, 2, 3, 4, 5, 6, 7, 8], [0, 1, 2, 3, 4, 5, 6, 7], [0, 1], [(0, 0), (1, 1), (2, 2), (3, 3)], [(0, 0), (1, 1)], [[(4, 0), (5, 0)], [(6, 0), (7, 0)]], 3, 1⟩

example : cross.Ok 2 := ⟨rfl, (by decide), (by decide), (by decide)⟩

example : (geometry (5 : ℚ) 2 1 cross).toOption.map (fun g => (g.polygonIds, g.segmentIds, g.nodeIds, g.regions.map fun r => (String.ofList r.name, r.step))) =
    some ([0, 1], [0, 3, 0, 2, 4, 4, 5, 5], [0, 0, 0, 0, 0, 0, 0, 0, 0],
      [("NONE", 0), ("bulk_0", 5), (".bc_inflow", 0), (".bc_outflow", 0), ("frac_0", 1), ("frac_1", 1)]) := by decide +kernel

/-- **C130** is false for overlapping fractures: segment 4 is a part of both fractures and is only in the region of the second one; the first fracture is left with no segment at all. -/
theorem C130_counterexample_overlap :
    let D : Common := ⟨[0, 1, 2, 3, 4, 5], [0, 1, 2, 3, 4], [0, 1], [(0, 0), (1, 1), (2, 2), (3, 3)], [(0, 0), (1, 1)], [[(4, 0)], [(4, 0)]], 3, 1⟩
    D.Ok 2 ∧ OnFracture D 0 4 ∧ OnFracture D 1 4 ∧ (geometry (5 : ℚ) 2 1 D).toOption.map (·.segmentIds) = some [0, 3, 0, 2, 5] :=
  ⟨⟨rfl, (by decide), (by decide), (by decide)⟩, ⟨_, rfl, by decide⟩, ⟨_, rfl, by decide⟩, by decide +kernel⟩

/-- **C130** is false for a fracture along the inflow side of the box: its segment 3 is only in the region of the side. -/
theorem C130_counterexample_side :
    let D : Common := ⟨[0, 1, 2, 3], [0, 1, 2, 3], [0, 1], [(0, 0), (1, 1), (2, 2), (3, 3)], [(0, 0), (1, 1)], [[(3, 0)]], 3, 1⟩
    D.Ok 1 ∧ OnFracture D 0 3 ∧ (geometry (5 : ℚ) 1 1 D).toOption.map (·.segmentIds) = some [0, 3, 0, 2] :=
  ⟨⟨rfl, (by decide), (by decide), (by decide)⟩, ⟨_, rfl, by decide⟩, by decide +kernel⟩

/-- **C130**: the four lines added for the box are its sides, each one beginning where the one before ends; outflow is the side with the larger second coordinate, inflow that with the smaller one. -/
theorem box_sides (x0 y0 x1 y1 : K) :
    boxLines (x0, y0) (x1, y1) = [((x0, y0), (x0, y1)), ((x0, y1), (x1, y1)), ((x1, y1), (x1, y0)), ((x1, y0), (x0, y0))] := rfl

end MLMC.Frac
