import Verif.Props.Estimator
/-! Estimated moments of linear combinations of moment functions. -/
namespace MLMC
variable {F : Type} [Field F]

/-- Values of a moment quantity, sample by sample. -/
theorem mom_good [CharZero F] {sid W nLevels : Nat} {q : Quantity (Option F)} (hq : Built sid .qty q) (hid : IdsIdentify q) {M : Nat} {g : List (Option F) → List (Option F)}
    (hres : GoodQ sid W q (some (M, g))) {fn : MomentFn (Option F)} (hR : 0 < fn.size) {bottom : Bool} {o : Nat} {r : Quantity (Option F)} (hr : q.moments o fn bottom = .ok r)
    {chunks : List (Nat × List (Sample (Option F)))} (hwf : ChunksWF W chunks) {er : QuantityMean F} (her : estimateMean r nLevels (asChunks sid W chunks) = .ok er) :
    Built sid .qty r ∧ IdsIdentify r ∧ r.size = q.size * fn.size ∧ M = q.size ∧
      GoodQ sid W r (some (M * fn.size, fun v => momVec fn bottom (g v))) ∧ ∀ x, keep sid W r x = keep sid W q x := by
  have hbr : Built sid .qty r := .moments o fn bottom hq hr
  obtain ⟨_, hqc⟩ := built_good W hq hid
  have hrn := (mk_ok hr).1
  have hidr : IdsIdentify r := by rw [hrn]; exact ids_un hid _ _ _
  obtain ⟨gr0, hgr0⟩ := est_good hbr hidr hwf her
  have hgr : GoodQ sid W r (some (M * fn.size, fun v => momVec fn bottom (g v))) ∧ ∀ x, keep sid W r x = keep sid W q x := by
    rw [hrn]
    apply good_un' _ _ _ hres hqc
    intro x p S hx
    refine ⟨_, rfl, hx.n, hx.p, ?_, ?_⟩
    · cases bottom <;> simp [List.length_flatMap, hx.m, Nat.mul_comm]
    · intro j hj k hk
      have := hx.val j hj k hk
      rw [← this]
      unfold momVec
      cases bottom
      · simp [List.map_flatMap, Function.comp_def]
      · simp [List.map_flatMap, List.flatMap_map, Function.comp_def]
  have hMr := goodQ_m hgr0 hgr.1
  have hs : r.size = q.size * fn.size := by
    rw [hrn]
    cases bottom
    · change (QType.array [fn.size] q.qtype).size = q.qtype.size * fn.size
      simp [QType.size, Nat.mul_comm]
    · change (q.qtype.replaceScalar (.array [fn.size] .scalar)).size = q.qtype.size * fn.size
      rw [size_replaceScalar]
      simp [QType.size]
  rw [hs] at hMr
  exact ⟨hbr, hidr, hs, (Nat.eq_of_mul_eq_mul_right hR hMr).symm, hgr⟩

/-- The quantity evaluates when its moments do. -/
theorem mom_res [CharZero F] {sid W nLevels : Nat} {q : Quantity (Option F)} (hq : Built sid .qty q) (hid : IdsIdentify q)
    {fn : MomentFn (Option F)} {bottom : Bool} {o : Nat} {r : Quantity (Option F)} (hr : q.moments o fn bottom = .ok r)
    {chunks : List (Nat × List (Sample (Option F)))} (hwf : ChunksWF W chunks) {er : QuantityMean F} (her : estimateMean r nLevels (asChunks sid W chunks) = .ok er) :
    ∃ M g, GoodQ sid W q (some (M, g)) := by
  obtain ⟨⟨res, hres⟩, hqc⟩ := built_good W hq hid
  have hrn := (mk_ok hr).1
  obtain ⟨gr0, hgr0⟩ := est_good (.moments o fn bottom hq hr) (by rw [hrn]; exact ids_un hid _ _ _) hwf her
  cases res with
  | none =>
    exfalso
    obtain ⟨x, hx⟩ := hres ⟨W, 1, []⟩ (by intro s hs; simp at hs) rfl
    obtain ⟨y, hy, _⟩ := hgr0 ⟨W, 1, []⟩ (by intro s hs; simp at hs) rfl
    rw [hrn, on_one, hx] at hy
    simp [Except.bind] at hy
  | some mg => exact ⟨mg.1, mg.2, hres⟩

/-- The functions of `fn'` are NaN where some function of `fn` is, and elsewhere combinations of those of `fn` with the coefficients `A`. -/
structure Combines (A : Nat → Nat → F) (fn fn' : MomentFn (Option F)) : Prop where
  nan : ∀ x, (∃ i < fn.size, fn.ev i x = none) → ∀ i < fn'.size, fn'.ev i x = none
  value : ∀ x, (¬ ∃ i < fn.size, fn.ev i x = none) → ∀ i < fn'.size, fn'.ev i x = some (∑ j ∈ Finset.range fn.size, A i j * (fn.ev j x).getD 0)

theorem momVec_nan_iff {A : Nat → Nat → F} {fn fn' : MomentFn (Option F)} (h : Combines A fn fn') (hR' : 0 < fn'.size) (bottom bottom' : Bool) (v : List (Option F)) :
    none ∈ momVec fn' bottom' v ↔ none ∈ momVec fn bottom v := by
  rw [mem_momVec, mem_momVec]
  constructor
  · rintro ⟨x, hx, i, hi, he⟩
    by_cases hn : ∃ i < fn.size, fn.ev i x = none
    · obtain ⟨j, hj, e⟩ := hn
      exact ⟨x, hx, j, hj, e.symm⟩
    · rw [h.value x hn i hi] at he
      exact absurd he (by simp)
  · rintro ⟨x, hx, i, hi, he⟩
    exact ⟨x, hx, 0, hR', (h.nan x ⟨i, hi, he.symm⟩ 0 hR').symm⟩

/-- Used differences of the moments of both families: the same samples, combined values. -/
theorem mom_linear [CharZero F] {sid W nLevels : Nat} {q : Quantity (Option F)} (hq : Built sid .qty q) (hid : IdsIdentify q)
    {A : Nat → Nat → F} {fn fn' : MomentFn (Option F)} (hc : Combines A fn fn') (hR : 0 < fn.size) (hR' : 0 < fn'.size) {bottom : Bool} {o o' : Nat} {r r' : Quantity (Option F)}
    (hr : q.moments o fn bottom = .ok r) (hr' : q.moments o' fn' bottom = .ok r')
    {chunks : List (Nat × List (Sample (Option F)))} (hwf : ChunksWF W chunks) {er er' : QuantityMean F}
    (her : estimateMean r nLevels (asChunks sid W chunks) = .ok er) (her' : estimateMean r' nLevels (asChunks sid W chunks) = .ok er') (l : Nat) :
    ∃ V : List (Nat → Nat → F), V.length = (usedValues r sid W (levelData chunks l)).length ∧ V.length = (usedValues r' sid W (levelData chunks l)).length ∧
      ∀ m < q.size, (∀ i < fn.size, usedDiffs r sid W l (momRow bottom q.size fn.size m i) (levelData chunks l) = V.map fun v => v m i) ∧
        ∀ i < fn'.size, usedDiffs r' sid W l (momRow bottom q.size fn'.size m i) (levelData chunks l) = V.map fun v => ∑ j ∈ Finset.range fn.size, A i j * v m j := by
  obtain ⟨M, g, hres⟩ := mom_res hq hid hr hwf her
  obtain ⟨hbr, hidr, hsz, hM, hgr, hkr⟩ := mom_good hq hid hres hR hr hwf her
  obtain ⟨hbr', hidr', hsz', _, hgr', hkr'⟩ := mom_good hq hid hres hR' hr' hwf her'
  subst hM
  have hD := levelData_wf hwf l
  have hkeep : (levelData chunks l).filter (keep sid W r') = (levelData chunks l).filter (keep sid W r) :=
    List.filter_congr fun x _ => by rw [hkr, hkr']
  have hnan : ∀ s : Sample (Option F), hasNan (s.map fun v => momVec fn' bottom (g v)) = hasNan (s.map fun v => momVec fn bottom (g v)) := by
    intro s
    rw [Bool.eq_iff_iff, hasNan_iff, hasNan_iff]
    exact exists_congr fun u => and_congr_right fun _ => momVec_nan_iff hc hR' bottom bottom (g u)
  have hlist : ((levelData chunks l).filter (keep sid W r')).filter (fun s => !hasNan (s.map fun v => momVec fn' bottom (g v))) =
      ((levelData chunks l).filter (keep sid W r)).filter (fun s => !hasNan (s.map fun v => momVec fn bottom (g v))) := by
    rw [hkeep]
    exact List.filter_congr fun x _ => by rw [hnan]
  refine ⟨(((levelData chunks l).filter (keep sid W r)).filter fun s => !hasNan (s.map fun v => momVec fn bottom (g v))).map
    fun s m i => cv (fun v => momVec fn bottom (g v)) l (momRow bottom q.size fn.size m i) s, ?_, ?_, ?_⟩
  · rw [usedValues_gen hgr hD]; simp
  · rw [usedValues_gen hgr' hD, hlist]; simp
  · intro m hm
    refine ⟨fun i hi => ?_, fun i hi => ?_⟩
    · rw [usedDiffs_gen hgr hD _ (momRow_lt hm hi), List.map_map]
      rfl
    · rw [usedDiffs_gen hgr' hD _ (momRow_lt hm hi), hlist, List.map_map]
      apply List.map_congr_left
      intro s hs
      rw [List.mem_filter, List.mem_filter] at hs
      have hk : keep sid W q s = true := by rw [← hkr]; exact hs.1.2
      have hlen := (level_sample hD hs.1.1).1
      have hno : ∀ k, k < s.length → ∀ m < q.size, ¬ ∃ i < fn.size, fn.ev i ((g (s.getD k [])).getD m none) = none := by
        rintro k hk' m hm ⟨j, hj, hn⟩
        have e := good_length hres (level_sample hD hs.1.1).2 hk k hk'
        have : hasNan (s.map fun v => momVec fn bottom (g v)) = true := by
          rw [hasNan_iff]
          refine ⟨s.getD k [], by rw [getD_lt _ _ _ hk']; exact List.getElem_mem hk', (mem_momVec _ _ _ _).2 ⟨(g (s.getD k [])).getD m none, ?_, j, hj, hn.symm⟩⟩
          rw [getD_lt (g (s.getD k [])) _ _ (by rw [e]; exact hm)]
          exact List.getElem_mem _
        rw [this] at hs
        simp at hs
      have hv : ∀ k, k < s.length → ∀ j < fn.size, (momVec fn bottom (g (s.getD k []))).getD (momRow bottom q.size fn.size m j) none = fn.ev j ((g (s.getD k [])).getD m none) := by
        intro k hk' j hj
        have e := good_length hres (level_sample hD hs.1.1).2 hk k hk'
        have := momVec_getD fn bottom (g (s.getD k [])) m j (by rw [e]; exact hm) hj
        rwa [e] at this
      have hv' : ∀ k, k < s.length → ((momVec fn' bottom (g (s.getD k []))).getD (momRow bottom q.size fn'.size m i) none).getD 0 =
          ∑ j ∈ Finset.range fn.size, A i j * ((momVec fn bottom (g (s.getD k []))).getD (momRow bottom q.size fn.size m j) none).getD 0 := by
        intro k hk'
        have e := good_length hres (level_sample hD hs.1.1).2 hk k hk'
        have := momVec_getD fn' bottom (g (s.getD k [])) m i (by rw [e]; exact hm) hi
        rw [e] at this
        rw [this, hc.value _ (hno k hk' m hm) i hi, Option.getD_some]
        exact Finset.sum_congr rfl fun j hj => by rw [hv k hk' j (Finset.mem_range.1 hj)]
      simp only [Function.comp_apply]
      unfold cv
      by_cases h0 : l = 0
      · rw [if_pos h0] at hlen
        simp only [h0, if_true]
        exact hv' 0 (by omega)
      · rw [if_neg h0] at hlen
        simp only [h0, if_false]
        rw [hv' 0 (by omega), hv' 1 (by omega), ← Finset.sum_sub_distrib]
        exact Finset.sum_congr rfl fun j _ => by ring

theorem average_combine {ι : Type} (V : List ι) (s : Finset Nat) (a : Nat → F) (f : Nat → ι → F) :
    average (V.map fun v => ∑ j ∈ s, a j * f j v) = ∑ j ∈ s, a j * average (V.map (f j)) := by
  have key : (V.map fun v => ∑ j ∈ s, a j * f j v).sum = ∑ j ∈ s, a j * (V.map (f j)).sum := by
    induction V with
    | nil => simp
    | cons v V ih =>
      simp only [List.map_cons, List.sum_cons, ih, mul_add, Finset.sum_add_distrib]
  unfold average
  simp only [List.length_map, key, Finset.sum_div, mul_div_assoc]

theorem floatSum_none_mem {xs : List (Option F)} (h : none ∈ xs) : floatSum xs = none := by
  induction xs with
  | nil => simp at h
  | cons x xs ih =>
    unfold floatSum at ih ⊢
    rw [List.foldr_cons]
    rcases List.mem_cons.1 h with rfl | h
    · simp
    · rw [ih h]; cases x <;> simp

/-- Estimated means of combinations are the combinations of the estimated means. -/
theorem mean_linear [CharZero F] {sid W nLevels : Nat} {q : Quantity (Option F)} (hq : Built sid .qty q) (hid : IdsIdentify q)
    {A : Nat → Nat → F} {fn fn' : MomentFn (Option F)} (hc : Combines A fn fn') (hR : 0 < fn.size) (hR' : 0 < fn'.size) {bottom : Bool} {o o' : Nat} {r r' : Quantity (Option F)}
    (hr : q.moments o fn bottom = .ok r) (hr' : q.moments o' fn' bottom = .ok r')
    {chunks : List (Nat × List (Sample (Option F)))} (hwf : ChunksWF W chunks) (hl : ∀ c ∈ chunks, c.1 < nLevels) {er er' : QuantityMean F}
    (her : estimateMean r nLevels (asChunks sid W chunks) = .ok er) (her' : estimateMean r' nLevels (asChunks sid W chunks) = .ok er')
    {m : Nat} (hm : m < q.size) {i : Nat} (hi : i < fn'.size) :
    ((∀ l < nLevels, usedValues r sid W (levelData chunks l) ≠ []) ∧ ∃ mu : Nat → F, (∀ j < fn.size, er.mean.getD (momRow bottom q.size fn.size m j) none = some (mu j)) ∧
      er'.mean.getD (momRow bottom q.size fn'.size m i) none = some (∑ j ∈ Finset.range fn.size, A i j * mu j)) ∨
    ((∀ j < fn.size, er.mean.getD (momRow bottom q.size fn.size m j) none = none) ∧ er'.mean.getD (momRow bottom q.size fn'.size m i) none = none) := by
  obtain ⟨M, g, hres⟩ := mom_res hq hid hr hwf her
  obtain ⟨hbr, hidr, hsz, hM, -, -⟩ := mom_good hq hid hres hR hr hwf her
  obtain ⟨hbr', hidr', hsz', -, -, -⟩ := mom_good hq hid hres hR' hr' hwf her'
  have E := C46_textbook_estimators sid W nLevels r hbr hidr chunks hwf hl er her
  have E' := C46_textbook_estimators sid W nLevels r' hbr' hidr' chunks hwf hl er' her'
  choose V hV1 hV2 hV using fun l => mom_linear hq hid hc hR hR' hr hr' hwf her her' l
  have hml : er.lMeans.length = nLevels := by rw [E.means]; simp
  have hml' : er'.lMeans.length = nLevels := by rw [E'.means]; simp
  have hlt : ∀ j < fn.size, momRow bottom q.size fn.size m j < r.size := fun j hj => by rw [hsz]; exact momRow_lt hm hj
  have hlt' : momRow bottom q.size fn'.size m i < r'.size := by rw [hsz']; exact momRow_lt hm hi
  have hlev : ∀ l < nLevels, ∀ j < fn.size, (er.lMeans.getD l []).getD (momRow bottom q.size fn.size m j) none = if V l = [] then none else some (average ((V l).map fun v => v m j)) := by
    intro l hl' j hj
    rw [E.means, getD_lt _ ([] : List (Option F)) _ (by simpa using hl')]
    simp only [List.getElem_map, List.getElem_range]
    rw [getD_lt _ _ _ (by simpa using hlt j hj)]
    simp only [List.getElem_map, List.getElem_range]
    have hl0 : usedValues r sid W (levelData chunks l) = [] ↔ V l = [] := by rw [← List.length_eq_zero_iff, ← hV1 l, List.length_eq_zero_iff]
    simp only [hl0, (hV l m hm).1 j hj]
  have hlev' : ∀ l < nLevels, (er'.lMeans.getD l []).getD (momRow bottom q.size fn'.size m i) none =
      if V l = [] then none else some (∑ j ∈ Finset.range fn.size, A i j * average ((V l).map fun v => v m j)) := by
    intro l hl'
    rw [E'.means, getD_lt _ ([] : List (Option F)) _ (by simpa using hl')]
    simp only [List.getElem_map, List.getElem_range]
    rw [getD_lt _ _ _ (by simpa using hlt')]
    simp only [List.getElem_map, List.getElem_range]
    have hl0 : usedValues r' sid W (levelData chunks l) = [] ↔ V l = [] := by rw [← List.length_eq_zero_iff, ← hV2 l, List.length_eq_zero_iff]
    simp only [hl0, (hV l m hm).2 i hi, average_combine]
  by_cases hall : ∀ l < nLevels, V l ≠ []
  · left
    refine ⟨fun l hl' h => hall l hl' (by rw [← List.length_eq_zero_iff, hV1 l, h]; rfl), fun j => ((List.range nLevels).map fun l => average ((V l).map fun v => v m j)).sum, fun j hj => ?_, ?_⟩
    · rw [mean_getD hml (by rw [E.qtype]; exact hlt j hj), ← floatSum_somes, List.map_map]
      congr 1
      apply List.map_congr_left
      intro l hl'
      rw [hlev l (List.mem_range.1 hl') j hj, if_neg (hall l (List.mem_range.1 hl'))]
      rfl
    · rw [mean_getD hml' (by rw [E'.qtype]; exact hlt')]
      have : ((List.range nLevels).map fun l => (er'.lMeans.getD l []).getD (momRow bottom q.size fn'.size m i) none) =
          ((List.range nLevels).map fun l => ∑ j ∈ Finset.range fn.size, A i j * average ((V l).map fun v => v m j)).map some := by
        rw [List.map_map]
        apply List.map_congr_left
        intro l hl'
        rw [hlev' l (List.mem_range.1 hl'), if_neg (hall l (List.mem_range.1 hl'))]
        rfl
      rw [this, floatSum_somes]
      congr 1
      generalize List.range nLevels = ls
      induction ls with
      | nil => simp
      | cons l ls ih =>
        simp only [List.map_cons, List.sum_cons, ih, mul_add, Finset.sum_add_distrib]
  · right
    push Not at hall
    obtain ⟨l, hl', h0⟩ := hall
    constructor
    · intro j hj
      rw [mean_getD hml (by rw [E.qtype]; exact hlt j hj)]
      apply floatSum_none_mem
      rw [List.mem_map]
      exact ⟨l, List.mem_range.2 hl', by rw [hlev l hl' j hj, if_pos h0]⟩
    · rw [mean_getD hml' (by rw [E'.qtype]; exact hlt')]
      apply floatSum_none_mem
      rw [List.mem_map]
      exact ⟨l, List.mem_range.2 hl', by rw [hlev' l hl', if_pos h0]⟩

end MLMC
