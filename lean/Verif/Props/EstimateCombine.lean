import Verif.Props.MomentParts
/-! # C48 The estimate of a linear combination, in data with NaN -/
namespace MLMC
variable {F : Type} [Field F]

/-- Two estimates with the same used samples and equal values on them are equal. -/
theorem same_estimate [CharZero F] {sid W nLevels M N : Nat} {Q R : Quantity (Option F)} {G G' : List (Option F) → List (Option F)} {chunks : List (Nat × List (Sample (Option F)))}
    (hwf : ChunksWF W chunks) {e er : QuantityMean F} (E : IsEstimate Q sid W nLevels (levelData chunks) e) (R' : IsEstimate R sid W nLevels (levelData chunks) er)
    (hQ : GoodQ sid W Q (some (M, G))) (hR : GoodQ sid W R (some (N, G'))) (hkeep : ∀ x, keep sid W R x = keep sid W Q x) (ht : R.qtype = Q.qtype)
    (hval : ∀ s : Sample (Option F), (⟨W, s.length, [s]⟩ : Batch (Option F)).WF → keep sid W Q s = true → hasNan (s.map G') = false → ∀ k < s.length, G' (s.getD k []) = G (s.getD k []))
    (hnan : ∀ l, SameNan R Q sid W (levelData chunks l)) : er = e := by
  have hD := fun l => levelData_wf hwf l
  have hsz : R.size = Q.size := by unfold Quantity.size; rw [ht]
  have hf : ∀ l, (levelData chunks l).filter (keep sid W R) = (levelData chunks l).filter (keep sid W Q) :=
    fun l => List.filter_congr fun x _ => hkeep x
  have hsn : ∀ l, ∀ s ∈ (levelData chunks l).filter (keep sid W Q), hasNan (s.map G') = hasNan (s.map G) := by
    intro l s hs
    rw [List.mem_filter] at hs
    have hw := (level_sample (hD l) hs.1).2
    exact hnan l s hs.1 _ _ (by rw [perSample_of_good hR s hw, if_pos ((hkeep s).trans hs.2)]) (by rw [perSample_of_good hQ s hw, if_pos hs.2])
  have hff : ∀ l, (((levelData chunks l).filter (keep sid W R)).filter fun s => !hasNan (s.map G')) = ((levelData chunks l).filter (keep sid W Q)).filter fun s => !hasNan (s.map G) := by
    intro l
    rw [hf]
    exact List.filter_congr fun s hs => by rw [hsn l s hs]
  have hdrop : ∀ l, ((levelValues R sid W (levelData chunks l)).filter hasNan).length = ((levelValues Q sid W (levelData chunks l)).filter hasNan).length := by
    intro l
    rw [levelValues_good hQ (hD l), levelValues_good hR (hD l), List.filter_map, List.filter_map, List.length_map, List.length_map, hf]
    congr 1
    exact List.filter_congr fun s hs => hsn l s hs
  have hused : ∀ l, usedValues R sid W (levelData chunks l) = usedValues Q sid W (levelData chunks l) := by
    intro l
    rw [usedValues_gen hQ (hD l), usedValues_gen hR (hD l), hff]
    apply List.map_congr_left
    intro s hs
    rw [List.mem_filter, List.mem_filter] at hs
    have hw := level_sample (hD l) hs.1.1
    have hn : hasNan (s.map G') = false := by
      rw [hsn l s (List.mem_filter.2 hs.1)]
      simpa using hs.2
    apply List.map_congr_left
    intro v hv
    obtain ⟨k, hk, rfl⟩ := List.mem_iff_getElem.1 hv
    have := hval s hw.2 hs.1.2 hn k hk
    rwa [getD_lt _ _ _ hk] at this
  have hdiff : ∀ l i, usedDiffs R sid W l i (levelData chunks l) = usedDiffs Q sid W l i (levelData chunks l) := by
    intro l i
    unfold usedDiffs
    rw [hused]
  obtain ⟨t, ms, vs, ns, rm⟩ := er
  obtain ⟨t', ms', vs', ns', rm'⟩ := e
  have h1 := R'.qtype
  have h2 := R'.means
  have h3 := R'.vars
  have h4 := R'.used
  have h5 := R'.dropped
  have g1 := E.qtype
  have g2 := E.means
  have g3 := E.vars
  have g4 := E.used
  have g5 := E.dropped
  simp only at h1 h2 h3 h4 h5 g1 g2 g3 g4 g5
  rw [h1, h2, h3, h4, h5, g1, g2, g3, g4, g5, ht, hsz]
  simp only [hused, hdiff, hdrop]

/-- The estimate of a combination `a * q1 + b * q2`, if all three drop the same samples. -/
theorem combine_estimates [CharZero F] {sid W nLevels m : Nat} {Q1 Q2 R : Quantity (Option F)} {g1 g2 G : List (Option F) → List (Option F)} {chunks : List (Nat × List (Sample (Option F)))}
    (hwf : ChunksWF W chunks) {e1 e2 e : QuantityMean F} (E1 : IsEstimate Q1 sid W nLevels (levelData chunks) e1) (E2 : IsEstimate Q2 sid W nLevels (levelData chunks) e2)
    (E : IsEstimate R sid W nLevels (levelData chunks) e) (s1 : Q1.size = m) (s2 : Q2.size = m) (s0 : R.size = m)
    (hg1 : GoodQ sid W Q1 (some (m, g1))) (hg2 : GoodQ sid W Q2 (some (m, g2))) (hG : GoodQ sid W R (some (m, G)))
    (hkeep1 : ∀ x, keep sid W R x = keep sid W Q1 x) (hkeep2 : ∀ x, keep sid W R x = keep sid W Q2 x) (a b : F)
    (hval : ∀ s : Sample (Option F), (⟨W, s.length, [s]⟩ : Batch (Option F)).WF → keep sid W R s = true → hasNan (s.map G) = false → ∀ k < s.length, ∀ i < m, ∀ x y,
      (g1 (s.getD k [])).getD i none = some x → (g2 (s.getD k [])).getD i none = some y → (G (s.getD k [])).getD i none = some (a * x + b * y))
    (hnan1 : ∀ l, SameNan R Q1 sid W (levelData chunks l)) (hnan2 : ∀ l, SameNan R Q2 sid W (levelData chunks l)) :
    e.nSamples = e1.nSamples ∧ e.nSamples = e2.nSamples ∧
      e.lMeans = List.zipWith (List.zipWith fun x y => floatAdd (some a * x) (some b * y)) e1.lMeans e2.lMeans ∧
      e.mean = List.zipWith (fun x y => floatAdd (some a * x) (some b * y)) e1.mean e2.mean := by
  have hD := fun l => levelData_wf hwf l
  have hmul : ∀ (c : F) (x : Option F), some c * x = x.map (c * ·) := fun c x => rfl
  have hff : ∀ {Q : Quantity (Option F)} {g : List (Option F) → List (Option F)} (_ : GoodQ sid W Q (some (m, g))) (_ : ∀ x, keep sid W R x = keep sid W Q x)
      (_ : ∀ l, SameNan R Q sid W (levelData chunks l)) (l : Nat),
      (((levelData chunks l).filter (keep sid W Q)).filter fun s => !hasNan (s.map g)) = ((levelData chunks l).filter (keep sid W R)).filter fun s => !hasNan (s.map G) := by
    intro Q g hQ hk hn l
    rw [show (levelData chunks l).filter (keep sid W Q) = (levelData chunks l).filter (keep sid W R) from List.filter_congr fun x _ => (hk x).symm]
    refine List.filter_congr fun s hs => ?_
    rw [List.mem_filter] at hs
    have hw := (level_sample (hD l) hs.1).2
    have : hasNan (s.map G) = hasNan (s.map g) :=
      hn l s hs.1 _ _ (by rw [perSample_of_good hG s hw, if_pos hs.2]) (by rw [perSample_of_good hQ s hw, if_pos ((hk s).symm.trans hs.2)])
    rw [this]
  have hu1 := fun l => (usedValues_gen hg1 (hD l)).trans (congrArg _ (hff hg1 hkeep1 hnan1 l))
  have hu2 := fun l => (usedValues_gen hg2 (hD l)).trans (congrArg _ (hff hg2 hkeep2 hnan2 l))
  have hus := fun l => usedValues_gen hG (hD l)
  have hcv : ∀ l, ∀ x ∈ ((levelData chunks l).filter (keep sid W R)).filter (fun s => !hasNan (s.map G)), ∀ i < m, cv G l i x = a * cv g1 l i x + b * cv g2 l i x := by
    intro l x hx i hi
    have hx1 := hx
    have hx2 := hx
    rw [← hff hg1 hkeep1 hnan1 l] at hx1
    rw [← hff hg2 hkeep2 hnan2 l] at hx2
    rw [List.mem_filter, List.mem_filter] at hx hx1 hx2
    have hw := level_sample (hD l) hx.1.1
    have hc : ∀ k < x.length, ∃ y z, (g1 (x.getD k [])).getD i none = some y ∧ (g2 (x.getD k [])).getD i none = some z ∧
        (G (x.getD k [])).getD i none = some (a * y + b * z) := by
      intro k hk
      obtain ⟨y, hy⟩ := hasNan_false (by simpa using hx1.2) k hk i (by rw [good_length hg1 hw.2 hx1.1.2 k hk]; exact hi)
      obtain ⟨z, hz⟩ := hasNan_false (by simpa using hx2.2) k hk i (by rw [good_length hg2 hw.2 hx2.1.2 k hk]; exact hi)
      exact ⟨y, z, hy, hz, hval x hw.2 hx.1.2 (by simpa using hx.2) k hk i hi y z hy hz⟩
    have hsh := hw.1
    unfold cv
    by_cases h0 : l = 0
    · rw [if_pos h0] at hsh
      obtain ⟨y, z, h1, h2, h3⟩ := hc 0 (by omega)
      rw [if_pos h0, if_pos h0, if_pos h0, h1, h2, h3]; rfl
    · rw [if_neg h0] at hsh
      obtain ⟨y, z, h1, h2, h3⟩ := hc 0 (by omega)
      obtain ⟨y', z', h1', h2', h3'⟩ := hc 1 (by omega)
      rw [if_neg h0, if_neg h0, if_neg h0, h1, h2, h3, h1', h2', h3']
      simp only [Option.getD_some]; ring
  have hmeans : e.lMeans = List.zipWith (List.zipWith fun x y => floatAdd (some a * x) (some b * y)) e1.lMeans e2.lMeans := by
    rw [E.means, E1.means, E2.means, List.zipWith_map, List.zipWith_self]
    refine List.map_congr_left fun l _ => ?_
    rw [s0, s1, s2, List.zipWith_map, List.zipWith_self]
    refine List.map_congr_left fun i hi => ?_
    rw [List.mem_range] at hi
    rw [usedDiffs_gen hG (hD l) i hi, usedDiffs_gen hg1 (hD l) i hi, usedDiffs_gen hg2 (hD l) i hi, hff hg1 hkeep1 hnan1 l, hff hg2 hkeep2 hnan2 l, hus, hu1, hu2]
    by_cases hnil : ((levelData chunks l).filter (keep sid W R)).filter (fun s => !hasNan (s.map G)) = []
    · simp [hnil, floatAdd, hmul]
    · have hm : ∀ g : List (Option F) → List (Option F), ¬ (((levelData chunks l).filter (keep sid W R)).filter fun s => !hasNan (s.map G)).map (·.map g) = [] := by
        intro g h; rw [List.map_eq_nil_iff] at h; exact hnil h
      rw [if_neg (hm _), if_neg (hm _), if_neg (hm _)]
      simp only [hmul, floatAdd, Option.map_some, Option.bind_some, Option.some.injEq]
      rw [← average_lin]
      congr 1
      apply List.map_congr_left
      intro x hx
      exact hcv l x hx i hi
  refine ⟨?_, ?_, hmeans, ?_⟩
  · rw [E.used, E1.used]
    refine List.map_congr_left fun l _ => ?_
    rw [hus, hu1, List.length_map, List.length_map]
  · rw [E.used, E2.used]
    refine List.map_congr_left fun l _ => ?_
    rw [hus, hu2, List.length_map, List.length_map]
  · have t0 : e.qtype.size = m := by rw [E.qtype]; exact s0
    have t1 : e1.qtype.size = m := by rw [E1.qtype]; exact s1
    have t2 : e2.qtype.size = m := by rw [E2.qtype]; exact s2
    unfold QuantityMean.mean
    rw [t0, t1, t2, List.zipWith_map, List.zipWith_self]
    refine List.map_congr_left fun i hi => ?_
    rw [List.mem_range] at hi
    rw [hmeans, E1.means, E2.means, List.zipWith_map, List.zipWith_self]
    simp only [List.map_map]
    have := floatSum_lin a b ((List.range nLevels).map fun l =>
      ((((List.range Q1.size).map fun i => if usedValues Q1 sid W (levelData chunks l) = [] then none else
          some (average (usedDiffs Q1 sid W l i (levelData chunks l)))).getD i none),
       (((List.range Q2.size).map fun i => if usedValues Q2 sid W (levelData chunks l) = [] then none else
          some (average (usedDiffs Q2 sid W l i (levelData chunks l)))).getD i none)))
    simp only [List.map_map, Function.comp_def] at this
    rw [Function.comp_def, Function.comp_def, Function.comp_def, ← this]
    congr 1
    apply List.map_congr_left
    intro l _
    rw [s1, s2, List.zipWith_map, List.zipWith_self, getD_lt _ _ _ (by simpa using hi), getD_lt _ _ _ (by simpa using hi),
      getD_lt _ _ _ (by simpa using hi)]
    simp

theorem hasNan_entries {s : Sample (Option F)} {g : List (Option F) → List (Option F)} {m : Nat} (hlen : ∀ k < s.length, (g (s.getD k [])).length = m) :
    hasNan (s.map g) = false ↔ ∀ k < s.length, ∀ i < m, (g (s.getD k [])).getD i none ≠ none := by
  constructor
  · intro h k hk i hi
    obtain ⟨x, hx⟩ := hasNan_false h k hk i (by rw [hlen k hk]; exact hi)
    rw [hx]; simp
  · intro h
    apply hasNan_of
    intro k hk x hx
    obtain ⟨i, hi, rfl⟩ := List.mem_iff_getElem.1 hx
    have := h k hk i (by rw [← hlen k hk]; exact hi)
    rwa [getD_lt _ _ _ hi] at this

/-- C48, linearity in data with NaN: if every sample with a NaN value of one quantity has one of the other too, the estimate of
`a * q1 + b * q2` exists, uses the same samples and has the level means `a * m1 + b * m2` and the same combination as mean. -/
theorem C48_linear_nan_partial [CharZero F] (sid W nLevels : Nat) (q1 q2 p1 p2 s : Quantity (Option F)) (hq1 : Built sid .qty q1) (hq2 : Built sid .qty q2)
    (a b : F) (o1 o2 o3 o4 o5 : Nat)
    (hp1 : Quantity.arith o1 (· * ·) (.const o2 .scalar [some a]) q1 = .ok p1) (hp2 : Quantity.arith o3 (· * ·) (.const o4 .scalar [some b]) q2 = .ok p2)
    (hs : p1.arith o5 floatAdd p2 = .ok s) (hid : IdsIdentify s) (hsize : q1.size = q2.size)
    (chunks : List (Nat × List (Sample (Option F)))) (hwf : ChunksWF W chunks) (hl : ∀ c ∈ chunks, c.1 < nLevels) (e1 e2 : QuantityMean F)
    (he1 : estimateMean q1 nLevels (asChunks sid W chunks) = .ok e1) (he2 : estimateMean q2 nLevels (asChunks sid W chunks) = .ok e2)
    (hnan : ∀ l, SameNan q1 q2 sid W (levelData chunks l)) :
    ∃ e, estimateMean s nLevels (asChunks sid W chunks) = .ok e ∧ e.nSamples = e1.nSamples ∧ e.nSamples = e2.nSamples ∧
      e.lMeans = List.zipWith (List.zipWith fun x y => floatAdd (some a * x) (some b * y)) e1.lMeans e2.lMeans ∧
      e.mean = List.zipWith (fun x y => floatAdd (some a * x) (some b * y)) e1.mean e2.mean := by
  have hs0 := hs
  have ids : IdsIdentify q1 ∧ IdsIdentify q2 := by
    obtain ⟨t, ht⟩ := create_mk hs
    obtain ⟨t1, ht1⟩ := create_mk hp1
    obtain ⟨t2, ht2⟩ := create_mk hp2
    have es := (mk_ok ht).1
    have e1 := (mk_ok ht1).1
    have e2 := (mk_ok ht2).1
    rw [es] at hid
    have i1 : IdsIdentify p1 := hid.input (by simp)
    have i2 : IdsIdentify p2 := hid.input (by simp)
    rw [e1] at i1
    rw [e2] at i2
    exact ⟨i1.input (by simp), i2.input (by simp)⟩
  have hc1 : q1.isConst = false := (built_good W hq1 ids.1).2
  have hc2 : q2.isConst = false := (built_good W hq2 ids.2).2
  have mp1 := scale_mk hc1 hp1
  have mp2 := scale_mk hc2 hp2
  have ep1 := (mk_ok mp1).1
  have ep2 := (mk_ok mp2).1
  have ms : Quantity.mk o5 p1.qtype (binArr (Arr.zip floatAdd)) [p1, p2] = .ok s := by
    unfold Quantity.arith Quantity.create at hs
    rw [ep1, ep2] at hs ⊢
    simpa [List.find?, Quantity.isConst] using hs
  have es := (mk_ok ms).1
  have hidp1 : IdsIdentify p1 := by rw [es] at hid; exact hid.input (by simp)
  have hidp2 : IdsIdentify p2 := by rw [es] at hid; exact hid.input (by simp)
  have hbp1 : Built sid .qty p1 := .arithL o1 _ (.const o2 .scalar [some a]) hq1 hp1
  have hbp2 : Built sid .qty p2 := .arithL o3 _ (.const o4 .scalar [some b]) hq2 hp2
  have hbs : Built sid .qty s := .arith o5 _ hbp1 hbp2 hs0
  obtain ⟨g1, hg1⟩ := est_good hq1 ids.1 hwf he1
  obtain ⟨g2, hg2⟩ := est_good hq2 ids.2 hwf he2
  rw [← hsize] at hg2
  obtain ⟨hgp1, hk1⟩ := good_scale _ (some a) hg1 hc1 mp1 hidp1
  obtain ⟨hgp2, hk2⟩ := good_scale _ (some b) hg2 hc2 mp2 hidp2
  obtain ⟨hgs, hks1, hks2⟩ := good_sum _ hgp1 hgp2 (by rw [ep1]; rfl) (by rw [ep2]; rfl) ms hid
  have hssize : s.size = q1.size := by rw [es, ep1]; rfl
  have hkeep1 : ∀ x, keep sid W s x = keep sid W q1 x := fun x => by rw [hks1, hk1]
  have hkeep2 : ∀ x, keep sid W s x = keep sid W q2 x := fun x => by rw [hks2, hk2]
  set G := fun v => zipComp floatAdd q1.size (zipComp (· * ·) q1.size [some a] (g1 v)) (zipComp (· * ·) q1.size [some b] (g2 v)) with hG
  have hmul : ∀ (c : F) (x : Option F), some c * x = x.map (c * ·) := fun c x => rfl
  have hval : ∀ v, (g1 v).length = q1.size → (g2 v).length = q1.size → ∀ i, i < q1.size →
      (G v).getD i none = floatAdd (some a * (g1 v).getD i none) (some b * (g2 v).getD i none) := by
    intro v h1 h2 i hi
    rw [hG]
    simp only
    unfold zipComp
    rw [getD_lt _ _ _ (by simpa using hi)]
    simp only [List.getElem_map, List.getElem_range]
    rw [comp_getD (m := q1.size) (by simp) hi, comp_getD (m := q1.size) (by simp) hi, getD_lt _ _ _ (by simpa using hi),
      getD_lt _ _ _ (by simpa using hi)]
    simp only [List.getElem_map, List.getElem_range]
    rw [comp_getD h1 hi, comp_getD h2 hi]
    rfl
  have hD := fun l => levelData_wf hwf l
  have hGlen : ∀ v, (G v).length = q1.size := by intro v; rw [hG]; simp [zipComp]
  have hiff : ∀ x : Sample (Option F), (⟨W, x.length, [x]⟩ : Batch (Option F)).WF → keep sid W s x = true →
      (hasNan (x.map G) = false ↔ hasNan (x.map g1) = false ∧ hasNan (x.map g2) = false) := by
    intro x hw hk
    have l1 := fun k hk' => good_length hg1 hw ((hkeep1 x).symm.trans hk) k hk'
    have l2 := fun k hk' => good_length hg2 hw ((hkeep2 x).symm.trans hk) k hk'
    rw [hasNan_entries l1, hasNan_entries l2, hasNan_entries (m := q1.size) fun k _ => hGlen _]
    constructor
    · intro h
      refine ⟨fun k hk' i hi h0 => h k hk' i hi ?_, fun k hk' i hi h0 => h k hk' i hi ?_⟩
      · rw [hval _ (l1 k hk') (l2 k hk') i hi, h0]; simp [hmul, floatAdd]
      · rw [hval _ (l1 k hk') (l2 k hk') i hi, h0]
        cases (g1 (x.getD k [])).getD i none <;> simp [hmul, floatAdd]
    · rintro ⟨h1, h2⟩ k hk' i hi h0
      rw [hval _ (l1 k hk') (l2 k hk') i hi] at h0
      obtain ⟨y, hy⟩ := Option.ne_none_iff_exists'.1 (h1 k hk' i hi)
      obtain ⟨z, hz⟩ := Option.ne_none_iff_exists'.1 (h2 k hk' i hi)
      rw [hy, hz] at h0
      simp [hmul, floatAdd] at h0
  have hsame : ∀ l, ∀ x ∈ levelData chunks l, keep sid W s x = true → hasNan (x.map g1) = hasNan (x.map g2) := by
    intro l x hx hk
    have hw := (level_sample (hD l) hx).2
    exact hnan l x hx _ _ (by rw [perSample_of_good hg1 x hw, if_pos ((hkeep1 x).symm.trans hk)]) (by rw [perSample_of_good hg2 x hw, if_pos ((hkeep2 x).symm.trans hk)])
  have hs1 : ∀ l, ∀ x ∈ levelData chunks l, keep sid W s x = true → hasNan (x.map G) = hasNan (x.map g1) := by
    intro l x hx hk
    have h1 := hiff x (level_sample (hD l) hx).2 hk
    have h2 := hsame l x hx hk
    rw [← h2] at h1
    cases h3 : hasNan (x.map G) <;> cases h4 : hasNan (x.map g1) <;> simp_all
  have hnan1 : ∀ l, SameNan s q1 sid W (levelData chunks l) := by
    intro l x hx v u hv hu
    have hw := (level_sample (hD l) hx).2
    rw [perSample_of_good hgs x hw] at hv
    rw [perSample_of_good hg1 x hw] at hu
    split at hv
    · rename_i hk
      rw [if_pos ((hkeep1 x).symm.trans hk)] at hu
      cases hv; cases hu
      exact hs1 l x hx hk
    · cases hv
  have hnan2 : ∀ l, SameNan s q2 sid W (levelData chunks l) := by
    intro l x hx v u hv hu
    have hw := (level_sample (hD l) hx).2
    rw [perSample_of_good hgs x hw] at hv
    rw [perSample_of_good hg2 x hw] at hu
    split at hv
    · rename_i hk
      rw [if_pos ((hkeep2 x).symm.trans hk)] at hu
      cases hv; cases hu
      exact (hs1 l x hx hk).trans (hsame l x hx hk)
    · cases hv
  have hex : ∃ e, estimateMean s nLevels (asChunks sid W chunks) = .ok e := by
    obtain ⟨l, hl0⟩ := est_some_used hq1 ids.1 hwf hl he1
    refine est_exists (l := l) (G := G) hbs hid (by rw [hssize]; exact hgs) hwf hl ?_
    intro h0
    apply hl0
    rw [usedValues_gen hg1 (hD l)]
    rw [usedValues_gen hgs (hD l), List.map_eq_nil_iff, List.filter_eq_nil_iff] at h0
    rw [List.map_eq_nil_iff, List.filter_eq_nil_iff]
    intro x hx
    rw [List.mem_filter] at hx
    have hk := (hkeep1 x).trans hx.2
    rw [← hs1 l x hx.1 hk]
    exact h0 x (List.mem_filter.2 ⟨hx.1, hk⟩)
  obtain ⟨e, he⟩ := hex
  refine ⟨e, he, combine_estimates hwf (C46_textbook_estimators sid W nLevels q1 hq1 ids.1 chunks hwf hl e1 he1)
    (C46_textbook_estimators sid W nLevels q2 hq2 ids.2 chunks hwf hl e2 he2) (C46_textbook_estimators sid W nLevels s hbs hid chunks hwf hl e he)
    rfl hsize.symm hssize hg1 hg2 hgs hkeep1 hkeep2 a b ?_ hnan1 hnan2⟩
  intro x hw hk _ k hk' i hi y z hy hz
  rw [hval _ (good_length hg1 hw ((hkeep1 x).symm.trans hk) k hk') (good_length hg2 hw ((hkeep2 x).symm.trans hk) k hk') i hi, hy, hz]
  simp [hmul, floatAdd]

namespace ExCombine
/-- Data in which the middle sample has a NaN in the first field. -/
def chunks : List (Nat × List (Sample (Option ℚ))) := [(0, [[[some 1, some 2]], [[none, some 5]], [[some 3, some 7]]]), (1, [[[some 2, some 3], [some 1, some 1]]])]
def q : Quantity (Option ℚ) := .storage 7 (.array [2] .scalar)
example : ChunksWF 2 chunks := by
  intro c hc
  simp only [chunks, List.mem_cons, List.not_mem_nil, or_false] at hc
  rcases hc with rfl | rfl <;> simp [batchOf, Batch.WF]
example : ∃ a b r, Quantity.arith 1 (· * ·) (.const 2 .scalar [some 2]) q = .ok a ∧ Quantity.arith 3 (· * ·) (.const 4 .scalar [some 3]) q = .ok b ∧
    Quantity.arith 5 floatAdd a b = .ok r ∧ IdsIdentify r :=
  ⟨_, _, _, rfl, rfl, rfl, by intro a ha; simp [Quantity.selections, Quantity.selectionsList, q] at ha⟩
example : ∀ l, SameNan q q 7 2 (levelData chunks l) := by
  intro l s _ v u hv hu
  rw [hv] at hu
  cases hu
  rfl
example : (estimateMean q 2 (asChunks 7 2 chunks)).toOption.isSome := by decide +kernel

/-- C48: linearity fails if a NaN of one quantity does not come with a NaN of the other: the mean of the sum of the two fields leaves
out the sample that the mean of the second field uses. -/
theorem C48_linear_nan_counterexample : ∃ q1 q2 s e1 e2 e, q.getitem 1 (.idx false [.int 0]) = .ok q1 ∧ q.getitem 2 (.idx false [.int 1]) = .ok q2 ∧
    q1.arith 3 floatAdd q2 = .ok s ∧
    estimateMean q1 2 (asChunks 7 2 chunks) = .ok e1 ∧ estimateMean q2 2 (asChunks 7 2 chunks) = .ok e2 ∧ estimateMean s 2 (asChunks 7 2 chunks) = .ok e ∧
    e1.mean = [some 3] ∧ e2.mean = [some (20 / 3)] ∧ e.mean = [some (19 / 2)] := by
  refine ⟨_, _, _, _, _, _, rfl, rfl, rfl, rfl, rfl, rfl, ?_⟩
  decide +kernel
end ExCombine

end MLMC
