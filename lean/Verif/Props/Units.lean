import Verif.Props.EstimateCombine
import Verif.Props.CovarianceParts
import Verif.Props.Central
import Verif.Model.Allocation
import Verif.Props.Domain
/-! # C156 Estimates in another unit -/
namespace MLMC
variable {F : Type} [Field F]

/-! ## Helpers -/

theorem good_shift {sid W m : Nat} {a s : Quantity (Option F)} {ga : List (Option F) → List (Option F)} {o o' : Nat} {t t' : QType} (f) (c : Option F)
    (ha : GoodQ sid W a (some (m, ga))) (hca : a.isConst = false)
    (hs : Quantity.mk o t (binArr (Arr.zip f)) [a, .const o' t' [c]] = .ok s) (hid : IdsIdentify s) :
    GoodQ sid W s (some (m, fun v => zipComp f m (ga v) [c])) ∧ ∀ x, keep sid W s x = keep sid W a x := by
  obtain ⟨rfl, hsel⟩ := mk_ok hs
  have hna := node_selNode hid hsel (a := a) (by simp) hca
  refine ⟨fun B hB hw' => ?_, fun x => by unfold keep; rw [hna]⟩
  obtain ⟨x, hx, hxr⟩ := ha B hB hw'
  rw [← kept_congr hna] at hxr
  obtain ⟨y, hy, hyr⟩ := zip_repR f hxr [c] m (bdim_one m)
  exact ⟨y, by rw [on_two, hx, on_const]; simp [Except.bind, binArr, hy, Except.map], hyr⟩

/-- The values of `a * q + c`, sample by sample. -/
theorem affine_good {sid W m : Nat} {q p s : Quantity (Option F)} {g : List (Option F) → List (Option F)} (hq : Built sid .qty q) {a c : F} {o1 o2 o3 o4 : Nat}
    (hp : Quantity.arith o1 (· * ·) (.const o2 .scalar [some a]) q = .ok p) (hs : p.arith o3 floatAdd (.const o4 .scalar [some c]) = .ok s) (hid : IdsIdentify s)
    (hg : GoodQ sid W q (some (m, g))) :
    Built sid .qty s ∧ s.qtype = q.qtype ∧ (∀ x, keep sid W s x = keep sid W q x) ∧
      ∃ G, GoodQ sid W s (some (m, G)) ∧ ∀ v, (g v).length = m → G v = (g v).map (Option.map fun x => a * x + c) := by
  have ids : IdsIdentify p ∧ IdsIdentify q := by
    obtain ⟨t, ht⟩ := create_mk hs
    obtain ⟨t1, ht1⟩ := create_mk hp
    have es := (mk_ok ht).1
    have e1 := (mk_ok ht1).1
    rw [es] at hid
    have i1 : IdsIdentify p := hid.input (by simp)
    have i2 := i1
    rw [e1] at i2
    exact ⟨i1, i2.input (by simp)⟩
  have hc1 : q.isConst = false := (built_good W hq ids.2).2
  have mp := scale_mk hc1 hp
  have ep := (mk_ok mp).1
  have hcp : p.isConst = false := by rw [ep]; rfl
  have ms := arith_mk hcp hs
  have es := (mk_ok ms).1
  have hbp : Built sid .qty p := .arithL o1 _ (.const o2 .scalar [some a]) hq hp
  obtain ⟨hgp, hkp⟩ := good_scale _ (some a) hg hc1 mp ids.1
  obtain ⟨hgs, hks⟩ := good_shift _ (some c) hgp hcp ms hid
  refine ⟨.arithR o3 _ hbp (.const o4 .scalar [some c]) hs, by rw [es, ep]; rfl, fun x => (hks x).trans (hkp x), _, hgs, ?_⟩
  intro v hv
  apply List.ext_getElem
  · simp [zipComp, hv]
  · intro i h1 h2
    rw [List.length_map, hv] at h2
    simp only [zipComp, List.getElem_map, List.getElem_range]
    rw [comp_getD (m := m) (by simp) h2, getD_lt _ _ _ (by simpa using h2)]
    simp only [List.getElem_map, List.getElem_range]
    rw [comp_getD hv h2, getD_lt _ _ _ (by rw [hv]; exact h2)]
    cases (g v)[i] <;> rfl

theorem average_affine [CharZero F] (xs : List F) (hx : xs ≠ []) (a c : F) : average (xs.map fun x => a * x + c) = a * average xs + c := by
  have h0 : (xs.length : F) ≠ 0 := by exact_mod_cast (by simpa using hx : xs.length ≠ 0)
  have : (xs.map fun x => a * x + c).sum = a * xs.sum + xs.length * c := by
    clear h0 hx
    induction xs with
    | nil => simp
    | cons x xs ih => simp only [List.map_cons, List.sum_cons, ih, List.length_cons]; push_cast; ring
  unfold average
  rw [this, List.length_map]
  field_simp

theorem sampleVar_affine [CharZero F] (xs : List F) (hx : xs ≠ []) (a c : F) : sampleVar (xs.map fun x => a * x + c) = a ^ 2 * sampleVar xs := by
  unfold sampleVar
  rw [average_affine xs hx, List.map_map, List.length_map, ← mul_div_assoc, ← List.sum_map_mul_left]
  congr 2
  apply List.map_congr_left
  intro x _
  simp only [Function.comp]
  ring

theorem floatSum_scale (a : F) (xs : List (Option F)) : floatSum (xs.map (Option.map (a * ·))) = (floatSum xs).map (a * ·) := by
  have hc : ∀ (y : Option F) (ys : List (Option F)), floatSum (y :: ys) = floatAdd y (floatSum ys) := fun _ _ => rfl
  induction xs with
  | nil => simp [floatSum]
  | cons x xs ih =>
    rw [List.map_cons, hc, hc, ih]
    cases x <;> cases floatSum xs <;> simp [floatAdd]
    ring

theorem floatSum_affine (a c : F) (n : Nat) (hn : 0 < n) (f : Nat → Option F) :
    floatSum ((List.range n).map fun l => (f l).map fun x => a * x + if l = 0 then c else 0) = (floatSum ((List.range n).map f)).map fun x => a * x + c := by
  have hc : ∀ (y : Option F) (ys : List (Option F)), floatSum (y :: ys) = floatAdd y (floatSum ys) := fun _ _ => rfl
  obtain ⟨n, rfl⟩ : ∃ k, n = k + 1 := ⟨n - 1, by omega⟩
  rw [List.range_succ_eq_map]
  simp only [List.map_cons, List.map_map, hc, if_true]
  have : (List.range n).map ((fun l => (f l).map fun x => a * x + if l = 0 then c else 0) ∘ Nat.succ) = ((List.range n).map (f ∘ Nat.succ)).map (Option.map (a * ·)) := by
    rw [List.map_map]
    apply List.map_congr_left; intro x _; simp
  rw [this, floatSum_scale]
  cases f 0 <;> cases floatSum ((List.range n).map (f ∘ Nat.succ)) <;> simp [floatAdd]
  ring

/-! ## C156 -/

/-- C156, estimates: the estimate of `a * q + c` exists with that of `q`, uses and drops the same samples, has the level means `a * m`
(plus `c` on level 0) and the mean `a * m + c`, and the level variances and variances of the mean multiplied by `a ^ 2`; also in data with NaN. -/
theorem C156_affine_estimate [CharZero F] (sid W nLevels : Nat) (q p s : Quantity (Option F)) (hq : Built sid .qty q) (a c : F) (o1 o2 o3 o4 : Nat)
    (hp : Quantity.arith o1 (· * ·) (.const o2 .scalar [some a]) q = .ok p) (hs : p.arith o3 floatAdd (.const o4 .scalar [some c]) = .ok s) (hid : IdsIdentify s)
    (chunks : List (Nat × List (Sample (Option F)))) (hwf : ChunksWF W chunks) (hl : ∀ c ∈ chunks, c.1 < nLevels) (e : QuantityMean F)
    (he : estimateMean q nLevels (asChunks sid W chunks) = .ok e) :
    ∃ es, estimateMean s nLevels (asChunks sid W chunks) = .ok es ∧ es.qtype = e.qtype ∧ es.nSamples = e.nSamples ∧ es.nRm = e.nRm ∧
      es.lMeans = e.lMeans.mapIdx (fun l v => v.map (Option.map fun x => a * x + if l = 0 then c else 0)) ∧
      es.mean = e.mean.map (Option.map fun x => a * x + c) ∧
      es.lVars = e.lVars.map (fun v => v.map (Option.map (a ^ 2 * ·))) ∧ es.var = e.var.map (Option.map (a ^ 2 * ·)) := by
  have hidq : IdsIdentify q := by
    obtain ⟨t, ht⟩ := create_mk hs
    obtain ⟨t1, ht1⟩ := create_mk hp
    have h := hid
    rw [(mk_ok ht).1] at h
    have i1 : IdsIdentify p := h.input (by simp)
    rw [(mk_ok ht1).1] at i1
    exact i1.input (by simp)
  have E := C46_textbook_estimators sid W nLevels q hq hidq chunks hwf hl e he
  obtain ⟨g, hg⟩ := est_good hq hidq hwf he
  obtain ⟨hbs, hty, hkeep, G, hG, hGv⟩ := affine_good hq hp hs hid hg
  have hD := fun l => levelData_wf hwf l
  have hsz : s.size = q.size := by unfold Quantity.size; rw [hty]
  have hlen : ∀ l, ∀ x ∈ levelData chunks l, keep sid W q x = true → ∀ k < x.length, (g (x.getD k [])).length = q.size :=
    fun l x hx hkx k hk => good_length hg (level_sample (hD l) hx).2 hkx k hk
  have hval : ∀ v, (g v).length = q.size → ∀ i < q.size, (G v).getD i none = ((g v).getD i none).map fun x => a * x + c := by
    intro v hv i hi
    rw [hGv v hv, getD_lt _ _ _ (by simpa [hv] using hi), getD_lt _ _ _ (by rw [hv]; exact hi)]
    simp
  have hS : ∀ l, usedSamples sid W s G (levelData chunks l) = usedSamples sid W q g (levelData chunks l) := by
    intro l
    refine usedSamples_congr hkeep fun x hx hkx => ?_
    refine hasNan_congr (hlen l x hx hkx) (fun k hk => by rw [hGv _ (hlen l x hx hkx k hk), List.length_map]; exact hlen l x hx hkx k hk) fun k hk i hi => ?_
    rw [hval _ (hlen l x hx hkx k hk) i hi]
    simp
  have hused : ∀ l, (usedValues s sid W (levelData chunks l)).length = (usedValues q sid W (levelData chunks l)).length := by
    intro l
    rw [usedSamples_values hG (hD l), usedSamples_values hg (hD l), hS]
    simp
  have hne : ∀ l, usedValues s sid W (levelData chunks l) = [] ↔ usedValues q sid W (levelData chunks l) = [] := by
    intro l
    rw [← List.length_eq_zero_iff, hused, List.length_eq_zero_iff]
  have hlv : ∀ l, ((levelValues s sid W (levelData chunks l)).filter hasNan).length = ((levelValues q sid W (levelData chunks l)).filter hasNan).length := by
    intro l
    have hlen' : ∀ r : Quantity (Option F), ((levelValues r sid W (levelData chunks l)).filter hasNan).length =
        (levelValues r sid W (levelData chunks l)).length - (usedValues r sid W (levelData chunks l)).length := by
      intro r
      unfold usedValues
      exact Nat.eq_sub_of_add_eq (List.length_eq_length_filter_add (l := levelValues r sid W (levelData chunks l)) hasNan).symm
    rw [hlen', hlen', hused, levelValues_good hG (hD l), levelValues_good hg (hD l)]
    simp only [List.length_map]
    rw [List.filter_congr (fun x _ => hkeep x)]
  obtain ⟨l0, hl0⟩ := est_some_used hq hidq hwf hl he
  have hn : 0 < nLevels := by
    rcases chunks with _ | ⟨x, xs⟩
    · exact absurd rfl hl0
    · have := hl x (by simp); omega
  obtain ⟨es, hes⟩ := est_exists hbs hid (by rw [hsz]; exact hG) hwf hl (l := l0) (by rw [Ne, hne]; exact hl0)
  have ES := C46_textbook_estimators sid W nLevels s hbs hid chunks hwf hl es hes
  have hdiff : ∀ l, ∀ i < q.size, usedDiffs s sid W l i (levelData chunks l) =
      (usedDiffs q sid W l i (levelData chunks l)).map fun x => a * x + if l = 0 then c else 0 := by
    intro l i hi
    rw [usedSamples_diffs hG (hD l) i hi, usedSamples_diffs hg (hD l) i hi, hS, List.map_map]
    apply List.map_congr_left
    intro x hx
    unfold usedSamples at hx
    rw [List.mem_filter, List.mem_filter] at hx
    have hsh := (level_sample (hD l) hx.1.1).1
    have hnan : hasNan (x.map g) = false := by simpa using hx.2
    have hsome : ∀ k < x.length, ∃ y, (g (x.getD k [])).getD i none = some y := fun k hk =>
      hasNan_false hnan k hk i (by rw [hlen l x hx.1.1 hx.1.2 k hk]; exact hi)
    simp only [Function.comp, cv]
    by_cases h0 : l = 0
    · rw [if_pos h0] at hsh
      obtain ⟨y, hy⟩ := hsome 0 (by omega)
      rw [if_pos h0, if_pos h0, if_pos h0, hval _ (hlen l x hx.1.1 hx.1.2 0 (by omega)) i hi, hy]
      rfl
    · rw [if_neg h0] at hsh
      obtain ⟨y, hy⟩ := hsome 0 (by omega)
      obtain ⟨z, hz⟩ := hsome 1 (by omega)
      rw [if_neg h0, if_neg h0, if_neg h0, hval _ (hlen l x hx.1.1 hx.1.2 0 (by omega)) i hi, hval _ (hlen l x hx.1.1 hx.1.2 1 (by omega)) i hi,
        hy, hz]
      simp only [Option.map_some, Option.getD_some]
      ring
  have hdne : ∀ l, usedValues q sid W (levelData chunks l) ≠ [] → ∀ i, usedDiffs q sid W l i (levelData chunks l) ≠ [] := by
    intro l hl' i
    unfold usedDiffs
    simpa using hl'
  have hmeans : es.lMeans = (List.range nLevels).map fun l => (List.range q.size).map fun i => (if usedValues q sid W (levelData chunks l) = [] then none else
      some (average (usedDiffs q sid W l i (levelData chunks l)))).map fun x => a * x + if l = 0 then c else 0 := by
    rw [ES.means, hsz]
    refine List.map_congr_left fun l _ => List.map_congr_left fun i hi => ?_
    have hi := List.mem_range.1 hi
    by_cases h0 : usedValues q sid W (levelData chunks l) = []
    · rw [if_pos h0, if_pos ((hne l).2 h0)]; rfl
    · rw [if_neg h0, if_neg (fun h => h0 ((hne l).1 h)), hdiff l i hi, average_affine _ (hdne l h0 i)]; rfl
  have hvars : es.lVars = e.lVars.map fun v => v.map (Option.map (a ^ 2 * ·)) := by
    rw [ES.vars, E.vars, hsz, List.map_map]
    refine List.map_congr_left fun l _ => ?_
    simp only [Function.comp]
    rw [List.map_map]
    refine List.map_congr_left fun i hi => ?_
    have hi := List.mem_range.1 hi
    simp only [Function.comp]
    rw [hused]
    by_cases h0 : (usedValues q sid W (levelData chunks l)).length ≤ 1
    · rw [if_pos h0, if_pos h0]; rfl
    · rw [if_neg h0, if_neg h0, hdiff l i hi, sampleVar_affine _ (hdne l (by rintro h; rw [h] at h0; simp at h0) i)]; rfl
  have hns : es.nSamples = e.nSamples := by
    rw [ES.used, E.used]
    exact List.map_congr_left fun l _ => hused l
  have htype : es.qtype = e.qtype := by rw [ES.qtype, E.qtype, hty]
  have htsz : e.qtype.size = q.size := by rw [E.qtype]; rfl
  refine ⟨es, hes, htype, hns, ?_, ?_, ?_, hvars, ?_⟩
  · rw [ES.dropped, E.dropped]
    exact List.map_congr_left fun l _ => hlv l
  · rw [hmeans, E.means]
    apply List.ext_getElem
    · simp
    · intro l h1 h2
      simp [Function.comp_def]
  · unfold QuantityMean.mean
    rw [htype, htsz, List.map_map]
    refine List.map_congr_left fun i hi => ?_
    have hi := List.mem_range.1 hi
    simp only [Function.comp]
    rw [hmeans, E.means, List.map_map, List.map_map, ← floatSum_affine a c nLevels hn]
    congr 1
    refine List.map_congr_left fun l _ => ?_
    simp only [Function.comp]
    rw [getD_lt _ _ _ (by simpa using hi), getD_lt _ _ _ (by simpa using hi)]
    simp
  · unfold QuantityMean.var
    rw [htype, htsz, hns, hvars, List.map_map]
    refine List.map_congr_left fun i hi => ?_
    simp only [Function.comp]
    rw [← floatSum_scale, List.zip_map_left, List.map_map, List.map_map]
    congr 1
    refine List.map_congr_left fun x _ => ?_
    obtain ⟨v, n⟩ := x
    simp only [Function.comp, Prod.map_apply, id]
    rw [List.getD_eq_getElem?_getD, List.getD_eq_getElem?_getD, List.getElem?_map]
    cases v[i]? with
    | none => rfl
    | some y => cases y <;> simp [mul_div_assoc]

/-- Moment functions of the new unit: at `a * x + c` they have the values of the old ones at `x`. -/
structure SameInUnit (a c : F) (fn fn' : MomentFn (Option F)) : Prop where
  size : fn'.size = fn.size
  ev : ∀ i < fn.size, ∀ x : Option F, fn'.ev i (x.map fun x => a * x + c) = fn.ev i x

theorem momVec_unit {a c : F} {fn fn' : MomentFn (Option F)} (h : SameInUnit a c fn fn') (bottom : Bool) (v : List (Option F)) :
    momVec fn' bottom (v.map (Option.map fun x => a * x + c)) = momVec fn bottom v := by
  unfold momVec
  rw [h.size]
  cases bottom
  · simp only [Bool.false_eq_true, if_false, List.map_map]
    refine List.flatMap_congr fun i hi => List.map_congr_left fun x _ => ?_
    exact h.ev i (List.mem_range.1 hi) x
  · simp only [if_true, List.flatMap_map]
    refine List.flatMap_congr fun x _ => List.map_congr_left fun i hi => ?_
    exact h.ev i (List.mem_range.1 hi) x

theorem covVec_unit {a c : F} {fn fn' : MomentFn (Option F)} (h : SameInUnit a c fn fn') (bottom : Bool) (v : List (Option F)) :
    covVec fn' bottom (v.map (Option.map fun x => a * x + c)) = covVec fn bottom v := by
  unfold covVec
  rw [h.size]
  cases bottom
  · simp only [Bool.false_eq_true, if_false, List.map_map]
    refine List.flatMap_congr fun i hi => List.flatMap_congr fun i' hi' => List.map_congr_left fun x _ => ?_
    simp only [Function.comp]
    rw [h.ev i (List.mem_range.1 hi), h.ev i' (List.mem_range.1 hi')]
  · simp only [if_true, List.flatMap_map]
    refine List.flatMap_congr fun x _ => List.flatMap_congr fun i hi => List.map_congr_left fun i' hi' => ?_
    rw [h.ev i (List.mem_range.1 hi), h.ev i' (List.mem_range.1 hi')]

theorem unit_estimate [CharZero F] {sid W nLevels m m' : Nat} {Q R : Quantity (Option F)} {G G' : List (Option F) → List (Option F)} (hbQ : Built sid .qty Q) (hidQ : IdsIdentify Q)
    (hbR : Built sid .qty R) (hidR : IdsIdentify R) (hQ : GoodQ sid W Q (some (m, G))) (hR : GoodQ sid W R (some (m', G'))) (hm : m = Q.size)
    (hkeep : ∀ x, keep sid W R x = keep sid W Q x) (ht : R.qtype = Q.qtype)
    (hval : ∀ s : Sample (Option F), (⟨W, s.length, [s]⟩ : Batch (Option F)).WF → keep sid W Q s = true → ∀ k < s.length, G' (s.getD k []) = G (s.getD k []))
    {chunks : List (Nat × List (Sample (Option F)))} (hwf : ChunksWF W chunks) (hl : ∀ c ∈ chunks, c.1 < nLevels) {e : QuantityMean F}
    (he : estimateMean Q nLevels (asChunks sid W chunks) = .ok e) (hmm : m' = m) : estimateMean R nLevels (asChunks sid W chunks) = .ok e := by
  subst hmm
  subst hm
  have hD := fun l => levelData_wf hwf l
  have hsz : R.size = Q.size := by unfold Quantity.size; rw [ht]
  have hmap : ∀ l, ∀ x ∈ levelData chunks l, keep sid W Q x = true → x.map G' = x.map G := by
    intro l x hx hk
    apply List.map_congr_left
    intro v hv
    obtain ⟨k, hk', rfl⟩ := List.mem_iff_getElem.1 hv
    have := hval x (level_sample (hD l) hx).2 hk k hk'
    rwa [getD_lt _ _ _ hk'] at this
  have hused : ∀ l, usedValues R sid W (levelData chunks l) = usedValues Q sid W (levelData chunks l) := by
    intro l
    unfold usedValues
    rw [levelValues_good hQ (hD l), levelValues_good hR (hD l), show (levelData chunks l).filter (keep sid W R) = (levelData chunks l).filter (keep sid W Q) from List.filter_congr fun x _ => hkeep x]
    congr 1
    apply List.map_congr_left
    intro x hx
    rw [List.mem_filter] at hx
    exact hmap l x hx.1 hx.2
  obtain ⟨l0, hl0⟩ := est_some_used hbQ hidQ hwf hl he
  obtain ⟨er, her⟩ := est_exists (l := l0) hbR hidR (by rw [hsz]; exact hR) hwf hl (by rw [hused]; exact hl0)
  rw [her]
  congr 1
  refine same_estimate hwf (C46_textbook_estimators sid W nLevels Q hbQ hidQ chunks hwf hl e he) (C46_textbook_estimators sid W nLevels R hbR hidR chunks hwf hl er her) hQ hR hkeep ht
    (fun s hw hk _ => hval s hw hk) ?_
  intro l x hx v u hv hu
  have hw := (level_sample (hD l) hx).2
  rw [perSample_of_good hR x hw] at hv
  rw [perSample_of_good hQ x hw] at hu
  split at hu
  · rename_i hk
    rw [if_pos ((hkeep x).trans hk)] at hv
    cases hv; cases hu
    rw [hmap l x hx hk]
  · cases hu

theorem unit_ids {q p s : Quantity (Option F)} {a c : F} {o1 o2 o3 o4 : Nat}
    (hp : Quantity.arith o1 (· * ·) (.const o2 .scalar [some a]) q = .ok p) (hs : p.arith o3 floatAdd (.const o4 .scalar [some c]) = .ok s) (hid : IdsIdentify s) :
    IdsIdentify q := by
  obtain ⟨t, ht⟩ := create_mk hs
  obtain ⟨t1, ht1⟩ := create_mk hp
  rw [(mk_ok ht).1] at hid
  have i1 : IdsIdentify p := hid.input (by simp)
  rw [(mk_ok ht1).1] at i1
  exact i1.input (by simp)

/-- C156, moments: estimating the moments of `a * q + c` with the functions of the new unit gives the estimate of the moments of `q`. -/
theorem C156_moments [CharZero F] (sid W nLevels : Nat) (q p s mq ms : Quantity (Option F)) (hq : Built sid .qty q) (a c : F) (o1 o2 o3 o4 o5 o6 : Nat)
    (hp : Quantity.arith o1 (· * ·) (.const o2 .scalar [some a]) q = .ok p) (hs : p.arith o3 floatAdd (.const o4 .scalar [some c]) = .ok s) (hid : IdsIdentify s)
    (fn fn' : MomentFn (Option F)) (hR : 0 < fn.size) (hfn : SameInUnit a c fn fn') (bottom : Bool) (hmq : q.moments o5 fn bottom = .ok mq) (hms : s.moments o6 fn' bottom = .ok ms)
    (chunks : List (Nat × List (Sample (Option F)))) (hwf : ChunksWF W chunks) (hl : ∀ c ∈ chunks, c.1 < nLevels) (e : QuantityMean F)
    (he : estimateMean mq nLevels (asChunks sid W chunks) = .ok e) : estimateMean ms nLevels (asChunks sid W chunks) = .ok e := by
  have hidq := unit_ids hp hs hid
  obtain ⟨M, g, hg⟩ := mom_res hq hidq hmq hwf he
  obtain ⟨hbm, hidm, hszm, rfl, hgm, hkm⟩ := mom_good hq hidq hg hR hmq hwf he
  obtain ⟨hbs, hty, hkeep, G, hG, hGv⟩ := affine_good hq hp hs hid hg
  have hsn := (mk_ok hms).1
  have hcs : s.isConst = false := (built_good W hbs hid).2
  have hbms : Built sid .qty ms := .moments o6 fn' bottom hbs hms
  have hidms : IdsIdentify ms := by rw [hsn]; exact ids_un hid _ _ _
  have hgms : GoodQ sid W ms (some (q.size * fn'.size, fun v => momVec fn' bottom (G v))) ∧ ∀ x, keep sid W ms x = keep sid W s x := by
    rw [hsn]
    apply good_un' _ _ _ hG hcs
    intro x p S hx
    refine ⟨_, rfl, hx.n, hx.p, ?_, ?_⟩
    · cases bottom <;> simp [List.length_flatMap, hx.m, Nat.mul_comm]
    · intro j hj k hk
      have := hx.val j hj k hk
      rw [← this]
      unfold momVec
      cases bottom
      · simp [List.map_flatMap, Function.comp_def]
      · simp [List.map_flatMap, List.flatMap_map, Function.comp_def]
  have htm : ms.qtype = mq.qtype := by
    rw [hsn, (mk_ok hmq).1]
    cases bottom
    · change QType.array [fn'.size] s.qtype = QType.array [fn.size] q.qtype
      rw [hfn.size, hty]
    · change s.qtype.replaceScalar (.array [fn'.size] .scalar) = q.qtype.replaceScalar (.array [fn.size] .scalar)
      rw [hfn.size, hty]
  have hval : ∀ x : Sample (Option F), (⟨W, x.length, [x]⟩ : Batch (Option F)).WF → keep sid W q x = true → ∀ k < x.length,
      momVec fn' bottom (G (x.getD k [])) = momVec fn bottom (g (x.getD k [])) := by
    intro x hw hk k hk'
    rw [hGv _ (good_length hg hw hk k hk'), momVec_unit hfn]
  have hkk : ∀ x, keep sid W ms x = keep sid W mq x := fun x => by rw [hgms.2, hkeep, hkm]
  exact unit_estimate hbm hidm hbms hidms hgm hgms.1 (by rw [hszm]) hkk htm (fun x hw hk => hval x hw ((hkm x).symm.trans hk)) hwf hl he (by rw [hfn.size])

/-- C156, covariances: the same for the covariances of the moments. -/
theorem C156_covariances [CharZero F] (sid W nLevels : Nat) (q p s mq ms : Quantity (Option F)) (hq : Built sid .qty q) (a c : F) (o1 o2 o3 o4 o5 o6 : Nat)
    (hp : Quantity.arith o1 (· * ·) (.const o2 .scalar [some a]) q = .ok p) (hs : p.arith o3 floatAdd (.const o4 .scalar [some c]) = .ok s) (hid : IdsIdentify s)
    (fn fn' : MomentFn (Option F)) (hR : 0 < fn.size) (hfn : SameInUnit a c fn fn') (bottom : Bool) (hmq : q.covariance o5 fn bottom = .ok mq) (hms : s.covariance o6 fn' bottom = .ok ms)
    (chunks : List (Nat × List (Sample (Option F)))) (hwf : ChunksWF W chunks) (hl : ∀ c ∈ chunks, c.1 < nLevels) (e : QuantityMean F)
    (he : estimateMean mq nLevels (asChunks sid W chunks) = .ok e) : estimateMean ms nLevels (asChunks sid W chunks) = .ok e := by
  have hidq := unit_ids hp hs hid
  obtain ⟨M, g, hg⟩ := cov_res hq hidq hmq hwf he
  obtain ⟨hbm, hidm, hszm, rfl, hgm, hkm⟩ := cov_good hq hidq hg hR hmq hwf he
  obtain ⟨hbs, hty, hkeep, G, hG, hGv⟩ := affine_good hq hp hs hid hg
  have hsn := (mk_ok hms).1
  have hcs : s.isConst = false := (built_good W hbs hid).2
  have hbms : Built sid .qty ms := .covariance o6 fn' bottom hbs hms
  have hidms : IdsIdentify ms := by rw [hsn]; exact ids_un hid _ _ _
  have hgms : GoodQ sid W ms (some (q.size * (fn'.size * fn'.size), fun v => covVec fn' bottom (G v))) ∧ ∀ x, keep sid W ms x = keep sid W s x := by
    rw [hsn]
    apply good_un' _ _ _ hG hcs
    intro x p S hx
    refine ⟨_, rfl, hx.n, hx.p, ?_, ?_⟩
    · cases bottom <;> simp [List.length_flatMap, hx.m, Nat.mul_comm, Nat.mul_assoc]
    · intro j hj k hk
      have := hx.val j hj k hk
      rw [← this]
      unfold covVec
      cases bottom
      · simp [List.map_flatMap, Function.comp_def]
      · simp [List.map_flatMap, List.flatMap_map, Function.comp_def]
  have htm : ms.qtype = mq.qtype := by
    rw [hsn, (mk_ok hmq).1]
    cases bottom
    · change QType.array [fn'.size, fn'.size] s.qtype = QType.array [fn.size, fn.size] q.qtype
      rw [hfn.size, hty]
    · change s.qtype.replaceScalar (.array [fn'.size, fn'.size] .scalar) = q.qtype.replaceScalar (.array [fn.size, fn.size] .scalar)
      rw [hfn.size, hty]
  have hval : ∀ x : Sample (Option F), (⟨W, x.length, [x]⟩ : Batch (Option F)).WF → keep sid W q x = true → ∀ k < x.length,
      covVec fn' bottom (G (x.getD k [])) = covVec fn bottom (g (x.getD k [])) := by
    intro x hw hk k hk'
    rw [hGv _ (good_length hg hw hk k hk'), covVec_unit hfn]
  have hkk : ∀ x, keep sid W ms x = keep sid W mq x := fun x => by rw [hgms.2, hkeep, hkm]
  exact unit_estimate hbm hidm hbms hidms hgm hgms.1 (by rw [hszm]) hkk htm (fun x hw hk => hval x hw ((hkm x).symm.trans hk)) hwf hl he (by rw [hfn.size])

/-- C156, planning: with variances and target in the new unit (both multiplied by `a ^ 2`) the numbers of samples are the same. -/
theorem C156_allocation {L M : Nat} (target : ℝ) (vars : Fin L → Fin (M + 1) → ℝ) (nOps : Fin L → ℝ) (nLevels : Nat) (a : ℝ) (ha : a ≠ 0) (l : Fin L) :
    Alloc.nSamples (a ^ 2 * target) (fun l m => a ^ 2 * vars l m) nOps nLevels l = Alloc.nSamples target vars nOps nLevels l := by
  have h2 : a ^ 2 ≠ 0 := pow_ne_zero 2 ha
  have hsq : ∀ x : ℝ, Real.sqrt (a ^ 2 * x) = |a| * Real.sqrt x := by
    intro x
    rw [Real.sqrt_mul (sq_nonneg a), Real.sqrt_sq_eq_abs]
  have he : ∀ m, Alloc.estimate (a ^ 2 * target) (fun l m => a ^ 2 * vars l m) nOps l m = Alloc.estimate target vars nOps l m := by
    intro m
    unfold Alloc.estimate Alloc.total
    congr 1
    simp only [mul_assoc, hsq]
    rw [← Finset.mul_sum]
    rw [show |a| * √(vars l m * nOps l) / nOps l * (|a| * ∑ i, √(vars i m * nOps i)) = (|a| * |a|) * (√(vars l m * nOps l) / nOps l * ∑ i, √(vars i m * nOps i)) by ring,
      abs_mul_abs_self, ← sq, mul_div_mul_left _ _ h2]
  unfold Alloc.nSamples Alloc.estimateSafe
  simp only [he, mul_assoc, mul_div_mul_left _ _ h2]

/-! ## Moment functions of the library -/

/-- Objects that agree in the new unit. -/
theorem same_base {a c : ℝ} {m m' : Mom.Moments} (hf : m'.family = m.family) (hs : m'.size = m.size) (h : ∀ x, m'.transform (a * x + c) = m.transform x) :
    SameInUnit a c (Dens.fn (.base m)) (Dens.fn (.base m')) := by
  refine ⟨hs, fun i _ x => ?_⟩
  cases x with
  | none => simp [Dens.fn, Dens.row, hf, hs]
  | some x =>
    have e : m'.evalAll (a * x + c) m'.size = m.evalAll x m.size := by unfold Mom.Moments.evalAll; rw [hf, hs, h]
    show (Dens.row (.base m') (some (a * x + c))).getD i none = (Dens.row (.base m) (some x)).getD i none
    simp only [Dens.row, Mom.Obj.evalAll, Mom.Obj.size, e]

/-- C156, moment functions: for a domain `(lo, hi)` of width at least `1e-15` in both units, the functions on the domain `(a * lo + c, a * hi + c)` can be made
and have at `a * x + c` the values of the old ones at `x`, NaN outside of the domain included.
Missing: narrower domains, see `C156_narrow_counterexample`. -/
theorem C156_moment_functions_partial (f : Mom.Family) (size : Nat) (lo hi r0 r1 a c : ℝ) (clip : Bool) (m : Mom.Moments) (h : Mom.construct f size (lo, hi) (.pair r0 r1) false clip = .ok m)
    (ha : 0 < a) (hw : 1 / 10 ^ 15 ≤ hi - lo) (hw' : 1 / 10 ^ 15 ≤ a * (hi - lo)) :
    ∃ m', Mom.construct f size (a * lo + c, a * hi + c) (.pair r0 r1) false clip = .ok m' ∧ SameInUnit a c (Dens.fn (.base m)) (Dens.fn (.base m')) := by
  obtain ⟨h0, _, hd, rfl⟩ := Mom.construct_ok h
  have hd' : 0 < hi - lo := by simpa [Mom.linBound] using hd
  have hpos : a * hi + c - (a * lo + c) > 0 := by nlinarith [mul_pos ha hd']
  have e1 : max (hi - lo) (1 / 10 ^ 15) = hi - lo := max_eq_left hw
  have e2 : max (a * hi + c - (a * lo + c)) (1 / 10 ^ 15) = a * (hi - lo) := by rw [max_eq_left (by linarith)]; ring
  refine ⟨⟨f, size, (a * lo + c, a * hi + c), (r0, r1), false, clip, (r1 - r0) / max (a * hi + c - (a * lo + c)) (1 / 10 ^ 15), a * lo + c⟩, ?_, ?_⟩
  · unfold Mom.construct
    rw [if_neg (by omega), if_neg (by simp)]
    simp only [Bool.false_eq_true, if_false]
    rw [if_neg (by simpa using hpos)]
  · refine same_base rfl rfl fun x => ?_
    have hl : (a * x + c - (a * lo + c)) * ((r1 - r0) / (a * (hi - lo))) + r0 = (x - lo) * ((r1 - r0) / (hi - lo)) + r0 := by
      have := ne_of_gt ha
      have := ne_of_gt hd'
      field_simp
      ring
    simp only [Mom.Moments.transform, Mom.Moments.linear, Mom.Moments.clip, Mom.linBound, Bool.false_eq_true, if_false, e1, e2, Option.bind_some, hl]

/-- C156, moment functions of logarithms: for `log=True` the same in every unit with the same zero. -/
theorem C156_log_moment_functions (f : Mom.Family) (size : Nat) (lo hi r0 r1 a : ℝ) (clip : Bool) (m : Mom.Moments) (h : Mom.construct f size (lo, hi) (.pair r0 r1) true clip = .ok m)
    (ha : 0 < a) : ∃ m', Mom.construct f size (a * lo, a * hi) (.pair r0 r1) true clip = .ok m' ∧ SameInUnit a 0 (Dens.fn (.base m)) (Dens.fn (.base m')) := by
  obtain ⟨h0, hlh, hd, rfl⟩ := Mom.construct_ok h
  obtain ⟨hlo, hhi⟩ := hlh rfl
  simp only [Mom.linBound, if_true] at hd
  have l1 : Real.log (a * lo) = Real.log a + Real.log lo := Real.log_mul (ne_of_gt ha) (ne_of_gt hlo)
  have l2 : Real.log (a * hi) = Real.log a + Real.log hi := Real.log_mul (ne_of_gt ha) (ne_of_gt hhi)
  have e : Real.log (a * hi) - Real.log (a * lo) = Real.log hi - Real.log lo := by rw [l1, l2]; ring
  refine ⟨⟨f, size, (a * lo, a * hi), (r0, r1), true, clip, (r1 - r0) / max (Real.log (a * hi) - Real.log (a * lo)) (1 / 10 ^ 15), Real.log (a * lo)⟩, ?_, ?_⟩
  · unfold Mom.construct
    rw [if_neg (by omega), if_neg (by simpa using ⟨mul_pos ha hlo, mul_pos ha hhi⟩)]
    simp only [if_true]
    rw [if_neg (by rw [e]; simpa using hd)]
  · refine same_base rfl rfl fun x => ?_
    simp only [Mom.Moments.transform, Mom.Moments.linear, Mom.Moments.clip, Mom.linBound, if_true, add_zero]
    by_cases hx : 0 < x
    · rw [if_pos hx, if_pos (mul_pos ha hx), e]
      have : Real.log (a * x) - Real.log (a * lo) = Real.log x - Real.log lo := by
        rw [l1, Real.log_mul (ne_of_gt ha) (ne_of_gt hx)]; ring
      simp only [Option.bind_some, this]
    · rw [if_neg hx, if_neg (fun h => hx (by by_contra hh; nlinarith [mul_nonneg (le_of_lt ha) (sub_nonneg.2 (not_lt.1 hh))]))]
      rfl

/-- C156: with a domain narrower than `1e-15` the moments depend on the unit: Legendre functions on (0, 1) map the upper bound to 1, on (0, 1e-16) to -4/5. -/
theorem C156_narrow_counterexample : ∃ m m', Mom.construct .legendre 2 (0, 1) (.pair (-1) 1) false true = .ok m ∧
    Mom.construct .legendre 2 (0, 1 / 10 ^ 16) (.pair (-1) 1) false true = .ok m' ∧
    (Dens.fn (.base m)).ev 1 (some 1) = some 1 ∧ (Dens.fn (.base m')).ev 1 (some (1 / 10 ^ 16 * 1)) = some (-4 / 5) := by
  refine ⟨⟨.legendre, 2, (0, 1), (-1, 1), false, true, (1 - -1) / max (1 - 0) (1 / 10 ^ 15), 0⟩,
    ⟨.legendre, 2, (0, 1 / 10 ^ 16), (-1, 1), false, true, (1 - -1) / max (1 / 10 ^ 16 - 0) (1 / 10 ^ 15), 0⟩, ?_, ?_, ?_, ?_⟩
  · simp [Mom.construct]
  · simp [Mom.construct]
  · have e1 : max ((1 : ℝ) - 0) (1 / 10 ^ 15) = 1 := by rw [max_eq_left] <;> norm_num
    rw [e1]
    simp only [Dens.fn, Dens.row, Mom.Obj.evalAll, Mom.Moments.evalAll, Mom.Obj.size, Mom.Moments.transform, Mom.Moments.linear, Mom.Moments.clip]
    norm_num [Mom.col, Mom.leg, List.range_succ]
  · have e1 : max ((1 : ℝ) / 10 ^ 16 - 0) (1 / 10 ^ 15) = 1 / 10 ^ 15 := by rw [max_eq_right] ; norm_num
    rw [e1]
    simp only [Dens.fn, Dens.row, Mom.Obj.evalAll, Mom.Moments.evalAll, Mom.Obj.size, Mom.Moments.transform, Mom.Moments.linear, Mom.Moments.clip]
    norm_num [Mom.col, Mom.leg, List.range_succ]

/-! ## Domains -/

section
variable {K : Type} [Field K] [LinearOrder K] [IsStrictOrderedRing K] [FloorSemiring K]

theorem percentile_affine (xs : List K) (t a c : K) (ha : 0 < a) : percentile (xs.map fun x => a * x + c) t = (percentile xs t).map fun x => a * x + c := by
  unfold percentile
  by_cases h1 : t < 0 ∨ 1 < t
  · rw [if_pos h1, if_pos h1]; rfl
  rw [if_neg h1, if_neg h1]
  by_cases h2 : xs = []
  · subst h2; rfl
  rw [if_neg h2, if_neg (by simpa using h2)]
  have hsort : (xs.map fun x => a * x + c).insertionSort (· ≤ ·) = (xs.insertionSort (· ≤ ·)).map fun x => a * x + c := by
    rw [List.map_insertionSort (r := (· ≤ ·)) (s := (· ≤ ·))]
    intro x _ y _
    constructor
    · intro h; nlinarith
    · intro h; nlinarith
  have hlen : 0 < xs.length := List.length_pos_iff.2 h2
  have hsl : (xs.insertionSort (· ≤ ·)).length = xs.length := List.length_insertionSort _ _
  simp only [hsort, List.length_map, Except.map]
  have hi : ⌊t * ((xs.length - 1 : Nat) : K)⌋₊ < xs.length := by
    have : ⌊t * ((xs.length - 1 : Nat) : K)⌋₊ ≤ xs.length - 1 := by
      refine (Nat.floor_mono (b := ((xs.length - 1 : Nat) : K)) ?_).trans (Nat.floor_natCast (R := K) _).le
      have h3 : t ≤ 1 := le_of_not_gt fun h => h1 (.inr h)
      have h4 : (0 : K) ≤ ((xs.length - 1 : Nat) : K) := Nat.cast_nonneg _
      nlinarith
    omega
  rw [getD_lt _ _ _ (by rw [List.length_map, hsl]; exact hi), getD_lt _ _ _ (by rw [List.length_map, hsl]; omega), getD_lt _ _ _ (by rw [hsl]; exact hi),
    getD_lt _ _ _ (by rw [hsl]; omega)]
  simp only [List.getElem_map]
  congr 1
  ring

theorem foldl_min_affine (a c : K) (ha : 0 < a) (l : List K) (x : K) : (l.map fun x => a * x + c).foldl min (a * x + c) = a * l.foldl min x + c := by
  induction l generalizing x with
  | nil => rfl
  | cons y l ih =>
    simp only [List.map_cons, List.foldl_cons]
    rw [← ih]
    congr 1
    rw [mul_min_of_nonneg _ _ (le_of_lt ha), min_add_add_right]

theorem foldl_max_affine (a c : K) (ha : 0 < a) (l : List K) (x : K) : (l.map fun x => a * x + c).foldl max (a * x + c) = a * l.foldl max x + c := by
  induction l generalizing x with
  | nil => rfl
  | cons y l ih =>
    simp only [List.map_cons, List.foldl_cons]
    rw [← ih]
    congr 1
    rw [mul_max_of_nonneg _ _ (le_of_lt ha), max_add_add_right]

theorem domainRange_affine {sid W : Nat} {q p s : Quantity (Option K)} (hq : Built sid .qty q) {a c : K} (ha : 0 < a) {o1 o2 o3 o4 : Nat}
    (hp : Quantity.arith o1 (· * ·) (.const o2 .scalar [some a]) q = .ok p) (hs : p.arith o3 floatAdd (.const o4 .scalar [some c]) = .ok s) (hid : IdsIdentify s)
    {data : List (Sample (Option K))} (hwf : (batchOf W 0 data).WF) {t : K} {d : K × K}
    (h : domainRange q t (fun o => if o = sid then .ok (batchOf W 0 data).toArr else .error .other) = .ok d) :
    domainRange s t (fun o => if o = sid then .ok (batchOf W 0 data).toArr else .error .other) = .ok (a * d.1 + c, a * d.2 + c) := by
  have hidq : IdsIdentify q := (unit_ids hp hs hid)
  obtain ⟨⟨res, hres⟩, _⟩ := built_good W hq hidq
  have hb := hres (batchOf W 0 data) hwf rfl
  cases res with
  | none =>
    obtain ⟨e, he⟩ := hb
    unfold Quantity.on at he
    unfold domainRange at h
    rw [he] at h
    cases h
  | some mg =>
    obtain ⟨m, g⟩ := mg
    obtain ⟨x, hx, hrx⟩ := hb
    obtain ⟨_, _, hk, G, hG, hGg⟩ := affine_good hq hp hs hid hres
    obtain ⟨y, hy, hry⟩ := hG (batchOf W 0 data) hwf rfl
    unfold Quantity.on at hx hy
    have hkk : kept sid W s (batchOf W 0 data) = kept sid W q (batchOf W 0 data) := by
      unfold kept
      congr 1
      funext z
      exact hk z
    rw [hkk] at hry
    have hparts : (batchOf W 0 data).parts = 1 := rfl
    have hv : domainValues y = (domainValues x).map (List.map fun z => a * z + c) := by
      unfold domainValues
      rw [hrx.p, hry.p, hparts, hrx.n, hry.n, if_neg (by decide), if_neg (by decide)]
      simp only [Except.map]
      congr 1
      rw [List.map_filterMap, List.filterMap_flatMap, List.filterMap_flatMap]
      refine List.flatMap_congr fun j hj => ?_
      have hj' := List.mem_range.1 hj
      have v1 := hrx.val j hj' 0 (by rw [hparts]; exact one_pos)
      have v2 := hry.val j hj' 0 (by rw [hparts]; exact one_pos)
      rw [v1, v2, hGg _ (by rw [← v1, List.length_map, hrx.m]), List.filterMap_map]
      refine List.filterMap_congr fun z _ => ?_
      cases z <;> rfl
    unfold domainRange at h ⊢
    rw [hx] at h
    rw [hy]
    change (domainValues x).bind (fun xs => (percentile xs t).bind fun l => (percentile xs (1 - t)).bind fun u => Except.ok (l, u)) = _ at h
    change (domainValues y).bind (fun xs => (percentile xs t).bind fun l => (percentile xs (1 - t)).bind fun u => Except.ok (l, u)) = _
    rw [hv]
    cases hx' : domainValues x with
    | error e => rw [hx'] at h; cases h
    | ok xs =>
      rw [hx'] at h
      simp only [Except.bind, Except.map] at h ⊢
      rw [percentile_affine _ _ _ _ ha, percentile_affine _ _ _ _ ha]
      cases hl : percentile xs t with
      | error e => rw [hl] at h; cases h
      | ok l =>
        rw [hl] at h
        cases hu : percentile xs (1 - t) with
        | error e => rw [hu] at h; cases h
        | ok u =>
          rw [hu] at h
          injection h with h
          subst h
          rfl

/-- C156, domains: the estimated domain of the quantity in the new unit is the old one converted, for any number of levels and any quantile. -/
theorem C156_domain {sid W : Nat} {q p s : Quantity (Option K)} (hq : Built sid .qty q) {a c : K} (ha : 0 < a) {o1 o2 o3 o4 : Nat}
    (hp : Quantity.arith o1 (· * ·) (.const o2 .scalar [some a]) q = .ok p) (hs : p.arith o3 floatAdd (.const o4 .scalar [some c]) = .ok s) (hid : IdsIdentify s)
    (level0 : List (Sample (Option K))) (hwf : (batchOf W 0 level0).WF) (levels : List (List (Sample (Option K)))) (t : Option K) {lo hi : K}
    (h : estimateDomain q t ((level0 :: levels).map (·.length)) (storeFirstChunk sid W (level0 :: levels)) = .ok (lo, hi)) :
    estimateDomain s t ((level0 :: levels).map (·.length)) (storeFirstChunk sid W (level0 :: levels)) = .ok (a * lo + c, a * hi + c) := by
  have one : ∀ n d, domainRange q (t.getD (1 / 100)) (storeFirstChunk sid W (level0 :: levels) n) = .ok d →
      domainRange s (t.getD (1 / 100)) (storeFirstChunk sid W (level0 :: levels) n) = .ok (a * d.1 + c, a * d.2 + c) := fun n d hd =>
    domainRange_affine hq ha hp hs hid (data := level0.take n) (fun z hz => hwf z (List.mem_of_mem_take hz)) hd
  have all : ∀ (ns : List Nat) rs, (ns.mapM fun n => domainRange q (t.getD (1 / 100)) (storeFirstChunk sid W (level0 :: levels) n)) = .ok rs →
      (ns.mapM fun n => domainRange s (t.getD (1 / 100)) (storeFirstChunk sid W (level0 :: levels) n)) = .ok (rs.map fun d => (a * d.1 + c, a * d.2 + c)) := by
    intro ns
    induction ns with
    | nil => intro rs h; cases h; rfl
    | cons n ns ih =>
      intro rs h
      rw [List.mapM_cons] at h ⊢
      cases hd : domainRange q (t.getD (1 / 100)) (storeFirstChunk sid W (level0 :: levels) n) with
      | error e => rw [hd] at h; cases h
      | ok d =>
        rw [hd] at h
        cases hr : ns.mapM fun n => domainRange q (t.getD (1 / 100)) (storeFirstChunk sid W (level0 :: levels) n) with
        | error e => rw [hr] at h; cases h
        | ok rs' =>
          rw [hr] at h
          cases h
          rw [one _ _ hd, ih _ hr]
          rfl
  unfold estimateDomain at h ⊢
  cases hr : ((level0 :: levels).map (·.length)).mapM fun n => domainRange q (t.getD (1 / 100)) (storeFirstChunk sid W (level0 :: levels) n) with
  | error e => rw [hr] at h; cases h
  | ok rs =>
    rw [hr] at h
    rw [all _ _ hr]
    cases rs with
    | nil => cases h
    | cons r rs =>
      injection h with h
      obtain ⟨h1, h2⟩ := Prod.mk.inj h
      subst h1 h2
      change Except.ok _ = Except.ok _
      simp only [List.map_map]
      congr 2
      · rw [← foldl_min_affine a c ha, List.map_map]; rfl
      · rw [← foldl_max_affine a c ha, List.map_map]; rfl

end

namespace ExUnits
/-- `2 * q + 3` for data in which a sample has a NaN. -/
example : ∃ p s, Quantity.arith 1 (· * ·) (.const 2 .scalar [some 2]) ExCombine.q = .ok p ∧ p.arith 3 floatAdd (.const 4 .scalar [some 3]) = .ok s ∧ IdsIdentify s :=
  ⟨_, _, rfl, rfl, by intro a ha; simp [Quantity.selections, Quantity.selectionsList, ExCombine.q] at ha⟩
example : Built 7 .qty ExCombine.q := Built.root _
/-- The estimates of `q` and `2 * q + 3` from these data: NaN leaves out the middle sample. -/
example : ∃ p s e es, Quantity.arith 1 (· * ·) (.const 2 .scalar [some 2]) ExCombine.q = .ok p ∧ p.arith 3 floatAdd (.const 4 .scalar [some 3]) = .ok s ∧
    estimateMean ExCombine.q 2 (asChunks 7 2 ExCombine.chunks) = .ok e ∧ estimateMean s 2 (asChunks 7 2 ExCombine.chunks) = .ok es ∧
    e.mean = [some 3, some (13 / 2)] ∧ es.mean = [some 9, some 16] ∧ e.nRm = [1, 0] ∧ es.nRm = [1, 0] := by
  refine ⟨_, _, _, _, rfl, rfl, rfl, rfl, ?_⟩
  decide +kernel
/-- Three Legendre functions on (0, 1) and on (3, 5). -/
example : ∃ m, Mom.construct .legendre 3 (0, 1) (.pair (-1) 1) false true = .ok m ∧ 0 < (Dens.fn (.base m)).size :=
  ⟨⟨.legendre, 3, (0, 1), (-1, 1), false, true, (1 - -1) / max (1 - 0) (1 / 10 ^ 15), 0⟩, by simp [Mom.construct], by simp [Dens.fn, Mom.Obj.size]⟩
example : (1 : ℝ) / 10 ^ 15 ≤ 1 - 0 ∧ (1 : ℝ) / 10 ^ 15 ≤ 2 * (1 - 0) := by norm_num
/-- Three functions of logarithms on (1, 10). -/
example : ∃ m, Mom.construct .monomial 3 (1, 10) (.pair 0 1) true true = .ok m := by
  have h : 0 < Real.log 10 := Real.log_pos (by norm_num)
  exact ⟨⟨.monomial, 3, (1, 10), (0, 1), true, true, (1 - 0) / max (Real.log 10 - Real.log 1) (1 / 10 ^ 15), Real.log 1⟩, by simp [Mom.construct, h]⟩
/-- The domain of `2 * q + 3`. -/
example : ∃ p s, Quantity.arith 1 (· * ·) (.const 2 .scalar [some 2]) ExDom.q = .ok p ∧ p.arith 3 floatAdd (.const 4 .scalar [some 3]) = .ok s ∧
    estimateDomain ExDom.q (some 0) (ExDom.data.map (·.length)) (storeFirstChunk 7 1 ExDom.data) = .ok (1, 3) ∧
    estimateDomain s (some 0) (ExDom.data.map (·.length)) (storeFirstChunk 7 1 ExDom.data) = .ok (5, 9) := by
  refine ⟨_, _, rfl, rfl, ?_⟩
  decide +kernel
end ExUnits

end MLMC
