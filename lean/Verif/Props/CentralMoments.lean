import Verif.Props.BasisChange
import Mathlib.Data.Nat.Choose.Sum
/-! # C151 Central moments of any order -/
namespace MLMC
variable {F : Type} [Field F]

/-! ## Helpers -/

/-- Level means of a quantity in a row, from the used samples. -/
theorem row_means [CharZero F] {sid W nLevels : Nat} {r : Quantity (Option F)} (hb : Built sid .qty r) (hid : IdsIdentify r) {g : List (Option F) → List (Option F)}
    (hg : GoodQ sid W r (some (r.size, g))) {chunks : List (Nat × List (Sample (Option F)))} (hwf : ChunksWF W chunks) (hl : ∀ c ∈ chunks, c.1 < nLevels) {e : QuantityMean F}
    (he : estimateMean r nLevels (asChunks sid W chunks) = .ok e) {i : Nat} (hi : i < r.size) :
    e.mean.getD i none = floatSum ((List.range nLevels).map fun l =>
      if usedSamples sid W r g (levelData chunks l) = [] then none else some (average ((usedSamples sid W r g (levelData chunks l)).map (cv g l i)))) := by
  have E := C46_textbook_estimators sid W nLevels r hb hid chunks hwf hl e he
  have hml : e.lMeans.length = nLevels := by rw [E.means]; simp
  rw [mean_getD hml (by rw [E.qtype]; exact hi)]
  congr 1
  refine List.map_congr_left fun l hl' => ?_
  rw [E.means, getD_lt _ ([] : List (Option F)) _ (by simpa using hl')]
  simp only [List.getElem_map, List.getElem_range]
  rw [getD_lt _ _ _ (by simpa using hi)]
  simp only [List.getElem_map, List.getElem_range]
  rw [usedSamples_diffs hg (levelData_wf hwf l) i hi, usedSamples_values hg (levelData_wf hwf l)]
  simp only [List.map_eq_nil_iff]

/-- A row whose values are combinations of rows of another quantity on the same samples has the combination of the estimated means. -/
theorem linear_image [CharZero F] {sid W nLevels R row : Nat} {r r' : Quantity (Option F)} (hb : Built sid .qty r) (hid : IdsIdentify r) (hb' : Built sid .qty r') (hid' : IdsIdentify r')
    {g g' : List (Option F) → List (Option F)} (hg : GoodQ sid W r (some (r.size, g))) (hg' : GoodQ sid W r' (some (r'.size, g'))) (hk : ∀ x, keep sid W r' x = keep sid W r x)
    {chunks : List (Nat × List (Sample (Option F)))} (hwf : ChunksWF W chunks) (hl : ∀ c ∈ chunks, c.1 < nLevels) {e e' : QuantityMean F}
    (he : estimateMean r nLevels (asChunks sid W chunks) = .ok e) (he' : estimateMean r' nLevels (asChunks sid W chunks) = .ok e')
    (rows : Nat → Nat) (hR : 0 < R) (hrows : ∀ j < R, rows j < r.size) (hrow : row < r'.size) (a : Nat → F)
    (hnan : ∀ x : Sample (Option F), (⟨W, x.length, [x]⟩ : Batch (Option F)).WF → keep sid W r x = true → hasNan (x.map g') = hasNan (x.map g))
    (hval : ∀ x : Sample (Option F), (⟨W, x.length, [x]⟩ : Batch (Option F)).WF → keep sid W r x = true → hasNan (x.map g) = false → ∀ k < x.length,
      ((g' (x.getD k [])).getD row none).getD 0 = ∑ j ∈ Finset.range R, a j * ((g (x.getD k [])).getD (rows j) none).getD 0)
    (mu : Nat → F) (hmu : ∀ j < R, e.mean.getD (rows j) none = some (mu j)) : e'.mean.getD row none = some (∑ j ∈ Finset.range R, a j * mu j) := by
  have hS : ∀ l, usedSamples sid W r' g' (levelData chunks l) = usedSamples sid W r g (levelData chunks l) := fun l =>
    usedSamples_congr hk fun x hx hkx => hnan x (level_sample (levelData_wf hwf l) hx).2 hkx
  have hne : ∀ l < nLevels, usedSamples sid W r g (levelData chunks l) ≠ [] := by
    intro l hl' h0
    have h := hmu 0 hR
    rw [row_means hb hid hg hwf hl he (hrows 0 hR), floatSum_none_mem] at h
    · cases h
    · exact List.mem_map.2 ⟨l, List.mem_range.2 hl', by rw [if_pos h0]⟩
  have hcv : ∀ l, ∀ x ∈ usedSamples sid W r g (levelData chunks l), cv g' l row x = ∑ j ∈ Finset.range R, a j * cv g l (rows j) x := by
    intro l x hx
    unfold usedSamples at hx
    rw [List.mem_filter, List.mem_filter] at hx
    have hls := level_sample (levelData_wf hwf l) hx.1.1
    have hn : hasNan (x.map g) = false := by simpa using hx.2
    have h := hval x hls.2 hx.1.2 hn
    unfold cv
    by_cases h0 : l = 0
    · rw [if_pos h0] at hls
      simp only [h0, if_true]
      exact h 0 (by rw [hls.1]; exact one_pos)
    · rw [if_neg h0] at hls
      simp only [h0, if_false]
      rw [h 0 (by omega), h 1 (by omega), ← Finset.sum_sub_distrib]
      exact Finset.sum_congr rfl fun j _ => by ring
  have hmu' : ∀ j < R, mu j = ((List.range nLevels).map fun l => average ((usedSamples sid W r g (levelData chunks l)).map (cv g l (rows j)))).sum := by
    intro j hj
    have h := hmu j hj
    rw [row_means hb hid hg hwf hl he (hrows j hj)] at h
    have e1 : ((List.range nLevels).map fun l => if usedSamples sid W r g (levelData chunks l) = [] then none
        else some (average ((usedSamples sid W r g (levelData chunks l)).map (cv g l (rows j))))) =
        ((List.range nLevels).map fun l => average ((usedSamples sid W r g (levelData chunks l)).map (cv g l (rows j)))).map some := by
      rw [List.map_map]
      refine List.map_congr_left fun l hl' => ?_
      rw [if_neg (hne l (List.mem_range.1 hl'))]
      rfl
    rw [e1, floatSum_somes] at h
    injection h with h
    exact h.symm
  rw [row_means hb' hid' hg' hwf hl he' hrow]
  have e2 : ((List.range nLevels).map fun l => if usedSamples sid W r' g' (levelData chunks l) = [] then none
      else some (average ((usedSamples sid W r' g' (levelData chunks l)).map (cv g' l row)))) =
      ((List.range nLevels).map fun l => ∑ j ∈ Finset.range R, a j * average ((usedSamples sid W r g (levelData chunks l)).map (cv g l (rows j)))).map some := by
    rw [List.map_map]
    refine List.map_congr_left fun l hl' => ?_
    rw [hS, if_neg (hne l (List.mem_range.1 hl'))]
    simp only [Function.comp]
    rw [List.map_congr_left (hcv l), average_combine]
  rw [e2, floatSum_somes]
  congr 1
  rw [Finset.sum_congr rfl fun j hj => by rw [hmu' j (Finset.mem_range.1 hj)]]
  generalize List.range nLevels = ls
  induction ls with
  | nil => simp
  | cons l ls ih => simp only [List.map_cons, List.sum_cons, ih, mul_add, Finset.sum_add_distrib]

/-! ## C151 -/

/-- The functions are the powers `x ^ i`, NaN for NaN. -/
def ArePowers (fn : MomentFn (Option F)) : Prop := ∀ i < fn.size, ∀ x, fn.ev i x = x.map (· ^ i)

/-- C151, moments of any order: subtracting a vector of constants (for central moments the estimated mean) from a quantity and estimating the moments with the powers gives, in every
component `k`, the binomial combinations of the estimated raw moments: `∑ j ≤ i, (i choose j) (-μ k) ^ (i - j) raw j`; for any number of levels, also in data with NaN. -/
theorem C151_central_moments [CharZero F] (sid W nLevels : Nat) (q c r r' : Quantity (Option F)) (hq : Built sid .qty q) (mu : Nat → F) (o o' o1 o2 : Nat) (t : QType)
    (hc : q.arith o floatSub (.const o' t ((List.range q.size).map fun k => some (mu k))) = .ok c) (hid : IdsIdentify c)
    (fn : MomentFn (Option F)) (hR : 0 < fn.size) (hp : ArePowers fn) (bottom : Bool) (hr : q.moments o1 fn bottom = .ok r) (hr' : c.moments o2 fn bottom = .ok r')
    (chunks : List (Nat × List (Sample (Option F)))) (hwf : ChunksWF W chunks) (hl : ∀ x ∈ chunks, x.1 < nLevels) (e e' : QuantityMean F)
    (he : estimateMean r nLevels (asChunks sid W chunks) = .ok e) (he' : estimateMean r' nLevels (asChunks sid W chunks) = .ok e')
    (k : Nat) (hk : k < q.size) (raw : Nat → F) (hraw : ∀ j < fn.size, e.mean.getD (momRow bottom q.size fn.size k j) none = some (raw j)) (i : Nat) (hi : i < fn.size) :
    e'.mean.getD (momRow bottom q.size fn.size k i) none = some (∑ j ∈ Finset.range (i + 1), (i.choose j : F) * (-mu k) ^ (i - j) * raw j) := by
  have hidq : IdsIdentify q := by
    obtain ⟨t', ht'⟩ := create_mk hc
    have h := hid
    rw [(mk_ok ht').1] at h
    exact h.input (by simp)
  have hcq : q.isConst = false := (built_good W hq hidq).2
  have hmk := arith_mk hcq hc
  have hcc := (mk_ok hmk).1
  have hsz : c.size = q.size := by rw [hcc]; rfl
  have hbc : Built sid .qty c := .arithR o _ hq (.const o' t _) hc
  obtain ⟨M, g, hres⟩ := mom_res hq hidq hr hwf he
  obtain ⟨hbr, hidr, hszr, rfl, hgr, hkr⟩ := mom_good hq hidq hres hR hr hwf he
  obtain ⟨hgc, hkeep⟩ := good_constR floatSub ((List.range q.size).map fun k => some (mu k)) (by simp) hres hcq hmk hid
  obtain ⟨hbr', hidr', hszr', _, hgr', hkr'⟩ := mom_good hbc hid hgc hR hr' hwf he'
  rw [hsz] at hszr'
  have hlen : ∀ x : Sample (Option F), (⟨W, x.length, [x]⟩ : Batch (Option F)).WF → keep sid W r x = true → ∀ k < x.length, (g (x.getD k [])).length = q.size :=
    fun x hw hkx k hk' => good_length hres hw ((hkr x).symm.trans hkx) k hk'
  set G := fun v => zipComp floatSub q.size (g v) ((List.range q.size).map fun k => some (mu k)) with hG
  have hGlen : ∀ v, (G v).length = q.size := fun v => by simp [hG, zipComp]
  have hGget : ∀ v, (g v).length = q.size → ∀ m < q.size, (G v).getD m none = ((g v).getD m none).map (· - mu m) := by
    intro v hv m hm
    simp only [hG]
    rw [zipComp_get hv (by simp) hm, getD_lt ((List.range q.size).map _) _ _ (by simpa using hm)]
    simp only [List.getElem_map, List.getElem_range]
    cases (g v).getD m none <;> rfl
  have hnone : ∀ v : List (Option F), none ∈ momVec fn bottom v ↔ none ∈ v := by
    intro v
    rw [mem_momVec]
    constructor
    · rintro ⟨x, hx, i, hi, h⟩
      rw [hp i hi] at h
      cases x with
      | none => exact hx
      | some x => cases h
    · intro h
      exact ⟨none, h, 0, hR, by rw [hp 0 hR]; rfl⟩
  have hcoef : ∀ raw : Nat → F, ∑ j ∈ Finset.range fn.size, (i.choose j : F) * (-mu k) ^ (i - j) * raw j = ∑ j ∈ Finset.range (i + 1), (i.choose j : F) * (-mu k) ^ (i - j) * raw j := by
    intro raw
    symm
    refine Finset.sum_subset (fun j hj => Finset.mem_range.2 (by have := Finset.mem_range.1 hj; omega)) fun j _ hj => ?_
    rw [Nat.choose_eq_zero_of_lt (by rw [Finset.mem_range] at hj; omega)]
    simp
  rw [← hcoef]
  refine linear_image hbr hidr hbr' hidr' (by rw [hszr]; exact hgr) (by rw [hszr']; exact hgr') (fun x => by rw [hkr', hkr, hkeep]) hwf hl he he' (fun j => momRow bottom q.size fn.size k j) hR
    (fun j hj => by rw [hszr]; exact momRow_lt hk hj) (by rw [hszr']; exact momRow_lt hk hi) (fun j => (i.choose j : F) * (-mu k) ^ (i - j)) ?_ ?_ raw hraw
  · intro x hw hkx
    rw [Bool.eq_iff_iff, hasNan_iff, hasNan_iff]
    refine exists_congr fun u => and_congr_right fun hu => ?_
    rw [hnone, hnone]
    obtain ⟨k', hk', rfl⟩ := List.getElem_of_mem hu
    have h1 := hlen x hw hkx k' hk'
    rw [getD_lt _ _ _ hk'] at h1
    rw [List.mem_iff_getElem, List.mem_iff_getElem]
    constructor
    · rintro ⟨m, hm, h⟩
      rw [hGlen] at hm
      have h2 := hGget _ h1 m hm
      rw [getD_lt _ _ _ (by rw [hGlen]; exact hm), h, getD_lt _ _ _ (by rw [h1]; exact hm)] at h2
      exact ⟨m, by rw [h1]; exact hm, Option.map_eq_none_iff.1 h2.symm⟩
    · rintro ⟨m, hm, h⟩
      rw [h1] at hm
      have h2 := hGget _ h1 m hm
      rw [getD_lt _ _ _ (by rw [hGlen]; exact hm), getD_lt _ _ _ (by rw [h1]; exact hm), h] at h2
      exact ⟨m, by rw [hGlen]; exact hm, h2⟩
  · intro x hw hkx hn k' hk'
    have h1 := hlen x hw hkx k' hk'
    have m1 := momVec_getD fn bottom (G (x.getD k' [])) k i (by rw [hGlen]; exact hk) hi
    rw [hGlen] at m1
    rw [m1, hp i hi, hGget _ h1 k hk]
    have hy : ∃ y, (g (x.getD k' [])).getD k none = some y := by
      cases h : (g (x.getD k' [])).getD k none with
      | some y => exact ⟨y, rfl⟩
      | none =>
        have : hasNan (x.map fun v => momVec fn bottom (g v)) = true := by
          rw [hasNan_iff]
          refine ⟨x.getD k' [], by rw [getD_lt _ _ _ hk']; exact List.getElem_mem hk', (hnone _).2 ?_⟩
          rw [getD_lt _ _ _ (by rw [h1]; exact hk)] at h
          rw [← h]
          exact List.getElem_mem _
        rw [this] at hn
        cases hn
    obtain ⟨y, hy⟩ := hy
    rw [hy]
    simp only [Option.map_some, Option.getD_some]
    rw [show y - mu k = y + -mu k by ring, add_pow]
    have hterm : ∀ j < fn.size, ((momVec fn bottom (g (x.getD k' []))).getD (momRow bottom q.size fn.size k j) none).getD 0 = y ^ j := by
      intro j hj
      have m2 := momVec_getD fn bottom (g (x.getD k' [])) k j (by rw [h1]; exact hk) hj
      rw [h1] at m2
      rw [m2, hp j hj, hy]
      rfl
    symm
    refine (Finset.sum_congr rfl fun j hj => congrArg (fun z => (i.choose j : F) * (-mu k) ^ (i - j) * z) (hterm j (Finset.mem_range.1 hj))).trans ?_
    rw [hcoef fun j => y ^ j]
    exact Finset.sum_congr rfl fun j _ => by ring

/-- The monomials of the library whose reference domain is their domain, without `safe_eval`, are the powers. -/
theorem library_powers {size : Nat} {lo hi : ℝ} {m : Mom.Moments} (h : Mom.construct .monomial size (lo, hi) (.pair lo hi) false false = .ok m) (hw : 1 / 10 ^ 15 ≤ hi - lo) :
    ArePowers (Dens.fn (.base m)) := by
  intro i hi' x
  obtain ⟨h0, _, hd, rfl⟩ := Mom.construct_ok h
  have hd' : 0 < hi - lo := by simpa [Mom.linBound] using hd
  rw [poly_nan (by simp) h0 hi']
  cases x with
  | none => rfl
  | some x =>
    simp only [Option.bind_some, Mom.Moments.transform, Mom.Moments.linear, Mom.linBound, Bool.false_eq_true, if_false, Option.map_some, max_eq_left hw, div_self (ne_of_gt hd'), mul_one,
      sub_add_cancel, Mom.col, Mom.pow_eq]

namespace ExCentral

/-- The first four powers. -/
def plain : MomentFn (Option ℚ) := ⟨4, fun i v => v.map (· ^ i)⟩
def cst : Quantity (Option ℚ) := .node 9 (.array [2] .scalar) false (binArr (Arr.zip floatSub)) [q, .const 8 (.array [2] .scalar) ((List.range 2).map fun k => some ([4, 11 / 2].getD k 0))]
def mq : Quantity (Option ℚ) := (q.moments 10 plain true).toOption.getD q
def mcst : Quantity (Option ℚ) := (cst.moments 11 plain true).toOption.getD q
def emq : QuantityMean ℚ := (estimateMean mq 2 (asChunks 7 2 chunks)).toOption.getD dflt
def emc : QuantityMean ℚ := (estimateMean mcst 2 (asChunks 7 2 chunks)).toOption.getD dflt
theorem idcst : IdsIdentify cst := by intro a ha; simp [cst, q, Quantity.selections, Quantity.selectionsList] at ha

/-- Central moments up to the third of the stored vectors on two levels, the sample with a NaN is dropped. -/
example : ∀ i < 4, emc.mean.getD (momRow true 2 4 1 i) none = some (∑ j ∈ Finset.range (i + 1), (i.choose j : ℚ) * (-(11 / 2)) ^ (i - j) * (emq.mean.getD (momRow true 2 4 1 j) none).getD 0) :=
  fun i hi => C151_central_moments 7 2 2 q cst mq mcst (.root _) (fun k => [4, 11 / 2].getD k 0) 9 8 10 11 (.array [2] .scalar) rfl idcst plain (by decide) (fun _ _ _ => rfl) true rfl rfl
    chunks wf (by decide) emq emc (ok_getD _ _ (by decide +kernel)) (ok_getD _ _ (by decide +kernel)) 1 (by decide) _ (by decide +kernel) i hi

example : emc.mean = [some 1, some 0, some (-2), some 9, some 1, some 0, some (-7 / 4), some 24] := by decide +kernel

/-- The library has these functions. -/
example : ∃ m, Mom.construct .monomial 4 (1, 6) (.pair 1 6) false false = .ok m := ⟨_, by rw [Mom.construct]; norm_num; rfl⟩

end ExCentral

end MLMC
