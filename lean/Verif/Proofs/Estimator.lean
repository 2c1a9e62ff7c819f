import Verif.Model.Estimator
import Verif.Props.EstimateCov
import Mathlib.Algebra.Order.BigOperators.Group.List
import Mathlib.Algebra.Order.Ring.Basic
/-! Helper lemmas about estimated moments and covariances. -/
namespace MLMC
variable {F : Type} [Field F]

theorem mul_getD_zero (a b : Option F) : (a * b).getD 0 = a.getD 0 * b.getD 0 := by
  have hmul : a * b = a.bind fun x => b.map (x * ·) := rfl
  rw [hmul]
  cases a <;> cases b <;> simp

/-- Used values of a covariance quantity are differences of products. -/
theorem cov_used [CharZero F] {sid W nLevels : Nat} {q : Quantity (Option F)} (hq : Built sid .qty q) (hid : IdsIdentify q)
    {fn : MomentFn (Option F)} (hR : 0 < fn.size) {bottom : Bool} {o : Nat} {c : Quantity (Option F)} (hc : q.covariance o fn bottom = .ok c)
    {chunks : List (Nat × List (Sample (Option F)))} (hwf : ChunksWF W chunks) {ec : QuantityMean F}
    (hec : estimateMean c nLevels (asChunks sid W chunks) = .ok ec) :
    Built sid .qty c ∧ IdsIdentify c ∧ c.size = q.size * (fn.size * fn.size) ∧
    ∃ V : Nat → List (Nat → Nat → Nat → F), ∀ l, (V l).length = (usedValues c sid W (levelData chunks l)).length ∧
      ∀ m < q.size, ∀ i < fn.size, ∀ i' < fn.size, usedDiffs c sid W l (covRow bottom q.size fn.size m i i') (levelData chunks l) =
        (V l).map fun v => if l = 0 then v 0 m i * v 0 m i' else v 0 m i * v 0 m i' - v 1 m i * v 1 m i' := by
  have hbc : Built sid .qty c := .covariance o fn bottom hq hc
  obtain ⟨⟨res, hres⟩, hqc⟩ := built_good W hq hid
  have hcn := (mk_ok hc).1
  have hidc : IdsIdentify c := by rw [hcn]; exact ids_un hid _ _ _
  obtain ⟨gc0, hgc0⟩ := est_good hbc hidc hwf hec
  cases res with
  | none =>
    exfalso
    obtain ⟨x, hx⟩ := hres ⟨W, 1, []⟩ (by intro s hs; simp at hs) rfl
    obtain ⟨y, hy, _⟩ := hgc0 ⟨W, 1, []⟩ (by intro s hs; simp at hs) rfl
    rw [hcn, on_one, hx] at hy
    simp [Except.bind] at hy
  | some mg =>
  obtain ⟨M, g⟩ := mg
  have hgc : GoodQ sid W c (some (M * (fn.size * fn.size), fun v => covVec fn bottom (g v))) ∧ ∀ x, keep sid W c x = keep sid W q x := by
    rw [hcn]
    apply good_un' _ _ _ hres hqc
    intro x p S hx
    refine ⟨_, rfl, hx.n, hx.p, ?_, ?_⟩
    · cases bottom <;> simp [List.length_flatMap, hx.m]
      ring
    · intro j hj k hk
      have := hx.val j hj k hk
      rw [← this]
      unfold covVec
      cases bottom
      · simp [List.map_flatMap, Function.comp_def]
      · simp [List.map_flatMap, List.flatMap_map, Function.comp_def]
  obtain ⟨hgc, hkc⟩ := hgc
  have hMc := goodQ_m hgc0 hgc
  have hM : M = q.size := by
    have hs : c.size = q.size * (fn.size * fn.size) := by
      rw [hcn]
      cases bottom
      · change (QType.array [fn.size, fn.size] q.qtype).size = q.qtype.size * (fn.size * fn.size)
        simp [QType.size, Nat.mul_comm]
      · change (q.qtype.replaceScalar (.array [fn.size, fn.size] .scalar)).size = q.qtype.size * (fn.size * fn.size)
        rw [size_replaceScalar]
        simp [QType.size]
    rw [hs] at hMc
    exact (Nat.eq_of_mul_eq_mul_right (Nat.mul_pos hR hR) hMc).symm
  subst hM
  have hD := fun l => levelData_wf hwf l
  refine ⟨hbc, hidc, hMc, fun l => (((levelData chunks l).filter (keep sid W c)).filter fun s => !hasNan (s.map fun v => covVec fn bottom (g v))).map
    fun s k m i => (fn.ev i ((g (s.getD k [])).getD m none)).getD 0, fun l => ⟨?_, ?_⟩⟩
  · rw [usedValues_gen hgc (hD l)]; simp
  · intro m hm i hi i' hi'
    rw [usedDiffs_gen hgc (hD l) _ (covRow_lt hm hi hi'), List.map_map]
    apply List.map_congr_left
    intro s hs
    rw [List.mem_filter, List.mem_filter] at hs
    have hk : keep sid W q s = true := by rw [← hkc]; exact hs.1.2
    have hlen := (level_sample (hD l) hs.1.1).1
    have hcv : ∀ k, k < s.length → (covVec fn bottom (g (s.getD k []))).getD (covRow bottom q.size fn.size m i i') none =
        fn.ev i ((g (s.getD k [])).getD m none) * fn.ev i' ((g (s.getD k [])).getD m none) := by
      intro k hk'
      have e := good_length hres (level_sample (hD l) hs.1.1).2 hk k hk'
      have := covVec_getD fn bottom (g (s.getD k [])) m i i' (by rw [e]; exact hm) hi hi'
      rw [e] at this
      exact this
    unfold cv
    by_cases h0 : l = 0
    · rw [if_pos h0] at hlen ⊢
      simp only [Function.comp_apply, h0, if_true, hcv 0 (by omega), mul_getD_zero]
    · rw [if_neg h0] at hlen ⊢
      simp only [Function.comp_apply, h0, if_false, hcv 0 (by omega), hcv 1 (by omega), mul_getD_zero]

/-- Used values of the zeroth moment are 1. -/
theorem mom_used [CharZero F] {sid W nLevels : Nat} {q : Quantity (Option F)} (hq : Built sid .qty q) (hid : IdsIdentify q)
    {fn : MomentFn (Option F)} (hR : 0 < fn.size) {bottom : Bool} {o : Nat} {r : Quantity (Option F)} (hr : q.moments o fn bottom = .ok r)
    (h1 : ∀ x, fn.ev 0 x = some 1 ∨ fn.ev 0 x = none)
    {chunks : List (Nat × List (Sample (Option F)))} (hwf : ChunksWF W chunks) {er : QuantityMean F}
    (her : estimateMean r nLevels (asChunks sid W chunks) = .ok er) :
    Built sid .qty r ∧ IdsIdentify r ∧ r.size = q.size * fn.size ∧
    ∀ l, ∀ m < q.size, usedDiffs r sid W l (momRow bottom q.size fn.size m 0) (levelData chunks l) =
        List.replicate (usedValues r sid W (levelData chunks l)).length (if l = 0 then 1 else 0) := by
  have hbr : Built sid .qty r := .moments o fn bottom hq hr
  obtain ⟨⟨res, hres⟩, hqc⟩ := built_good W hq hid
  have hrn := (mk_ok hr).1
  have hidr : IdsIdentify r := by rw [hrn]; exact ids_un hid _ _ _
  obtain ⟨gr0, hgr0⟩ := est_good hbr hidr hwf her
  cases res with
  | none =>
    exfalso
    obtain ⟨x, hx⟩ := hres ⟨W, 1, []⟩ (by intro s hs; simp at hs) rfl
    obtain ⟨y, hy, _⟩ := hgr0 ⟨W, 1, []⟩ (by intro s hs; simp at hs) rfl
    rw [hrn, on_one, hx] at hy
    simp [Except.bind] at hy
  | some mg =>
  obtain ⟨M, g⟩ := mg
  have hgr : GoodQ sid W r (some (M * fn.size, fun v => momVec fn bottom (g v))) ∧ ∀ x, keep sid W r x = keep sid W q x := by
    rw [hrn]
    apply good_un' _ _ _ hres hqc
    intro x p S hx
    refine ⟨_, rfl, hx.n, hx.p, ?_, ?_⟩
    · cases bottom <;> simp [List.length_flatMap, hx.m, Nat.mul_comm]
    · intro j hj k hk
      have := hx.val j hj k hk
      rw [← this]
      unfold momVec
      cases bottom
      · simp [List.map_flatMap, Function.comp_def]
      · simp [List.map_flatMap, List.flatMap_map, Function.comp_def]
  obtain ⟨hgr, hkr⟩ := hgr
  have hMr := goodQ_m hgr0 hgr
  have hM : M = q.size := by
    have hs : r.size = q.size * fn.size := by
      rw [hrn]
      cases bottom
      · change (QType.array [fn.size] q.qtype).size = q.qtype.size * fn.size
        simp [QType.size, Nat.mul_comm]
      · change (q.qtype.replaceScalar (.array [fn.size] .scalar)).size = q.qtype.size * fn.size
        rw [size_replaceScalar]
        simp [QType.size]
    rw [hs] at hMr
    exact (Nat.eq_of_mul_eq_mul_right hR hMr).symm
  subst hM
  have hD := fun l => levelData_wf hwf l
  refine ⟨hbr, hidr, hMr, fun l m hm => ?_⟩
  rw [usedDiffs_gen hgr (hD l) _ (momRow_lt hm hR), usedValues_gen hgr (hD l), List.length_map, ← List.map_const']
  apply List.map_congr_left
  intro s hs
  rw [List.mem_filter, List.mem_filter] at hs
  have hk : keep sid W q s = true := by rw [← hkr]; exact hs.1.2
  have hlen := (level_sample (hD l) hs.1.1).1
  have hone : ∀ k, k < s.length → (momVec fn bottom (g (s.getD k []))).getD (momRow bottom q.size fn.size m 0) none = some 1 := by
    intro k hk'
    have e := good_length hres (level_sample (hD l) hs.1.1).2 hk k hk'
    have := momVec_getD fn bottom (g (s.getD k [])) m 0 (by rw [e]; exact hm) hR
    rw [e] at this
    rw [this]
    rcases h1 ((g (s.getD k [])).getD m none) with h | h
    · exact h
    · exfalso
      have hn : hasNan (s.map fun v => momVec fn bottom (g v)) = true := by
        rw [hasNan_iff]
        refine ⟨s.getD k [], by rw [getD_lt _ _ _ hk']; exact List.getElem_mem hk', (mem_momVec _ _ _ _).2 ⟨(g (s.getD k [])).getD m none, ?_, 0, hR, h.symm⟩⟩
        rw [getD_lt (g (s.getD k [])) _ _ (by rw [e]; exact hm)]
        exact List.getElem_mem _
      rw [hn] at hs
      simp at hs
  unfold cv
  by_cases h0 : l = 0
  · rw [if_pos h0] at hlen ⊢
    rw [hone 0 (by omega)]
    simp [h0]
  · rw [if_neg h0] at hlen ⊢
    rw [hone 0 (by omega), hone 1 (by omega)]
    simp [h0]

theorem average_replicate [CharZero F] (n : Nat) (hn : n ≠ 0) (a : F) : average (List.replicate n a) = a := by
  unfold average
  rw [List.sum_replicate, List.length_replicate, nsmul_eq_mul]
  field_simp

theorem sampleVar_replicate [CharZero F] (n : Nat) (a : F) : sampleVar (List.replicate n a) = 0 := by
  rcases Nat.eq_zero_or_pos n with rfl | hn
  · simp [sampleVar]
  · unfold sampleVar
    rw [average_replicate n (by omega) a, List.map_replicate]
    simp

theorem floatSum_somes (xs : List F) : floatSum (xs.map some) = some xs.sum := by
  induction xs with
  | nil => rfl
  | cons x xs ih =>
    unfold floatSum at ih ⊢
    simp only [List.map_cons, List.foldr_cons, ih]
    simp

end MLMC
