import Verif.Props.Estimate
/-
C48: mean estimation is linear and commutes with indexing.
-/
namespace MLMC
variable {F : Type} [Field F]

/-- Sum of two floats, NaN if one is; `add_op`, /repo/mlmc/quantity/quantity.py:225-227. -/
def floatAdd (a b : Option F) : Option F := a.bind fun x => b.map (x + ·)

/-! ## Helpers -/

/-- If an estimate exists, every evaluation gives `size` rows. -/
theorem est_good [CharZero F] {sid W nLevels : Nat} {q : Quantity (Option F)} (hq : Built sid .qty q) (hid : IdsIdentify q)
    {chunks : List (Nat × List (Sample (Option F)))} (hwf : ChunksWF W chunks) {e : QuantityMean F}
    (he : estimateMean q nLevels (asChunks sid W chunks) = .ok e) : ∃ g, GoodQ sid W q (some (q.size, g)) := by
  have hst := built_storage hq (by simp)
  unfold estimateMean at he
  rw [if_neg hst] at he
  obtain ⟨⟨res, h⟩, _⟩ := built_good W hq hid
  cases res with
  | none =>
    exfalso
    cases chunks with
    | nil => simp [asChunks, meanLoop, MeanAcc.init, bind, Except.bind] at he
    | cons c cs =>
      obtain ⟨x, hx⟩ := h (batchOf W c.1 c.2) (hwf c (by simp)) rfl
      have hx' : q.samples (fun o => if o = sid then .ok (batchOf W c.1 c.2).toArr else .error .other) = .error x := hx
      simp [asChunks, meanLoop, hx', bind, Except.bind] at he
  | some x =>
    obtain ⟨m, g⟩ := x
    by_cases hm : m = q.size
    · subst hm; exact ⟨g, h⟩
    · exfalso
      have hev : Evals q sid W m chunks := by
        rcases built_evals W hq hid with h' | ⟨m', h'⟩
        · intro c hc
          obtain ⟨x, hx⟩ := h' (batchOf W c.1 c.2) (hwf c hc) rfl
          obtain ⟨a, ha, _⟩ := h (batchOf W c.1 c.2) (hwf c hc) rfl
          rw [hx] at ha; simp at ha
        · intro c hc
          obtain ⟨a, ha, h1, h2, h3⟩ := h' chunks hwf c hc
          obtain ⟨b, hb, hr⟩ := h (batchOf W c.1 c.2) (hwf c hc) rfl
          rw [ha] at hb
          cases hb
          exact ⟨a, ha, hr.m, h2, h3⟩
      rcases meanLoop_bad q sid W m nLevels chunks hev hm MeanAcc.init with ⟨x, hx⟩ | ⟨acc, h1, h2⟩
      · rw [hx] at he; simp [bind, Except.bind] at he
      · rw [h1] at he
        simp only [bind, Except.bind] at he
        rw [h2] at he
        simp [MeanAcc.init] at he

/-- Fine value, or difference of fine and coarse value, of component `i`. -/
def cv (g : List (Option F) → List (Option F)) (l i : Nat) (s : Sample (Option F)) : F :=
  if l = 0 then ((g (s.getD 0 [])).getD i none).getD 0 else ((g (s.getD 0 [])).getD i none).getD 0 - ((g (s.getD 1 [])).getD i none).getD 0

/-- Component functions of a quantity give vectors of the right length on kept samples. -/
theorem good_length {sid W m : Nat} {q : Quantity (Option F)} {g : List (Option F) → List (Option F)} (h : GoodQ sid W q (some (m, g)))
    {s : Sample (Option F)} (hs : (⟨W, s.length, [s]⟩ : Batch (Option F)).WF) (hk : keep sid W q s = true) (k : Nat) (hk' : k < s.length) :
    (g (s.getD k [])).length = m := by
  obtain ⟨a, ha, hr⟩ := h _ hs rfl
  have hkept : kept sid W q ⟨W, s.length, [s]⟩ = [s] := by simp [kept, hk]
  rw [hkept] at hr
  have := congrArg List.length (hr.val 0 (by simp) k hk')
  simp only [List.getElem_cons_zero] at this
  rw [← this, List.length_map, hr.m]

theorem levelDiff_cv {sid W m : Nat} {q : Quantity (Option F)} {g : List (Option F) → List (Option F)} (h : GoodQ sid W q (some (m, g)))
    {l : Nat} {s : Sample (Option F)} (hlen : s.length = if l = 0 then 1 else 2) (hs : (⟨W, s.length, [s]⟩ : Batch (Option F)).WF)
    (hk : keep sid W q s = true) (i : Nat) (hi : i < m) : (levelDiff l (s.map g)).getD i 0 = cv g l i s := by
  unfold levelDiff cv
  have hg : ∀ k, k < s.length → (s.map g).getD k [] = g (s.getD k []) := by
    intro k hk
    rw [getD_lt _ _ _ (by simpa using hk), getD_lt _ _ _ hk]; simp
  by_cases h0 : l = 0
  · rw [if_pos h0] at hlen
    rw [if_pos h0, if_pos h0, hg 0 (by omega), getD_lt _ _ _ (by rw [List.length_map, good_length h hs hk 0 (by omega)]; exact hi),
      getD_lt (g (s.getD 0 [])) _ _ (by rw [good_length h hs hk 0 (by omega)]; exact hi)]
    simp
  · rw [if_neg h0] at hlen
    have e0 := good_length h hs hk 0 (by omega)
    have e1 := good_length h hs hk 1 (by omega)
    rw [if_neg h0, if_neg h0, hg 0 (by omega), hg 1 (by omega), getD_lt _ _ _ (by simp only [List.length_zipWith]; omega),
      getD_lt (g (s.getD 0 [])) _ _ (by omega), getD_lt (g (s.getD 1 [])) _ _ (by omega)]
    simp

/-- The samples of a level have the right shape. -/
theorem level_sample {W l : Nat} {data : List (Sample (Option F))} (hwf : (batchOf W l data).WF) {s : Sample (Option F)} (hs : s ∈ data) :
    s.length = (if l = 0 then 1 else 2) ∧ (⟨W, s.length, [s]⟩ : Batch (Option F)).WF :=
  ⟨(hwf s hs).1, single_wf (W := W) hwf rfl hs⟩

theorem levelValues_good {sid W m : Nat} {q : Quantity (Option F)} {g : List (Option F) → List (Option F)} (h : GoodQ sid W q (some (m, g)))
    {l : Nat} {data : List (Sample (Option F))} (hwf : (batchOf W l data).WF) :
    levelValues q sid W data = (data.filter (keep sid W q)).map (·.map g) := by
  unfold levelValues
  rw [← List.filterMap_eq_map, List.filterMap_filter]
  apply List.filterMap_congr
  intro s hs
  rw [perSample_of_good h s (level_sample hwf hs).2]
  simp

/-- Without NaN every kept sample is used. -/
theorem used_good {sid W m : Nat} {q : Quantity (Option F)} {g : List (Option F) → List (Option F)} (h : GoodQ sid W q (some (m, g)))
    {l : Nat} {data : List (Sample (Option F))} (hwf : (batchOf W l data).WF) (hno : ∀ v ∈ levelValues q sid W data, hasNan v = false) :
    usedValues q sid W data = (data.filter (keep sid W q)).map (·.map g) := by
  unfold usedValues
  rw [List.filter_eq_self.2 fun v hv => by rw [hno v hv]; rfl, levelValues_good h hwf]

theorem usedDiffs_good {sid W m : Nat} {q : Quantity (Option F)} {g : List (Option F) → List (Option F)} (h : GoodQ sid W q (some (m, g)))
    {l : Nat} {data : List (Sample (Option F))} (hwf : (batchOf W l data).WF) (hno : ∀ v ∈ levelValues q sid W data, hasNan v = false)
    (i : Nat) (hi : i < m) : usedDiffs q sid W l i data = (data.filter (keep sid W q)).map (cv g l i) := by
  unfold usedDiffs
  rw [used_good h hwf hno, List.map_map]
  apply List.map_congr_left
  intro s hs
  rw [List.mem_filter] at hs
  exact levelDiff_cv h (level_sample hwf hs.1).1 (level_sample hwf hs.1).2 hs.2 i hi

theorem hasNan_false {s : Sample (Option F)} {g : List (Option F) → List (Option F)} (h : hasNan (s.map g) = false) (k : Nat) (hk : k < s.length)
    (i : Nat) (hi : i < (g (s.getD k [])).length) : ∃ x, (g (s.getD k [])).getD i none = some x := by
  unfold hasNan at h
  rw [List.any_eq_false] at h
  have h1 := h (g (s.getD k [])) (List.mem_map.2 ⟨s.getD k [], by rw [getD_lt _ _ _ hk]; exact List.getElem_mem hk, rfl⟩)
  rw [Bool.not_eq_true, List.any_eq_false] at h1
  rw [getD_lt _ _ _ hi]
  have h2 := h1 _ (List.getElem_mem hi)
  cases hx : (g (s.getD k []))[i] with
  | none => rw [hx] at h2; simp at h2
  | some x => exact ⟨x, rfl⟩

theorem hasNan_of {s : Sample (Option F)} {g : List (Option F) → List (Option F)} (h : ∀ k, k < s.length → ∀ x ∈ g (s.getD k []), x ≠ none) :
    hasNan (s.map g) = false := by
  unfold hasNan
  rw [List.any_eq_false]
  intro v hv
  obtain ⟨u, hu, rfl⟩ := List.mem_map.1 hv
  obtain ⟨k, hk, rfl⟩ := List.mem_iff_getElem.1 hu
  rw [Bool.not_eq_true, List.any_eq_false]
  intro x hx
  have := h k hk x (by rw [getD_lt _ _ _ hk]; exact hx)
  cases x with
  | none => exact absurd rfl this
  | some y => simp

theorem comp_getD {v : List (Option F)} {m i : Nat} (h : v.length = m) (hi : i < m) : comp v i = v.getD i none := by
  unfold comp
  split
  · rw [show i = 0 by omega]; rfl
  · rfl

theorem good_sum {sid W m : Nat} {a b s : Quantity (Option F)} {ga gb : List (Option F) → List (Option F)} {o : Nat} {t : QType} (f)
    (ha : GoodQ sid W a (some (m, ga))) (hb : GoodQ sid W b (some (m, gb))) (hca : a.isConst = false) (hcb : b.isConst = false)
    (hs : Quantity.mk o t (binArr (Arr.zip f)) [a, b] = .ok s) (hid : IdsIdentify s) :
    GoodQ sid W s (some (m, fun v => zipComp f m (ga v) (gb v))) ∧ (∀ x, keep sid W s x = keep sid W a x) ∧ ∀ x, keep sid W s x = keep sid W b x := by
  obtain ⟨rfl, hsel⟩ := mk_ok hs
  have hna := node_selNode hid hsel (a := a) (by simp) hca
  have hnb := node_selNode hid hsel (a := b) (by simp) hcb
  refine ⟨fun B hB hw => ?_, fun x => by unfold keep; rw [hna], fun x => by unfold keep; rw [hnb]⟩
  obtain ⟨x, hx, hxr⟩ := ha B hB hw
  obtain ⟨y, hy, hyr⟩ := hb B hB hw
  rw [← kept_congr hna] at hxr
  rw [← kept_congr hnb] at hyr
  obtain ⟨c, hc, hcr⟩ := zip_rep f hxr hyr m (bdim_self m)
  exact ⟨c, by rw [on_two, hx, hy]; simp [Except.bind, binArr, hc, Except.map], hcr⟩

theorem good_scale {sid W m : Nat} {a s : Quantity (Option F)} {ga : List (Option F) → List (Option F)} {o o' : Nat} {t t' : QType} (f) (c : Option F)
    (ha : GoodQ sid W a (some (m, ga))) (hca : a.isConst = false)
    (hs : Quantity.mk o t (binArr (Arr.zip f)) [.const o' t' [c], a] = .ok s) (hid : IdsIdentify s) :
    GoodQ sid W s (some (m, fun v => zipComp f m [c] (ga v))) ∧ ∀ x, keep sid W s x = keep sid W a x := by
  obtain ⟨rfl, hsel⟩ := mk_ok hs
  have hna := node_selNode hid hsel (a := a) (by simp) hca
  refine ⟨fun B hB hw => ?_, fun x => by unfold keep; rw [hna]⟩
  obtain ⟨x, hx, hxr⟩ := ha B hB hw
  rw [← kept_congr hna] at hxr
  obtain ⟨y, hy, hyr⟩ := zip_repL f hxr [c] m (one_bdim m)
  exact ⟨y, by rw [on_two, hx, on_const]; simp [Except.bind, binArr, hy, Except.map], hyr⟩

/-- The result of an operation with a constant has the type of the quantity. -/
theorem scale_mk {K : Type} [Inhabited K] {q p : Quantity K} (hc : q.isConst = false) {f : K → K → K} {o o' : Nat} {t' : QType} {c : List K}
    (hp : Quantity.arith o f (.const o' t' c) q = .ok p) :
    Quantity.mk o q.qtype (binArr (Arr.zip f)) [.const o' t' c, q] = .ok p := by
  unfold Quantity.arith Quantity.create at hp
  cases q with
  | const => simp [Quantity.isConst] at hc
  | node => exact hp
  | storage => exact hp

theorem average_lin {α : Type} (l : List α) (f g : α → F) (a b : F) :
    average (l.map fun x => a * f x + b * g x) = a * average (l.map f) + b * average (l.map g) := by
  unfold average
  simp only [List.length_map]
  have : (l.map fun x => a * f x + b * g x).sum = a * (l.map f).sum + b * (l.map g).sum := by
    induction l with
    | nil => simp
    | cons x l ih => simp only [List.map_cons, List.sum_cons, ih]; ring
  rw [this]
  ring

theorem floatSum_lin (a b : F) (xs : List (Option F × Option F)) :
    floatSum (xs.map fun x => floatAdd (some a * x.1) (some b * x.2)) =
      floatAdd (some a * floatSum (xs.map (·.1))) (some b * floatSum (xs.map (·.2))) := by
  have hmul : ∀ (c : F) (x : Option F), some c * x = x.map (c * ·) := fun c x => rfl
  induction xs with
  | nil => simp [floatSum, floatAdd, hmul]
  | cons x xs ih =>
    have hc : ∀ (y : Option F) (ys : List (Option F)), floatSum (y :: ys) = floatAdd y (floatSum ys) := fun _ _ => rfl
    simp only [List.map_cons, hc, ih]
    obtain ⟨x1, x2⟩ := x
    generalize floatSum (xs.map (·.1)) = s1
    generalize floatSum (xs.map (·.2)) = s2
    cases x1 <;> cases x2 <;> cases s1 <;> cases s2 <;> simp [floatAdd, hmul]
    ring

/-! ## C48 -/

/-- C48, linearity: the estimate of `a * q1 + b * q2` has the level means `a * m1 + b * m2` and the same combination as mean, for data
on which neither quantity is NaN. -/
theorem C48_linear [CharZero F] (sid W nLevels : Nat) (q1 q2 p1 p2 s : Quantity (Option F)) (hq1 : Built sid .qty q1) (hq2 : Built sid .qty q2)
    (a b : F) (o1 o2 o3 o4 o5 : Nat)
    (hp1 : Quantity.arith o1 (· * ·) (.const o2 .scalar [some a]) q1 = .ok p1) (hp2 : Quantity.arith o3 (· * ·) (.const o4 .scalar [some b]) q2 = .ok p2)
    (hs : p1.arith o5 floatAdd p2 = .ok s) (hid : IdsIdentify s) (hsize : q1.size = q2.size)
    (chunks : List (Nat × List (Sample (Option F)))) (hwf : ChunksWF W chunks) (hl : ∀ c ∈ chunks, c.1 < nLevels) (e1 e2 : QuantityMean F)
    (he1 : estimateMean q1 nLevels (asChunks sid W chunks) = .ok e1) (he2 : estimateMean q2 nLevels (asChunks sid W chunks) = .ok e2)
    (hno1 : ∀ l, ∀ v ∈ levelValues q1 sid W (levelData chunks l), hasNan v = false)
    (hno2 : ∀ l, ∀ v ∈ levelValues q2 sid W (levelData chunks l), hasNan v = false) :
    ∃ e, estimateMean s nLevels (asChunks sid W chunks) = .ok e ∧ e.nSamples = e1.nSamples ∧ e.nSamples = e2.nSamples ∧
      e.lMeans = List.zipWith (List.zipWith fun x y => floatAdd (some a * x) (some b * y)) e1.lMeans e2.lMeans ∧
      e.mean = List.zipWith (fun x y => floatAdd (some a * x) (some b * y)) e1.mean e2.mean := by
  have hs0 := hs
  have ids : IdsIdentify q1 ∧ IdsIdentify q2 := by
    obtain ⟨t, ht⟩ := create_mk hs
    obtain ⟨t1, ht1⟩ := create_mk hp1
    obtain ⟨t2, ht2⟩ := create_mk hp2
    have es := (mk_ok ht).1
    have e1 := (mk_ok ht1).1
    have e2 := (mk_ok ht2).1
    rw [es] at hid
    have i1 : IdsIdentify p1 := hid.input (by simp)
    have i2 : IdsIdentify p2 := hid.input (by simp)
    rw [e1] at i1
    rw [e2] at i2
    exact ⟨i1.input (by simp), i2.input (by simp)⟩
  have hc1 : q1.isConst = false := (built_good W hq1 ids.1).2
  have hc2 : q2.isConst = false := (built_good W hq2 ids.2).2
  have mp1 := scale_mk hc1 hp1
  have mp2 := scale_mk hc2 hp2
  have ep1 := (mk_ok mp1).1
  have ep2 := (mk_ok mp2).1
  have ms : Quantity.mk o5 p1.qtype (binArr (Arr.zip floatAdd)) [p1, p2] = .ok s := by
    unfold Quantity.arith Quantity.create at hs
    rw [ep1, ep2] at hs ⊢
    simpa [List.find?, Quantity.isConst] using hs
  have es := (mk_ok ms).1
  have hidp1 : IdsIdentify p1 := by rw [es] at hid; exact hid.input (by simp)
  have hidp2 : IdsIdentify p2 := by rw [es] at hid; exact hid.input (by simp)
  have hid1 : IdsIdentify q1 := by rw [ep1] at hidp1; exact hidp1.input (by simp)
  have hid2 : IdsIdentify q2 := by rw [ep2] at hidp2; exact hidp2.input (by simp)
  have hbp1 : Built sid .qty p1 := .arithL o1 _ (.const o2 .scalar [some a]) hq1 hp1
  have hbp2 : Built sid .qty p2 := .arithL o3 _ (.const o4 .scalar [some b]) hq2 hp2
  have hbs : Built sid .qty s := .arith o5 _ hbp1 hbp2 hs0
  obtain ⟨g1, hg1⟩ := est_good hq1 hid1 hwf he1
  obtain ⟨g2, hg2⟩ := est_good hq2 hid2 hwf he2
  rw [← hsize] at hg2
  obtain ⟨hgp1, hk1⟩ := good_scale _ (some a) hg1 hc1 mp1 hidp1
  obtain ⟨hgp2, hk2⟩ := good_scale _ (some b) hg2 hc2 mp2 hidp2
  obtain ⟨hgs, hks1, hks2⟩ := good_sum _ hgp1 hgp2 (by rw [ep1]; rfl) (by rw [ep2]; rfl) ms hid
  have hssize : s.size = q1.size := by rw [es, ep1]; rfl
  have hkeep1 : ∀ x, keep sid W s x = keep sid W q1 x := fun x => by rw [hks1, hk1]
  have hkeep2 : ∀ x, keep sid W s x = keep sid W q2 x := fun x => by rw [hks2, hk2]
  set G := fun v => zipComp floatAdd q1.size (zipComp (· * ·) q1.size [some a] (g1 v)) (zipComp (· * ·) q1.size [some b] (g2 v)) with hG
  have hmul : ∀ (c : F) (x : Option F), some c * x = x.map (c * ·) := fun c x => rfl
  -- values of the combination
  have hval : ∀ v, (g1 v).length = q1.size → (g2 v).length = q1.size → ∀ i, i < q1.size →
      (G v).getD i none = floatAdd (some a * (g1 v).getD i none) (some b * (g2 v).getD i none) := by
    intro v h1 h2 i hi
    rw [hG]
    simp only
    unfold zipComp
    rw [getD_lt _ _ _ (by simpa using hi)]
    simp only [List.getElem_map, List.getElem_range]
    rw [comp_getD (m := q1.size) (by simp) hi, comp_getD (m := q1.size) (by simp) hi, getD_lt _ _ _ (by simpa using hi),
      getD_lt _ _ _ (by simpa using hi)]
    simp only [List.getElem_map, List.getElem_range]
    rw [comp_getD h1 hi, comp_getD h2 hi]
    rfl
  have hD := fun l => levelData_wf hwf l
  have hsome1 : ∀ l, ∀ x ∈ levelData chunks l, keep sid W s x = true → ∀ k, k < x.length → ∀ i, i < q1.size →
      ∃ y, (g1 (x.getD k [])).getD i none = some y := by
    intro l x hx hkx k hk i hi
    have hsh := level_sample (hD l) hx
    have hv : x.map g1 ∈ levelValues q1 sid W (levelData chunks l) := by
      rw [levelValues_good hg1 (hD l)]
      exact List.mem_map.2 ⟨x, List.mem_filter.2 ⟨hx, by rw [← hkeep1]; exact hkx⟩, rfl⟩
    exact hasNan_false (hno1 l _ hv) k hk i (by rw [good_length hg1 hsh.2 (by rw [← hkeep1]; exact hkx) k hk]; exact hi)
  have hsome2 : ∀ l, ∀ x ∈ levelData chunks l, keep sid W s x = true → ∀ k, k < x.length → ∀ i, i < q1.size →
      ∃ y, (g2 (x.getD k [])).getD i none = some y := by
    intro l x hx hkx k hk i hi
    have hsh := level_sample (hD l) hx
    have hv : x.map g2 ∈ levelValues q2 sid W (levelData chunks l) := by
      rw [levelValues_good hg2 (hD l)]
      exact List.mem_map.2 ⟨x, List.mem_filter.2 ⟨hx, by rw [← hkeep2]; exact hkx⟩, rfl⟩
    exact hasNan_false (hno2 l _ hv) k hk i (by rw [good_length hg2 hsh.2 (by rw [← hkeep2]; exact hkx) k hk]; exact hi)
  have hlen1 : ∀ l, ∀ x ∈ levelData chunks l, keep sid W s x = true → ∀ k, k < x.length → (g1 (x.getD k [])).length = q1.size :=
    fun l x hx hkx k hk => good_length hg1 (level_sample (hD l) hx).2 (by rw [← hkeep1]; exact hkx) k hk
  have hlen2 : ∀ l, ∀ x ∈ levelData chunks l, keep sid W s x = true → ∀ k, k < x.length → (g2 (x.getD k [])).length = q1.size :=
    fun l x hx hkx k hk => good_length hg2 (level_sample (hD l) hx).2 (by rw [← hkeep2]; exact hkx) k hk
  have hcomb : ∀ l, ∀ x ∈ levelData chunks l, keep sid W s x = true → ∀ k, k < x.length → ∀ i, i < q1.size →
      ∃ y z, (g1 (x.getD k [])).getD i none = some y ∧ (g2 (x.getD k [])).getD i none = some z ∧
        (G (x.getD k [])).getD i none = some (a * y + b * z) := by
    intro l x hx hkx k hk i hi
    obtain ⟨y, hy⟩ := hsome1 l x hx hkx k hk i hi
    obtain ⟨z, hz⟩ := hsome2 l x hx hkx k hk i hi
    refine ⟨y, z, hy, hz, ?_⟩
    rw [hval _ (hlen1 l x hx hkx k hk) (hlen2 l x hx hkx k hk) i hi, hy, hz]
    simp [hmul, floatAdd]
  have hGlen : ∀ v, (G v).length = q1.size := by intro v; rw [hG]; simp [zipComp]
  have hnos : ∀ l, ∀ v ∈ levelValues s sid W (levelData chunks l), hasNan v = false := by
    intro l v hv
    rw [levelValues_good hgs (hD l)] at hv
    obtain ⟨x, hx, rfl⟩ := List.mem_map.1 hv
    rw [List.mem_filter] at hx
    apply hasNan_of
    intro k hk y hy
    obtain ⟨i, hi, rfl⟩ := List.mem_iff_getElem.1 hy
    have hi' : i < q1.size := by rw [← hGlen (x.getD k [])]; exact hi
    obtain ⟨y, z, _, _, h⟩ := hcomb l x hx.1 hx.2 k hk i hi'
    rw [getD_lt _ _ _ hi] at h
    rw [h]; simp
  have hcv : ∀ l, ∀ x ∈ levelData chunks l, keep sid W s x = true → ∀ i, i < q1.size → cv G l i x = a * cv g1 l i x + b * cv g2 l i x := by
    intro l x hx hkx i hi
    have hsh := (level_sample (hD l) hx).1
    unfold cv
    by_cases h0 : l = 0
    · rw [if_pos h0] at hsh
      obtain ⟨y, z, h1, h2, h3⟩ := hcomb l x hx hkx 0 (by omega) i hi
      rw [if_pos h0, if_pos h0, if_pos h0, h1, h2, h3]; rfl
    · rw [if_neg h0] at hsh
      obtain ⟨y, z, h1, h2, h3⟩ := hcomb l x hx hkx 0 (by omega) i hi
      obtain ⟨y', z', h1', h2', h3'⟩ := hcomb l x hx hkx 1 (by omega) i hi
      rw [if_neg h0, if_neg h0, if_neg h0, h1, h2, h3, h1', h2', h3']
      simp only [Option.getD_some]; ring
  -- estimates
  have E1 := C46_textbook_estimators sid W nLevels q1 hq1 hid1 chunks hwf hl e1 he1
  have E2 := C46_textbook_estimators sid W nLevels q2 hq2 hid2 chunks hwf hl e2 he2
  have hu1 := fun l => used_good hg1 (hD l) (hno1 l)
  have hu2 := fun l => used_good hg2 (hD l) (hno2 l)
  have hus := fun l => used_good hgs (hD l) (hnos l)
  have hf1 : ∀ l, (levelData chunks l).filter (keep sid W q1) = (levelData chunks l).filter (keep sid W s) :=
    fun l => List.filter_congr fun x _ => (hkeep1 x).symm
  have hf2 : ∀ l, (levelData chunks l).filter (keep sid W q2) = (levelData chunks l).filter (keep sid W s) :=
    fun l => List.filter_congr fun x _ => (hkeep2 x).symm
  have hex : ∃ e, estimateMean s nLevels (asChunks sid W chunks) = .ok e ∧ IsEstimate s sid W nLevels (levelData chunks) e := by
    have hany : ∃ l, usedValues q1 sid W (levelData chunks l) ≠ [] := by
      rcases estimate_cases W hq1 hid1 with h | h
      · obtain ⟨x, hx⟩ := h nLevels chunks hwf hl
        rw [he1] at hx; simp at hx
      · rcases h nLevels chunks hwf hl with ⟨_, hx⟩ | ⟨h, _⟩
        · rw [he1] at hx; simp at hx
        · exact h
    have hev : Evals s sid W s.size chunks := by
      rcases built_evals W hbs hid with h' | ⟨m', h'⟩
      · intro c hc
        obtain ⟨x, hx⟩ := h' (batchOf W c.1 c.2) (hwf c hc) rfl
        obtain ⟨a, ha, _⟩ := hgs (batchOf W c.1 c.2) (hwf c hc) rfl
        rw [hx] at ha; simp at ha
      · intro c hc
        obtain ⟨x, hx, h1, h2, h3⟩ := h' chunks hwf c hc
        obtain ⟨y, hy, hr⟩ := hgs (batchOf W c.1 c.2) (hwf c hc) rfl
        rw [hx] at hy
        cases hy
        exact ⟨x, hx, by rw [hr.m, hssize], h2, h3⟩
    obtain ⟨l, hl0⟩ := hany
    have hsl : usedValues s sid W (levelData chunks l) ≠ [] := by
      rw [hus l]
      rw [hu1 l, hf1 l] at hl0
      intro e
      rw [List.map_eq_nil_iff] at e
      rw [e] at hl0
      exact hl0 rfl
    rcases estimate_cases W hbs hid with h | h
    · exfalso
      obtain ⟨x, hx⟩ := h nLevels chunks hwf hl
      obtain ⟨acc, h1, _, _, h4, _⟩ := meanLoop_ok s sid W nLevels chunks hev hl MeanAcc.init
      unfold estimateMean at hx
      rw [if_neg (built_storage hbs (by simp)), h1] at hx
      simp only [bind, Except.bind] at hx
      rw [h4, (anyUsed_iff s sid W chunks).2 ⟨l, hsl⟩] at hx
      simp at hx
    · rcases h nLevels chunks hwf hl with ⟨h0, _⟩ | ⟨_, h⟩
      · exact absurd (h0 l) hsl
      · exact h
  obtain ⟨e, he, E⟩ := hex
  have hmeans : e.lMeans = List.zipWith (List.zipWith fun x y => floatAdd (some a * x) (some b * y)) e1.lMeans e2.lMeans := by
    rw [E.means, E1.means, E2.means, List.zipWith_map, List.zipWith_self]
    refine List.map_congr_left fun l _ => ?_
    rw [hsize.symm, hssize, List.zipWith_map, List.zipWith_self]
    refine List.map_congr_left fun i hi => ?_
    rw [List.mem_range] at hi
    rw [usedDiffs_good hgs (hD l) (hnos l) i hi, usedDiffs_good hg1 (hD l) (hno1 l) i hi, usedDiffs_good hg2 (hD l) (hno2 l) i hi,
      hus, hu1, hu2, hf1, hf2]
    by_cases hnil : (levelData chunks l).filter (keep sid W s) = []
    · simp [hnil, floatAdd, hmul]
    · have hm : ∀ g : List (Option F) → List (Option F), ¬ ((levelData chunks l).filter (keep sid W s)).map (·.map g) = [] := by
        intro g h; rw [List.map_eq_nil_iff] at h; exact hnil h
      rw [if_neg (hm _), if_neg (hm _), if_neg (hm _)]
      simp only [hmul, floatAdd, Option.map_some, Option.bind_some, Option.some.injEq]
      rw [← average_lin]
      congr 1
      apply List.map_congr_left
      intro x hx
      rw [List.mem_filter] at hx
      exact hcv l x hx.1 hx.2 i hi
  refine ⟨e, he, ?_, ?_, hmeans, ?_⟩
  · rw [E.used, E1.used]
    refine List.map_congr_left fun l _ => ?_
    rw [hus, hu1, hf1, List.length_map, List.length_map]
  · rw [E.used, E2.used]
    refine List.map_congr_left fun l _ => ?_
    rw [hus, hu2, hf2, List.length_map, List.length_map]
  · have t0 : e.qtype.size = q1.size := by rw [E.qtype]; exact hssize
    have t1 : e1.qtype.size = q1.size := by rw [E1.qtype]; rfl
    have t2 : e2.qtype.size = q1.size := by rw [E2.qtype, hsize]; rfl
    unfold QuantityMean.mean
    rw [t0, t1, t2, List.zipWith_map, List.zipWith_self]
    refine List.map_congr_left fun i hi => ?_
    rw [List.mem_range] at hi
    rw [hmeans, E1.means, E2.means, List.zipWith_map, List.zipWith_self]
    simp only [List.map_map]
    have := floatSum_lin a b ((List.range nLevels).map fun l =>
      ((((List.range q1.size).map fun i => if usedValues q1 sid W (levelData chunks l) = [] then none else
          some (average (usedDiffs q1 sid W l i (levelData chunks l)))).getD i none),
       (((List.range q2.size).map fun i => if usedValues q2 sid W (levelData chunks l) = [] then none else
          some (average (usedDiffs q2 sid W l i (levelData chunks l)))).getD i none)))
    simp only [List.map_map, Function.comp_def] at this
    rw [Function.comp_def, Function.comp_def, Function.comp_def, ← this]
    congr 1
    apply List.map_congr_left
    intro l _
    rw [← hsize, List.zipWith_map, List.zipWith_self, getD_lt _ _ _ (by simpa using hi), getD_lt _ _ _ (by simpa using hi),
      getD_lt _ _ _ (by simpa using hi)]
    simp

namespace ExLin
/-- Twice a field plus three times another one of the same storage. -/
def q : Quantity (Option ℚ) := .storage 7 (.array [2] .scalar)
def p1 := Quantity.arith 1 (· * ·) (.const 2 .scalar [some 2]) q
def p2 := Quantity.arith 3 (· * ·) (.const 4 .scalar [some 3]) q
def s (a b : Quantity (Option ℚ)) := a.arith 5 floatAdd b
example (a b r : Quantity (Option ℚ)) (h1 : p1 = .ok a) (h2 : p2 = .ok b) (h : s a b = .ok r) (hid : IdsIdentify r) (e : QuantityMean ℚ)
    (he : estimateMean q 2 (asChunks 7 2 ExEst.tele) = .ok e) :=
  C48_linear 7 2 2 q q a b r (.root _) (.root _) 2 3 1 2 3 4 5 h1 h2 h hid rfl ExEst.tele ExEst.teleWf (by decide +kernel) e e he he
    (by
      intro l
      match l with
      | 0 => decide +kernel
      | 1 => decide +kernel
      | l + 2 => simp [levelData, ExEst.tele, levelValues])
    (by
      intro l
      match l with
      | 0 => decide +kernel
      | 1 => decide +kernel
      | l + 2 => simp [levelData, ExEst.tele, levelValues])
example : ∃ a b r, p1 = .ok a ∧ p2 = .ok b ∧ s a b = .ok r ∧ IdsIdentify r :=
  ⟨_, _, _, rfl, rfl, rfl, by intro a ha; simp [Quantity.selections, Quantity.selectionsList, q] at ha⟩
end ExLin

end MLMC
