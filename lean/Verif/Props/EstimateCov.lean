import Verif.Props.EstimateIndex
import Verif.Props.QuantityMoments
/-
C50: consequences of the layout for the estimates of moments and covariances.
-/
namespace MLMC
variable {F : Type} [Field F]

/-! ## Helpers -/

theorem usedDiffs_gen {sid W m : Nat} {q : Quantity (Option F)} {g : List (Option F) → List (Option F)} (h : GoodQ sid W q (some (m, g)))
    {l : Nat} {data : List (Sample (Option F))} (hwf : (batchOf W l data).WF) (i : Nat) (hi : i < m) :
    usedDiffs q sid W l i data = ((data.filter (keep sid W q)).filter fun s => !hasNan (s.map g)).map (cv g l i) := by
  unfold usedDiffs usedValues
  rw [levelValues_good h hwf, List.filter_map, List.map_map]
  apply List.map_congr_left
  intro s hs
  rw [List.mem_filter, List.mem_filter] at hs
  exact levelDiff_cv h (level_sample hwf hs.1.1).1 (level_sample hwf hs.1.1).2 hs.1.2 i hi

theorem usedValues_gen {sid W m : Nat} {q : Quantity (Option F)} {g : List (Option F) → List (Option F)} (h : GoodQ sid W q (some (m, g)))
    {l : Nat} {data : List (Sample (Option F))} (hwf : (batchOf W l data).WF) :
    usedValues q sid W data = ((data.filter (keep sid W q)).filter fun s => !hasNan (s.map g)).map (·.map g) := by
  unfold usedValues
  rw [levelValues_good h hwf, List.filter_map]
  rfl

theorem ids_un {K : Type} {q : Quantity K} (h : IdsIdentify q) (o : Nat) (t : QType) (op) : IdsIdentify (.node o t false op [q]) := by
  intro a ha b hb
  simp only [Quantity.selections, Quantity.selectionsList, List.append_nil] at ha hb
  exact h a ha b hb

/-- A unary node that works on each sample. -/
theorem good_un' {K : Type} [Inhabited K] {sid W m m' : Nat} {a : Quantity K} {g g' : List K → List K} (o : Nat) (t : QType)
    (op : Arr K → Except PyErr (Arr K)) (ha : GoodQ sid W a (some (m, g))) (hc : a.isConst = false)
    (hop : ∀ (x : Arr K) p S, Rep x p m g S → ∃ y, op x = .ok y ∧ Rep y p m' g' S) :
    GoodQ sid W (.node o t false (unArr op) [a]) (some (m', g')) ∧ ∀ x, keep sid W (.node o t false (unArr op) [a]) x = keep sid W a x := by
  have hn : (Quantity.node o t false (unArr op) [a]).selNode = a.selNode := by
    rw [Quantity.selNode, Quantity.firstSelNode]
    simp [hc]
  refine ⟨fun b hb hw => ?_, fun x => by unfold keep; rw [hn]⟩
  obtain ⟨x, hx, hr⟩ := ha b hb hw
  obtain ⟨y, hy, hr'⟩ := hop x _ _ hr
  exact ⟨y, on_un hx hy, by rw [kept_congr hn]; exact hr'⟩

/-- Row of moment `i` of component `m` of a quantity with `M` components, `R` moments. -/
def momRow (bottom : Bool) (M R m i : Nat) : Nat := if bottom then m * R + i else i * M + m

/-- Row of the product of moments `i` and `i'` of component `m`. -/
def covRow (bottom : Bool) (M R m i i' : Nat) : Nat := if bottom then (m * R + i) * R + i' else (i * R + i') * M + m

def momVec (fn : MomentFn (Option F)) (bottom : Bool) (v : List (Option F)) : List (Option F) :=
  if bottom then v.flatMap fun x => (List.range fn.size).map fun i => fn.ev i x
  else (List.range fn.size).flatMap fun i => v.map fun x => fn.ev i x

def covVec (fn : MomentFn (Option F)) (bottom : Bool) (v : List (Option F)) : List (Option F) :=
  if bottom then v.flatMap fun x => (List.range fn.size).flatMap fun i => (List.range fn.size).map fun i' => fn.ev i x * fn.ev i' x
  else (List.range fn.size).flatMap fun i => (List.range fn.size).flatMap fun i' => v.map fun x => fn.ev i x * fn.ev i' x

theorem momVec_length (fn : MomentFn (Option F)) (bottom : Bool) (v : List (Option F)) : (momVec fn bottom v).length = v.length * fn.size := by
  unfold momVec
  cases bottom <;> simp [List.length_flatMap, Nat.mul_comm]

theorem covVec_length (fn : MomentFn (Option F)) (bottom : Bool) (v : List (Option F)) :
    (covVec fn bottom v).length = v.length * (fn.size * fn.size) := by
  unfold covVec
  cases bottom <;> simp [List.length_flatMap]
  ring

theorem momVec_getD (fn : MomentFn (Option F)) (bottom : Bool) (v : List (Option F)) (m i : Nat) (hm : m < v.length) (hi : i < fn.size) :
    (momVec fn bottom v).getD (momRow bottom v.length fn.size m i) none = fn.ev i (v.getD m none) := by
  rw [getD_lt v _ _ hm]
  unfold momVec momRow
  cases bottom
  · simp only [Bool.false_eq_true, if_false]
    rw [flatMap_entry (List.range fn.size) _ v.length (by simp) i m (by simpa using hi) hm, getD_lt _ _ _ (by simpa using hm)]
    simp
  · simp only [if_true]
    rw [flatMap_entry v _ fn.size (by simp) m i hm hi, getD_lt _ _ _ (by simpa using hi)]
    simp

theorem covVec_getD (fn : MomentFn (Option F)) (bottom : Bool) (v : List (Option F)) (m i i' : Nat) (hm : m < v.length) (hi : i < fn.size)
    (hi' : i' < fn.size) :
    (covVec fn bottom v).getD (covRow bottom v.length fn.size m i i') none = fn.ev i (v.getD m none) * fn.ev i' (v.getD m none) := by
  rw [getD_lt v _ _ hm]
  unfold covVec covRow
  cases bottom
  · simp only [Bool.false_eq_true, if_false]
    have hb : i' * v.length + m < fn.size * v.length := by
      have : (i' + 1) * v.length ≤ fn.size * v.length := Nat.mul_le_mul_right _ hi'
      rw [Nat.succ_mul] at this; omega
    rw [show (i * fn.size + i') * v.length + m = i * (fn.size * v.length) + (i' * v.length + m) by
        rw [Nat.add_mul, Nat.mul_assoc, Nat.add_assoc],
      flatMap_entry (List.range fn.size) _ (fn.size * v.length) (by simp [List.length_flatMap]) i _ (by simpa using hi) hb,
      flatMap_entry (List.range fn.size) _ v.length (by simp) i' m (by simpa using hi') hm, getD_lt _ _ _ (by simpa using hm)]
    simp
  · simp only [if_true]
    have hb : i * fn.size + i' < fn.size * fn.size := by
      have : (i + 1) * fn.size ≤ fn.size * fn.size := Nat.mul_le_mul_right _ hi
      rw [Nat.succ_mul] at this; omega
    rw [show (m * fn.size + i) * fn.size + i' = m * (fn.size * fn.size) + (i * fn.size + i') by rw [Nat.add_mul, Nat.mul_assoc, Nat.add_assoc],
      flatMap_entry v _ (fn.size * fn.size) (by simp [List.length_flatMap]) m _ hm hb,
      flatMap_entry (List.range fn.size) _ fn.size (by simp) i i' (by simpa using hi) hi', getD_lt _ _ _ (by simpa using hi')]
    simp

theorem momRow_lt {bottom : Bool} {M R m i : Nat} (hm : m < M) (hi : i < R) : momRow bottom M R m i < M * R := by
  unfold momRow
  cases bottom
  · have : (i + 1) * M ≤ R * M := Nat.mul_le_mul_right _ hi
    rw [Nat.succ_mul] at this
    rw [Nat.mul_comm M R]
    simp only [Bool.false_eq_true, if_false]; omega
  · have : (m + 1) * R ≤ M * R := Nat.mul_le_mul_right _ hm
    rw [Nat.succ_mul] at this
    simp only [if_true]; omega

theorem covRow_lt {bottom : Bool} {M R m i i' : Nat} (hm : m < M) (hi : i < R) (hi' : i' < R) : covRow bottom M R m i i' < M * (R * R) := by
  have h1 : i * R + i' < R * R := by
    have : (i + 1) * R ≤ R * R := Nat.mul_le_mul_right _ hi
    rw [Nat.succ_mul] at this; omega
  have := momRow_lt (bottom := bottom) hm h1
  unfold momRow at this
  unfold covRow
  cases bottom
  · exact this
  · simp only [if_true] at this ⊢
    rw [Nat.add_mul, Nat.mul_assoc, Nat.add_assoc]; exact this

theorem mem_momVec (fn : MomentFn (Option F)) (bottom : Bool) (v : List (Option F)) (y : Option F) :
    y ∈ momVec fn bottom v ↔ ∃ x ∈ v, ∃ i < fn.size, y = fn.ev i x := by
  unfold momVec
  cases bottom
  · simp only [Bool.false_eq_true, if_false, List.mem_flatMap, List.mem_range, List.mem_map]
    exact ⟨fun ⟨i, hi, x, hx, e⟩ => ⟨x, hx, i, hi, e.symm⟩, fun ⟨x, hx, i, hi, e⟩ => ⟨i, hi, x, hx, e.symm⟩⟩
  · simp only [if_true, List.mem_flatMap, List.mem_range, List.mem_map]
    exact ⟨fun ⟨x, hx, i, hi, e⟩ => ⟨x, hx, i, hi, e.symm⟩, fun ⟨x, hx, i, hi, e⟩ => ⟨x, hx, i, hi, e.symm⟩⟩

theorem mem_covVec (fn : MomentFn (Option F)) (bottom : Bool) (v : List (Option F)) (y : Option F) :
    y ∈ covVec fn bottom v ↔ ∃ x ∈ v, ∃ i < fn.size, ∃ i' < fn.size, y = fn.ev i x * fn.ev i' x := by
  unfold covVec
  cases bottom
  · simp only [Bool.false_eq_true, if_false, List.mem_flatMap, List.mem_range, List.mem_map]
    exact ⟨fun ⟨i, hi, i', hi', x, hx, e⟩ => ⟨x, hx, i, hi, i', hi', e.symm⟩, fun ⟨x, hx, i, hi, i', hi', e⟩ => ⟨i, hi, i', hi', x, hx, e.symm⟩⟩
  · simp only [if_true, List.mem_flatMap, List.mem_range, List.mem_map]
    exact ⟨fun ⟨x, hx, i, hi, i', hi', e⟩ => ⟨x, hx, i, hi, i', hi', e.symm⟩, fun ⟨x, hx, i, hi, i', hi', e⟩ => ⟨x, hx, i, hi, i', hi', e.symm⟩⟩

theorem float_mul_none (a b : Option F) : a * b = none ↔ a = none ∨ b = none := by
  have hmul : a * b = a.bind fun x => b.map (x * ·) := rfl
  rw [hmul]
  cases a <;> cases b <;> simp

theorem hasNan_iff {s : Sample (Option F)} {g : List (Option F) → List (Option F)} : hasNan (s.map g) = true ↔ ∃ u ∈ s, none ∈ g u := by
  unfold hasNan
  rw [List.any_eq_true]
  constructor
  · rintro ⟨v, hv, h⟩
    obtain ⟨u, hu, rfl⟩ := List.mem_map.1 hv
    rw [List.any_eq_true] at h
    obtain ⟨x, hx, hn⟩ := h
    cases x with
    | none => exact ⟨u, hu, hx⟩
    | some y => simp at hn
  · rintro ⟨u, hu, h⟩
    exact ⟨g u, List.mem_map.2 ⟨u, hu, rfl⟩, List.any_eq_true.2 ⟨none, h, rfl⟩⟩

/-- A product of moments is NaN exactly where a moment is. -/
theorem covVec_nan (fn : MomentFn (Option F)) (bottom : Bool) (v : List (Option F)) : none ∈ covVec fn bottom v ↔ none ∈ momVec fn bottom v := by
  rw [mem_covVec, mem_momVec]
  constructor
  · rintro ⟨x, hx, i, hi, i', hi', e⟩
    rcases (float_mul_none _ _).1 e.symm with h | h
    · exact ⟨x, hx, i, hi, h.symm⟩
    · exact ⟨x, hx, i', hi', h.symm⟩
  · rintro ⟨x, hx, i, hi, e⟩
    exact ⟨x, hx, i, hi, i, hi, ((float_mul_none _ _).2 (.inl e.symm)).symm⟩

/-! ## C50 -/

/-- C50, consequences for estimates, with moments at the bottom or on the surface: the covariance estimate is symmetric, and if the
zeroth moment is 1 (or NaN, outside the domain) its row and column 0 are the estimated moments; both use the same samples. -/
theorem C50_covariance_estimate [CharZero F] (sid W nLevels : Nat) (q : Quantity (Option F)) (hq : Built sid .qty q) (hid : IdsIdentify q)
    (fn : MomentFn (Option F)) (hR : 0 < fn.size) (bottom : Bool) (o o' : Nat) (r c : Quantity (Option F))
    (hr : q.moments o fn bottom = .ok r) (hc : q.covariance o' fn bottom = .ok c)
    (chunks : List (Nat × List (Sample (Option F)))) (hwf : ChunksWF W chunks) (hl : ∀ c ∈ chunks, c.1 < nLevels) (er ec : QuantityMean F)
    (her : estimateMean r nLevels (asChunks sid W chunks) = .ok er) (hec : estimateMean c nLevels (asChunks sid W chunks) = .ok ec) :
    ec.nSamples = er.nSamples ∧
    ∀ m < q.size, ∀ i < fn.size,
      (∀ i' < fn.size,
        (∀ l < nLevels, (ec.lMeans.getD l []).getD (covRow bottom q.size fn.size m i i') none =
          (ec.lMeans.getD l []).getD (covRow bottom q.size fn.size m i' i) none) ∧
        ec.mean.getD (covRow bottom q.size fn.size m i i') none = ec.mean.getD (covRow bottom q.size fn.size m i' i) none) ∧
      ((∀ x, fn.ev 0 x = some 1 ∨ fn.ev 0 x = none) →
        (∀ l < nLevels, (ec.lMeans.getD l []).getD (covRow bottom q.size fn.size m 0 i) none =
          (er.lMeans.getD l []).getD (momRow bottom q.size fn.size m i) none) ∧
        ec.mean.getD (covRow bottom q.size fn.size m 0 i) none = er.mean.getD (momRow bottom q.size fn.size m i) none) := by
  have hbr : Built sid .qty r := .moments o fn bottom hq hr
  have hbc : Built sid .qty c := .covariance o' fn bottom hq hc
  obtain ⟨⟨res, hres⟩, hqc⟩ := built_good W hq hid
  have hrn := (mk_ok hr).1
  have hcn := (mk_ok hc).1
  have hidr : IdsIdentify r := by rw [hrn]; exact ids_un hid _ _ _
  have hidc : IdsIdentify c := by rw [hcn]; exact ids_un hid _ _ _
  obtain ⟨gr0, hgr0⟩ := est_good hbr hidr hwf her
  obtain ⟨gc0, hgc0⟩ := est_good hbc hidc hwf hec
  -- the evaluation of q works
  cases res with
  | none =>
    exfalso
    obtain ⟨x, hx⟩ := hres ⟨W, 1, []⟩ (by intro s hs; simp at hs) rfl
    obtain ⟨y, hy, _⟩ := hgr0 ⟨W, 1, []⟩ (by intro s hs; simp at hs) rfl
    rw [hrn, on_one, hx] at hy
    simp [Except.bind] at hy
  | some mg =>
  obtain ⟨M, g⟩ := mg
  have hgr : GoodQ sid W r (some (M * fn.size, fun v => momVec fn bottom (g v))) ∧ ∀ x, keep sid W r x = keep sid W q x := by
    rw [hrn]
    apply good_un' _ _ _ hres hqc
    intro x p S hx
    refine ⟨_, rfl, hx.n, hx.p, ?_, ?_⟩
    · cases bottom <;> simp [List.length_flatMap, hx.m, Nat.mul_comm]
    · intro j hj k hk
      have := hx.val j hj k hk
      rw [← this]
      unfold momVec
      cases bottom
      · simp [List.map_flatMap, Function.comp_def]
      · simp [List.map_flatMap, List.flatMap_map, Function.comp_def]
  have hgc : GoodQ sid W c (some (M * (fn.size * fn.size), fun v => covVec fn bottom (g v))) ∧ ∀ x, keep sid W c x = keep sid W q x := by
    rw [hcn]
    apply good_un' _ _ _ hres hqc
    intro x p S hx
    refine ⟨_, rfl, hx.n, hx.p, ?_, ?_⟩
    · cases bottom <;> simp [List.length_flatMap, hx.m]
      ring
    · intro j hj k hk
      have := hx.val j hj k hk
      rw [← this]
      unfold covVec
      cases bottom
      · simp [List.map_flatMap, Function.comp_def]
      · simp [List.map_flatMap, List.flatMap_map, Function.comp_def]
  obtain ⟨hgr, hkr⟩ := hgr
  obtain ⟨hgc, hkc⟩ := hgc
  have hMr := goodQ_m hgr0 hgr
  have hMc := goodQ_m hgc0 hgc
  have hM : M = q.size := by
    have hs : r.size = q.size * fn.size := by
      rw [hrn]
      cases bottom
      · change (QType.array [fn.size] q.qtype).size = q.qtype.size * fn.size
        simp [QType.size, Nat.mul_comm]
      · change (q.qtype.replaceScalar (.array [fn.size] .scalar)).size = q.qtype.size * fn.size
        rw [size_replaceScalar]
        simp [QType.size]
    rw [hs] at hMr
    exact (Nat.eq_of_mul_eq_mul_right hR hMr).symm
  subst hM
  have hD := fun l => levelData_wf hwf l
  have R := C46_textbook_estimators sid W nLevels r hbr hidr chunks hwf hl er her
  have C := C46_textbook_estimators sid W nLevels c hbc hidc chunks hwf hl ec hec
  -- the same samples are used
  have hnan : ∀ s : Sample (Option F), hasNan (s.map fun v => covVec fn bottom (g v)) = hasNan (s.map fun v => momVec fn bottom (g v)) := by
    intro s
    rw [Bool.eq_iff_iff, hasNan_iff, hasNan_iff]
    simp only [covVec_nan]
  have hkeep : ∀ l, ((levelData chunks l).filter (keep sid W c)).filter (fun s => !hasNan (s.map fun v => covVec fn bottom (g v))) =
      ((levelData chunks l).filter (keep sid W r)).filter (fun s => !hasNan (s.map fun v => momVec fn bottom (g v))) := by
    intro l
    simp only [hnan]
    rw [show keep sid W c = keep sid W r by funext x; rw [hkc, hkr]]
  have hlen : ∀ l, (usedValues c sid W (levelData chunks l)).length = (usedValues r sid W (levelData chunks l)).length := by
    intro l
    rw [usedValues_gen hgc (hD l), usedValues_gen hgr (hD l), hkeep]
    simp
  have hnil : ∀ l, usedValues c sid W (levelData chunks l) = [] ↔ usedValues r sid W (levelData chunks l) = [] := by
    intro l; rw [← List.length_eq_zero_iff, hlen, List.length_eq_zero_iff]
  have glen : ∀ l, ∀ s ∈ levelData chunks l, keep sid W q s = true → ∀ k, k < s.length → (g (s.getD k [])).length = q.size :=
    fun l s hs hk k hk' => good_length hres (level_sample (hD l) hs).2 hk k hk'
  -- component formulas on used samples
  have hcv : ∀ l, ∀ s ∈ levelData chunks l, keep sid W q s = true → ∀ m < q.size, ∀ i < fn.size, ∀ i' < fn.size, ∀ k, k < s.length →
      (covVec fn bottom (g (s.getD k []))).getD (covRow bottom q.size fn.size m i i') none =
        fn.ev i ((g (s.getD k [])).getD m none) * fn.ev i' ((g (s.getD k [])).getD m none) := by
    intro l s hs hk m hm i hi i' hi' k hk'
    have e := glen l s hs hk k hk'
    have := covVec_getD fn bottom (g (s.getD k [])) m i i' (by rw [e]; exact hm) hi hi'
    rw [e] at this
    exact this
  have hmv : ∀ l, ∀ s ∈ levelData chunks l, keep sid W q s = true → ∀ m < q.size, ∀ i < fn.size, ∀ k, k < s.length →
      (momVec fn bottom (g (s.getD k []))).getD (momRow bottom q.size fn.size m i) none = fn.ev i ((g (s.getD k [])).getD m none) := by
    intro l s hs hk m hm i hi k hk'
    have e := glen l s hs hk k hk'
    have := momVec_getD fn bottom (g (s.getD k [])) m i (by rw [e]; exact hm) hi
    rw [e] at this
    exact this
  have hpart : ∀ l, ∀ s ∈ levelData chunks l, 0 < s.length ∧ (l ≠ 0 → 1 < s.length) := by
    intro l s hs
    have := (level_sample (hD l) hs).1
    by_cases h0 : l = 0
    · rw [if_pos h0] at this; exact ⟨by omega, fun h => absurd h0 h⟩
    · rw [if_neg h0] at this; exact ⟨by omega, fun _ => by omega⟩
  have hcomm : ∀ a b : Option F, a * b = b * a := by
    intro a b
    have h1 : ∀ a b : Option F, a * b = a.bind fun x => b.map (x * ·) := fun _ _ => rfl
    rw [h1, h1]
    cases a <;> cases b <;> simp [mul_comm]
  have hsym : ∀ l m, m < q.size → ∀ i < fn.size, ∀ i' < fn.size,
      usedDiffs c sid W l (covRow bottom q.size fn.size m i i') (levelData chunks l) =
      usedDiffs c sid W l (covRow bottom q.size fn.size m i' i) (levelData chunks l) := by
    intro l m hm i hi i' hi'
    rw [usedDiffs_gen hgc (hD l) _ (covRow_lt hm hi hi'), usedDiffs_gen hgc (hD l) _ (covRow_lt hm hi' hi)]
    apply List.map_congr_left
    intro s hs
    rw [List.mem_filter, List.mem_filter] at hs
    have hk : keep sid W q s = true := by rw [← hkc]; exact hs.1.2
    obtain ⟨p0, p1⟩ := hpart l s hs.1.1
    unfold cv
    by_cases h0 : l = 0
    · rw [if_pos h0, if_pos h0, hcv l s hs.1.1 hk m hm i hi i' hi' 0 p0, hcv l s hs.1.1 hk m hm i' hi' i hi 0 p0, hcomm]
    · rw [if_neg h0, if_neg h0, hcv l s hs.1.1 hk m hm i hi i' hi' 0 p0, hcv l s hs.1.1 hk m hm i' hi' i hi 0 p0,
        hcv l s hs.1.1 hk m hm i hi i' hi' 1 (p1 h0), hcv l s hs.1.1 hk m hm i' hi' i hi 1 (p1 h0), hcomm, hcomm (fn.ev i _)]
  have hrow : (∀ x, fn.ev 0 x = some 1 ∨ fn.ev 0 x = none) → ∀ l m, m < q.size → ∀ i < fn.size,
      usedDiffs c sid W l (covRow bottom q.size fn.size m 0 i) (levelData chunks l) =
      usedDiffs r sid W l (momRow bottom q.size fn.size m i) (levelData chunks l) := by
    intro h1 l m hm i hi
    rw [usedDiffs_gen hgc (hD l) _ (covRow_lt hm hR hi), usedDiffs_gen hgr (hD l) _ (momRow_lt hm hi), hkeep]
    apply List.map_congr_left
    intro s hs
    rw [List.mem_filter, List.mem_filter] at hs
    have hk : keep sid W q s = true := by rw [← hkr]; exact hs.1.2
    obtain ⟨p0, p1⟩ := hpart l s hs.1.1
    have hone : ∀ k, k < s.length → fn.ev 0 ((g (s.getD k [])).getD m none) * fn.ev i ((g (s.getD k [])).getD m none) =
        fn.ev i ((g (s.getD k [])).getD m none) := by
      intro k hk'
      rcases h1 ((g (s.getD k [])).getD m none) with h | h
      · rw [h]
        have h2 : ∀ a b : Option F, a * b = a.bind fun x => b.map (x * ·) := fun _ _ => rfl
        rw [h2]
        cases fn.ev i ((g (s.getD k [])).getD m none) <;> simp
      · exfalso
        have hn : hasNan (s.map fun v => momVec fn bottom (g v)) = true := by
          rw [hasNan_iff]
          have e := glen l s hs.1.1 hk k hk'
          refine ⟨s.getD k [], by rw [getD_lt _ _ _ hk']; exact List.getElem_mem hk', (mem_momVec _ _ _ _).2 ⟨(g (s.getD k [])).getD m none, ?_, 0, hR, h.symm⟩⟩
          rw [getD_lt (g (s.getD k [])) _ _ (by rw [e]; exact hm)]
          exact List.getElem_mem _
        rw [hn] at hs
        simp at hs
    unfold cv
    by_cases h0 : l = 0
    · rw [if_pos h0, if_pos h0, hcv l s hs.1.1 hk m hm 0 hR i hi 0 p0, hmv l s hs.1.1 hk m hm i hi 0 p0, hone 0 p0]
    · rw [if_neg h0, if_neg h0, hcv l s hs.1.1 hk m hm 0 hR i hi 0 p0, hmv l s hs.1.1 hk m hm i hi 0 p0, hone 0 p0,
        hcv l s hs.1.1 hk m hm 0 hR i hi 1 (p1 h0), hmv l s hs.1.1 hk m hm i hi 1 (p1 h0), hone 1 (p1 h0)]
  -- entries of the estimates
  have hcm : ∀ l < nLevels, ∀ a < c.size, (ec.lMeans.getD l []).getD a none =
      if usedValues c sid W (levelData chunks l) = [] then none else some (average (usedDiffs c sid W l a (levelData chunks l))) := by
    intro l hl' a ha
    rw [C.means, getD_lt _ [] _ (by simpa using hl')]
    simp only [List.getElem_map, List.getElem_range]
    rw [getD_lt _ _ _ (by simpa using ha)]
    simp
  have hrm : ∀ l < nLevels, ∀ a < r.size, (er.lMeans.getD l []).getD a none =
      if usedValues r sid W (levelData chunks l) = [] then none else some (average (usedDiffs r sid W l a (levelData chunks l))) := by
    intro l hl' a ha
    rw [R.means, getD_lt _ [] _ (by simpa using hl')]
    simp only [List.getElem_map, List.getElem_range]
    rw [getD_lt _ _ _ (by simpa using ha)]
    simp
  have hmean : ∀ (e : QuantityMean F), e.lMeans.length = nLevels → ∀ a < e.qtype.size,
      e.mean.getD a none = floatSum ((List.range nLevels).map fun l => (e.lMeans.getD l []).getD a none) := by
    intro e he a ha
    unfold QuantityMean.mean
    rw [getD_lt _ _ _ (by simpa using ha)]
    simp only [List.getElem_map, List.getElem_range]
    congr 1
    exact (map_range_getElem e.lMeans (fun l => (e.lMeans.getD l []).getD a none) (fun v => v.getD a none) nLevels he
      fun j hj => by rw [getD_lt _ _ _ hj]).symm
  have hcl : ec.lMeans.length = nLevels := by rw [C.means]; simp
  have hrl : er.lMeans.length = nLevels := by rw [R.means]; simp
  have hcs : ec.qtype.size = q.size * (fn.size * fn.size) := by rw [C.qtype]; exact hMc
  have hrs : er.qtype.size = q.size * fn.size := by rw [R.qtype]; exact hMr
  refine ⟨by rw [C.used, R.used]; exact List.map_congr_left fun l _ => hlen l, ?_⟩
  intro m hm i hi
  refine ⟨fun i' hi' => ?_, fun h1 => ?_⟩
  · have key : ∀ l < nLevels, (ec.lMeans.getD l []).getD (covRow bottom q.size fn.size m i i') none =
          (ec.lMeans.getD l []).getD (covRow bottom q.size fn.size m i' i) none := by
      intro l hl'
      rw [hcm l hl' _ (by rw [hMc]; exact covRow_lt hm hi hi'), hcm l hl' _ (by rw [hMc]; exact covRow_lt hm hi' hi), hsym l m hm i hi i' hi']
    refine ⟨key, ?_⟩
    rw [hmean ec hcl _ (by rw [hcs]; exact covRow_lt hm hi hi'), hmean ec hcl _ (by rw [hcs]; exact covRow_lt hm hi' hi)]
    congr 1
    exact List.map_congr_left fun l hl' => key l (List.mem_range.1 hl')
  · have key : ∀ l < nLevels, (ec.lMeans.getD l []).getD (covRow bottom q.size fn.size m 0 i) none =
          (er.lMeans.getD l []).getD (momRow bottom q.size fn.size m i) none := by
      intro l hl'
      rw [hcm l hl' _ (by rw [hMc]; exact covRow_lt hm hR hi), hrm l hl' _ (by rw [hMr]; exact momRow_lt hm hi), hrow h1 l m hm i hi]
      simp only [hnil]
    refine ⟨key, ?_⟩
    rw [hmean ec hcl _ (by rw [hcs]; exact covRow_lt hm hR hi), hmean er hrl _ (by rw [hrs]; exact momRow_lt hm hi)]
    congr 1
    exact List.map_congr_left fun l hl' => key l (List.mem_range.1 hl')

namespace ExCov
/-- Moments 1, x, x² of the valid points. -/
def fn : MomentFn (Option ℚ) := ⟨3, fun i x => x.map (· ^ i)⟩
example (r c : Quantity (Option ℚ)) (er ec : QuantityMean ℚ) (hr : ExEst.q.moments 20 fn true = .ok r) (hc : ExEst.q.covariance 21 fn true = .ok c)
    (her : estimateMean r 2 (asChunks 7 2 ExEst.chunks) = .ok er) (hec : estimateMean c 2 (asChunks 7 2 ExEst.chunks) = .ok ec) :
    ec.mean.getD 11 none = er.mean.getD 5 none :=
  (((C50_covariance_estimate 7 2 2 ExEst.q ExEst.built ExEst.ids fn (by decide) true 20 21 r c hr hc ExEst.chunks ExEst.wf ExEst.lev er ec her hec).2
    1 (by decide +kernel) 2 (by decide)).2 (by intro x; cases x <;> simp [fn])).2
example : ∃ r c er ec, ExEst.q.moments 20 fn true = .ok r ∧ ExEst.q.covariance 21 fn true = .ok c ∧
    estimateMean r 2 (asChunks 7 2 ExEst.chunks) = .ok er ∧ estimateMean c 2 (asChunks 7 2 ExEst.chunks) = .ok ec :=
  ⟨_, _, _, _, rfl, rfl, rfl, rfl⟩
end ExCov

end MLMC
