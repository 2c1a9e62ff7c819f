import Verif.Props.MomentParts
/-! # C153 Covariances of moments of a part can be taken from those of the whole -/
namespace MLMC
variable {F : Type} [Field F]

/-- Values of a covariance quantity, sample by sample. -/
theorem cov_good [CharZero F] {sid W nLevels : Nat} {q : Quantity (Option F)} (hq : Built sid .qty q) (hid : IdsIdentify q) {M : Nat} {g : List (Option F) → List (Option F)}
    (hres : GoodQ sid W q (some (M, g))) {fn : MomentFn (Option F)} (hR : 0 < fn.size) {bottom : Bool} {o : Nat} {r : Quantity (Option F)} (hr : q.covariance o fn bottom = .ok r)
    {chunks : List (Nat × List (Sample (Option F)))} (hwf : ChunksWF W chunks) {er : QuantityMean F} (her : estimateMean r nLevels (asChunks sid W chunks) = .ok er) :
    Built sid .qty r ∧ IdsIdentify r ∧ r.size = q.size * (fn.size * fn.size) ∧ M = q.size ∧
      GoodQ sid W r (some (M * (fn.size * fn.size), fun v => covVec fn bottom (g v))) ∧ ∀ x, keep sid W r x = keep sid W q x := by
  have hbr : Built sid .qty r := .covariance o fn bottom hq hr
  obtain ⟨_, hqc⟩ := built_good W hq hid
  have hrn := (mk_ok hr).1
  have hidr : IdsIdentify r := by rw [hrn]; exact ids_un hid _ _ _
  obtain ⟨gr0, hgr0⟩ := est_good hbr hidr hwf her
  have hgr : GoodQ sid W r (some (M * (fn.size * fn.size), fun v => covVec fn bottom (g v))) ∧ ∀ x, keep sid W r x = keep sid W q x := by
    rw [hrn]
    apply good_un' _ _ _ hres hqc
    intro x p S hx
    refine ⟨_, rfl, hx.n, hx.p, ?_, ?_⟩
    · cases bottom <;> simp [List.length_flatMap, hx.m]
      ring
    · intro j hj k hk
      have := hx.val j hj k hk
      rw [← this]
      unfold covVec
      cases bottom
      · simp [List.map_flatMap, Function.comp_def]
      · simp [List.map_flatMap, List.flatMap_map, Function.comp_def]
  have hMr := goodQ_m hgr0 hgr.1
  have hs : r.size = q.size * (fn.size * fn.size) := by
    rw [hrn]
    cases bottom
    · change (QType.array [fn.size, fn.size] q.qtype).size = q.qtype.size * (fn.size * fn.size)
      simp [QType.size, Nat.mul_comm]
    · change (q.qtype.replaceScalar (.array [fn.size, fn.size] .scalar)).size = q.qtype.size * (fn.size * fn.size)
      rw [size_replaceScalar]
      simp [QType.size]
  rw [hs] at hMr
  exact ⟨hbr, hidr, hs, (Nat.eq_of_mul_eq_mul_right (Nat.mul_pos hR hR) hMr).symm, hgr⟩

/-- The quantity under a covariance that can be evaluated. -/
theorem cov_res [CharZero F] {sid W nLevels : Nat} {q r : Quantity (Option F)} (hq : Built sid .qty q) (hid : IdsIdentify q) {fn : MomentFn (Option F)} {bottom : Bool} {o : Nat}
    (hr : q.covariance o fn bottom = .ok r) {chunks : List (Nat × List (Sample (Option F)))} (hwf : ChunksWF W chunks) {er : QuantityMean F}
    (her : estimateMean r nLevels (asChunks sid W chunks) = .ok er) : ∃ M g, GoodQ sid W q (some (M, g)) := by
  have hbr : Built sid .qty r := .covariance o fn bottom hq hr
  have hrn := (mk_ok hr).1
  have hidr : IdsIdentify r := by rw [hrn]; exact ids_un hid _ _ _
  obtain ⟨gr0, hgr0⟩ := est_good hbr hidr hwf her
  obtain ⟨⟨res, hres⟩, -⟩ := built_good W hq hid
  cases res with
  | some mg => exact ⟨mg.1, mg.2, hres⟩
  | none =>
    exfalso
    obtain ⟨x, hx⟩ := hres ⟨W, 1, []⟩ (by intro s hs; simp at hs) rfl
    obtain ⟨y, hy, _⟩ := hgr0 ⟨W, 1, []⟩ (by intro s hs; simp at hs) rfl
    rw [hrn, on_one, hx] at hy
    simp [Except.bind] at hy

/-- C153: with covariances at the bottom, an entry of the estimated covariances of a quantity is the estimate of the covariances of that entry, with means, variances and numbers of samples,
if no sample is dropped from one of them only. -/
theorem C153_part_of_covariance [CharZero F] (sid W nLevels : Nat) (q r cq cr : Quantity (Option F)) (hq : Built sid .qty q) (o oq or' : Nat) (b : Brackets) (hb : b.Single)
    (hget : q.getitem o b = .ok r) (hid : IdsIdentify r) (fn : MomentFn (Option F)) (hR : 0 < fn.size) (hcq : q.covariance oq fn true = .ok cq) (hcr : r.covariance or' fn true = .ok cr)
    (chunks : List (Nat × List (Sample (Option F)))) (hwf : ChunksWF W chunks) (hl : ∀ c ∈ chunks, c.1 < nLevels) (e er : QuantityMean F)
    (he : estimateMean cq nLevels (asChunks sid W chunks) = .ok e) (hr : estimateMean cr nLevels (asChunks sid W chunks) = .ok er)
    (hnan : ∀ l, SameNan cq cr sid W (levelData chunks l)) : e.getitem b = .ok er := by
  have hidq := ids_of_getitem hget hid
  have hbr : Built sid .qty r := .getitem o b hq hget
  obtain ⟨M, g, hg⟩ := cov_res hq hidq hcq hwf he
  obtain ⟨hbmq, hidmq, hszq, rfl, hgmq, hkq⟩ := cov_good hq hidq hg hR hcq hwf he
  obtain ⟨Mr, gr, hgr⟩ := cov_res hbr hid hcr hwf hr
  obtain ⟨hkeep, ⟨start, hkey⟩, pos, hpos, hgp, htake⟩ := getitem_positions o b hg (built_good W hq hidq).2 hget hid hgr
  obtain ⟨hbmr, hidmr, hszr, hlen, hgmr, hkr⟩ := cov_good hbr hid hgp hR hcr hwf hr
  have hsR : (QType.array [fn.size, fn.size] .scalar).size = fn.size * fn.size := by simp [QType.size]
  have htq : cq.qtype = q.qtype.replaceScalar (.array [fn.size, fn.size] .scalar) := by rw [(mk_ok hcq).1]; rfl
  have htr : cr.qtype = r.qtype.replaceScalar (.array [fn.size, fn.size] .scalar) := by rw [(mk_ok hcr).1]; rfl
  refine values_select hwf (C46_textbook_estimators sid W nLevels cq hbmq hidmq chunks hwf hl e he) (C46_textbook_estimators sid W nLevels cr hbmr hidmr chunks hwf hl er hr) hgmq hgmr hszq.symm
    (by rw [hszr, hlen]) (fun x => by rw [hkr, hkq, hkeep]) b (start * (fn.size * fn.size)) (by rw [htq, htr, replace_getKey _ hkey, hsR]) (blocks (fn.size * fn.size) pos)
    (by rw [hszq]; exact blocks_lt hpos) (by rw [hszr, blocks_length, hlen]) ?_ ?_ hnan
  · intro v hv
    rw [htq]
    rw [hszq] at hv
    have := take_blocks (F := F) (.array [fn.size, fn.size] .scalar) hb hkey pos hpos (getitem_rows hg hget hgr) (fun v hv => by
      rcases hb with ⟨k, rfl⟩ | ⟨it, rfl⟩
      · exact htake (by simp) v hv (by simp) (by simp)
      · exact htake (by simp) v hv (by simp) (by simp)) v (by rw [hsR]; exact hv)
    rw [this, hsR]
  · intro s hs hk k hks
    have hl1 := good_length hg hs ((hkq s).symm.trans hk) k hks
    generalize s.getD k [] = u at hl1 ⊢
    rw [blocks_map]
    conv_lhs => simp only [covVec, if_true, List.flatMap_map]
    apply List.flatMap_congr
    intro i hi
    have hsub : ∀ j < fn.size * fn.size, (covVec fn true (g u)).getD (i * (fn.size * fn.size) + j) none = fn.ev (j / fn.size) ((g u).getD i none) * fn.ev (j % fn.size) ((g u).getD i none) := by
      intro j hj
      have h1 : j / fn.size < fn.size := Nat.div_lt_of_lt_mul hj
      have h2 : j % fn.size < fn.size := Nat.mod_lt _ hR
      have := covVec_getD fn true (g u) i (j / fn.size) (j % fn.size) (by rw [hl1]; exact hpos i hi) h1 h2
      simp only [covRow, if_true] at this
      rw [← this]
      congr 1
      have h3 : j / fn.size * fn.size + j % fn.size = j := by rw [Nat.mul_comm]; exact Nat.div_add_mod _ _
      rw [Nat.add_mul, Nat.mul_assoc, Nat.add_assoc, h3]
    rw [List.map_congr_left fun j hj => hsub j (List.mem_range.1 hj)]
    clear hsub
    generalize (g u).getD i none = x
    apply List.ext_getElem
    · simp [List.length_flatMap]
    · intro j h1 h2
      have hj : j < fn.size * fn.size := by simpa using h2
      have hd : j / fn.size < fn.size := Nat.div_lt_of_lt_mul hj
      have h3 : j / fn.size * fn.size + j % fn.size = j := by rw [Nat.mul_comm]; exact Nat.div_add_mod _ _
      have := flatMap_entry (d := (none : Option F)) (List.range fn.size) (fun a => (List.range fn.size).map fun b => fn.ev a x * fn.ev b x) fn.size (by simp)
        (j / fn.size) (j % fn.size) (by simpa using hd) (Nat.mod_lt _ hR)
      rw [h3, getD_lt _ _ _ h1, getD_lt _ _ _ (by simpa using Nat.mod_lt _ hR)] at this
      rw [this]
      simp

theorem covariance_good {sid W : Nat} {q : Quantity (Option F)} (hq : Built sid .qty q) (hid : IdsIdentify q) {M : Nat} {g : List (Option F) → List (Option F)}
    (hres : GoodQ sid W q (some (M, g))) {fn : MomentFn (Option F)} {bottom : Bool} {o : Nat} {r : Quantity (Option F)} (hr : q.covariance o fn bottom = .ok r) :
    GoodQ sid W r (some (M * (fn.size * fn.size), fun v => covVec fn bottom (g v))) ∧ ∀ x, keep sid W r x = keep sid W q x := by
  obtain ⟨_, hqc⟩ := built_good W hq hid
  rw [(mk_ok hr).1]
  apply good_un' _ _ _ hres hqc
  intro x p S hx
  refine ⟨_, rfl, hx.n, hx.p, ?_, ?_⟩
  · cases bottom <;> simp [List.length_flatMap, hx.m]
    ring
  · intro j hj k hk
    have := hx.val j hj k hk
    rw [← this]
    unfold covVec
    cases bottom
    · simp [List.map_flatMap, Function.comp_def]
    · simp [List.map_flatMap, List.flatMap_map, Function.comp_def]

theorem covariance_size {q r : Quantity (Option F)} {fn : MomentFn (Option F)} {bottom : Bool} {o : Nat} (hr : q.covariance o fn bottom = .ok r) : r.size = q.size * (fn.size * fn.size) := by
  rw [(mk_ok hr).1]
  cases bottom
  · change (QType.array [fn.size, fn.size] q.qtype).size = q.qtype.size * (fn.size * fn.size)
    simp [QType.size, Nat.mul_comm]
  · change (q.qtype.replaceScalar (.array [fn.size, fn.size] .scalar)).size = q.qtype.size * (fn.size * fn.size)
    rw [size_replaceScalar]
    simp [QType.size]

theorem covVec_hasNan (fn : MomentFn (Option F)) (s : Sample (Option F)) (g : List (Option F) → List (Option F)) :
    hasNan (s.map fun v => covVec fn true (g v)) = true ↔ hasNan (s.map fun v => momVec fn true (g v)) = true := by
  rw [hasNan_iff, hasNan_iff]
  simp only [covVec_nan]

/-- A NaN covariance of a part is one of the whole. -/
theorem cov_nan_mono {sid W M : Nat} {q : Quantity (Option F)} {g g' : List (Option F) → List (Option F)} (hg : GoodQ sid W q (some (M, g))) (fn : MomentFn (Option F)) (pos : List Nat) (hpos : ∀ i ∈ pos, i < M)
    {s : Sample (Option F)} (hs : (⟨W, s.length, [s]⟩ : Batch (Option F)).WF) (hk : keep sid W q s = true)
    (hv : ∀ k < s.length, g' (s.getD k []) = pos.map fun i => (g (s.getD k [])).getD i none)
    (h : hasNan (s.map fun v => covVec fn true (g' v)) = true) : hasNan (s.map fun v => covVec fn true (g v)) = true := by
  rw [covVec_hasNan] at h ⊢
  exact nan_mono hg fn pos hpos hs hk hv h

/-- C153: the same for a part selected in several steps, for covariances. -/
theorem C153_selected_covariance [CharZero F] (sid W nLevels : Nat) (q r : Quantity (Option F)) (bs : List Brackets) (hsel : SelectsPart q bs r) (hbs : ∀ b ∈ bs, b.Single) (hid : IdsIdentify r)
    (fn : MomentFn (Option F)) (hR : 0 < fn.size) (chunks : List (Nat × List (Sample (Option F)))) (hwf : ChunksWF W chunks) (hl : ∀ c ∈ chunks, c.1 < nLevels)
    (or' : Nat) (mr : Quantity (Option F)) (er : QuantityMean F) (hmr : r.covariance or' fn true = .ok mr) (hr : estimateMean mr nLevels (asChunks sid W chunks) = .ok er) :
    ∀ (hq : Built sid .qty q) (oq : Nat) (mq : Quantity (Option F)) (e : QuantityMean F), q.covariance oq fn true = .ok mq → estimateMean mq nLevels (asChunks sid W chunks) = .ok e →
      (∀ l, SameNan mq mr sid W (levelData chunks l)) → e.select bs = .ok er := by
  induction hsel with
  | nil q =>
    intro hq oq mq e hmq he hnan
    -- the two objects have the same values
    obtain ⟨M, g, hg⟩ := cov_res hq hid hmq hwf he
    obtain ⟨hb1, hi1, hs1, rfl, hg1, hk1⟩ := cov_good hq hid hg hR hmq hwf he
    obtain ⟨hb2, hi2, hs2, -, hg2, hk2⟩ := cov_good hq hid hg hR hmr hwf hr
    have E1 := C46_textbook_estimators sid W nLevels mq hb1 hi1 chunks hwf hl e he
    have E2 := C46_textbook_estimators sid W nLevels mr hb2 hi2 chunks hwf hl er hr
    have hD := fun l => levelData_wf hwf l
    have hf : ∀ l, (levelData chunks l).filter (keep sid W mq) = (levelData chunks l).filter (keep sid W mr) :=
      fun l => List.filter_congr fun x _ => by rw [hk1, hk2]
    have hU : ∀ l, usedValues mq sid W (levelData chunks l) = usedValues mr sid W (levelData chunks l) := by
      intro l; rw [usedValues_gen hg1 (hD l), usedValues_gen hg2 (hD l), hf]
    have hL : ∀ l, levelValues mq sid W (levelData chunks l) = levelValues mr sid W (levelData chunks l) := by
      intro l; rw [levelValues_good hg1 (hD l), levelValues_good hg2 (hD l), hf]
    have hdf : ∀ l i, usedDiffs mq sid W l i (levelData chunks l) = usedDiffs mr sid W l i (levelData chunks l) := by
      intro l i; unfold usedDiffs; rw [hU]
    have ht : mq.qtype = mr.qtype := by rw [(mk_ok hmq).1, (mk_ok hmr).1]; rfl
    have hsz : mq.size = mr.size := by rw [hs1, hs2]
    obtain ⟨t, ms, vs, ns, rm⟩ := er
    obtain ⟨t', ms', vs', ns', rm'⟩ := e
    have a1 := E1.qtype; have a2 := E1.means; have a3 := E1.vars; have a4 := E1.used; have a5 := E1.dropped
    have b1 := E2.qtype; have b2 := E2.means; have b3 := E2.vars; have b4 := E2.used; have b5 := E2.dropped
    simp only at a1 a2 a3 a4 a5 b1 b2 b3 b4 b5
    rw [QuantityMean.select, a1, a2, a3, a4, a5, b1, b2, b3, b4, b5]
    simp only [hU, hL, hdf, ht, hsz]
  | @cons q q1 r o b bs hg1 hs ih =>
    intro hq oq mq e hmq he hnan
    have hid1 := selects_ids hs hid
    have hidq := ids_of_getitem hg1 hid1
    have hq1 : Built sid .qty q1 := .getitem o b hq hg1
    have hbr := selects_built hs hq1
    obtain ⟨Mr, gr, hgr⟩ := cov_res hbr hid hmr hwf hr
    obtain ⟨M, g, hg⟩ := cov_res hq hidq hmq hwf he
    obtain ⟨hbmq, hidmq, hszq, rfl, hgmq, hkq⟩ := cov_good hq hidq hg hR hmq hwf he
    obtain ⟨M1, g1, h1⟩ := selects_res hs hid hgr hq1
    obtain ⟨hk1, -, pos1, hp1, hgp1, -⟩ := getitem_positions o b hg (built_good W hq hidq).2 hg1 hid1 h1
    have hl1 : pos1.length = q1.size := getitem_size hg hg1 hgp1
    have hgp1' := hgp1
    rw [hl1] at hgp1'
    obtain ⟨hk2, pos2, hp2, hl2, g', hg', hv⟩ := selects_positions hs hid hgr hq1 hgp1'
    obtain ⟨m1, hm1⟩ : ∃ m1, q1.covariance 0 fn true = .ok m1 := ⟨_, mk_one _ _ _ _⟩
    obtain ⟨hgm1, hkm1⟩ := covariance_good hq1 hid1 hgp1' hm1
    obtain ⟨hgmr, hkmr⟩ := covariance_good hbr hid hg' hmr
    have hszm1 : m1.size = q1.size * (fn.size * fn.size) := covariance_size hm1
    have hbm1 : Built sid .qty m1 := .covariance 0 fn true hq1 hm1
    have hidm1 : IdsIdentify m1 := by rw [(mk_ok hm1).1]; exact ids_un hid1 _ _ _
    -- a NaN of the part is one of the whole
    have hqm : ∀ s : Sample (Option F), (⟨W, s.length, [s]⟩ : Batch (Option F)).WF → keep sid W q s = true → hasNan (s.map fun v => covVec fn true (pos1.map fun i => (g v).getD i none)) = true →
        hasNan (s.map fun v => covVec fn true (g v)) = true :=
      fun s hs hk h => cov_nan_mono hg fn pos1 hp1 hs hk (fun _ _ => rfl) h
    have hmr' : ∀ s : Sample (Option F), (⟨W, s.length, [s]⟩ : Batch (Option F)).WF → keep sid W q s = true → hasNan (s.map fun v => covVec fn true (g' v)) = true →
        hasNan (s.map fun v => covVec fn true (pos1.map fun i => (g v).getD i none)) = true :=
      fun s hs hk h => cov_nan_mono hgp1' fn pos2 hp2 hs ((hk1 s).trans hk) (hv s hs ((hk1 s).trans hk)) h
    have hqr : ∀ l, ∀ s ∈ levelData chunks l, keep sid W q s = true → hasNan (s.map fun v => covVec fn true (g v)) = hasNan (s.map fun v => covVec fn true (g' v)) := by
      intro l s hs hk
      have hw := (level_sample (levelData_wf hwf l) hs).2
      exact hnan l s hs _ _ (by rw [perSample_of_good hgmq s hw, if_pos ((hkq s).trans hk)])
        (by rw [perSample_of_good hgmr s hw, if_pos ((hkmr s).trans ((hk2 s).trans ((hk1 s).trans hk)))])
    have hq1' : ∀ l, ∀ s ∈ levelData chunks l, keep sid W q s = true →
        hasNan (s.map fun v => covVec fn true (g v)) = hasNan (s.map fun v => covVec fn true (pos1.map fun i => (g v).getD i none)) := by
      intro l s hs hk
      have hw := (level_sample (levelData_wf hwf l) hs).2
      rw [Bool.eq_iff_iff]
      exact ⟨fun h => hmr' s hw hk (by rw [← hqr l s hs hk]; exact h), hqm s hw hk⟩
    -- the intermediate quantity has an estimate
    obtain ⟨l, hu⟩ := est_some_used hbmq hidmq hwf hl he
    have hu1 : usedValues m1 sid W (levelData chunks l) ≠ [] := by
      rw [usedValues_gen hgmq (levelData_wf hwf l), Ne, List.map_eq_nil_iff] at hu
      rw [usedValues_gen hgm1 (levelData_wf hwf l), Ne, List.map_eq_nil_iff]
      obtain ⟨s, hs⟩ := List.exists_mem_of_ne_nil _ hu
      simp only [List.mem_filter] at hs
      have hk := (hkq s).symm.trans hs.1.2
      apply List.ne_nil_of_mem (a := s)
      simp only [List.mem_filter]
      refine ⟨⟨hs.1.1, (hkm1 s).trans ((hk1 s).trans hk)⟩, ?_⟩
      rw [← hq1' l s hs.1.1 hk]
      exact hs.2
    obtain ⟨e1, he1⟩ := est_exists hbm1 hidm1 (by rw [hszm1]; exact hgm1) hwf hl hu1
    have hsame1 : ∀ l, SameNan mq m1 sid W (levelData chunks l) := by
      intro l s hs v u hv' hu'
      have hw := (level_sample (levelData_wf hwf l) hs).2
      obtain ⟨a1, rfl⟩ := perSample_good hgmq hw hv'
      obtain ⟨a2, rfl⟩ := perSample_good hgm1 hw hu'
      exact hq1' l s hs ((hkq s).symm.trans a1)
    have hsame2 : ∀ l, SameNan m1 mr sid W (levelData chunks l) := by
      intro l s hs v u hv' hu'
      have hw := (level_sample (levelData_wf hwf l) hs).2
      obtain ⟨a1, rfl⟩ := perSample_good hgm1 hw hv'
      obtain ⟨a2, rfl⟩ := perSample_good hgmr hw hu'
      have hk := (hk1 s).symm.trans ((hkm1 s).symm.trans a1)
      exact (hq1' l s hs hk).symm.trans (hqr l s hs hk)
    rw [QuantityMean.select, C153_part_of_covariance sid W nLevels q q1 mq m1 hq o oq 0 b (hbs b (by simp)) hg1 hid1 fn hR hmq hm1 chunks hwf hl e e1 he he1 hsame1]
    exact ih (fun b hb => hbs b (by simp [hb])) hid hmr hq1 0 m1 e1 hm1 he1 hsame2

namespace ExMomPart
def cq : Quantity (Option ℚ) := (q.covariance 12 fn true).toOption.getD q
def cq1 : Quantity (Option ℚ) := (q1.covariance 16 fn true).toOption.getD q
example (e er : QuantityMean ℚ) (he : estimateMean cq 2 (asChunks 7 4 chunks) = .ok e) (hr : estimateMean cq1 2 (asChunks 7 4 chunks) = .ok er) : e.getitem (.key (.num 5)) = .ok er :=
  C153_part_of_covariance 7 4 2 q q1 cq cq1 built 10 12 16 (.key (.num 5)) (.inl ⟨_, rfl⟩) rfl ids1 fn (by decide) rfl rfl chunks wf (by decide) e er he hr
    (same_levels (by decide +kernel) (by decide +kernel))
/-- Covariances of the moments of both entries of `q[5]`. -/
example : (estimateMean cq1 2 (asChunks 7 4 chunks)).map (·.lMeans) = .ok [[some 5, some 14, some 14, some 41, some (65 / 2), some (407 / 2), some (407 / 2), some (2657 / 2)],
    [some 3, some 7, some 7, some 15, some 8, some 26, some 26, some 80]] := by decide +kernel
example : (estimateMean cq 2 (asChunks 7 4 chunks)).toOption.isSome := by decide +kernel
def cr : Quantity (Option ℚ) := (r.covariance 13 fn true).toOption.getD q
example (e er : QuantityMean ℚ) (he : estimateMean cq 2 (asChunks 7 4 chunks) = .ok e) (hr : estimateMean cr 2 (asChunks 7 4 chunks) = .ok er) :
    e.select [.key (.num 5), .idx false [.int 1]] = .ok er :=
  C153_selected_covariance 7 4 2 q r _ sel (by simp [Brackets.Single]) idsr fn (by decide) chunks wf (by decide) 13 cr er rfl hr built 12 cq e rfl he (same_levels (by decide +kernel) (by decide +kernel))
example : (estimateMean cr 2 (asChunks 7 4 chunks)).toOption.isSome := by decide +kernel
end ExMomPart
end MLMC
