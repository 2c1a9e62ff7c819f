import Verif.Model.TimeNan
import Verif.Props.QuantityTime
import Verif.Props.EstimateCombine
/-! # C155 Estimates of interpolated time series -/
namespace MLMC
variable {F : Type} [Field F]

/-! ## Helpers -/

theorem interp_ok' (lerp : ℚ → ℚ → ℚ → Option F → Option F → Option F) (q : Quantity (Option F)) (o : Nat) (ts : List ℚ) (t : QType) (hq : q.qtype = .times ts t) (v : ℚ) :
    q.timeInterpolation lerp o v = .ok (.node o t false (unArr (Quantity.interpArr lerp ts t.size v)) [q]) := by
  unfold Quantity.timeInterpolation
  rw [hq]
  exact mk_one _ _ _ _

/-- Between two neighbouring times the interpolation is done between them. -/
theorem interpVec_between (lerp : ℚ → ℚ → ℚ → Option F → Option F → Option F) (ts : List ℚ) (hts : ts.Nodup) (sz : Nat) (i i' : Nat) (hi : i < ts.length) (hi' : i' < ts.length)
    (v : ℚ) (hv0 : ts[i] < v) (hv1 : v < ts[i']) (hadj : ∀ x ∈ ts, ¬ (ts[i] < x ∧ x < ts[i'])) (w : List (Option F)) :
    interpVec lerp ts sz v w = (List.range sz).map fun r => lerp ts[i] ts[i'] v (w.getD (i * sz + r) none) (w.getD (i' * sz + r) none) := by
  obtain ⟨c, hc, hcp⟩ := sortedTimes_pos ts i hi
  obtain ⟨d, hd, hdp⟩ := sortedTimes_pos ts i' hi'
  have hstrict := sortedTimes_strict ts hts
  have hmem : ∀ x ∈ Quantity.sortedTimes ts, x.1 ∈ ts := by
    intro x hx
    have := (sortedTimes_perm ts).mem_iff.1 hx
    exact List.fst_mem_of_mem_zipIdx this
  unfold interpVec
  dsimp only
  generalize hxs : Quantity.sortedTimes ts = xs at *
  have hb := count_below hstrict v
  set n := (xs.filter fun x => x.1 < v).length with hn
  have hcn : c < n := (hb c hc).2 (by rw [hcp]; exact hv0)
  have hdn : n ≤ d := by
    by_contra hcon
    have := (hb d hd).1 (by omega)
    rw [hdp] at this
    exact lt_asymm this hv1
  have mono := List.pairwise_iff_getElem.1 hstrict
  have hn1 : n = c + 1 := by
    by_contra hcon
    have hlt : n - 1 < xs.length := by omega
    have h3 := (hb (n - 1) hlt).1 (by omega)
    have h4 := mono c (n - 1) hc hlt (by omega)
    rw [hcp] at h4
    exact hadj _ (hmem _ (List.getElem_mem hlt)) ⟨h4, lt_trans h3 hv1⟩
  have hn2 : n = d := by
    by_contra hcon
    have hlt : n < xs.length := by omega
    have h3 : ¬ xs[n].1 < v := fun h => lt_irrefl _ ((hb n hlt).2 h)
    have h4 := mono n d hlt hd (by omega)
    rw [hdp] at h4
    exact hadj _ (hmem _ (List.getElem_mem hlt)) ⟨lt_of_lt_of_le hv0 (not_lt.1 h3), h4⟩
  have hbr : Quantity.bracket xs v = d := by
    unfold Quantity.bracket
    rw [← hn]
    omega
  rw [hbr]
  have hdc : d - 1 = c := by omega
  rw [hdc, getD_lt xs _ c hc, getD_lt xs _ d hd, hcp, hdp]
  rfl

/-- At one of the times the interpolation is done between it and the time before it, or after it if it is the first. -/
theorem interpVec_node (lerp : ℚ → ℚ → ℚ → Option F → Option F → Option F) (ts : List ℚ) (hts : ts.Nodup) (h2 : 2 ≤ ts.length) (sz : Nat) (i : Nat) (hi : i < ts.length) :
    (∃ t1 i', t1 ≠ ts[i] ∧ ∀ w : List (Option F), interpVec lerp ts sz ts[i] w = (List.range sz).map fun r => lerp ts[i] t1 ts[i] (w.getD (i * sz + r) none) (w.getD (i' * sz + r) none)) ∨
    ∃ t0 i', t0 ≠ ts[i] ∧ ∀ w : List (Option F), interpVec lerp ts sz ts[i] w = (List.range sz).map fun r => lerp t0 ts[i] ts[i] (w.getD (i' * sz + r) none) (w.getD (i * sz + r) none) := by
  obtain ⟨c, hc, hcp⟩ := sortedTimes_pos ts i hi
  have hstrict := sortedTimes_strict ts hts
  have hL := sortedTimes_length ts
  unfold interpVec
  dsimp only
  generalize hxs : Quantity.sortedTimes ts = xs at *
  have mono := List.pairwise_iff_getElem.1 hstrict
  have hcount : (xs.filter fun x => x.1 < ts[i]).length = c := by
    have h1 := count_below hstrict ts[i]
    apply le_antisymm
    · by_contra hcon
      have := (h1 c hc).1 (by omega)
      rw [hcp] at this
      exact lt_irrefl _ this
    · by_contra hcon
      have hlt : (xs.filter fun x => x.1 < ts[i]).length < xs.length := by omega
      have hno := fun h => lt_irrefl _ ((h1 _ hlt).2 h)
      apply hno
      have := mono _ c hlt hc (by omega)
      rw [hcp] at this
      exact this
  unfold Quantity.bracket
  rw [hcount]
  rcases Nat.eq_zero_or_pos c with h0 | hpos
  · left
    subst h0
    have e1 : min (max 0 1) (xs.length - 1) = 1 := by omega
    refine ⟨(xs.getD 1 (0, 0)).1, (xs.getD 1 (0, 0)).2, ?_, ?_⟩
    · have := mono 0 1 hc (by omega) (by omega)
      rw [hcp] at this
      rw [getD_lt xs _ 1 (by omega)]
      exact ne_of_gt this
    · intro w
      rw [e1]
      simp only [Nat.sub_self]
      rw [getD_lt xs _ 0 hc, hcp]
      rfl
  · right
    have e1 : min (max c 1) (xs.length - 1) = c := by omega
    refine ⟨(xs.getD (c - 1) (0, 0)).1, (xs.getD (c - 1) (0, 0)).2, ?_, ?_⟩
    · have := mono (c - 1) c (by omega) hc (by omega)
      rw [hcp] at this
      rw [getD_lt xs _ (c - 1) (by omega)]
      exact ne_of_lt this
    · intro w
      rw [e1, getD_lt xs _ c hc, hcp]
      rfl

/-- The quantity at one time, sample by sample. -/
theorem time_good {sid W : Nat} {q p : Quantity (Option F)} {g : List (Option F) → List (Option F)} {ts : List ℚ} {t : QType} (hq : q.qtype = .times ts t) (hts : ts.Nodup)
    (hg : GoodQ sid W q (some (q.size, g))) (hc : q.isConst = false) {o : Nat} (i : Nat) (hi : i < ts.length) (hp : q.getitem o (.key (.num ts[i])) = .ok p) :
    p.qtype = t ∧ GoodQ sid W p (some (t.size, fun w => ((g w).drop (i * t.size)).take t.size)) ∧ (∀ x, keep sid W p x = keep sid W q x) ∧ (IdsIdentify q → IdsIdentify p) := by
  rw [getitem_key o (by rw [hq]; exact times_key ts t hts i hi)] at hp
  cases hp
  have hsz : q.size = ts.length * t.size := by rw [Quantity.size, hq, QType.size]
  have hle : (i + 1) * t.size ≤ ts.length * t.size := Nat.mul_le_mul_right _ hi
  rw [Nat.succ_mul] at hle
  have := good_un' (m' := t.size) (g' := fun w => ((g w).drop (i * t.size)).take t.size) o t (fun a => .ok ⟨a.n, a.p, (a.rows.drop (i * t.size)).take t.size⟩) hg hc (by
    intro x p S hr
    refine ⟨_, rfl, hr.n, hr.p, by simp [hr.m]; omega, ?_⟩
    intro j hj k hk
    rw [List.map_take, List.map_drop, hr.val j hj k hk])
  exact ⟨rfl, this.1, this.2, fun h => ids_un h _ _ _⟩

/-- The interpolated quantity, sample by sample. -/
theorem interp_good {sid W : Nat} {q r : Quantity (Option F)} {g : List (Option F) → List (Option F)} {ts : List ℚ} {t : QType} (hq : q.qtype = .times ts t) (h2 : 2 ≤ ts.length)
    (hg : GoodQ sid W q (some (q.size, g))) (hc : q.isConst = false) {o : Nat} (lerp : ℚ → ℚ → ℚ → Option F → Option F → Option F) (v : ℚ)
    (hv : ¬ ((∀ x ∈ ts, v < x) ∨ ∀ x ∈ ts, x < v)) (hr : q.timeInterpolation lerp o v = .ok r) :
    r.qtype = t ∧ GoodQ sid W r (some (t.size, fun w => interpVec lerp ts t.size v (g w))) ∧ (∀ x, keep sid W r x = keep sid W q x) ∧ (IdsIdentify q → IdsIdentify r) := by
  rw [interp_ok' lerp q o ts t hq v] at hr
  cases hr
  have hsz : q.size = ts.length * t.size := by rw [Quantity.size, hq, QType.size]
  have := good_un' (m' := t.size) (g' := fun w => interpVec lerp ts t.size v (g w)) o t (Quantity.interpArr lerp ts t.size v) hg hc (by
    intro x p S hr
    exact interpArr_rep lerp ts t.size v hr (by omega) hv)
  exact ⟨rfl, this.1, this.2, fun h => ids_un h _ _ _⟩

/-- A series whose interpolation can be evaluated has all its values. -/
theorem interp_whole {sid W m : Nat} {q r : Quantity (Option F)} {gr : List (Option F) → List (Option F)} (hq : Built sid .qty q) (hid : IdsIdentify q) {ts : List ℚ} {t : QType}
    (hty : q.qtype = .times ts t) {lerp : ℚ → ℚ → ℚ → Option F → Option F → Option F} {v : ℚ} {o : Nat} (hr : q.timeInterpolation lerp o v = .ok r)
    (hgr : GoodQ sid W r (some (m, gr))) : ∃ g, GoodQ sid W q (some (q.size, g)) := by
  obtain ⟨⟨res, h⟩, _⟩ := built_good W hq hid
  rw [interp_ok' _ q o ts t hty v] at hr
  cases hr
  obtain ⟨y, hy, _⟩ := hgr ⟨W, 1, []⟩ (by intro s hs; simp at hs) rfl
  cases res with
  | none =>
    obtain ⟨x, hx⟩ := h ⟨W, 1, []⟩ (by intro s hs; simp at hs) rfl
    rw [on_one, hx] at hy
    simp [Except.bind] at hy
  | some mg =>
    obtain ⟨m, g⟩ := mg
    by_cases hm : m = q.size
    · subst hm; exact ⟨g, h⟩
    · exfalso
      obtain ⟨a, ha, hrep⟩ := h ⟨W, 1, []⟩ (by intro s hs; simp at hs) rfl
      rw [on_one, ha] at hy
      simp only [Except.bind, unArr, Quantity.interpArr] at hy
      rw [if_pos (by left; rw [hrep.m]; rw [Quantity.size, hty, QType.size] at hm; exact hm)] at hy
      simp [Except.map] at hy

theorem time_getD {v : List (Option F)} (s m i : Nat) (hi : i < m) : ((v.drop s).take m).getD i none = v.getD (s + i) none :=
  getD_drop_take v none s m i hi

/-! ## C155 -/

/-- C155, between two neighbouring times: the estimate of the series interpolated at `t0 < v < t1` uses the samples of the estimates at
`t0` and at `t1`, and each of its level means and its mean is the point on the straight line between those of these two estimates; if
the three drop the same samples because of NaN. -/
theorem C155_interpolated_mean_partial [CharZero F] (sid W nLevels : Nat) (q r p0 p1 : Quantity (Option F)) (hq : Built sid .qty q) (hid : IdsIdentify q) (ts : List ℚ) (t : QType)
    (hty : q.qtype = .times ts t) (hts : ts.Nodup) (t0 t1 v : ℚ) (h0 : t0 ∈ ts) (h1 : t1 ∈ ts) (hv0 : t0 < v) (hv1 : v < t1) (hadj : ∀ x ∈ ts, ¬ (t0 < x ∧ x < t1)) (o o' o'' : Nat)
    (hr : q.timeInterpolation floatBetween o v = .ok r) (hp0 : q.getitem o' (.key (.num t0)) = .ok p0) (hp1 : q.getitem o'' (.key (.num t1)) = .ok p1)
    (chunks : List (Nat × List (Sample (Option F)))) (hwf : ChunksWF W chunks) (hl : ∀ c ∈ chunks, c.1 < nLevels) (er e0 e1 : QuantityMean F)
    (her : estimateMean r nLevels (asChunks sid W chunks) = .ok er) (he0 : estimateMean p0 nLevels (asChunks sid W chunks) = .ok e0) (he1 : estimateMean p1 nLevels (asChunks sid W chunks) = .ok e1)
    (hnan0 : ∀ l, SameNan r p0 sid W (levelData chunks l)) (hnan1 : ∀ l, SameNan r p1 sid W (levelData chunks l)) :
    er.qtype = t ∧ er.nSamples = e0.nSamples ∧ er.nSamples = e1.nSamples ∧
      er.lMeans = List.zipWith (List.zipWith fun x y => floatAdd (some ((((t1 - v) / (t1 - t0) : ℚ)) : F) * x) (some ((((v - t0) / (t1 - t0) : ℚ)) : F) * y)) e0.lMeans e1.lMeans ∧
      er.mean = List.zipWith (fun x y => floatAdd (some ((((t1 - v) / (t1 - t0) : ℚ)) : F) * x) (some ((((v - t0) / (t1 - t0) : ℚ)) : F) * y)) e0.mean e1.mean := by
  obtain ⟨i, hi, rfl⟩ := List.mem_iff_getElem.1 h0
  obtain ⟨i', hi', rfl⟩ := List.mem_iff_getElem.1 h1
  have hii : i ≠ i' := by
    rintro rfl
    exact lt_irrefl _ (lt_trans hv0 hv1)
  have hbr : Built sid .qty r := .timeInterpolation o _ v hq hr
  have hb0 : Built sid .qty p0 := .getitem o' _ hq hp0
  have hb1 : Built sid .qty p1 := .getitem o'' _ hq hp1
  have hc : q.isConst = false := (built_good W hq hid).2
  have hidr : IdsIdentify r := by
    rw [interp_ok' _ q o ts t hty v] at hr
    cases hr
    exact ids_un hid _ _ _
  obtain ⟨gr, hgr⟩ := est_good hbr hidr hwf her
  obtain ⟨g, hg⟩ := interp_whole hq hid hty hr hgr
  obtain ⟨tr, gr', kr, _⟩ := interp_good hty (by omega) hg hc floatBetween v (by
    rintro (h | h)
    · exact absurd (h _ h0) (not_lt.2 (le_of_lt hv0))
    · exact absurd (h _ h1) (not_lt.2 (le_of_lt hv1))) hr
  obtain ⟨tp0, g0, k0, i0⟩ := time_good hty hts hg hc i hi hp0
  obtain ⟨tp1, g1, k1, i1⟩ := time_good hty hts hg hc i' hi' hp1
  have Er := C46_textbook_estimators sid W nLevels r hbr hidr chunks hwf hl er her
  refine ⟨Er.qtype.trans tr, combine_estimates hwf (C46_textbook_estimators sid W nLevels p0 hb0 (i0 hid) chunks hwf hl e0 he0)
    (C46_textbook_estimators sid W nLevels p1 hb1 (i1 hid) chunks hwf hl e1 he1) Er (m := t.size) (by rw [Quantity.size, tp0]) (by rw [Quantity.size, tp1]) (by rw [Quantity.size, tr])
    g0 g1 gr' (fun x => (kr x).trans (k0 x).symm) (fun x => (kr x).trans (k1 x).symm) _ _ ?_ hnan0 hnan1⟩
  intro s _ _ _ k _ j hj x y hx hy
  rw [time_getD _ _ _ hj] at hx hy
  rw [interpVec_between floatBetween ts hts t.size i i' hi hi' v hv0 hv1 hadj, getD_lt _ _ _ (by simpa using hj)]
  simp only [List.getElem_map, List.getElem_range]
  rw [hx, hy]
  simp only [floatBetween, Option.bind_some, Option.map_some, Option.some.injEq, linearBetween]
  have hd : ((ts[i'] - ts[i] : ℚ) : F) ≠ 0 := by
    rw [Ne, Rat.cast_eq_zero, sub_eq_zero]; exact ne_of_gt (lt_trans hv0 hv1)
  rw [Rat.cast_div, Rat.cast_div]
  have e : ((ts[i'] - v : ℚ) : F) = ((ts[i'] - ts[i] : ℚ) : F) - ((v - ts[i] : ℚ) : F) := by push_cast; ring
  rw [e]
  field_simp
  ring

/-- C155, at one of the times: the estimate of the series interpolated there is the estimate at that time, with its means, variances
and counts, if both drop the same samples because of NaN. -/
theorem C155_at_times_partial [CharZero F] (sid W nLevels : Nat) (q r p : Quantity (Option F)) (hq : Built sid .qty q) (hid : IdsIdentify q) (ts : List ℚ) (t : QType)
    (hty : q.qtype = .times ts t) (hts : ts.Nodup) (h2 : 2 ≤ ts.length) (v : ℚ) (hv : v ∈ ts) (o o' : Nat)
    (hr : q.timeInterpolation floatBetween o v = .ok r) (hp : q.getitem o' (.key (.num v)) = .ok p)
    (chunks : List (Nat × List (Sample (Option F)))) (hwf : ChunksWF W chunks) (hl : ∀ c ∈ chunks, c.1 < nLevels) (er e : QuantityMean F)
    (her : estimateMean r nLevels (asChunks sid W chunks) = .ok er) (he : estimateMean p nLevels (asChunks sid W chunks) = .ok e)
    (hnan : ∀ l, SameNan r p sid W (levelData chunks l)) : er = e := by
  obtain ⟨i, hi, rfl⟩ := List.mem_iff_getElem.1 hv
  have hbr : Built sid .qty r := .timeInterpolation o _ _ hq hr
  have hb : Built sid .qty p := .getitem o' _ hq hp
  have hc : q.isConst = false := (built_good W hq hid).2
  have hidr : IdsIdentify r := by
    rw [interp_ok' _ q o ts t hty _] at hr
    cases hr
    exact ids_un hid _ _ _
  obtain ⟨gr, hgr⟩ := est_good hbr hidr hwf her
  obtain ⟨g, hg⟩ := interp_whole hq hid hty hr hgr
  obtain ⟨tr, gr', kr, _⟩ := interp_good hty h2 hg hc floatBetween ts[i] (by
    rintro (h | h)
    · exact absurd (h _ hv) (lt_irrefl _)
    · exact absurd (h _ hv) (lt_irrefl _)) hr
  obtain ⟨tp, g0, k0, i0⟩ := time_good hty hts hg hc i hi hp
  have hsz : q.size = ts.length * t.size := by rw [Quantity.size, hty, QType.size]
  have hle : (i + 1) * t.size ≤ ts.length * t.size := Nat.mul_le_mul_right _ hi
  rw [Nat.succ_mul] at hle
  refine same_estimate hwf (C46_textbook_estimators sid W nLevels p hb (i0 hid) chunks hwf hl e he) (C46_textbook_estimators sid W nLevels r hbr hidr chunks hwf hl er her)
    g0 gr' (fun x => (kr x).trans (k0 x).symm) (tr.trans tp.symm) ?_ hnan
  intro s hw hk hno k hk'
  haveI : Inhabited F := ⟨0⟩
  have hlen := good_length hg hw ((k0 s).symm.trans hk) k hk'
  rw [rows_block (g (s.getD k [])) none (i * t.size) t.size (by rw [hlen]; omega)]
  have hent := (hasNan_entries (m := t.size) (fun k _ => by simp [interpVec])).1 hno k hk'
  have hne : ∀ {x y : ℚ}, x ≠ y → ((y - x : ℚ) : F) ≠ 0 := fun h => by
    rw [Ne, Rat.cast_eq_zero, sub_eq_zero]; exact fun e => h e.symm
  rcases interpVec_node (F := F) floatBetween ts hts h2 t.size i hi with ⟨t1, i', hd, hw'⟩ | ⟨t0, i', hd, hw'⟩
  all_goals
    rw [hw'] at hent ⊢
    apply List.map_congr_left
    intro j hj
    rw [List.mem_range] at hj
    have h1 := hent j hj
    rw [getD_lt _ _ _ (by simpa using hj)] at h1
    simp only [List.getElem_map, List.getElem_range] at h1
    revert h1
  · cases (g (s.getD k [])).getD (i * t.size + j) none <;> cases (g (s.getD k [])).getD (i' * t.size + j) none <;> simp [floatBetween, linear_left]
  · cases (g (s.getD k [])).getD (i * t.size + j) none <;> cases (g (s.getD k [])).getD (i' * t.size + j) none <;> simp [floatBetween, linear_right _ _ hd]

namespace ExTime
/-- Three times, not in order; one number at each. -/
def q : Quantity (Option ℚ) := .storage 7 (.times [2, 1, 4] .scalar)
def chunks : List (Nat × List (Sample (Option ℚ))) := [(0, [[[some 10, some 4, some 0]], [[some 6, none, some 1]], [[some 2, some 6, some 3]]]), (1, [[[some 2, some 3, some 1], [some 1, some 1, some 1]]])]
theorem wf : ChunksWF 3 chunks := by
  intro c hc
  simp only [chunks, List.mem_cons, List.not_mem_nil, or_false] at hc
  rcases hc with rfl | rfl <;> simp [batchOf, Batch.WF]

/-- C155: interpolating at a stored time is not the same as selecting it if the time before has a NaN: `interp1d` computes the value
from both times, so the sample is dropped although its value at the stored time is there. -/
theorem C155_nan_counterexample : ∃ r p er e, q.timeInterpolation floatBetween 1 2 = .ok r ∧ q.getitem 2 (.key (.num 2)) = .ok p ∧
    estimateMean r 2 (asChunks 7 3 chunks) = .ok er ∧ estimateMean p 2 (asChunks 7 3 chunks) = .ok e ∧
    er.nSamples = [2, 1] ∧ e.nSamples = [3, 1] ∧ er.mean = [some 7] ∧ e.mean = [some 7] ∧ er.lVars ≠ e.lVars := by
  refine ⟨_, _, _, _, rfl, rfl, rfl, rfl, ?_⟩
  decide +kernel

theorem same_of {q r : Quantity (Option ℚ)} {data : List (Sample (Option ℚ))} (h : ∀ s ∈ data, (q.perSample 7 3 s).map hasNan = (r.perSample 7 3 s).map hasNan) :
    SameNan q r 7 3 data := by
  intro s hs v u hv hu
  have := h s hs
  rw [hv, hu] at this
  simpa using this

/-- The hypotheses are met between the times 2 and 4, and at the time 4. -/
example := C155_interpolated_mean_partial 7 3 2 q _ _ _ (.root _) (by intro a ha; simp [Quantity.selections, q] at ha) [2, 1, 4] .scalar rfl (by decide +kernel) 2 4 3
  (by decide +kernel) (by decide +kernel) (by norm_num) (by norm_num) (by intro x hx; simp at hx; rcases hx with rfl | rfl | rfl <;> norm_num) 1 2 3 rfl rfl rfl chunks wf
  (by decide +kernel) _ _ _ rfl rfl rfl
  (by
    intro l
    match l with
    | 0 => exact same_of (by decide +kernel)
    | 1 => exact same_of (by decide +kernel)
    | l + 2 => simp [SameNan, levelData, chunks])
  (by
    intro l
    match l with
    | 0 => exact same_of (by decide +kernel)
    | 1 => exact same_of (by decide +kernel)
    | l + 2 => simp [SameNan, levelData, chunks])
example := C155_at_times_partial 7 3 2 q _ _ (.root _) (by intro a ha; simp [Quantity.selections, q] at ha) [2, 1, 4] .scalar rfl (by decide +kernel) (by decide) 4
  (by decide +kernel) 1 2 rfl rfl chunks wf (by decide +kernel) _ _ rfl rfl
  (by
    intro l
    match l with
    | 0 => exact same_of (by decide +kernel)
    | 1 => exact same_of (by decide +kernel)
    | l + 2 => simp [SameNan, levelData, chunks])
end ExTime

end MLMC
