import Verif.Props.EstimateIndex
import Verif.Props.Moments
import Verif.Model.ConstructDensity
/-! # C151 Centred quantities and central moments -/
namespace MLMC
variable {F : Type} [Field F]

/-- Difference of two floats, NaN if one is; `sub_op`, /repo/mlmc/quantity/quantity.py:229-231. -/
def floatSub (a b : Option F) : Option F := a.bind fun x => b.map (x - ·)

/-- Samples of a level that are kept by the selections of `q` and on which `g` is not NaN. -/
def usedSamples (sid W : Nat) (q : Quantity (Option F)) (g : List (Option F) → List (Option F)) (data : List (Sample (Option F))) :
    List (Sample (Option F)) := (data.filter (keep sid W q)).filter fun x => !hasNan (x.map g)

theorem usedSamples_values {sid W m : Nat} {q : Quantity (Option F)} {g : List (Option F) → List (Option F)} (h : GoodQ sid W q (some (m, g)))
    {l : Nat} {data : List (Sample (Option F))} (hwf : (batchOf W l data).WF) :
    usedValues q sid W data = (usedSamples sid W q g data).map (·.map g) := by
  unfold usedValues usedSamples
  rw [levelValues_good h hwf, List.filter_map]
  rfl

theorem usedSamples_diffs {sid W m : Nat} {q : Quantity (Option F)} {g : List (Option F) → List (Option F)} (h : GoodQ sid W q (some (m, g)))
    {l : Nat} {data : List (Sample (Option F))} (hwf : (batchOf W l data).WF) (i : Nat) (hi : i < m) :
    usedDiffs q sid W l i data = (usedSamples sid W q g data).map (cv g l i) := by
  unfold usedDiffs
  rw [usedSamples_values h hwf, List.map_map]
  apply List.map_congr_left
  intro s hs
  unfold usedSamples at hs
  rw [List.mem_filter, List.mem_filter] at hs
  exact levelDiff_cv h (level_sample hwf hs.1.1).1 (level_sample hwf hs.1.1).2 hs.1.2 i hi

/-- The mean of an estimate from levels that all have used samples. -/
theorem mean_of_used {sid W nLevels : Nat} {q : Quantity (Option F)} {data : Nat → List (Sample (Option F))} {e : QuantityMean F}
    (h : IsEstimate q sid W nLevels data e) (h1 : ∀ l < nLevels, usedValues q sid W (data l) ≠ []) :
    e.mean = (List.range q.size).map fun i => some ((List.range nLevels).map fun l => average (usedDiffs q sid W l i (data l))).sum := by
  have hsz : e.qtype.size = q.size := by rw [h.qtype]; rfl
  unfold QuantityMean.mean
  rw [hsz]
  apply List.map_congr_left
  intro i hi
  rw [List.mem_range] at hi
  rw [h.means, List.map_map, ← floatSum_some, List.map_map]
  congr 1
  apply List.map_congr_left
  intro l hl
  simp [hi, h1 l (List.mem_range.1 hl)]

theorem average_shift [CharZero F] (xs : List F) (hx : xs ≠ []) (c : F) : average (xs.map (· - c)) = average xs - c := by
  have h0 : (xs.length : F) ≠ 0 := by exact_mod_cast (by simpa using hx : xs.length ≠ 0)
  have : (xs.map (· - c)).sum = xs.sum - xs.length * c := by
    clear h0 hx
    induction xs with
    | nil => simp
    | cons x xs ih => simp only [List.map_cons, List.sum_cons, ih, List.length_cons]; push_cast; ring
  unfold average
  rw [this, List.length_map]
  field_simp

theorem sampleVar_shift [CharZero F] (xs : List F) (hx : xs ≠ []) (c : F) : sampleVar (xs.map (· - c)) = sampleVar xs := by
  unfold sampleVar
  rw [average_shift xs hx, List.map_map, List.length_map]
  congr 2
  apply List.map_congr_left
  intro x _
  simp only [Function.comp]
  ring

/-- A quantity made of `q` and its estimated mean, an operation without NaN of its own. -/
theorem good_constR {sid W m : Nat} {a s : Quantity (Option F)} {ga : List (Option F) → List (Option F)} {o o' : Nat} {t t' : QType} (f) (w : List (Option F))
    (hw : w.length = m) (ha : GoodQ sid W a (some (m, ga))) (hca : a.isConst = false)
    (hs : Quantity.mk o t (binArr (Arr.zip f)) [a, .const o' t' w] = .ok s) (hid : IdsIdentify s) :
    GoodQ sid W s (some (m, fun v => zipComp f m (ga v) w)) ∧ ∀ x, keep sid W s x = keep sid W a x := by
  obtain ⟨rfl, hsel⟩ := mk_ok hs
  have hna := node_selNode hid hsel (a := a) (by simp) hca
  refine ⟨fun B hB hw' => ?_, fun x => by unfold keep; rw [hna]⟩
  obtain ⟨x, hx, hxr⟩ := ha B hB hw'
  rw [← kept_congr hna] at hxr
  obtain ⟨y, hy, hyr⟩ := zip_repR f hxr w m (by rw [hw, bdim_self])
  exact ⟨y, by rw [on_two, hx, on_const]; simp [Except.bind, binArr, hy, Except.map], hyr⟩

theorem arith_mk {q r p : Quantity (Option F)} (hc : q.isConst = false) {f} {o : Nat} (hp : q.arith o f r = .ok p) :
    Quantity.mk o q.qtype (binArr (Arr.zip f)) [q, r] = .ok p := by
  unfold Quantity.arith Quantity.create at hp
  cases q with
  | const => simp [Quantity.isConst] at hc
  | node => exact hp
  | storage => exact hp

theorem hasNan_congr {x : Sample (Option F)} {g G : List (Option F) → List (Option F)} {m : Nat} (h1 : ∀ k < x.length, (g (x.getD k [])).length = m)
    (h2 : ∀ k < x.length, (G (x.getD k [])).length = m)
    (h : ∀ k < x.length, ∀ i < m, ((G (x.getD k [])).getD i none = none ↔ (g (x.getD k [])).getD i none = none)) :
    hasNan (x.map G) = hasNan (x.map g) := by
  have key : ∀ f : List (Option F) → List (Option F), (∀ k < x.length, (f (x.getD k [])).length = m) →
      (hasNan (x.map f) = true ↔ ∃ k < x.length, ∃ i < m, (f (x.getD k [])).getD i none = none) := by
    intro f hf
    unfold hasNan
    rw [List.any_map, List.any_eq_true]
    constructor
    · rintro ⟨v, hv, hn⟩
      obtain ⟨k, hk, rfl⟩ := List.mem_iff_getElem.1 hv
      simp only [Function.comp, List.any_eq_true] at hn
      obtain ⟨y, hy, hyn⟩ := hn
      obtain ⟨i, hi, rfl⟩ := List.mem_iff_getElem.1 hy
      have hk' := hf k hk
      rw [getD_lt _ _ _ hk] at hk'
      refine ⟨k, hk, i, by omega, ?_⟩
      rw [getD_lt x _ _ hk, getD_lt _ _ _ hi]
      simpa using hyn
    · rintro ⟨k, hk, i, hi, hn⟩
      have hk' := hf k hk
      rw [getD_lt _ _ _ hk] at hk' hn
      refine ⟨x[k], List.getElem_mem hk, ?_⟩
      simp only [Function.comp, List.any_eq_true]
      have hi' : i < (f x[k]).length := by omega
      rw [getD_lt _ _ _ hi'] at hn
      exact ⟨_, List.getElem_mem hi', by rw [hn]; rfl⟩
  rw [Bool.eq_iff_iff, key G h2, key g h1]
  constructor
  · rintro ⟨k, hk, i, hi, hn⟩; exact ⟨k, hk, i, hi, (h k hk i hi).1 hn⟩
  · rintro ⟨k, hk, i, hi, hn⟩; exact ⟨k, hk, i, hi, (h k hk i hi).2 hn⟩

theorem zipComp_get {f : Option F → Option F → Option F} {m i : Nat} {v w : List (Option F)} (hv : v.length = m) (hw : w.length = m) (hi : i < m) :
    (zipComp f m v w).getD i none = f (v.getD i none) (w.getD i none) := by
  unfold zipComp
  rw [getD_lt _ _ _ (by simpa using hi)]
  simp only [List.getElem_map, List.getElem_range]
  rw [comp_getD hv hi, comp_getD hw hi]

theorem usedSamples_congr {sid W : Nat} {q s : Quantity (Option F)} {g G : List (Option F) → List (Option F)} {data : List (Sample (Option F))}
    (hk : ∀ x, keep sid W s x = keep sid W q x) (hn : ∀ x ∈ data, keep sid W q x = true → hasNan (x.map G) = hasNan (x.map g)) :
    usedSamples sid W s G data = usedSamples sid W q g data := by
  unfold usedSamples
  rw [List.filter_congr (fun x _ => hk x)]
  apply List.filter_congr
  intro x hx
  rw [List.mem_filter] at hx
  rw [hn x hx.1 hx.2]

theorem sum_shift (n : Nat) (hn : 0 < n) (f : Nat → F) (c : F) :
    ((List.range n).map fun l => if l = 0 then f l - c else f l).sum = ((List.range n).map f).sum - c := by
  obtain ⟨n, rfl⟩ : ∃ k, n = k + 1 := ⟨n - 1, by omega⟩
  rw [List.range_succ_eq_map]
  simp only [List.map_cons, List.sum_cons, List.map_map, if_true]
  have : ((List.range n).map ((fun l => if l = 0 then f l - c else f l) ∘ Nat.succ)) = (List.range n).map (f ∘ Nat.succ) := by
    apply List.map_congr_left; intro x _; simp
  rw [this]
  ring

/-- `C151`: subtracting its estimated mean from a quantity (`q - q_mean.mean`, as documented for central moments) centres it: if every level
has a sample without NaN, the centred quantity has the estimated mean 0 in every component, and the level variances, the variances of the mean
and the numbers of used and dropped samples of `q`. -/
theorem C151_centred [CharZero F] (sid W nLevels : Nat) (hn : 0 < nLevels) (q c : Quantity (Option F)) (hq : Built sid .qty q) (hidq : IdsIdentify q)
    (chunks : List (Nat × List (Sample (Option F)))) (hwf : ChunksWF W chunks) (hl : ∀ x ∈ chunks, x.1 < nLevels) (e : QuantityMean F)
    (he : estimateMean q nLevels (asChunks sid W chunks) = .ok e) (hall : ∀ l < nLevels, usedValues q sid W (levelData chunks l) ≠ [])
    (o o' : Nat) (t : QType) (hc : q.arith o floatSub (.const o' t e.mean) = .ok c) (hid : IdsIdentify c) :
    ∃ ec, estimateMean c nLevels (asChunks sid W chunks) = .ok ec ∧ ec.mean = List.replicate q.size (some 0) ∧
      ec.lVars = e.lVars ∧ ec.var = e.var ∧ ec.nSamples = e.nSamples ∧ ec.nRm = e.nRm ∧ ec.lMeans.drop 1 = e.lMeans.drop 1 := by
  have hcq : q.isConst = false := (built_good W hq hidq).2
  have E := C46_textbook_estimators sid W nLevels q hq hidq chunks hwf hl e he
  obtain ⟨g, hg⟩ := est_good hq hidq hwf he
  have hD := fun l => levelData_wf hwf l
  have hM := mean_of_used E hall
  set M : Nat → F := fun i => ((List.range nLevels).map fun l => average (usedDiffs q sid W l i (levelData chunks l))).sum with hMdef
  have hMlen : e.mean.length = q.size := by rw [hM]; simp
  have hMget : ∀ i < q.size, e.mean.getD i none = some (M i) := by
    intro i hi
    rw [hM, getD_lt _ _ _ (by simpa using hi)]
    simp [hMdef]
  have hmk := arith_mk hcq hc
  have hcc := (mk_ok hmk).1
  have hsz : c.size = q.size := by rw [hcc]; rfl
  obtain ⟨hgc, hkeep⟩ := good_constR floatSub e.mean hMlen hg hcq hmk hid
  set G := fun v => zipComp floatSub q.size (g v) e.mean with hG
  have hbc : Built sid .qty c := .arithR o _ hq (.const o' t e.mean) hc
  have hlen : ∀ l, ∀ x ∈ levelData chunks l, keep sid W q x = true → ∀ k < x.length, (g (x.getD k [])).length = q.size :=
    fun l x hx hkx k hk => good_length hg (level_sample (hD l) hx).2 hkx k hk
  have hGlen : ∀ v, (G v).length = q.size := by intro v; rw [hG]; simp [zipComp]
  have hval : ∀ v, (g v).length = q.size → ∀ i < q.size, (G v).getD i none = ((g v).getD i none).map (· - M i) := by
    intro v hv i hi
    rw [hG]
    simp only
    rw [zipComp_get hv hMlen hi, hMget i hi]
    cases (g v).getD i none <;> rfl
  have hS : ∀ l, usedSamples sid W c G (levelData chunks l) = usedSamples sid W q g (levelData chunks l) := by
    intro l
    refine usedSamples_congr hkeep fun x hx hkx => ?_
    refine hasNan_congr (hlen l x hx hkx) (fun k _ => hGlen _) fun k hk i hi => ?_
    rw [hval _ (hlen l x hx hkx k hk) i hi]
    simp
  have hgc' : GoodQ sid W c (some (c.size, G)) := by rw [hsz]; exact hgc
  have hused : ∀ l, (usedValues c sid W (levelData chunks l)).length = (usedValues q sid W (levelData chunks l)).length := by
    intro l
    rw [usedSamples_values hgc (hD l), usedSamples_values hg (hD l), hS]
    simp
  have hne : ∀ l, usedValues c sid W (levelData chunks l) = [] ↔ usedValues q sid W (levelData chunks l) = [] := by
    intro l
    rw [← List.length_eq_zero_iff, hused, List.length_eq_zero_iff]
  have hlv : ∀ l, ((levelValues c sid W (levelData chunks l)).filter hasNan).length = ((levelValues q sid W (levelData chunks l)).filter hasNan).length := by
    intro l
    have hlen' : ∀ r : Quantity (Option F), ((levelValues r sid W (levelData chunks l)).filter hasNan).length =
        (levelValues r sid W (levelData chunks l)).length - (usedValues r sid W (levelData chunks l)).length := by
      intro r
      unfold usedValues
      exact Nat.eq_sub_of_add_eq (List.length_eq_length_filter_add (l := levelValues r sid W (levelData chunks l)) hasNan).symm
    rw [hlen', hlen', hused, levelValues_good hgc (hD l), levelValues_good hg (hD l)]
    simp only [List.length_map]
    rw [List.filter_congr (fun x _ => hkeep x)]
  obtain ⟨ec, hec⟩ := est_exists hbc hid hgc' hwf hl (l := 0) (by rw [Ne, hne]; exact hall 0 hn)
  have EC := C46_textbook_estimators sid W nLevels c hbc hid chunks hwf hl ec hec
  have hdiff : ∀ l, ∀ i < q.size, usedDiffs c sid W l i (levelData chunks l) =
      (usedDiffs q sid W l i (levelData chunks l)).map fun x => x - if l = 0 then M i else 0 := by
    intro l i hi
    rw [usedSamples_diffs hgc (hD l) i hi, usedSamples_diffs hg (hD l) i hi, hS, List.map_map]
    apply List.map_congr_left
    intro x hx
    unfold usedSamples at hx
    rw [List.mem_filter, List.mem_filter] at hx
    have hsh := (level_sample (hD l) hx.1.1).1
    have hnan : hasNan (x.map g) = false := by simpa using hx.2
    have hsome : ∀ k < x.length, ∃ y, (g (x.getD k [])).getD i none = some y := fun k hk =>
      hasNan_false hnan k hk i (by rw [hlen l x hx.1.1 hx.1.2 k hk]; exact hi)
    simp only [Function.comp, cv]
    by_cases h0 : l = 0
    · rw [if_pos h0] at hsh
      obtain ⟨y, hy⟩ := hsome 0 (by omega)
      rw [if_pos h0, if_pos h0, if_pos h0, hval _ (hlen l x hx.1.1 hx.1.2 0 (by omega)) i hi, hy]
      rfl
    · rw [if_neg h0] at hsh
      obtain ⟨y, hy⟩ := hsome 0 (by omega)
      obtain ⟨z, hz⟩ := hsome 1 (by omega)
      rw [if_neg h0, if_neg h0, if_neg h0, hval _ (hlen l x hx.1.1 hx.1.2 0 (by omega)) i hi, hval _ (hlen l x hx.1.1 hx.1.2 1 (by omega)) i hi,
        hy, hz]
      simp only [Option.map_some, Option.getD_some]
      ring
  have hdne : ∀ l < nLevels, ∀ i, usedDiffs q sid W l i (levelData chunks l) ≠ [] := by
    intro l hl' i
    unfold usedDiffs
    simpa using hall l hl'
  have hvars : ec.lVars = e.lVars := by
    rw [EC.vars, E.vars, hsz]
    refine List.map_congr_left fun l hl' => List.map_congr_left fun i hi => ?_
    rw [hused, hdiff l i (List.mem_range.1 hi), sampleVar_shift _ (hdne l (List.mem_range.1 hl') i)]
  have hns : ec.nSamples = e.nSamples := by
    rw [EC.used, E.used]
    exact List.map_congr_left fun l _ => hused l
  have htype : ec.qtype = e.qtype := by rw [EC.qtype, E.qtype, hcc]; rfl
  refine ⟨ec, hec, ?_, hvars, ?_, hns, ?_, ?_⟩
  · rw [mean_of_used EC fun l hl' => by rw [Ne, hne]; exact hall l hl', hsz, ← List.length_range (n := q.size), ← List.map_const']
    simp only [List.length_range]
    refine List.map_congr_left fun i hi => ?_
    have hi := List.mem_range.1 hi
    congr 1
    have : ((List.range nLevels).map fun l => average (usedDiffs c sid W l i (levelData chunks l))) =
        (List.range nLevels).map fun l => if l = 0 then average (usedDiffs q sid W l i (levelData chunks l)) - M i else
          average (usedDiffs q sid W l i (levelData chunks l)) := by
      refine List.map_congr_left fun l hl' => ?_
      rw [hdiff l i hi, average_shift _ (hdne l (List.mem_range.1 hl') i)]
      split <;> simp
    rw [this, sum_shift nLevels hn]
    simp [hMdef]
  · unfold QuantityMean.var
    rw [htype, hvars, hns]
  · rw [EC.dropped, E.dropped]
    exact List.map_congr_left fun l _ => hlv l
  · rw [EC.means, E.means, hsz, ← List.map_drop, ← List.map_drop]
    refine List.map_congr_left fun l hl' => List.map_congr_left fun i hi => ?_
    have hl0 : l ≠ 0 ∧ l < nLevels := by
      obtain ⟨k, hk, rfl⟩ := List.mem_iff_getElem.1 hl'
      simp at hk ⊢
      omega
    rw [hdiff l i (List.mem_range.1 hi)]
    simp [hne, hl0.1]

theorem average_map_lin {α : Type} [CharZero F] (l : List α) (hl : l ≠ []) (f g : α → F) (a b : F) :
    average (l.map fun x => f x - a * g x + b) = average (l.map f) - a * average (l.map g) + b := by
  have h0 : (l.length : F) ≠ 0 := by exact_mod_cast (by simpa using hl : l.length ≠ 0)
  have : (l.map fun x => f x - a * g x + b).sum = (l.map f).sum - a * (l.map g).sum + l.length * b := by
    clear h0 hl
    induction l with
    | nil => simp
    | cons x l ih => simp only [List.map_cons, List.sum_cons, ih, List.length_cons]; push_cast; ring
  unfold average
  rw [this]
  simp only [List.length_map]
  field_simp

theorem sum_central (n : Nat) (hn : 0 < n) (f g : Nat → F) (c : F) :
    ((List.range n).map fun l => f l - 2 * c * g l + if l = 0 then c ^ 2 else 0).sum =
      ((List.range n).map f).sum - 2 * c * ((List.range n).map g).sum + c ^ 2 := by
  have h := sum_shift n hn (fun l => f l - 2 * c * g l) (-c ^ 2)
  have e1 : ((List.range n).map fun l => f l - 2 * c * g l + if l = 0 then c ^ 2 else 0) =
      (List.range n).map fun l => if l = 0 then f l - 2 * c * g l - -c ^ 2 else f l - 2 * c * g l := by
    apply List.map_congr_left; intro l _; split <;> ring
  rw [e1, h]
  have e2 : ∀ k, ((List.range k).map fun l => f l - 2 * c * g l).sum = ((List.range k).map f).sum - 2 * c * ((List.range k).map g).sum := by
    intro k
    induction k with
    | zero => simp
    | succ k ih => simp only [List.range_succ, List.map_append, List.sum_append, ih, List.map_cons, List.map_nil, List.sum_cons, List.sum_nil]; ring
  rw [e2]
  ring

/-- `C151`: the estimated mean of the square of the centred quantity (the second central moment) is the estimated mean of the square minus
the square of the estimated mean, in every component. -/
theorem C151_second_moment [CharZero F] (sid W nLevels : Nat) (hn : 0 < nLevels) (q c s c2 : Quantity (Option F)) (hq : Built sid .qty q)
    (chunks : List (Nat × List (Sample (Option F)))) (hwf : ChunksWF W chunks) (hl : ∀ x ∈ chunks, x.1 < nLevels) (e : QuantityMean F)
    (he : estimateMean q nLevels (asChunks sid W chunks) = .ok e) (hall : ∀ l < nLevels, usedValues q sid W (levelData chunks l) ≠ [])
    (o o' o2 o3 : Nat) (t : QType) (hc : q.arith o floatSub (.const o' t e.mean) = .ok c) (hs : q.arith o2 (· * ·) q = .ok s)
    (hc2 : c.arith o3 (· * ·) c = .ok c2) (hids : IdsIdentify s) (hidc2 : IdsIdentify c2) :
    ∃ e2 ec2, estimateMean s nLevels (asChunks sid W chunks) = .ok e2 ∧ estimateMean c2 nLevels (asChunks sid W chunks) = .ok ec2 ∧
      ec2.mean = List.zipWith (fun x m => floatSub x (m * m)) e2.mean e.mean := by
  have hmks : ∃ t, Quantity.mk o2 t (binArr (Arr.zip (· * ·))) [q, q] = .ok s := create_mk hs
  have hidq : IdsIdentify q := by
    obtain ⟨t, h⟩ := hmks
    rw [(mk_ok h).1] at hids
    exact hids.input (by simp)
  have hid : IdsIdentify c := by
    obtain ⟨t, h⟩ := create_mk hc2
    rw [(mk_ok h).1] at hidc2
    exact hidc2.input (by simp)
  have hcq : q.isConst = false := (built_good W hq hidq).2
  have E := C46_textbook_estimators sid W nLevels q hq hidq chunks hwf hl e he
  obtain ⟨g, hg⟩ := est_good hq hidq hwf he
  have hD := fun l => levelData_wf hwf l
  have hM := mean_of_used E hall
  set M : Nat → F := fun i => ((List.range nLevels).map fun l => average (usedDiffs q sid W l i (levelData chunks l))).sum with hMdef
  have hMlen : e.mean.length = q.size := by rw [hM]; simp
  have hMget : ∀ i < q.size, e.mean.getD i none = some (M i) := by
    intro i hi
    rw [hM, getD_lt _ _ _ (by simpa using hi)]
    simp [hMdef]
  have hmk := arith_mk hcq hc
  have hcc := (mk_ok hmk).1
  obtain ⟨hgc, hkeep⟩ := good_constR floatSub e.mean hMlen hg hcq hmk hid
  set G := fun v => zipComp floatSub q.size (g v) e.mean with hG
  have hbc : Built sid .qty c := .arithR o _ hq (.const o' t e.mean) hc
  have hccn : c.isConst = false := (built_good W hbc hid).2
  have hmks := arith_mk hcq hs
  have hmkc2 := arith_mk hccn hc2
  obtain ⟨hgs, hks, _⟩ := good_sum (· * ·) hg hg hcq hcq hmks hids
  obtain ⟨hgc2, hkc2, _⟩ := good_sum (· * ·) hgc hgc hccn hccn hmkc2 hidc2
  have hssz : s.size = q.size := by rw [(mk_ok hmks).1]; rfl
  have hc2sz : c2.size = q.size := by rw [(mk_ok hmkc2).1, hcc]; rfl
  have hbs : Built sid .qty s := .arith o2 _ hq hq hs
  have hbc2 : Built sid .qty c2 := .arith o3 _ hbc hbc hc2
  set Q2 := fun v => zipComp (· * ·) q.size (g v) (g v) with hQ2
  set C2 := fun v => zipComp (· * ·) q.size (G v) (G v) with hC2
  have hlen : ∀ l, ∀ x ∈ levelData chunks l, keep sid W q x = true → ∀ k < x.length, (g (x.getD k [])).length = q.size :=
    fun l x hx hkx k hk => good_length hg (level_sample (hD l) hx).2 hkx k hk
  have hGlen : ∀ v, (G v).length = q.size := by intro v; rw [hG]; simp [zipComp]
  have hmul : ∀ x : Option F, x * x = x.map fun y => y * y := by intro x; cases x <;> rfl
  have hvalQ : ∀ v, (g v).length = q.size → ∀ i < q.size, (Q2 v).getD i none = ((g v).getD i none).map fun y => y * y := by
    intro v hv i hi
    rw [hQ2]
    simp only
    rw [zipComp_get hv hv hi, hmul]
  have hvalC : ∀ v, (g v).length = q.size → ∀ i < q.size, (C2 v).getD i none = ((g v).getD i none).map fun y => (y - M i) * (y - M i) := by
    intro v hv i hi
    rw [hC2]
    simp only
    rw [zipComp_get (hGlen v) (hGlen v) hi, hmul, hG]
    simp only
    rw [zipComp_get hv hMlen hi, hMget i hi]
    cases (g v).getD i none <;> rfl
  have hSs : ∀ l, usedSamples sid W s Q2 (levelData chunks l) = usedSamples sid W q g (levelData chunks l) := by
    intro l
    refine usedSamples_congr hks fun x hx hkx => ?_
    refine hasNan_congr (hlen l x hx hkx) (fun k _ => by rw [hQ2]; simp [zipComp]) fun k hk i hi => ?_
    rw [hvalQ _ (hlen l x hx hkx k hk) i hi]
    simp
  have hSc : ∀ l, usedSamples sid W c2 C2 (levelData chunks l) = usedSamples sid W q g (levelData chunks l) := by
    intro l
    refine usedSamples_congr (fun x => by rw [hkc2, hkeep]) fun x hx hkx => ?_
    refine hasNan_congr (hlen l x hx hkx) (fun k _ => by rw [hC2]; simp [zipComp]) fun k hk i hi => ?_
    rw [hvalC _ (hlen l x hx hkx k hk) i hi]
    simp
  have hSne : ∀ l < nLevels, usedSamples sid W q g (levelData chunks l) ≠ [] := by
    intro l hl' h0
    apply hall l hl'
    rw [usedSamples_values hg (hD l), h0]
    rfl
  have hus : ∀ l < nLevels, usedValues s sid W (levelData chunks l) ≠ [] := by
    intro l hl'
    rw [usedSamples_values hgs (hD l), hSs]
    simpa using hSne l hl'
  have huc : ∀ l < nLevels, usedValues c2 sid W (levelData chunks l) ≠ [] := by
    intro l hl'
    rw [usedSamples_values hgc2 (hD l), hSc]
    simpa using hSne l hl'
  obtain ⟨e2, he2⟩ := est_exists hbs hids (by rw [hssz]; exact hgs) hwf hl (hus 0 hn)
  have E2 := C46_textbook_estimators sid W nLevels s hbs hids chunks hwf hl e2 he2
  obtain ⟨ec2, hec2⟩ := est_exists hbc2 hidc2 (by rw [hc2sz]; exact hgc2) hwf hl (huc 0 hn)
  have EC2 := C46_textbook_estimators sid W nLevels c2 hbc2 hidc2 chunks hwf hl ec2 hec2
  refine ⟨e2, ec2, he2, hec2, ?_⟩
  rw [mean_of_used EC2 huc, mean_of_used E2 hus, hM, hssz, hc2sz, List.zipWith_map, List.zipWith_self]
  refine List.map_congr_left fun i hi => ?_
  have hi := List.mem_range.1 hi
  have hcvs : ∀ l < nLevels, average (usedDiffs c2 sid W l i (levelData chunks l)) =
      average (usedDiffs s sid W l i (levelData chunks l)) - 2 * M i * average (usedDiffs q sid W l i (levelData chunks l)) +
        if l = 0 then M i ^ 2 else 0 := by
    intro l hl'
    rw [usedSamples_diffs hgc2 (hD l) i hi, usedSamples_diffs hgs (hD l) i hi, usedSamples_diffs hg (hD l) i hi, hSs, hSc,
      ← average_map_lin _ (hSne l hl')]
    congr 1
    apply List.map_congr_left
    intro x hx
    unfold usedSamples at hx
    rw [List.mem_filter, List.mem_filter] at hx
    have hsh := (level_sample (hD l) hx.1.1).1
    have hnan : hasNan (x.map g) = false := by simpa using hx.2
    have hsome : ∀ k < x.length, ∃ y, (g (x.getD k [])).getD i none = some y := fun k hk =>
      hasNan_false hnan k hk i (by rw [hlen l x hx.1.1 hx.1.2 k hk]; exact hi)
    simp only [cv]
    by_cases h0 : l = 0
    · rw [if_pos h0] at hsh
      obtain ⟨y, hy⟩ := hsome 0 (by omega)
      have hk0 := hlen l x hx.1.1 hx.1.2 0 (by omega)
      rw [if_pos h0, if_pos h0, if_pos h0, if_pos h0, hvalC _ hk0 i hi, hvalQ _ hk0 i hi, hy]
      simp only [Option.map_some, Option.getD_some]
      ring
    · rw [if_neg h0] at hsh
      obtain ⟨y, hy⟩ := hsome 0 (by omega)
      obtain ⟨z, hz⟩ := hsome 1 (by omega)
      have hk0 := hlen l x hx.1.1 hx.1.2 0 (by omega)
      have hk1 := hlen l x hx.1.1 hx.1.2 1 (by omega)
      rw [if_neg h0, if_neg h0, if_neg h0, if_neg h0, hvalC _ hk0 i hi, hvalQ _ hk0 i hi, hvalC _ hk1 i hi, hvalQ _ hk1 i hi, hy, hz]
      simp only [Option.map_some, Option.getD_some]
      ring
  rw [List.map_congr_left fun l hl' => hcvs l (List.mem_range.1 hl'), sum_central nLevels hn]
  show _ = some (_ - M i * M i)
  congr 1
  simp only [hMdef]
  ring

/-- C151: the documented recipe for central moments, /repo/docs/source/examples_quantity.rst:110-117, evaluates the moment functions of the samples at the centred
values.  If these functions were made for a domain `(a, b)` and the mean `μ` is not 0, the centred value of a sample at a bound of the domain is outside of the domain: every moment
of this sample (but the constant Fourier one) is NaN, so the sample is dropped. -/
theorem C151_domain_counterexample {f : Mom.Family} {size : Nat} {a b r0 r1 : ℝ} {m : Mom.Moments} (h : Mom.construct f size (a, b) (.pair r0 r1) false true = .ok m)
    (hr : r0 < r1) (hw : 1 / 10 ^ 15 ≤ b - a) (i : Nat) (hi : f = .fourier → 0 < i) (μ : ℝ) :
    (0 < μ → (Dens.fn (.base m)).ev i (floatSub (some a) (some μ)) = none) ∧ (μ < 0 → (Dens.fn (.base m)).ev i (floatSub (some b) (some μ)) = none) := by
  have hfam : m.family = f := by
    obtain ⟨_, _, _, rfl⟩ := Mom.construct_ok h
    rfl
  have key : ∀ x, (x < a ∨ b < x) → (Dens.fn (.base m)).ev i (some x) = none := by
    intro x hx
    have ht := (Mom.C55_safe_eval h hr (by simpa [Mom.linBound] using hw) x).2 hx
    simp only [Dens.fn, Dens.row, Mom.Obj.evalAll, Mom.Moments.evalAll, ht]
    by_cases h0 : (Mom.Obj.base m).size = 0
    · rw [if_pos h0]
      by_cases hf : m.family = .fourier <;> simp [hf]
    · rw [if_neg h0]
      dsimp only
      by_cases hlt : i < (Mom.Obj.base m).size
      · rw [List.getD_eq_getElem?_getD, List.getElem?_eq_getElem (by simpa using hlt)]
        simp only [List.getElem_map, List.getElem_range, Option.getD_some]
        rw [if_neg]
        rintro ⟨hf, h0⟩
        have := hi (hfam ▸ hf)
        omega
      · rw [List.getD_eq_getElem?_getD, List.getElem?_eq_none (by simpa using hlt)]
        rfl
  refine ⟨fun hμ => ?_, fun hμ => ?_⟩
  · exact key (a - μ) (Or.inl (by linarith))
  · exact key (b - μ) (Or.inr (by linarith))

namespace ExCentral

/-- `Monomial(3, (1, 6), ref_domain=(1, 6))` on rational numbers: powers inside of the domain, NaN outside. -/
def powers : MomentFn (Option ℚ) := ⟨3, fun i v => v.bind fun x => if 1 ≤ x ∧ x ≤ 6 then some (x ^ i) else none⟩
def q1 : Quantity (Option ℚ) := .storage 7 .scalar
def chunks1 : List (Nat × List (Sample (Option ℚ))) := [(0, [[[some 1]], [[some 2]], [[some 6]]])]
def dflt : QuantityMean ℚ := ⟨.scalar, [], [], [], []⟩
def e1 : QuantityMean ℚ := (estimateMean q1 1 (asChunks 7 1 chunks1)).toOption.getD dflt
def c1 : Quantity (Option ℚ) := .node 9 .scalar false (binArr (Arr.zip floatSub)) [q1, .const 8 .scalar [some 3]]
def mc1 : Quantity (Option ℚ) := (c1.moments 10 powers true).toOption.getD q1
def ec1 : QuantityMean ℚ := (estimateMean mc1 1 (asChunks 7 1 chunks1)).toOption.getD dflt

end ExCentral

theorem ok_getD {ε α : Type} (x : Except ε α) (d : α) (h : x.toOption.isSome = true) : x = .ok (x.toOption.getD d) := by
  cases x with
  | ok a => rfl
  | error e => simp [Except.toOption] at h

/-- C151: the recipe on the samples 1, 2, 6 with the first three powers on the domain (1, 6): all samples are used for the mean 3, but two of three are dropped from the central moments,
whose estimates are 1, 3, 9 instead of 1, 0, 14 / 3. -/
theorem C151_recipe_counterexample : ∃ (q c mc : Quantity (Option ℚ)) (e ec : QuantityMean ℚ), q = ExCentral.q1 ∧
    estimateMean q 1 (asChunks 7 1 ExCentral.chunks1) = .ok e ∧ e.mean = [some 3] ∧ e.nSamples = [3] ∧
    q.arith 9 floatSub (.const 8 .scalar e.mean) = .ok c ∧ c.moments 10 ExCentral.powers true = .ok mc ∧
    estimateMean mc 1 (asChunks 7 1 ExCentral.chunks1) = .ok ec ∧ ec.mean = [some 1, some 3, some 9] ∧ ec.nSamples = [1] ∧ ec.nRm = [2] := by
  have hm : ExCentral.e1.mean = [some 3] := by decide +kernel
  refine ⟨ExCentral.q1, ExCentral.c1, ExCentral.mc1, ExCentral.e1, ExCentral.ec1, rfl, by rfl, hm, by decide +kernel, ?_, by rfl, ok_getD _ _ (by decide +kernel), by decide +kernel, by decide +kernel, by decide +kernel⟩
  rw [hm]
  rfl

namespace ExCentral

/-- A stored vector of two entries, two levels, one NaN. -/
def q : Quantity (Option ℚ) := .storage 7 (.array [2] .scalar)
def chunks : List (Nat × List (Sample (Option ℚ))) :=
  [(0, [[[some 1, some 2]], [[some 3, some 6]], [[none, some 5]]]), (1, [[[some 4, some 1], [some 1, some 3]], [[some 2, some 5], [some 1, some 0]]])]

theorem wf : ChunksWF 2 chunks := by
  intro c hc
  simp only [chunks, List.mem_cons, List.not_mem_nil, or_false] at hc
  rcases hc with rfl | rfl <;> intro s hs <;> simp [batchOf] at hs ⊢ <;> rcases hs with rfl | rfl | rfl <;> simp

def e : QuantityMean ℚ := (estimateMean q 2 (asChunks 7 2 chunks)).toOption.getD ⟨.scalar, [], [], [], []⟩
def c : Quantity (Option ℚ) := .node 9 (.array [2] .scalar) false (binArr (Arr.zip floatSub)) [q, .const 8 (.array [2] .scalar) e.mean]

example : e.mean = [some 4, some (11 / 2)] ∧ (estimateMean c 2 (asChunks 7 2 chunks)).toOption.map (fun x => (x.mean, x.nSamples, x.nRm)) =
    some ([some 0, some 0], [2, 2], [1, 0]) := by
  constructor <;> decide +kernel

theorem used : ∀ l < 2, usedValues q 7 2 (levelData chunks l) ≠ [] := by
  intro l hl
  have : ∀ l < 2, (usedValues q 7 2 (levelData chunks l)).length ≠ 0 := by decide +kernel
  intro h
  exact this l hl (by rw [h]; rfl)

theorem idq : IdsIdentify q := by intro a ha; simp [q, Quantity.selections] at ha
theorem idc : IdsIdentify c := by intro a ha; simp [c, q, Quantity.selections, Quantity.selectionsList] at ha

example := C151_centred 7 2 2 (by decide) q c (.root _) idq chunks wf (by decide) e (by rfl) used 9 8 (.array [2] .scalar) rfl idc

def s : Quantity (Option ℚ) := .node 10 (.array [2] .scalar) false (binArr (Arr.zip (· * ·))) [q, q]
def c2 : Quantity (Option ℚ) := .node 11 (.array [2] .scalar) false (binArr (Arr.zip (· * ·))) [c, c]
theorem ids : IdsIdentify s := by intro a ha; simp [s, q, Quantity.selections, Quantity.selectionsList] at ha
theorem idc2 : IdsIdentify c2 := by intro a ha; simp [c2, c, q, Quantity.selections, Quantity.selectionsList] at ha

example := C151_second_moment 7 2 2 (by decide) q c s c2 (.root _) chunks wf (by decide) e (by rfl) used 9 8 10 11 (.array [2] .scalar) rfl rfl rfl ids idc2

noncomputable example := C151_domain_counterexample (f := .legendre) (size := 5) (a := 1) (b := 6) (r0 := -1) (r1 := 1) (m := ⟨.legendre, 5, (1, 6), (-1, 1), false, true, (1 - -1) / max (6 - 1) (1 / 10 ^ 15), 1⟩)
  (by rw [Mom.construct]; norm_num) (by norm_num) (by norm_num) 1 (by simp) 3

end ExCentral

end MLMC
