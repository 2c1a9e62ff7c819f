import Verif.Props.EstimateLinear
import Verif.Props.QuantitySize
import Verif.Props.QuantityAccess
/-
C48: indexing an estimate gives the estimate of the indexed quantity.
-/
namespace MLMC
variable {F : Type} [Field F]

/-! ## Helpers -/

/-- A quantity that evaluates to `size` rows and has a used sample can be estimated. -/
theorem est_exists [CharZero F] {sid W nLevels : Nat} {s : Quantity (Option F)} {G : List (Option F) → List (Option F)} (hbs : Built sid .qty s)
    (hid : IdsIdentify s) (hgs : GoodQ sid W s (some (s.size, G))) {chunks : List (Nat × List (Sample (Option F)))} (hwf : ChunksWF W chunks)
    (hl : ∀ c ∈ chunks, c.1 < nLevels) {l : Nat} (hsl : usedValues s sid W (levelData chunks l) ≠ []) :
    ∃ e, estimateMean s nLevels (asChunks sid W chunks) = .ok e := by
  have hev : Evals s sid W s.size chunks := by
    rcases built_evals W hbs hid with h' | ⟨m', h'⟩
    · intro c hc
      obtain ⟨x, hx⟩ := h' (batchOf W c.1 c.2) (hwf c hc) rfl
      obtain ⟨a, ha, _⟩ := hgs (batchOf W c.1 c.2) (hwf c hc) rfl
      rw [hx] at ha; simp at ha
    · intro c hc
      obtain ⟨x, hx, h1, h2, h3⟩ := h' chunks hwf c hc
      obtain ⟨y, hy, hr⟩ := hgs (batchOf W c.1 c.2) (hwf c hc) rfl
      rw [hx] at hy
      cases hy
      exact ⟨x, hx, by rw [hr.m], h2, h3⟩
  rcases estimate_cases W hbs hid with h | h
  · exfalso
    obtain ⟨x, hx⟩ := h nLevels chunks hwf hl
    obtain ⟨acc, h1, _, _, h4, _⟩ := meanLoop_ok s sid W nLevels chunks hev hl MeanAcc.init
    unfold estimateMean at hx
    rw [if_neg (built_storage hbs (by simp)), h1] at hx
    simp only [bind, Except.bind] at hx
    rw [h4, (anyUsed_iff s sid W chunks).2 ⟨l, hsl⟩] at hx
    simp at hx
  · rcases h nLevels chunks hwf hl with ⟨h0, _⟩ | ⟨_, e, he, _⟩
    · exact absurd (h0 l) hsl
    · exact ⟨e, he⟩

theorem est_some_used [CharZero F] {sid W nLevels : Nat} {q : Quantity (Option F)} (hq : Built sid .qty q) (hid : IdsIdentify q)
    {chunks : List (Nat × List (Sample (Option F)))} (hwf : ChunksWF W chunks) (hl : ∀ c ∈ chunks, c.1 < nLevels) {e : QuantityMean F}
    (he : estimateMean q nLevels (asChunks sid W chunks) = .ok e) : ∃ l, usedValues q sid W (levelData chunks l) ≠ [] := by
  rcases estimate_cases W hq hid with h | h
  · obtain ⟨x, hx⟩ := h nLevels chunks hwf hl
    rw [he] at hx; simp at hx
  · rcases h nLevels chunks hwf hl with ⟨_, hx⟩ | ⟨h, _⟩
    · rw [he] at hx; simp at hx
    · exact h

/-- The number of rows is unique. -/
theorem goodQ_m {K : Type} [Inhabited K] {sid W m m' : Nat} {q : Quantity K} {g g'} (h : GoodQ sid W q (some (m, g)))
    (h' : GoodQ sid W q (some (m', g'))) : m = m' := by
  obtain ⟨a, ha, hr⟩ := h ⟨W, 1, []⟩ (by intro s hs; simp at hs) rfl
  obtain ⟨b, hb, hr'⟩ := h' ⟨W, 1, []⟩ (by intro s hs; simp at hs) rfl
  rw [ha] at hb
  cases hb
  rw [← hr.m, hr'.m]

theorem drop_take_positions {α : Type} (v : List α) (d : α) (start m : Nat) (h : start + m ≤ v.length) :
    (v.drop start).take m = (List.range m).map fun i => v.getD (start + i) d := by
  apply List.ext_getElem
  · simp; omega
  · intro i h1 h2
    simp only [List.length_map, List.length_range] at h2
    simp only [List.getElem_take, List.getElem_drop, List.getElem_map, List.getElem_range]
    rw [getD_lt _ _ _ (by omega)]

/-- Positions of an index are inside. -/
theorem npIndex_lt {shape : List Nat} {items : List IdxItem} {r : List Nat × List Nat} (h : npIndex shape items = .ok r) :
    ∀ i ∈ r.2, i < shape.prod := by
  induction shape generalizing items r with
  | nil =>
    cases items with
    | nil => simp [npIndex] at h; subst h; simp
    | cons i is => simp [npIndex] at h
  | cons d shape ih =>
    cases items with
    | nil => simp [npIndex] at h; subst h; simp
    | cons it items =>
      rw [npIndex] at h
      cases hr : npIndex shape items with
      | error e => rw [hr] at h; simp [bind, Except.bind] at h
      | ok r' =>
        have ih' := ih hr
        rw [hr] at h
        simp only [bind, Except.bind] at h
        have key : ∀ i, i < d → ∀ j ∈ r'.2, i * shape.prod + j < (d :: shape).prod := by
          intro i hi j hj
          rw [List.prod_cons]
          calc i * shape.prod + j < i * shape.prod + shape.prod := by have := ih' j hj; omega
            _ = (i + 1) * shape.prod := by rw [Nat.succ_mul]
            _ ≤ d * shape.prod := Nat.mul_le_mul_right _ hi
        cases it with
        | int i =>
          simp only at h
          cases hn : normIndex d i with
          | error e => rw [hn] at h; simp at h
          | ok i' =>
            rw [hn] at h
            simp only [Except.ok.injEq] at h
            subst h
            intro x hx
            obtain ⟨j, hj, rfl⟩ := List.mem_map.1 hx
            refine key i' ?_ j hj
            unfold normIndex at hn
            split at hn
            · simp at hn; omega
            · split at hn
              · simp at hn; omega
              · simp at hn
        | slice a b s =>
          simp only [Except.ok.injEq] at h
          subst h
          intro x hx
          obtain ⟨i, hi, hx⟩ := List.mem_flatMap.1 hx
          obtain ⟨j, hj, rfl⟩ := List.mem_map.1 hx
          refine key i ?_ j hj
          unfold sliceIndices at hi
          exact List.mem_range.1 (List.mem_of_mem_filter hi)

theorem take_nonarray {t : QType} (h : ∀ shape inner, t ≠ .array shape inner) (b : Brackets) (v : List (Option F)) :
    QuantityMean.take t b v = (t.getKey b).bind fun r => .ok ((v.drop r.2).take r.1.size) := by
  cases t with
  | array shape inner => exact absurd rfl (h shape inner)
  | scalar => rfl
  | bool => rfl
  | times ts inner => rfl
  | field ks inner => rfl
  | dict items => rfl

/-- Bracket access picks components at fixed positions, both of a quantity and (no tuple) of a vector of the same size. -/
theorem getitem_positions {sid W : Nat} {q r : Quantity (Option F)} {g} (o : Nat) (b : Brackets) (hg : GoodQ sid W q (some (q.size, g)))
    (hc : q.isConst = false) (h : q.getitem o b = .ok r) (hid : IdsIdentify r) {m : Nat} {g0} (hr : GoodQ sid W r (some (m, g0))) :
    (∀ x, keep sid W r x = keep sid W q x) ∧ (∃ start, q.qtype.getKey b = .ok (r.qtype, start)) ∧
    ∃ pos : List Nat, (∀ i ∈ pos, i < q.size) ∧ GoodQ sid W r (some (pos.length, fun v => pos.map fun i => (g v).getD i none)) ∧
      ((∀ items, b ≠ .idx true items) → ∀ v : List (Option F), v.length = q.size → (∀ it1 it2 its, b ≠ .idx false (it1 :: it2 :: its)) → b ≠ .idx false [] →
        QuantityMean.take q.qtype b v = .ok (pos.map fun i => v.getD i none)) := by
  unfold Quantity.getitem at h
  cases hk : q.qtype.getKey b with
  | error e => rw [hk] at h; simp [bind, Except.bind] at h
  | ok ts =>
    obtain ⟨t, start⟩ := ts
    rw [hk] at h
    simp only [bind, Except.bind] at h
    have hkeep : ∀ {op} {t' : QType}, Quantity.mk o t' op [q] = .ok r → r = .node o t' false op [q] ∧ r.selNode = q.selNode := by
      intro op t' h
      obtain ⟨rfl, hsel⟩ := mk_ok h
      exact ⟨rfl, node_selNode hid hsel (a := q) (by simp) hc⟩
    split at h
    · rename_i shape inner tup items htype
      obtain ⟨hrn, hsn⟩ := hkeep h
      refine ⟨fun x => by unfold keep; rw [hsn], ⟨start, by rw [hrn]; rfl⟩, ?_⟩
      -- the reshape needs as many rows as the shape has entries
      have hrows : q.size = shape.prod := by
        by_contra hne
        obtain ⟨a, ha, hrep⟩ := hg ⟨W, 1, []⟩ (by intro s hs; simp at hs) rfl
        obtain ⟨y, hy, _⟩ := hr ⟨W, 1, []⟩ (by intro s hs; simp at hs) rfl
        rw [hrn, on_one, ha] at hy
        simp only [Except.bind, unArr] at hy
        rw [if_neg (by rw [hrep.m]; exact hne)] at hy
        simp [Except.map] at hy
      cases hi : npIndex shape items with
      | error e =>
        exfalso
        rw [htype] at hk
        simp [QType.getKey, hi, bind, Except.bind] at hk
      | ok p =>
        refine ⟨p.2, fun i hi' => by rw [hrows]; exact npIndex_lt hi i hi', ?_, ?_⟩
        · intro B hB hw
          obtain ⟨x, hx, hxr⟩ := hg B hB hw
          refine ⟨x.pick p.2, ?_, hxr.n.trans (by rw [kept_congr hsn]), hxr.p, by simp [Arr.pick], ?_⟩
          · rw [hrn, on_one, hx]
            simp only [Except.bind, unArr]
            rw [if_pos (by rw [hxr.m, hrows]), hi]
            rfl
          · rw [kept_congr hsn]
            intro j hj k hk
            simp only [Arr.pick]
            rw [pick_map, hxr.val j hj k hk]
            rfl
        · intro htup v hv hmany hnone
          rw [htype]
          cases tup with
          | true => exact absurd rfl (htup items)
          | false =>
            match items, hi, hmany, hnone with
            | [], _, _, hnone => exact absurd rfl hnone
            | it1 :: it2 :: its, _, hmany, _ => exact absurd rfl (hmany it1 it2 its)
            | [it], hi, _, _ =>
              simp only [QuantityMean.take, hi, bind, Except.bind]
              by_cases h0 : shape.prod = 0
              · have : p.2 = [] := by
                  have := (npIndex_length hi)
                  rw [← List.length_eq_zero_iff, this.1, this.2 h0]
                rw [this]; rfl
              · have hm1 : v.length / shape.prod = 1 := by rw [hv, hrows, Nat.div_self (by omega)]
                rw [hm1]
                congr 1
                have hlt := npIndex_lt hi
                rw [hv.symm.trans hv, hrows] at hv
                clear hm1 h hr hk
                generalize p.2 = l at hlt
                induction l with
                | nil => rfl
                | cons i l ih =>
                  rw [List.flatMap_cons, List.map_cons, ih fun j hj => hlt j (by simp [hj]), Nat.mul_one]
                  have hil : i < v.length := by rw [hv]; exact hlt i (by simp)
                  rw [List.drop_eq_getElem_cons hil, getD_lt _ _ _ hil]
                  rfl
    · rename_i b _ _ hnot
      obtain ⟨hrn, hsn⟩ := hkeep h
      have harr : ∀ shape inner, q.qtype ≠ .array shape inner := by
        intro shape inner ht
        cases b with
        | key k => rw [ht] at hk; simp [QType.getKey] at hk
        | idx tup items => exact hnot shape inner tup items ht rfl
      have hin : start + t.size ≤ q.size := getKey_inside hk harr
      refine ⟨fun x => by unfold keep; rw [hsn], ⟨start, by rw [hrn]; rfl⟩, (List.range t.size).map (start + ·), ?_, ?_, ?_⟩
      · intro i hi
        obtain ⟨j, hj, rfl⟩ := List.mem_map.1 hi
        rw [List.mem_range] at hj
        omega
      · intro B hB hw
        obtain ⟨x, hx, hxr⟩ := hg B hB hw
        refine ⟨⟨x.n, x.p, (x.rows.drop start).take t.size⟩, ?_, hxr.n.trans (by rw [kept_congr hsn]), hxr.p, by simp [hxr.m]; omega, ?_⟩
        · rw [hrn, on_one, hx]; rfl
        · rw [kept_congr hsn]
          intro j hj k hk'
          have := hxr.val j hj k hk'
          simp only [List.map_take, List.map_drop]
          rw [this, List.map_map]
          apply drop_take_positions
          rw [← this, List.length_map, hxr.m]
          exact hin
      · intro _ v hv _ _
        rw [List.map_map]
        have : QuantityMean.take q.qtype b v = .ok ((v.drop start).take t.size) := by
          rw [take_nonarray harr, hk]; rfl
        rw [this, drop_take_positions v none start t.size (by rw [hv]; exact hin)]
        rfl

/-! ## C48 -/

/-- C48, indexing (partial): for data on which `q` has no NaN, indexing its estimate with a dictionary, field or time key, or with a
single array index or slice, gives the estimate of the indexed quantity.  Missing: NaN values and tuples of indices, for which it is
false (`C48_nan_counterexample`, `C48_tuple_counterexample`).  `hr` says that the indexed quantity can be evaluated at all
(see `C41_array_counterexample`). -/
theorem C48_indexing_partial [CharZero F] (sid W nLevels : Nat) (q r : Quantity (Option F)) (hq : Built sid .qty q) (o : Nat) (b : Brackets)
    (hb : (∃ k, b = .key k) ∨ ∃ it, b = .idx false [it]) (hget : q.getitem o b = .ok r) (hid : IdsIdentify r)
    (chunks : List (Nat × List (Sample (Option F)))) (hwf : ChunksWF W chunks) (hl : ∀ c ∈ chunks, c.1 < nLevels) (e er : QuantityMean F)
    (he : estimateMean q nLevels (asChunks sid W chunks) = .ok e) (hr : estimateMean r nLevels (asChunks sid W chunks) = .ok er)
    (hno : ∀ l, ∀ v ∈ levelValues q sid W (levelData chunks l), hasNan v = false) :
    e.getitem b = .ok er := by
  have hbr : Built sid .qty r := .getitem o b hq hget
  have hidq : IdsIdentify q := by
    have hget' := hget
    unfold Quantity.getitem at hget'
    cases hk : q.qtype.getKey b with
    | error x => rw [hk] at hget'; simp [bind, Except.bind] at hget'
    | ok ts =>
      rw [hk] at hget'
      simp only [bind, Except.bind] at hget'
      split at hget'
      · rw [(mk_ok hget').1] at hid; exact hid.input (by simp)
      · rw [(mk_ok hget').1] at hid; exact hid.input (by simp)
  have hc := (built_good W hq hidq).2
  obtain ⟨g, hg⟩ := est_good hq hidq hwf he
  obtain ⟨g', hg'⟩ := est_good hbr hid hwf hr
  obtain ⟨hkeep, ⟨start, hkey⟩, pos, hpos, hgp, htake⟩ := getitem_positions o b hg hc hget hid hg'
  have hsz := goodQ_m hg' hgp
  have htake' : ∀ v : List (Option F), v.length = q.size → QuantityMean.take q.qtype b v = .ok (pos.map fun i => v.getD i none) := by
    intro v hv
    rcases hb with ⟨k, rfl⟩ | ⟨it, rfl⟩
    · exact htake (by simp) v hv (by simp) (by simp)
    · exact htake (by simp) v hv (by simp) (by simp)
  have E := C46_textbook_estimators sid W nLevels q hq hidq chunks hwf hl e he
  have R := C46_textbook_estimators sid W nLevels r hbr hid chunks hwf hl er hr
  have hD := fun l => levelData_wf hwf l
  have hf : ∀ l, (levelData chunks l).filter (keep sid W r) = (levelData chunks l).filter (keep sid W q) :=
    fun l => List.filter_congr fun x _ => hkeep x
  have hnor : ∀ l, ∀ v ∈ levelValues r sid W (levelData chunks l), hasNan v = false := by
    intro l v hv
    rw [levelValues_good hgp (hD l)] at hv
    obtain ⟨x, hx, rfl⟩ := List.mem_map.1 hv
    rw [hf, List.mem_filter] at hx
    apply hasNan_of
    intro k hk y hy
    obtain ⟨i, hi, rfl⟩ := List.mem_map.1 hy
    have hv' : x.map g ∈ levelValues q sid W (levelData chunks l) := by
      rw [levelValues_good hg (hD l)]
      exact List.mem_map.2 ⟨x, List.mem_filter.2 hx, rfl⟩
    obtain ⟨z, hz⟩ := hasNan_false (hno l _ hv') k hk i (by rw [good_length hg (level_sample (hD l) hx.1).2 hx.2 k hk]; exact hpos i hi)
    rw [hz]; simp
  have hu := fun l => used_good hg (hD l) (hno l)
  have hur := fun l => used_good hgp (hD l) (hnor l)
  have hlen : ∀ l, (usedValues r sid W (levelData chunks l)).length = (usedValues q sid W (levelData chunks l)).length := by
    intro l; rw [hu, hur, hf]; simp
  have hnil : ∀ l, usedValues r sid W (levelData chunks l) = [] ↔ usedValues q sid W (levelData chunks l) = [] := by
    intro l; rw [← List.length_eq_zero_iff, hlen, List.length_eq_zero_iff]
  have hdiff : ∀ l i (hi : i < pos.length), usedDiffs r sid W l i (levelData chunks l) = usedDiffs q sid W l pos[i] (levelData chunks l) := by
    intro l i hi
    rw [usedDiffs_good hgp (hD l) (hnor l) i hi, usedDiffs_good hg (hD l) (hno l) _ (hpos _ (List.getElem_mem hi)), hf]
    apply List.map_congr_left
    intro x _
    unfold cv
    have : ∀ k, (pos.map fun i => (g (x.getD k [])).getD i none).getD i none = (g (x.getD k [])).getD pos[i] none := by
      intro k
      rw [getD_lt _ _ _ (by simpa using hi)]
      simp
    rw [this, this]
  have hmap : ∀ M N : Nat → Nat → Option F, (∀ l i (hi : i < pos.length), N l i = M l pos[i]) →
      ((List.range nLevels).map fun l => (List.range q.size).map fun i => M l i).mapM (QuantityMean.take q.qtype b) =
        .ok ((List.range nLevels).map fun l => (List.range r.size).map fun i => N l i) := by
    intro M N hMN
    rw [List.mapM_map]
    apply mapM_ok
    intro l _
    simp only [Function.comp]
    rw [htake' _ (by simp)]
    congr 1
    rw [hsz]
    apply List.ext_getElem
    · simp
    · intro i h1 h2
      simp only [List.length_map] at h1
      simp only [List.getElem_map, List.getElem_range]
      rw [hMN l i h1, getD_lt _ _ _ (by simpa using hpos _ (List.getElem_mem h1))]
      simp
  unfold QuantityMean.getitem
  rw [E.qtype, hkey]
  simp only [bind, Except.bind]
  rw [E.means, hmap _ (fun l i => if usedValues r sid W (levelData chunks l) = [] then none else some (average (usedDiffs r sid W l i (levelData chunks l))))
    (by intro l i hi; rw [hdiff l i hi]; simp only [hnil])]
  simp only
  rw [E.vars, hmap _ (fun l i => if (usedValues r sid W (levelData chunks l)).length ≤ 1 then none else
      some (sampleVar (usedDiffs r sid W l i (levelData chunks l)))) (by intro l i hi; rw [hdiff l i hi]; simp only [hlen])]
  simp only
  obtain ⟨t, ms, vs, ns, rm⟩ := er
  have h1 := R.qtype
  have h2 := R.means
  have h3 := R.vars
  have h4 := R.used
  have h5 := R.dropped
  simp only at h1 h2 h3 h4 h5
  rw [h1, h2, h3, h4, h5, E.used, E.dropped]
  simp only [hlen]
  congr 2
  apply List.map_congr_left
  intro l _
  rw [List.filter_eq_nil_iff.2 (fun v hv => by rw [hno l v hv]; simp), List.filter_eq_nil_iff.2 (fun v hv => by rw [hnor l v hv]; simp)]
  
namespace ExIdx
/-- The second of two values. -/
def r : Quantity (Option ℚ) := idxNode 9 .scalar [2] [.int 1] ExEst.q
example (e er : QuantityMean ℚ) (he : estimateMean ExEst.q 2 (asChunks 7 2 ExEst.tele) = .ok e)
    (hr : estimateMean r 2 (asChunks 7 2 ExEst.tele) = .ok er) : e.getitem (.idx false [.int 1]) = .ok er :=
  C48_indexing_partial 7 2 2 ExEst.q r ExEst.built 9 (.idx false [.int 1]) (.inr ⟨_, rfl⟩) rfl
    (by intro a ha; simp [r, idxNode, ExEst.q, Quantity.selections, Quantity.selectionsList] at ha)
    ExEst.tele ExEst.teleWf (by decide +kernel) e er he hr
    (by
      intro l
      match l with
      | 0 => decide +kernel
      | 1 => decide +kernel
      | l + 2 => simp [levelData, ExEst.tele, levelValues])
example : (estimateMean r 2 (asChunks 7 2 ExEst.tele)).toOption.isSome := rfl

/-- A 2x2 array. -/
def q22 : Quantity (Option ℚ) := .storage 7 (.array [2, 2] .scalar)
def r22 : Quantity (Option ℚ) := idxNode 9 .scalar [2, 2] [.int 0, .int 1] q22
def data22 : List (Nat × List (Sample (Option ℚ))) := [(0, [[[some 1, some 2, some 3, some 4]]])]
end ExIdx

/-- Witness against C48: one sample has a NaN in the first value, another does not.  The estimate of the pair, indexed at the second
value, drops the sample; the estimate of the second value alone uses it. -/
theorem C48_nan_counterexample :
    let chunks : List (Nat × List (Sample (Option ℚ))) := [(0, [[[none, some 2]], [[some 3, some 4]]])]
    ∃ e er ei, estimateMean ExEst.q 1 (asChunks 7 2 chunks) = .ok e ∧ ExEst.q.getitem 9 (.idx false [.int 1]) = .ok ExIdx.r ∧
      estimateMean ExIdx.r 1 (asChunks 7 2 chunks) = .ok er ∧ e.getitem (.idx false [.int 1]) = .ok ei ∧
      ei.mean = [some 4] ∧ er.mean = [some 3] :=
  ⟨_, _, _, rfl, rfl, rfl, rfl, by decide +kernel, by decide +kernel⟩

/-- Witness against C48: `mean[0, 1]` of a 2x2 array takes the rows 0 and 1 (the whole array) instead of the entry in row 0, column 1;
the type still says that it is a scalar. -/
theorem C48_tuple_counterexample :
    ∃ e er ei, estimateMean ExIdx.q22 1 (asChunks 7 4 ExIdx.data22) = .ok e ∧
      ExIdx.q22.getitem 9 (.idx true [.int 0, .int 1]) = .ok ExIdx.r22 ∧
      estimateMean ExIdx.r22 1 (asChunks 7 4 ExIdx.data22) = .ok er ∧ e.getitem (.idx true [.int 0, .int 1]) = .ok ei ∧
      er.lMeans = [[some 2]] ∧ ei.lMeans = [[some 1, some 2, some 3, some 4]] :=
  ⟨_, _, _, rfl, rfl, rfl, rfl, by decide +kernel, by decide +kernel⟩

end MLMC
