import Verif.Spec.MomentParts
import Verif.Proofs.MomentsLinear
/-! # C153 Estimates of a part can be taken from estimates of the whole -/
namespace MLMC
variable {F : Type} [Field F]

/-- Entries of an estimate are the estimate of the quantity with these components. -/
theorem select_estimate {sid W nLevels : Nat} {Q R : Quantity (Option F)} {data : Nat → List (Sample (Option F))} {e er : QuantityMean F}
    (E : IsEstimate Q sid W nLevels data e) (R' : IsEstimate R sid W nLevels data er) (b : Brackets) (start : Nat) (hkey : Q.qtype.getKey b = .ok (R.qtype, start))
    (pos : List Nat) (hpos : ∀ i ∈ pos, i < Q.size) (hsz : R.size = pos.length)
    (htake : ∀ v : List (Option F), v.length = Q.size → QuantityMean.take Q.qtype b v = .ok (pos.map fun i => v.getD i none))
    (hlen : ∀ l, (usedValues R sid W (data l)).length = (usedValues Q sid W (data l)).length)
    (hdrop : ∀ l, ((levelValues R sid W (data l)).filter hasNan).length = ((levelValues Q sid W (data l)).filter hasNan).length)
    (hdiff : ∀ l i (hi : i < pos.length), usedDiffs R sid W l i (data l) = usedDiffs Q sid W l pos[i] (data l)) : e.getitem b = .ok er := by
  have hnil : ∀ l, usedValues R sid W (data l) = [] ↔ usedValues Q sid W (data l) = [] := by
    intro l; rw [← List.length_eq_zero_iff, hlen, List.length_eq_zero_iff]
  have hmap : ∀ M N : Nat → Nat → Option F, (∀ l i (hi : i < pos.length), N l i = M l pos[i]) →
      ((List.range nLevels).map fun l => (List.range Q.size).map fun i => M l i).mapM (QuantityMean.take Q.qtype b) =
        .ok ((List.range nLevels).map fun l => (List.range R.size).map fun i => N l i) := by
    intro M N hMN
    rw [List.mapM_map]
    apply mapM_ok
    intro l _
    simp only [Function.comp]
    rw [htake _ (by simp)]
    congr 1
    rw [hsz]
    apply List.ext_getElem
    · simp
    · intro i h1 h2
      simp only [List.length_map] at h1
      simp only [List.getElem_map, List.getElem_range]
      rw [hMN l i h1, getD_lt _ _ _ (by simpa using hpos _ (List.getElem_mem h1))]
      simp
  unfold QuantityMean.getitem
  rw [E.qtype, hkey]
  simp only [bind, Except.bind]
  rw [E.means, hmap _ (fun l i => if usedValues R sid W (data l) = [] then none else some (average (usedDiffs R sid W l i (data l))))
    (by intro l i hi; rw [hdiff l i hi]; simp only [hnil])]
  simp only
  rw [E.vars, hmap _ (fun l i => if (usedValues R sid W (data l)).length ≤ 1 then none else
      some (sampleVar (usedDiffs R sid W l i (data l)))) (by intro l i hi; rw [hdiff l i hi]; simp only [hlen])]
  simp only
  obtain ⟨t, ms, vs, ns, rm⟩ := er
  have h1 := R'.qtype
  have h2 := R'.means
  have h3 := R'.vars
  have h4 := R'.used
  have h5 := R'.dropped
  simp only at h1 h2 h3 h4 h5
  rw [h1, h2, h3, h4, h5, E.used, E.dropped]
  simp only [hlen, hdrop]

/-- The same from the values of both quantities on single samples. -/
theorem values_select [CharZero F] {sid W nLevels M N : Nat} {Q R : Quantity (Option F)} {G G' : List (Option F) → List (Option F)} {chunks : List (Nat × List (Sample (Option F)))}
    (hwf : ChunksWF W chunks) {e er : QuantityMean F} (E : IsEstimate Q sid W nLevels (levelData chunks) e) (R' : IsEstimate R sid W nLevels (levelData chunks) er)
    (hQ : GoodQ sid W Q (some (M, G))) (hR : GoodQ sid W R (some (N, G'))) (hM : M = Q.size) (hN : N = R.size) (hkeep : ∀ x, keep sid W R x = keep sid W Q x)
    (b : Brackets) (start : Nat) (hkey : Q.qtype.getKey b = .ok (R.qtype, start))
    (pos : List Nat) (hpos : ∀ i ∈ pos, i < Q.size) (hsz : R.size = pos.length)
    (htake : ∀ v : List (Option F), v.length = Q.size → QuantityMean.take Q.qtype b v = .ok (pos.map fun i => v.getD i none))
    (hval : ∀ s : Sample (Option F), (⟨W, s.length, [s]⟩ : Batch (Option F)).WF → keep sid W Q s = true → ∀ k < s.length, G' (s.getD k []) = pos.map fun i => (G (s.getD k [])).getD i none)
    (hnan : ∀ l, SameNan Q R sid W (levelData chunks l)) : e.getitem b = .ok er := by
  subst hM hN
  have hD := fun l => levelData_wf hwf l
  have hf : ∀ l, (levelData chunks l).filter (keep sid W R) = (levelData chunks l).filter (keep sid W Q) :=
    fun l => List.filter_congr fun x _ => hkeep x
  have hsn : ∀ l, ∀ s ∈ (levelData chunks l).filter (keep sid W Q), hasNan (s.map G') = hasNan (s.map G) := by
    intro l s hs
    rw [List.mem_filter] at hs
    have hw := (level_sample (hD l) hs.1).2
    exact (hnan l s hs.1 _ _ (by rw [perSample_of_good hQ s hw, if_pos hs.2]) (by rw [perSample_of_good hR s hw, if_pos ((hkeep s).trans hs.2)])).symm
  have hff : ∀ l, (((levelData chunks l).filter (keep sid W R)).filter fun s => !hasNan (s.map G')) = ((levelData chunks l).filter (keep sid W Q)).filter fun s => !hasNan (s.map G) := by
    intro l
    rw [hf]
    exact List.filter_congr fun s hs => by rw [hsn l s hs]
  refine select_estimate E R' b start hkey pos hpos hsz htake ?_ ?_ ?_
  · intro l
    rw [usedValues_gen hQ (hD l), usedValues_gen hR (hD l), hff, List.length_map, List.length_map]
  · intro l
    rw [levelValues_good hQ (hD l), levelValues_good hR (hD l), List.filter_map, List.filter_map, List.length_map, List.length_map, hf]
    congr 1
    exact List.filter_congr fun s hs => hsn l s hs
  · intro l i hi
    rw [usedDiffs_gen hR (hD l) i (by rw [hsz]; exact hi), usedDiffs_gen hQ (hD l) _ (hpos _ (List.getElem_mem hi)), hff]
    apply List.map_congr_left
    intro s hs
    rw [List.mem_filter, List.mem_filter] at hs
    have hw := level_sample (hD l) hs.1.1
    have hv := hval s hw.2 hs.1.2
    unfold cv
    have : ∀ k < s.length, (G' (s.getD k [])).getD i none = (G (s.getD k [])).getD pos[i] none := by
      intro k hk
      rw [hv k hk, getD_lt _ _ _ (by simpa using hi)]
      simp
    by_cases h0 : l = 0
    · rw [if_pos h0] at hw
      rw [if_pos h0, if_pos h0, this 0 (by omega)]
    · rw [if_neg h0] at hw
      rw [if_neg h0, if_neg h0, this 0 (by omega), this 1 (by omega)]

/-- Brackets on a type with another base. -/
theorem replace_getKey (s : QType) {t t1 : QType} {b : Brackets} {st : Nat} (h : t.getKey b = .ok (t1, st)) :
    (t.replaceScalar s).getKey b = .ok (t1.replaceScalar s, st * s.size) := by
  cases t with
  | scalar => simp [QType.getKey] at h
  | bool => simp [QType.getKey] at h
  | array shape inner =>
    cases b with
    | key k => simp [QType.getKey] at h
    | idx tup items =>
      simp only [QType.getKey, QType.replaceScalar] at h ⊢
      cases hi : npIndex shape items with
      | error e => rw [hi] at h; simp [bind, Except.bind] at h
      | ok r =>
        rw [hi] at h
        simp only [bind, Except.bind, Except.ok.injEq, Prod.mk.injEq] at h ⊢
        obtain ⟨rfl, rfl⟩ := h
        refine ⟨?_, by simp⟩
        split <;> split <;> first | rfl | (rename_i h1 h2; exact absurd h1 h2) | (rename_i h1 h2; exact absurd h2 h1)
  | times ts inner =>
    cases b with
    | idx tup items => simp [QType.getKey] at h
    | key k =>
      cases k with
      | str k => simp [QType.getKey] at h
      | point k => simp [QType.getKey] at h
      | num k =>
        simp only [QType.getKey, QType.replaceScalar] at h ⊢
        split at h
        · rename_i hk
          rw [if_pos hk]
          simp only [Except.ok.injEq, Prod.mk.injEq] at h
          obtain ⟨rfl, rfl⟩ := h
          rw [size_replaceScalar, Nat.mul_assoc]
        · simp at h
  | field ks inner =>
    cases b with
    | idx tup items => simp [QType.getKey] at h
    | key k =>
      simp only [QType.getKey, QType.replaceScalar] at h ⊢
      split at h
      · rename_i hk
        rw [if_pos hk]
        simp only [Except.ok.injEq, Prod.mk.injEq] at h
        obtain ⟨rfl, rfl⟩ := h
        rw [size_replaceScalar, Nat.mul_assoc]
      · simp at h
  | dict items =>
    cases b with
    | idx tup is => simp [QType.getKey] at h
    | key k =>
      simp only [QType.getKey, QType.replaceScalar] at h ⊢
      have hget : ∀ items : List (PartKey × QType), Dict.get? (QType.replaceItems items s) k = (Dict.get? items k).map fun q => q.replaceScalar s := by
        intro items
        induction items with
        | nil => rfl
        | cons x items ih =>
          obtain ⟨k', q⟩ := x
          rw [QType.replaceItems]
          rw [Dict.get?, Dict.get?]
          by_cases hk : k' = k
          · rw [if_pos hk, if_pos hk]; rfl
          · rw [if_neg hk, if_neg hk, ih]
      have hst : ∀ items : List (PartKey × QType), QType.sizeItems ((QType.replaceItems items s).takeWhile fun x => x.1 ≠ k) =
          QType.sizeItems (items.takeWhile fun x => x.1 ≠ k) * s.size := by
        intro items
        induction items with
        | nil => simp [QType.replaceItems, QType.sizeItems]
        | cons x items ih =>
          obtain ⟨k', q⟩ := x
          rw [QType.replaceItems, List.takeWhile_cons, List.takeWhile_cons]
          by_cases hk : k' = k
          · simp [hk, QType.sizeItems]
          · simp only [hk, ne_eq, not_false_eq_true, decide_true, if_true, QType.sizeItems]
            rw [ih, size_replaceScalar, Nat.add_mul]
      rw [hget, hst]
      cases hg : Dict.get? items k with
      | none => rw [hg] at h; simp at h
      | some q =>
        rw [hg] at h
        simp only [Except.ok.injEq, Prod.mk.injEq] at h
        obtain ⟨rfl, rfl⟩ := h
        rfl

/-- Positions of the blocks of `R` numbers at the positions `pos`. -/
def blocks (R : Nat) (pos : List Nat) : List Nat := pos.flatMap fun i => (List.range R).map fun j => i * R + j

theorem block_lt {n R i j : Nat} (hi : i < n) (hj : j < R) : i * R + j < n * R := by
  have : (i + 1) * R ≤ n * R := Nat.mul_le_mul_right _ hi
  rw [Nat.succ_mul] at this
  omega

theorem blocks_lt {n R : Nat} {pos : List Nat} (h : ∀ i ∈ pos, i < n) : ∀ i ∈ blocks R pos, i < n * R := by
  intro i hi
  obtain ⟨k, hk, hi⟩ := List.mem_flatMap.1 hi
  obtain ⟨j, hj, rfl⟩ := List.mem_map.1 hi
  exact block_lt (h k hk) (List.mem_range.1 hj)

theorem blocks_length (R : Nat) (pos : List Nat) : (blocks R pos).length = pos.length * R := by
  simp [blocks, List.length_flatMap]

theorem blocks_map {α : Type} (R : Nat) (pos : List Nat) (f : Nat → α) : (blocks R pos).map f = pos.flatMap fun i => (List.range R).map fun j => f (i * R + j) := by
  simp [blocks, List.map_flatMap, Function.comp_def]

theorem blocks_range (n R start : Nat) : blocks R ((List.range n).map (start + ·)) = (List.range (n * R)).map (start * R + ·) := by
  induction n with
  | zero => simp [blocks]
  | succ n ih =>
    rw [List.range_succ, List.map_append, blocks, List.flatMap_append, ← blocks, ih, Nat.succ_mul, List.range_add, List.map_append]
    congr 1
    simp [Nat.add_mul, Nat.add_assoc]

/-- Entries of an estimate whose type has blocks for scalars. -/
theorem take_blocks [CharZero F] {t : QType} {b : Brackets} (s : QType) (hb : b.Single) {t1 : QType} {st : Nat} (hkey : t.getKey b = .ok (t1, st)) (pos : List Nat)
    (hpos : ∀ i ∈ pos, i < t.size) (harr : ∀ shape inner, t = .array shape inner → t.size = shape.prod)
    (htake : ∀ v : List (Option F), v.length = t.size → QuantityMean.take t b v = .ok (pos.map fun i => v.getD i none))
    (w : List (Option F)) (hw : w.length = t.size * s.size) : QuantityMean.take (t.replaceScalar s) b w = .ok ((blocks s.size pos).map fun i => w.getD i none) := by
  -- the positions are those of the numbers 0, 1, 2, …
  have huniq : ∀ pos' : List Nat, (∀ i ∈ pos', i < t.size) → (∀ v : List (Option F), v.length = t.size → QuantityMean.take t b v = .ok (pos'.map fun i => v.getD i none)) → pos' = pos := by
    intro pos' hp' h'
    let v : List (Option F) := (List.range t.size).map fun i : Nat => some (i : F)
    have h1 := (htake v (by simp [v])).symm.trans (h' v (by simp [v]))
    have hv : ∀ i, i < t.size → v.getD i none = some (i : F) := fun i hi => by rw [getD_lt _ _ _ (by simpa [v] using hi)]; simp [v]
    have h2 : pos'.map (fun i : Nat => some (i : F)) = pos.map fun i : Nat => some (i : F) := by
      rw [← List.map_congr_left fun i hi => hv i (hp' i hi), ← List.map_congr_left fun i hi => hv i (hpos i hi)]
      simpa using h1.symm
    exact (List.map_injective_iff.2 (fun a b h => by simpa using h) : Function.Injective (List.map fun i : Nat => some (i : F))) h2
  by_cases ha : ∃ shape inner, t = .array shape inner
  · obtain ⟨shape, inner, rfl⟩ := ha
    rcases hb with ⟨k, rfl⟩ | ⟨it, rfl⟩
    · simp [QType.getKey] at hkey
    cases hi : npIndex shape [it] with
    | error e => simp [QType.getKey, hi, bind, Except.bind] at hkey
    | ok p =>
      have hsz := harr _ _ rfl
      have hlt := npIndex_lt hi
      rcases Nat.eq_zero_or_pos shape.prod with h0 | h0
      · have hp : pos = [] := by
          cases pos with
          | nil => rfl
          | cons i pos => exact absurd (hpos i (by simp)) (by omega)
        have hp2 : p.2 = [] := by
          cases h2 : p.2 with
          | nil => rfl
          | cons i l => exact absurd (hlt i (by simp [h2])) (by omega)
        simp only [QuantityMean.take, QType.replaceScalar, hi, bind, Except.bind, hp2, hp]
        rfl
      · have hpp : p.2 = pos := by
          refine huniq p.2 (fun i hi' => by rw [hsz]; exact hlt i hi') ?_
          intro v hv
          simp only [QuantityMean.take, hi, bind, Except.bind]
          rw [hv, hsz, Nat.div_self h0]
          congr 1
          rw [List.map_eq_flatMap]
          apply List.flatMap_congr
          intro i hi'
          rw [drop_take_positions v none _ _ (by have := hlt i hi'; omega)]
          simp
        have hdiv : w.length / shape.prod = s.size := by rw [hw, hsz, Nat.mul_div_cancel_left _ h0]
        simp only [QuantityMean.take, QType.replaceScalar, hi, bind, Except.bind]
        rw [hdiv, hpp, blocks_map]
        congr 1
        apply List.flatMap_congr
        intro i hi'
        have : (i + 1) * s.size ≤ (QType.array shape inner).size * s.size := Nat.mul_le_mul_right _ (hpos i hi')
        rw [Nat.succ_mul] at this
        rw [drop_take_positions w none _ _ (by omega)]
  · have hna : ∀ shape inner, t ≠ .array shape inner := fun shape inner h => ha ⟨shape, inner, h⟩
    have hna' : ∀ shape inner, t.replaceScalar s ≠ .array shape inner := by
      intro shape inner h
      cases t with
      | scalar => simp [QType.getKey] at hkey
      | bool => simp [QType.getKey] at hkey
      | array shape inner => exact hna _ _ rfl
      | times ts inner => simp [QType.replaceScalar] at h
      | field ts inner => simp [QType.replaceScalar] at h
      | dict items => simp [QType.replaceScalar] at h
    have hin := getKey_inside hkey hna
    have hpp : (List.range t1.size).map (st + ·) = pos := by
      refine huniq _ (fun i hi => ?_) ?_
      · obtain ⟨j, hj, rfl⟩ := List.mem_map.1 hi
        rw [List.mem_range] at hj
        omega
      · intro v hv
        rw [take_nonarray hna, hkey]
        simp only [Except.bind]
        rw [drop_take_positions v none _ _ (by omega), List.map_map]
        rfl
    rw [take_nonarray hna', replace_getKey s hkey]
    simp only [Except.bind]
    rw [size_replaceScalar, ← hpp, blocks_range, List.map_map, drop_take_positions w none]
    · rfl
    · rw [hw, ← Nat.add_mul]
      exact Nat.mul_le_mul_right _ hin

/-- An array that can be indexed evaluates to one row per entry. -/
theorem getitem_rows {sid W : Nat} {q r : Quantity (Option F)} {g} {o : Nat} {b : Brackets} (hg : GoodQ sid W q (some (q.size, g))) (h : q.getitem o b = .ok r) {m : Nat} {g0}
    (hr : GoodQ sid W r (some (m, g0))) : ∀ shape inner, q.qtype = .array shape inner → q.qtype.size = shape.prod := by
  intro shape inner htype
  unfold Quantity.getitem at h
  cases b with
  | key k => rw [htype] at h; simp [QType.getKey, bind, Except.bind] at h
  | idx tup items =>
    cases hk : q.qtype.getKey (.idx tup items) with
    | error e => rw [hk] at h; simp [bind, Except.bind] at h
    | ok ts =>
      rw [hk] at h
      simp only [bind, Except.bind, htype] at h
      have hrn := (mk_ok h).1
      by_contra hne
      obtain ⟨a, ha, hrep⟩ := hg ⟨W, 1, []⟩ (by intro s hs; simp at hs) rfl
      obtain ⟨y, hy, _⟩ := hr ⟨W, 1, []⟩ (by intro s hs; simp at hs) rfl
      rw [hrn, on_one, ha] at hy
      simp only [Except.bind, unArr] at hy
      rw [if_neg (by rw [hrep.m]; exact hne)] at hy
      simp [Except.map] at hy

theorem ids_of_getitem {K : Type} [Inhabited K] {q r : Quantity K} {o : Nat} {b : Brackets} (h : q.getitem o b = .ok r) (hid : IdsIdentify r) : IdsIdentify q := by
  unfold Quantity.getitem at h
  cases hk : q.qtype.getKey b with
  | error x => rw [hk] at h; simp [bind, Except.bind] at h
  | ok ts =>
    rw [hk] at h
    simp only [bind, Except.bind] at h
    split at h
    · rw [(mk_ok h).1] at hid; exact hid.input (by simp)
    · rw [(mk_ok h).1] at hid; exact hid.input (by simp)

/-- C48, indexing in data with NaN: indexing an estimate gives the estimate of the indexed quantity if every sample with a NaN has one in the part. -/
theorem C48_indexing_nan_partial [CharZero F] (sid W nLevels : Nat) (q r : Quantity (Option F)) (hq : Built sid .qty q) (o : Nat) (b : Brackets) (hb : b.Single)
    (hget : q.getitem o b = .ok r) (hid : IdsIdentify r) (chunks : List (Nat × List (Sample (Option F)))) (hwf : ChunksWF W chunks) (hl : ∀ c ∈ chunks, c.1 < nLevels) (e er : QuantityMean F)
    (he : estimateMean q nLevels (asChunks sid W chunks) = .ok e) (hr : estimateMean r nLevels (asChunks sid W chunks) = .ok er)
    (hnan : ∀ l, SameNan q r sid W (levelData chunks l)) : e.getitem b = .ok er := by
  have hidq := ids_of_getitem hget hid
  have hbr : Built sid .qty r := .getitem o b hq hget
  obtain ⟨g, hg⟩ := est_good hq hidq hwf he
  obtain ⟨g', hg'⟩ := est_good hbr hid hwf hr
  obtain ⟨hkeep, ⟨start, hkey⟩, pos, hpos, hgp, htake⟩ := getitem_positions o b hg (built_good W hq hidq).2 hget hid hg'
  have hsz := goodQ_m hg' hgp
  refine values_select hwf (C46_textbook_estimators sid W nLevels q hq hidq chunks hwf hl e he) (C46_textbook_estimators sid W nLevels r hbr hid chunks hwf hl er hr) hg hgp rfl hsz.symm hkeep b
    start hkey pos hpos hsz ?_ (fun _ _ _ _ _ => rfl) hnan
  intro v hv
  rcases hb with ⟨k, rfl⟩ | ⟨it, rfl⟩
  · exact htake (by simp) v hv (by simp) (by simp)
  · exact htake (by simp) v hv (by simp) (by simp)

/-- C153: with moments at the bottom, an entry of the estimated moments of a quantity is the estimate of the moments of that entry, with means, variances and numbers of samples, if no sample
is dropped from one of them only (in particular if no moment is NaN). -/
theorem C153_part_of_moments [CharZero F] (sid W nLevels : Nat) (q r mq mr : Quantity (Option F)) (hq : Built sid .qty q) (o oq or' : Nat) (b : Brackets) (hb : b.Single)
    (hget : q.getitem o b = .ok r) (hid : IdsIdentify r) (fn : MomentFn (Option F)) (hR : 0 < fn.size) (hmq : q.moments oq fn true = .ok mq) (hmr : r.moments or' fn true = .ok mr)
    (chunks : List (Nat × List (Sample (Option F)))) (hwf : ChunksWF W chunks) (hl : ∀ c ∈ chunks, c.1 < nLevels) (e er : QuantityMean F)
    (he : estimateMean mq nLevels (asChunks sid W chunks) = .ok e) (hr : estimateMean mr nLevels (asChunks sid W chunks) = .ok er)
    (hnan : ∀ l, SameNan mq mr sid W (levelData chunks l)) : e.getitem b = .ok er := by
  have hidq := ids_of_getitem hget hid
  have hbr : Built sid .qty r := .getitem o b hq hget
  obtain ⟨M, g, hg⟩ := mom_res hq hidq hmq hwf he
  obtain ⟨hbmq, hidmq, hszq, rfl, hgmq, hkq⟩ := mom_good hq hidq hg hR hmq hwf he
  obtain ⟨Mr, gr, hgr⟩ := mom_res hbr hid hmr hwf hr
  obtain ⟨hkeep, ⟨start, hkey⟩, pos, hpos, hgp, htake⟩ := getitem_positions o b hg (built_good W hq hidq).2 hget hid hgr
  obtain ⟨hbmr, hidmr, hszr, hlen, hgmr, hkr⟩ := mom_good hbr hid hgp hR hmr hwf hr
  have hsR : (QType.array [fn.size] .scalar).size = fn.size := by simp [QType.size]
  have htq : mq.qtype = q.qtype.replaceScalar (.array [fn.size] .scalar) := by rw [(mk_ok hmq).1]; rfl
  have htr : mr.qtype = r.qtype.replaceScalar (.array [fn.size] .scalar) := by rw [(mk_ok hmr).1]; rfl
  refine values_select hwf (C46_textbook_estimators sid W nLevels mq hbmq hidmq chunks hwf hl e he) (C46_textbook_estimators sid W nLevels mr hbmr hidmr chunks hwf hl er hr) hgmq hgmr hszq.symm
    (by rw [hszr, hlen]) (fun x => by rw [hkr, hkq, hkeep]) b (start * fn.size) (by rw [htq, htr, replace_getKey _ hkey, hsR]) (blocks fn.size pos)
    (by rw [hszq]; exact blocks_lt hpos) (by rw [hszr, blocks_length, hlen]) ?_ ?_ hnan
  · intro v hv
    rw [htq]
    rw [hszq] at hv
    have := take_blocks (F := F) (.array [fn.size] .scalar) hb hkey pos hpos (getitem_rows hg hget hgr) (fun v hv => by
      rcases hb with ⟨k, rfl⟩ | ⟨it, rfl⟩
      · exact htake (by simp) v hv (by simp) (by simp)
      · exact htake (by simp) v hv (by simp) (by simp)) v (by rw [hsR]; exact hv)
    rw [this, hsR]
  · intro s hs hk k hks
    have hl1 := good_length hg hs ((hkq s).symm.trans hk) k hks
    generalize s.getD k [] = u at hl1 ⊢
    rw [blocks_map]
    simp only [momVec, if_true, List.flatMap_map]
    apply List.flatMap_congr
    intro i hi
    apply List.map_congr_left
    intro j hj
    have := momVec_getD fn true (g u) i j (by rw [hl1]; exact hpos i hi) (List.mem_range.1 hj)
    simp only [momRow, momVec, if_true] at this
    rw [this]

/-- The number of rows of a part. -/
theorem getitem_size {sid W : Nat} {q r : Quantity (Option F)} {g} {o : Nat} {b : Brackets} (hg : GoodQ sid W q (some (q.size, g))) (h : q.getitem o b = .ok r) {m : Nat} {g0}
    (hr : GoodQ sid W r (some (m, g0))) : m = r.size := by
  obtain ⟨x, hx', hrep⟩ := hg ⟨W, 1, []⟩ (by intro s hs; simp at hs) rfl
  obtain ⟨y, hy, hyr⟩ := hr ⟨W, 1, []⟩ (by intro s hs; simp at hs) rfl
  have hx := hrep.m
  rw [← hyr.m]
  unfold Quantity.getitem at h
  cases hk : q.qtype.getKey b with
  | error e => rw [hk] at h; simp [bind, Except.bind] at h
  | ok ts =>
    obtain ⟨t, start⟩ := ts
    rw [hk] at h
    simp only [bind, Except.bind] at h
    split at h
    · rename_i shape inner tup items hqt
      rw [(mk_ok h).1] at hy ⊢
      rw [on_one, hx'] at hy
      simp only [Except.bind, unArr] at hy
      by_cases hlen : x.rows.length = shape.prod
      · rw [if_pos hlen] at hy
        rw [hqt, QType.getKey] at hk
        cases hn : npIndex shape items with
        | error e => rw [hn] at hy; simp [Except.map] at hy
        | ok r =>
          rw [hn] at hy hk
          simp [Except.map] at hy
          subst hy
          obtain ⟨h1, h2⟩ := npIndex_length hn
          simp only [bind, Except.bind, Except.ok.injEq, Prod.mk.injEq] at hk
          rw [hlen, Quantity.size, hqt, QType.size] at hx
          simp only [Arr.pick, List.length_map, h1, Quantity.size, Quantity.qtype]
          rw [← hk.1]
          by_cases h0 : shape.prod = 0
          · have h3 := h2 h0
            have hr1 : r.1 ≠ [] := by intro e; rw [e] at h3; simp at h3
            have hr2 : r.1 ≠ [1] := by intro e; rw [e] at h3; simp at h3
            simp [hr1, hr2, QType.size, h3]
          · have hi : inner.size = 1 := by
              have : shape.prod * inner.size = shape.prod * 1 := by omega
              exact Nat.eq_of_mul_eq_mul_left (Nat.pos_of_ne_zero h0) this
            by_cases hr2 : r.1 = [1]
            · simp [hr2, hi]
            · by_cases hr1 : r.1 = []
              · simp [hr1, hi]
              · simp [hr1, hr2, QType.size, hi]
      · rw [if_neg hlen] at hy; simp [Except.map] at hy
    · rename_i k _ _ hno
      rw [(mk_ok h).1] at hy ⊢
      rw [on_one, hx'] at hy
      simp only [Except.bind, unArr, Except.map, Except.ok.injEq, QVal.arr.injEq] at hy
      subst hy
      have hnot : ∀ shape inner, q.qtype ≠ .array shape inner := by
        intro shape inner hq
        cases k with
        | idx tup items => exact hno shape inner tup items hq rfl
        | key k => rw [hq] at hk; simp [QType.getKey] at hk
      have := getKey_inside hk hnot
      simp only [List.length_take, List.length_drop, hx, Quantity.size, Quantity.qtype] at this ⊢
      omega

/-- If a part evaluates, the whole does. -/
theorem getitem_res {sid W : Nat} {q r : Quantity (Option F)} {o : Nat} {b : Brackets} (hq : Built sid .qty q) (hidq : IdsIdentify q) (h : q.getitem o b = .ok r) {m : Nat} {g0}
    (hr : GoodQ sid W r (some (m, g0))) : ∃ M g, GoodQ sid W q (some (M, g)) := by
  obtain ⟨⟨res, hres⟩, -⟩ := built_good W hq hidq
  cases res with
  | some mg => exact ⟨mg.1, mg.2, hres⟩
  | none =>
    exfalso
    obtain ⟨x, hx⟩ := hres ⟨W, 1, []⟩ (by intro s hs; simp at hs) rfl
    obtain ⟨y, hy, _⟩ := hr ⟨W, 1, []⟩ (by intro s hs; simp at hs) rfl
    unfold Quantity.getitem at h
    cases hk : q.qtype.getKey b with
    | error e => rw [hk] at h; simp [bind, Except.bind] at h
    | ok ts =>
      rw [hk] at h
      simp only [bind, Except.bind] at h
      split at h <;> (rw [(mk_ok h).1, on_one, hx] at hy; simp [Except.bind] at hy)

theorem selects_ids {K : Type} [Inhabited K] {q r : Quantity K} {bs : List Brackets} (h : SelectsPart q bs r) : IdsIdentify r → IdsIdentify q := by
  induction h with
  | nil q => exact id
  | cons o b bs hg _ ih => exact fun hid => ids_of_getitem hg (ih hid)

theorem selects_res {sid W : Nat} {q r : Quantity (Option F)} {bs : List Brackets} (h : SelectsPart q bs r) (hid : IdsIdentify r) {m : Nat} {g0} (hr : GoodQ sid W r (some (m, g0))) :
    Built sid .qty q → ∃ M g, GoodQ sid W q (some (M, g)) := by
  induction h with
  | nil q => exact fun _ => ⟨_, _, hr⟩
  | cons o b bs hg hs ih =>
    intro hq
    obtain ⟨M, g, h1⟩ := ih hid hr (.getitem o b hq hg)
    exact getitem_res hq (ids_of_getitem hg (selects_ids hs hid)) hg h1

/-- A part selected in several steps consists of components of the whole. -/
theorem selects_positions {sid W : Nat} {q r : Quantity (Option F)} {bs : List Brackets} (h : SelectsPart q bs r) (hid : IdsIdentify r) {m : Nat} {g0} (hr : GoodQ sid W r (some (m, g0))) :
    ∀ {g}, Built sid .qty q → GoodQ sid W q (some (q.size, g)) → (∀ x, keep sid W r x = keep sid W q x) ∧
      ∃ pos : List Nat, (∀ i ∈ pos, i < q.size) ∧ pos.length = r.size ∧ ∃ g', GoodQ sid W r (some (r.size, g')) ∧
        ∀ s : Sample (Option F), (⟨W, s.length, [s]⟩ : Batch (Option F)).WF → keep sid W q s = true → ∀ k < s.length, g' (s.getD k []) = pos.map fun i => (g (s.getD k [])).getD i none := by
  induction h with
  | nil q =>
    intro g hq hg
    refine ⟨fun _ => rfl, List.range q.size, by simp, by simp, g, hg, fun s hs hk k hks => ?_⟩
    have hl := good_length hg hs hk k hks
    apply List.ext_getElem (by rw [hl, List.length_map, List.length_range])
    intro i h1 h2
    simp only [List.getElem_map, List.getElem_range]
    rw [getD_lt _ _ _ h1]
  | @cons q q1 r o b bs hg1 hs ih =>
    intro g hq hg
    have hid1 := selects_ids hs hid
    have hq1 : Built sid .qty q1 := .getitem o b hq hg1
    obtain ⟨M, g1, h1⟩ := selects_res hs hid hr hq1
    obtain ⟨hk1, -, pos1, hp1, hgp1, -⟩ := getitem_positions o b hg (built_good W hq (ids_of_getitem hg1 hid1)).2 hg1 hid1 h1
    have hsz := getitem_size hg hg1 hgp1
    rw [hsz] at hgp1
    obtain ⟨hk2, pos2, hp2, hl2, g', hg', hv⟩ := ih hid hr hq1 hgp1
    refine ⟨fun x => (hk2 x).trans (hk1 x), pos2.map fun i => pos1.getD i 0, ?_, by simpa using hl2, g', hg', ?_⟩
    · intro i hi
      obtain ⟨j, hj, rfl⟩ := List.mem_map.1 hi
      have := hp2 j hj
      rw [getD_lt _ _ _ (by omega)]
      exact hp1 _ (List.getElem_mem _)
    · intro s hs' hk k hks
      rw [hv s hs' ((hk1 s).trans hk) k hks, List.map_map]
      apply List.map_congr_left
      intro j hj
      have := hp2 j hj
      simp only [Function.comp]
      rw [getD_lt _ _ _ (by simp; omega), getD_lt pos1 _ _ (by omega)]
      simp

theorem selects_built {sid : Nat} {q r : Quantity (Option F)} {bs : List Brackets} (h : SelectsPart q bs r) : Built sid .qty q → Built sid .qty r := by
  induction h with
  | nil q => exact id
  | cons o b bs hg _ ih => exact fun hq => ih (.getitem o b hq hg)

/-- Values of the moments of a quantity, sample by sample. -/
theorem moments_good {sid W : Nat} {q : Quantity (Option F)} (hq : Built sid .qty q) (hid : IdsIdentify q) {M : Nat} {g : List (Option F) → List (Option F)}
    (hres : GoodQ sid W q (some (M, g))) {fn : MomentFn (Option F)} {bottom : Bool} {o : Nat} {r : Quantity (Option F)} (hr : q.moments o fn bottom = .ok r) :
    GoodQ sid W r (some (M * fn.size, fun v => momVec fn bottom (g v))) ∧ ∀ x, keep sid W r x = keep sid W q x := by
  obtain ⟨_, hqc⟩ := built_good W hq hid
  rw [(mk_ok hr).1]
  apply good_un' _ _ _ hres hqc
  intro x p S hx
  refine ⟨_, rfl, hx.n, hx.p, ?_, ?_⟩
  · cases bottom <;> simp [List.length_flatMap, hx.m, Nat.mul_comm]
  · intro j hj k hk
    have := hx.val j hj k hk
    rw [← this]
    unfold momVec
    cases bottom
    · simp [List.map_flatMap, Function.comp_def]
    · simp [List.map_flatMap, List.flatMap_map, Function.comp_def]

theorem moments_size {q r : Quantity (Option F)} {fn : MomentFn (Option F)} {bottom : Bool} {o : Nat} (hr : q.moments o fn bottom = .ok r) : r.size = q.size * fn.size := by
  rw [(mk_ok hr).1]
  cases bottom
  · change (QType.array [fn.size] q.qtype).size = q.qtype.size * fn.size
    simp [QType.size, Nat.mul_comm]
  · change (q.qtype.replaceScalar (.array [fn.size] .scalar)).size = q.qtype.size * fn.size
    rw [size_replaceScalar]
    simp [QType.size]

/-- A NaN moment of a part is one of the whole. -/
theorem nan_mono {sid W M : Nat} {q : Quantity (Option F)} {g g' : List (Option F) → List (Option F)} (hg : GoodQ sid W q (some (M, g))) (fn : MomentFn (Option F)) (pos : List Nat) (hpos : ∀ i ∈ pos, i < M)
    {s : Sample (Option F)} (hs : (⟨W, s.length, [s]⟩ : Batch (Option F)).WF) (hk : keep sid W q s = true)
    (hv : ∀ k < s.length, g' (s.getD k []) = pos.map fun i => (g (s.getD k [])).getD i none)
    (h : hasNan (s.map fun v => momVec fn true (g' v)) = true) : hasNan (s.map fun v => momVec fn true (g v)) = true := by
  rw [hasNan_iff] at h ⊢
  obtain ⟨u, hu, hn⟩ := h
  refine ⟨u, hu, ?_⟩
  obtain ⟨k, hks, rfl⟩ := List.mem_iff_getElem.1 hu
  have hgd : s.getD k [] = s[k] := getD_lt _ _ _ hks
  have hvk := hv k hks
  have hl := good_length hg hs hk k hks
  rw [hgd] at hvk hl
  rw [mem_momVec] at hn ⊢
  obtain ⟨x, hx, i, hi, e⟩ := hn
  rw [hvk] at hx
  obtain ⟨j, hj, rfl⟩ := List.mem_map.1 hx
  refine ⟨_, ?_, i, hi, e⟩
  rw [getD_lt _ _ _ (by rw [hl]; exact hpos j hj)]
  exact List.getElem_mem _

/-- C153: the same for a part selected in several steps, as `moments_mean['target'][10]['0'][0]` in the tutorial. -/
theorem C153_selected_part [CharZero F] (sid W nLevels : Nat) (q r : Quantity (Option F)) (bs : List Brackets) (hsel : SelectsPart q bs r) (hbs : ∀ b ∈ bs, b.Single) (hid : IdsIdentify r)
    (fn : MomentFn (Option F)) (hR : 0 < fn.size) (chunks : List (Nat × List (Sample (Option F)))) (hwf : ChunksWF W chunks) (hl : ∀ c ∈ chunks, c.1 < nLevels)
    (or' : Nat) (mr : Quantity (Option F)) (er : QuantityMean F) (hmr : r.moments or' fn true = .ok mr) (hr : estimateMean mr nLevels (asChunks sid W chunks) = .ok er) :
    ∀ (hq : Built sid .qty q) (oq : Nat) (mq : Quantity (Option F)) (e : QuantityMean F), q.moments oq fn true = .ok mq → estimateMean mq nLevels (asChunks sid W chunks) = .ok e →
      (∀ l, SameNan mq mr sid W (levelData chunks l)) → e.select bs = .ok er := by
  induction hsel with
  | nil q =>
    intro hq oq mq e hmq he hnan
    -- the two objects have the same values
    obtain ⟨M, g, hg⟩ := mom_res hq hid hmq hwf he
    obtain ⟨hb1, hi1, hs1, rfl, hg1, hk1⟩ := mom_good hq hid hg hR hmq hwf he
    obtain ⟨hb2, hi2, hs2, -, hg2, hk2⟩ := mom_good hq hid hg hR hmr hwf hr
    have E1 := C46_textbook_estimators sid W nLevels mq hb1 hi1 chunks hwf hl e he
    have E2 := C46_textbook_estimators sid W nLevels mr hb2 hi2 chunks hwf hl er hr
    have hD := fun l => levelData_wf hwf l
    have hf : ∀ l, (levelData chunks l).filter (keep sid W mq) = (levelData chunks l).filter (keep sid W mr) :=
      fun l => List.filter_congr fun x _ => by rw [hk1, hk2]
    have hU : ∀ l, usedValues mq sid W (levelData chunks l) = usedValues mr sid W (levelData chunks l) := by
      intro l; rw [usedValues_gen hg1 (hD l), usedValues_gen hg2 (hD l), hf]
    have hL : ∀ l, levelValues mq sid W (levelData chunks l) = levelValues mr sid W (levelData chunks l) := by
      intro l; rw [levelValues_good hg1 (hD l), levelValues_good hg2 (hD l), hf]
    have hdf : ∀ l i, usedDiffs mq sid W l i (levelData chunks l) = usedDiffs mr sid W l i (levelData chunks l) := by
      intro l i; unfold usedDiffs; rw [hU]
    have ht : mq.qtype = mr.qtype := by rw [(mk_ok hmq).1, (mk_ok hmr).1]; rfl
    have hsz : mq.size = mr.size := by rw [hs1, hs2]
    obtain ⟨t, ms, vs, ns, rm⟩ := er
    obtain ⟨t', ms', vs', ns', rm'⟩ := e
    have a1 := E1.qtype; have a2 := E1.means; have a3 := E1.vars; have a4 := E1.used; have a5 := E1.dropped
    have b1 := E2.qtype; have b2 := E2.means; have b3 := E2.vars; have b4 := E2.used; have b5 := E2.dropped
    simp only at a1 a2 a3 a4 a5 b1 b2 b3 b4 b5
    rw [QuantityMean.select, a1, a2, a3, a4, a5, b1, b2, b3, b4, b5]
    simp only [hU, hL, hdf, ht, hsz]
  | @cons q q1 r o b bs hg1 hs ih =>
    intro hq oq mq e hmq he hnan
    have hid1 := selects_ids hs hid
    have hidq := ids_of_getitem hg1 hid1
    have hq1 : Built sid .qty q1 := .getitem o b hq hg1
    have hbr := selects_built hs hq1
    obtain ⟨Mr, gr, hgr⟩ := mom_res hbr hid hmr hwf hr
    obtain ⟨M, g, hg⟩ := mom_res hq hidq hmq hwf he
    obtain ⟨hbmq, hidmq, hszq, rfl, hgmq, hkq⟩ := mom_good hq hidq hg hR hmq hwf he
    obtain ⟨M1, g1, h1⟩ := selects_res hs hid hgr hq1
    obtain ⟨hk1, -, pos1, hp1, hgp1, -⟩ := getitem_positions o b hg (built_good W hq hidq).2 hg1 hid1 h1
    have hl1 : pos1.length = q1.size := getitem_size hg hg1 hgp1
    have hgp1' := hgp1
    rw [hl1] at hgp1'
    obtain ⟨hk2, pos2, hp2, hl2, g', hg', hv⟩ := selects_positions hs hid hgr hq1 hgp1'
    obtain ⟨m1, hm1⟩ : ∃ m1, q1.moments 0 fn true = .ok m1 := ⟨_, mk_one _ _ _ _⟩
    obtain ⟨hgm1, hkm1⟩ := moments_good hq1 hid1 hgp1' hm1
    obtain ⟨hgmr, hkmr⟩ := moments_good hbr hid hg' hmr
    have hszm1 : m1.size = q1.size * fn.size := moments_size hm1
    have hbm1 : Built sid .qty m1 := .moments 0 fn true hq1 hm1
    have hidm1 : IdsIdentify m1 := by rw [(mk_ok hm1).1]; exact ids_un hid1 _ _ _
    -- a NaN of the part is one of the whole
    have hqm : ∀ s : Sample (Option F), (⟨W, s.length, [s]⟩ : Batch (Option F)).WF → keep sid W q s = true → hasNan (s.map fun v => momVec fn true (pos1.map fun i => (g v).getD i none)) = true →
        hasNan (s.map fun v => momVec fn true (g v)) = true :=
      fun s hs hk h => nan_mono hg fn pos1 hp1 hs hk (fun _ _ => rfl) h
    have hmr' : ∀ s : Sample (Option F), (⟨W, s.length, [s]⟩ : Batch (Option F)).WF → keep sid W q s = true → hasNan (s.map fun v => momVec fn true (g' v)) = true →
        hasNan (s.map fun v => momVec fn true (pos1.map fun i => (g v).getD i none)) = true :=
      fun s hs hk h => nan_mono hgp1' fn pos2 hp2 hs ((hk1 s).trans hk) (hv s hs ((hk1 s).trans hk)) h
    have hqr : ∀ l, ∀ s ∈ levelData chunks l, keep sid W q s = true → hasNan (s.map fun v => momVec fn true (g v)) = hasNan (s.map fun v => momVec fn true (g' v)) := by
      intro l s hs hk
      have hw := (level_sample (levelData_wf hwf l) hs).2
      exact hnan l s hs _ _ (by rw [perSample_of_good hgmq s hw, if_pos ((hkq s).trans hk)])
        (by rw [perSample_of_good hgmr s hw, if_pos ((hkmr s).trans ((hk2 s).trans ((hk1 s).trans hk)))])
    have hq1' : ∀ l, ∀ s ∈ levelData chunks l, keep sid W q s = true →
        hasNan (s.map fun v => momVec fn true (g v)) = hasNan (s.map fun v => momVec fn true (pos1.map fun i => (g v).getD i none)) := by
      intro l s hs hk
      have hw := (level_sample (levelData_wf hwf l) hs).2
      rw [Bool.eq_iff_iff]
      exact ⟨fun h => hmr' s hw hk (by rw [← hqr l s hs hk]; exact h), hqm s hw hk⟩
    -- the intermediate quantity has an estimate
    obtain ⟨l, hu⟩ := est_some_used hbmq hidmq hwf hl he
    have hu1 : usedValues m1 sid W (levelData chunks l) ≠ [] := by
      rw [usedValues_gen hgmq (levelData_wf hwf l), Ne, List.map_eq_nil_iff] at hu
      rw [usedValues_gen hgm1 (levelData_wf hwf l), Ne, List.map_eq_nil_iff]
      obtain ⟨s, hs⟩ := List.exists_mem_of_ne_nil _ hu
      simp only [List.mem_filter] at hs
      have hk := (hkq s).symm.trans hs.1.2
      apply List.ne_nil_of_mem (a := s)
      simp only [List.mem_filter]
      refine ⟨⟨hs.1.1, (hkm1 s).trans ((hk1 s).trans hk)⟩, ?_⟩
      rw [← hq1' l s hs.1.1 hk]
      exact hs.2
    obtain ⟨e1, he1⟩ := est_exists hbm1 hidm1 (by rw [hszm1]; exact hgm1) hwf hl hu1
    have hsame1 : ∀ l, SameNan mq m1 sid W (levelData chunks l) := by
      intro l s hs v u hv' hu'
      have hw := (level_sample (levelData_wf hwf l) hs).2
      obtain ⟨a1, rfl⟩ := perSample_good hgmq hw hv'
      obtain ⟨a2, rfl⟩ := perSample_good hgm1 hw hu'
      exact hq1' l s hs ((hkq s).symm.trans a1)
    have hsame2 : ∀ l, SameNan m1 mr sid W (levelData chunks l) := by
      intro l s hs v u hv' hu'
      have hw := (level_sample (levelData_wf hwf l) hs).2
      obtain ⟨a1, rfl⟩ := perSample_good hgm1 hw hv'
      obtain ⟨a2, rfl⟩ := perSample_good hgmr hw hu'
      have hk := (hk1 s).symm.trans ((hkm1 s).symm.trans a1)
      exact (hq1' l s hs hk).symm.trans (hqr l s hs hk)
    rw [QuantityMean.select, C153_part_of_moments sid W nLevels q q1 mq m1 hq o oq 0 b (hbs b (by simp)) hg1 hid1 fn hR hmq hm1 chunks hwf hl e e1 he he1 hsame1]
    exact ih (fun b hb => hbs b (by simp [hb])) hid hmr hq1 0 m1 e1 hm1 he1 hsame2

theorem normIndex_either {R k : Nat} {i : Int} (hk : k < R) (hi : i = k ∨ i = (k : Int) - R) : normIndex R i = .ok k := by
  unfold normIndex
  rcases hi with rfl | rfl
  · rw [if_pos (by omega)]; simp
  · rw [if_neg (by omega), if_pos (by omega)]
    congr 1
    omega

/-- C153: with moments on the surface, entry `k` (also counted from the end) of the estimated moments is the estimate of `moment(q, fn, k)`. -/
theorem C153_single_moment [CharZero F] (sid W nLevels : Nat) (q mq mk' : Quantity (Option F)) (hq : Built sid .qty q) (oq ok' : Nat) (hid : IdsIdentify q) (fn : MomentFn (Option F))
    (k : Nat) (hk : k < fn.size) (i : Int) (hi : i = k ∨ i = (k : Int) - fn.size) (hmq : q.moments oq fn false = .ok mq) (hmk : q.moment ok' fn k = .ok mk')
    (chunks : List (Nat × List (Sample (Option F)))) (hwf : ChunksWF W chunks) (hl : ∀ c ∈ chunks, c.1 < nLevels) (e ek : QuantityMean F)
    (he : estimateMean mq nLevels (asChunks sid W chunks) = .ok e) (hek : estimateMean mk' nLevels (asChunks sid W chunks) = .ok ek)
    (hnan : ∀ l, SameNan mq mk' sid W (levelData chunks l)) : e.getitem (.idx false [.int i]) = .ok ek := by
  have hR : 0 < fn.size := by omega
  obtain ⟨M, g, hg⟩ := mom_res hq hid hmq hwf he
  obtain ⟨hbmq, hidmq, hszq, rfl, hgmq, hkq⟩ := mom_good hq hid hg hR hmq hwf he
  have hbk : Built sid .qty mk' := .moment ok' fn k hq hmk
  have hidk : IdsIdentify mk' := by rw [(mk_ok hmk).1]; exact ids_un hid _ _ _
  have htq : mq.qtype = .array [fn.size] q.qtype := by rw [(mk_ok hmq).1]; rfl
  have htk : mk'.qtype = q.qtype := by rw [(mk_ok hmk).1]; rfl
  have hszk : mk'.size = q.size := by rw [Quantity.size, htk, Quantity.size]
  have hgk : GoodQ sid W mk' (some (q.size, fun v => (g v).map (fn.ev k))) ∧ ∀ x, keep sid W mk' x = keep sid W q x := by
    rw [(mk_ok hmk).1]
    apply good_un' _ _ _ hg (built_good W hq hid).2
    intro x p S hx
    refine ⟨_, rfl, hx.n, hx.p, by simp [Arr.map, hx.m], ?_⟩
    intro j hj k hk
    have := hx.val j hj k hk
    rw [← this]
    simp [Arr.map, Function.comp_def]
  have hnp : npIndex [fn.size] [.int i] = .ok ([], [k]) := by
    simp [npIndex, normIndex_either hk hi, bind, Except.bind]
  have hfit : k * q.size + q.size ≤ q.size * fn.size := by
    rw [Nat.mul_comm q.size, ← Nat.succ_mul]
    exact Nat.mul_le_mul_right _ hk
  refine values_select hwf (C46_textbook_estimators sid W nLevels mq hbmq hidmq chunks hwf hl e he) (C46_textbook_estimators sid W nLevels mk' hbk hidk chunks hwf hl ek hek) hgmq hgk.1 hszq.symm
    hszk.symm (fun x => by rw [hgk.2, hkq]) _ 0 ?_ ((List.range q.size).map (k * q.size + ·)) ?_ (by simp [hszk]) ?_ ?_ hnan
  · rw [htq, htk]
    simp [QType.getKey, hnp, bind, Except.bind]
  · intro j hj
    obtain ⟨x, hx, rfl⟩ := List.mem_map.1 hj
    rw [List.mem_range] at hx
    omega
  · intro v hv
    rw [htq]
    simp only [QuantityMean.take, hnp, bind, Except.bind]
    rw [hv, hszq]
    simp only [List.prod_cons, List.prod_nil, Nat.mul_one, Nat.mul_div_cancel _ hR, List.flatMap_cons, List.flatMap_nil, List.append_nil]
    rw [drop_take_positions v none _ _ (by rw [hv, hszq]; exact hfit), List.map_map]
    rfl
  · intro s hs hks j hj
    have hl1 := good_length hg hs ((hkq s).symm.trans hks) j hj
    generalize s.getD j [] = u at hl1 ⊢
    rw [List.map_map]
    apply List.ext_getElem (by simp [hl1])
    intro m h1 h2
    simp only [List.length_map] at h1
    have := momVec_getD fn false (g u) m k h1 hk
    simp only [momRow, Bool.false_eq_true, if_false, hl1] at this
    simp only [List.getElem_map, List.getElem_range, Function.comp, this]
    rw [getD_lt _ _ _ h1]

namespace ExMomPart

/-- A time series of two arrays of two values. -/
def q : Quantity (Option ℚ) := .storage 7 (.times [0, 5] (.array [2] .scalar))
def fn : MomentFn (Option ℚ) := ⟨2, fun i x => x.map (· ^ (i + 1))⟩
def chunks : List (Nat × List (Sample (Option ℚ))) :=
  [(0, [[[some 1, some 2, some 3, some 4]], [[some 3, some 4, some 1, some 7]], [[none, none, none, none]]]), (1, [[[some 5, some 1, some 2, some 3], [some 4, some 1, some 1, some 1]]])]
theorem built : Built 7 .qty q := .root _
theorem wf : ChunksWF 4 chunks := by
  intro c hc
  simp only [chunks, List.mem_cons, List.not_mem_nil, or_false] at hc
  rcases hc with rfl | rfl <;> simp [batchOf, Batch.WF]

/-- `q[5]`, `q[5][1]` and moments of `q` and `q[5][1]`. -/
def q1 : Quantity (Option ℚ) := (q.getitem 10 (.key (.num 5))).toOption.getD q
def r : Quantity (Option ℚ) := (q1.getitem 11 (.idx false [.int 1])).toOption.getD q
def mq : Quantity (Option ℚ) := (q.moments 12 fn true).toOption.getD q
def mq1 : Quantity (Option ℚ) := (q1.moments 16 fn true).toOption.getD q
def mr : Quantity (Option ℚ) := (r.moments 13 fn true).toOption.getD q
def ms : Quantity (Option ℚ) := (q.moments 14 fn false).toOption.getD q
def m1 : Quantity (Option ℚ) := (q.moment 15 fn 1).toOption.getD q
theorem sel : SelectsPart q [.key (.num 5), .idx false [.int 1]] r := .cons 10 _ _ (rfl : q.getitem 10 (.key (.num 5)) = .ok q1) (.cons 11 _ _ (rfl : _ = Except.ok r) (.nil _))
theorem ids : IdsIdentify q := by intro a ha; simp [q, Quantity.selections] at ha
theorem ids1 : IdsIdentify q1 := ids_un ids _ _ _
theorem idsr : IdsIdentify r := ids_un ids1 _ _ _
theorem same {q r : Quantity (Option ℚ)} {data : List (Sample (Option ℚ))} (h : ∀ s ∈ data, (q.perSample 7 4 s).map hasNan = (r.perSample 7 4 s).map hasNan) : SameNan q r 7 4 data := by
  intro s hs v u hv hu
  have := h s hs
  rw [hv, hu] at this
  simpa using this
theorem same_levels {q r : Quantity (Option ℚ)} (h0 : ∀ s ∈ levelData chunks 0, (q.perSample 7 4 s).map hasNan = (r.perSample 7 4 s).map hasNan)
    (h1 : ∀ s ∈ levelData chunks 1, (q.perSample 7 4 s).map hasNan = (r.perSample 7 4 s).map hasNan) : ∀ l, SameNan q r 7 4 (levelData chunks l)
  | 0 => same h0
  | 1 => same h1
  | l + 2 => same (by simp [levelData, chunks])

/-- The estimated moments of `q[5][1]`, with the number of samples and of samples with NaN. -/
example : (estimateMean mr 2 (asChunks 7 4 chunks)).map (fun e => (e.lMeans, e.nSamples, e.nRm)) = .ok ([[some (11 / 2), some (65 / 2)], [some 2, some 8]], [2, 1], [1, 0]) := by decide +kernel
example (e er : QuantityMean ℚ) (he : estimateMean mq 2 (asChunks 7 4 chunks) = .ok e) (hr : estimateMean mr 2 (asChunks 7 4 chunks) = .ok er) :
    e.select [.key (.num 5), .idx false [.int 1]] = .ok er :=
  C153_selected_part 7 4 2 q r _ sel (by simp [Brackets.Single]) idsr fn (by decide) chunks wf (by decide) 13 mr er rfl hr built 12 mq e rfl he (same_levels (by decide +kernel) (by decide +kernel))
example : (estimateMean mq 2 (asChunks 7 4 chunks)).toOption.isSome := by decide +kernel
example (e er : QuantityMean ℚ) (he : estimateMean mq 2 (asChunks 7 4 chunks) = .ok e) (hr : estimateMean mq1 2 (asChunks 7 4 chunks) = .ok er) : e.getitem (.key (.num 5)) = .ok er :=
  C153_part_of_moments 7 4 2 q q1 mq mq1 built 10 12 16 (.key (.num 5)) (.inl ⟨_, rfl⟩) rfl ids1 fn (by decide) rfl rfl chunks wf (by decide) e er he hr (same_levels (by decide +kernel) (by decide +kernel))
example : (estimateMean mq1 2 (asChunks 7 4 chunks)).toOption.isSome := by decide +kernel
example (e ek : QuantityMean ℚ) (he : estimateMean ms 2 (asChunks 7 4 chunks) = .ok e) (hk : estimateMean m1 2 (asChunks 7 4 chunks) = .ok ek) : e.getitem (.idx false [.int (-1)]) = .ok ek :=
  C153_single_moment 7 4 2 q ms m1 built 14 15 ids fn 1 (by decide) (-1) (.inr rfl) rfl rfl chunks wf (by decide) e ek he hk (same_levels (by decide +kernel) (by decide +kernel))
example : (estimateMean ms 2 (asChunks 7 4 chunks)).toOption.isSome ∧ (estimateMean m1 2 (asChunks 7 4 chunks)).toOption.isSome := by decide +kernel
example (e er : QuantityMean ℚ) (he : estimateMean q 2 (asChunks 7 4 chunks) = .ok e) (hr : estimateMean q1 2 (asChunks 7 4 chunks) = .ok er) : e.getitem (.key (.num 5)) = .ok er :=
  C48_indexing_nan_partial 7 4 2 q q1 built 10 (.key (.num 5)) (.inl ⟨_, rfl⟩) rfl ids1 chunks wf (by decide) e er he hr (same_levels (by decide +kernel) (by decide +kernel))
example : (estimateMean q 2 (asChunks 7 4 chunks)).toOption.isSome ∧ (estimateMean q1 2 (asChunks 7 4 chunks)).toOption.isSome := by decide +kernel

/-- Moments of two values and of the second one; moments of a 2x2 array and of an entry. -/
def pair : Quantity (Option ℚ) := (ExEst.q.moments 12 fn true).toOption.getD q
def second : Quantity (Option ℚ) := (ExIdx.r.moments 13 fn true).toOption.getD q
def square : Quantity (Option ℚ) := (ExIdx.q22.moments 12 fn true).toOption.getD q
def entry : Quantity (Option ℚ) := (ExIdx.r22.moments 13 fn true).toOption.getD q

end ExMomPart

/-- Witness against C153: a sample has a NaN in the first value.  `moments_mean[1]` drops it, the moments of the second value use it. -/
theorem C153_nan_counterexample :
    let chunks : List (Nat × List (Sample (Option ℚ))) := [(0, [[[none, some 2]], [[some 3, some 4]]])]
    ∃ e er ei, ExEst.q.moments 12 ExMomPart.fn true = .ok ExMomPart.pair ∧ ExEst.q.getitem 9 (.idx false [.int 1]) = .ok ExIdx.r ∧ ExIdx.r.moments 13 ExMomPart.fn true = .ok ExMomPart.second ∧
      estimateMean ExMomPart.pair 1 (asChunks 7 2 chunks) = .ok e ∧ estimateMean ExMomPart.second 1 (asChunks 7 2 chunks) = .ok er ∧ e.getitem (.idx false [.int 1]) = .ok ei ∧
      ei.mean = [some 4, some 16] ∧ er.mean = [some 3, some 10] :=
  ⟨_, _, _, rfl, rfl, rfl, rfl, rfl, rfl, by decide +kernel, by decide +kernel⟩

/-- Witness against C153: `moments_mean[0, 1]` of a 2x2 array has the type of the moments of one entry and the moments of all four. -/
theorem C153_tuple_counterexample :
    ∃ e er ei, ExIdx.q22.moments 12 ExMomPart.fn true = .ok ExMomPart.square ∧ ExIdx.q22.getitem 9 (.idx true [.int 0, .int 1]) = .ok ExIdx.r22 ∧
      ExIdx.r22.moments 13 ExMomPart.fn true = .ok ExMomPart.entry ∧ estimateMean ExMomPart.square 1 (asChunks 7 4 ExIdx.data22) = .ok e ∧
      estimateMean ExMomPart.entry 1 (asChunks 7 4 ExIdx.data22) = .ok er ∧ e.getitem (.idx true [.int 0, .int 1]) = .ok ei ∧ er.lMeans = [[some 2, some 4]] ∧
      ei.lMeans = [[some 1, some 1, some 2, some 4, some 3, some 9, some 4, some 16]] ∧ ei.qtype.size = 2 :=
  ⟨_, _, _, rfl, rfl, rfl, rfl, rfl, rfl, by decide +kernel, by decide +kernel, by decide +kernel⟩

end MLMC
