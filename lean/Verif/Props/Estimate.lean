import Verif.Proofs.Estimate
import Mathlib.Algebra.Order.Field.Basic
import Mathlib.Algebra.Order.BigOperators.Group.List
import Mathlib.Tactic.Positivity
import Mathlib.Tactic.Linarith
/-
C45-C47, C49: estimation of means.
-/
namespace MLMC

section
variable {K : Type} [Inhabited K]

omit [Inhabited K] in
theorem firstStorage_none {ins : List (Quantity K)} (h : Quantity.firstStorage ins = none) : ∀ i ∈ ins, i.storageOf = none := by
  induction ins with
  | nil => simp
  | cons q qs ih =>
    rw [Quantity.firstStorage, Option.or_eq_none_iff] at h
    intro i hi
    rcases List.mem_cons.1 hi with rfl | hi
    · exact h.1
    · exact ih h.2 i hi

omit [Inhabited K] in
theorem storage_mk {o : Nat} {t : QType} {op} {ins : List (Quantity K)} {q i : Quantity K} (h : Quantity.mk o t op ins = .ok q) (hi : i ∈ ins)
    (hs : i.storageOf ≠ none) : q.storageOf ≠ none := by
  rw [(mk_ok h).1, Quantity.storageOf]
  intro e
  exact hs (firstStorage_none e i hi)

/-- Quantities and conditions that are not constants know their storage. -/
theorem built_storage [Mul K] {sid : Nat} {k : Kind} {q : Quantity K} (h : Built sid k q) : k ≠ .const → q.storageOf ≠ none := by
  induction h with
  | root t => intro _; rw [Quantity.storageOf]; simp
  | const o t v => intro h; exact absurd rfl h
  | @getitem q q' o b _ h ih =>
    intro _
    unfold Quantity.getitem at h
    cases hk : q.qtype.getKey b with
    | error e => rw [hk] at h; simp [bind, Except.bind] at h
    | ok ts =>
      rw [hk] at h
      simp only [bind, Except.bind] at h
      split at h
      · exact storage_mk h (by simp) (ih (by simp))
      · exact storage_mk h (by simp) (ih (by simp))
  | @arith a b q o f _ _ h iha ihb => intro _; obtain ⟨t, ht⟩ := create_mk h; exact storage_mk (i := a) ht (by simp) (iha (by simp))
  | @arithR a b q o f _ _ h iha ihb => intro _; obtain ⟨t, ht⟩ := create_mk h; exact storage_mk (i := a) ht (by simp) (iha (by simp))
  | @arithL a b q o f _ _ h iha ihb => intro _; obtain ⟨t, ht⟩ := create_mk h; exact storage_mk (i := b) ht (by simp) (ihb (by simp))
  | @ufunc a q o env0 f _ h ih => intro _; obtain ⟨t, ht⟩ := ufunc_mk h; exact storage_mk (i := a) ht (by simp) (ih (by simp))
  | @ufunc2 a b q o env0 f _ _ h iha ihb => intro _; obtain ⟨t, ht⟩ := ufunc_mk h; exact storage_mk (i := a) ht (by simp) (iha (by simp))
  | @ufunc2R a b q o env0 f _ _ h iha ihb => intro _; obtain ⟨t, ht⟩ := ufunc_mk h; exact storage_mk (i := a) ht (by simp) (iha (by simp))
  | @reduce a q o env0 f _ h ih => intro _; obtain ⟨t, ht⟩ := ufunc_mk h; exact storage_mk (i := a) ht (by simp) (ih (by simp))
  | @compare a b q o r _ _ h iha ihb => intro _; exact storage_mk (i := a) h (by simp) (iha (by simp))
  | @compareR a b q o r _ _ h iha ihb => intro _; exact storage_mk (i := a) h (by simp) (iha (by simp))
  | @logic a b q o env0 f _ _ h iha ihb => intro _; obtain ⟨t, ht⟩ := ufunc_mk h; exact storage_mk (i := a) ht (by simp) (iha (by simp))
  | @select q s c cs env0 os _ _ h ihq ihc =>
    intro _
    obtain ⟨m, hm, rfl, hsel⟩ := select_ok h
    rw [Quantity.storageOf]
    intro e
    exact ihq (by simp) (firstStorage_none e q (by simp))
  | @qArray qs q same o shape _ h ih =>
    intro _
    unfold Quantity.qArray at h
    split at h
    · simp at h
    · split at h
      · simp at h
      · rename_i q0 _ _ _
        exact storage_mk (i := q0) h (by simp) (ih q0 (by simp) (by simp))
  | @qDict kqs q o _ h ih =>
    intro _
    unfold Quantity.qDict at h
    cases ht : QType.mkDict (kqs.map fun x => (x.1, x.2.qtype)) with
    | error e => rw [ht] at h; simp [bind, Except.bind] at h
    | ok t =>
      rw [ht] at h
      simp only [bind, Except.bind] at h
      cases kqs with
      | nil => simp [QType.mkDict, QType.pyDict] at ht
      | cons y ys => exact storage_mk (i := y.2) h (by simp) (ih y (by simp) (by simp))
  | @qTimeSeries tqs q same o _ h ih =>
    intro _
    unfold Quantity.qTimeSeries at h
    split at h
    · simp at h
    · split at h
      · simp at h
      · rename_i t0 q0 _ _ _
        exact storage_mk (i := q0) h (by simp) (ih (t0, q0) (by simp) (by simp))
  | @qField kqs q same o _ h ih =>
    intro _
    unfold Quantity.qField at h
    split at h
    · simp at h
    · split at h
      · simp at h
      · rename_i t0 q0 ks _ _
        cases ht : QType.mkField (((t0, q0) :: ks).map fun x => (x.1, x.2.qtype)) with
        | error e => rw [ht] at h; simp [bind, Except.bind] at h
        | ok t =>
          rw [ht] at h
          simp only [bind, Except.bind] at h
          exact storage_mk (i := q0) h (by simp) (ih (t0, q0) (by simp) (by simp))
  | @moment a q o fn i _ h ih => intro _; exact storage_mk (i := a) h (by simp) (ih (by simp))
  | @moments a q o fn b _ h ih => intro _; exact storage_mk (i := a) h (by simp) (ih (by simp))
  | @covariance a q o fn b _ h ih => intro _; exact storage_mk (i := a) h (by simp) (ih (by simp))
  | @timeInterpolation a q o lerp v _ h ih =>
    intro _
    unfold Quantity.timeInterpolation at h
    split at h
    · exact storage_mk (i := a) h (by simp) (ih (by simp))
    · simp at h

end

variable {F : Type} [Field F]

/-- Either every evaluation raises, or every one gives the same number of rows. -/
theorem built_evals {sid : Nat} (W : Nat) {q : Quantity (Option F)} (hq : Built sid .qty q) (hid : IdsIdentify q) :
    (∀ b : Batch (Option F), b.WF → b.width = W → ∃ e, q.on sid b = .error e) ∨
    ∃ m, ∀ chunks : List (Nat × List (Sample (Option F))), ChunksWF W chunks → Evals q sid W m chunks := by
  obtain ⟨⟨res, h⟩, _⟩ := built_good W hq hid
  cases res with
  | none => exact .inl fun b hb hw => h b hb hw
  | some x =>
    obtain ⟨m, g⟩ := x
    refine .inr ⟨m, fun chunks hwf c hc => ?_⟩
    obtain ⟨a, ha, hr⟩ := h (batchOf W c.1 c.2) (hwf c hc) rfl
    refine ⟨a, ha, hr.m, hr.p, ?_⟩
    have hv := values_of_good h (batchOf W c.1 c.2) (hwf c hc) rfl
    have hv' : q.values sid (batchOf W c.1 c.2) = .ok a.samples := by unfold Quantity.values; rw [ha]
    rcases C38_samplewise sid W q hq hid with h' | h'
    · obtain ⟨e, he⟩ := h' _ (hwf c hc) rfl
      rw [he] at hv; simp at hv
    · rw [h' _ (hwf c hc) rfl] at hv'
      exact (Except.ok.inj hv').symm

theorem usedValues_perm (q : Quantity (Option F)) (sid W : Nat) {d d' : List (Sample (Option F))} (h : d.Perm d') :
    (usedValues q sid W d).Perm (usedValues q sid W d') := (h.filterMap _).filter _

theorem anyUsed_iff (q : Quantity (Option F)) (sid W : Nat) (chunks : List (Nat × List (Sample (Option F)))) :
    (chunks.any fun c => usedValues q sid W c.2 ≠ []) = true ↔ ∃ l, usedValues q sid W (levelData chunks l) ≠ [] := by
  simp only [List.any_eq_true, ne_eq, decide_not, Bool.not_eq_eq_eq_not, Bool.not_true, decide_eq_false_iff_not]
  constructor
  · rintro ⟨c, hc, h⟩
    refine ⟨c.1, fun e => h ?_⟩
    rw [List.eq_nil_iff_forall_not_mem] at e ⊢
    intro x hx
    apply e x
    unfold usedValues levelValues at hx ⊢
    rw [List.mem_filter, List.mem_filterMap] at hx ⊢
    obtain ⟨⟨y, hy, hxy⟩, hn⟩ := hx
    refine ⟨⟨y, ?_, hxy⟩, hn⟩
    unfold levelData
    rw [List.mem_flatMap]
    exact ⟨c, by simp [hc], hy⟩
  · rintro ⟨l, h⟩
    by_contra hcon
    push Not at hcon
    apply h
    rw [List.eq_nil_iff_forall_not_mem]
    intro x hx
    unfold usedValues levelValues at hx
    rw [List.mem_filter, List.mem_filterMap] at hx
    obtain ⟨⟨y, hy, hxy⟩, hn⟩ := hx
    unfold levelData at hy
    rw [List.mem_flatMap] at hy
    obtain ⟨c, hc, hy⟩ := hy
    have := hcon c (List.mem_of_mem_filter hc)
    rw [List.eq_nil_iff_forall_not_mem] at this
    apply this x
    unfold usedValues levelValues
    rw [List.mem_filter, List.mem_filterMap]
    exact ⟨⟨y, hy, hxy⟩, hn⟩

/-- Outcome of the estimation: it succeeds exactly if `q` can be evaluated, has as many rows as its size, and some sample is used. -/
theorem estimate_cases [CharZero F] {sid : Nat} (W : Nat) {q : Quantity (Option F)} (hq : Built sid .qty q) (hid : IdsIdentify q) :
    (∀ nLevels chunks, ChunksWF W chunks → (∀ c ∈ chunks, c.1 < nLevels) → ∃ e, estimateMean q nLevels (asChunks sid W chunks) = .error e) ∨
    ∀ nLevels chunks, ChunksWF W chunks → (∀ c ∈ chunks, c.1 < nLevels) →
      ((∀ l, usedValues q sid W (levelData chunks l) = []) ∧ estimateMean q nLevels (asChunks sid W chunks) = .error .other) ∨
      ((∃ l, usedValues q sid W (levelData chunks l) ≠ []) ∧
        ∃ e, estimateMean q nLevels (asChunks sid W chunks) = .ok e ∧ IsEstimate q sid W nLevels (levelData chunks) e) := by
  have hst := built_storage hq (by simp)
  rcases built_evals W hq hid with h | ⟨m, h⟩
  · left
    intro nLevels chunks hwf hl
    unfold estimateMean
    rw [if_neg hst]
    cases chunks with
    | nil => exact ⟨.other, rfl⟩
    | cons c cs =>
      obtain ⟨e, he⟩ := h (batchOf W c.1 c.2) (hwf c (by simp)) rfl
      have he' : q.samples (fun o => if o = sid then .ok (batchOf W c.1 c.2).toArr else .error .other) = .error e := he
      exact ⟨e, by simp [asChunks, meanLoop, he', bind, Except.bind]⟩
  · by_cases hm : m = q.size
    · right
      subst hm
      intro nLevels chunks hwf hl
      obtain ⟨acc, h1, h2, h3, h4, h5, h6⟩ := meanLoop_ok q sid W nLevels chunks (h chunks hwf) hl MeanAcc.init
      have hany := anyUsed_iff q sid W chunks
      simp only [MeanAcc.init, Bool.false_or, Nat.zero_add, zero_add] at h2 h3 h4 h5 h6
      unfold estimateMean
      rw [if_neg hst, h1]
      simp only [bind, Except.bind]
      by_cases hu : ∃ l, usedValues q sid W (levelData chunks l) ≠ []
      · right
        refine ⟨hu, ?_⟩
        rw [h4, hany.2 hu]
        refine ⟨_, rfl, rfl, ?_, ?_, ?_, ?_⟩
        · exact List.map_congr_left fun l _ => h2 l
        · exact List.map_congr_left fun l _ => h3 l
        · refine List.map_congr_left fun l _ => List.map_congr_left fun i hi => ?_
          rw [h2, h5 l i (List.mem_range.1 hi)]
          unfold levelMean average
          simp only [List.length_eq_zero_iff, usedDiffs, List.length_map]
        · refine List.map_congr_left fun l _ => List.map_congr_left fun i hi => ?_
          rw [h2, h5 l i (List.mem_range.1 hi), h6 l i (List.mem_range.1 hi)]
          unfold levelVar
          by_cases hlen : (usedValues q sid W (levelData chunks l)).length ≤ 1
          · rw [if_neg (by omega), if_pos hlen]
          · rw [if_pos (by omega), if_neg hlen]
            have e : (usedValues q sid W (levelData chunks l)).length = (usedDiffs q sid W l i (levelData chunks l)).length := by
              simp [usedDiffs]
            rw [e, var_formula _ (by omega)]
      · left
        push Not at hu
        refine ⟨hu, ?_⟩
        have : (chunks.any fun c => usedValues q sid W c.2 ≠ []) = false := by
          rw [Bool.eq_false_iff]
          intro e
          obtain ⟨l, hl⟩ := hany.1 e
          exact hl (hu l)
        rw [h4, this]
        rfl
    · left
      intro nLevels chunks hwf hl
      unfold estimateMean
      rw [if_neg hst]
      rcases meanLoop_bad q sid W m nLevels chunks (h chunks hwf) hm MeanAcc.init with ⟨e, he⟩ | ⟨acc, h1, h2⟩
      · exact ⟨e, by rw [he]; rfl⟩
      · refine ⟨.other, ?_⟩
        rw [h1]
        simp only [bind, Except.bind]
        rw [h2]
        rfl

/-! ## C46 -/

/-- C46: if the estimation of a quantity built with the API returns, it returns on every level the number of used and dropped
samples, the arithmetic mean and the unbiased variance of the differences of the used samples. -/
theorem C46_textbook_estimators [CharZero F] (sid W nLevels : Nat) (q : Quantity (Option F)) (hq : Built sid .qty q) (hid : IdsIdentify q)
    (chunks : List (Nat × List (Sample (Option F)))) (hwf : ChunksWF W chunks) (hl : ∀ c ∈ chunks, c.1 < nLevels) (e : QuantityMean F)
    (he : estimateMean q nLevels (asChunks sid W chunks) = .ok e) : IsEstimate q sid W nLevels (levelData chunks) e := by
  rcases estimate_cases W hq hid with h | h
  · obtain ⟨x, hx⟩ := h nLevels chunks hwf hl
    rw [he] at hx; simp at hx
  · rcases h nLevels chunks hwf hl with ⟨_, hx⟩ | ⟨_, e', he', h'⟩
    · rw [he] at hx; simp at hx
    · rw [he] at he'; cases he'; exact h'

theorem floatSum_some (l : List F) : floatSum (l.map some) = some l.sum := by
  induction l with
  | nil => rfl
  | cons x l ih =>
    unfold floatSum at ih ⊢
    rw [List.map_cons, List.foldr_cons, ih]
    simp

/-- C46, totals: the mean is the sum of the level means and the variance the sum of the level variances over the sample numbers. -/
theorem C46_totals (sid W nLevels : Nat) (q : Quantity (Option F)) (data : Nat → List (Sample (Option F))) (e : QuantityMean F)
    (h : IsEstimate q sid W nLevels data e) (h2 : ∀ l < nLevels, 2 ≤ (usedValues q sid W (data l)).length) :
    e.mean = (List.range q.size).map (fun i => some ((List.range nLevels).map fun l => average (usedDiffs q sid W l i (data l))).sum) ∧
    e.var = (List.range q.size).map (fun i => some ((List.range nLevels).map fun l =>
      sampleVar (usedDiffs q sid W l i (data l)) / ((usedValues q sid W (data l)).length : F)).sum) := by
  have hsz : e.qtype.size = q.size := by rw [h.qtype]; rfl
  constructor
  · unfold QuantityMean.mean
    rw [hsz]
    apply List.map_congr_left
    intro i hi
    rw [List.mem_range] at hi
    rw [h.means, List.map_map, ← floatSum_some, List.map_map]
    congr 1
    apply List.map_congr_left
    intro l hl
    have hne : usedValues q sid W (data l) ≠ [] := by
      have := h2 l (List.mem_range.1 hl)
      intro e; rw [e] at this; simp at this
    simp [hi, hne]
  · unfold QuantityMean.var
    rw [hsz]
    apply List.map_congr_left
    intro i hi
    rw [List.mem_range] at hi
    rw [h.vars, h.used, List.zip_map', List.map_map, ← floatSum_some, List.map_map]
    congr 1
    apply List.map_congr_left
    intro l hl
    have := h2 l (List.mem_range.1 hl)
    simp [hi, show ¬ (usedValues q sid W (data l)).length ≤ 1 by omega]

/-- C46: estimated variances are not negative. -/
theorem C46_variance_nonneg {R : Type} [Field R] [LinearOrder R] [IsStrictOrderedRing R] (xs : List R) (h : 1 ≤ xs.length) : 0 ≤ sampleVar xs := by
  unfold sampleVar
  apply div_nonneg
  · apply List.sum_nonneg
    intro x hx
    obtain ⟨y, _, rfl⟩ := List.mem_map.1 hx
    positivity
  · have : (1 : R) ≤ xs.length := by exact_mod_cast h
    linarith

/-! ## C45 -/

theorem average_perm {xs ys : List F} (h : xs.Perm ys) : average xs = average ys := by
  unfold average; rw [h.sum_eq, h.length_eq]

theorem sampleVar_perm {xs ys : List F} (h : xs.Perm ys) : sampleVar xs = sampleVar ys := by
  unfold sampleVar
  rw [average_perm h, (h.map _).sum_eq, h.length_eq]

theorem isEstimate_unique {sid W nLevels : Nat} {q : Quantity (Option F)} {data data' : Nat → List (Sample (Option F))} {e e' : QuantityMean F}
    (hp : ∀ l, (data l).Perm (data' l)) (h : IsEstimate q sid W nLevels data e) (h' : IsEstimate q sid W nLevels data' e') : e = e' := by
  have hu := fun l => usedValues_perm q sid W (hp l)
  have hd := fun l i => (hu l).map fun s => (levelDiff l s).getD i 0
  have hv : ∀ l, (levelValues q sid W (data l)).Perm (levelValues q sid W (data' l)) := fun l => (hp l).filterMap _
  cases e
  cases e'
  congr 1
  · exact h.qtype.trans h'.qtype.symm
  · have a := h.means
    have b := h'.means
    simp only at a b
    rw [a, b]
    refine List.map_congr_left fun l _ => List.map_congr_left fun i _ => ?_
    rw [show average (usedDiffs q sid W l i (data l)) = _ from average_perm (hd l i)]
    have : usedValues q sid W (data l) = [] ↔ usedValues q sid W (data' l) = [] := by
      rw [← List.length_eq_zero_iff, ← List.length_eq_zero_iff, (hu l).length_eq]
    simp only [this]
    rfl
  · have a := h.vars
    have b := h'.vars
    simp only at a b
    rw [a, b]
    refine List.map_congr_left fun l _ => List.map_congr_left fun i _ => ?_
    rw [show sampleVar (usedDiffs q sid W l i (data l)) = _ from sampleVar_perm (hd l i), (hu l).length_eq]
    rfl
  · have a := h.used
    have b := h'.used
    simp only at a b
    rw [a, b]
    exact List.map_congr_left fun l _ => (hu l).length_eq
  · have a := h.dropped
    have b := h'.dropped
    simp only at a b
    rw [a, b]
    exact List.map_congr_left fun l _ => ((hv l).filter _).length_eq

/-- C45: the estimate depends only on the samples of each level, not on how they are cut into chunks, in which order the chunks
come or in which order the samples are; the estimation raises in one case exactly if it does in the other. -/
theorem C45_chunking_and_order [CharZero F] (sid W nLevels : Nat) (q : Quantity (Option F)) (hq : Built sid .qty q) (hid : IdsIdentify q)
    (chunks chunks' : List (Nat × List (Sample (Option F)))) (hwf : ChunksWF W chunks) (hwf' : ChunksWF W chunks')
    (hl : ∀ c ∈ chunks, c.1 < nLevels) (hl' : ∀ c ∈ chunks', c.1 < nLevels)
    (hsame : ∀ l, (levelData chunks l).Perm (levelData chunks' l)) :
    (∃ e, estimateMean q nLevels (asChunks sid W chunks) = .ok e ∧ estimateMean q nLevels (asChunks sid W chunks') = .ok e) ∨
    (∃ x y, estimateMean q nLevels (asChunks sid W chunks) = .error x ∧ estimateMean q nLevels (asChunks sid W chunks') = .error y) := by
  rcases estimate_cases W hq hid with h | h
  · right
    obtain ⟨x, hx⟩ := h nLevels chunks hwf hl
    obtain ⟨y, hy⟩ := h nLevels chunks' hwf' hl'
    exact ⟨x, y, hx, hy⟩
  · rcases h nLevels chunks hwf hl with ⟨h0, hx⟩ | ⟨⟨l, hl0⟩, e, he, hE⟩
    · rcases h nLevels chunks' hwf' hl' with ⟨_, hy⟩ | ⟨⟨l, hl1⟩, _⟩
      · exact .inr ⟨_, _, hx, hy⟩
      · exfalso
        apply hl1
        have := (usedValues_perm q sid W (hsame l)).length_eq
        rw [h0 l] at this
        exact List.length_eq_zero_iff.1 this.symm
    · rcases h nLevels chunks' hwf' hl' with ⟨h1, _⟩ | ⟨_, e', he', hE'⟩
      · exfalso
        apply hl0
        have := (usedValues_perm q sid W (hsame l)).length_eq
        rw [h1 l] at this
        exact List.length_eq_zero_iff.1 this
      · left
        have := isEstimate_unique hsame hE hE'
        subst this
        exact ⟨e, he, he'⟩

/-! ## C47 -/

/-- C47: used and dropped samples together are all evaluated samples of the level. -/
theorem C47_counts (sid W nLevels : Nat) (q : Quantity (Option F)) (data : Nat → List (Sample (Option F))) (e : QuantityMean F)
    (h : IsEstimate q sid W nLevels data e) (l : Nat) (hl : l < nLevels) :
    e.nSamples.getD l 0 + e.nRm.getD l 0 = (levelValues q sid W (data l)).length := by
  rw [h.used, h.dropped, getD_lt _ _ _ (by simpa using hl), getD_lt _ _ _ (by simpa using hl)]
  simp only [List.getElem_map, List.getElem_range]
  have := List.length_eq_length_filter_add (l := levelValues q sid W (data l)) hasNan
  unfold usedValues
  omega

/-- C47: without a selection all stored samples are evaluated, so that used plus dropped is the number of collected samples. -/
theorem C47_all_evaluated [CharZero F] (sid W : Nat) (q : Quantity (Option F)) (hq : Built sid .qty q) (hid : IdsIdentify q) (hs : q.selections = [])
    (nLevels : Nat) (chunks : List (Nat × List (Sample (Option F)))) (hwf : ChunksWF W chunks) (hl : ∀ c ∈ chunks, c.1 < nLevels) (e : QuantityMean F)
    (he : estimateMean q nLevels (asChunks sid W chunks) = .ok e) (l : Nat) (hll : l < nLevels) :
    e.nSamples.getD l 0 + e.nRm.getD l 0 = (levelData chunks l).length := by
  rw [C47_counts sid W nLevels q _ e (C46_textbook_estimators sid W nLevels q hq hid chunks hwf hl e he) l hll]
  obtain ⟨⟨res, h⟩, _⟩ := built_good W hq hid
  have hwf' : ∀ s ∈ levelData chunks l, (⟨W, s.length, [s]⟩ : Batch (Option F)).WF := by
    intro s hs'
    unfold levelData at hs'
    obtain ⟨c, hc, hcs⟩ := List.mem_flatMap.1 hs'
    exact single_wf (hwf c (List.mem_of_mem_filter hc)) rfl hcs
  cases res with
  | none =>
    exfalso
    rcases estimate_cases W hq hid with h' | h'
    · obtain ⟨x, hx⟩ := h' nLevels chunks hwf hl
      rw [he] at hx; simp at hx
    · rcases h' nLevels chunks hwf hl with ⟨_, hx⟩ | ⟨⟨l', hl'⟩, _⟩
      · rw [he] at hx; simp at hx
      · apply hl'
        rw [List.eq_nil_iff_forall_not_mem]
        intro x hx
        unfold usedValues levelValues at hx
        rw [List.mem_filter, List.mem_filterMap] at hx
        obtain ⟨⟨y, hy, hxy⟩, _⟩ := hx
        unfold levelData at hy
        obtain ⟨c, hc, hcs⟩ := List.mem_flatMap.1 hy
        have hw := single_wf (W := W) (hwf c (List.mem_of_mem_filter hc)) rfl hcs
        obtain ⟨err, herr⟩ := h _ hw rfl
        unfold Quantity.perSample Quantity.values at hxy
        rw [herr] at hxy
        simp at hxy
  | some x =>
    obtain ⟨m, g⟩ := x
    unfold levelValues
    have hk : ∀ s, keep sid W q s = true := by
      intro s
      unfold keep
      have : q.selNode = none := by
        apply (selNode_of_selId q).2
        intro o ho
        obtain ⟨x, hx, _⟩ := (selNode_of_selId q).1 o ho
        rw [hs] at hx; simp at hx
      rw [this]
    rw [List.filterMap_congr (g := fun s => some (s.map g)) (fun s hs' => by rw [perSample_of_good h s (hwf' s hs'), hk]; rfl)]
    simp

/-- C47: samples with a NaN do not influence the estimate.  Two data sets whose samples without NaN agree give the same level means,
level variances and numbers of used samples. -/
theorem C47_nan_samples_do_not_matter (sid W nLevels : Nat) (q : Quantity (Option F)) (data data' : Nat → List (Sample (Option F)))
    (e e' : QuantityMean F) (h : IsEstimate q sid W nLevels data e) (h' : IsEstimate q sid W nLevels data' e')
    (hsame : ∀ l < nLevels, (data l).filter (fun s => ((q.perSample sid W s).any fun v => !hasNan v)) =
      (data' l).filter (fun s => ((q.perSample sid W s).any fun v => !hasNan v))) :
    e.lMeans = e'.lMeans ∧ e.lVars = e'.lVars ∧ e.nSamples = e'.nSamples := by
  have key : ∀ d : List (Sample (Option F)), usedValues q sid W d =
      (d.filter fun s => ((q.perSample sid W s).any fun v => !hasNan v)).filterMap (q.perSample sid W) := by
    intro d
    unfold usedValues levelValues
    induction d with
    | nil => rfl
    | cons s d ih =>
      cases hs : q.perSample sid W s with
      | none => simp [hs, ih]
      | some v => cases hv : hasNan v <;> simp [hs, hv, ih]
  have hu : ∀ l < nLevels, usedValues q sid W (data l) = usedValues q sid W (data' l) := by
    intro l hl
    rw [key, key, hsame l hl]
  refine ⟨?_, ?_, ?_⟩
  · rw [h.means, h'.means]
    refine List.map_congr_left fun l hl => ?_
    simp only [usedDiffs, hu l (List.mem_range.1 hl)]
  · rw [h.vars, h'.vars]
    refine List.map_congr_left fun l hl => ?_
    simp only [usedDiffs, hu l (List.mem_range.1 hl)]
  · rw [h.used, h'.used]
    refine List.map_congr_left fun l hl => ?_
    rw [hu l (List.mem_range.1 hl)]

/-- C47: if every sample of every level is dropped, the estimation raises. -/
theorem C47_all_dropped_raises [CharZero F] (sid W nLevels : Nat) (q : Quantity (Option F)) (hq : Built sid .qty q) (hid : IdsIdentify q)
    (chunks : List (Nat × List (Sample (Option F)))) (hwf : ChunksWF W chunks) (hl : ∀ c ∈ chunks, c.1 < nLevels)
    (hall : ∀ l, ∀ v ∈ levelValues q sid W (levelData chunks l), hasNan v = true) :
    ∃ x, estimateMean q nLevels (asChunks sid W chunks) = .error x := by
  rcases estimate_cases W hq hid with h | h
  · exact h nLevels chunks hwf hl
  · rcases h nLevels chunks hwf hl with ⟨_, hx⟩ | ⟨⟨l, hl0⟩, _⟩
    · exact ⟨_, hx⟩
    · exfalso
      apply hl0
      unfold usedValues
      rw [List.filter_eq_nil_iff]
      intro v hv
      simp [hall l v hv]

/-! ## C49 -/

theorem getD_ge {α : Type} (l : List α) (d : α) {i : Nat} (h : l.length ≤ i) : l.getD i d = d := by
  rw [List.getD_eq_getElem?_getD, List.getElem?_eq_none h]; rfl

/-- Component `i` of the fine (`part = 0`) or coarse (`part = 1`) values of the used samples. -/
def usedPart (q : Quantity (Option F)) (sid W part i : Nat) (data : List (Sample (Option F))) : List F :=
  (usedValues q sid W data).map fun s => ((s.getD part []).getD i none).getD 0

theorem sum_sub {α : Type} (l : List α) (f g : α → F) : (l.map fun a => f a - g a).sum = (l.map f).sum - (l.map g).sum := by
  induction l with
  | nil => simp
  | cons a l ih => simp only [List.map_cons, List.sum_cons, ih]; ring

/-- Values of quantities on fine and coarse part have the same length. -/
theorem value_shape {sid W : Nat} {q : Quantity (Option F)} (hq : Built sid .qty q) (hid : IdsIdentify q) {l : Nat} (hl : l ≠ 0)
    {data : List (Sample (Option F))} (hwf : (batchOf W l data).WF) {v : Sample (Option F)} (hv : v ∈ levelValues q sid W data) :
    ∃ f c, v = [f, c] ∧ f.length = c.length := by
  obtain ⟨s, hs, hsv⟩ := List.mem_filterMap.1 hv
  have hw := single_wf (W := W) hwf rfl hs
  obtain ⟨⟨res, h⟩, _⟩ := built_good W hq hid
  cases res with
  | none =>
    obtain ⟨err, herr⟩ := h _ hw rfl
    unfold Quantity.perSample Quantity.values at hsv
    simp only [herr] at hsv
    simp at hsv
  | some x =>
    obtain ⟨m, g⟩ := x
    rw [perSample_of_good h s hw] at hsv
    split at hsv
    · rename_i hk
      simp only [Option.some.injEq] at hsv
      have hlen : s.length = 2 := by
        have := (hwf s hs).1
        simpa [batchOf, hl] using this
      obtain ⟨a, ha, hr⟩ := h _ hw rfl
      have hkept : kept sid W q ⟨W, s.length, [s]⟩ = [s] := by simp [kept, hk]
      rw [hkept] at hr
      have h0 := congrArg List.length (hr.val 0 (by simp) 0 (by simp; omega))
      have h1 := congrArg List.length (hr.val 0 (by simp) 1 (by simp; omega))
      match s, hlen with
      | [x, y], _ =>
        refine ⟨g x, g y, hsv.symm, ?_⟩
        simp at h0 h1
        omega
    · simp at hsv

theorem average_diff {sid W : Nat} {q : Quantity (Option F)} (hq : Built sid .qty q) (hid : IdsIdentify q) {l : Nat} (hl : l ≠ 0)
    {data : List (Sample (Option F))} (hwf : (batchOf W l data).WF) (i : Nat) :
    average (usedDiffs q sid W l i data) = average (usedPart q sid W 0 i data) - average (usedPart q sid W 1 i data) := by
  unfold average usedDiffs usedPart
  simp only [List.length_map]
  rw [← sub_div, ← sum_sub]
  congr 2
  apply List.map_congr_left
  intro v hv
  obtain ⟨f, c, rfl, hfc⟩ := value_shape hq hid hl hwf (List.mem_of_mem_filter hv)
  unfold levelDiff
  rw [if_neg hl]
  simp only [List.getD_cons_zero, List.getD_cons_succ]
  by_cases hi : i < f.length
  · rw [getD_lt _ _ _ (by simpa [← hfc] using hi), getD_lt _ _ _ hi, getD_lt _ _ _ (by omega)]
    simp
  · rw [getD_ge _ _ (by simp; omega), getD_ge _ _ (by omega), getD_ge _ _ (by omega)]
    simp

theorem average_fine0 {sid W : Nat} {q : Quantity (Option F)} (data : List (Sample (Option F))) (i : Nat) :
    average (usedDiffs q sid W 0 i data) = average (usedPart q sid W 0 i data) := by
  unfold usedDiffs usedPart
  congr 1
  apply List.map_congr_left
  intro v _
  unfold levelDiff
  rw [if_pos rfl]
  by_cases hi : i < (v.getD 0 []).length
  · rw [getD_lt _ _ _ (by simpa using hi), getD_lt _ _ _ hi]; simp
  · rw [getD_ge _ _ (by simp at hi ⊢; omega), getD_ge _ _ (by omega)]; simp

theorem telescope (f c : Nat → F) (n : Nat) (h : ∀ l, l + 1 < n + 1 → c (l + 1) = f l) :
    ((List.range (n + 1)).map fun l => if l = 0 then f 0 else f l - c l).sum = f n := by
  induction n with
  | zero => simp
  | succ n ih =>
    rw [List.range_succ, List.map_append, List.sum_append, ih fun l hl => h l (by omega)]
    simp [h n (by omega)]

theorem levelData_wf {K : Type} {W : Nat} {chunks : List (Nat × List (Sample K))} (hwf : ChunksWF W chunks) (l : Nat) :
    (batchOf W l (levelData chunks l)).WF := by
  intro s hs
  obtain ⟨c, hc, hcs⟩ := List.mem_flatMap.1 (show s ∈ (chunks.filter fun c => c.1 = l).flatMap (·.2) from hs)
  have h1 := List.mem_filter.1 hc
  have := hwf c h1.1 s hcs
  have e : c.1 = l := by simpa using h1.2
  rw [e] at this
  exact this

/-- C49: if on every level the average of the coarse values equals the average of the fine values of the level below, the estimated
mean is the average of the finest values. -/
theorem C49_telescoping [CharZero F] (sid W n : Nat) (q : Quantity (Option F)) (hq : Built sid .qty q) (hid : IdsIdentify q)
    (chunks : List (Nat × List (Sample (Option F)))) (hwf : ChunksWF W chunks) (hl : ∀ c ∈ chunks, c.1 < n + 1) (e : QuantityMean F)
    (he : estimateMean q (n + 1) (asChunks sid W chunks) = .ok e)
    (h2 : ∀ l < n + 1, 2 ≤ (usedValues q sid W (levelData chunks l)).length) (i : Nat) (hi : i < q.size)
    (hcons : ∀ l, l + 1 < n + 1 →
      average (usedPart q sid W 1 i (levelData chunks (l + 1))) = average (usedPart q sid W 0 i (levelData chunks l))) :
    e.mean.getD i none = some (average (usedPart q sid W 0 i (levelData chunks n))) := by
  have hE := C46_textbook_estimators sid W (n + 1) q hq hid chunks hwf hl e he
  rw [(C46_totals sid W (n + 1) q _ e hE h2).1, getD_lt _ _ _ (by simpa using hi)]
  simp only [List.getElem_map, List.getElem_range, Option.some.injEq]
  rw [← telescope (fun l => average (usedPart q sid W 0 i (levelData chunks l))) (fun l => average (usedPart q sid W 1 i (levelData chunks l))) n hcons]
  congr 1
  apply List.map_congr_left
  intro l _
  by_cases h0 : l = 0
  · subst h0; rw [if_pos rfl, average_fine0]
  · rw [if_neg h0, average_diff hq hid h0 (levelData_wf hwf l)]

/-- C49: if fine and coarse values are identical above level 0, the estimated mean is the average on level 0. -/
theorem C49_identical_levels [CharZero F] (sid W n : Nat) (q : Quantity (Option F)) (hq : Built sid .qty q) (hid : IdsIdentify q)
    (chunks : List (Nat × List (Sample (Option F)))) (hwf : ChunksWF W chunks) (hl : ∀ c ∈ chunks, c.1 < n + 1) (e : QuantityMean F)
    (he : estimateMean q (n + 1) (asChunks sid W chunks) = .ok e)
    (h2 : ∀ l < n + 1, 2 ≤ (usedValues q sid W (levelData chunks l)).length) (i : Nat) (hi : i < q.size)
    (hid' : ∀ l, l ≠ 0 → ∀ v ∈ levelValues q sid W (levelData chunks l), v.getD 0 [] = v.getD 1 []) :
    e.mean.getD i none = some (average (usedPart q sid W 0 i (levelData chunks 0))) := by
  have hE := C46_textbook_estimators sid W (n + 1) q hq hid chunks hwf hl e he
  rw [(C46_totals sid W (n + 1) q _ e hE h2).1, getD_lt _ _ _ (by simpa using hi)]
  simp only [List.getElem_map, List.getElem_range, Option.some.injEq]
  have h0 : ∀ l, l ≠ 0 → average (usedDiffs q sid W l i (levelData chunks l)) = 0 := by
    intro l hl0
    rw [average_diff hq hid hl0 (levelData_wf hwf l), sub_eq_zero]
    unfold usedPart
    congr 1
    apply List.map_congr_left
    intro v hv
    rw [hid' l hl0 v (List.mem_of_mem_filter hv)]
  rw [List.range_succ_eq_map, List.map_cons, List.sum_cons, average_fine0, List.map_map]
  have : ((List.range n).map ((fun l => average (usedDiffs q sid W l i (levelData chunks l))) ∘ Nat.succ)).sum = 0 := by
    apply List.sum_eq_zero
    intro x hx
    obtain ⟨l, _, rfl⟩ := List.mem_map.1 hx
    exact h0 (l + 1) (by omega)
  rw [this, add_zero]

/-! ## The hypotheses are met -/

namespace ExEst

/-- An array of two values. -/
def q : Quantity (Option ℚ) := .storage 7 (.array [2] .scalar)
/-- Two levels in three chunks; one sample has a NaN in its coarse part. -/
def chunks : List (Nat × List (Sample (Option ℚ))) :=
  [(0, [[[some 1, some 2]], [[some 3, some 4]]]), (1, [[[some 5, some 1], [some 4, none]], [[some 2, some 2], [some 1, some 1]]]),
   (0, [[[some 2, some 9]]]), (1, [[[some 4, some 4], [some 3, some 1]]])]
/-- The same samples, in one chunk for each level and another order. -/
def chunks' : List (Nat × List (Sample (Option ℚ))) :=
  [(0, [[[some 2, some 9]], [[some 1, some 2]], [[some 3, some 4]]]),
   (1, [[[some 4, some 4], [some 3, some 1]], [[some 5, some 1], [some 4, none]], [[some 2, some 2], [some 1, some 1]]])]
def e : QuantityMean ℚ :=
  ⟨.array [2] .scalar, [[some 2, some 5], [some 1, some 2]], [[some 1, some 13], [some 0, some 2]], [3, 2], [0, 1]⟩

theorem built : Built 7 .qty q := .root _
theorem ids : IdsIdentify q := by intro a ha; simp [q, Quantity.selections] at ha
theorem wf : ChunksWF 2 chunks := by
  intro c hc
  simp only [chunks, List.mem_cons, List.not_mem_nil, or_false] at hc
  rcases hc with rfl | rfl | rfl | rfl <;> simp [batchOf, Batch.WF]
theorem wf' : ChunksWF 2 chunks' := by
  intro c hc
  simp only [chunks', List.mem_cons, List.not_mem_nil, or_false] at hc
  rcases hc with rfl | rfl <;> simp [batchOf, Batch.WF]
theorem lev : ∀ c ∈ chunks, c.1 < 2 := by decide +kernel
theorem lev' : ∀ c ∈ chunks', c.1 < 2 := by decide +kernel
theorem est : estimateMean q 2 (asChunks 7 2 chunks) = .ok e := by
  have h : ∃ e', estimateMean q 2 (asChunks 7 2 chunks) = .ok e' ∧ e'.lMeans = e.lMeans ∧ e'.lVars = e.lVars ∧
      e'.nSamples = e.nSamples ∧ e'.nRm = e.nRm := ⟨_, rfl, by decide +kernel, by decide +kernel, by decide +kernel, by decide +kernel⟩
  obtain ⟨e', h, h1, h2, h3, h4⟩ := h
  have ht : e'.qtype = e.qtype := (C46_textbook_estimators 7 2 2 q built ids chunks wf lev e' h).qtype
  rw [h]
  obtain ⟨a, b, c, d, f⟩ := e'
  simp only at ht h1 h2 h3 h4
  subst ht h1 h2 h3 h4
  rfl

example : IsEstimate q 7 2 2 (levelData chunks) e := C46_textbook_estimators 7 2 2 q built ids chunks wf lev e est
example := C45_chunking_and_order 7 2 2 q built ids chunks chunks' wf wf' lev lev'
  (by
    intro l
    match l with
    | 0 => decide +kernel
    | 1 => decide +kernel
    | l + 2 => simp [levelData, chunks, chunks'])
theorem two : ∀ l < 2, 2 ≤ (usedValues q 7 2 (levelData chunks l)).length := by decide +kernel
example := C46_totals 7 2 2 q _ e (C46_textbook_estimators 7 2 2 q built ids chunks wf lev e est) two
example : e.mean = [some 3, some 7] := by decide +kernel
example := C47_all_evaluated 7 2 q built ids rfl 2 chunks wf lev e est 1 (by omega)

/-- Levels 0 and 1 with consistent averages. -/
def tele : List (Nat × List (Sample (Option ℚ))) :=
  [(0, [[[some 1, some 2]], [[some 3, some 4]]]), (1, [[[some 5, some 1], [some 4, some 6]], [[some 2, some 2], [some 0, some 0]]])]
theorem teleWf : ChunksWF 2 tele := by
  intro c hc
  simp only [tele, List.mem_cons, List.not_mem_nil, or_false] at hc
  rcases hc with rfl | rfl <;> simp [batchOf, Batch.WF]
example (e : QuantityMean ℚ) (h : estimateMean q 2 (asChunks 7 2 tele) = .ok e) : e.mean.getD 0 none = some (7 / 2) := by
  rw [C49_telescoping 7 2 1 q built ids tele teleWf (by decide +kernel) e h (by decide +kernel) 0 (by decide +kernel)
    (by intro l hl; obtain rfl : l = 0 := by omega
        decide +kernel)]
  decide +kernel
example : (estimateMean q 2 (asChunks 7 2 tele)).toOption.isSome := rfl

end ExEst

end MLMC
