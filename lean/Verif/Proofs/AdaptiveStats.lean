import Verif.Model.AdaptiveStats
import Verif.Spec.AdaptiveStats
import Verif.Proofs.LegendreBound
import Verif.Proofs.FloatEstimate
import Verif.Proofs.ConstructDensity
import Verif.Props.EstimateCov
import Verif.Props.Regression
import Verif.Proofs.SameEstimates
import Verif.Props.Adaptive
/-! Helper lemmas: level variances of bounded moments are bounded. -/
namespace MLMC
variable {Cfg C : Type}

theorem moments_entries {fn : MomentFn (Option ℝ)} {o sid W : Nat} {q r : Quantity (Option ℝ)} (hr : q.moments o fn true = .ok r) {x s : Sample (Option ℝ)}
    (h : r.perSample sid W x = some s) : ∀ part ∈ s, ∀ v ∈ part, ∃ i w, v = fn.ev i w := by
  have hr' := (mk_ok hr).1
  unfold Quantity.perSample Quantity.values at h
  rw [hr', on_one] at h
  cases hq : q.on sid ⟨W, x.length, [x]⟩ with
  | error e => rw [hq] at h; simp [Except.bind] at h
  | ok z =>
    rw [hq] at h
    cases z with
    | mask m => simp [Except.bind, unArr] at h
    | arr a =>
      simp only [Except.bind, unArr, Except.map] at h
      split at h
      · rename_i y hy
        injection h with h; subst h
        injection hy with hy
        have hs : y ∈ Arr.samples (⟨a.n, a.p, a.rows.flatMap fun r => (List.range fn.size).map fun i j k => fn.ev i (r j k)⟩ : Arr (Option ℝ)) := by
          simp only [if_true] at hy; rw [hy]; simp
        intro part hp v hv
        simp only [Arr.samples, List.mem_map] at hs
        obtain ⟨j, _, rfl⟩ := hs
        obtain ⟨k, _, rfl⟩ := List.mem_map.1 hp
        obtain ⟨f, hf, rfl⟩ := List.mem_map.1 hv
        obtain ⟨g, _, hg⟩ := List.mem_flatMap.1 hf
        obtain ⟨i, _, rfl⟩ := List.mem_map.1 hg
        exact ⟨i, _, rfl⟩
      · simp at h

/-- The first entry is a zeroth moment. -/
theorem moments_first {fn : MomentFn (Option ℝ)} (hs : 0 < fn.size) {o sid W : Nat} {q r : Quantity (Option ℝ)} (hr : q.moments o fn true = .ok r) {x s : Sample (Option ℝ)}
    (h : r.perSample sid W x = some s) : ∀ part ∈ s, part ≠ [] → ∃ w, part.getD 0 none = fn.ev 0 w := by
  have hr' := (mk_ok hr).1
  unfold Quantity.perSample Quantity.values at h
  rw [hr', on_one] at h
  cases hq : q.on sid ⟨W, x.length, [x]⟩ with
  | error e => rw [hq] at h; simp [Except.bind] at h
  | ok z =>
    rw [hq] at h
    cases z with
    | mask m => simp [Except.bind, unArr] at h
    | arr a =>
      simp only [Except.bind, unArr, Except.map] at h
      split at h
      · rename_i y hy
        injection h with h; subst h
        injection hy with hy
        have hs' : y ∈ Arr.samples (⟨a.n, a.p, a.rows.flatMap fun r => (List.range fn.size).map fun i j k => fn.ev i (r j k)⟩ : Arr (Option ℝ)) := by
          simp only [if_true] at hy; rw [hy]; simp
        intro part hp hne
        simp only [Arr.samples, List.mem_map] at hs'
        obtain ⟨j, _, rfl⟩ := hs'
        obtain ⟨k, _, rfl⟩ := List.mem_map.1 hp
        obtain ⟨R, hR⟩ : ∃ R, fn.size = R + 1 := ⟨fn.size - 1, by omega⟩
        cases hrows : a.rows with
        | nil => rw [hrows] at hne; simp at hne
        | cons g gs =>
          rw [hR, List.range_succ_eq_map]
          simp only [List.flatMap_cons, List.map_cons, List.cons_append, List.getD_cons_zero]
          exact ⟨_, rfl⟩
      · simp at h

theorem getD_le {fn : MomentFn (Option ℝ)} {b : ℝ} (hb : 0 ≤ b) (hfn : fn.Bounded b) {v : Option ℝ} (h : ∃ i w, v = fn.ev i w) : |v.getD 0| ≤ b := by
  obtain ⟨i, w, rfl⟩ := h
  cases hx : fn.ev i w with
  | none => simpa using hb
  | some x => exact hfn i w x hx

theorem diffs_bounded {fn : MomentFn (Option ℝ)} {b : ℝ} (hb : 0 ≤ b) (hfn : fn.Bounded b) {o sid W : Nat} {q r : Quantity (Option ℝ)} (hr : q.moments o fn true = .ok r)
    (l i : Nat) (data : List (Sample (Option ℝ))) : ∀ x ∈ usedDiffs r sid W l i data, |x| ≤ 2 * b := by
  intro x hx
  obtain ⟨s, hs, rfl⟩ := List.mem_map.1 hx
  have hs := (List.mem_filter.1 hs).1
  obtain ⟨y, _, hy⟩ := List.mem_filterMap.1 hs
  have hent := moments_entries hr hy
  have h1 : ∀ k j, |((s.getD k []).getD j none).getD 0| ≤ b := by
    intro k j
    by_cases hk : k < s.length
    · rw [List.getD_eq_getElem _ _ hk]
      by_cases hj : j < s[k].length
      · rw [List.getD_eq_getElem _ _ hj]
        exact getD_le hb hfn (hent _ (List.getElem_mem hk) _ (List.getElem_mem hj))
      · rw [List.getD_eq_default _ _ (by omega)]; simpa using hb
    · rw [List.getD_eq_default s _ (by omega)]; simpa using hb
  unfold levelDiff
  split
  · have h2 : (((s.getD 0 []).map (·.getD 0)).getD i 0) = ((s.getD 0 []).getD i none).getD 0 := by
      simp only [List.getD_eq_getElem?_getD, List.getElem?_map]
      cases (s[0]?.getD [])[i]? <;> rfl
    rw [h2]
    linarith [h1 0 i]
  · by_cases hi : i < (s.getD 0 []).length ∧ i < (s.getD 1 []).length
    · have h2 : ((List.zipWith (fun (x y : Option ℝ) => x.getD 0 - y.getD 0) (s.getD 0 []) (s.getD 1 [])).getD i 0) =
          ((s.getD 0 []).getD i none).getD 0 - ((s.getD 1 []).getD i none).getD 0 := by
        rw [List.getD_eq_getElem _ _ (by simp; simpa using hi), List.getElem_zipWith, List.getD_eq_getElem _ _ hi.1, List.getD_eq_getElem _ _ hi.2]
      rw [h2]
      exact (abs_sub _ _).trans (by linarith [h1 0 i, h1 1 i])
    · rw [List.getD_eq_default _ _ (by simp only [List.length_zipWith]; omega)]
      simpa using hb

theorem sampleVar_const {xs : List ℝ} {a : ℝ} (h : ∀ x ∈ xs, x = a) : sampleVar xs = 0 := by
  have hx : xs = List.replicate xs.length a := List.eq_replicate_iff.2 ⟨rfl, h⟩
  by_cases hne : xs = []
  · rw [hne]; simp [sampleVar]
  have hl : (xs.length : ℝ) ≠ 0 := by
    have : 0 < xs.length := List.length_pos_iff.2 hne
    positivity
  rw [Fl.sampleVar_sums xs hne]
  have h1 : (xs.map fun x => x ^ 2).sum = xs.length * a ^ 2 := by
    conv_lhs => rw [hx]
    simp
  have h2 : xs.sum = xs.length * a := by
    conv_lhs => rw [hx]
    simp
  rw [h1, h2, show (xs.length : ℝ) * a ^ 2 - (xs.length * a) ^ 2 / xs.length = 0 by field_simp; ring, zero_div]

/-- Differences of the zeroth moment. -/
theorem diffs_zeroth {fn : MomentFn (Option ℝ)} (hs : 0 < fn.size) (hfn : fn.One) {o sid W m : Nat} {q r : Quantity (Option ℝ)} (hr : q.moments o fn true = .ok r)
    {chunks : List (Nat × List (Sample (Option ℝ)))} (hev : Evals r sid W m chunks) (l : Nat) : sampleVar (usedDiffs r sid W l 0 (levelData chunks l)) = 0 := by
  have hone : ∀ s ∈ usedValues r sid W (levelData chunks l), ∀ k, k < s.length → s.getD k [] ≠ [] → ((s.getD k []).getD 0 none).getD 0 = 1 := by
    intro s hs' k hk hne
    obtain ⟨h1, h2⟩ := List.mem_filter.1 hs'
    obtain ⟨y, _, hy⟩ := List.mem_filterMap.1 h1
    rw [List.getD_eq_getElem s _ hk] at hne ⊢
    obtain ⟨w, hw⟩ := moments_first hs hr hy _ (List.getElem_mem hk) hne
    rw [hw]
    have hn : fn.ev 0 w ≠ none := by
      intro e
      have hlt : 0 < s[k].length := List.length_pos_iff.2 hne
      rw [e, List.getD_eq_getElem _ _ hlt] at hw
      have : hasNan s = true := by
        unfold hasNan
        rw [List.any_eq_true]
        refine ⟨_, List.getElem_mem hk, ?_⟩
        rw [List.any_eq_true]
        exact ⟨_, List.getElem_mem hlt, by rw [hw]; rfl⟩
      rw [this] at h2
      simp at h2
    obtain ⟨x, hx⟩ := Option.ne_none_iff_exists'.1 hn
    rw [hx, hfn _ _ hx]
    rfl
  have hshape : ∀ s ∈ usedValues r sid W (levelData chunks l), s.length = (if l = 0 then 1 else 2) ∧ ∀ part ∈ s, part.length = m := by
    intro s hs'
    obtain ⟨y, hy, hys⟩ := List.mem_filterMap.1 (List.mem_filter.1 hs').1
    unfold levelData at hy
    obtain ⟨c, hc, hyc⟩ := List.mem_flatMap.1 hy
    obtain ⟨hc, hcl⟩ := List.mem_filter.1 hc
    have hcl : c.1 = l := by simpa using hcl
    obtain ⟨a, _, a2, a3, a4⟩ := hev c hc
    have hmem : s ∈ a.samples := by rw [a4]; exact List.mem_filterMap.2 ⟨y, hyc, hys⟩
    obtain ⟨j, _, rfl⟩ := List.mem_map.1 hmem
    refine ⟨by simp [a3, hcl], fun part hp => ?_⟩
    obtain ⟨k, _, rfl⟩ := List.mem_map.1 hp
    simp [a2]
  by_cases hm : m = 0
  · refine sampleVar_const (a := 0) fun x hx => ?_
    obtain ⟨s, hs', rfl⟩ := List.mem_map.1 hx
    have hnil : ∀ k, s.getD k [] = [] := by
      intro k
      by_cases hk : k < s.length
      · rw [List.getD_eq_getElem s _ hk]
        have := (hshape s hs').2 _ (List.getElem_mem hk)
        exact List.length_eq_zero_iff.1 (by omega)
      · exact List.getD_eq_default s _ (by omega)
    unfold levelDiff
    rw [hnil, hnil]
    split <;> simp
  · have hlen : ∀ s ∈ usedValues r sid W (levelData chunks l), ∀ k, k < s.length → 0 < (s.getD k []).length := by
      intro s hs' k hk
      rw [List.getD_eq_getElem s _ hk, (hshape s hs').2 _ (List.getElem_mem hk)]
      omega
    by_cases hl : l = 0
    · refine sampleVar_const (a := 1) fun x hx => ?_
      obtain ⟨s, hs', rfl⟩ := List.mem_map.1 hx
      have h0 : 0 < s.length := by rw [(hshape s hs').1, if_pos hl]; omega
      have h1 := hlen s hs' 0 h0
      unfold levelDiff
      rw [if_pos hl, List.getD_eq_getElem _ _ (by simpa using h1), List.getElem_map, ← List.getD_eq_getElem _ none h1]
      exact hone s hs' 0 h0 (List.ne_nil_of_length_pos h1)
    · refine sampleVar_const (a := 0) fun x hx => ?_
      obtain ⟨s, hs', rfl⟩ := List.mem_map.1 hx
      have hl2 : s.length = 2 := by rw [(hshape s hs').1, if_neg hl]
      have h1 := hlen s hs' 0 (by omega)
      have h2 := hlen s hs' 1 (by omega)
      unfold levelDiff
      rw [if_neg hl, List.getD_eq_getElem _ _ (by simp only [List.length_zipWith]; omega), List.getElem_zipWith, ← List.getD_eq_getElem _ none h1, ← List.getD_eq_getElem _ none h2,
        hone s hs' 0 (by omega) (List.ne_nil_of_length_pos h1), hone s hs' 1 (by omega) (List.ne_nil_of_length_pos h2), sub_self]

theorem sampleVar_le {xs : List ℝ} {B : ℝ} (h2 : 2 ≤ xs.length) (h : ∀ x ∈ xs, |x| ≤ B) : sampleVar xs ≤ 2 * B ^ 2 := by
  have hne : xs ≠ [] := by intro e; rw [e] at h2; simp at h2
  rw [Fl.sampleVar_sums xs hne]
  have hn : (2 : ℝ) ≤ xs.length := by exact_mod_cast h2
  have hsq : (xs.map fun x => x ^ 2).sum ≤ xs.length * B ^ 2 := by
    have : ∀ ys : List ℝ, (∀ y ∈ ys, |y| ≤ B) → (ys.map fun x => x ^ 2).sum ≤ ys.length * B ^ 2 := by
      intro ys
      induction ys with
      | nil => intro _; simp
      | cons y ys ih =>
        intro hy
        have h1 := ih fun z hz => hy z (by simp [hz])
        have h3 : y ^ 2 ≤ B ^ 2 := by rw [← sq_abs y]; exact pow_le_pow_left₀ (abs_nonneg y) (hy y (by simp)) 2
        simp only [List.map_cons, List.sum_cons, List.length_cons]
        push_cast
        linarith
    exact this xs h
  have hB : 0 ≤ B ^ 2 := sq_nonneg B
  rw [div_le_iff₀ (by linarith)]
  have h0 : 0 ≤ xs.sum ^ 2 / xs.length := by positivity
  nlinarith

/-- Level variances of bounded moments. -/
theorem lVars_le {fn : MomentFn (Option ℝ)} {b : ℝ} (hb : 0 ≤ b) (hfn : fn.Bounded b) {o sid W L : Nat} {q r : Quantity (Option ℝ)} (hr : q.moments o fn true = .ok r)
    {data : Nat → List (Sample (Option ℝ))} {e : QuantityMean ℝ} (he : IsEstimate r sid W L data e) (l m : Nat) (v : ℝ)
    (hv : (e.lVars.getD l []).getD m none = some v) : v ≤ 8 * b ^ 2 := by
  rw [he.vars] at hv
  by_cases hl : l < L
  · rw [List.getD_eq_getElem (List.map _ (List.range L)) _ (by simpa using hl), List.getElem_map, List.getElem_range] at hv
    by_cases hm : m < r.size
    · rw [List.getD_eq_getElem _ _ (by simpa using hm), List.getElem_map, List.getElem_range] at hv
      split at hv
      · simp at hv
      · rename_i h1
        injection hv with hv
        rw [← hv]
        refine (sampleVar_le (B := 2 * b) (by unfold usedDiffs; rw [List.length_map]; omega) (diffs_bounded hb hfn hr _ _ _)).trans (by nlinarith)
    · rw [List.getD_eq_default _ _ (by simpa using hm)] at hv; simp at hv
  · rw [List.getD_eq_default (List.map _ (List.range L)) _ (by simpa using hl)] at hv; simp at hv

/-- What is stored during a program has the declared length. -/
theorem stored_widths {env : ProgEnv Cfg (Option ℝ) C} {W : Nat} (ha : env.Arrays W) {w : Nat → Want} {p : Prog (Option ℝ) C} (h : ProgAt env [] w p) :
    p.sys.store.length = env.sims.length ∧ ∀ x ∈ storedNumbers p.sys.store, ∀ v, x.collectedValues = some v → ∀ e ∈ v, e.1.length = W ∧ e.2.length = W := by
  refine ⟨h.sched.storeLen, ?_⟩
  obtain ⟨sops, hi⟩ := h.inv
  intro x hx v hv e he
  obtain ⟨l, hl, rfl⟩ := List.getElem_of_mem hx
  have hl' : l < env.sims.length := by rw [← h.sched.storeLen]; simpa [storedNumbers] using hl
  obtain ⟨y, y1, _, _, y4, _⟩ := hdf_fresh_spec (V := ResPart (Option ℝ) × ResPart (Option ℝ)) env.sims.length l hl' sops
  have hg := storedNumbers_get p.sys.store l
  rw [List.getElem?_eq_getElem hl, show p.sys.store[l]? = some y by rw [hi.store]; exact y1] at hg
  injection hg with hg
  rw [hg] at hv
  simp only [y4] at hv
  split at hv
  · simp at hv
  · simp only [Option.map_some, Option.some.injEq] at hv
    subst hv
    obtain ⟨z, hz, rfl⟩ := List.mem_map.1 he
    obtain ⟨s, hs, rfl⟩ := List.mem_map.1 hz
    have hgood := hi.good l _ _ (h.want l hl').2 (List.getElem?_eq_getElem hl')
    rw [filter_lost_nil] at hgood
    exact good_widths ha (List.getElem_mem hl') _ s (by rw [← hgood]; exact List.mem_append_left _ hs)

/-- If the estimation returns, the quantity can be evaluated on all chunks. -/
theorem evals_of_ok {sid W L : Nat} {r : Quantity (Option ℝ)} (hr : Built sid .qty r) (hid : IdsIdentify r) {chunks : List (Nat × List (Sample (Option ℝ)))} (hwf : ChunksWF W chunks)
    {e : QuantityMean ℝ} (he : estimateMean r L (asChunks sid W chunks) = .ok e) : ∃ m, Evals r sid W m chunks := by
  rcases built_evals W hr hid with h | ⟨m, h⟩
  · cases chunks with
    | nil => exact ⟨0, fun c hc => by simp at hc⟩
    | cons c cs =>
      exfalso
      obtain ⟨err, herr⟩ := h (batchOf W c.1 c.2) (hwf c (by simp)) rfl
      have he' : r.samples (fun o => if o = sid then .ok (batchOf W c.1 c.2).toArr else .error .other) = .error err := herr
      unfold estimateMean at he
      rw [if_neg (built_storage hr (by simp))] at he
      simp [asChunks, meanLoop, he', bind, Except.bind] at he
  · exact ⟨m, h chunks hwf⟩

theorem estimate_during {env : ProgEnv Cfg (Option ℝ) C} {W : Nat} (ha : env.Arrays W) {w : Nat → Want} {p : Prog (Option ℝ) C} (h : ProgAt env [] w p)
    {c : Nat → Nat} (hc : ∀ l, 0 < c l) {sid : Nat} {r : Quantity (Option ℝ)} (hr : Built sid .qty r) (hid : IdsIdentify r) {e : QuantityMean ℝ}
    (he : estimateFromStorage (storedNumbers p.sys.store) c sid r = .ok e) :
    ∃ chunks m, IsEstimate r sid W env.sims.length (levelData chunks) e ∧ Evals r sid W m chunks := by
  obtain ⟨hlen, hw⟩ := stored_widths ha h
  have hlen' : (storedNumbers p.sys.store).length = env.sims.length := by simp [storedNumbers, hlen]
  have hall : ∀ x ∈ storedNumbers p.sys.store, ∃ v, x.collectedValues = some v ∧ ∀ e ∈ v, e.1.length = W ∧ e.2.length = W := by
    intro x hx
    cases hv : x.collectedValues with
    | some v => exact ⟨v, rfl, hw x hx v hv⟩
    | none =>
      exfalso
      have herr : (storedNumbers p.sys.store).zipIdx.mapM (fun (e : LevelGroup (List (Option ℝ) × List (Option ℝ)) × Nat) => e.1.chunks (c e.2) e.2 none) =
          .error .attributeError := by
        apply mapM_error_of
        · obtain ⟨l, hl, rfl⟩ := List.getElem_of_mem hx
          refine ⟨((storedNumbers p.sys.store)[l], l), ?_, ?_⟩
          · rw [List.mem_zipIdx_iff_getElem?]; simp [hl]
          · simp only [LevelGroup.chunks, hv]
        · intro y _ e' hy
          simp only [LevelGroup.chunks] at hy
          split at hy
          · injection hy with hy; exact hy.symm
          · simp at hy
      simp only [estimateFromStorage, hdfAllChunks, herr] at he
      simp [Except.map, Except.bind] at he
  obtain ⟨chunks, c1, c2, _, c4⟩ := estimateFromStorage_eq _ c hc sid W r hall
  rw [c4] at he
  rw [hlen'] at c2 he
  obtain ⟨m, hm⟩ := evals_of_ok hr hid c1 he
  exact ⟨chunks, m, C46_textbook_estimators sid W _ r hr hid chunks c1 c2 e he, hm⟩

/-- The moment functions of the library on their default reference domain are bounded by one (values outside the domain are NaN). -/
theorem fn_bounded (family : Mom.Family) (size : Nat) (domain : ℝ × ℝ) (log : Bool) (m : Mom.Moments) (hm : Mom.construct family size domain .none log true = .ok m) :
    (Dens.fn (.base m)).Bounded 1 := by
  have hall : m.isClip = true ∧ m.ref = Mom.defaultRef m.family := by
    simp only [Mom.construct] at hm
    split at hm
    · simp at hm
    split at hm
    · simp at hm
    generalize (if log = true then (Real.log domain.1, Real.log domain.2) else domain) = lin at hm
    split at hm
    · simp at hm
    injection hm with hm
    rw [← hm]
    exact ⟨rfl, rfl⟩
  obtain ⟨hclip, href⟩ := hall
  have htr : ∀ x t, m.transform x = some t → min m.ref.1 m.ref.2 ≤ t ∧ t ≤ max m.ref.1 m.ref.2 := by
    intro x t h
    unfold Mom.Moments.transform at h
    obtain ⟨y, _, h⟩ := Option.bind_eq_some_iff.1 h
    rw [if_pos hclip] at h
    unfold Mom.Moments.clip at h
    split at h
    · simp at h
    · rename_i h1
      push Not at h1
      injection h with h
      rw [← h]
      exact h1
  have hcol : ∀ x t i, m.transform x = some t → |Mom.col m.family t i| ≤ 1 := by
    intro x t i h
    obtain ⟨h1, h2⟩ := htr x t h
    rw [href] at h1 h2
    cases hf : m.family with
    | monomial =>
      simp only [hf, Mom.defaultRef] at h1 h2
      norm_num at h1 h2
      show |Mom.pow t i| ≤ 1
      have hp : ∀ i, Mom.pow t i = t ^ i := by
        intro i
        induction i with
        | zero => simp [Mom.pow]
        | succ i ih => rw [Mom.pow, ih, pow_succ]
      rw [hp, abs_of_nonneg (by positivity)]
      exact pow_le_one₀ h1 h2
    | fourier =>
      show |Mom.four t i| ≤ 1
      unfold Mom.four
      split
      · simp
      · split
        · exact Real.abs_cos_le_one _
        · exact Real.abs_sin_le_one _
    | legendre =>
      simp only [hf, Mom.defaultRef] at h1 h2
      norm_num at h1 h2
      exact Mom.abs_leg_le_one t (abs_le.2 ⟨h1, h2⟩) i
  intro i v x h
  have hrow : x = 1 ∨ ∃ y t, m.transform y = some t ∧ x = Mom.col m.family t i := by
    simp only [Dens.fn] at h
    cases v with
    | none =>
      simp only [Dens.row] at h
      by_cases hi : i < m.size
      · rw [List.getD_eq_getElem _ _ (by simpa using hi), List.getElem_map] at h
        split at h
        · injection h with h; exact .inl h.symm
        · simp at h
      · rw [List.getD_eq_default _ _ (by simpa using hi)] at h; simp at h
    | some y =>
      simp only [Dens.row] at h
      split at h
      · rename_i r hr
        change m.evalAll y m.size = .ok r at hr
        unfold Mom.Moments.evalAll at hr
        by_cases h0 : m.size = 0
        · rw [if_pos h0] at hr
          by_cases h1 : m.family = .fourier
          · rw [if_pos h1] at hr; simp at hr
          · rw [if_neg h1] at hr; simp at hr
        rw [if_neg h0] at hr
        cases ht : m.transform y with
        | some t =>
          rw [ht] at hr
          injection hr with hr
          rw [← hr] at h
          by_cases hi : i < m.size
          · rw [List.getD_eq_getElem _ _ (by simpa using hi), List.getElem_map, List.getElem_range] at h
            injection h with h
            exact .inr ⟨y, t, ht, h.symm⟩
          · rw [List.getD_eq_default _ _ (by simpa using hi)] at h; simp at h
        | none =>
          rw [ht] at hr
          injection hr with hr
          rw [← hr] at h
          by_cases hi : i < m.size
          · rw [List.getD_eq_getElem _ _ (by simpa using hi), List.getElem_map] at h
            split at h
            · injection h with h; exact .inl h.symm
            · simp at h
          · rw [List.getD_eq_default _ _ (by simpa using hi)] at h; simp at h
      · simp at h
  rcases hrow with rfl | ⟨y, t, ht, rfl⟩
  · simp
  · exact hcol y t i ht

end MLMC
