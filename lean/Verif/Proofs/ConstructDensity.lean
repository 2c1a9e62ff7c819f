import Verif.Model.ConstructDensity
import Verif.Proofs.MomentsLinear
import Verif.Props.Orthogonal
import Verif.Props.DensityFit
/-! Helper lemmas about the construction of a density from stored samples. -/
namespace MLMC.Dens
open Mom
open scoped Matrix

theorem evalAll_ok (m : Moments) (hs : 0 < m.size) (x : ℝ) : ∃ r, m.evalAll x m.size = .ok r ∧ r.length = m.size := by
  unfold Moments.evalAll
  rw [if_neg (by omega)]
  cases m.transform x <;> exact ⟨_, rfl, by simp⟩

theorem row_base_length (m : Moments) (hs : 0 < m.size) (v : Option ℝ) : (row (.base m) v).length = m.size := by
  cases v with
  | none => simp [row]
  | some x =>
    obtain ⟨r, hr, hl⟩ := evalAll_ok m hs x
    have : row (.base m) (some x) = r := by simp only [row, Obj.evalAll, Obj.size, hr]
    rw [this, hl]

theorem row_trans (m : Moments) (hs : 0 < m.size) {k w : Nat} (A : Fin k → Fin w → ℝ) (v : Option ℝ) : row (.trans (.base m) k w A) v = Obj.combine A (row (.base m) v) := by
  cases v with
  | none => simp only [row]
  | some x =>
    obtain ⟨r, hr, hl⟩ := evalAll_ok m hs x
    simp only [row, Obj.evalAll, Obj.size, hr, Except.map]
    apply List.take_of_length_le
    simp [Obj.combine]

theorem combine_getD {k w : Nat} (A : Fin k → Fin w → ℝ) (r : List (Option ℝ)) (i : Fin k) :
    (Obj.combine A r).getD i.val none = if none ∈ r then none else some (∑ j : Fin w, (r.getD j.val none).getD 0 * A i j) := by
  unfold Obj.combine
  rw [getD_lt _ _ _ (by simp)]
  simp

/-- The coefficients of a matrix, as a function of two numbers. -/
def coeff {k w : Nat} (A : Fin k → Fin w → ℝ) (i j : Nat) : ℝ := if h : i < k ∧ j < w then A ⟨i, h.1⟩ ⟨j, h.2⟩ else 0

theorem coeff_fin {k w : Nat} (A : Fin k → Fin w → ℝ) (i : Fin k) (j : Fin w) : coeff A i.val j.val = A i j := by
  unfold coeff
  rw [dif_pos ⟨i.isLt, j.isLt⟩]

theorem exists_none_iff (m : Moments) (hs : 0 < m.size) (v : Option ℝ) : (∃ i < (fn (.base m)).size, (fn (.base m)).ev i v = none) ↔ none ∈ row (.base m) v := by
  constructor
  · rintro ⟨i, hi, h⟩
    have hi' : i < (row (.base m) v).length := by rw [row_base_length m hs]; exact hi
    change (row (.base m) v).getD i none = none at h
    rw [getD_lt _ _ _ hi'] at h
    rw [← h]
    exact List.getElem_mem hi'
  · intro h
    obtain ⟨i, hi, e⟩ := List.getElem_of_mem h
    refine ⟨i, by rw [row_base_length m hs] at hi; exact hi, ?_⟩
    change (row (.base m) v).getD i none = none
    rw [getD_lt _ _ _ hi, e]

theorem combines (m : Moments) (hs : 0 < m.size) {k w : Nat} (hw : w = m.size) (A : Fin k → Fin w → ℝ) :
    Combines (coeff A) (fn (.base m)) (fn (.trans (.base m) k w A)) := by
  constructor
  · intro x hx i hi
    change (row (.trans (.base m) k w A) x).getD i none = none
    rw [row_trans m hs A, combine_getD A _ ⟨i, hi⟩, if_pos ((exists_none_iff m hs x).1 hx)]
  · intro x hx i hi
    change (row (.trans (.base m) k w A) x).getD i none = _
    rw [row_trans m hs A, combine_getD A _ ⟨i, hi⟩, if_neg (fun h => hx ((exists_none_iff m hs x).2 h))]
    subst hw
    congr 1
    change _ = ∑ j ∈ Finset.range m.size, _
    rw [Finset.sum_range]
    refine Finset.sum_congr rfl fun j _ => ?_
    rw [mul_comm, coeff_fin A ⟨i, hi⟩ j]
    rfl

theorem fn_zero (m : Moments) (hs : 0 < m.size) (x : Option ℝ) : (fn (.base m)).ev 0 x = some 1 ∨ (fn (.base m)).ev 0 x = none := by
  change (row (.base m) x).getD 0 none = some 1 ∨ (row (.base m) x).getD 0 none = none
  have hcol : ∀ t, col m.family t 0 = 1 := by
    intro t
    cases m.family <;> simp [col, Mom.pow, four, leg]
  rw [getD_lt _ _ _ (by rw [row_base_length m hs]; exact hs)]
  cases x with
  | none =>
    simp only [row, List.getElem_map, List.getElem_range]
    split
    · exact Or.inl rfl
    · exact Or.inr rfl
  | some x =>
    have h0 : ¬ m.size = 0 := by omega
    cases ht : m.transform x with
    | none =>
      simp only [row, Obj.evalAll, Obj.size, Moments.evalAll, if_neg h0, ht, List.getElem_map, List.getElem_range]
      split
      · exact Or.inl rfl
      · exact Or.inr rfl
    | some t =>
      left
      simp only [row, Obj.evalAll, Obj.size, Moments.evalAll, if_neg h0, ht, List.getElem_map, List.getElem_range, hcol]

/-- Inside the domain the value of a constructed moment is the combination of the values of the original ones. -/
theorem value_trans (m : Moments) (hs : 0 < m.size) {k w : Nat} (A : Fin k → Fin w → ℝ) (x t : ℝ) (ht : m.transform x = some t) (i : Fin k) :
    value (.trans (.base m) k w A) i.val x = ∑ j, A i j * value (.base m) j.val x := by
  have hr : row (.base m) (some x) = (List.range m.size).map fun i => some (col m.family t i) := by
    have h0 : ¬ m.size = 0 := by omega
    simp only [row, Obj.evalAll, Obj.size, Moments.evalAll, if_neg h0, ht]
  unfold value
  rw [row_trans m hs A, combine_getD, if_neg (by rw [hr]; simp)]
  simp only [Option.getD_some]
  exact Finset.sum_congr rfl fun j _ => mul_comm _ _

theorem value_zero (m : Moments) (hs : 0 < m.size) (x t : ℝ) (ht : m.transform x = some t) : value (.base m) 0 x = 1 := by
  have hcol : col m.family t 0 = 1 := by
    cases m.family <;> simp [col, Mom.pow, four, leg]
  have h0 : ¬ m.size = 0 := by omega
  unfold value
  simp only [row, Obj.evalAll, Obj.size, Moments.evalAll, if_neg h0, ht]
  rw [getD_lt _ _ _ (by simpa using hs)]
  simp [hcol]

/-- The estimate of the zeroth moment is 1 if there is a used sample on each level. -/
theorem zeroth_mean {F : Type} [Field F] [CharZero F] {sid W nLevels : Nat} (hn : 0 < nLevels) {q : Quantity (Option F)} (hq : Built sid .qty q) (hid : IdsIdentify q)
    {f : MomentFn (Option F)} (hR : 0 < f.size) (h1 : ∀ x, f.ev 0 x = some 1 ∨ f.ev 0 x = none) {o : Nat} {r : Quantity (Option F)} (hr : q.moments o f true = .ok r)
    {chunks : List (Nat × List (Sample (Option F)))} (hwf : ChunksWF W chunks) (hl : ∀ c ∈ chunks, c.1 < nLevels) {er : QuantityMean F}
    (hm : estimateMean r nLevels (asChunks sid W chunks) = .ok er) (hused : ∀ l < nLevels, usedValues r sid W (levelData chunks l) ≠ []) {m : Nat} (hmq : m < q.size) :
    er.mean.getD (m * f.size) none = some 1 := by
  obtain ⟨hbr, hidr, hsz, hu⟩ := mom_used hq hid hR hr h1 hwf hm
  have R := C46_textbook_estimators sid W nLevels r hbr hidr chunks hwf hl er hm
  have hrow : momRow true q.size f.size m 0 = m * f.size := by simp [momRow]
  have hlt : m * f.size < r.size := by rw [hsz, ← hrow]; exact momRow_lt hmq hR
  have hlt' : m * f.size < er.qtype.size := by rw [R.qtype]; exact hlt
  have hml : er.lMeans.length = nLevels := by rw [R.means]; simp
  rw [mean_getD hml hlt']
  have : ∀ l ∈ List.range nLevels, (er.lMeans.getD l []).getD (m * f.size) none = some (if l = 0 then (1 : F) else 0) := by
    intro l hl'
    have hl' := List.mem_range.1 hl'
    have h2 := hused l hl'
    have h3 : 0 < (usedValues r sid W (levelData chunks l)).length := List.length_pos_iff.2 h2
    rw [R.means, getD_lt _ ([] : List (Option F)) _ (by simpa using hl')]
    simp only [List.getElem_map, List.getElem_range]
    rw [getD_lt _ _ _ (by simpa using hlt)]
    simp only [List.getElem_map, List.getElem_range]
    rw [if_neg h2, ← hrow, hu l m hmq, average_replicate _ (by omega)]
  rw [List.map_congr_left this, show (fun l : Nat => some (if l = 0 then (1 : F) else 0)) = some ∘ fun l : Nat => if l = 0 then (1 : F) else 0 from rfl,
    ← List.map_map, floatSum_somes]
  congr 1
  obtain ⟨n, rfl⟩ := Nat.exists_eq_succ_of_ne_zero (by omega : nLevels ≠ 0)
  rw [List.range_succ_eq_map]
  simp [Function.comp_def]

/-- What a successful call has done. -/
theorem setup_ok {lib : Lib} {q : Quantity (Option ℝ)} {o : Obj} {oid : Nat} {tol : ℝ} {nLevels : Nat} {chunks : List (Nat × (Nat → Except PyErr (Arr (Option ℝ))))} {s : Setup}
    (h : setup lib q o oid tol nLevels chunks = .ok s) :
    q.qtype = .scalar ∧ o.size = s.n + 1 ∧ 1 < Ortho.kept s.th ∧
    (∃ rc c, q.covariance oid (fn o) true = .ok rc ∧ estimateMean rc nLevels chunks = .ok c ∧ matrixOf s.n c.mean = some s.cov) ∧
    (∃ rm e, q.moments oid (fn (s.obj o)) true = .ok rm ∧ estimateMean rm nLevels chunks = .ok e ∧ e.mean = s.means) ∧
    s.th = Ortho.threshold (lib.eigh s.n (Ortho.centered s.cov)).1 tol ∧
    s.L = Ortho.transform (lib.rq s.n (Ortho.kept s.th) (Ortho.icovSqrtT s.cov (lib.eigh s.n (Ortho.centered s.cov)).1 (lib.eigh s.n (Ortho.centered s.cov)).2 s.th)).1 (by unfold Ortho.kept; omega) := by
  unfold setup at h
  cases hqt : q.qtype <;> rw [hqt] at h <;> simp only [reduceCtorEq] at h
  refine ⟨rfl, ?_⟩
  simp only [Estimator.estimateCovariance, Option.or, bind, Except.bind] at h
  cases hc : q.covariance oid (fn o) true with
  | error x => rw [hc] at h; simp at h
  | ok rc =>
  rw [hc] at h
  simp only at h
  cases hce : estimateMean rc nLevels chunks with
  | error x => rw [hce] at h; simp at h
  | ok c =>
  rw [hce] at h
  simp only at h
  split at h
  · simp at h
  · rename_i n hn
    split at h
    · simp at h
    · rename_i cov hcov
      split at h
      · simp at h
      · rename_i mm hmm
        split at h
        · simp at h
        · rename_i hk
          simp only [Except.ok.injEq] at h
          subst h
          refine ⟨hn, not_le.1 hk, ⟨rc, c, rfl, hce, hcov⟩, ?_, rfl, rfl⟩
          simp only [Estimator.estimateMoments, Option.or, bind, Except.bind] at hmm
          cases hr : q.moments oid (fn (.trans o (Ortho.kept (Ortho.threshold (lib.eigh n (Ortho.centered cov)).1 tol)) (n + 1)
            (Ortho.transform (lib.rq n (Ortho.kept (Ortho.threshold (lib.eigh n (Ortho.centered cov)).1 tol)) (Ortho.icovSqrtT cov (lib.eigh n (Ortho.centered cov)).1 (lib.eigh n (Ortho.centered cov)).2 (Ortho.threshold (lib.eigh n (Ortho.centered cov)).1 tol))).1 (by unfold Ortho.kept; omega)))) true with
          | error x => rw [hr] at hmm; simp at hmm
          | ok rm =>
            rw [hr] at hmm
            simp only at hmm
            cases he : estimateMean rm nLevels chunks with
            | error x => rw [he] at hmm; simp at hmm
            | ok e =>
              rw [he] at hmm
              simp only [Except.ok.injEq] at hmm
              exact ⟨rm, e, hr, he, by rw [← hmm]⟩

theorem threshold_below {n : Nat} {ev : Fin (n + 1) → ℝ} {tol : ℝ} (k : Fin (n + 1)) (hk : k < Ortho.threshold ev tol) : ev k ≤ tol := by
  classical
  unfold Ortho.threshold at hk
  cases hf : (List.finRange (n + 1)).find? fun i => decide (tol < ev i) with
  | none =>
    have := List.find?_eq_none.1 hf k (List.mem_finRange k)
    simpa using this
  | some j =>
    simp only [hf, Option.getD_some] at hk
    rw [List.find?_eq_some_iff_getElem] at hf
    obtain ⟨_, i, hi, e, hb⟩ := hf
    have hik : k.val < i := by
      rw [List.getElem_finRange] at e
      rw [← e] at hk
      exact hk
    have := hb k.val hik
    rw [List.getElem_finRange] at this
    simpa using this

/-- The constant 1 is a combination of the constructed moments, also if eigenvalues are cut off. -/
theorem constant_kept {n : Nat} {cov : Matrix (Fin (n + 1)) (Fin (n + 1)) ℝ} (hsym : covᵀ = cov) (h00 : cov 0 0 = 1) {tol : ℝ} (h1 : tol < 1) {th : Fin (n + 1)}
    {L : Matrix (Fin (Ortho.kept th)) (Fin (n + 1)) ℝ} (h : Ortho.ConstructsTol cov tol th L) : ∃ a : Fin (Ortho.kept th) → ℝ, ∀ i, ∑ j, a j * L j i = if i = 0 then 1 else 0 := by
  obtain ⟨ev, V, R, Q, he, hth, hrq, hL⟩ := h
  have hV : V * Vᵀ = 1 := mul_eq_one_comm.1 he.orthogonal
  have hd : Vᵀ * Ortho.centered cov = Matrix.diagonal ev * Vᵀ := by
    rw [he.decomposes, ← Matrix.mul_assoc, ← Matrix.mul_assoc, he.orthogonal, Matrix.one_mul]
  have hrow : ∀ k, ev k * V 0 k = V 0 k := by
    intro k
    have := congrFun (congrFun hd k) 0
    rw [Matrix.diagonal_mul, Matrix.transpose_apply, Matrix.mul_apply] at this
    simp only [Ortho.centered_first cov hsym h00, Matrix.transpose_apply] at this
    simpa using this.symm
  have hlow : ∀ k, k < th → V 0 k = 0 := by
    intro k hk
    have hle := threshold_below k (hth ▸ hk)
    have := hrow k
    have h2 : (ev k - 1) * V 0 k = 0 := by linarith
    rcases mul_eq_zero.1 h2 with h3 | h3
    · linarith
    · exact h3
  have hone : ∀ k, V 0 k * (1 / √(ev k)) = V 0 k := by
    intro k
    have := hrow k
    have h2 : (ev k - 1) * V 0 k = 0 := by linarith
    rcases mul_eq_zero.1 h2 with h3 | h3
    · rw [show ev k = 1 by linarith]; simp
    · rw [h3]; simp
  have hA : ∀ i, ∑ j, V 0 (Ortho.column th j) * Ortho.icovSqrtT cov ev V th i j = if i = 0 then -1 else 0 := by
    intro i
    have e1 : ∑ j, V 0 (Ortho.column th j) * Ortho.icovSqrtT cov ev V th i j = ∑ k, V 0 k * ((Ortho.centering cov)ᵀ * V) i k := by
      refine Fintype.sum_of_injective (Ortho.column th) (Ortho.column_inj th) _ _ ?_ ?_
      · intro k hk
        rw [hlow k, zero_mul]
        by_contra hge
        apply hk
        have hge' := not_lt.1 hge
        rw [Fin.le_def] at hge'
        refine ⟨⟨n - k.val, by unfold Ortho.kept; omega⟩, ?_⟩
        apply Fin.ext
        simp only [Ortho.column]
        omega
      · intro j
        have := hone (Ortho.column th j)
        simp only [Ortho.icovSqrtT, Matrix.of_apply]
        rw [mul_comm (((Ortho.centering cov)ᵀ * V) i _), ← mul_assoc, this]
    have e2 : ∑ k, V 0 k * ((Ortho.centering cov)ᵀ * V) i k = ((Ortho.centering cov)ᵀ * (V * Vᵀ)) i 0 := by
      rw [← Matrix.mul_assoc, Matrix.mul_apply]
      exact Finset.sum_congr rfl fun k _ => mul_comm _ _
    rw [e1, e2, hV, Matrix.mul_one, Matrix.transpose_apply]
    simp only [Ortho.centering, Matrix.of_apply, h00]
    by_cases hi : i = 0
    · simp [hi]
    · simp [hi, Ne.symm hi]
  have hR : ∀ i, ∑ l, (∑ j, V 0 (Ortho.column th j) * Q l j) * R i l = if i = 0 then -1 else 0 := by
    intro i
    rw [← hA i]
    simp only [hrq.factors, Matrix.mul_apply, Finset.mul_sum, Finset.sum_mul]
    rw [Finset.sum_comm]
    exact Finset.sum_congr rfl fun j _ => Finset.sum_congr rfl fun l _ => by ring
  rcases Ortho.transform_cases R (show 0 < Ortho.kept th by unfold Ortho.kept; omega) with e | e
  · refine ⟨fun l => -∑ j, V 0 (Ortho.column th j) * Q l j, fun i => ?_⟩
    rw [hL, e]
    simp only [Matrix.transpose_apply, neg_mul, Finset.sum_neg_distrib, hR i]
    split <;> simp
  · refine ⟨fun l => ∑ j, V 0 (Ortho.column th j) * Q l j, fun i => ?_⟩
    rw [hL, e]
    simp only [Matrix.neg_apply, Matrix.transpose_apply, mul_neg, Finset.sum_neg_distrib, hR i]
    split <;> simp

/-- Without a cut the covariances times the transposed transformation invert the transformation. -/
theorem full_inverse {n : Nat} {cov : Matrix (Fin (n + 1)) (Fin (n + 1)) ℝ} {th : Fin (n + 1)} (hth : th = 0) {L : Matrix (Fin (Ortho.kept th)) (Fin (n + 1)) ℝ}
    (h : L * cov * Lᵀ = 1) : cov * Lᵀ * L = 1 := by
  have hc : Fintype.card (Fin (Ortho.kept th)) = Fintype.card (Fin (n + 1)) := by
    subst hth; simp [Ortho.kept]
  rw [Matrix.mul_assoc] at h
  exact (Matrix.mul_eq_one_comm_of_card_eq _ _ _ hc).1 h

theorem estimateMoments_ok {F : Type} [Field F] {q : Quantity (Option F)} {f : MomentFn (Option F)} {oid nLevels : Nat} {chunks : List (Nat × (Nat → Except PyErr (Arr (Option F))))}
    {mu vars : List (Option F)} (h : (⟨q, some f⟩ : Estimator F).estimateMoments oid none nLevels chunks = .ok (mu, vars)) :
    ∃ r e, q.moments oid f true = .ok r ∧ estimateMean r nLevels chunks = .ok e ∧ e.mean = mu := by
  simp only [Estimator.estimateMoments, Option.or, bind, Except.bind] at h
  cases hr : q.moments oid f true with
  | error x => rw [hr] at h; simp at h
  | ok r =>
    rw [hr] at h
    simp only at h
    cases he : estimateMean r nLevels chunks with
    | error x => rw [he] at h; simp at h
    | ok e =>
      rw [he] at h
      simp only [Except.ok.injEq, Prod.mk.injEq] at h
      exact ⟨r, e, rfl, he, h.1⟩

/-- The estimates `construct_density` works with. -/
theorem setup_facts {sid W nLevels : Nat} (hn : 0 < nLevels) {q : Quantity (Option ℝ)} (hq : Built sid .qty q) (hid : IdsIdentify q) {m : Moments} (hs : 0 < m.size)
    {chunks : List (Nat × List (Sample (Option ℝ)))} (hwf : ChunksWF W chunks) (hl : ∀ c ∈ chunks, c.1 < nLevels) {lib : Lib} {oid oid' : Nat} {tol : ℝ} {s : Setup}
    (hset : setup lib q (.base m) oid tol nLevels (asChunks sid W chunks) = .ok s) {mu vars : List (Option ℝ)}
    (hest : (⟨q, some (fn (.base m))⟩ : Estimator ℝ).estimateMoments oid' none nLevels (asChunks sid W chunks) = .ok (mu, vars)) :
    s.covᵀ = s.cov ∧ s.cov 0 0 = 1 ∧ (∀ i : Fin (s.n + 1), mu.getD i.val none = some (s.cov i 0)) ∧
    ∀ j : Fin (Ortho.kept s.th), s.means.getD j.val none = some (∑ i, s.L j i * s.cov i 0) := by
  obtain ⟨hqt, hsz, hk, ⟨rc, ec, hrc, hec, hmat⟩, ⟨rm, em, hrm, hem, hmm⟩, -, -⟩ := setup_ok hset
  obtain ⟨r, er, hr, her, rfl⟩ := estimateMoments_ok hest
  have hq1 : q.size = 1 := by change q.qtype.size = 1; rw [hqt]; rfl
  have hfs : (fn (.base m)).size = s.n + 1 := hsz
  have hC := C50_covariance_estimate sid W nLevels q hq hid (fn (.base m)) hs true oid' oid r rc hr hrc chunks hwf hl er ec her hec
  have hC0 := fun i hi => hC.2 0 (by omega) i hi
  simp only [hfs, hq1, covRow, momRow, if_true, Nat.zero_mul, Nat.zero_add] at hC0
  classical
  have hnone : none ∉ ec.mean ∧ s.cov = Matrix.of fun i j => (ec.mean.getD (i.val * (s.n + 1) + j.val) none).getD 0 := by
    unfold matrixOf at hmat
    split at hmat
    · simp at hmat
    · rename_i h
      exact ⟨h, (Option.some.inj hmat).symm⟩
  obtain ⟨hnone, hcov⟩ := hnone
  have hrow0 : ∀ i < s.n + 1, ec.mean.getD i none = er.mean.getD i none := fun i hi => ((hC0 i hi).2 (fn_zero m hs)).2
  have hlen : ec.mean.length = (s.n + 1) * (s.n + 1) := by
    have hbc : Built sid .qty rc := .covariance oid _ true hq hrc
    have hidc : IdsIdentify rc := by rw [(mk_ok hrc).1]; exact ids_un hid _ _ _
    have E := C46_textbook_estimators sid W nLevels rc hbc hidc chunks hwf hl ec hec
    unfold QuantityMean.mean
    rw [List.length_map, List.length_range, E.qtype, (mk_ok hrc).1]
    change (q.qtype.replaceScalar (.array [(fn (.base m)).size, (fn (.base m)).size] .scalar)).size = _
    rw [size_replaceScalar, hfs, hqt]
    simp [QType.size]
  have hsome : ∀ i < (s.n + 1) * (s.n + 1), ec.mean.getD i none ≠ none := by
    intro i hi h0
    rw [getD_lt _ _ _ (by rw [hlen]; exact hi)] at h0
    exact hnone (h0 ▸ List.getElem_mem _)
  have hpos : s.n + 1 ≤ (s.n + 1) * (s.n + 1) := Nat.le_mul_of_pos_left _ (by omega)
  have hsym : ∀ i j : Fin (s.n + 1), s.cov i j = s.cov j i := by
    intro i j
    rw [hcov]
    simp only [Matrix.of_apply]
    rw [((hC0 i.val i.isLt).1 j.val j.isLt).2]
  have hcol : ∀ i : Fin (s.n + 1), er.mean.getD i.val none = some (s.cov i 0) := by
    intro i
    rw [hsym i 0, hcov, ← hrow0 i.val i.isLt]
    simp only [Matrix.of_apply, Fin.val_zero, Nat.zero_mul, Nat.zero_add]
    have := hsome i.val (by omega)
    cases hg : ec.mean.getD i.val none with
    | none => exact absurd hg this
    | some x => rfl
  have hlin := fun (j : Fin (Ortho.kept s.th)) => mean_linear hq hid (combines m hs hsz.symm s.L) hs (by change 0 < Ortho.kept s.th; omega) hr hrm hwf hl her hem (m := 0) (by omega)
    (show j.val < (fn (s.obj (.base m))).size from j.isLt)
  simp only [momRow, if_true, Nat.zero_mul, Nat.zero_add] at hlin
  have hbad : ¬ ∀ j < (fn (.base m)).size, er.mean.getD j none = none := by
    intro h
    have := h 0 hs
    rw [show er.mean.getD 0 none = some (s.cov 0 0) from hcol 0] at this
    simp at this
  have hmeans : ∀ j : Fin (Ortho.kept s.th), s.means.getD j.val none = some (∑ i, s.L j i * s.cov i 0) := by
    intro j
    rcases hlin j with ⟨-, mu, hmu, h⟩ | ⟨h, -⟩
    · rw [← hmm, h, hfs, Finset.sum_range]
      congr 1
      refine Finset.sum_congr rfl fun i _ => ?_
      have hcf : coeff s.L j.val i.val = s.L j i := coeff_fin s.L j i
      rw [hcf]
      have h1 := hmu i.val (by rw [hfs]; exact i.isLt)
      rw [hcol i] at h1
      rw [Option.some.inj h1]
    · exact absurd h hbad
  refine ⟨?_, ?_, hcol, hmeans⟩
  · ext i j
    exact hsym j i
  · rcases hlin ⟨0, by omega⟩ with ⟨hu, -⟩ | ⟨h, -⟩
    · have h1 := zeroth_mean hn hq hid hs (fn_zero m hs) hr hwf hl her hu (m := 0) (by omega)
      rw [Nat.zero_mul] at h1
      have h2 := hcol 0
      rw [Fin.val_zero, h1] at h2
      exact (Option.some.inj h2).symm
    · exact absurd h hbad

theorem density_eq (s : Setup) (o : Obj) {Q : Nat} (rule : Rule Q) (ends : Fin 2 → Fin (s.n - s.th.val + 1) → ℝ) (mult : Fin (s.n - s.th.val + 1) → ℝ) (k : Fin Q) :
    Fit.dens (s.data o rule ends) mult k = s.density o mult (rule.points k) := by
  simp [Fit.dens, Fit.power, Setup.density, Setup.data]

theorem gradient_eq (s : Setup) (o : Obj) {Q : Nat} (rule : Rule Q) (ends : Fin 2 → Fin (s.n - s.th.val + 1) → ℝ) (mult : Fin (s.n - s.th.val + 1) → ℝ) (i : Fin (s.n - s.th.val + 1)) :
    Fit.gradient (s.data o rule ends) mult i = (s.means.getD i.val none).getD 0 - ∑ k, rule.weights k * (value (s.obj o) i.val (rule.points k) * s.density o mult (rule.points k)) := by
  have h1 : (s.data o rule ends).coef = 0 := rfl
  have h2 : (s.data o rule ends).lastSize = 0 := rfl
  have h3 : (s.data o rule ends).errs i = 1 := rfl
  unfold Fit.gradient Fit.gradientOf Fit.integral
  rw [h1, h2, h3, if_neg (by omega)]
  simp only [density_eq, mul_zero, zero_mul, add_zero, div_one]
  congr 1
  exact Finset.sum_congr rfl fun k _ => by simp only [Setup.data]; ring
end MLMC.Dens
