import Verif.Proofs.Estimator
import Mathlib.Algebra.BigOperators.Ring.Finset
import Mathlib.Algebra.BigOperators.Field
/-! # C94 Estimated moments and covariance matrices of moments -/
namespace MLMC
variable {F : Type} [Field F]

theorem mean_getD {e : QuantityMean F} {nLevels : Nat} (he : e.lMeans.length = nLevels) {a : Nat} (ha : a < e.qtype.size) :
    e.mean.getD a none = floatSum ((List.range nLevels).map fun l => (e.lMeans.getD l []).getD a none) := by
  unfold QuantityMean.mean
  rw [getD_lt _ _ _ (by simpa using ha)]
  simp only [List.getElem_map, List.getElem_range]
  congr 1
  exact (map_range_getElem e.lMeans (fun l => (e.lMeans.getD l []).getD a none) (fun v => v.getD a none) nLevels he
    fun j hj => by rw [getD_lt _ _ _ hj]).symm

theorem var_getD {e : QuantityMean F} {nLevels : Nat} (he : e.lVars.length = nLevels) (hn : e.nSamples.length = nLevels) {a : Nat} (ha : a < e.qtype.size) :
    e.var.getD a none = floatSum ((List.range nLevels).map fun l => ((e.lVars.getD l []).getD a none).map (· / ((e.nSamples.getD l 0 : Nat) : F))) := by
  unfold QuantityMean.var
  rw [getD_lt _ _ _ (by simpa using ha)]
  simp only [List.getElem_map, List.getElem_range]
  congr 1
  exact (map_range_getElem (e.lVars.zip e.nSamples) (fun l => ((e.lVars.getD l []).getD a none).map (· / ((e.nSamples.getD l 0 : Nat) : F)))
    (fun x => (x.1.getD a none).map (· / (x.2 : F))) nLevels (by simp [he, hn])
    fun j hj => by
      simp only [List.length_zip] at hj
      rw [List.getElem_zip, getD_lt e.lVars _ _ (by omega), getD_lt e.nSamples _ _ (by omega)]).symm

/-- `C94`: for moment functions starting with the constant 1 (NaN outside the domain), as all of `mlmc.moments`, and at least two used samples on each
level, `estimate_moments` gives for every component of the quantity the zeroth moment 1 with variance 0. -/
theorem C94_zeroth_moment [CharZero F] (sid W nLevels : Nat) (hn : 0 < nLevels) (e : Estimator F) (hq : Built sid .qty e.quantity) (hid : IdsIdentify e.quantity)
    (arg : Option (MomentFn (Option F))) (fn : MomentFn (Option F)) (hfn : arg.or e.momentsFn = some fn) (hR : 0 < fn.size)
    (h1 : ∀ x, fn.ev 0 x = some 1 ∨ fn.ev 0 x = none) (o : Nat)
    (chunks : List (Nat × List (Sample (Option F)))) (hwf : ChunksWF W chunks) (hl : ∀ c ∈ chunks, c.1 < nLevels)
    (hused : ∀ r, e.quantity.moments o fn true = .ok r → ∀ l < nLevels, 2 ≤ (usedValues r sid W (levelData chunks l)).length)
    (means vars : List (Option F)) (hest : e.estimateMoments o arg nLevels (asChunks sid W chunks) = .ok (means, vars)) :
    ∀ m < e.quantity.size, means.getD (m * fn.size) none = some 1 ∧ vars.getD (m * fn.size) none = some 0 := by
  unfold Estimator.estimateMoments at hest
  rw [hfn] at hest
  simp only [bind, Except.bind] at hest
  cases hr : e.quantity.moments o fn true with
  | error x => rw [hr] at hest; simp at hest
  | ok r =>
  rw [hr] at hest
  simp only at hest
  cases hm : estimateMean r nLevels (asChunks sid W chunks) with
  | error x => rw [hm] at hest; simp at hest
  | ok er =>
  rw [hm] at hest
  simp only [Except.ok.injEq, Prod.mk.injEq] at hest
  obtain ⟨rfl, rfl⟩ := hest
  obtain ⟨hbr, hidr, hsz, hu⟩ := mom_used hq hid hR hr h1 hwf hm
  have R := C46_textbook_estimators sid W nLevels r hbr hidr chunks hwf hl er hm
  intro m hmq
  have hrow : momRow true e.quantity.size fn.size m 0 = m * fn.size := by simp [momRow]
  have hlt : m * fn.size < r.size := by rw [hsz, ← hrow]; exact momRow_lt hmq hR
  have hlt' : m * fn.size < er.qtype.size := by rw [R.qtype]; exact hlt
  have hml : er.lMeans.length = nLevels := by rw [R.means]; simp
  have hvl : er.lVars.length = nLevels := by rw [R.vars]; simp
  have hnl : er.nSamples.length = nLevels := by rw [R.used]; simp
  constructor
  · rw [mean_getD hml hlt']
    have : ∀ l ∈ List.range nLevels, (er.lMeans.getD l []).getD (m * fn.size) none = some (if l = 0 then (1 : F) else 0) := by
      intro l hl'
      have hl' := List.mem_range.1 hl'
      have h2 := hused r hr l hl'
      rw [R.means, getD_lt _ ([] : List (Option F)) _ (by simpa using hl')]
      simp only [List.getElem_map, List.getElem_range]
      rw [getD_lt _ _ _ (by simpa using hlt)]
      simp only [List.getElem_map, List.getElem_range]
      rw [if_neg (by intro h0; rw [h0] at h2; simp at h2), ← hrow, hu l m hmq, average_replicate _ (by omega)]
    rw [List.map_congr_left this, show (fun l : Nat => some (if l = 0 then (1 : F) else 0)) = some ∘ fun l : Nat => if l = 0 then (1 : F) else 0 from rfl,
      ← List.map_map, floatSum_somes]
    congr 1
    obtain ⟨n, rfl⟩ := Nat.exists_eq_succ_of_ne_zero (by omega : nLevels ≠ 0)
    rw [List.range_succ_eq_map]
    simp [Function.comp_def]
  · rw [var_getD hvl hnl hlt']
    have : ∀ l ∈ List.range nLevels, ((er.lVars.getD l []).getD (m * fn.size) none).map (· / ((er.nSamples.getD l 0 : Nat) : F)) = some 0 := by
      intro l hl'
      have hl' := List.mem_range.1 hl'
      have h2 := hused r hr l hl'
      have : (er.lVars.getD l []).getD (m * fn.size) none = some 0 := by
        rw [R.vars, getD_lt _ ([] : List (Option F)) _ (by simpa using hl')]
        simp only [List.getElem_map, List.getElem_range]
        rw [getD_lt _ _ _ (by simpa using hlt)]
        simp only [List.getElem_map, List.getElem_range]
        rw [if_neg (by omega), ← hrow, hu l m hmq, sampleVar_replicate]
      rw [this]
      simp
    rw [List.map_congr_left this, show (fun _ : Nat => some (0 : F)) = some ∘ fun _ : Nat => (0 : F) from rfl, ← List.map_map, floatSum_somes]
    simp

theorem quad_average [LinearOrder F] [IsStrictOrderedRing F] (R : Nat) (w : Nat → F) (V : List (Nat → F)) :
    0 ≤ ∑ i ∈ Finset.range R, ∑ j ∈ Finset.range R, w i * average (V.map fun v => v i * v j) * w j := by
  have h : ∑ i ∈ Finset.range R, ∑ j ∈ Finset.range R, w i * average (V.map fun v => v i * v j) * w j =
      (V.map fun v => (∑ i ∈ Finset.range R, w i * v i) ^ 2).sum / V.length := by
    have : ∀ i j, w i * average (V.map fun v => v i * v j) * w j = (w i * (V.map fun v => v i * v j).sum * w j) / V.length := by
      intro i j; unfold average; rw [List.length_map]; ring
    simp only [this, ← Finset.sum_div]
    congr 1
    clear this
    induction V with
    | nil => simp
    | cons v V ih =>
      simp only [List.map_cons, List.sum_cons, mul_add, add_mul, Finset.sum_add_distrib, ih]
      congr 1
      rw [sq, Finset.sum_mul_sum]
      exact Finset.sum_congr rfl fun i _ => Finset.sum_congr rfl fun j _ => by ring
  rw [h]
  apply div_nonneg _ (Nat.cast_nonneg _)
  apply List.sum_nonneg
  intro x hx
  obtain ⟨v, _, rfl⟩ := List.mem_map.1 hx
  exact sq_nonneg _

/-- `C94`, only for storages with one level: the matrix `estimate_covariance` gives for each component of the quantity is positive
semidefinite (it has no NaN, and all its quadratic forms are nonnegative).  Not for more levels, see the counterexample. -/
theorem C94_covariance_psd_partial [LinearOrder F] [IsStrictOrderedRing F] (sid W : Nat) (e : Estimator F) (hq : Built sid .qty e.quantity)
    (hid : IdsIdentify e.quantity) (arg : Option (MomentFn (Option F))) (fn : MomentFn (Option F)) (hfn : arg.or e.momentsFn = some fn)
    (hR : 0 < fn.size) (o : Nat) (chunks : List (Nat × List (Sample (Option F)))) (hwf : ChunksWF W chunks) (hl : ∀ c ∈ chunks, c.1 < 1)
    (means vars : List (Option F)) (hest : e.estimateCovariance o arg 1 (asChunks sid W chunks) = .ok (means, vars)) :
    ∀ m < e.quantity.size, ∃ A : Nat → Nat → F,
      (∀ i < fn.size, ∀ j < fn.size, means.getD ((m * fn.size + i) * fn.size + j) none = some (A i j)) ∧
      ∀ w : Nat → F, 0 ≤ ∑ i ∈ Finset.range fn.size, ∑ j ∈ Finset.range fn.size, w i * A i j * w j := by
  unfold Estimator.estimateCovariance at hest
  rw [hfn] at hest
  simp only [bind, Except.bind] at hest
  cases hc : e.quantity.covariance o fn true with
  | error x => rw [hc] at hest; simp at hest
  | ok c =>
  rw [hc] at hest
  simp only at hest
  cases hm : estimateMean c 1 (asChunks sid W chunks) with
  | error x => rw [hm] at hest; simp at hest
  | ok ec =>
  rw [hm] at hest
  simp only [Except.ok.injEq, Prod.mk.injEq] at hest
  obtain ⟨rfl, rfl⟩ := hest
  obtain ⟨hbc, hidc, hsz, V, hV⟩ := cov_used hq hid hR hc hwf hm
  have C := C46_textbook_estimators sid W 1 c hbc hidc chunks hwf hl ec hm
  have hne : usedValues c sid W (levelData chunks 0) ≠ [] := by
    intro h0
    obtain ⟨x, hx⟩ := C47_all_dropped_raises sid W 1 c hbc hidc chunks hwf hl (by
      intro l v hv
      by_cases hl0 : l = 0
      · subst hl0
        unfold usedValues at h0
        rw [List.filter_eq_nil_iff] at h0
        simpa using h0 v hv
      · have : levelData chunks l = [] := by
          unfold levelData
          rw [List.filter_eq_nil_iff.2, List.flatMap_nil]
          intro c hc
          have := hl c hc
          simp only [decide_eq_true_eq]
          omega
        rw [this] at hv
        simp [levelValues] at hv)
    rw [hx] at hm; simp at hm
  have hml : ec.lMeans.length = 1 := by rw [C.means]; simp
  intro m hmq
  refine ⟨fun i j => average ((V 0).map fun v => v 0 m i * v 0 m j), fun i hi j hj => ?_, fun w => ?_⟩
  · have hrow : covRow true e.quantity.size fn.size m i j = (m * fn.size + i) * fn.size + j := by simp [covRow]
    have hlt : covRow true e.quantity.size fn.size m i j < c.size := by rw [hsz]; exact covRow_lt hmq hi hj
    rw [← hrow, mean_getD hml (by rw [C.qtype]; exact hlt)]
    simp only [List.range_one, List.map_cons, List.map_nil]
    rw [C.means]
    simp only [List.range_one, List.map_cons, List.map_nil, List.getD_cons_zero]
    rw [getD_lt _ _ _ (by simpa using hlt)]
    simp only [List.getElem_map, List.getElem_range, if_neg hne, (hV 0).2 m hmq i hi j hj, if_true]
    exact (floatSum_somes [_]).trans (by simp)
  · have := quad_average fn.size w ((V 0).map fun v => v 0 m)
    simpa only [List.map_map, Function.comp_def] using this

namespace ExEstimator

/-- Moments 1, x, x². -/
def fn : MomentFn (Option ℚ) := ⟨3, fun i x => x.map (· ^ i)⟩
def est : Estimator ℚ := ⟨ExEst.q, some fn⟩
/-- Level 0: three samples of two values; level 1: two samples. -/
def one : List (Nat × List (Sample (Option ℚ))) := [(0, [[[some 1, some 2]], [[some 3, none]]]), (0, [[[some (-2), some 9]], [[some 0, some 4]]])]

/-- The moments of the quantity of the example. -/
def mr : Quantity (Option ℚ) := match ExEst.q.moments 20 fn true with | .ok r => r | .error _ => ExEst.q

theorem oneWf : ChunksWF 2 one := by
  intro c hc
  simp only [one, List.mem_cons, List.not_mem_nil, or_false] at hc
  rcases hc with rfl | rfl <;> simp [batchOf, Batch.WF]

example : ∃ means vars, est.estimateCovariance 20 none 1 (asChunks 7 2 one) = .ok (means, vars) ∧
    ∀ m < 2, ∃ A : Nat → Nat → ℚ, (∀ i < 3, ∀ j < 3, means.getD ((m * 3 + i) * 3 + j) none = some (A i j)) ∧
      ∀ w : Nat → ℚ, 0 ≤ ∑ i ∈ Finset.range 3, ∑ j ∈ Finset.range 3, w i * A i j * w j :=
  ⟨_, _, rfl, C94_covariance_psd_partial 7 2 est ExEst.built ExEst.ids none fn rfl (by decide) 20 one oneWf (by decide +kernel) _ _ rfl⟩

example : ∃ means vars, est.estimateMoments 20 none 2 (asChunks 7 2 ExEst.chunks) = .ok (means, vars) ∧
    ∀ m < 2, means.getD (m * 3) none = some 1 ∧ vars.getD (m * 3) none = some 0 :=
  ⟨_, _, rfl, C94_zeroth_moment 7 2 2 (by decide) est ExEst.built ExEst.ids none fn rfl (by decide) (by intro x; cases x <;> simp [fn]) 20
    ExEst.chunks ExEst.wf ExEst.lev (by
      intro r hr
      have : r = mr := Except.ok.inj (hr.symm.trans (rfl : ExEst.q.moments 20 fn true = .ok mr))
      rw [this]
      decide +kernel) _ _ rfl⟩

/-- A scalar quantity on two levels. -/
def scalar : Estimator ℚ := ⟨.storage 7 (.array [1] .scalar), some fn⟩
def two : List (Nat × List (Sample (Option ℚ))) := [(0, [[[some 1]], [[some 0]]]), (1, [[[some 0], [some 1]], [[some 1], [some 2]]])]

theorem twoWf : ChunksWF 1 two := by
  intro c hc
  simp only [two, List.mem_cons, List.not_mem_nil, or_false] at hc
  rcases hc with rfl | rfl <;> simp [batchOf, Batch.WF]

end ExEstimator

/-- `C94` fails on two levels: samples 1 and 0 on level 0, pairs (0, 1) and (1, 2) on level 1 give the estimate -3/2 of the mean of x²: a
diagonal entry of the matrix of `estimate_covariance` is negative. -/
theorem C94_covariance_psd_counterexample : ∃ means vars, ChunksWF 1 ExEstimator.two ∧
    ExEstimator.scalar.estimateCovariance 20 none 2 (asChunks 7 1 ExEstimator.two) = .ok (means, vars) ∧
    means.getD (1 * 3 + 1) none = some (-3 / 2) :=
  ⟨_, _, ExEstimator.twoWf, rfl, by decide +kernel⟩

/-- `C94`: without an argument `estimate_moments` and `estimate_covariance` use the moment functions given to the constructor. -/
theorem C94_default_moments (e : Estimator F) (fn : MomentFn (Option F)) (hfn : e.momentsFn = some fn) (o nLevels : Nat)
    (chunks : List (Nat × (Nat → Except PyErr (Arr (Option F))))) :
    e.estimateMoments o none nLevels chunks = e.estimateMoments o (some fn) nLevels chunks ∧
    e.estimateCovariance o none nLevels chunks = e.estimateCovariance o (some fn) nLevels chunks := by
  simp [Estimator.estimateMoments, Estimator.estimateCovariance, hfn]

/-- `C94`: `estimate_diff_vars` does not, whatever the constructor got: called without an argument it raises. -/
theorem C94_diff_vars_counterexample (e : Estimator F) (o nLevels : Nat) (chunks : List (Nat × (Nat → Except PyErr (Arr (Option F))))) :
    e.estimateDiffVars o none nLevels chunks = .error .attributeError := rfl

/-- `C94`: `estimate_diff_vars` with moment functions returns, for each level, the sample variances of the differences of the moments over the
samples without NaN, and the numbers of these samples. -/
theorem C94_diff_vars (sid W nLevels : Nat) (e : Estimator F) [CharZero F] (hq : Built sid .qty e.quantity) (hid : IdsIdentify e.quantity)
    (fn : MomentFn (Option F)) (o : Nat) (chunks : List (Nat × List (Sample (Option F)))) (hwf : ChunksWF W chunks) (hl : ∀ c ∈ chunks, c.1 < nLevels)
    (vars : List (List (Option F))) (n : List Nat) (hest : e.estimateDiffVars o (some fn) nLevels (asChunks sid W chunks) = .ok (vars, n)) :
    ∃ r, e.quantity.moments o fn true = .ok r ∧ n = (List.range nLevels).map (fun l => (usedValues r sid W (levelData chunks l)).length) ∧
      vars = (List.range nLevels).map fun l => (List.range r.size).map fun i =>
        if (usedValues r sid W (levelData chunks l)).length ≤ 1 then none else some (sampleVar (usedDiffs r sid W l i (levelData chunks l))) := by
  unfold Estimator.estimateDiffVars at hest
  simp only [bind, Except.bind] at hest
  cases hr : e.quantity.moments o fn true with
  | error x => rw [hr] at hest; simp at hest
  | ok r =>
  rw [hr] at hest
  simp only at hest
  cases hm : estimateMean r nLevels (asChunks sid W chunks) with
  | error x => rw [hm] at hest; simp at hest
  | ok er =>
  rw [hm] at hest
  simp only [Except.ok.injEq, Prod.mk.injEq] at hest
  obtain ⟨rfl, rfl⟩ := hest
  have hidr : IdsIdentify r := by rw [(mk_ok hr).1]; exact ids_un hid _ _ _
  have R := C46_textbook_estimators sid W nLevels r (.moments o fn true hq hr) hidr chunks hwf hl er hm
  exact ⟨r, rfl, R.used, R.vars⟩

/-- Non-vacuity: three moments of two values on two levels. -/
example : ∃ vars n, ExEstimator.est.estimateDiffVars 20 (some ExEstimator.fn) 2 (asChunks 7 2 ExEst.chunks) = .ok (vars, n) ∧ n.length = 2 ∧
    (∀ x ∈ n, 2 ≤ x) ∧ vars.map List.length = [6, 6] :=
  ⟨_, _, rfl, by decide +kernel, by decide +kernel, by decide +kernel⟩

end MLMC
