import Verif.Proofs.FloatEstimate
/-
C105: `estimate_mean` in floating-point arithmetic.
-/
namespace MLMC.Fl
variable {F : Type} [Field F] [LinearOrder F] [IsStrictOrderedRing F]

theorem estimate_acc {A : Arith F} {u : F} (hA : A.Valid u) {t : QType} {nLevels : Nat} {chunks : List (Nat × List (Sample (Option F)))}
    {e : QuantityMean F} (he : A.estimate t nLevels chunks = .ok e) : ∃ acc : MeanAcc F, Acc u chunks acc ∧
      e = ⟨t, (List.range nLevels).map fun l => (List.range t.size).map fun i => A.levelMean (acc.sums l i) (acc.n l),
      (List.range nLevels).map fun l => (List.range t.size).map fun i => A.levelVar (acc.sums l i) (acc.sqs l i) (acc.n l),
      (List.range nLevels).map acc.n, (List.range nLevels).map acc.rm⟩ := by
  unfold Arith.estimate at he
  split at he
  · simp at he
  · rename_i acc hacc
    split at he
    · simp at he
    · injection he with he
      exact ⟨acc, by simpa using acc_loop hA chunks [] _ acc (acc_init hA.nonneg) hacc, he.symm⟩

theorem diffs_length (chunks : List (Nat × List (Sample (Option F)))) (l i : Nat) : (diffs chunks l i).length = (used chunks l).length := by
  unfold diffs; rw [List.length_map]

/-- `C105` (accuracy): in floating-point arithmetic with relative rounding errors at most `u`, whatever the order of summation and the
division into chunks, the level means `estimate_mean` returns differ from the exact means of the differences by at most `γ(n+2)` times
the mean of their absolute values, and the level variances differ from the exact ones by at most `2 γ(2n+6)` times the second moment,
`n` being the number of samples without NaN on the level and `γ(k) = (1+u)^k - 1`.  Numbers of samples are exact. -/
theorem C105_accuracy (A : Arith F) (u : F) (hA : A.Valid u) (t : QType) (nLevels : Nat) (chunks : List (Nat × List (Sample (Option F))))
    (e : QuantityMean F) (he : A.estimate t nLevels chunks = .ok e) :
    e.nSamples = (List.range nLevels).map (fun l => (used chunks l).length) ∧
    e.nRm = (List.range nLevels).map (fun l => ((levelData chunks l).filter hasNan).length) ∧
    ∀ l < nLevels, ∀ i < t.size, ∃ m v, e.lMeans[l]? = some m ∧ e.lVars[l]? = some v ∧
      (match m[i]? with
        | some (some x) => 1 ≤ (used chunks l).length ∧
          |x - average (diffs chunks l i)| ≤ gamma u ((used chunks l).length + 2) * absMean (diffs chunks l i)
        | some none => used chunks l = []
        | none => False) ∧
      match v[i]? with
        | some (some x) => 2 ≤ (used chunks l).length ∧
          |x - sampleVar (diffs chunks l i)| ≤ 2 * gamma u (2 * (used chunks l).length + 6) * secondMoment (diffs chunks l i)
        | some none => (used chunks l).length ≤ 1
        | none => False := by
  obtain ⟨acc, hacc, rfl⟩ := estimate_acc hA he
  refine ⟨?_, ?_, ?_⟩
  · exact List.map_congr_left fun l _ => hacc.n l
  · exact List.map_congr_left fun l _ => hacc.rm l
  intro l hl i hi
  refine ⟨_, _, by simp only [List.getElem?_map, List.getElem?_range hl]; rfl, by simp only [List.getElem?_map, List.getElem?_range hl]; rfl, ?_, ?_⟩
  · simp only [List.getElem?_map, List.getElem?_range hi, Option.map_some]
    unfold Arith.levelMean
    by_cases hn : acc.n l = 0
    · rw [if_pos hn]
      have := hacc.n l
      rw [hn] at this
      exact List.eq_nil_of_length_eq_zero this.symm
    · rw [if_neg hn]
      rw [hacc.n l] at hn ⊢
      have hpos : (0 : F) < (used chunks l).length := by exact_mod_cast Nat.pos_of_ne_zero hn
      have := (((hacc.sums l i).div hpos).rnd hA.nonneg hA.rnd)
      refine ⟨Nat.pos_of_ne_zero hn, ?_⟩
      have h2 := this.2
      unfold absMean average
      rw [List.length_map, diffs_length]
      exact h2
  · simp only [List.getElem?_map, List.getElem?_range hi, Option.map_some]
    unfold Arith.levelVar
    by_cases hn : acc.n l > 1
    · rw [if_pos hn]
      rw [hacc.n l] at hn ⊢
      refine ⟨hn, ?_⟩
      have hs := hacc.sums l i
      have hp := hacc.sqs l i
      have := var_near hA (diffs chunks l i) (by rw [diffs_length]; exact hn) _ _ (by rw [diffs_length]; exact hs) (by rw [diffs_length]; exact hp)
      rw [diffs_length] at this
      exact this.2
    · rw [if_neg hn]
      rw [hacc.n l] at hn
      exact not_lt.1 hn

/-- `C105`: the factors of the bounds are about the number of operations times `u`. -/
theorem C105_factor (u : F) (hu : 0 ≤ u) (k : Nat) (h : k * u ≤ 1) : gamma u k ≤ 2 * k * u := gamma_le hu k h

/-- `C105` (exact arithmetic): without rounding the estimates are the textbook ones. -/
theorem C105_exact (A : Arith F) (hA : A.Valid 0) (t : QType) (nLevels : Nat) (chunks : List (Nat × List (Sample (Option F))))
    (e : QuantityMean F) (he : A.estimate t nLevels chunks = .ok e) :
    e.lMeans = ((List.range nLevels).map fun l => (List.range t.size).map fun i =>
      if used chunks l = [] then none else some (average (diffs chunks l i))) ∧
    e.lVars = (List.range nLevels).map fun l => (List.range t.size).map fun i =>
      if (used chunks l).length ≤ 1 then none else some (sampleVar (diffs chunks l i)) := by
  have hC := (C105_accuracy A 0 hA t nLevels chunks e he).2.2
  obtain ⟨acc, hacc, rfl⟩ := estimate_acc hA he
  have hg : ∀ k, gamma (0 : F) k = 0 := fun k => by unfold gamma; simp
  constructor
  · refine List.map_congr_left fun l hl => List.map_congr_left fun i hi => ?_
    obtain ⟨m, v, h1, -, h3, -⟩ := hC l (by simpa using hl) i (by simpa using hi)
    simp only [List.getElem?_map, List.getElem?_range (show l < nLevels by simpa using hl), Option.map_some, Option.some.injEq] at h1
    subst h1
    simp only [List.getElem?_map, List.getElem?_range (show i < t.size by simpa using hi), Option.map_some] at h3
    generalize A.levelMean (acc.sums l i) (acc.n l) = r at h3
    cases r with
    | none => rw [if_pos h3]
    | some x =>
      simp only at h3
      rw [hg, zero_mul] at h3
      rw [if_neg (by intro h; rw [h] at h3; simp at h3), sub_eq_zero.1 (abs_nonpos_iff.1 h3.2)]
  · refine List.map_congr_left fun l hl => List.map_congr_left fun i hi => ?_
    obtain ⟨m, v, -, h1, -, h3⟩ := hC l (by simpa using hl) i (by simpa using hi)
    simp only [List.getElem?_map, List.getElem?_range (show l < nLevels by simpa using hl), Option.map_some, Option.some.injEq] at h1
    subst h1
    simp only [List.getElem?_map, List.getElem?_range (show i < t.size by simpa using hi), Option.map_some] at h3
    generalize A.levelVar (acc.sums l i) (acc.sqs l i) (acc.n l) = r at h3
    cases r with
    | none => rw [if_pos h3]
    | some x =>
      simp only at h3
      rw [hg, mul_zero, zero_mul] at h3
      rw [if_neg (by omega), sub_eq_zero.1 (abs_nonpos_iff.1 h3.2)]

/-- `C105` (variances are not negative), partial: if the exact variance is at least the error bound.  Without this condition it is
false, see `C105_negative_variance_counterexample`. -/
theorem C105_nonneg_partial (A : Arith F) (u : F) (hA : A.Valid u) (t : QType) (nLevels : Nat) (chunks : List (Nat × List (Sample (Option F))))
    (e : QuantityMean F) (he : A.estimate t nLevels chunks = .ok e) (l : Nat) (hl : l < nLevels) (i : Nat) (hi : i < t.size)
    (h : 2 * gamma u (2 * (used chunks l).length + 6) * secondMoment (diffs chunks l i) ≤ sampleVar (diffs chunks l i))
    (v : List (Option F)) (hv : e.lVars[l]? = some v) (x : F) (hx : v[i]? = some (some x)) : 0 ≤ x := by
  obtain ⟨m, v', -, h2, -, h4⟩ := (C105_accuracy A u hA t nLevels chunks e he).2.2 l hl i hi
  rw [hv] at h2
  injection h2 with h2
  subst h2
  rw [hx] at h4
  have := (abs_le.1 h4.2).1
  linarith

/-- `C105` (the estimate): the sum of the level means differs from the exact MLMC estimate by at most `γ(n+L+1)` times the sum of the
means of absolute values, `L` levels with at most `n` samples each. -/
theorem C105_mean_accuracy (A : Arith F) (u : F) (hA : A.Valid u) (t : QType) (nLevels : Nat) (hL : 0 < nLevels)
    (chunks : List (Nat × List (Sample (Option F)))) (e : QuantityMean F) (he : A.estimate t nLevels chunks = .ok e)
    (n : Nat) (hn : ∀ l < nLevels, used chunks l ≠ [] ∧ (used chunks l).length ≤ n) (i : Nat) (hi : i < t.size) :
    |A.mean e i - ((List.range nLevels).map fun l => average (diffs chunks l i)).sum| ≤
      gamma u (n + nLevels + 1) * ((List.range nLevels).map fun l => absMean (diffs chunks l i)).sum := by
  obtain ⟨acc, hacc, rfl⟩ := estimate_acc hA he
  have hlist : (((List.range nLevels).map fun l => (List.range t.size).map fun i => A.levelMean (acc.sums l i) (acc.n l)).map
      fun v => (v.getD i none).getD 0) = (List.range nLevels).map fun l => A.rnd (acc.sums l i / (used chunks l).length) := by
    rw [List.map_map]
    refine List.map_congr_left fun l hl => ?_
    have hl := hn l (by simpa using hl)
    have h0 : (used chunks l).length ≠ 0 := fun h => hl.1 (List.eq_nil_of_length_eq_zero h)
    simp only [Function.comp_apply, List.getD_eq_getElem?_getD, List.getElem?_map, List.getElem?_range hi, Option.map_some, Option.getD_some]
    unfold Arith.levelMean
    rw [hacc.n l, if_neg h0, Option.getD_some]
  have hS := hA.sum_near (n + 2) (List.range nLevels) (by simpa using hL.ne') (fun l => average (diffs chunks l i))
    (fun l => A.rnd (acc.sums l i / (used chunks l).length)) (fun l => absMean (diffs chunks l i)) (fun l hl => by
      have hl := hn l (by simpa using hl)
      have hpos : (0 : F) < (used chunks l).length := by exact_mod_cast List.length_pos_of_ne_nil hl.1
      have := (((hacc.sums l i).div hpos).rnd hA.nonneg hA.rnd).mono hA.nonneg (show (used chunks l).length + 1 + 1 ≤ n + 2 by omega)
      unfold absMean average
      rw [List.length_map, diffs_length]
      exact this)
  rw [List.length_range] at hS
  unfold Arith.mean
  rw [hlist]
  refine le_trans hS.2 (le_of_eq ?_)
  rw [show n + 2 + (nLevels - 1) = n + nLevels + 1 by omega]

/-- `C105` (its error estimate): the same for the estimated variance of the estimate, the sum of level variances over numbers of
samples. -/
theorem C105_var_accuracy (A : Arith F) (u : F) (hA : A.Valid u) (t : QType) (nLevels : Nat) (hL : 0 < nLevels)
    (chunks : List (Nat × List (Sample (Option F)))) (e : QuantityMean F) (he : A.estimate t nLevels chunks = .ok e)
    (n : Nat) (hn : ∀ l < nLevels, 2 ≤ (used chunks l).length ∧ (used chunks l).length ≤ n) (i : Nat) (hi : i < t.size) :
    |A.var e i - ((List.range nLevels).map fun l => sampleVar (diffs chunks l i) / (used chunks l).length).sum| ≤
      2 * gamma u (2 * n + nLevels + 6) * ((List.range nLevels).map fun l => secondMoment (diffs chunks l i) / (used chunks l).length).sum := by
  obtain ⟨acc, hacc, rfl⟩ := estimate_acc hA he
  have hlist : ((((List.range nLevels).map fun l => (List.range t.size).map fun i => A.levelVar (acc.sums l i) (acc.sqs l i) (acc.n l)).zip
      ((List.range nLevels).map acc.n)).map fun x => A.rnd ((x.1.getD i none).getD 0 / (x.2 : F))) = (List.range nLevels).map fun l =>
        A.rnd (A.rnd (A.rnd (acc.sqs l i - A.rnd (A.rnd (acc.sums l i * acc.sums l i) / (used chunks l).length)) / ((used chunks l).length - 1)) /
          (used chunks l).length) := by
    rw [List.zip_map', List.map_map]
    refine List.map_congr_left fun l hl => ?_
    have hl := hn l (by simpa using hl)
    simp only [Function.comp_apply, List.getD_eq_getElem?_getD, List.getElem?_map, List.getElem?_range hi, Option.map_some, Option.getD_some]
    unfold Arith.levelVar
    rw [hacc.n l, if_pos (by omega), Option.getD_some]
  have hS := hA.sum_near2 (2 * n + 7) (List.range nLevels) (by simpa using hL.ne') (fun l => sampleVar (diffs chunks l i) / (used chunks l).length)
    (fun l => A.rnd (A.rnd (A.rnd (acc.sqs l i - A.rnd (A.rnd (acc.sums l i * acc.sums l i) / (used chunks l).length)) / ((used chunks l).length - 1)) /
          (used chunks l).length)) (fun l => secondMoment (diffs chunks l i) / (used chunks l).length) (fun l hl => by
      have hl := hn l (by simpa using hl)
      have hpos : (0 : F) < (used chunks l).length := by exact_mod_cast (by omega : 0 < (used chunks l).length)
      have hs := hacc.sums l i
      have hp := hacc.sqs l i
      have := var_near hA (diffs chunks l i) (by rw [diffs_length]; exact hl.1) _ _ (by rw [diffs_length]; exact hs) (by rw [diffs_length]; exact hp)
      rw [diffs_length] at this
      exact ((this.div hpos).rnd hA.nonneg hA.rnd).mono hA.nonneg (by omega))
  rw [List.length_range] at hS
  unfold Arith.var
  rw [hlist]
  refine le_trans hS.2 (le_of_eq ?_)
  rw [show 2 * n + 7 + (nLevels - 1) = 2 * n + nLevels + 6 by omega]

namespace ExFl
/-- The number `0.1`. -/
def tenth : ℚ := double (1/10)
/-- Two levels with two chunks on the first, one sample with NaN. -/
def chunks : List (Nat × List (Sample (Option ℚ))) :=
  [(0, [[[some tenth]], [[none]], [[some (3 * tenth)]]]), (1, [[[some 5], [some 3]], [[some 4], [some 7]]]), (0, [[[some 8]]])]
end ExFl

/-- Non-vacuity: the numbers of type `np.float64` satisfy the assumptions, with estimates of two levels. -/
example : float64.Valid (1 / 2 ^ 53) ∧ ∃ e, float64.estimate .scalar 2 ExFl.chunks = .ok e ∧ e.nSamples = [3, 2] ∧ e.nRm = [1, 0] ∧
    (∀ l < 2, 2 ≤ (used ExFl.chunks l).length ∧ (used ExFl.chunks l).length ≤ 3) ∧
    2 * gamma (1 / 2 ^ 53) (2 * (used ExFl.chunks 1).length + 6) * secondMoment (diffs ExFl.chunks 1 0) ≤ sampleVar (diffs ExFl.chunks 1 0) ∧
    e.lMeans ≠ (((List.range 2).map fun l => [some (average (diffs ExFl.chunks l 0))])) :=
  ⟨float64_valid, _, rfl, by decide +kernel, by decide +kernel, by decide +kernel, by decide +kernel, by decide +kernel⟩

/-- `C105` is false for the sign of variances: with `np.float64`, three samples of the value `0.1` have the estimated variance
`-2^-59`. -/
theorem C105_negative_variance_counterexample : ∃ e, float64.estimate .scalar 1 [(0, List.replicate 3 [[some (double (1/10))]])] = .ok e ∧
    e.lVars = [[some (-1 / 2 ^ 59)]] ∧ sampleVar (List.replicate 3 (double (1/10))) = 0 :=
  ⟨_, rfl, by decide +kernel, by decide +kernel⟩

/-- `C105`: the relative error of variances is not small: with `np.float64` the three whole numbers from `2^27` have the estimated
variance 0 instead of 1. -/
theorem C105_cancellation_counterexample : ∃ e, float64.estimate .scalar 1 [(0, [[[some (2^27)]], [[some (2^27 + 1)]], [[some (2^27 + 2)]]])] = .ok e ∧
    e.lVars = [[some 0]] ∧ sampleVar [(2 : ℚ)^27, 2^27 + 1, 2^27 + 2] = 1 :=
  ⟨_, rfl, by decide +kernel, by decide +kernel⟩

end MLMC.Fl
