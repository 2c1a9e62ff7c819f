import Verif.Props.ConstructDensity
import Mathlib.Data.List.GetD
/-! Two samples, 2 and -2, and monomials on (-3, 3): examples for the construction of a density. -/
namespace MLMC.Dens.Ex
open Mom
open scoped Matrix

/-- A function family of scalars. -/
def family (k : Nat) (ψ : Nat → ℝ → ℝ) : MomentFn (Option ℝ) := ⟨k, fun i v => if i < k then v.map (ψ i) else none⟩

/-- Samples 2 and -2 on one level. -/
def two : List (Nat × List (Sample (Option ℝ))) := [(0, [[[some 2]], [[some (-2)]]])]
def q : Quantity (Option ℝ) := .storage 7 .scalar

theorem built : Built 7 .qty q := .root _
theorem twoWf : ChunksWF 1 two := by
  intro c hc
  simp only [two, List.mem_cons, List.not_mem_nil, or_false] at hc
  subst hc
  simp [batchOf, Batch.WF]
theorem lev : ∀ c ∈ two, c.1 < 1 := by simp [two]

theorem moments2 (ψ) : ∃ w, (⟨q, some (family 2 ψ)⟩ : Estimator ℝ).estimateMoments 20 none 1 (asChunks 7 1 two) =
    .ok ([some (((0:ℝ) + (ψ 0 2 + (ψ 0 (-2) + 0))) / ((2 : ℕ) : ℝ) + 0), some (((0:ℝ) + (ψ 1 2 + (ψ 1 (-2) + 0))) / ((2 : ℕ) : ℝ) + 0)], w) := ⟨_, rfl⟩

theorem moments3 (ψ) : ∃ w, (⟨q, some (family 3 ψ)⟩ : Estimator ℝ).estimateMoments 20 none 1 (asChunks 7 1 two) =
    .ok ([some (((0:ℝ) + (ψ 0 2 + (ψ 0 (-2) + 0))) / ((2 : ℕ) : ℝ) + 0), some (((0:ℝ) + (ψ 1 2 + (ψ 1 (-2) + 0))) / ((2 : ℕ) : ℝ) + 0), some (((0:ℝ) + (ψ 2 2 + (ψ 2 (-2) + 0))) / ((2 : ℕ) : ℝ) + 0)], w) := ⟨_, rfl⟩

theorem cov2 (ψ) : ∃ w, (⟨q, some (family 2 ψ)⟩ : Estimator ℝ).estimateCovariance 20 none 1 (asChunks 7 1 two) =
    .ok (((List.range 2).flatMap fun i => (List.range 2).map fun j => some (((0:ℝ) + (ψ i 2 * ψ j 2 + (ψ i (-2) * ψ j (-2) + 0))) / ((2 : ℕ) : ℝ) + 0)), w) := ⟨_, rfl⟩

set_option maxHeartbeats 4000000 in
theorem cov3 (ψ) : ∃ w, (⟨q, some (family 3 ψ)⟩ : Estimator ℝ).estimateCovariance 20 none 1 (asChunks 7 1 two) =
    .ok (((List.range 3).flatMap fun i => (List.range 3).map fun j => some (((0:ℝ) + (ψ i 2 * ψ j 2 + (ψ i (-2) * ψ j (-2) + 0))) / ((2 : ℕ) : ℝ) + 0)), w) := ⟨_, rfl⟩

/-- `Monomial(k, (-3, 3), ref_domain=(-3, 3), safe_eval=False)`. -/
noncomputable def mono (k : Nat) : Moments := ⟨.monomial, k, (-3, 3), (-3, 3), false, false, 1, -3⟩

theorem mono_ok (k : Nat) (hk : 0 < k) : construct .monomial k (-3, 3) (.pair (-3) 3) false false = .ok (mono k) := by
  unfold construct
  rw [if_neg (by omega)]
  simp only [Bool.false_eq_true, false_and, if_false, mono]
  norm_num

theorem mono_transform (k : Nat) (x : ℝ) : (mono k).transform x = some x := by
  simp [Moments.transform, mono, Moments.linear]

theorem row_mono (k : Nat) (hk : 0 < k) (v : Option ℝ) : row (.base (mono k)) v = (List.range k).map fun i => v.map fun x => Mom.pow x i := by
  cases v with
  | none => simp [row, mono]
  | some x =>
    have h0 : ¬ (mono k).size = 0 := by change ¬ k = 0; omega
    simp only [row, Obj.evalAll, Obj.size, Moments.evalAll, if_neg h0, mono_transform]
    rfl

theorem fn_mono (k : Nat) (hk : 0 < k) : fn (.base (mono k)) = family k fun i x => Mom.pow x i := by
  unfold fn family
  congr 1
  funext i v
  rw [row_mono k hk]
  by_cases hi : i < k
  · rw [if_pos hi, getD_lt _ _ _ (by simpa using hi)]
    simp
  · rw [if_neg hi, List.getD_eq_default _ _ (by simpa using hi)]

theorem fn_trans (k w : Nat) (hw : 0 < w) (A : Fin k → Fin w → ℝ) :
    fn (.trans (.base (mono w)) k w A) = family k fun i x => if h : i < k then ∑ j : Fin w, Mom.pow x j.val * A ⟨i, h⟩ j else 0 := by
  unfold fn family
  congr 1
  funext i v
  rw [row_trans (mono w) hw]
  by_cases hi : i < k
  · rw [if_pos hi, combine_getD A _ ⟨i, hi⟩, row_mono w hw]
    cases v with
    | none =>
      rw [if_pos (show none ∈ (List.range w).map fun i => Option.map (fun x => Mom.pow x i) none from List.mem_map.2 ⟨0, List.mem_range.2 hw, rfl⟩)]
      rfl
    | some x =>
      rw [if_neg (by simp)]
      simp only [Option.map_some, dif_pos hi, Option.some.injEq]
      refine Finset.sum_congr rfl fun j _ => ?_
      rw [getD_lt _ _ _ (by simp)]
      simp
  · rw [if_neg hi, List.getD_eq_default _ _ (by simpa [Obj.combine] using hi)]

/-- The library, for the covariances that occur. -/
noncomputable def lib : Lib where
  eigh
    | 1, _ => (![1, 4], 1)
    | 2, _ => (![0, 1, 4], Ortho.V3)
    | _, _ => (0, 0)
  rq
    | 1, 2, _ => (!![-1, 0; 0, 1 / 2], !![0, 1; 1, 0])
    | 2, 2, _ => (!![0, -1; 1 / 2, 0; 0, 0], 1)
    | _, _, _ => (0, 0)

theorem setup_of {lib : Lib} {q : Quantity (Option ℝ)} {o : Obj} {oid : Nat} {tol : ℝ} {nLevels : Nat} {chunks : List (Nat × (Nat → Except PyErr (Arr (Option ℝ))))}
    {n : Nat} (hqt : q.qtype = .scalar) (hsz : o.size = n + 1) {c w} (hc : (⟨q, some (fn o)⟩ : Estimator ℝ).estimateCovariance oid none nLevels chunks = .ok (c, w))
    {cov} (hm : matrixOf n c = some cov) {th} (hth : Ortho.threshold (lib.eigh n (Ortho.centered cov)).1 tol = th)
    {L} (hL : Ortho.transform (lib.rq n (Ortho.kept th) (Ortho.icovSqrtT cov (lib.eigh n (Ortho.centered cov)).1 (lib.eigh n (Ortho.centered cov)).2 th)).1 (by unfold Ortho.kept; omega) = L)
    {mu v} (hmom : (⟨q, some (fn (.trans o (Ortho.kept th) (n + 1) L))⟩ : Estimator ℝ).estimateMoments oid none nLevels chunks = .ok (mu, v)) (hk : 1 < Ortho.kept th) :
    setup lib q o oid tol nLevels chunks = .ok ⟨n, cov, th, L, mu⟩ := by
  subst hth hL
  unfold setup
  simp only [hqt, hc]
  split
  · rename_i h; omega
  · rename_i n' h
    have : n' = n := by omega
    subst this
    rw [hm]
    simp only [hmom]
    rw [if_neg (by omega)]

theorem matrixOf_of {n : Nat} {l : List (Option ℝ)} (h : none ∉ l) : matrixOf n l = some (Matrix.of fun i j => (l.getD (i.val * (n + 1) + j.val) none).getD 0) := by
  unfold matrixOf
  rw [if_neg h]

noncomputable def c2 : Matrix (Fin 2) (Fin 2) ℝ := !![1, 0; 0, 4]
noncomputable def c3 : Matrix (Fin 3) (Fin 3) ℝ := !![1, 0, 4; 0, 4, 0; 4, 0, 16]

theorem matrix2 : matrixOf 1 ((List.range 2).flatMap fun i => (List.range 2).map fun j => some (((0:ℝ) + (Mom.pow 2 i * Mom.pow 2 j + (Mom.pow (-2) i * Mom.pow (-2) j + 0))) / ((2 : ℕ) : ℝ) + 0)) = some c2 := by
  rw [matrixOf_of (by simp)]
  congr 1
  ext i j
  fin_cases i <;> fin_cases j <;> simp [c2, List.range_succ, Mom.pow] <;> norm_num

theorem matrix3 : matrixOf 2 ((List.range 3).flatMap fun i => (List.range 3).map fun j => some (((0:ℝ) + (Mom.pow 2 i * Mom.pow 2 j + (Mom.pow (-2) i * Mom.pow (-2) j + 0))) / ((2 : ℕ) : ℝ) + 0)) = some c3 := by
  rw [matrixOf_of (by simp)]
  congr 1
  ext i j
  fin_cases i <;> fin_cases j <;> simp [c3, List.range_succ, Mom.pow] <;> norm_num

theorem thr2 : Ortho.threshold (n := 1) ![1, 4] (1 / 10) = 0 := by
  classical
  have h0 : (1 / 10 : ℝ) < ![1, 4] (0 : Fin 2) := by simp; norm_num
  have e : List.finRange (1 + 1) = [0, 1] := rfl
  simp only [Ortho.threshold, e, List.find?, h0, decide_true]
  rfl

theorem thr3 : Ortho.threshold (n := 2) ![0, 1, 4] (1 / 10) = 1 := by
  classical
  have h0 : ¬ (1 / 10 : ℝ) < ![0, 1, 4] (0 : Fin 3) := by simp
  have h1 : (1 / 10 : ℝ) < ![0, 1, 4] (1 : Fin 3) := by simp; norm_num
  have e : List.finRange (2 + 1) = [0, 1, 2] := rfl
  simp only [Ortho.threshold, e, List.find?, h0, h1, decide_true, decide_false]
  rfl

noncomputable def L2 : Matrix (Fin 2) (Fin 2) ℝ := !![1, 0; 0, -1 / 2]
noncomputable def L3 : Matrix (Fin 2) (Fin 3) ℝ := !![0, 1 / 2, 0; -1, 0, 0]

theorem transform2 : Ortho.transform (n := 1) (m := 2) !![-1, 0; 0, 1 / 2] (by norm_num) = L2 := by
  unfold Ortho.transform
  rw [if_pos (by simp)]
  ext i j
  fin_cases i <;> fin_cases j <;> simp [L2]
  norm_num

theorem transform3 : Ortho.transform (n := 2) (m := 2) !![0, -1; 1 / 2, 0; 0, 0] (by norm_num) = L3 := by
  unfold Ortho.transform
  rw [if_neg (by simp)]
  ext i j
  fin_cases i <;> fin_cases j <;> simp [L3]

/-- Two monomials: nothing is cut off. -/
noncomputable def s2 : Setup := ⟨1, c2, 0, L2, [some 1, some 0]⟩
/-- Three monomials: the samples do not tell `t²` from a constant, the eigenvalue 0 is cut off. -/
noncomputable def s3 : Setup := ⟨2, c3, 1, L3, [some 0, some (-1)]⟩

theorem setup2 : setup lib q (.base (mono 2)) 20 (1 / 10) 1 (asChunks 7 1 two) = .ok s2 := by
  obtain ⟨w, hc⟩ := cov2 fun i x => Mom.pow x i
  obtain ⟨v, hm⟩ := moments2 fun i x => if h : i < 2 then ∑ j : Fin 2, Mom.pow x j.val * L2 ⟨i, h⟩ j else 0
  rw [← fn_mono 2 (by norm_num)] at hc
  rw [← fn_trans 2 2 (by norm_num) L2] at hm
  have e := setup_of (lib := lib) (tol := 1 / 10) (o := .base (mono 2)) rfl rfl hc matrix2 thr2 transform2 hm (by simp [Ortho.kept])
  rw [e]
  have hmu : ∀ a b : ℝ, [some (((0:ℝ) + (∑ j : Fin 2, Mom.pow 2 j.val * L2 0 j + (∑ j : Fin 2, Mom.pow (-2) j.val * L2 0 j + 0))) / ((2 : ℕ) : ℝ) + 0),
      some (((0:ℝ) + (∑ j : Fin 2, Mom.pow 2 j.val * L2 1 j + (∑ j : Fin 2, Mom.pow (-2) j.val * L2 1 j + 0))) / ((2 : ℕ) : ℝ) + 0)] = [some (1 : ℝ), some 0] := by
    intro a b
    simp [Fin.sum_univ_two, L2, Mom.pow]
  unfold s2
  rw [← hmu 0 0]
  rfl

theorem setup3 : setup lib q (.base (mono 3)) 20 (1 / 10) 1 (asChunks 7 1 two) = .ok s3 := by
  obtain ⟨w, hc⟩ := cov3 fun i x => Mom.pow x i
  obtain ⟨v, hm⟩ := moments2 fun i x => if h : i < 2 then ∑ j : Fin 3, Mom.pow x j.val * L3 ⟨i, h⟩ j else 0
  rw [← fn_mono 3 (by norm_num)] at hc
  rw [← fn_trans 2 3 (by norm_num) L3] at hm
  have e := setup_of (lib := lib) (tol := 1 / 10) (o := .base (mono 3)) rfl rfl hc matrix3 thr3 transform3 hm (by simp [Ortho.kept])
  rw [e]
  have hmu : [some (((0:ℝ) + (∑ j : Fin 3, Mom.pow 2 j.val * L3 0 j + (∑ j : Fin 3, Mom.pow (-2) j.val * L3 0 j + 0))) / ((2 : ℕ) : ℝ) + 0),
      some (((0:ℝ) + (∑ j : Fin 3, Mom.pow 2 j.val * L3 1 j + (∑ j : Fin 3, Mom.pow (-2) j.val * L3 1 j + 0))) / ((2 : ℕ) : ℝ) + 0)] = [some (0 : ℝ), some (-1)] := by
    simp [Fin.sum_univ_three, L3, Mom.pow]
  unfold s3
  rw [← hmu]
  rfl

theorem rq2 : Ortho.IsRQ (n := 1) (m := 2) (!![0, -1; 1 / 2, 0] : Matrix (Fin 2) (Fin 2) ℝ) !![-1, 0; 0, 1 / 2] !![0, 1; 1, 0] := by
  refine ⟨?_, ?_, ?_⟩
  · ext i j
    simp only [Matrix.mul_apply, Fin.sum_univ_two]
    fin_cases i <;> fin_cases j <;> simp
  · ext i j
    simp only [Matrix.mul_apply, Matrix.transpose_apply, Fin.sum_univ_two]
    fin_cases i <;> fin_cases j <;> simp
  · intro i j h
    fin_cases i <;> fin_cases j <;> simp at h ⊢

theorem keeps2 : lib.Keeps 1 c2 0 := by
  have hM : Ortho.centered c2 = !![1, 0; 0, 4] := by
    ext i j
    fin_cases i <;> fin_cases j <;> simp [Ortho.centered, Ortho.centering, c2, Matrix.mul_apply, Fin.sum_univ_two, Matrix.transpose_apply]
  have hI : Ortho.icovSqrtT c2 ![1, 4] 1 0 = (!![0, -1; 1 / 2, 0] : Matrix (Fin 2) (Fin 2) ℝ) := by
    funext i j
    change ((Ortho.centering (n := 1) c2)ᵀ * (1 : Matrix (Fin 2) (Fin 2) ℝ)) i (Ortho.column 0 j) * (1 / √(![1, 4] (Ortho.column (n := 1) 0 j))) = _
    rw [Matrix.mul_one, Matrix.transpose_apply]
    change Fin 2 at j
    have e0 : Ortho.column (0 : Fin 2) (0 : Fin 2) = 1 := rfl
    have e1 : Ortho.column (0 : Fin 2) (1 : Fin 2) = 0 := rfl
    fin_cases i <;> fin_cases j <;> simp [e0, e1, Ortho.centering, c2, Ortho.sqrt4]
  refine ⟨⟨?_, ?_, ?_⟩, ?_⟩
  · intro a b hab
    fin_cases a <;> fin_cases b <;> simp [lib] at hab ⊢
  · simp [lib]
  · rw [hM]
    ext i j
    fin_cases i <;> fin_cases j <;> simp [lib]
  · change Ortho.IsRQ (Ortho.icovSqrtT c2 ![1, 4] 1 0) (!![-1, 0; 0, 1 / 2] : Matrix (Fin 2) (Fin 2) ℝ) (!![0, 1; 1, 0] : Matrix (Fin 2) (Fin 2) ℝ)
    rw [hI]
    exact rq2

theorem keeps3 : lib.Keeps 2 c3 1 := by
  have hs : ∀ f : Fin (2 + 1) → ℝ, ∑ i, f i = f 0 + f 1 + f 2 := Fin.sum_univ_three
  have hM : Ortho.centered c3 = !![1, 0, 0; 0, 4, 0; 0, 0, 0] := by
    ext i j
    simp only [Ortho.centered, Matrix.mul_apply, Matrix.transpose_apply, hs]
    fin_cases i <;> fin_cases j <;> simp [Ortho.centering, c3] <;> norm_num
  have hMV : ∀ i j, ((Ortho.centering c3)ᵀ * Ortho.V3) i j = !![-4, -1, 0; 0, 0, 1; 1, 0, 0] i j := by
    intro i j
    simp only [Matrix.mul_apply, Matrix.transpose_apply, hs]
    fin_cases i <;> fin_cases j <;> simp [Ortho.V3, Ortho.centering, c3]
  have hI : Ortho.icovSqrtT c3 ![0, 1, 4] Ortho.V3 1 = (!![0, -1; 1 / 2, 0; 0, 0] : Matrix (Fin 3) (Fin 2) ℝ) := by
    funext i j
    change ((Ortho.centering c3)ᵀ * Ortho.V3) i (Ortho.column 1 j) * (1 / √(![0, 1, 4] (Ortho.column (n := 2) 1 j))) = _
    rw [hMV]
    change Fin 2 at j
    have e0 : Ortho.column (1 : Fin 3) (0 : Fin 2) = 2 := rfl
    have e1 : Ortho.column (1 : Fin 3) (1 : Fin 2) = 1 := rfl
    fin_cases i <;> fin_cases j <;> simp [e0, e1, Ortho.sqrt4]
  refine ⟨⟨?_, ?_, ?_⟩, ?_⟩
  · intro a b hab
    fin_cases a <;> fin_cases b <;> simp [lib] at hab ⊢
  · exact Ortho.eigh3.orthogonal
  · rw [hM]
    change _ = Ortho.V3 * Matrix.diagonal ![0, 1, 4] * Ortho.V3ᵀ
    ext i j
    simp only [Matrix.mul_apply, Matrix.transpose_apply, hs]
    fin_cases i <;> fin_cases j <;> simp [Ortho.V3, Matrix.diagonal_apply]
  · change Ortho.IsRQ (Ortho.icovSqrtT c3 ![0, 1, 4] Ortho.V3 1) (!![0, -1; 1 / 2, 0; 0, 0] : Matrix (Fin 3) (Fin 2) ℝ) (1 : Matrix (Fin 2) (Fin 2) ℝ)
    rw [hI]
    exact Ortho.rq_cut

theorem estimated2 : ∃ v, (⟨q, some (fn (.base (mono 2)))⟩ : Estimator ℝ).estimateMoments 20 none 1 (asChunks 7 1 two) = .ok ([some 1, some 0], v) := by
  obtain ⟨v, h⟩ := moments2 fun i x => Mom.pow x i
  rw [← fn_mono 2 (by norm_num)] at h
  refine ⟨v, h.trans ?_⟩
  simp [Mom.pow]

theorem estimated3 : ∃ v, (⟨q, some (fn (.base (mono 3)))⟩ : Estimator ℝ).estimateMoments 20 none 1 (asChunks 7 1 two) = .ok ([some 1, some 0, some 4], v) := by
  obtain ⟨v, h⟩ := moments3 fun i x => Mom.pow x i
  rw [← fn_mono 3 (by norm_num)] at h
  refine ⟨v, h.trans ?_⟩
  simp [Mom.pow]
  norm_num

theorem call2 : Call q (mono 2) 1 (asChunks 7 1 two) lib (1 / 10) s2 [some 1, some 0] :=
  ⟨⟨20, setup2⟩, keeps2, by norm_num, by norm_num, 20, estimated2⟩

theorem call3 : Call q (mono 3) 1 (asChunks 7 1 two) lib (1 / 10) s3 [some 1, some 0, some 4] :=
  ⟨⟨20, setup3⟩, keeps3, by norm_num, by norm_num, 20, estimated3⟩

/-- Gauss' quadrature with two points on (-3, 3). -/
noncomputable def gauss : Rule 2 := ⟨![-√3, √3], ![3, 3]⟩
end MLMC.Dens.Ex
