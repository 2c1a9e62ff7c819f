import Verif.Spec.FloatEstimate
import Mathlib.Tactic.Ring
import Mathlib.Tactic.Linarith
import Mathlib.Tactic.FieldSimp
import Mathlib.Algebra.Order.BigOperators.Group.List
import Mathlib.Algebra.BigOperators.Ring.List
import Mathlib.Algebra.Order.Ring.Abs
import Mathlib.Tactic.Positivity
import Mathlib.Data.List.GetD
/-
Error analysis of sums, means and variances.
-/
namespace MLMC.Fl
variable {F : Type} [Field F] [LinearOrder F] [IsStrictOrderedRing F]

/-- `y` is `x` after `k` roundings, relative to `a`. -/
def Near (u : F) (k : Nat) (x y a : F) : Prop := |x| ≤ a ∧ |y - x| ≤ gamma u k * a

/-- The same with twice the error. -/
def Near2 (u : F) (k : Nat) (x y a : F) : Prop := |x| ≤ a ∧ |y - x| ≤ 2 * gamma u k * a

variable {u : F}

theorem pow_one_le (hu : 0 ≤ u) (k : Nat) : 1 ≤ (1 + u) ^ k := one_le_pow₀ (by linarith)

theorem gamma_nonneg (hu : 0 ≤ u) (k : Nat) : 0 ≤ gamma u k := by unfold gamma; have := pow_one_le hu k; linarith

theorem gamma_mono (hu : 0 ≤ u) {k j : Nat} (h : k ≤ j) : gamma u k ≤ gamma u j := by
  unfold gamma
  have : (1 + u) ^ k ≤ (1 + u) ^ j := pow_le_pow_right₀ (by linarith) h
  linarith

theorem Near.nonneg {k : Nat} {x y a : F} (h : Near u k x y a) : 0 ≤ a := le_trans (abs_nonneg _) h.1

theorem Near.mono (hu : 0 ≤ u) {k j : Nat} (hk : k ≤ j) {x y a : F} (h : Near u k x y a) : Near u j x y a :=
  ⟨h.1, le_trans h.2 (mul_le_mul_of_nonneg_right (gamma_mono hu hk) h.nonneg)⟩

theorem Near.refl (hu : 0 ≤ u) (k : Nat) (x : F) : Near u k x x |x| :=
  ⟨le_rfl, by rw [sub_self, abs_zero]; exact mul_nonneg (gamma_nonneg hu k) (abs_nonneg _)⟩

theorem Near.rnd {rnd : F → F} (hu : 0 ≤ u) (hr : ∀ x, |rnd x - x| ≤ u * |x|) {k : Nat} {x y a : F} (h : Near u k x y a) :
    Near u (k + 1) x (rnd y) a := by
  refine ⟨h.1, ?_⟩
  have h1 : |rnd y - x| ≤ |rnd y - y| + |y - x| := abs_sub_le _ _ _
  have h2 : |y| ≤ |x| + |y - x| := by
    have := abs_add_le x (y - x)
    rwa [add_sub_cancel] at this
  have h3 := hr y
  have h4 : u * |y| ≤ u * (a + gamma u k * a) := mul_le_mul_of_nonneg_left (by linarith [h.1, h.2]) hu
  have h5 : u * (a + gamma u k * a) + gamma u k * a = gamma u (k + 1) * a := by unfold gamma; ring
  linarith [h.2]

theorem Near.add {k : Nat} {x y a x' y' a' : F} (h : Near u k x y a) (h' : Near u k x' y' a') : Near u k (x + x') (y + y') (a + a') := by
  refine ⟨le_trans (abs_add_le _ _) (add_le_add h.1 h'.1), ?_⟩
  have e : y + y' - (x + x') = (y - x) + (y' - x') := by ring
  rw [e, mul_add]
  exact le_trans (abs_add_le _ _) (add_le_add h.2 h'.2)

theorem Near.mul (hu : 0 ≤ u) {k j : Nat} {x y a x' y' a' : F} (h : Near u k x y a) (h' : Near u j x' y' a') :
    Near u (k + j) (x * x') (y * y') (a * a') := by
  refine ⟨by rw [abs_mul]; exact mul_le_mul h.1 h'.1 (abs_nonneg _) h.nonneg, ?_⟩
  have e : y * y' - x * x' = (y - x) * y' + x * (y' - x') := by ring
  have h2 : |y'| ≤ (1 + u) ^ j * a' := by
    have := abs_add_le x' (y' - x')
    rw [add_sub_cancel] at this
    have h3 := h'.2
    unfold gamma at h3
    linarith [h'.1]
  have hg := gamma_nonneg hu k
  have ha := h.nonneg
  have ha' := h'.nonneg
  calc |y * y' - x * x'| ≤ |(y - x) * y'| + |x * (y' - x')| := by rw [e]; exact abs_add_le _ _
    _ = |y - x| * |y'| + |x| * |y' - x'| := by rw [abs_mul, abs_mul]
    _ ≤ (gamma u k * a) * ((1 + u) ^ j * a') + a * (gamma u j * a') :=
        add_le_add (mul_le_mul h.2 h2 (abs_nonneg _) (mul_nonneg hg ha)) (mul_le_mul h.1 h'.2 (abs_nonneg _) ha)
    _ = gamma u (k + j) * (a * a') := by unfold gamma; ring

theorem Near.div {k : Nat} {x y a c : F} (hc : 0 < c) (h : Near u k x y a) : Near u k (x / c) (y / c) (a / c) := by
  refine ⟨by rw [abs_div, abs_of_pos hc]; exact div_le_div_of_nonneg_right h.1 hc.le, ?_⟩
  rw [← sub_div, abs_div, abs_of_pos hc, ← mul_div_assoc]
  exact div_le_div_of_nonneg_right h.2 hc.le

theorem Tree.leaves_pos (t : Tree) : 0 < t.leaves.length := by
  induction t with
  | leaf i => simp [Tree.leaves]
  | node a b iha ihb => simp [Tree.leaves]; omega

/-- A sum in the order of a tree with `m` leaves has `m - 1` roundings. -/
theorem Tree.near {rnd : F → F} (hu : 0 ≤ u) (hr : ∀ x, |rnd x - x| ≤ u * |x|) (k : Nat) (x y a : Nat → F) (t : Tree)
    (h : ∀ i ∈ t.leaves, Near u k (x i) (y i) (a i)) :
    Near u (k + (t.leaves.length - 1)) (t.leaves.map x).sum (t.sum rnd y) (t.leaves.map a).sum := by
  induction t with
  | leaf i => simpa [Tree.leaves, Tree.sum] using h i (by simp [Tree.leaves])
  | node s t ihs iht =>
    have hs := ihs fun i hi => h i (by simp [Tree.leaves, hi])
    have ht := iht fun i hi => h i (by simp [Tree.leaves, hi])
    have ps := s.leaves_pos
    have pt := t.leaves_pos
    simp only [Tree.leaves, Tree.sum, List.map_append, List.sum_append, List.length_append]
    have e : k + (s.leaves.length + t.leaves.length - 1) = (k + (s.leaves.length + t.leaves.length - 2)) + 1 := by omega
    rw [e]
    exact ((hs.mono hu (by omega)).add (ht.mono hu (by omega))).rnd hu hr

theorem map_range_getD (xs : List F) : (List.range xs.length).map (fun i => xs.getD i 0) = xs := by
  apply List.ext_getElem (by simp)
  intro i h1 h2
  simp [List.getElem?_eq_getElem h2]

/-- Sum of the images of a list under a function, each with `k` roundings. -/
theorem Arith.Valid.sum_near {A : Arith F} (hA : A.Valid u) {B : Type} (k : Nat) (xs : List B) (hne : xs ≠ []) (x y a : B → F)
    (h : ∀ b ∈ xs, Near u k (x b) (y b) (a b)) : Near u (k + (xs.length - 1)) (xs.map x).sum (A.sum (xs.map y)) (xs.map a).sum := by
  have hpos : 0 < xs.length := List.length_pos_of_ne_nil hne
  have hp := hA.order xs.length hpos
  have T := Tree.near hA.nonneg hA.rnd k (fun i => (xs.map x).getD i 0) (fun i => (xs.map y).getD i 0) (fun i => (xs.map a).getD i 0)
    (A.order xs.length) (fun i hi => by
      have hi' : i < xs.length := by simpa using hp.mem_iff.1 hi
      simp only [List.getD_eq_getElem _ _ (show i < (xs.map x).length by simpa), List.getD_eq_getElem _ _ (show i < (xs.map y).length by simpa),
        List.getD_eq_getElem _ _ (show i < (xs.map a).length by simpa), List.getElem_map]
      exact h _ (List.getElem_mem hi'))
  rw [hp.length_eq, List.length_range, (hp.map _).sum_eq, (hp.map _).sum_eq] at T
  have ex := map_range_getD (xs.map x)
  have ea := map_range_getD (xs.map a)
  rw [List.length_map] at ex ea
  rw [ex, ea] at T
  unfold Arith.sum
  rw [List.length_map]
  exact T

theorem Near2.nonneg {k : Nat} {x y a : F} (h : Near2 u k x y a) : 0 ≤ a := le_trans (abs_nonneg _) h.1

theorem Near2.mono (hu : 0 ≤ u) {k j : Nat} (hk : k ≤ j) {x y a : F} (h : Near2 u k x y a) : Near2 u j x y a :=
  ⟨h.1, le_trans h.2 (mul_le_mul_of_nonneg_right (mul_le_mul_of_nonneg_left (gamma_mono hu hk) (by norm_num)) h.nonneg)⟩

theorem Near2.rnd {rnd : F → F} (hu : 0 ≤ u) (hr : ∀ x, |rnd x - x| ≤ u * |x|) {k : Nat} {x y a : F} (h : Near2 u k x y a) :
    Near2 u (k + 1) x (rnd y) a := by
  refine ⟨h.1, ?_⟩
  have h1 : |rnd y - x| ≤ |rnd y - y| + |y - x| := abs_sub_le _ _ _
  have h2 : |y| ≤ |x| + |y - x| := by
    have := abs_add_le x (y - x)
    rwa [add_sub_cancel] at this
  have h3 := hr y
  have h4 : u * |y| ≤ u * (a + 2 * gamma u k * a) := mul_le_mul_of_nonneg_left (by linarith [h.1, h.2]) hu
  have h5 : u * (a + 2 * gamma u k * a) + 2 * gamma u k * a = 2 * gamma u (k + 1) * a - u * a := by unfold gamma; ring
  have h6 : 0 ≤ u * a := mul_nonneg hu h.nonneg
  linarith [h.2]

theorem Near2.add {k : Nat} {x y a x' y' a' : F} (h : Near2 u k x y a) (h' : Near2 u k x' y' a') : Near2 u k (x + x') (y + y') (a + a') := by
  refine ⟨le_trans (abs_add_le _ _) (add_le_add h.1 h'.1), ?_⟩
  have e : y + y' - (x + x') = (y - x) + (y' - x') := by ring
  rw [e, mul_add]
  exact le_trans (abs_add_le _ _) (add_le_add h.2 h'.2)

theorem Near2.div {k : Nat} {x y a c : F} (hc : 0 < c) (h : Near2 u k x y a) : Near2 u k (x / c) (y / c) (a / c) := by
  refine ⟨by rw [abs_div, abs_of_pos hc]; exact div_le_div_of_nonneg_right h.1 hc.le, ?_⟩
  rw [← sub_div, abs_div, abs_of_pos hc, ← mul_div_assoc]
  exact div_le_div_of_nonneg_right h.2 hc.le

theorem Tree.near2 {rnd : F → F} (hu : 0 ≤ u) (hr : ∀ x, |rnd x - x| ≤ u * |x|) (k : Nat) (x y a : Nat → F) (t : Tree)
    (h : ∀ i ∈ t.leaves, Near2 u k (x i) (y i) (a i)) :
    Near2 u (k + (t.leaves.length - 1)) (t.leaves.map x).sum (t.sum rnd y) (t.leaves.map a).sum := by
  induction t with
  | leaf i => simpa [Tree.leaves, Tree.sum] using h i (by simp [Tree.leaves])
  | node s t ihs iht =>
    have hs := ihs fun i hi => h i (by simp [Tree.leaves, hi])
    have ht := iht fun i hi => h i (by simp [Tree.leaves, hi])
    have ps := s.leaves_pos
    have pt := t.leaves_pos
    simp only [Tree.leaves, Tree.sum, List.map_append, List.sum_append, List.length_append]
    have e : k + (s.leaves.length + t.leaves.length - 1) = (k + (s.leaves.length + t.leaves.length - 2)) + 1 := by omega
    rw [e]
    exact ((hs.mono hu (by omega)).add (ht.mono hu (by omega))).rnd hu hr

theorem Arith.Valid.sum_near2 {A : Arith F} (hA : A.Valid u) {B : Type} (k : Nat) (xs : List B) (hne : xs ≠ []) (x y a : B → F)
    (h : ∀ b ∈ xs, Near2 u k (x b) (y b) (a b)) : Near2 u (k + (xs.length - 1)) (xs.map x).sum (A.sum (xs.map y)) (xs.map a).sum := by
  have hpos : 0 < xs.length := List.length_pos_of_ne_nil hne
  have hp := hA.order xs.length hpos
  have T := Tree.near2 hA.nonneg hA.rnd k (fun i => (xs.map x).getD i 0) (fun i => (xs.map y).getD i 0) (fun i => (xs.map a).getD i 0)
    (A.order xs.length) (fun i hi => by
      have hi' : i < xs.length := by simpa using hp.mem_iff.1 hi
      simp only [List.getD_eq_getElem _ _ (show i < (xs.map x).length by simpa), List.getD_eq_getElem _ _ (show i < (xs.map y).length by simpa),
        List.getD_eq_getElem _ _ (show i < (xs.map a).length by simpa), List.getElem_map]
      exact h _ (List.getElem_mem hi'))
  rw [hp.length_eq, List.length_range, (hp.map _).sum_eq, (hp.map _).sum_eq] at T
  have ex := map_range_getD (xs.map x)
  have ea := map_range_getD (xs.map a)
  rw [List.length_map] at ex ea
  rw [ex, ea] at T
  unfold Arith.sum
  rw [List.length_map]
  exact T

theorem diff_near {A : Arith F} (hA : A.Valid u) (l i : Nat) (s : Sample (Option F)) :
    Near u 1 (((s.getD 0 []).getD i none).getD 0 - if l = 0 then 0 else ((s.getD 1 []).getD i none).getD 0) (A.diff l i s)
      |((s.getD 0 []).getD i none).getD 0 - if l = 0 then 0 else ((s.getD 1 []).getD i none).getD 0| := by
  unfold Arith.diff
  by_cases hl : l = 0
  · rw [if_pos hl, if_pos hl, sub_zero]; exact .refl hA.nonneg 1 _
  · rw [if_neg hl, if_neg hl]; exact (Near.refl hA.nonneg 0 _).rnd hA.nonneg hA.rnd

/-- What the loop has accumulated over the chunks `cs`. -/
structure Acc (u : F) (cs : List (Nat × List (Sample (Option F)))) (acc : MeanAcc F) : Prop where
  n : ∀ l, acc.n l = (used cs l).length
  rm : ∀ l, acc.rm l = ((levelData cs l).filter hasNan).length
  sums : ∀ l i, Near u ((used cs l).length + 1) (diffs cs l i).sum (acc.sums l i) ((diffs cs l i).map fun x => |x|).sum
  sqs : ∀ l i, Near u ((used cs l).length + 3) ((diffs cs l i).map fun x => x ^ 2).sum (acc.sqs l i) ((diffs cs l i).map fun x => x ^ 2).sum
  started : acc.started = true ↔ ∃ l, used cs l ≠ []

theorem acc_init (hu : 0 ≤ u) : Acc u [] (MeanAcc.init : MeanAcc F) := by
  refine ⟨fun l => rfl, fun l => rfl, fun l i => ?_, fun l i => ?_, ?_⟩
  · simpa [diffs, used, levelData, MeanAcc.init] using Near.refl hu 1 (0 : F)
  · simpa [diffs, used, levelData, MeanAcc.init] using Near.refl hu 3 (0 : F)
  · simp [MeanAcc.init, used, levelData]

theorem used_append (cs : List (Nat × List (Sample (Option F)))) (c : Nat × List (Sample (Option F))) (l : Nat) :
    used (cs ++ [c]) l = used cs l ++ if l = c.1 then c.2.filter (fun s => !hasNan s) else [] := by
  unfold used levelData
  by_cases h : c.1 = l
  · simp [List.filter_append, h]
  · simp [List.filter_append, h, Ne.symm h]

theorem data_append (cs : List (Nat × List (Sample (Option F)))) (c : Nat × List (Sample (Option F))) (l : Nat) :
    levelData (cs ++ [c]) l = levelData cs l ++ if l = c.1 then c.2 else [] := by
  unfold levelData
  by_cases h : c.1 = l
  · simp [List.filter_append, h]
  · simp [List.filter_append, h, Ne.symm h]

theorem acc_step {A : Arith F} (hA : A.Valid u) {cs : List (Nat × List (Sample (Option F)))} {acc acc' : MeanAcc F} (h : Acc u cs acc)
    {nLevels : Nat} {c : Nat × List (Sample (Option F))} (hs : A.step nLevels acc c.1 c.2 = .ok acc') : Acc u (cs ++ [c]) acc' := by
  obtain ⟨level, chunk⟩ := c
  unfold Arith.step at hs
  simp only at hs
  split at hs
  · simp at hs
  change (if (chunk.filter fun s => !hasNan s).length = 0 then _ else _) = _ at hs
  split at hs
  · rename_i h0
    have h0' : chunk.filter (fun s => !hasNan s) = [] := List.eq_nil_of_length_eq_zero h0
    injection hs with hs
    subst hs
    have hu : ∀ l, used (cs ++ [(level, chunk)]) l = used cs l := by
      intro l
      rw [used_append]
      split <;> simp [h0']
    have hd : ∀ l i, diffs (cs ++ [(level, chunk)]) l i = diffs cs l i := by intro l i; unfold diffs; rw [hu]
    refine ⟨fun l => ?_, fun l => ?_, fun l i => ?_, fun l i => ?_, ?_⟩
    · rw [hu, ← h.n]
      show (if l = level then acc.n l + (chunk.filter fun s => !hasNan s).length else acc.n l) = _
      rw [h0']; simp
    · rw [data_append, List.filter_append, List.length_append, ← h.rm]
      show (if l = level then acc.rm l + (chunk.filter hasNan).length else acc.rm l) = _
      split <;> simp
    · rw [hu, hd]; exact h.sums l i
    · rw [hu, hd]; exact h.sqs l i
    · simp only [hu]; exact h.started
  · rename_i h0
    have hne : chunk.filter (fun s => !hasNan s) ≠ [] := fun e => h0 (by rw [e]; rfl)
    have hpos := List.length_pos_of_ne_nil hne
    injection hs with hs
    subst hs
    have hu1 : ∀ l, used (cs ++ [(level, chunk)]) l = used cs l ++ if l = level then chunk.filter (fun s => !hasNan s) else [] :=
      fun l => used_append _ _ _
    have hother : ∀ l, l ≠ level → used (cs ++ [(level, chunk)]) l = used cs l := by intro l hl; rw [hu1, if_neg hl, List.append_nil]
    have hsame : used (cs ++ [(level, chunk)]) level = used cs level ++ chunk.filter (fun s => !hasNan s) := by rw [hu1, if_pos rfl]
    have hdo : ∀ l i, l ≠ level → diffs (cs ++ [(level, chunk)]) l i = diffs cs l i := by intro l i hl; unfold diffs; rw [hother l hl]
    have hds : ∀ i, diffs (cs ++ [(level, chunk)]) level i = diffs cs level i ++ (chunk.filter fun s => !hasNan s).map
        (fun s => ((s.getD 0 []).getD i none).getD 0 - if level = 0 then 0 else ((s.getD 1 []).getD i none).getD 0) := by
      intro i; unfold diffs; rw [hsame, List.map_append]
    refine ⟨fun l => ?_, fun l => ?_, fun l i => ?_, fun l i => ?_, ?_⟩
    · rw [hu1, List.length_append, ← h.n]
      show (if l = level then acc.n l + (chunk.filter fun s => !hasNan s).length else acc.n l) = _
      split <;> simp
    · rw [data_append, List.filter_append, List.length_append, ← h.rm]
      show (if l = level then acc.rm l + (chunk.filter hasNan).length else acc.rm l) = _
      split <;> simp
    · by_cases hl : l = level
      · subst hl
        have hsum := hA.sum_near 1 (chunk.filter fun s => !hasNan s) hne _ _ _ (fun s _ => diff_near hA l i s)
        rw [hsame, hds, List.map_append, List.sum_append, List.sum_append, List.map_map, List.length_append]
        show Near u _ _ (if l = l then _ else _) _
        rw [if_pos rfl]
        have := ((h.sums l i).mono hA.nonneg (Nat.le_add_right _ ((chunk.filter fun s => !hasNan s).length - 1))).add (hsum.mono hA.nonneg
          (show 1 + ((chunk.filter fun s => !hasNan s).length - 1) ≤ (used cs l).length + 1 + ((chunk.filter fun s => !hasNan s).length - 1) by omega))
        exact (this.rnd hA.nonneg hA.rnd).mono hA.nonneg (by omega)
      · rw [hother l hl, hdo l i hl]
        show Near u _ _ (if l = level then _ else _) _
        rw [if_neg hl]; exact h.sums l i
    · by_cases hl : l = level
      · subst hl
        have hsq : ∀ s ∈ chunk.filter (fun s => !hasNan s),
            Near u 3 ((((s.getD 0 []).getD i none).getD 0 - if l = 0 then 0 else ((s.getD 1 []).getD i none).getD 0) ^ 2)
              (A.rnd (A.diff l i s * A.diff l i s))
              ((((s.getD 0 []).getD i none).getD 0 - if l = 0 then 0 else ((s.getD 1 []).getD i none).getD 0) ^ 2) := by
          intro s _
          have := (((diff_near hA l i s).mul hA.nonneg (diff_near hA l i s)).rnd hA.nonneg hA.rnd)
          rw [abs_mul_abs_self, ← pow_two] at this
          exact this
        have hsum := hA.sum_near 3 (chunk.filter fun s => !hasNan s) hne _ _ _ hsq
        rw [hsame, hds, List.map_append, List.sum_append, List.map_map, List.length_append]
        show Near u _ _ (if l = l then _ else _) _
        rw [if_pos rfl]
        have := ((h.sqs l i).mono hA.nonneg (Nat.le_add_right _ ((chunk.filter fun s => !hasNan s).length - 1))).add (hsum.mono hA.nonneg
          (show 3 + ((chunk.filter fun s => !hasNan s).length - 1) ≤ (used cs l).length + 3 + ((chunk.filter fun s => !hasNan s).length - 1) by omega))
        exact (this.rnd hA.nonneg hA.rnd).mono hA.nonneg (by omega)
      · rw [hother l hl, hdo l i hl]
        show Near u _ _ (if l = level then _ else _) _
        rw [if_neg hl]; exact h.sqs l i
    · simp only [true_iff]
      refine ⟨level, ?_⟩
      rw [hsame]
      intro e
      exact hne (List.append_eq_nil_iff.1 e).2

theorem acc_loop {A : Arith F} (hA : A.Valid u) {nLevels : Nat} : ∀ (cs done : List (Nat × List (Sample (Option F)))) (acc acc' : MeanAcc F),
    Acc u done acc → A.loop nLevels acc cs = .ok acc' → Acc u (done ++ cs) acc'
  | [], done, acc, acc', h, hl => by
    unfold Arith.loop at hl
    injection hl with hl
    subst hl
    rwa [List.append_nil]
  | c :: cs, done, acc, acc', h, hl => by
    unfold Arith.loop at hl
    split at hl
    · simp at hl
    · rename_i a ha
      have := acc_loop hA cs (done ++ [c]) a acc' (acc_step hA h ha) hl
      rwa [List.append_assoc] at this

theorem abs_sum_sq (xs : List F) : ((xs.map fun x => |x|).sum) ^ 2 ≤ xs.length * (xs.map fun x => x ^ 2).sum := by
  have h : ∀ (c : F), 0 ≤ (xs.map fun x => (|x| - c) ^ 2).sum := fun c => List.sum_nonneg (by
    intro y hy
    obtain ⟨x, -, rfl⟩ := List.mem_map.1 hy
    exact sq_nonneg _)
  have e : ∀ (c : F), (xs.map fun x => (|x| - c) ^ 2).sum = (xs.map fun x => x ^ 2).sum - 2 * c * (xs.map fun x => |x|).sum + xs.length * c ^ 2 := by
    intro c
    induction xs with
    | nil => simp
    | cons x xs ih =>
      have hx := sq_abs x
      simp only [List.map_cons, List.sum_cons, List.length_cons, Nat.cast_add, Nat.cast_one]
      rw [ih (fun c => List.sum_nonneg (by
        intro y hy
        obtain ⟨x, -, rfl⟩ := List.mem_map.1 hy
        exact sq_nonneg _))]
      rw [← hx]; ring
  rcases xs.eq_nil_or_concat with rfl | ⟨ys, y, hy⟩
  · simp
  · have hpos : (0 : F) < xs.length := by rw [hy]; simp; positivity
    have h1 := h ((xs.map fun x => |x|).sum / xs.length)
    rw [e] at h1
    have h2 : (xs.map fun x => x ^ 2).sum - 2 * ((xs.map fun x => |x|).sum / xs.length) * (xs.map fun x => |x|).sum +
        xs.length * ((xs.map fun x => |x|).sum / xs.length) ^ 2 =
        ((xs.length : F) * (xs.map fun x => x ^ 2).sum - ((xs.map fun x => |x|).sum) ^ 2) / xs.length := by
      field_simp
      ring
    rw [h2] at h1
    have := (div_nonneg_iff.1 h1).elim (fun h => h.1) (fun h => absurd h.2 (not_le.2 hpos))
    linarith

/-- The textbook variance by sums. -/
theorem sampleVar_sums (xs : List F) (h : xs ≠ []) : sampleVar xs = ((xs.map fun x => x ^ 2).sum - xs.sum ^ 2 / xs.length) / (xs.length - 1) := by
  have hpos : (xs.length : F) ≠ 0 := by
    have : 0 < xs.length := List.length_pos_of_ne_nil h
    exact_mod_cast this.ne'
  have e : ∀ (c : F) (ys : List F), (ys.map fun x => (x - c) ^ 2).sum = (ys.map fun x => x ^ 2).sum - 2 * c * ys.sum + ys.length * c ^ 2 := by
    intro c ys
    induction ys with
    | nil => simp
    | cons x ys ih =>
      simp only [List.map_cons, List.sum_cons, List.length_cons, Nat.cast_add, Nat.cast_one]
      rw [ih]; ring
  unfold sampleVar
  congr 1
  rw [e]
  unfold average
  field_simp
  ring

/-- The error of the formula for the variance. -/
theorem var_near {A : Arith F} (hA : A.Valid u) (xs : List F) (hn : 2 ≤ xs.length) (s sp : F)
    (hs : Near u (xs.length + 1) xs.sum s (xs.map fun x => |x|).sum)
    (hp : Near u (xs.length + 3) (xs.map fun x => x ^ 2).sum sp (xs.map fun x => x ^ 2).sum) :
    Near2 u (2 * xs.length + 6) (sampleVar xs) (A.rnd (A.rnd (sp - A.rnd (A.rnd (s * s) / xs.length)) / (xs.length - 1))) (secondMoment xs) := by
  have hu := hA.nonneg
  have hne : xs ≠ [] := by rintro rfl; simp at hn
  have hn0 : (0 : F) < xs.length := by exact_mod_cast (by omega : 0 < xs.length)
  have hn1 : (0 : F) < xs.length - 1 := by
    have : (1 : F) < xs.length := by exact_mod_cast (by omega : 1 < xs.length)
    linarith
  have ht := (((hs.mul hu hs).rnd hu hA.rnd).div hn0).rnd hu hA.rnd
  have hA2 := abs_sum_sq xs
  have hQ : 0 ≤ (xs.map fun x => x ^ 2).sum := hp.nonneg
  generalize hQe : (xs.map fun x => x ^ 2).sum = Q at *
  generalize hAe : (xs.map fun x => |x|).sum = a at *
  generalize hte : A.rnd (A.rnd (s * s) / xs.length) = t at *
  have hle : a * a / xs.length ≤ Q := by rw [div_le_iff₀ hn0]; nlinarith
  have hS : xs.sum * xs.sum / xs.length ≤ Q := le_trans (le_abs_self _) (le_trans ht.1 hle)
  have hS0 : 0 ≤ xs.sum * xs.sum / xs.length := div_nonneg (mul_self_nonneg _) hn0.le
  -- the difference, before it is rounded
  have hg := gamma_nonneg hu (2 * xs.length + 4)
  have ht2 : |t - xs.sum * xs.sum / xs.length| ≤ gamma u (2 * xs.length + 4) * Q := by
    refine le_trans ht.2 (mul_le_mul (le_of_eq (by congr 1; omega)) hle (ht.nonneg) hg)
  have hp2 : |sp - Q| ≤ gamma u (2 * xs.length + 4) * Q := le_trans hp.2 (mul_le_mul_of_nonneg_right (gamma_mono hu (by omega)) hQ)
  have hd : |sp - t - (Q - xs.sum * xs.sum / xs.length)| ≤ 2 * gamma u (2 * xs.length + 4) * Q := by
    have e : sp - t - (Q - xs.sum * xs.sum / xs.length) = (sp - Q) - (t - xs.sum * xs.sum / xs.length) := by ring
    rw [e]
    refine le_trans (abs_sub _ _) ?_
    linarith
  have hV : |Q - xs.sum * xs.sum / xs.length| ≤ Q := by rw [abs_of_nonneg (by linarith)]; linarith
  have s1 := ((Near2.rnd hu hA.rnd ⟨hV, hd⟩).div hn1).rnd hu hA.rnd
  have ev : sampleVar xs = (Q - xs.sum * xs.sum / xs.length) / (xs.length - 1) := by rw [sampleVar_sums xs hne, hQe, pow_two]
  rw [ev]
  unfold secondMoment
  rw [hQe]
  exact s1

/-- Few roundings: the factor is almost the number of roundings. -/
theorem gamma_le (hu : 0 ≤ u) (k : Nat) (h : k * u ≤ 1) : gamma u k ≤ 2 * k * u := by
  have key : ∀ j : Nat, j ≤ k → gamma u j ≤ 2 * j * u ∧ gamma u j ≤ j * u + (j * u) ^ 2 := by
    intro j
    induction j with
    | zero => intro _; simp [gamma]
    | succ j ih =>
      intro hj
      obtain ⟨h1, h2⟩ := ih (by omega)
      have hju : (j : F) * u ≤ 1 := le_trans (mul_le_mul_of_nonneg_right (by exact_mod_cast (by omega : j ≤ k)) hu) h
      have hju1 : ((j : F) + 1) * u ≤ 1 := le_trans (mul_le_mul_of_nonneg_right (by exact_mod_cast (by omega : j + 1 ≤ k)) hu) h
      have hj0 : (0 : F) ≤ j := Nat.cast_nonneg j
      have hjn : 0 ≤ (j : F) * u := mul_nonneg hj0 hu
      have e : gamma u (j + 1) = gamma u j + u * gamma u j + u := by unfold gamma; ring
      have b2 : gamma u (j + 1) ≤ ((j + 1 : Nat) : F) * u + (((j + 1 : Nat) : F) * u) ^ 2 := by
        rw [e]
        push_cast
        have := mul_le_mul_of_nonneg_left h1 hu
        nlinarith [mul_nonneg hu hu]
      refine ⟨?_, b2⟩
      have : (((j + 1 : Nat) : F) * u) ^ 2 ≤ ((j + 1 : Nat) : F) * u := by
        push_cast
        rw [pow_two]
        exact mul_le_of_le_one_left (mul_nonneg (by positivity) hu) hju1
      linarith
  exact (key k le_rfl).1

theorem two_eq (e : ℤ) : two e = (2 : ℚ) ^ e := by
  unfold two
  split
  · rename_i h
    conv_rhs => rw [← Int.toNat_of_nonneg h]
    rw [zpow_natCast]
  · rename_i h
    have : e = -((-e).toNat : ℤ) := by rw [Int.toNat_of_nonneg (by omega)]; ring
    conv_rhs => rw [this]
    rw [zpow_neg, zpow_natCast, one_div]

theorem nearest_err (q : ℚ) : |(nearest q : ℚ) - q| ≤ 1/2 := by
  have h1 := Int.fract_nonneg q
  have h2 := Int.fract_lt_one q
  have h3 : q = ⌊q⌋ + Int.fract q := (Int.floor_add_fract q).symm
  unfold nearest
  split_ifs <;> rw [abs_le] <;> push_cast <;> constructor <;> linarith

theorem double_pos (x : ℚ) (hx : 0 < x) (e : ℤ) (he : e = Int.log 2 |x| - 52) : |nearest (x * two (-e)) * two e - x| ≤ 1 / 2 ^ 53 * |x| := by
  rw [abs_of_pos hx] at he ⊢
  have h2 : (0 : ℚ) < two e := by rw [two_eq]; exact zpow_pos (by norm_num) e
  have hm : two (-e) * two e = 1 := by rw [two_eq, two_eq, ← zpow_add₀ (by norm_num)]; simp
  have e1 : (nearest (x * two (-e)) : ℚ) * two e - x = ((nearest (x * two (-e)) : ℚ) - x * two (-e)) * two e := by
    have : x * two (-e) * two e = x := by rw [mul_assoc, hm, mul_one]
    rw [sub_mul, this]
  rw [e1, abs_mul, abs_of_pos h2]
  have h3 := nearest_err (x * two (-e))
  have h4 : two e ≤ x * (1 / 2 ^ 52) := by
    have := Int.zpow_log_le_self (b := 2) (r := x) (by norm_num) hx
    rw [two_eq, he, zpow_sub₀ (by norm_num)]
    rw [div_eq_mul_one_div]
    have h5 : (1 : ℚ) / 2 ^ (52 : ℤ) = 1 / 2 ^ 52 := by norm_num
    rw [h5]
    exact mul_le_mul_of_nonneg_right (by exact_mod_cast this) (by norm_num)
  have h6 : 0 ≤ |(nearest (x * two (-e)) : ℚ) - x * two (-e)| := abs_nonneg _
  nlinarith

theorem oneByOne_leaves : ∀ n, 0 < n → (oneByOne n).leaves = List.range n
  | 1, _ => rfl
  | n + 2, _ => by
    rw [oneByOne, Tree.leaves, oneByOne_leaves (n + 1) (by omega), Tree.leaves]
    exact (List.range_succ).symm

/-- The arithmetic of doubles satisfies the standard model with `u = 2^-53`. -/
theorem float64_valid : float64.Valid (1 / 2 ^ 53) := by
  refine ⟨by norm_num, fun x => ?_, fun n hn => ?_⟩
  · show |double x - x| ≤ _
    unfold double
    by_cases h0 : x = 0
    · rw [if_pos h0, h0]; simp
    rw [if_neg h0]
    by_cases hx : 0 < x
    · simp only [if_pos hx]; exact double_pos x hx _ rfl
    · simp only [if_neg hx]
      have hneg : 0 < -x := by
        have := lt_of_le_of_ne (not_lt.1 hx) h0
        linarith
      have := double_pos (-x) hneg (Int.log 2 |x| - 52) (by rw [abs_neg])
      rw [abs_neg x] at this
      calc _ = |(nearest (-x * two (-(Int.log 2 |x| - 52))) : ℚ) * two (Int.log 2 |x| - 52) - -x| := by rw [← abs_neg]; congr 1; ring
        _ ≤ _ := this
  · show (oneByOne n).leaves.Perm _
    rw [oneByOne_leaves n hn]

end MLMC.Fl
