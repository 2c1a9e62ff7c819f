import Verif.Spec.Estimate
import Verif.Props.Quantity
import Mathlib.Algebra.BigOperators.Group.List.Lemmas
import Mathlib.Algebra.BigOperators.Ring.List
import Mathlib.Tactic.Ring
import Mathlib.Tactic.FieldSimp
import Mathlib.Data.Rat.Cast.CharZero
/-! Helper lemmas about the estimation loop. -/
namespace MLMC
variable {F : Type}

/-- Sample `j` of an array. -/
def Arr.sampleAt {K : Type} (a : Arr K) (j : Nat) : Sample K := (List.range a.p).map fun k => a.rows.map fun r => r j k

theorem samples_eq {K : Type} (a : Arr K) : a.samples = (List.range a.n).map a.sampleAt := rfl

theorem nanAt_sample (a : Arr (Option F)) (j : Nat) : a.nanAt j = hasNan (a.sampleAt j) := by
  rw [Bool.eq_iff_iff]
  simp only [Arr.nanAt, hasNan, Arr.sampleAt, List.any_eq_true, List.mem_map]
  constructor
  · rintro ⟨r, hr, k, hk, h⟩
    exact ⟨_, ⟨k, hk, rfl⟩, _, List.mem_map_of_mem hr, h⟩
  · rintro ⟨_, ⟨k, hk, rfl⟩, x, hx, h⟩
    obtain ⟨r, hr, rfl⟩ := List.mem_map.1 hx
    exact ⟨r, hr, k, hk, h⟩

theorem maskNan_n (a : Arr (Option F)) : (maskNan a).1.n = (a.samples.filter fun s => !hasNan s).length := by
  unfold maskNan
  simp only [samples_eq, List.filter_map, List.length_map, nanAt_sample, Function.comp_def]

theorem maskNan_rm (a : Arr (Option F)) : (maskNan a).2 = (a.samples.filter hasNan).length := by
  unfold maskNan
  simp only [samples_eq, List.filter_map, List.length_map, nanAt_sample, Function.comp_def]

theorem range_getD_map {α : Type} (l : List Nat) (f : Nat → α) : (List.range l.length).map (fun j => f (l.getD j 0)) = l.map f := by
  apply List.ext_getElem
  · simp
  · intro n h1 h2
    simp at h1 h2
    simp [h1]

theorem maskNan_diffs [Field F] (a : Arr (Option F)) (level i : Nat) (hi : i < a.rows.length) (hp : (if level = 0 then 1 else 2) ≤ a.p) (g : F → F) :
    (List.range (maskNan a).1.n).map (fun j => g (chunkDiff level ((maskNan a).1.rows.getD i fun _ _ => none) j)) =
      (a.samples.filter fun s => !hasNan s).map fun s => g ((levelDiff level s).getD i 0) := by
  have hs : ∀ j k, k < a.p → ((a.sampleAt j).getD k []) = a.rows.map fun r => r j k := by
    intro j k hk
    unfold Arr.sampleAt
    rw [getD_lt _ _ _ (by simpa using hk)]
    simp
  have key : ∀ j, chunkDiff level (a.rows.getD i fun _ _ => none) j = (levelDiff level (a.sampleAt j)).getD i 0 := by
    intro j
    unfold chunkDiff levelDiff
    by_cases hl : level = 0
    · rw [if_pos hl] at hp
      rw [if_pos hl, if_pos hl, hs j 0 (by omega), getD_lt _ _ _ hi, getD_lt _ _ _ (by simpa using hi)]
      simp
    · rw [if_neg hl] at hp
      rw [if_neg hl, if_neg hl, hs j 0 (by omega), hs j 1 (by omega), getD_lt _ _ _ hi, getD_lt _ _ _ (by simpa using hi)]
      simp
  rw [samples_eq, List.filter_map, List.map_map]
  simp only [Function.comp_def, ← nanAt_sample]
  rw [← range_getD_map ((List.range a.n).filter fun j => !a.nanAt j) fun j => g ((levelDiff level (a.sampleAt j)).getD i 0)]
  unfold maskNan
  apply List.map_congr_left
  intro j _
  rw [← key]
  simp only [chunkDiff]
  rw [getD_lt _ _ _ (by simpa using hi), getD_lt _ _ _ hi]
  simp

theorem levelData_cons {K : Type} (c : Nat × List (Sample K)) (cs : List (Nat × List (Sample K))) (l : Nat) :
    levelData (c :: cs) l = (if c.1 = l then c.2 else []) ++ levelData cs l := by
  unfold levelData
  by_cases h : c.1 = l <;> simp [h]

theorem levelData_perm_nil {K : Type} (chunks : List (Nat × List (Sample K))) : (∀ l, levelData chunks l = []) ↔ ∀ c ∈ chunks, c.2 = [] := by
  constructor
  · intro h c hc
    have := h c.1
    unfold levelData at this
    rw [List.flatMap_eq_nil_iff] at this
    exact this c (by simp [hc])
  · intro h l
    unfold levelData
    rw [List.flatMap_eq_nil_iff]
    intro c hc
    exact h c (List.mem_of_mem_filter hc)

/-- The evaluation of `q` on each chunk gives `m` rows. -/
def Evals (q : Quantity (Option F)) (sid W m : Nat) (chunks : List (Nat × List (Sample (Option F)))) : Prop :=
  ∀ c ∈ chunks, ∃ a : Arr (Option F), q.on sid (batchOf W c.1 c.2) = .ok (.arr a) ∧ a.rows.length = m ∧ a.p = (if c.1 = 0 then 1 else 2) ∧
    a.samples = levelValues q sid W c.2

variable [Field F]

theorem meanLoop_ok (q : Quantity (Option F)) (sid W nLevels : Nat) (chunks : List (Nat × List (Sample (Option F))))
    (hev : Evals q sid W q.size chunks) (hl : ∀ c ∈ chunks, c.1 < nLevels) (acc : MeanAcc F) :
    ∃ acc', meanLoop q nLevels acc (asChunks sid W chunks) = .ok acc' ∧
      (∀ l, acc'.n l = acc.n l + (usedValues q sid W (levelData chunks l)).length) ∧
      (∀ l, acc'.rm l = acc.rm l + ((levelValues q sid W (levelData chunks l)).filter hasNan).length) ∧
      (acc'.started = (acc.started || chunks.any fun c => usedValues q sid W c.2 ≠ [])) ∧
      (∀ l i, i < q.size → acc'.sums l i = acc.sums l i + (usedDiffs q sid W l i (levelData chunks l)).sum) ∧
      (∀ l i, i < q.size → acc'.sqs l i = acc.sqs l i + ((usedDiffs q sid W l i (levelData chunks l)).map (· ^ 2)).sum) := by
  induction chunks generalizing acc with
  | nil =>
    refine ⟨acc, rfl, ?_, ?_, ?_, ?_, ?_⟩ <;> simp [levelData, usedValues, levelValues, usedDiffs]
  | cons c cs ih =>
    obtain ⟨a, ha, hrows, hp, hsam⟩ := hev c (by simp)
    have hq : q.samples (fun o => if o = sid then .ok (batchOf W c.1 c.2).toArr else .error .other) = .ok (.arr a) := ha
    have hlc := hl c (by simp)
    have hn : (maskNan a).1.n = (usedValues q sid W c.2).length := by rw [maskNan_n, hsam]; rfl
    have hrm : (maskNan a).2 = ((levelValues q sid W c.2).filter hasNan).length := by rw [maskNan_rm, hsam]
    have happ : ∀ l, levelValues q sid W (levelData (c :: cs) l) =
        levelValues q sid W (if c.1 = l then c.2 else []) ++ levelValues q sid W (levelData cs l) := by
      intro l; rw [levelData_cons]; simp [levelValues, List.filterMap_append]
    have happu : ∀ l, usedValues q sid W (levelData (c :: cs) l) =
        usedValues q sid W (if c.1 = l then c.2 else []) ++ usedValues q sid W (levelData cs l) := by
      intro l; simp only [usedValues, happ, List.filter_append]
    have hnil : usedValues q sid W [] = [] := rfl
    have hnilv : levelValues q sid W [] = [] := rfl
    show ∃ acc', meanLoop q nLevels acc ((c.1, _) :: asChunks sid W cs) = _ ∧ _
    simp only [meanLoop, bind, Except.bind, hq]
    by_cases h0 : usedValues q sid W c.2 = []
    · have hstep : meanStep q.size nLevels acc c.1 (.arr a) = .ok { acc with
          n := fun l => if l = c.1 then acc.n l + (maskNan a).1.n else acc.n l
          rm := fun l => if l = c.1 then acc.rm l + (maskNan a).2 else acc.rm l } := by
        unfold meanStep
        simp only
        rw [if_neg (by omega), if_pos (by rw [hn, h0]; rfl)]
      rw [hstep]
      obtain ⟨acc', h1, h2, h3, h4, h5, h6⟩ := ih (fun c' hc' => hev c' (by simp [hc'])) (fun c' hc' => hl c' (by simp [hc'])) { acc with
          n := fun l => if l = c.1 then acc.n l + (maskNan a).1.n else acc.n l
          rm := fun l => if l = c.1 then acc.rm l + (maskNan a).2 else acc.rm l }
      refine ⟨acc', h1, ?_, ?_, ?_, ?_, ?_⟩
      · intro l
        rw [h2, happu]
        by_cases e : c.1 = l
        · subst e; simp [hn, h0]
        · simp [e, Ne.symm e, hnil]
      · intro l
        rw [h3, happ]
        by_cases e : c.1 = l
        · subst e; simp [hrm]; omega
        · simp [e, Ne.symm e, hnilv]
      · rw [h4]; simp [h0]
      · intro l i hi
        rw [h5 l i hi]
        simp only [usedDiffs, happu]
        by_cases e : c.1 = l
        · subst e; simp [h0]
        · simp [e, hnil]
      · intro l i hi
        rw [h6 l i hi]
        simp only [usedDiffs, happu]
        by_cases e : c.1 = l
        · subst e; simp [h0]
        · simp [e, hnil]
    · have hn0 : (maskNan a).1.n ≠ 0 := by
        rw [hn]; intro e; exact h0 (List.length_eq_zero_iff.1 e)
      have hp' : (if c.1 = 0 then 1 else 2) ≤ a.p := by rw [hp]
      obtain ⟨acc1, hstep, e1, e2, e3, e4, e5⟩ : ∃ acc1, meanStep q.size nLevels acc c.1 (.arr a) = .ok acc1 ∧
          (∀ l, acc1.n l = acc.n l + (usedValues q sid W (if c.1 = l then c.2 else [])).length) ∧
          (∀ l, acc1.rm l = acc.rm l + ((levelValues q sid W (if c.1 = l then c.2 else [])).filter hasNan).length) ∧
          acc1.started = true ∧
          (∀ l i, i < q.size → acc1.sums l i = acc.sums l i + (usedDiffs q sid W l i (if c.1 = l then c.2 else [])).sum) ∧
          (∀ l i, i < q.size → acc1.sqs l i = acc.sqs l i + ((usedDiffs q sid W l i (if c.1 = l then c.2 else [])).map (· ^ 2)).sum) := by
        unfold meanStep
        simp only
        rw [if_neg (by omega), if_neg hn0, if_neg (by simpa [maskNan] using hrows), if_neg (by simpa [maskNan] using hp')]
        refine ⟨_, rfl, ?_, ?_, rfl, ?_, ?_⟩
        · intro l
          by_cases e : c.1 = l
          · subst e; simp [hn]
          · simp [e, Ne.symm e, hnil]
        · intro l
          by_cases e : c.1 = l
          · subst e; simp [hrm]
          · simp [e, Ne.symm e, hnilv]
        · intro l i hi
          by_cases e : c.1 = l
          · subst e
            have := maskNan_diffs a c.1 i (by omega) hp' id
            simp only [id] at this
            simp only [if_true, this, hsam]
            rfl
          · simp [e, Ne.symm e, hnil, usedDiffs]
        · intro l i hi
          by_cases e : c.1 = l
          · subst e
            have := maskNan_diffs a c.1 i (by omega) hp' (· ^ 2)
            simp only [if_true, this, hsam, usedDiffs, List.map_map]
            rfl
          · simp [e, Ne.symm e, hnil, usedDiffs]
      rw [hstep]
      obtain ⟨acc', h1, h2, h3, h4, h5, h6⟩ := ih (fun c' hc' => hev c' (by simp [hc'])) (fun c' hc' => hl c' (by simp [hc'])) acc1
      refine ⟨acc', h1, ?_, ?_, ?_, ?_, ?_⟩
      · intro l
        rw [h2, happu, e1, List.length_append]; omega
      · intro l
        rw [h3, happ, e2, List.filter_append, List.length_append]; omega
      · rw [h4, e3]; simp [h0]
      · intro l i hi
        rw [h5 l i hi, e4 l i hi]
        simp only [usedDiffs, happu, List.map_append, List.sum_append]; ring
      · intro l i hi
        rw [h6 l i hi, e5 l i hi]
        simp only [usedDiffs, happu, List.map_append, List.sum_append]; ring

/-- With a wrong number of rows nothing is summed: an error, or no sample was used. -/
theorem meanLoop_bad (q : Quantity (Option F)) (sid W m nLevels : Nat) (chunks : List (Nat × List (Sample (Option F))))
    (hev : Evals q sid W m chunks) (hm : m ≠ q.size) (acc : MeanAcc F) :
    (∃ e, meanLoop q nLevels acc (asChunks sid W chunks) = .error e) ∨
      ∃ acc', meanLoop q nLevels acc (asChunks sid W chunks) = .ok acc' ∧ acc'.started = acc.started := by
  induction chunks generalizing acc with
  | nil => exact .inr ⟨acc, rfl, rfl⟩
  | cons c cs ih =>
    obtain ⟨a, ha, hrows, hp, hsam⟩ := hev c (by simp)
    have hq : q.samples (fun o => if o = sid then .ok (batchOf W c.1 c.2).toArr else .error .other) = .ok (.arr a) := ha
    show (∃ e, meanLoop q nLevels acc ((c.1, _) :: asChunks sid W cs) = _) ∨ ∃ acc', meanLoop q nLevels acc ((c.1, _) :: asChunks sid W cs) = _ ∧ _
    simp only [meanLoop, bind, Except.bind, hq]
    cases hstep : meanStep q.size nLevels acc c.1 (.arr a) with
    | error e => exact .inl ⟨e, rfl⟩
    | ok acc1 =>
      have hs : acc1.started = acc.started := by
        unfold meanStep at hstep
        simp only at hstep
        split at hstep
        · simp at hstep
        · split at hstep
          · simp only [Except.ok.injEq] at hstep; rw [← hstep]
          · rw [if_pos (by simp only [maskNan, List.length_map]; omega)] at hstep
            simp at hstep
      rcases ih (fun c' hc' => hev c' (by simp [hc'])) acc1 with ⟨e, he⟩ | ⟨acc', h1, h2⟩
      · exact .inl ⟨e, he⟩
      · exact .inr ⟨acc', h1, h2.trans hs⟩

/-- The variance formula of the code is the textbook one. -/
theorem var_formula [CharZero F] (xs : List F) (h : 1 < xs.length) :
    ((xs.map (· ^ 2)).sum - xs.sum ^ 2 / xs.length) / (xs.length - 1) = sampleVar xs := by
  unfold sampleVar
  congr 1
  have h0 : (xs.length : F) ≠ 0 := by
    rw [Nat.cast_ne_zero]; omega
  have key : ∀ (c : F) (l : List F), (l.map fun x => (x - c) ^ 2).sum = (l.map (· ^ 2)).sum - 2 * c * l.sum + l.length * c ^ 2 := by
    intro c l
    induction l with
    | nil => simp
    | cons x l ih => simp only [List.map_cons, List.sum_cons, ih, List.length_cons]; push_cast; ring
  rw [key, average]
  field_simp
  ring

end MLMC
