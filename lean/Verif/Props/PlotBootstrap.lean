import Verif.Props.PlotBreakdown
import Verif.Props.PlotDistribution
/-
Plots of variances of the bootstrap and of means (C148), files of figures (C149).
-/
namespace MLMC
open Plot
variable {F : Type} [Field F] [LinearOrder F] [IsStrictOrderedRing F]

/-- What a scatter plot of the rows of a table shows: for every row and every listed moment one point, with the entry of the table, at a place in the half-open interval
from the number of the row to a half more. -/
structure ShowsTable (rows : Nat) (V : Nat → Nat → F) (moments : List Nat) (pts : List (ScatterPt F)) : Prop where
  /-- every point is an entry of the table at the place of its row -/
  sound : ∀ q ∈ pts, q.row < rows ∧ q.moment ∈ moments ∧ q.y = V q.row q.moment ∧ (q.row : F) ≤ q.x ∧ q.x < (q.row : F) + 1 / 2
  /-- every entry is shown -/
  complete : ∀ r < rows, ∀ m ∈ moments, ∃ q ∈ pts, q.row = r ∧ q.moment = m

theorem scatter_shows {rows cols : Nat} (V : Nat → Nat → F) {moments : List Nat} (hne : moments ≠ []) (hm : ∀ m ∈ moments, m < cols) :
    ∃ pts, scatter cols (table rows cols V) moments = .ok pts ∧ ShowsTable rows V moments pts := by
  have hany : (moments.any fun m => decide (cols ≤ m)) = false := by
    rw [List.any_eq_false]; intro m h; have := hm m h; simp only [decide_eq_true_eq]; omega
  unfold scatter; rw [hany]; simp only [Bool.false_eq_true, if_false]; rw [if_neg hne]
  refine ⟨_, rfl, ?_, ?_⟩
  · intro q hq
    obtain ⟨m, hmz, hq⟩ := List.mem_flatMap.1 hq
    obtain ⟨row, hrz, rfl⟩ := List.mem_map.1 hq
    obtain ⟨i1, i2⟩ := List.mem_zipIdx' hmz
    obtain ⟨j1, j2⟩ := List.mem_zipIdx' hrz
    have hjr : row.2 < rows := by simpa [table] using j1
    have hmm : m.1 ∈ moments := by rw [i2]; exact List.getElem_mem _
    have hlen : (0 : F) < (moments.length : F) := by exact_mod_cast List.length_pos_of_ne_nil hne
    have hlt : (m.2 : F) < (moments.length : F) := by exact_mod_cast i1
    refine ⟨hjr, hmm, ?_, ?_, ?_⟩
    · simp only [j2, table, List.getElem_map, List.getElem_range]
      rw [List.getD_eq_getElem?_getD, List.getElem?_map, List.getElem?_range (hm _ hmm)]; rfl
    · have : (0 : F) ≤ 1 / 2 / (moments.length : F) * (m.2 : F) := by positivity
      simp only; linarith
    · have : 1 / 2 / (moments.length : F) * (m.2 : F) < 1 / 2 := by
        rw [div_mul_eq_mul_div, div_lt_iff₀ hlen]; linarith
      simp only; linarith
  · intro r hr m hmm
    obtain ⟨i, hi, rfl⟩ := List.getElem_of_mem hmm
    refine ⟨_, List.mem_flatMap.2 ⟨(moments[i], i), List.mem_zipIdx_iff_getElem?.2 (by simp), List.mem_map.2 ⟨((table rows cols V)[r]'(by simpa [table] using hr), r),
      List.mem_zipIdx_iff_getElem?.2 (by simp [table, hr]), rfl⟩⟩, rfl, rfl⟩

/-- **C148.** A table as documented, the row of the total variance and then the rows of the levels, with two or more moments: every entry but the zeroth moments is drawn beside the
tick of its row, the tick 0 is labelled as the total and the tick `l + 1` as level `l + 1` with its numbers of samples; the limits of the axis hold all drawn values. -/
theorem C148_bs_variances {cols : Nat} (hcols : 2 ≤ cols) (V : Nat → Nat → F) {bsN n : List Nat} (hlen : bsN.length = n.length) :
    ∃ pts labels lim, bsVariances cols bsN n cols (table (bsN.length + 1) cols V) = .ok (pts, labels, lim) ∧
      ShowsTable (bsN.length + 1) V (List.range' 1 (cols - 1)) pts ∧
      labels.length = bsN.length + 1 ∧ labels[0]? = some .total ∧
      (∀ l (h : l < bsN.length), labels[l + 1]? = some (.level (l + 1) bsN[l] (n[l]'(by omega)))) ∧
      ∀ q ∈ pts, lim.1 ≤ q.y ∧ q.y ≤ lim.2 := by
  obtain ⟨pts, hpts, hshow⟩ := scatter_shows (rows := bsN.length + 1) (cols := cols) V (moments := List.range' 1 (cols - 1))
    (by rw [Ne, List.range'_eq_nil_iff]; omega) (by intro m hm; rw [List.mem_range'_1] at hm; omega)
  have hmem : ∀ r < bsN.length + 1, ∀ m, 1 ≤ m → m < cols → V r m ∈ (table (bsN.length + 1) cols V).flatMap List.tail := by
    intro r hr m h1 h2
    refine List.mem_flatMap.2 ⟨(List.range cols).map (V r), List.mem_map.2 ⟨r, List.mem_range.2 hr, rfl⟩, ?_⟩
    obtain ⟨k, rfl⟩ : ∃ k, cols = k + 1 := ⟨cols - 1, by omega⟩
    rw [List.range_succ_eq_map, List.map_cons, List.tail_cons]
    exact List.mem_map.2 ⟨m, List.mem_map.2 ⟨m - 1, List.mem_range.2 (by omega), by omega⟩, rfl⟩
  cases hflat : (table (bsN.length + 1) cols V).flatMap List.tail with
  | nil =>
    have := hmem 0 (by omega) 1 le_rfl (by omega)
    rw [hflat] at this; cases this
  | cons y ys =>
    refine ⟨pts, TickLabel.total :: (bsN.zip n).zipIdx.map fun x => TickLabel.level (x.2 + 1) x.1.1 x.1.2, (ys.foldl min y, ys.foldl max y), ?_, hshow, ?_, rfl, ?_, ?_⟩
    · unfold bsVariances
      rw [hflat]
      simp only [hpts, Except.bind]
      rw [if_pos (by simp [hlen])]
    · simp [hlen]
    · intro l h
      simp only [List.getElem?_cons_succ, List.getElem?_map]
      rw [List.getElem?_zipIdx, List.getElem?_eq_getElem (by simpa using ⟨h, by omega⟩)]
      simp
    · intro q hq
      obtain ⟨h1, h2, h3, _⟩ := hshow.sound q hq
      rw [List.mem_range'_1] at h2
      have := hmem q.row h1 q.moment h2.1 (by omega)
      rw [hflat, ← h3] at this
      exact ⟨(plot_min_spec ys y).2 _ this, (plot_max_spec ys y).2 _ this⟩

/-- **C148, negative.** `Estimate.plot_bs_var_log` gives the method the table of the level variances alone (/repo/mlmc/estimator.py:244): the variances of level 0 (the first) are drawn at the
tick labelled as the total, and those of the following levels at the tick of the level before. -/
theorem C148_caller_counterexample {cols : Nat} (hcols : 2 ≤ cols) (V : Nat → Nat → F) {bsN n : List Nat} (hlen : bsN.length = n.length) (hpos : 0 < bsN.length) :
    ∃ pts labels lim, bsVariances cols bsN n cols (table bsN.length cols V) = .ok (pts, labels, lim) ∧
      ShowsTable bsN.length V (List.range' 1 (cols - 1)) pts ∧ labels[0]? = some .total ∧
      ∀ l (h : l + 1 < bsN.length), labels[l + 1]? = some (.level (l + 1) (bsN[l]'(by omega)) (n[l]'(by omega))) := by
  obtain ⟨pts, hpts, hshow⟩ := scatter_shows (rows := bsN.length) (cols := cols) V (moments := List.range' 1 (cols - 1))
    (by rw [Ne, List.range'_eq_nil_iff]; omega) (by intro m hm; rw [List.mem_range'_1] at hm; omega)
  cases hflat : (table bsN.length cols V).flatMap List.tail with
  | nil =>
    exfalso
    obtain ⟨k, hk⟩ : ∃ k, cols = k + 2 := ⟨cols - 2, by omega⟩
    have hm : (List.range cols).map (V 0) ∈ table bsN.length cols V := List.mem_map.2 ⟨0, List.mem_range.2 hpos, rfl⟩
    have := List.flatMap_eq_nil_iff.1 hflat _ hm
    rw [hk, List.range_succ_eq_map, List.range_succ_eq_map] at this
    simp at this
  | cons y ys =>
    refine ⟨pts, TickLabel.total :: (bsN.zip n).zipIdx.map fun x => TickLabel.level (x.2 + 1) x.1.1 x.1.2, (ys.foldl min y, ys.foldl max y), ?_, hshow, rfl, ?_⟩
    · unfold bsVariances
      rw [hflat]
      simp only [hpts, Except.bind]
      rw [if_pos (by simp [hlen])]
    · intro l h
      simp only [List.getElem?_cons_succ, List.getElem?_map]
      rw [List.getElem?_zipIdx, List.getElem?_eq_getElem (by simpa using ⟨by omega, by omega⟩)]
      simp


/-- **C148.** In `plot_var_regression` of all moments the curve of a moment goes through the places of its points, whatever their number. -/
theorem C148_regression_places {rows cols : Nat} (V : Nat → Nat → F) (hcols : 0 < cols) {pts : List (ScatterPt F)}
    (h : scatter cols (table rows cols V) (List.range cols) = .ok pts) : ∀ q ∈ pts, q.x = curvePlace cols q.moment q.row := by
  have hany : ((List.range cols).any fun m => decide (cols ≤ m)) = false := by
    rw [List.any_eq_false]; intro m h; have := List.mem_range.1 h; simp only [decide_eq_true_eq]; omega
  unfold scatter at h
  rw [hany] at h
  simp only [Bool.false_eq_true, if_false] at h
  rw [if_neg (by rw [List.range_eq_nil]; omega)] at h
  cases h
  intro q hq
  obtain ⟨m, hmz, hq⟩ := List.mem_flatMap.1 hq
  obtain ⟨row, _, rfl⟩ := List.mem_map.1 hq
  obtain ⟨i1, i2⟩ := List.mem_zipIdx' hmz
  simp only [List.getElem_range] at i2
  simp only [curvePlace, List.length_range, i2]

/-- **C148, negative.** For a part of the moments it does not: moments 2 and 3 of four, row 0. -/
theorem C148_regression_counterexample : ∃ pts : List (ScatterPt ℚ), scatter 4 (table 1 4 fun _ _ => 1) [2, 3] = .ok pts ∧
    ∀ q ∈ pts, q.x ≠ curvePlace 4 q.moment q.row := by
  refine ⟨_, rfl, ?_⟩
  decide +kernel

theorem means_go (means vars : List F) (total : List F) (exact : Bool) (hne : exact = false) (index : Nat) (x : F) :
    (meansAndVars.go total exact means vars index x).map (fun q => (q.1, q.2.2.1, q.2.2.2)) =
      ((means.zip vars).zipIdx index).map fun q => (q.2, q.1.1, q.1.2) := by
  subst hne
  induction means generalizing vars index x with
  | nil => cases vars <;> rfl
  | cons m ms ih =>
    cases vars with
    | nil => rfl
    | cons v vs =>
      rw [meansAndVars.go, if_neg (by simp)]
      simp only [List.map_cons, List.zip_cons_cons, List.zipIdx_cons]
      rw [ih]

theorem means_places (means vars : List F) (total : List F) (exact : Bool) (index : Nat) (x : F) :
    (x :: (meansAndVars.go total exact means vars index x).map (fun q => q.2.1)).Pairwise (· < ·) := by
  induction means generalizing vars index x with
  | nil => cases vars <;> simp [meansAndVars.go]
  | cons m ms ih =>
    cases vars with
    | nil => simp [meansAndVars.go]
    | cons v vs =>
      rw [meansAndVars.go]
      split
      · exact ih vs (index + 1) x
      · have h := ih vs (index + 1) (x + 1 / (((index : F) + 1) * (3 / 2)))
        have hx : x < x + 1 / (((index : F) + 1) * (3 / 2)) := by
          have : (0 : F) < 1 / (((index : F) + 1) * (3 / 2)) := by positivity
          linarith
        simp only [List.map_cons]
        refine List.pairwise_cons.2 ⟨?_, h⟩
        intro y hy
        rcases List.mem_cons.1 hy with rfl | hy
        · exact hx
        · exact hx.trans ((List.pairwise_cons.1 h).1 y hy)

/-- **C148 (partial).** Without exact moments, every mean is drawn with its variance, at places that increase. -/
theorem C148_means_partial (means vars : List F) :
    (meansAndVars means vars false).map (fun q => (q.1, q.2.2.1, q.2.2.2)) = ((means.zip vars).zipIdx.map fun q => (q.2, q.1.1, q.1.2)) ∧
    ((meansAndVars means vars false).map (fun q => q.2.1)).Pairwise (· < ·) :=
  ⟨means_go means vars means false rfl 0 _, (List.pairwise_cons.1 (means_places means vars means false 0 _)).2⟩

/-- **C148, negative.** With exact moments one mean, that in the middle, is missing. -/
theorem C148_means_counterexample : (meansAndVars ([5, 6, 7] : List ℚ) [1, 1, 1] true).map (fun q => q.1) = [0, 2] := by decide +kernel

/-- A table of the total and two levels with two moments beside the zeroth. -/
example : bsVariances 3 [5, 4] [50, 40] 3 ([[0, 1, 2], [0, 3, 4], [0, 5, 6]] : List (List ℚ)) =
    .ok ([⟨0, 1, 0, 1⟩, ⟨1, 1, 1, 3⟩, ⟨2, 1, 2, 5⟩, ⟨0, 2, 1/4, 2⟩, ⟨1, 2, 5/4, 4⟩, ⟨2, 2, 9/4, 6⟩],
      [.total, .level 1 5 50, .level 2 4 40], (1, 6)) := by decide +kernel

/-! Files of figures. -/

/-- **C149 (partial).** A figure is saved unless the name is `None`; the file is the given name if that ends with `pdf`, and the given name with `.pdf` otherwise; an empty name stands for the
title.  The name of the file always ends with `pdf`. -/
theorem C149_file_partial (title : List Char) :
    savedTo title none = none ∧
    (∀ name, savedTo title (some (name ++ "pdf".toList)) = some (name ++ "pdf".toList)) ∧
    (∀ name, name ≠ [] → ¬ "pdf".toList <:+ name → savedTo title (some name) = some (name ++ ".pdf".toList)) ∧
    savedTo title (some []) = (if title = [] then some ".pdf".toList else savedTo title (some title)) ∧
    ∀ file f, savedTo title file = some f → "pdf".toList <:+ f := by
  have hdrop : ∀ name : List Char, (name ++ "pdf".toList).drop ((name ++ "pdf".toList).length - 3) = ['p', 'd', 'f'] := by
    intro name
    have : (name ++ "pdf".toList).length - 3 = name.length := by
      rw [List.length_append]; show name.length + 3 - 3 = _; omega
    rw [this, List.drop_left]; rfl
  have hsuf : ∀ name : List Char, name.drop (name.length - 3) = ['p', 'd', 'f'] → "pdf".toList <:+ name := by
    intro name h
    exact ⟨name.take (name.length - 3), by rw [show "pdf".toList = name.drop (name.length - 3) from h.symm]; exact List.take_append_drop _ _⟩
  refine ⟨rfl, ?_, ?_, ?_, ?_⟩
  · intro name
    have hne : name ++ "pdf".toList ≠ [] := by simp
    simp only [savedTo, if_neg hne]
    exact congrArg some (if_neg (not_not.2 (hdrop name)))
  · intro name hne h
    simp only [savedTo]
    rw [if_neg hne, if_pos fun hh => h (hsuf name hh)]
    rfl
  · by_cases ht : title = []
    · subst ht; rfl
    · simp only [savedTo, if_true, ht, if_false]
  · intro file f h
    cases file with
    | none => cases h
    | some name =>
      have hkey : ∀ n : List Char, "pdf".toList <:+ (if n.drop (n.length - 3) ≠ ['p', 'd', 'f'] then n ++ ['.', 'p', 'd', 'f'] else n) := by
        intro n
        split
        · exact ⟨n ++ ['.'], by rw [List.append_assoc]; rfl⟩
        · next hh => exact hsuf _ (not_not.1 hh)
      simp only [savedTo, Option.some.injEq] at h
      split at h <;> (rw [← h]; exact hkey _)

/-- **C149, negative.** A name that ends with `pdf` but not with `.pdf` gets no suffix, and figures with the default empty title are all saved to the same file `.pdf`. -/
theorem C149_counterexample : savedTo [] (some "figure_pdf".toList) = some "figure_pdf".toList ∧ savedTo [] (some []) = some ".pdf".toList := by decide +kernel

/-- A figure with a title. -/
example : savedTo "Eigenvalues".toList (some []) = some "Eigenvalues.pdf".toList := by decide +kernel

end MLMC
