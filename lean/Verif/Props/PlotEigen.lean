import Verif.Model.PlotFigures
import Mathlib.Tactic.Linarith
import Mathlib.Tactic.Ring
/-
Plots of eigenvalues (C145).
-/
namespace MLMC
open Plot
variable {F : Type} [Field F] [LinearOrder F] [IsStrictOrderedRing F]

/-- What the documentation promises for values in decreasing order with their errors: the `j`-th value at the place `j` (shifted by a tenth for each earlier
set), with its error, and the line at the threshold. -/
def expectedEig (i : Nat) (values : List F) (errors : Option (List F)) (threshold : Option F) : EigDrawn F :=
  ⟨(List.range values.length).map fun j : Nat => (j : F) + (i : F) * (1 / 10), values, errors, threshold⟩

omit [IsStrictOrderedRing F] in
theorem cutPositive_all {values : List F} (h : ∀ x ∈ values, 0 < x) : cutPositive values = values := by
  unfold cutPositive
  cases hr : values.reverse with
  | nil => rw [List.reverse_eq_nil_iff.1 hr]; rfl
  | cons x xs =>
    have hx : 0 < x := h x (by rw [← List.mem_reverse, hr]; simp)
    have : (x :: xs).findIdx (fun y => decide (0 < y)) = 0 := by simp [List.findIdx_cons, hx]
    rw [this]
    simp only [ite_self, Nat.sub_zero]
    exact List.take_of_length_le (by omega)

/-- The errors an array of values may be given with: none, or a list of the same length. -/
def errArg : Option (List F) → ErrArg F
  | none => .absent
  | some es => .list es

omit [IsStrictOrderedRing F] in
theorem errArg_check {n : Nat} {errors : Option (List F)} (h : ∀ es, errors = some es → es.length = n) :
    (errArg errors).check n = .ok errors := by
  cases errors with
  | none => rfl
  | some es => simp only [errArg, ErrArg.check]; rw [if_pos (Or.inr (h es rfl).symm)]

/-- **C145 (partial).** Values in decreasing order, all positive if the axis is logarithmic, with no errors or a list of them, are drawn as promised. -/
theorem C145_decreasing_partial (logY : Bool) (i : Nat) {values : List F} (hne : values ≠ []) (hdec : values.Pairwise (· ≥ ·))
    (hpos : logY = true → ∀ x ∈ values, 0 < x) {errors : Option (List F)} (herr : ∀ es, errors = some es → es.length = values.length) (threshold : Option F) :
    eigAdd logY i values (errArg errors) threshold = .ok (expectedEig i values errors threshold) := by
  have hlast : ∃ b, values.getLast? = some b := ⟨_, List.getLast?_eq_some_getLast hne⟩
  obtain ⟨b, hb⟩ := hlast
  cases values with
  | nil => exact absurd rfl hne
  | cons a rest =>
    have hab : ¬ a < b := by
      have hm : b ∈ a :: rest := List.mem_of_getLast? hb
      rcases List.mem_cons.1 hm with rfl | hm
      · exact lt_irrefl _
      · exact not_lt.2 ((List.pairwise_cons.1 hdec).1 b hm)
    unfold eigAdd
    rw [errArg_check herr]
    simp only [Except.bind, List.head?_cons, hb]
    rw [if_neg hab]
    have hcut : (if logY = true then cutPositive (a :: rest) else a :: rest) = a :: rest := by
      split
      · exact cutPositive_all (hpos (by assumption))
      · rfl
    simp only [hcut]
    cases errors with
    | none => rfl
    | some es => simp only; rw [if_pos (Or.inl (herr es rfl))]; rfl

/-- **C145 (partial).** Values in increasing order are turned round together with their errors, if a threshold is given; but its line is drawn at
`len(values) - 1 - threshold`. -/
theorem C145_increasing_partial (logY : Bool) (i : Nat) {values : List F} {a b : F} (ha : values.head? = some a) (hb : values.getLast? = some b) (hab : a < b)
    (hpos : logY = true → ∀ x ∈ values, 0 < x) {errors : Option (List F)} (herr : ∀ es, errors = some es → es.length = values.length) (t : F) :
    eigAdd logY i values (errArg errors) (some t) =
      .ok (expectedEig i values.reverse (errors.map List.reverse) (some ((values.length : F) - 1 - t))) := by
  unfold eigAdd
  rw [errArg_check herr]
  simp only [Except.bind, ha, hb]
  rw [if_pos hab]
  have hcut : (if logY = true then cutPositive values.reverse else values.reverse) = values.reverse := by
    split
    · exact cutPositive_all fun x hx => hpos (by assumption) x (List.mem_reverse.1 hx)
    · rfl
  simp only [hcut]
  cases errors with
  | none => rfl
  | some es => simp only [Option.map_some]; rw [if_pos (Or.inl (by simpa using herr es rfl))]; rfl

/-- **C145, negative.** Increasing values without a threshold (the default) always raise TypeError. -/
theorem C145_increasing_counterexample (logY : Bool) (i : Nat) {values : List F} {a b : F} (ha : values.head? = some a) (hb : values.getLast? = some b) (hab : a < b)
    {errors : Option (List F)} (herr : ∀ es, errors = some es → es.length = values.length) :
    eigAdd logY i values (errArg errors) none = .error .typeError := by
  unfold eigAdd
  rw [errArg_check herr]
  simp only [Except.bind, ha, hb]
  rw [if_pos hab]

/-- **C145, negative.** The line for increasing values is at the threshold only if that is half of `len(values) - 1`. -/
theorem C145_threshold_counterexample (logY : Bool) (i : Nat) {values : List F} {a b : F} (ha : values.head? = some a) (hb : values.getLast? = some b) (hab : a < b)
    (hpos : logY = true → ∀ x ∈ values, 0 < x) (t : F) {d : EigDrawn F} (h : eigAdd logY i values .absent (some t) = .ok d) :
    d.line = some t ↔ 2 * t = (values.length : F) - 1 := by
  have := C145_increasing_partial logY i ha hb hab hpos (errors := none) (by simp) t
  rw [show errArg (none : Option (List F)) = .absent from rfl, h] at this
  cases this
  simp only [expectedEig, Option.some.injEq]
  constructor <;> intro h <;> linarith

/-- **C145, negative.** On a logarithmic axis one value that is not positive is drawn with the positive ones, if there is any. -/
theorem C145_positive_counterexample (i : Nat) {pos : List F} {bad : F} {rest : List F} (hne : pos ≠ []) (hpos : ∀ x ∈ pos, 0 < x)
    (hdec : (pos ++ bad :: rest).Pairwise (· ≥ ·)) (hbad : bad ≤ 0) (threshold : Option F) :
    eigAdd true i (pos ++ bad :: rest) .absent threshold = .ok (expectedEig i (pos ++ [bad]) none threshold) := by
  have hall : ∀ x ∈ bad :: rest, ¬ 0 < x := by
    intro x hx
    have h2 := (List.pairwise_append.1 hdec).2.1
    rcases List.mem_cons.1 hx with rfl | hx
    · exact not_lt.2 hbad
    · exact not_lt.2 (le_trans ((List.pairwise_cons.1 h2).1 x hx) hbad)
  have hcut : cutPositive (pos ++ bad :: rest) = pos ++ [bad] := by
    unfold cutPositive
    have hany : (pos ++ bad :: rest).any (fun x => decide (0 < x)) = true := by
      cases pos with
      | nil => exact absurd rfl hne
      | cons x xs => simp [hpos x (by simp)]
    rw [if_pos hany, List.reverse_append, List.findIdx_append]
    have h1 : (bad :: rest).reverse.findIdx (fun x => decide (0 < x)) = (bad :: rest).reverse.length := by
      rw [List.findIdx_eq_length]
      intro x hx
      simpa using hall x (List.mem_reverse.1 hx)
    have h2 : pos.reverse.findIdx (fun x => decide (0 < x)) = 0 := by
      cases hr : pos.reverse with
      | nil => exact absurd (List.reverse_eq_nil_iff.1 hr) hne
      | cons x xs =>
        have hx : 0 < x := hpos x (by rw [← List.mem_reverse, hr]; simp)
        simp [List.findIdx_cons, hx]
    rw [h1, h2, if_neg (lt_irrefl _), Nat.zero_add, List.length_reverse]
    have : (pos ++ bad :: rest).length - (bad :: rest).length + 1 = (pos ++ [bad]).length := by
      rw [List.length_append, List.length_append, List.length_singleton]; omega
    show List.take ((pos ++ bad :: rest).length - (bad :: rest).length + 1) _ = _
    rw [this, show pos ++ bad :: rest = (pos ++ [bad]) ++ rest by simp]
    exact List.take_left'  rfl
  have hlast : ∃ b, (pos ++ bad :: rest).getLast? = some b := ⟨_, List.getLast?_eq_some_getLast (by simp)⟩
  obtain ⟨b, hb⟩ := hlast
  cases hp : pos ++ bad :: rest with
  | nil => simp at hp
  | cons a as =>
    have hab : ¬ a < b := by
      rw [hp] at hb hdec
      rcases List.mem_cons.1 (List.mem_of_getLast? hb) with rfl | hm
      · exact lt_irrefl _
      · exact not_lt.2 ((List.pairwise_cons.1 hdec).1 b hm)
    rw [hp] at hb hcut
    unfold eigAdd
    simp only [ErrArg.check, Except.bind, List.head?_cons, hb]
    rw [if_neg hab]
    simp only [if_true, hcut]
    rfl

/-- **C145, negative.** A numpy array of two or more errors raises ValueError, whatever the values. -/
theorem C145_errors_counterexample (logY : Bool) (i : Nat) (values : List F) {es : List F} (h : 2 ≤ es.length) (threshold : Option F) :
    eigAdd logY i values (.array es) threshold = .error .valueError := by
  simp only [eigAdd, ErrArg.check]
  rw [if_pos h]
  rfl

/-- Four eigenvalues with a list of errors and a threshold as the second set. -/
example : eigAdd true 1 ([8, 4, 2, 1] : List ℚ) (.list [1, 1, 2, 1]) (some 3) =
    .ok ⟨[1/10, 11/10, 21/10, 31/10], [8, 4, 2, 1], some [1, 1, 2, 1], some 3⟩ := by decide +kernel

/-- The same in increasing order: the line goes to 0. -/
example : eigAdd true 1 ([1, 2, 4, 8] : List ℚ) (.list [1, 2, 1, 1]) (some 3) =
    .ok ⟨[1/10, 11/10, 21/10, 31/10], [8, 4, 2, 1], some [1, 1, 2, 1], some 0⟩ := by decide +kernel

/-- Of 4, 1, -1, -2 the first three are drawn on a logarithmic axis. -/
example : (eigAdd true 0 ([4, 1, -1, -2] : List ℚ) .absent none).map (·.ys) = .ok [4, 1, -1] := by decide +kernel

end MLMC
