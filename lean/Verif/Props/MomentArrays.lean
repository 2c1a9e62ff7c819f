import Verif.Spec.MomentArrays
import Verif.Props.QuantityMoments
import Mathlib.Data.List.GetD
/-
C116: moment functions act on arrays value by value.
-/
namespace MLMC.Mom
open MLMC.Const

theorem width_size : ∀ o : Obj, o.width o.size = o.size
  | .base _ => rfl
  | .trans _ n _ _ => Nat.min_self n

theorem WellMade.pos : ∀ {o : Obj}, o.WellMade → 0 < o.size
  | .base _, h => h
  | .trans _ _ _ _, h => h.2.2

theorem combine_length {n m : Nat} (A : Fin n → Fin m → ℝ) (l : List (Option ℝ)) : (Obj.combine A l).length = n := by simp [Obj.combine]

theorem map_range_getD (row : List (Option ℝ)) (f : Nat → Option ℝ) (n : Nat) (h : row.length = n) (hf : ∀ i < n, f i = row.getD i none) :
    (List.range n).map f = row := by
  apply List.ext_getElem
  · simp [h]
  · intro i h1 h2
    simp only [List.getElem_map, List.getElem_range]
    rw [hf i (by simpa using h1), List.getD_eq_getElem row none h2]

theorem getD_map_range (f : Nat → Option ℝ) {n i : Nat} (h : i < n) : ((List.range n).map f).getD i none = f i := by
  rw [List.getD_eq_getElem _ _ (by simpa using h)]; simp

/-- Rows of one value. -/
theorem base_evalAll (m : Moments) (x : ℝ) (size : Nat) (hs : 0 < size) : ∃ row, m.evalAll x size = .ok row ∧ row.length = size ∧
    ∀ i < size, row.getD i none = if m.family = .fourier ∧ i = 0 then some 1 else (m.transform x).map fun t => col m.family t i := by
  rw [Moments.evalAll, if_neg (Nat.pos_iff_ne_zero.1 hs)]
  cases m.transform x with
  | none =>
    refine ⟨_, rfl, by simp, fun i hi => ?_⟩
    rw [getD_map_range _ hi]; rfl
  | some t =>
    refine ⟨_, rfl, by simp, fun i hi => ?_⟩
    rw [getD_map_range _ hi]
    split
    · rename_i h
      rw [h.1, h.2]; simp [col, four]
    · rfl

theorem evalArr_base (m : Moments) (hw : (Obj.base m).WellMade) (a : ND (Option ℝ)) (size : Nat) (hs : 0 < size) (ha : a.shape ≠ [])
    (hf : (Obj.base m).family ≠ .fourier ∨ a.shape.length = 1) : ∃ z, (Obj.base m).evalArr a size = .ok z ∧ ValueByValue (.base m) size a z := by
  have h0 : atleast1 a = a := if_neg ha
  by_cases hfam : m.family = .fourier
  · have h1 : a.shape.length = 1 := hf.resolve_left fun h => h hfam
    obtain ⟨d, hd⟩ : ∃ d, a.shape = [d] := List.length_eq_one_iff.1 h1
    refine ⟨⟨[d, size], fun ix => let i := ix.getD 1 0
      let t := m.transformF (a.get (ix.getD 0 0 :: List.replicate 0 0))
      if i = 0 then some 1 else t.map fun t => four t i⟩, ?_, ?_, ?_⟩
    · rw [Obj.evalArr, Moments.evalArr, hfam, h0]
      simp only [Moments.fourierAll, hd, if_neg (Nat.pos_iff_ne_zero.1 hs)]
      simp
    · rw [hd]; rfl
    · intro ix hix
      rw [hd] at hix
      obtain ⟨i0, rfl⟩ : ∃ i0, ix = [i0] := List.length_eq_one_iff.1 hix.length_eq
      refine ⟨fun x hx => ?_, fun _ h => absurd hfam h⟩
      obtain ⟨row, h2, h3, h4⟩ := base_evalAll m x size hs
      refine ⟨row, h2, h3, fun i hi => ?_⟩
      rw [h4 i hi]
      simp only [hfam, true_and, List.cons_append, List.nil_append, List.getD_cons_succ, List.getD_cons_zero, List.replicate_zero]
      rw [hx]; rfl
  · refine ⟨⟨a.shape ++ [size], fun ix => (m.transformF (a.get ix.dropLast)).map fun t => col m.family t (ix.getLastD 0)⟩, ?_, rfl, ?_⟩
    · rw [Obj.evalArr, Moments.evalArr, h0]
      have : m.vander a size = .ok ⟨a.shape ++ [size], fun ix => (m.transformF (a.get ix.dropLast)).map fun t => col m.family t (ix.getLastD 0)⟩ := by
        rw [Moments.vander, if_neg (Nat.pos_iff_ne_zero.1 hs)]
      split
      · rename_i h; exact absurd h hfam
      · exact this
    · intro ix hix
      refine ⟨fun x hx => ?_, fun hx _ i hi => ?_⟩
      · obtain ⟨row, h2, h3, h4⟩ := base_evalAll m x size hs
        refine ⟨row, h2, h3, fun i hi => ?_⟩
        rw [h4 i hi, if_neg (fun h => hfam h.1)]
        simp only [List.dropLast_concat, hx, List.getLastD_concat]
        rfl
      · simp only [List.dropLast_concat, hx]; rfl

/-- `_eval_all` of an array with at least one axis. -/
theorem evalArr_spec : ∀ (o : Obj) (_ : o.WellMade) (a : ND (Option ℝ)) (size : Nat) (_ : 0 < size) (_ : a.shape ≠ [])
    (_ : o.family ≠ .fourier ∨ a.shape.length = 1), ∃ z, o.evalArr a size = .ok z ∧ ValueByValue o size a z
  | .base m, hw, a, size, hs, ha, hf => evalArr_base m hw a size hs ha hf
  | .trans o n k A, hw, a, size, hs, ha, hf => by
    obtain ⟨z, h1, h2, h3⟩ := evalArr_spec o hw.1 a o.size (WellMade.pos hw.1) ha hf
    rw [width_size] at h2 h3
    refine ⟨_, by rw [Obj.evalArr, h1]; rfl, ?_, ?_⟩
    · simp [h2, Obj.width]
    · intro ix hix
      obtain ⟨h4, h5⟩ := h3 ix hix
      refine ⟨fun x hx => ?_, fun hx hfam i hi => ?_⟩
      · obtain ⟨row, h6, h7, h8⟩ := h4 x hx
        refine ⟨(Obj.combine A row).take size, by rw [Obj.evalAll, h6]; rfl, by rw [List.length_take, combine_length]; rfl, fun i hi => ?_⟩
        have hi' : i < size ∧ i < n := Nat.lt_min.1 hi
        simp only [List.dropLast_concat, List.getLastD_concat]
        rw [map_range_getD row _ o.size h7 h8, List.getD_eq_getElem _ _ (by rw [combine_length]; exact hi'.2),
          List.getD_eq_getElem _ _ (by rw [List.length_take, combine_length]; exact hi), List.getElem_take]
      · have hi' : i < size ∧ i < n := Nat.lt_min.1 hi
        simp only [List.dropLast_concat, List.getLastD_concat]
        have hnone : none ∈ (List.range o.size).map fun j => z.get (ix ++ [j]) :=
          List.mem_map.2 ⟨0, List.mem_range.2 (WellMade.pos hw.1), h5 hx hfam 0 (WellMade.pos hw.1)⟩
        rw [List.getD_eq_getElem _ _ (by rw [combine_length]; exact hi'.2)]
        simp only [Obj.combine, if_pos hnone, List.getElem_ofFn]

/-- **C116** (partial): for every well-made object, every requested number of functions and every array of numbers (with NaN), of any number of axes
and any lengths, `eval_all` returns the array with one more axis that holds the values of the functions at each number.  Missing: Fourier functions of
arrays with more than one axis, for which it is false (`C116_counterexample_fourier`). -/
theorem C116_value_by_value_partial (o : Obj) (hw : o.WellMade) (a : ND (Option ℝ)) (size : Nat) (hs : 0 < size) (ha : a.shape ≠ [])
    (hf : o.family ≠ .fourier ∨ a.shape.length = 1) : ∃ z, o.evalArr a size = .ok z ∧ ValueByValue o size a z :=
  evalArr_spec o hw a size hs ha hf

/-- **C116** for a single number: the result has one row. -/
theorem C116_number (o : Obj) (hw : o.WellMade) (x : ℝ) (size : Nat) (hs : 0 < size) : ∃ z row, o.evalArr ⟨[], fun _ => some x⟩ size = .ok z ∧
    o.evalAll x size = .ok row ∧ row.length = o.width size ∧ z.shape = [1, o.width size] ∧ ∀ i < o.width size, z.get [0, i] = row.getD i none := by
  have h0 : ∀ (o : Obj) (size : Nat), o.evalArr ⟨[], fun _ => some x⟩ size = o.evalArr ⟨[1], fun _ => some x⟩ size := by
    intro o
    induction o with
    | base m => intro size; rfl
    | trans o n m A ih => intro size; rw [Obj.evalArr, ih, Obj.evalArr]
  obtain ⟨z, h1, h2, h3⟩ := evalArr_spec o hw ⟨[1], fun _ => some x⟩ size hs (by simp) (Or.inr rfl)
  obtain ⟨row, h4, h5, h6⟩ := (h3 [0] (List.Forall₂.cons Nat.one_pos .nil)).1 x rfl
  exact ⟨z, row, by rw [h0]; exact h1, h4, h5, h2, h6⟩

/-- **C116** for `eval_single_moment`, for arrays of any number of axes: the values of one function. -/
theorem C116_single_partial (o : Obj) (hw : o.WellMade) (a : ND (Option ℝ)) (i : Nat) (hi : i < o.width (i + 1)) (ha : a.shape ≠ [])
    (hf : o.family ≠ .fourier ∨ a.shape.length = 1) : ∃ z, o.singleArr i a = .ok z ∧ z.shape = a.shape ∧
      ∀ ix, Within a.shape ix → ∀ x, a.get ix = some x → ∃ row, o.evalAll x (i + 1) = .ok row ∧ z.get ix = row.getD i none := by
  obtain ⟨z, h1, h2, h3⟩ := evalArr_spec o hw a (i + 1) (Nat.succ_pos i) ha hf
  refine ⟨⟨z.shape.dropLast, fun ix => z.get (ix ++ [i])⟩, ?_, by simp [h2], fun ix hix x hx => ?_⟩
  · simp only [Obj.singleArr, h1, Except.bind, h2, List.getLastD_concat, if_pos hi]
  · obtain ⟨row, h4, h5, h6⟩ := (h3 ix hix).1 x hx
    exact ⟨row, h4, h6 i hi⟩

theorem mk_storage {K : Type} (oid sto : Nat) (t t' : QType) (op : List (QVal K) → Except PyErr (QVal K)) :
    Quantity.mk oid t op [.storage sto t'] = .ok (.node oid t false op [.storage sto t']) := by
  simp [Quantity.mk, Quantity.setSelection, Quantity.selId, Quantity.firstSel, bind, Except.bind]

theorem asFn_ev (o : Obj) (hf : o.family ≠ .fourier) (z a : ND (Option ℝ)) (h : ValueByValue o o.size a z) (ix : List Nat)
    (hix : Within a.shape ix) (i : Nat) (hi : i < o.size) : z.get (ix ++ [i]) = o.asFn.ev i (a.get ix) := by
  obtain ⟨h1, h2⟩ := h.2 ix hix
  rw [width_size] at h1 h2
  cases hv : a.get ix with
  | none => rw [h2 hv hf i hi]; rfl
  | some x =>
    obtain ⟨row, h4, h5, h6⟩ := h1 x hv
    rw [h6 i hi]
    simp [Obj.asFn, h4, Except.toOption]

/-- **C116** for `moments(quantity, moments_fn)`: on every chunk `[M, N, P]`, for both places of the moments, the operation returns the array of the
function values, in the order in which the quantity type lists them (`Quantity.moments` with the functions of `o`). -/
theorem C116_moments_operation_partial (o : Obj) (hw : o.WellMade) (hf : o.family ≠ .fourier) (bottom : Bool) (a : Arr (Option ℝ)) :
    letI : Inhabited (Option ℝ) := ⟨none⟩
    ∃ z b, o.momentsOp bottom (ofArr a) = .ok z ∧
      (∀ t oid sto, ∃ q, Quantity.moments oid o.asFn bottom (.storage sto t) = .ok q ∧ q.samples (fun _ => .ok a) = .ok (.arr b)) ∧
      z.shape = [a.rows.length * o.size, a.n, a.p] ∧ b.rows.length = a.rows.length * o.size ∧ b.n = a.n ∧ b.p = a.p ∧
      ∀ i j k, i < a.rows.length * o.size → j < a.n → k < a.p → z.get [i, j, k] = (b.rows.getD i fun _ _ => none) j k := by
  letI : Inhabited (Option ℝ) := ⟨none⟩
  obtain ⟨z, h1, h2⟩ := evalArr_spec o hw (ofArr a) o.size (WellMade.pos hw) (by simp [ofArr]) (Or.inl hf)
  have hsh : z.shape = [a.rows.length, a.n, a.p, o.size] := by rw [h2.1, width_size]; rfl
  have hent : ∀ i j k r, i < a.rows.length → j < a.n → k < a.p → r < o.size →
      z.get [i, j, k, r] = o.asFn.ev r ((a.rows.getD i fun _ _ => none) j k) := by
    intro i j k r hi hj hk hr
    have := asFn_ev o hf z (ofArr a) h2 [i, j, k] (.cons hi (.cons hj (.cons hk .nil))) r hr
    exact this
  refine ⟨⟨[a.rows.length * o.size, a.n, a.p], fun ix =>
      if bottom then z.get [ix.getD 0 0 / o.size, ix.getD 1 0, ix.getD 2 0, ix.getD 0 0 % o.size]
      else z.get [ix.getD 0 0 % a.rows.length, ix.getD 1 0, ix.getD 2 0, ix.getD 0 0 / a.rows.length]⟩,
    ⟨a.n, a.p, if bottom then a.rows.flatMap fun r => (List.range o.size).map fun i j k => o.asFn.ev i (r j k)
      else (List.range o.size).flatMap fun i => a.rows.map fun r j k => o.asFn.ev i (r j k)⟩, ?_, ?_, rfl, ?_, rfl, rfl, ?_⟩
  · simp only [Obj.momentsOp, h1, Except.bind, hsh]
  · intro t oid sto
    exact ⟨_, mk_storage _ _ _ _ _, rfl⟩
  · cases bottom <;> simp [List.length_flatMap, Nat.mul_comm]
  · intro i j k hi hj hk
    have hM : 0 < a.rows.length := Nat.pos_of_mul_pos_right (Nat.zero_lt_of_lt hi)
    have hR : 0 < o.size := WellMade.pos hw
    cases bottom with
    | true =>
      have h3 : i / o.size < a.rows.length := Nat.div_lt_of_lt_mul (by rw [Nat.mul_comm]; exact hi)
      have h4 : i % o.size < o.size := Nat.mod_lt _ hR
      have h5 := flatMap_entry a.rows (fun r => (List.range o.size).map fun (i : Nat) j k => o.asFn.ev i (r j k)) o.size (by simp) (i / o.size) (i % o.size) h3 h4
        (fun _ _ => none)
      rw [Nat.div_add_mod'] at h5
      simp only [if_true, List.getD_cons_zero, List.getD_cons_succ]
      rw [h5, hent _ _ _ _ h3 hj hk h4, List.getD_eq_getElem a.rows _ h3, List.getD_eq_getElem (List.map _ _) _ (by simpa using h4)]
      simp
    | false =>
      have h3 : i / a.rows.length < o.size := Nat.div_lt_of_lt_mul hi
      have h4 : i % a.rows.length < a.rows.length := Nat.mod_lt _ hM
      have h5 := flatMap_entry (List.range o.size) (fun (i : Nat) => a.rows.map fun r j k => o.asFn.ev i (r j k)) a.rows.length (by simp) (i / a.rows.length)
        (i % a.rows.length) (by simpa using h3) h4 (fun _ _ => none)
      rw [Nat.div_add_mod'] at h5
      simp only [Bool.false_eq_true, if_false, List.getD_cons_zero, List.getD_cons_succ]
      rw [h5, hent _ _ _ _ h4 hj hk h3, List.getD_eq_getElem a.rows _ h4, List.getD_eq_getElem (List.map _ _) _ (by simpa using h4)]
      simp

/-! ### Fourier functions -/

theorem fourier_shape : ∀ (o : Obj) (_ : o.family = .fourier) (a : ND (Option ℝ)) (size : Nat) (z : ND (Option ℝ)), o.evalArr a size = .ok z → z.shape.length = 2
  | .base m, hf, a, size, z, h => by
    have hm : m.family = .fourier := hf
    simp only [Obj.evalArr, Moments.evalArr, hm, Moments.fourierAll] at h
    split at h
    · cases h
    · split at h
      · cases h
      · split at h
        · cases h
        · cases h; rfl
  | .trans o n k A, hf, a, size, z, h => by
    rw [Obj.evalArr] at h
    cases h1 : o.evalArr a o.size with
    | error e => rw [h1] at h; cases h
    | ok y =>
      rw [h1] at h
      cases h
      simp [fourier_shape o hf a _ y h1]

/-- **C116** is false for Fourier functions: on no chunk of any quantity can their moments be evaluated, with the moments at either place, however many
functions there are and whatever they are combined to. -/
theorem C116_counterexample_fourier (o : Obj) (hf : o.family = .fourier) (bottom : Bool) (a : ND (Option ℝ)) : ∃ e, o.momentsOp bottom a = .error e := by
  cases h : o.evalArr a o.size with
  | error e => exact ⟨e, by rw [Obj.momentsOp, h]; rfl⟩
  | ok z =>
    have := fourier_shape o hf a _ z h
    refine ⟨.valueError, ?_⟩
    rw [Obj.momentsOp, h]
    simp only [Except.bind]
    split
    · rename_i h4
      rw [h4] at this
      simp at this
    · rfl

/-- Such an object: Fourier functions on the interval `(0, 1)`. -/
example : ∃ m, construct .fourier 3 (0, 1) .none false true = .ok m ∧ (Obj.base m).WellMade ∧ (Obj.base m).family = .fourier := by
  have : construct .fourier 3 (0, 1) .none false true =
      .ok ⟨.fourier, 3, (0, 1), defaultRef .fourier, false, true, ((defaultRef .fourier).2 - (defaultRef .fourier).1) / max (1 - 0) (1 / 10 ^ 15), 0⟩ := by
    simp [construct]
  exact ⟨_, this, by show 0 < 3; norm_num, rfl⟩

/-! ### `eval` and derivatives -/

/-- Legendre polynomials on `(-1, 1)`. -/
noncomputable def exLeg (size : Nat) : Moments := ⟨.legendre, size, (-1, 1), (-1, 1), false, true, 1, -1⟩

theorem exLeg_made (size : Nat) (h : 0 < size) : construct .legendre size (-1, 1) .none false true = .ok (exLeg size) := by
  simp only [construct, exLeg]
  rw [if_neg (Nat.pos_iff_ne_zero.1 h), if_neg (by simp), if_neg (by norm_num)]
  norm_num [defaultRef]

theorem exLeg_transform (size : Nat) (x : ℝ) (h : -1 ≤ x ∧ x ≤ 1) : (exLeg size).transform x = some x := by
  have hx : (exLeg size).linear x = x := by simp [Moments.linear, exLeg]
  have h1 : (exLeg size).transform x = (exLeg size).clip ((exLeg size).linear x) := rfl
  rw [h1, hx, Moments.clip]
  have : ¬ (x < min (-1 : ℝ) 1 ∨ x > max (-1 : ℝ) 1) := by
    rw [min_eq_left (by norm_num), max_eq_right (by norm_num)]
    rintro (h1 | h1) <;> linarith
  exact if_neg this

/-- The hypotheses of the theorems above hold for a chunk of two components, three samples and two parts. -/
example : (Obj.base (exLeg 4)).WellMade ∧ (Obj.base (exLeg 4)).family ≠ .fourier ∧ Within [2, 3, 2] [1, 2, 0] :=
  ⟨by show 0 < 4; norm_num, by simp [Obj.family, exLeg], .cons (by norm_num) (.cons (by norm_num) (.cons (by norm_num) .nil))⟩

/-- The array `[[0, 1/2]]`. -/
noncomputable def exRow : ND (Option ℝ) := ⟨[1, 2], fun ix => some (if ix.getD 1 0 = 0 then 0 else 1 / 2)⟩

/-- **C116** for `eval` of a vector: entry `k` is moment `i` of value `k`. -/
theorem C116_eval_vector (o : Obj) (hw : o.WellMade) (n i : Nat) (hi : o.width (i + 1) = i + 1) (f : List Nat → Option ℝ) :
    ∃ z, o.evalOfArr i ⟨[n], f⟩ = .ok z ∧ z.shape = [n] ∧
      ∀ k < n, ∀ x, f [k] = some x → ∃ row, o.evalAll x (i + 1) = .ok row ∧ z.get [k] = row.getD i none := by
  obtain ⟨z, h1, h2, h3⟩ := evalArr_spec o hw ⟨[n], f⟩ (i + 1) (Nat.succ_pos i) (by simp) (Or.inr rfl)
  rw [hi] at h2
  simp only [List.singleton_append] at h2
  refine ⟨⟨[n], fun ix => z.get (ix.take 1 ++ [i] ++ ix.drop 1)⟩, ?_, rfl, ?_⟩
  · simp only [Obj.evalOfArr, h1, Except.bind, Obj.lastOfSecond, h2]
    rfl
  · intro k hk x hx
    obtain ⟨row, h4, h5, h6⟩ := (h3 [k] (List.Forall₂.cons hk .nil)).1 x hx
    exact ⟨row, h4, h6 i (by rw [hi]; exact Nat.lt_succ_self i)⟩

/-- **C116** is false for `eval` of every array with two axes: the result has as many columns as there are moments up to `i`, and entry `(k, s)` is moment `s` of the
last value of row `k`. -/
theorem C116_eval_matrix (o : Obj) (hw : o.WellMade) (hf : o.family ≠ .fourier) (n m i : Nat) (f : List Nat → Option ℝ) :
    ∃ z, o.evalOfArr i ⟨[n, m + 1], f⟩ = .ok z ∧ z.shape = [n, o.width (i + 1)] ∧
      ∀ k < n, ∀ x, f [k, m] = some x → ∃ row, o.evalAll x (i + 1) = .ok row ∧ ∀ s < o.width (i + 1), z.get [k, s] = row.getD s none := by
  obtain ⟨z, h1, h2, h3⟩ := evalArr_spec o hw ⟨[n, m + 1], f⟩ (i + 1) (Nat.succ_pos i) (by simp) (Or.inl hf)
  simp only [List.cons_append, List.nil_append] at h2
  refine ⟨⟨[n, o.width (i + 1)], fun ix => z.get (ix.take 1 ++ [m] ++ ix.drop 1)⟩, ?_, rfl, ?_⟩
  · simp only [Obj.evalOfArr, h1, Except.bind, Obj.lastOfSecond, h2]
    rfl
  · intro k hk x hx
    obtain ⟨row, h4, h5, h6⟩ := (h3 [k, m] (List.Forall₂.cons hk (.cons (Nat.lt_succ_self m) .nil))).1 x hx
    exact ⟨row, h4, fun s hs => h6 s hs⟩

example := C116_eval_vector (.base (exLeg 4)) (by show 0 < 4; norm_num) 5 2 rfl fun ix => some (ix.getD 0 0 / 10)

example := C116_eval_matrix (.base (exLeg 4)) (by show 0 < 4; norm_num) (by simp [Obj.family, exLeg]) 5 1 2 fun ix => some (ix.getD 0 0 / 10)

/-- **C116** is false for `eval` of Legendre polynomials: for the array `[[0, 1/2]]` of shape `(1, 2)`, `eval(1, ·)` returns an array of the same shape whose first
entry is 1, although polynomial number 1 has the value 0 at 0. -/
theorem C116_counterexample_eval : ∃ z, (Obj.base (exLeg 2)).evalOfArr 1 exRow = .ok z ∧ z.shape = exRow.shape ∧
    exRow.get [0, 0] = some 0 ∧ z.get [0, 0] = some 1 ∧ (Obj.base (exLeg 2)).eval 1 0 = .ok (some 0) := by
  refine ⟨_, rfl, rfl, by simp [exRow], ?_, ?_⟩
  · have := exLeg_transform 2 (1 / 2) (by norm_num)
    simp only [one_div] at this
    have hf : (exLeg 2).family = .legendre := rfl
    simp [atleast1, exRow, Moments.transformF, this, col, leg, hf]
  · simp [Obj.eval, Moments.eval, exLeg_transform 2 0 (by norm_num), Moments.evalAll]
    simp [exLeg, Except.map, List.range_succ, col, leg]

/-- **C116** for derivatives, partial: `eval_all_der` of a one-dimensional array holds the derivatives at each number.  Missing: more axes, for
which it is false (`C116_counterexample_derivative`). -/
theorem C116_derivative_partial (m : Moments) (hf : m.family = .legendre) (n size degree : Nat) (f : List Nat → Option ℝ) : ∃ z, m.derArr ⟨[n], f⟩ size degree = .ok z ∧
    z.shape = [n, size] ∧ ∀ i < n, ∀ x, f [i] = some x → ∃ row, m.evalAllDer x size degree = .ok row ∧ row.length = size ∧
      ∀ s < size, z.get [i, s] = row.getD s none := by
  by_cases hs : size = 0
  · subst hs
    refine ⟨_, rfl, rfl, fun i _ x _ => ?_⟩
    cases ht : m.transform x with
    | none => exact ⟨[], by simp [Moments.evalAllDer, hf, ht], rfl, by simp⟩
    | some t => exact ⟨[], by simp [Moments.evalAllDer, hf, ht], rfl, by simp⟩
  · refine ⟨⟨[n, size], fun ix => if ix.getD 1 0 < size then m.derAt degree (ix.getD 1 0) (f (bindex [n] (ix.eraseIdx 1))) else none⟩, ?_, rfl, ?_⟩
    · simp [Moments.derArr, atleast1, hs]
    · intro i hi x hx
      have hb : bindex [n] [i] = [i] := by
        simp only [bindex, List.reverse_cons, List.reverse_nil, List.nil_append, List.zipWith_cons_cons, List.zipWith_nil_left]
        split
        · have : i = 0 := by omega
          rw [this]
        · rfl
      cases ht : m.transform x with
      | none =>
        refine ⟨(List.range size).map fun _ => none, by simp [Moments.evalAllDer, hf, ht], by simp, fun s h => ?_⟩
        simp [h, hb, hx, Moments.derAt, Moments.transformF, ht]
      | some t =>
        refine ⟨(List.range size).map fun s => some (legval t (legder (unitCoef s) degree)), by simp [Moments.evalAllDer, hf, ht], by simp, fun s h => ?_⟩
        simp [h, hb, hx, Moments.derAt, Moments.transformF, ht]

/-- **C116** is false for derivatives of arrays with two axes: for the array of shape `(2, 2)` filled with zeros, `eval_all_der` returns an array of shape
`(2, 2, 2)` in which the entry for function 0 at the number `[0, 1]` is 1, although the derivative of function 0 is 0 everywhere. -/
theorem C116_counterexample_derivative : ∃ z, (exLeg 2).derArr ⟨[2, 2], fun _ => some 0⟩ 2 1 = .ok z ∧ z.shape = [2, 2, 2] ∧ z.get [0, 1, 0] = some 1 ∧
    ∃ row, (exLeg 2).evalAllDer 0 2 1 = .ok row ∧ row.getD 0 none = some 0 := by
  have ht := exLeg_transform 2 0 (by norm_num)
  refine ⟨_, rfl, rfl, ?_, ?_⟩
  · simp [Moments.derAt, Moments.transformF, unitCoef, legder, legder1, legval, leg, atleast1, ht, Finset.sum_range_succ]
  · refine ⟨(List.range 2).map fun s => some (legval 0 (legder (unitCoef s) 1)), ?_, ?_⟩
    · simp [Moments.evalAllDer, ht]
      simp [exLeg]
    · simp [List.range_succ, unitCoef, legder, legval, leg]

end MLMC.Mom
