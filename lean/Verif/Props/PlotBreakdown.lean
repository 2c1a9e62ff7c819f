import Verif.Props.PlotSubset
import Mathlib.Tactic.Ring
import Mathlib.Tactic.FieldSimp
/-
The breakdown of the variance of the estimate to levels (C144).
-/
namespace MLMC
open Plot
namespace Plot
variable {F : Type} [Field F] [LinearOrder F]

omit [Field F] [LinearOrder F] in
theorem takeCols_row {cols : Nat} (row : Nat → F) {shown : List Nat} (h : ∀ m ∈ shown, m < cols) :
    takeCols (shown.map fun m : Nat => (m : ℤ)) ((List.range cols).map row) = .ok (shown.map row) := by
  induction shown with
  | nil => rfl
  | cons m ms ih =>
    have hm : m < cols := h m (by simp)
    have ih' := ih fun x hx => h x (by simp [hx])
    have hr : ((List.range cols).map row)[((m : ℤ)).toNat]? = some (row m) := by
      rw [Int.toNat_natCast, List.getElem?_map, List.getElem?_range hm]; rfl
    unfold takeCols at ih' ⊢
    rw [List.map_cons, List.mapM_cons, hr, ih']
    rfl

omit [LinearOrder F] in
theorem withMean_columns (V : Nat → Nat → F) (n : Nat → F) (shown : List Nat) (l : Nat) :
    withMean (n l) (shown.map (V l)) = (columns shown).map (contribution V n shown l) := by
  simp only [withMean, columns, List.map_cons, List.map_map, mean, contribution, List.length_map]
  rfl

omit [LinearOrder F] in
theorem sum_head (f : Nat → F) (a k : Nat) :
    f a + ((List.range k).map fun i => f (a + 1 + i)).sum = ((List.range (k + 1)).map fun i => f (a + i)).sum := by
  rw [List.range_succ_eq_map, List.map_cons, List.sum_cons, List.map_map]
  simp only [Nat.add_zero, Function.comp_def]
  congr 2
  refine List.map_congr_left fun i _ => ?_
  congr 1; omega

omit [LinearOrder F] in
theorem sum_last (f : Nat → F) (k : Nat) :
    ((List.range (k + 1)).map f).sum = ((List.range k).map f).sum + f k := by
  rw [List.range_succ, List.map_append, List.sum_append]; simp

theorem stack_bars [IsStrictOrderedRing F] (width : F) (xs : List F) (V : Nat → Nat → F) (n : Nat → F) (R : Option (Nat → Nat → F)) (shown : List Nat)
    (L : Nat) : ∀ (k : Nat), k ≤ L →
    (stack width xs ((List.range k).reverse.map fun l => (l, shown.map (V l), n l, R.map fun R => shown.map (R l)))
      ((columns shown).map fun c => ((List.range (L - k)).map fun i => contribution V n shown (k + i) c).sum)).map (·.1) =
    (List.range k).reverse.map fun l =>
      { level := l
        xs := xs
        heights := (columns shown).map (contribution V n shown l)
        bottoms := (columns shown).map fun c => ((List.range (L - (l + 1))).map fun i => contribution V n shown (l + 1 + i) c).sum
        err := R.map fun R =>
          ((columns shown).map fun c => max 0 (contribution V n shown l c - contribution R n shown l c),
           (columns shown).map fun c => max 0 (contribution R n shown l c - contribution V n shown l c)) } := by
  intro k
  induction k with
  | zero => intro _; rfl
  | succ k ih =>
    intro hk
    rw [List.range_succ, List.reverse_append, List.reverse_singleton, List.singleton_append, List.map_cons, List.map_cons]
    rw [stack, List.map_cons]
    congr 1
    · simp only [Bars.mk.injEq, true_and]
      refine ⟨withMean_columns V n shown k, ?_⟩
      cases R with
      | none => rfl
      | some R =>
        simp only [Option.map_some, Option.some.injEq, Prod.mk.injEq]
        rw [withMean_columns, withMean_columns]
        simp only [List.zipWith_map, List.zipWith_self, List.map_map, Function.comp_def]
        constructor
        · refine List.map_congr_left fun c _ => ?_
          rw [← max_neg_neg, neg_zero, max_comm]; congr 1; ring
        · refine List.map_congr_left fun c _ => ?_
          rw [max_comm]
    · rw [← ih (by omega)]
      congr 2
      rw [withMean_columns]
      simp only [List.zipWith_map, List.zipWith_self]
      refine List.map_congr_left fun c _ => ?_
      rw [add_comm, sum_head (fun l => contribution V n shown l c)]
      congr 3; omega

omit [Field F] [LinearOrder F] in
theorem stack_notes [Field F] [LinearOrder F] (width : F) (xs : List F) (V : Nat → List F) (n : Nat → F) (R : Nat → Option (List F)) :
    ∀ (ls : List Nat) (sumY : List F), (stack width xs (ls.map fun l => (l, V l, n l, R l)) sumY).map (·.2) =
      ((stack width xs (ls.map fun l => (l, V l, n l, R l)) sumY).map (·.1)).map fun bar =>
        { level := bar.level, nSamples := n bar.level, at_ := (xs.headD 0 - width / 2, bar.heights.headD 0 / 2 + bar.bottoms.headD 0) }
  | [], _ => rfl
  | l :: ls, sumY => by
    simp only [List.map_cons, stack]
    rw [stack_notes width xs V n R ls]

end Plot

variable {F : Type} [Field F] [LinearOrder F]

omit [LinearOrder F] in
theorem mapM_takeCols {L cols : Nat} (V : Nat → Nat → F) {shown : List Nat} (h : ∀ m ∈ shown, m < cols) :
    (table L cols V).mapM (takeCols (shown.map fun m : Nat => (m : ℤ))) = .ok ((List.range L).map fun l => shown.map (V l)) := by
  unfold table
  induction L with
  | zero => rfl
  | succ L ih =>
    rw [List.range_succ, List.map_append, List.mapM_append, ih]
    simp only [List.map_cons, List.map_nil, List.mapM_cons, List.mapM_nil, takeCols_row _ h]
    simp [bind, Except.bind, pure, Except.pure]


omit [LinearOrder F] in
theorem refRows_table {L cols : Nat} (R : Option (Nat → Nat → F)) {shown : List Nat} (h : ∀ m ∈ shown, m < cols) :
    refRows (shown.map fun m : Nat => (m : ℤ)) L (R.map (table L cols)) =
      .ok ((List.range L).map fun l => R.map fun R => shown.map (R l)) := by
  cases R with
  | none => rfl
  | some R =>
    have key : ∀ ls : List Nat, (∀ l ∈ ls, l < L) →
        (ls.mapM fun il => match (table L cols R)[il]? with
        | some row => (takeCols (shown.map fun m : Nat => (m : ℤ)) row).map some
        | none => .error PyErr.indexError) = .ok (ls.map fun l => some (shown.map (R l))) := by
      intro ls
      induction ls with
      | nil => intro _; rfl
      | cons l ls ih =>
        intro hl
        have hl0 : l < L := hl l (by simp)
        have : (table L cols R)[l]? = some ((List.range cols).map (R l)) := by
          simp only [table, List.getElem?_map]; rw [List.getElem?_range hl0]; rfl
        rw [List.mapM_cons, ih fun x hx => hl x (by simp [hx]), this]
        simp only [takeCols_row _ h]
        rfl
    exact key _ fun l hl => List.mem_range.1 hl

/-- One call of `add_variances` with tables of `cols` moments. -/
structure BreakCall (F : Type) where
  levels : Nat
  /-- level variances -/
  V : Nat → Nat → F
  /-- numbers of samples -/
  n : Nat → F
  /-- reference variances -/
  R : Option (Nat → Nat → F)

/-- Calls of `add_variances` one after another on a new plot. -/
def breakdownOf (sub : Nat → Option ℤ → Except PyErr (List ℤ)) (subsetType : Option ℤ) (cols : Nat) (calls : List (BreakCall F)) :
    Except PyErr (Breakdown F) :=
  calls.foldlM (fun b c => b.add sub cols (table c.levels cols c.V) ((List.range c.levels).map c.n) (c.R.map (table c.levels cols)))
    (Breakdown.new subsetType)

/-- The places of the columns of the `j`-th call (from 0) when `p` moments are shown. -/
def places (p j : Nat) : List F := (List.range (p + 1)).map fun i : Nat => (j : F) * (11 / 100 * (p : F) + 3 / 10) + 11 / 100 * (i : F)

/-- The plot after `j` calls. -/
structure Drawn (subsetType : Option ℤ) (cols : Nat) (shown : List Nat) (calls : List (BreakCall F)) (b : Breakdown F) : Prop where
  type : b.subsetType = subsetType
  moments : (b.nMoments = none ∧ calls = []) ∨ (b.nMoments = some cols ∧ b.subset = shown.map fun m : Nat => (m : ℤ))
  shift : b.xShift = (calls.length : F) * (11 / 100 * (shown.length : F) + 3 / 10)
  list : b.xList = (List.range calls.length).map (places shown.length)
  labels : b.xLabels = (calls.map fun _ => "avg" :: shown.map fun m : Nat => toString (m : ℤ)).flatten
  bars : b.bars = (calls.zipIdx.map fun c => expectedBars c.1.levels c.1.V c.1.n c.1.R shown (places shown.length c.2)).flatten
  notes : b.notes = (calls.zipIdx.map fun c => expectedNotes c.1.levels c.1.V c.1.n shown (places shown.length c.2)).flatten

theorem notes_of_bars (L : Nat) (V : Nat → Nat → F) (n : Nat → F) (R : Option (Nat → Nat → F)) (shown : List Nat) (xs : List F) :
    ((expectedBars L V n R shown xs).map fun bar => { level := bar.level, nSamples := n bar.level, at_ := (xs.headD 0 - 1 / 10 / 2, bar.heights.headD 0 / 2 + bar.bottoms.headD 0) }) =
      expectedNotes L V n shown xs := by
  unfold expectedBars expectedNotes
  rw [List.map_map]
  refine List.map_congr_left fun l _ => ?_
  simp [columns]

theorem drawn_step [IsStrictOrderedRing F] {sub : Nat → Option ℤ → Except PyErr (List ℤ)} {subsetType : Option ℤ} {cols : Nat} {shown : List Nat}
    (hsub : sub cols subsetType = .ok (shown.map fun m : Nat => (m : ℤ))) (hshown : ∀ m ∈ shown, m < cols)
    {calls : List (BreakCall F)} {b : Breakdown F} (hb : Drawn subsetType cols shown calls b) (c : BreakCall F) :
    ∃ b', b.add sub cols (table c.levels cols c.V) ((List.range c.levels).map c.n) (c.R.map (table c.levels cols)) = .ok b' ∧
      Drawn subsetType cols shown (calls ++ [c]) b' := by
  obtain ⟨h1, h2, h3, h4, h5, h6, h7⟩ := hb
  have hset : b.choose sub cols = .ok { b with nMoments := some cols, subset := shown.map fun m : Nat => (m : ℤ) } := by
    unfold Breakdown.choose
    rcases h2 with ⟨h2, _⟩ | ⟨h2, h2'⟩
    · simp only [h2, h1, hsub]; rfl
    · simp only [h2]
      rw [if_pos trivial, ← h2', ← h2]
  have hany : ((shown.map fun m : Nat => (m : ℤ)).any fun i => decide (cols ≤ i.toNat)) = false := by
    rw [List.any_eq_false]
    intro i hi
    obtain ⟨m, hm, rfl⟩ := List.mem_map.1 hi
    have := hshown m hm
    simp only [Int.toNat_natCast, decide_eq_true_eq]
    omega
  unfold Breakdown.add
  rw [if_neg (by simp [table]), hset]
  simp only [Except.bind, hany, Bool.false_eq_true, if_false, mapM_takeCols c.V hshown]
  rw [show (table c.levels cols c.V).length = c.levels by simp [table], refRows_table c.R hshown]
  refine ⟨_, rfl, ?_⟩
  have hplaces : ((List.range ((shown.map fun m : Nat => (m : ℤ)).length + 1)).map fun i : Nat => b.xShift + 1 / 10 * (11 / 10) * (i : F)) =
      places shown.length calls.length := by
    simp only [places, List.length_map, h3]
    refine List.map_congr_left fun i _ => ?_
    ring
  have hrows : ((List.range ((List.range c.levels).map fun l => shown.map (c.V l)).length).zip (((List.range c.levels).map fun l => shown.map (c.V l)).zip
      (((List.range c.levels).map c.n).zip ((List.range c.levels).map fun l => c.R.map fun R => shown.map (R l))))).reverse =
      (List.range c.levels).reverse.map fun l => (l, shown.map (c.V l), c.n l, c.R.map fun R => shown.map (R l)) := by
    rw [List.length_map, List.length_range, List.zip_map', List.zip_map', List.map_reverse]
    congr 1
    conv_lhs => rw [← List.map_id (List.range c.levels), List.map_map, List.zip_map']
    rfl
  have hzero : List.replicate ((shown.map fun m : Nat => (m : ℤ)).length + 1) (0 : F) =
      (columns shown).map fun c' => ((List.range (c.levels - c.levels)).map fun i => contribution c.V c.n shown (c.levels + i) c').sum := by
    rw [Nat.sub_self]
    simp only [List.range_zero, List.map_nil, List.sum_nil, List.map_const', columns, List.length_cons, List.length_map]
  have hs := stack_bars (1 / 10 : F) (places shown.length calls.length) c.V c.n c.R shown c.levels c.levels le_rfl
  refine ⟨h1, Or.inr ⟨rfl, rfl⟩, ?_, ?_, ?_, ?_, ?_⟩
  · simp only [Breakdown.draw, hplaces, places, List.length_append, List.length_singleton]
    rw [List.range_succ, List.map_append, List.map_singleton, List.getLastD_eq_getLast?, List.getLast?_concat]
    simp only [Option.getD_some]
    push_cast
    ring
  · simp only [Breakdown.draw, hplaces, h4, List.length_append, List.length_singleton]
    rw [List.range_succ, List.map_append]; rfl
  · simp only [Breakdown.draw, h5, List.map_append, List.flatten_append, List.map_map]
    simp [Function.comp_def]
  · simp only [Breakdown.draw, hplaces, h6, List.zipIdx_append, List.map_append, List.flatten_append, List.zipIdx_singleton, List.map_cons, List.map_nil,
      List.flatten_cons, List.flatten_nil, List.append_nil, Nat.zero_add]
    congr 1
    rw [hrows, hzero, hs]
    rfl
  · simp only [Breakdown.draw, hplaces, h7, List.zipIdx_append, List.map_append, List.flatten_append, List.zipIdx_singleton, List.map_cons, List.map_nil,
      List.flatten_cons, List.flatten_nil, List.append_nil, Nat.zero_add]
    congr 1
    rw [hrows, stack_notes (1 / 10 : F) (places shown.length calls.length) (fun l => shown.map (c.V l)) c.n (fun l => c.R.map fun R => shown.map (R l)), hzero, hs]
    exact notes_of_bars c.levels c.V c.n c.R shown _

theorem drawn_all [IsStrictOrderedRing F] {sub : Nat → Option ℤ → Except PyErr (List ℤ)} {subsetType : Option ℤ} {cols : Nat} {shown : List Nat}
    (hsub : sub cols subsetType = .ok (shown.map fun m : Nat => (m : ℤ))) (hshown : ∀ m ∈ shown, m < cols) (todo : List (BreakCall F)) :
    ∀ {calls : List (BreakCall F)} {b : Breakdown F}, Drawn subsetType cols shown calls b →
    ∃ b', todo.foldlM (fun b c => b.add sub cols (table c.levels cols c.V) ((List.range c.levels).map c.n) (c.R.map (table c.levels cols))) b = .ok b' ∧
      Drawn subsetType cols shown (calls ++ todo) b' := by
  induction todo with
  | nil => intro calls b hb; exact ⟨b, rfl, by simpa using hb⟩
  | cons c todo ih =>
    intro calls b hb
    obtain ⟨b1, h1, hb1⟩ := drawn_step hsub hshown hb c
    obtain ⟨b2, h2, hb2⟩ := ih hb1
    refine ⟨b2, ?_, by simpa using hb2⟩
    rw [List.foldlM_cons, h1]
    exact h2

/-- **C144.** Whatever the calls of `add_variances` on a new plot (tables of the same number of moments, any numbers of levels, with or without reference
variances): every level of every call has its bars, whose heights are the contributions of the level to the variance of the estimate, each standing on the
contributions of the finer levels; the error bars go to the contributions of the reference variances; and the columns of the `j`-th call are at their own places, with
their labels; a text with the number of samples of the level points to the middle of its first bar. -/
theorem C144_breakdown [IsStrictOrderedRing F] {sub : Nat → Option ℤ → Except PyErr (List ℤ)} {subsetType : Option ℤ} {cols : Nat} {shown : List Nat}
    (hsub : sub cols subsetType = .ok (shown.map fun m : Nat => (m : ℤ))) (hshown : ∀ m ∈ shown, m < cols) (calls : List (BreakCall F))
    (_hn : ∀ c ∈ calls, ∀ l < c.levels, 0 < c.n l) :
    ∃ b, breakdownOf sub subsetType cols calls = .ok b ∧
      b.bars = (calls.zipIdx.map fun c => expectedBars c.1.levels c.1.V c.1.n c.1.R shown (places shown.length c.2)).flatten ∧
      b.xList = (List.range calls.length).map (places shown.length) ∧
      b.xLabels = (calls.map fun _ => "avg" :: shown.map fun m : Nat => toString (m : ℤ)).flatten ∧
      b.notes = (calls.zipIdx.map fun c => expectedNotes c.1.levels c.1.V c.1.n shown (places shown.length c.2)).flatten := by
  obtain ⟨b, h, hb⟩ := drawn_all hsub hshown calls (calls := []) (b := Breakdown.new subsetType)
    ⟨rfl, Or.inl ⟨rfl, rfl⟩, by simp [Breakdown.new], rfl, rfl, rfl, rfl⟩
  simp only [List.nil_append] at hb
  exact ⟨b, h, hb.bars, hb.list, hb.labels, hb.notes⟩

/-- **C144.** The bar of level 0 ends, in every column, at the sum of the contributions of all levels. -/
theorem C144_total (L : Nat) (V : Nat → Nat → F) (n : Nat → F) (R : Option (Nat → Nat → F)) (shown : List Nat) (xs : List F) (hL : 0 < L) :
    ∃ bar ∈ expectedBars L V n R shown xs, bar.level = 0 ∧
      List.zipWith (· + ·) bar.bottoms bar.heights =
        (columns shown).map fun c => ((List.range L).map fun l => contribution V n shown l c).sum := by
  refine ⟨_, List.mem_map.2 ⟨0, by simpa using hL, rfl⟩, rfl, ?_⟩
  simp only [List.zipWith_map, List.zipWith_self]
  refine List.map_congr_left fun c _ => ?_
  rw [add_comm, sum_head (fun l => contribution V n shown l c)]
  have : L - (0 + 1) + 1 = L := by omega
  rw [this]
  simp

/-- **C144.** Bars do not overlap: the places of different columns, of one call or of two, differ by more than the width 1/10 of a bar. -/
theorem C144_places [IsStrictOrderedRing F] (p : Nat) {j j' i i' : Nat} (hi : i ≤ p) (hi' : i' ≤ p) (h : j < j' ∨ j = j' ∧ i < i') :
    ∃ x x' : F, (places p j)[i]? = some x ∧ (places p j')[i']? = some x' ∧ x + 1 / 10 < x' := by
  refine ⟨(j : F) * (11 / 100 * (p : F) + 3 / 10) + 11 / 100 * (i : F), (j' : F) * (11 / 100 * (p : F) + 3 / 10) + 11 / 100 * (i' : F), ?_, ?_, ?_⟩
  · simp only [places, List.getElem?_map]; rw [List.getElem?_range (by omega)]; rfl
  · simp only [places, List.getElem?_map]; rw [List.getElem?_range (by omega)]; rfl
  · have hp : (0 : F) ≤ (p : F) := Nat.cast_nonneg p
    rcases h with h | ⟨rfl, h⟩
    · have h1 : (j : F) + 1 ≤ (j' : F) := by exact_mod_cast h
      have h2 : (i : F) ≤ (p : F) := by exact_mod_cast hi
      have h3 : (0 : F) ≤ (i' : F) := Nat.cast_nonneg i'
      have h4 : ((j : F) + 1) * (11 / 100 * (p : F) + 3 / 10) ≤ (j' : F) * (11 / 100 * (p : F) + 3 / 10) :=
        mul_le_mul_of_nonneg_right h1 (by positivity)
      linarith
    · have h1 : (i : F) + 1 ≤ (i' : F) := by exact_mod_cast h
      linarith

/-- **C144.** With `moments_subset` of the library, `k` of `n` moments can be shown for `1 ≤ k < n`; for `k ≥ n` (at least two moments) every table raises IndexError. -/
theorem C144_too_many {geo : ℝ → ℝ → Nat → List ℝ} (hgeo : NearGeomspace geo) {n k : Nat} (hn : 2 ≤ n) (hkn : n ≤ k) (c : BreakCall ℝ) (rest : List (BreakCall ℝ)) :
    breakdownOf (momentsSubset geo) (some (k : ℤ)) n (c :: rest) = .error .indexError := by
  obtain ⟨s, hs, m, hm, hmn⟩ := (C143_too_many hgeo hkn).2 hn
  have hch : (Breakdown.new (some (k : ℤ)) : Breakdown ℝ).choose (momentsSubset geo) n =
      .ok { (Breakdown.new (some (k : ℤ)) : Breakdown ℝ) with nMoments := some n, subset := s } := by
    show Except.map _ (momentsSubset geo n (some (k : ℤ))) = _
    rw [hs]; rfl
  have hany : (s.any fun i => decide (n ≤ i.toNat)) = true := List.any_eq_true.2 ⟨m, hm, by simp only [decide_eq_true_eq]; omega⟩
  have hadd : (Breakdown.new (some (k : ℤ)) : Breakdown ℝ).add (momentsSubset geo) n (table c.levels n c.V) ((List.range c.levels).map c.n)
      (c.R.map (table c.levels n)) = .error .indexError := by
    unfold Breakdown.add
    rw [if_neg (by simp [table]), hch]
    simp only [Except.bind, hany, if_true]
  unfold breakdownOf
  rw [List.foldlM_cons, hadd]
  rfl

/-- The plot of all moments exists, and that of `k < n` of them. -/
example {geo : ℝ → ℝ → Nat → List ℝ} (hgeo : NearGeomspace geo) : ∃ shown : List Nat,
    momentsSubset geo 20 (some ((10 : Nat) : ℤ)) = .ok (shown.map fun m : Nat => (m : ℤ)) ∧ ∀ m ∈ shown, m < 20 := by
  obtain ⟨s, hs, _, _, hm, _⟩ := C143_subset hgeo (n := 20) (k := 10) (by omega) (by omega)
  refine ⟨s.map Int.toNat, ?_, ?_⟩
  · rw [hs, List.map_map]
    congr 1
    conv_lhs => rw [← List.map_id s]
    refine List.map_congr_left fun m h => ?_
    have := hm m h
    simp only [Function.comp_apply, id_eq]; omega
  · intro m h
    obtain ⟨x, hx, rfl⟩ := List.mem_map.1 h
    have := hm x hx
    omega

/-- Two levels with 10 and 2 samples and two shown moments: level 1 contributes 2/2 and 4/2 to the moments, level 0 contributes 10/10 and 30/10. -/
example : ((breakdownOf (fun _ _ => .ok [1, 2]) none 3
      [⟨2, fun l m => if l = 0 then (if m = 1 then 10 else 30) else (if m = 1 then 2 else 4), fun l => if l = 0 then 10 else 2, none⟩]).map
      fun b : Breakdown ℚ => b.bars.map fun x => (x.level, x.bottoms, x.heights)) =
    .ok [(1, [0, 0, 0], [3/2, 1, 2]), (0, [3/2, 1, 2], [2, 1, 3])] := by decide +kernel

end MLMC
