import Verif.Props.PlotBreakdown
import Verif.Model.PlotFigures
import Mathlib.Data.List.Sort
/-
Plots of level variances (C147).
-/
namespace MLMC
open Plot
variable {F : Type} [Field F] [LinearOrder F]

/-- One call of `add_level_variances`: levels, steps of the levels and variances. -/
structure VarCall (F : Type) where
  levels : Nat
  steps : Nat → F
  V : Nat → Nat → F

/-- The steps of a call as a list. -/
def VarCall.stepList (c : VarCall F) : List F := (List.range c.levels).map c.steps

/-- The variances of moment `m` in a call. -/
def VarCall.vars (c : VarCall F) (m : Nat) : List F := (List.range c.levels).map fun l => c.V l m

/-- Calls of `add_level_variances` on a new plot, with tables of `cols` moments. -/
def variancePlot (sub : Nat → Option ℤ → Except PyErr (List ℤ)) (subsetType : Option ℤ) (cols : Nat) (calls : List (VarCall F)) : Except PyErr (VarPlot F) :=
  calls.foldlM (fun p c => p.add sub cols c.stepList (table c.levels cols c.V)) (VarPlot.new subsetType)

/-- All steps of the calls, and all variances of moment `m`, in order. -/
def allSteps (calls : List (VarCall F)) : List F := calls.flatMap VarCall.stepList
def allVars (calls : List (VarCall F)) (m : Nat) : List F := calls.flatMap fun c => c.vars m

/-- The plot after the calls. -/
structure VarState (subsetType : Option ℤ) (cols : Nat) (shown : List Nat) (calls : List (VarCall F)) (p : VarPlot F) : Prop where
  type : p.subsetType = subsetType
  moments : (p.nMoments = none ∧ calls = []) ∨ (p.nMoments = some cols ∧ p.subset = shown.map fun m : Nat => (m : ℤ))
  data : p.data = if calls = [] then [] else shown.map fun m => (allSteps calls, allVars calls m)
  minStep : p.minStep = calls.foldl (fun s c => min s (c.steps (c.levels - 1))) (10 ^ 300)
  maxStep : p.maxStep = calls.foldl (fun s c => max s (c.steps 0)) 0

theorem var_step {sub : Nat → Option ℤ → Except PyErr (List ℤ)} {subsetType : Option ℤ} {cols : Nat} {shown : List Nat}
    (hsub : sub cols subsetType = .ok (shown.map fun m : Nat => (m : ℤ))) (hshown : ∀ m ∈ shown, m < cols)
    {calls : List (VarCall F)} {p : VarPlot F} (hp : VarState subsetType cols shown calls p) (c : VarCall F) (hc : 0 < c.levels) :
    ∃ p', p.add sub cols c.stepList (table c.levels cols c.V) = .ok p' ∧ VarState subsetType cols shown (calls ++ [c]) p' := by
  obtain ⟨h1, h2, h3, h4, h5⟩ := hp
  have hset : p.choose sub cols = .ok { p with nMoments := some cols, subset := shown.map fun m : Nat => (m : ℤ) } := by
    unfold VarPlot.choose
    rcases h2 with ⟨h2, _⟩ | ⟨h2, h2'⟩
    · simp only [h2, h1, hsub]; rfl
    · simp only [h2]
      rw [if_pos trivial, ← h2', ← h2]
  have hany : ((shown.map fun m : Nat => (m : ℤ)).any fun i => decide (cols ≤ i.toNat)) = false := by
    rw [List.any_eq_false]
    intro i hi
    obtain ⟨m, hm, rfl⟩ := List.mem_map.1 hi
    have := hshown m hm
    simp only [Int.toNat_natCast, decide_eq_true_eq]
    omega
  obtain ⟨L, hL⟩ : ∃ L, c.levels = L + 1 := ⟨c.levels - 1, by omega⟩
  have hhead : c.stepList.head? = some (c.steps 0) := by
    unfold VarCall.stepList; rw [hL, List.range_succ_eq_map]; rfl
  have hlast : c.stepList.getLast? = some (c.steps L) := by
    unfold VarCall.stepList; rw [hL, List.range_succ, List.map_append, List.map_singleton, List.getLast?_concat]
  unfold VarPlot.add
  rw [hset]
  simp only [Except.bind, hany, Bool.false_eq_true, if_false, mapM_takeCols c.V hshown, hhead, hlast]
  refine ⟨_, rfl, h1, Or.inr ⟨rfl, rfl⟩, ?_, ?_, ?_⟩
  · simp only [List.length_map]
    rw [if_neg (by simp)]
    apply List.ext_getElem
    · simp
    · intro i hi1 hi2
      simp only [List.length_map, List.length_range] at hi1 hi2
      simp only [List.getElem_map, List.getElem_range]
      have hold : p.data.getD i ([], []) = (allSteps calls, allVars calls shown[i]) := by
        rw [h3]
        split
        · next h => subst h; rfl
        · rw [List.getD_eq_getElem?_getD, List.getElem?_map, List.getElem?_eq_getElem hi2]; rfl
      rw [hold]
      simp only [allSteps, allVars, List.flatMap_append, List.flatMap_cons, List.flatMap_nil, List.append_nil, Prod.mk.injEq, true_and]
      congr 1
      unfold VarCall.vars
      rw [List.map_map]
      refine List.map_congr_left fun l _ => ?_
      simp only [Function.comp_apply]
      rw [List.getD_eq_getElem?_getD, List.getElem?_map, List.getElem?_eq_getElem hi2]; rfl
  · simp only [h4, List.foldl_append, List.foldl_cons, List.foldl_nil, hL, Nat.add_sub_cancel]
  · simp only [h5, List.foldl_append, List.foldl_cons, List.foldl_nil]

theorem var_all {sub : Nat → Option ℤ → Except PyErr (List ℤ)} {subsetType : Option ℤ} {cols : Nat} {shown : List Nat}
    (hsub : sub cols subsetType = .ok (shown.map fun m : Nat => (m : ℤ))) (hshown : ∀ m ∈ shown, m < cols) (todo : List (VarCall F))
    (htodo : ∀ c ∈ todo, 0 < c.levels) : ∀ {calls : List (VarCall F)} {p : VarPlot F}, VarState subsetType cols shown calls p →
    ∃ p', todo.foldlM (fun p c => p.add sub cols c.stepList (table c.levels cols c.V)) p = .ok p' ∧ VarState subsetType cols shown (calls ++ todo) p' := by
  induction todo with
  | nil => intro calls p hp; exact ⟨p, rfl, by simpa using hp⟩
  | cons c todo ih =>
    intro calls p hp
    obtain ⟨p1, h1, hp1⟩ := var_step hsub hshown hp c (htodo c (by simp))
    obtain ⟨p2, h2, hp2⟩ := ih (fun c hc => htodo c (by simp [hc])) hp1
    refine ⟨p2, ?_, by simpa using hp2⟩
    rw [List.foldlM_cons, h1]
    exact h2

/-- What is expected for one moment: its number as the label, all its variances at the (jittered) steps of their levels, and a curve through the different steps but the
smallest, each with the variance added first for it. -/
structure ExpectedVar (jit : List F → List F) (steps vars : List F) (m : Nat) (d : VarDrawn F) : Prop where
  label : d.label = m
  points : d.points = (jit steps).zip vars
  sorted : d.fitted.1.Pairwise (· < ·)
  /-- the steps of the curve: all but the smallest -/
  curveSteps : ∀ x, x ∈ d.fitted.1 ↔ x ∈ steps ∧ ∃ y ∈ steps, y < x
  /-- each with the variance at the first place of the step -/
  curveVars : d.fitted.2 = d.fitted.1.map fun x => vars.getD (steps.idxOf x) 0

omit [Field F] in
theorem sortedSteps (X : List F) : (X.dedup.insertionSort (· ≤ ·)).Pairwise (· < ·) ∧ (∀ x, x ∈ X.dedup.insertionSort (· ≤ ·) ↔ x ∈ X) ∧
    (X.dedup.insertionSort (· ≤ ·)).length = X.dedup.length := by
  have hperm := List.perm_insertionSort (· ≤ ·) X.dedup
  refine ⟨?_, fun x => by rw [hperm.mem_iff, List.mem_dedup], hperm.length_eq⟩
  have h1 : (X.dedup.insertionSort (· ≤ ·)).Pairwise (· ≤ ·) := List.pairwise_insertionSort (· ≤ ·) X.dedup
  have h2 : (X.dedup.insertionSort (· ≤ ·)).Nodup := hperm.nodup_iff.2 X.nodup_dedup
  exact (h1.and h2).imp fun h => lt_of_le_of_ne h.1 h.2

theorem drawOne_expected (jit : List F → List F) {p : VarPlot F} {X Y : List F} (hlen : X.length = Y.length) (hstep : p.minStep < p.maxStep) {i m : Nat}
    (hsub : p.subset.getD i 0 = m) (h5 : 5 ≤ X.dedup.length) : ∃ d, p.drawOne jit i (X, Y) = .ok d ∧ ExpectedVar jit X Y m d := by
  obtain ⟨hs, hmem, hl⟩ := sortedSteps X
  have ht : ¬ (makeMonotone X Y).1.tail.length ≤ 3 := by
    simp only [makeMonotone, List.length_tail, hl]; omega
  refine ⟨⟨p.subset.getD i 0, (jit X).zip Y, ((makeMonotone X Y).1.tail, (makeMonotone X Y).2.tail)⟩, ?_, hsub, rfl, ?_, ?_, ?_⟩
  · unfold VarPlot.drawOne
    rw [if_neg (not_not.2 hstep), if_neg (not_not.2 hlen)]
    simp only
    rw [if_neg ht]
  · exact hs.tail
  · intro x
    simp only [makeMonotone]
    cases hc : X.dedup.insertionSort (· ≤ ·) with
    | nil => rw [hc] at hl; simp at hl; omega
    | cons a rest =>
      rw [hc] at hs hmem
      have ha := List.pairwise_cons.1 hs
      simp only [List.tail_cons]
      constructor
      · intro hx
        exact ⟨(hmem x).1 (by simp [hx]), a, (hmem a).1 (by simp), ha.1 x hx⟩
      · rintro ⟨hx, y, hy, hyx⟩
        rcases List.mem_cons.1 ((hmem x).2 hx) with rfl | hx
        · rcases List.mem_cons.1 ((hmem y).2 hy) with rfl | hy
          · exact absurd hyx (lt_irrefl _)
          · exact absurd hyx (not_lt.2 (ha.1 y hy).le)
        · exact hx
  · simp only [makeMonotone]
    rw [← List.map_tail]

/-- **C147 (partial).** Whatever the calls of `add_level_variances` on a new plot (tables of the same number of moments): if the last step of some call is below the first one of some
call and there are five or more different steps, `show` draws for every shown moment all its variances under its own number, and fits a curve to the variances added
first for the steps but the smallest. -/
theorem C147_variances_partial {sub : Nat → Option ℤ → Except PyErr (List ℤ)} {subsetType : Option ℤ} {cols : Nat} {shown : List Nat}
    (hsub : sub cols subsetType = .ok (shown.map fun m : Nat => (m : ℤ))) (hshown : ∀ m ∈ shown, m < cols) {calls : List (VarCall F)} (hne : calls ≠ [])
    (hlev : ∀ c ∈ calls, 0 < c.levels) (jit : List F → List F) (h5 : 5 ≤ (allSteps calls).dedup.length)
    (hrange : calls.foldl (fun s c => min s (c.steps (c.levels - 1))) (10 ^ 300) < calls.foldl (fun s c => max s (c.steps 0)) 0) :
    ∃ p ds, variancePlot sub subsetType cols calls = .ok p ∧ p.show jit = .ok ds ∧
      List.Forall₂ (fun m d => ExpectedVar jit (allSteps calls) (allVars calls m) m d) shown ds := by
  obtain ⟨p, hp, hst⟩ := var_all hsub hshown calls hlev (calls := []) (p := VarPlot.new subsetType)
    ⟨rfl, Or.inl ⟨rfl, rfl⟩, rfl, rfl, rfl⟩
  simp only [List.nil_append] at hst
  obtain ⟨h1, h2, h3, h4, h5'⟩ := hst
  have hsubset : p.subset = shown.map fun m : Nat => (m : ℤ) := by
    rcases h2 with ⟨_, h⟩ | ⟨_, h⟩
    · exact absurd h hne
    · exact h
  rw [if_neg hne] at h3
  have hlen : ∀ m, (allSteps calls).length = (allVars calls m).length := by
    intro m
    unfold allSteps allVars
    rw [List.length_flatMap, List.length_flatMap]
    congr 1
    refine List.map_congr_left fun c _ => ?_
    simp [VarCall.stepList, VarCall.vars]
  have hstep : p.minStep < p.maxStep := by rw [h4, h5']; exact hrange
  have key : ∀ (pre rest : List Nat), pre ++ rest = shown →
      ∃ ds, ((rest.map fun m => (allSteps calls, allVars calls m)).zipIdx pre.length).mapM (fun d => p.drawOne jit d.2 d.1) = .ok ds ∧
        List.Forall₂ (fun m d => ExpectedVar jit (allSteps calls) (allVars calls m) m d) rest ds := by
    intro pre rest
    induction rest generalizing pre with
    | nil => intro _; exact ⟨[], rfl, .nil⟩
    | cons m rest ih =>
      intro he
      obtain ⟨ds, hds, hF⟩ := ih (pre ++ [m]) (by simpa using he)
      have hget : p.subset.getD pre.length 0 = m := by
        rw [hsubset, ← he, List.getD_eq_getElem?_getD, List.getElem?_map, List.getElem?_append_right le_rfl]; simp
      obtain ⟨d, hd, hE⟩ := drawOne_expected jit (hlen m) hstep hget h5
      refine ⟨d :: ds, ?_, .cons hE hF⟩
      rw [List.length_append, List.length_singleton] at hds
      rw [List.map_cons, List.zipIdx_cons, List.mapM_cons]
      simp only [hd]
      rw [hds]
      rfl
  obtain ⟨ds, hds, hF⟩ := key [] shown rfl
  refine ⟨p, ds, hp, ?_, hF⟩
  unfold VarPlot.show
  rw [h3]
  exact hds

/-- **C147.** If the steps of every call decrease with the level, the ends of the curves, `min_step` and `max_step`, enclose all steps. -/
theorem C147_range {sub : Nat → Option ℤ → Except PyErr (List ℤ)} {subsetType : Option ℤ} {cols : Nat} {shown : List Nat}
    (hsub : sub cols subsetType = .ok (shown.map fun m : Nat => (m : ℤ))) (hshown : ∀ m ∈ shown, m < cols) {calls : List (VarCall F)}
    (hlev : ∀ c ∈ calls, 0 < c.levels) (hdec : ∀ c ∈ calls, ∀ i j, i ≤ j → c.steps j ≤ c.steps i) {p : VarPlot F}
    (hp : variancePlot sub subsetType cols calls = .ok p) : ∀ x ∈ allSteps calls, p.minStep ≤ x ∧ x ≤ p.maxStep := by
  obtain ⟨p', hp', hst⟩ := var_all hsub hshown calls hlev (calls := []) (p := VarPlot.new subsetType)
    ⟨rfl, Or.inl ⟨rfl, rfl⟩, rfl, rfl, rfl⟩
  simp only [List.nil_append] at hst
  have : p = p' := by
    have h : Except.ok p = (Except.ok p' : Except PyErr (VarPlot F)) := by rw [← hp, ← hp']; rfl
    cases h; rfl
  subst this
  rw [hst.minStep, hst.maxStep]
  have key : ∀ (cs : List (VarCall F)), (∀ c ∈ cs, 0 < c.levels) → (∀ c ∈ cs, ∀ i j, i ≤ j → c.steps j ≤ c.steps i) → ∀ lo hi : F,
      (cs.foldl (fun s c => min s (c.steps (c.levels - 1))) lo ≤ lo ∧ hi ≤ cs.foldl (fun s c => max s (c.steps 0)) hi) ∧
      ∀ x ∈ allSteps cs, cs.foldl (fun s c => min s (c.steps (c.levels - 1))) lo ≤ x ∧ x ≤ cs.foldl (fun s c => max s (c.steps 0)) hi := by
    intro cs
    induction cs with
    | nil => intro _ _ lo hi; exact ⟨⟨le_rfl, le_rfl⟩, by simp [allSteps]⟩
    | cons c cs ih =>
      intro h1 h2 lo hi
      obtain ⟨⟨ha, hb⟩, hc⟩ := ih (fun c hc => h1 c (by simp [hc])) (fun c hc => h2 c (by simp [hc])) (min lo (c.steps (c.levels - 1))) (max hi (c.steps 0))
      simp only [List.foldl_cons]
      refine ⟨⟨ha.trans (min_le_left _ _), (le_max_left _ _).trans hb⟩, ?_⟩
      intro x hx
      simp only [allSteps, List.flatMap_cons, List.mem_append] at hx
      rcases hx with hx | hx
      · obtain ⟨l, hl, rfl⟩ := List.mem_map.1 hx
        have hl' := List.mem_range.1 hl
        exact ⟨(ha.trans (min_le_right _ _)).trans (h2 c (by simp) l _ (by omega)), (h2 c (by simp) 0 l (by omega)).trans ((le_max_right _ _).trans hb)⟩
      · exact hc x hx
  exact (key calls hlev hdec _ _).2

/-- **C147, negative.** With fewer than five different steps (for example one computation with four levels) `show` raises. -/
theorem C147_few_counterexample {sub : Nat → Option ℤ → Except PyErr (List ℤ)} {subsetType : Option ℤ} {cols : Nat} {shown : List Nat} (hs : shown ≠ [])
    (hsub : sub cols subsetType = .ok (shown.map fun m : Nat => (m : ℤ))) (hshown : ∀ m ∈ shown, m < cols) {calls : List (VarCall F)} (hne : calls ≠ [])
    (hlev : ∀ c ∈ calls, 0 < c.levels) (jit : List F → List F) (h4 : (allSteps calls).dedup.length ≤ 4) :
    ∃ p e, variancePlot sub subsetType cols calls = .ok p ∧ p.show jit = .error e := by
  obtain ⟨p, hp, hst⟩ := var_all hsub hshown calls hlev (calls := []) (p := VarPlot.new subsetType)
    ⟨rfl, Or.inl ⟨rfl, rfl⟩, rfl, rfl, rfl⟩
  simp only [List.nil_append] at hst
  have h3 := hst.data
  rw [if_neg hne] at h3
  cases shown with
  | nil => exact absurd rfl hs
  | cons m rest =>
    have hone : ∃ e, p.drawOne jit 0 (allSteps calls, allVars calls m) = .error e := by
      unfold VarPlot.drawOne
      by_cases ha : p.minStep < p.maxStep
      · by_cases hb : (allSteps calls).length = (allVars calls m).length
        · refine ⟨.typeError, ?_⟩
          rw [if_neg (not_not.2 ha), if_neg (not_not.2 hb)]
          simp only
          rw [if_pos]
          simp only [makeMonotone, List.length_tail, (sortedSteps (allSteps calls)).2.2]
          omega
        · exact ⟨.valueError, by rw [if_neg (not_not.2 ha), if_pos hb]⟩
      · exact ⟨.valueError, by rw [if_pos ha]⟩
    obtain ⟨e, he⟩ := hone
    refine ⟨p, e, hp, ?_⟩
    unfold VarPlot.show
    rw [h3, List.map_cons, List.zipIdx_cons, List.mapM_cons]
    simp only [he]
    rfl

/-- **C147, negative.** Variances added for steps that are already in the plot have no influence on the curve. -/
theorem C147_later_counterexample {X Y X' Y' : List F} (hlen : X.length = Y.length) (h : ∀ x ∈ X', x ∈ X) :
    (makeMonotone (X ++ X') (Y ++ Y')).1 = (makeMonotone X Y).1 ∧ (makeMonotone (X ++ X') (Y ++ Y')).2 = (makeMonotone X Y).2 := by
  obtain ⟨h1, h2, _⟩ := sortedSteps X
  obtain ⟨h1', h2', _⟩ := sortedSteps (X ++ X')
  have he : (X ++ X').dedup.insertionSort (· ≤ ·) = X.dedup.insertionSort (· ≤ ·) := by
    have hperm : ((X ++ X').dedup.insertionSort (· ≤ ·)).Perm (X.dedup.insertionSort (· ≤ ·)) := by
      refine (List.perm_ext_iff_of_nodup ?_ ?_).2 fun x => ?_
      · exact h1'.imp fun h => h.ne
      · exact h1.imp fun h => h.ne
      · rw [h2, h2', List.mem_append]; exact ⟨fun hx => hx.elim id (h x), Or.inl⟩
    exact hperm.eq_of_pairwise (fun a b _ _ hab hba => absurd hab (not_lt.2 hba.le)) h1' h1
  refine ⟨he, ?_⟩
  simp only [makeMonotone, he]
  refine List.map_congr_left fun x hx => ?_
  have hxX : x ∈ X := (h2 x).1 hx
  have hi : X.idxOf x < X.length := List.idxOf_lt_length_of_mem hxX
  rw [List.idxOf_append, if_pos hxX, List.getD_eq_getElem?_getD, List.getElem?_append_left (by omega), List.getD_eq_getElem?_getD]

/-- Five levels with halved steps, moments 1 and 2 of three: the curve of moment 2 goes through the steps 1/8, 1/4, 1/2 and 1. -/
example : ((variancePlot (fun _ _ => .ok [1, 2]) none 3 [⟨5, fun l => [1, 1/2, 1/4, 1/8, 1/16].getD l 0, fun l m => (l : ℚ) * 10 + m⟩]).bind
      fun p => p.show id).map (fun ds => ds.map fun d => (d.label, d.fitted)) =
    .ok [(1, ([1/8, 1/4, 1/2, 1], [31, 21, 11, 1])), (2, ([1/8, 1/4, 1/2, 1], [32, 22, 12, 2]))] := by decide +kernel

end MLMC
