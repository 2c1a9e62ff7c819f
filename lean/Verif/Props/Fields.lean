import Verif.Proofs.Fields
import Mathlib.Data.Rat.Defs
/-
C61: what `Fields.sample` returns.
-/
namespace MLMC.Fld
variable {K P : Type}

variable [DecidableEq K] [Zero K]

/-- The names returned: all, or those chosen by `set_outer_fields`. -/
def shown (outer : Option (List String)) (s : String) : Bool := match outer with | none => true | some l => decide (s ∈ l)

/-- The set of fields after the optional call of `set_outer_fields`. -/
def withOuter (outer : Option (List String)) (F : Fields K) : Fields K := match outer with | none => F | some l => F.setOuterFields l

/-- **C61**: for a well formed set of fields, `sample` returns for each (chosen) field an array over all mesh points with 0 outside the regions of the field;
at the points of its regions a constant field has its value, a random field has the values drawn by its random field object for these points in their order,
and a field given by a function has the value of the function at the values of its parameters at the same point. -/
theorem C61_values_at_own_points_partial (ds : List (FieldDef K)) (hg : GoodSet ds) (outer : Option (List String)) (F : Fields K) (points : List P) (regionIds : List Nat)
    (regionMap : Dict String Nat) (hinj : ∀ r r' i, Dict.get? regionMap r = some i → Dict.get? regionMap r' = some i → r = r')
    (draw : Nat → Nat → List P → List K) (hdraw : ∀ i r pts, (draw i r pts).length = pts.length) (pl : Placed K P) (res : Dict (FName K) (List K))
    (hF : Fields.new ds = .ok F) (hP : (withOuter outer F).setPoints points regionIds regionMap = .ok pl) (hR : pl.sample draw = .ok res) :
    ∃ (val : String → Nat → K) (key : String → Nat), ∀ d ∈ ds,
      Dict.get? res (.user d.name) = (if shown outer d.name then
          some ((List.range points.length).map fun i => if i ∈ pointsOf regionIds regionMap d.regions then val d.name i else 0) else none) ∧
      match d.kind with
      | .const v => ∀ i ∈ pointsOf regionIds regionMap d.regions, val d.name i = v
      | .random r => (pointsOf regionIds regionMap d.regions).map (val d.name) =
          draw (key d.name) r ((pointsOf regionIds regionMap d.regions).filterMap fun i => points[i]?)
      | .func f => ∀ i ∈ pointsOf regionIds regionMap d.regions, val d.name i = f (d.params.map (paramValue val i)) := by
  -- the objects
  obtain ⟨hI0, hO0⟩ := new_inv ds F hF
  have hI : Inv ds (withOuter outer F).fields (withOuter outer F).next := by
    cases outer with
    | none => exact hI0
    | some l => exact inv_outer ds F.fields F.next _ hI0
  have hO : ∀ o ∈ (withOuter outer F).fields, ∀ s, o.name = .user s → o.outer = shown outer s := by
    intro o ho s hs
    cases outer with
    | none => exact hO0 o ho
    | some l =>
      obtain ⟨o', ho', rfl⟩ := List.mem_map.1 ho
      simp only at hs ⊢
      rw [hs]; rfl
  generalize withOuter outer F = G at hI hO hP
  -- placing
  unfold Fields.setPoints at hP
  split at hP
  · cases hP
  rename_i hpl
  push Not at hpl
  cases hL : placeLoop points regionIds regionMap G.fields [] with
  | error e => rw [hL] at hP; cases hP
  | ok r =>
  obtain ⟨fs, rp⟩ := r
  rw [hL] at hP
  injection hP with hP
  subst hP
  obtain ⟨hfs, -, hrp⟩ := placeLoop_spec points regionIds regionMap G.fields [] rp fs hL (by rw [hI.rand]; exact hg.randoms)
  -- sampling
  unfold Placed.sample at hR
  simp only at hR
  cases hQ : sampleLoop draw points.length rp fs [] [] with
  | error e => rw [hQ] at hR; cases hR
  | ok r =>
  obtain ⟨S, R⟩ := r
  rw [hQ] at hR
  injection hR with hR
  simp only at hR
  subst hR
  have hidn : (fs.map (·.1.id)).Nodup := by rw [hfs, List.map_map]; exact hI.nodup
  have hun0 : (fs.filterMap fun x => userName x.1.name) = ds.map (·.name) := by rw [hfs, List.filterMap_map]; exact hI.names
  let len : Nat → Nat := fun i => match fs.find? (fun x => x.1.id = i) with | some x => x.2.length | none => 0
  have hlen : ∀ x ∈ fs, len x.1.id = x.2.length := by
    intro x hx
    have hs : fs.find? (fun y => y.1.id = x.1.id) = some x := by
      cases hf : fs.find? (fun y => y.1.id = x.1.id) with
      | none =>
        rw [List.find?_eq_none] at hf
        exact absurd (hf x hx) (by simp)
      | some y =>
        have h1 := List.mem_of_find?_eq_some hf
        have h2 := List.find?_some hf
        simp only [decide_eq_true_eq] at h2
        rw [mem_unique (fun x : FieldObj K × List Nat => x.1.id) fs hidn y h1 x hx h2]
    show (match fs.find? (fun y => y.1.id = x.1.id) with | some x => x.2.length | none => 0) = _
    rw [hs]
  have hmem : ∀ o ∈ G.fields, (o, pointsOf regionIds regionMap o.regions) ∈ fs := fun o ho => by rw [hfs]; exact List.mem_map.2 ⟨o, ho, rfl⟩
  have hmem' : ∀ x ∈ fs, x.1 ∈ G.fields ∧ x.2 = pointsOf regionIds regionMap x.1.regions := by
    intro x hx
    rw [hfs] at hx
    obtain ⟨o, ho, rfl⟩ := List.mem_map.1 hx
    exact ⟨ho, rfl⟩
  -- a named parameter has the regions of the field which uses it
  have hpar : ∀ d ∈ ds, ∀ p ∈ d.params, ∀ i, Refers G.fields d.regions p i → ∃ o ∈ G.fields, o.id = i ∧ o.regions = d.regions := by
    intro d hd p hp i hr
    cases p with
    | num v => obtain ⟨o, ho, h1, _, h3⟩ := hr; exact ⟨o, ho, h1, h3⟩
    | name s =>
      obtain ⟨o, ho, h1, h2⟩ := hr
      obtain ⟨d', hd', h3, _, h5, _⟩ := hI.defs o ho s h2
      exact ⟨o, ho, h1, by rw [h5, hg.params d hd s hp d' hd' h3]⟩
  have hconstobj : ∀ o ∈ G.fields, ∀ f, o.kind = .func f → ∃ s, o.name = .user s := by
    intro o ho f hf
    cases hn : o.name with
    | user s => exact ⟨s, rfl⟩
    | const v => rw [hI.consts o ho v hn] at hf; cases hf
  have hfilt : ∀ ids : List Nat, (∀ i ∈ ids, i < points.length) → (ids.filterMap fun i => points[i]?).length = ids.length := by
    intro ids
    induction ids with
    | nil => intro _; rfl
    | cons a ids ih =>
      intro h
      rw [List.filterMap_cons_some (List.getElem?_eq_getElem (h a (by simp))), List.length_cons, ih (fun i hi => h i (by simp [hi])), List.length_cons]
  obtain ⟨_, hRn, hall⟩ := sampleLoop_spec draw points.length rp len fs [] S [] R hidn (fun _ _ => rfl) (by rw [hun0]; exact hg.names) hlen (by
    intro x hx f hf
    obtain ⟨hxo, hx2⟩ := hmem' x hx
    obtain ⟨s, hs⟩ := hconstobj x.1 hxo f hf
    obtain ⟨d, hd, _, h2, h3, h4, h5⟩ := hI.defs x.1 hxo s hs
    have hdp : d.params ≠ [] := by
      unfold FieldDef.check at h5
      rw [← h2, hf] at h5
      simp only at h5
      split at h5
      · cases h5
      · assumption
    refine ⟨?_, ?_⟩
    · intro he
      rw [he] at h4
      exact hdp (List.forall₂_nil_right_iff.1 h4)
    · intro i hi
      obtain ⟨k, hk, rfl⟩ := List.mem_iff_getElem.1 hi
      have hkd : k < d.params.length := by rw [h4.length_eq]; exact hk
      obtain ⟨o, ho, ho1, ho2⟩ := hpar d hd _ (List.getElem_mem hkd) _ (List.Forall₂.get h4 hkd hk)
      have := hlen _ (hmem o ho)
      simp only at this
      change len x.1.params[k] = _
      rw [List.get_eq_getElem] at ho1
      rw [← ho1, this, ho2, hx2, h3]) (by
    intro x hx r pts hr hpts
    obtain ⟨hxo, hx2⟩ := hmem' x hx
    rw [hdraw, ← Option.some.inj ((hrp x.1 hxo r hr).symm.trans hpts), hx2]
    exact hfilt _ fun i hi => by rw [hpl]; exact pointsOf_lt _ _ _ i hi) (by intro i v h; cases h) hQ
  -- the object of a definition
  have hobj : ∀ d ∈ ds, ∃ o ∈ G.fields, o.name = .user d.name ∧ o.kind = d.kind ∧ o.regions = d.regions ∧
      List.Forall₂ (Refers G.fields d.regions) d.params o.params := by
    intro d hd
    have : d.name ∈ G.fields.filterMap (fun o => userName o.name) := by rw [hI.names]; exact List.mem_map.2 ⟨d, hd, rfl⟩
    obtain ⟨o, ho, hn⟩ := List.mem_filterMap.1 this
    have hon : o.name = .user d.name := by
      cases h : o.name with
      | user s => rw [h] at hn; injection hn with hn; rw [hn]
      | const v => rw [h] at hn; cases hn
    obtain ⟨d', hd', h1, h2, h3, h4, _⟩ := hI.defs o ho d.name hon
    obtain rfl := mem_unique (fun d : FieldDef K => d.name) ds hg.names d' hd' d hd h1
    exact ⟨o, ho, hon, h2, h3, h4⟩
  -- values
  let val : String → Nat → K := fun s i => match G.fields.find? (fun o => userName o.name = some s) with
    | some o => ((Dict.get? S o.id).getD []).getD ((pointsOf regionIds regionMap o.regions).idxOf i) 0
    | none => 0
  let key : String → Nat := fun s => match G.fields.find? (fun o => userName o.name = some s) with
    | some o => o.id
    | none => 0
  have hfind : ∀ o ∈ G.fields, ∀ s, o.name = .user s → G.fields.find? (fun o => userName o.name = some s) = some o := by
    intro o ho s hs
    cases hf : G.fields.find? (fun o => userName o.name = some s) with
    | none =>
      rw [List.find?_eq_none] at hf
      have := hf o ho
      rw [hs] at this
      simp [userName] at this
    | some o' =>
      have h1 := List.mem_of_find?_eq_some hf
      have h2 := List.find?_some hf
      simp only [decide_eq_true_eq] at h2
      rw [filterMap_unique (fun o : FieldObj K => userName o.name) G.fields (by rw [hI.names]; exact hg.names) o' h1 o ho s h2 (by rw [hs]; rfl)]
  have hval : ∀ o ∈ G.fields, ∀ s v, o.name = .user s → Dict.get? S o.id = some v → ∀ i, val s i = v.getD ((pointsOf regionIds regionMap o.regions).idxOf i) 0 := by
    intro o ho s v hs hv i
    show (match G.fields.find? (fun o => userName o.name = some s) with
      | some o => ((Dict.get? S o.id).getD []).getD ((pointsOf regionIds regionMap o.regions).idxOf i) 0 | none => 0) = _
    rw [hfind o ho s hs]
    simp only
    rw [hv]; rfl
  refine ⟨val, key, fun d hd => ?_⟩
  obtain ⟨o, ho, hon, hok, hor, hop⟩ := hobj d hd
  obtain ⟨s, hs1, hs2, hs3⟩ := hall _ (hmem o ho)
  simp only at hs1 hs2 hs3
  have hnd : (pointsOf regionIds regionMap d.regions).Nodup := pointsOf_nodup _ _ _ (hg.regions d hd) hinj
  rw [hor] at hs2 hs3
  have hvd : ∀ i, val d.name i = s.getD ((pointsOf regionIds regionMap d.regions).idxOf i) 0 := by
    intro i; rw [hval o ho d.name s hon hs1 i, hor]
  have hidx : ∀ i ∈ pointsOf regionIds regionMap d.regions,
      (pointsOf regionIds regionMap d.regions).idxOf i < (pointsOf regionIds regionMap d.regions).length := fun i hi => List.idxOf_lt_length_of_mem hi
  refine ⟨?_, ?_⟩
  · have h := hs3 d.name hon
    rw [hO o ho d.name hon] at h
    by_cases hsh : shown outer d.name = true
    · rw [if_pos hsh] at h ⊢
      obtain ⟨v, hv, hv2⟩ := h
      rw [hv2]
      rw [scatter_eq _ _ _ hnd hs2.1 (fun i hi => by rw [hpl]; exact pointsOf_lt _ _ _ i hi)] at hv
      injection hv with hv
      rw [← hv]
      congr 1
      apply List.map_congr_left
      intro i _
      rw [hvd]
    · rw [if_neg hsh] at h ⊢
      rw [h]; rfl
  · have h := hs2.2
    rw [hok] at h
    cases hk : d.kind with
    | const v =>
      rw [hk] at h
      intro i hi
      rw [hvd, h, List.getD_eq_getElem?_getD, List.getElem?_replicate, if_pos (hidx i hi)]; rfl
    | random r =>
      rw [hk] at h
      obtain ⟨pts, hp1, hp2⟩ := h
      have h3 : (pointsOf regionIds regionMap d.regions).map (val d.name) = s := by
        rw [show (val d.name) = fun i => s.getD ((pointsOf regionIds regionMap d.regions).idxOf i) 0 from funext hvd]
        exact getD_map_idxOf _ _ hnd hs2.1
      have h4 : key d.name = o.id := by
        show (match G.fields.find? (fun o => userName o.name = some d.name) with | some o => o.id | none => 0) = _
        rw [hfind o ho d.name hon]
      simp only
      rw [h3, h4, hp2, ← Option.some.inj ((hrp o ho r (hok.trans hk)).symm.trans hp1), hor]
    | func f =>
      rw [hk] at h
      obtain ⟨ps, hq1, hq2, hq3⟩ := h
      intro i hi
      rw [hvd, hq3, List.getD_eq_getElem?_getD, List.getElem?_map, List.getElem?_range (hidx i hi)]
      show f _ = _
      congr 1
      -- parameter by parameter
      have hl1 := hop.length_eq
      have hl2 := hq1.length_eq
      apply List.ext_getElem
      · rw [List.length_map, List.length_map]; omega
      · intro k h1 h2
        rw [List.length_map] at h1 h2
        rw [List.getElem_map, List.getElem_map]
        have hr := List.Forall₂.get hop h2 (by omega)
        have hq := List.Forall₂.get hq1 (by omega) h1
        rw [List.get_eq_getElem, List.get_eq_getElem] at hr hq
        have hpm : d.params[k] ∈ d.params := List.getElem_mem h2
        cases hp : d.params[k] with
        | num v =>
          rw [hp] at hr
          obtain ⟨o', ho', e1, e2, e3⟩ := hr
          obtain ⟨s', f1, f2, _⟩ := hall _ (hmem o' ho')
          simp only at f1 f2
          rw [e1] at f1
          rw [f1] at hq
          injection hq with hq
          have f3 := f2.2
          rw [e2, e3] at f3
          simp only at f3
          show _ = v
          rw [← hq, f3, List.getD_eq_getElem?_getD, List.getElem?_replicate, if_pos (hidx i hi)]; rfl
        | name u =>
          rw [hp] at hr hpm
          obtain ⟨o', ho', e1, e2⟩ := hr
          obtain ⟨d', hd', e3, e4, e5, _⟩ := hI.defs o' ho' u e2
          rw [← e1] at hq
          show _ = val u i
          rw [hval o' ho' u _ e2 hq i, e5, hg.params d hd u hpm d' hd' e3]

/-- **C61** (success): a well formed set whose parameters are defined before their use can be built, placed on every mesh that has all its regions, and
sampled. -/
theorem C61_sampling_succeeds (ds : List (FieldDef K)) (hg : GoodSet ds) (hfit : ∀ d ∈ ds, ParamsFit d) (hres : Resolved [] ds)
    (outer : Option (List String)) (points : List P) (regionIds : List Nat) (hpl : points.length = regionIds.length)
    (regionMap : Dict String Nat) (hreg : ∀ d ∈ ds, ∀ r ∈ d.regions, (Dict.get? regionMap r).isSome)
    (draw : Nat → Nat → List P → List K) (hdraw : ∀ i r pts, (draw i r pts).length = pts.length) :
    ∃ F pl res, Fields.new ds = .ok F ∧ (withOuter outer F).setPoints points regionIds regionMap = .ok pl ∧ pl.sample draw = .ok res := by
  obtain ⟨F, hF⟩ := addAll_ok ds [] ({} : Fields K) hfit hres (by simp)
  obtain ⟨hI0, -⟩ := new_inv ds F hF
  obtain ⟨hOrd0, hQ0⟩ := addAll_ord (fun rs => ∀ r ∈ rs, (Dict.get? regionMap r).isSome) ds [] {} F hreg
    ⟨by simp, by simp, rfl, rfl, by simp, by simp⟩ (by intro s i h; cases h) (by simp) trivial (by simp) hF
  have hI : Inv ds (withOuter outer F).fields (withOuter outer F).next := by
    cases outer with
    | none => exact hI0
    | some l => exact inv_outer ds F.fields F.next _ hI0
  have hOrd : Ordered [] (withOuter outer F).fields := by
    cases outer with
    | none => exact hOrd0
    | some l => exact ordered_outer _ F.fields [] hOrd0
  have hQ : ∀ o ∈ (withOuter outer F).fields, ∀ r ∈ o.regions, (Dict.get? regionMap r).isSome := by
    cases outer with
    | none => exact hQ0
    | some l =>
      intro o ho
      obtain ⟨o', ho', rfl⟩ := List.mem_map.1 ho
      exact hQ0 o' ho'
  refine ⟨F, ?_⟩
  generalize withOuter outer F = G at hI hOrd hQ
  obtain ⟨⟨fs, rp⟩, hL⟩ := placeLoop_ok points regionIds regionMap G.fields [] hQ
  obtain ⟨hfs, -, hrp⟩ := placeLoop_spec points regionIds regionMap G.fields [] rp fs hL (by rw [hI.rand]; exact hg.randoms)
  have hP : G.setPoints points regionIds regionMap = .ok ⟨fs, rp, points.length⟩ := by
    unfold Fields.setPoints
    rw [if_neg (by simpa using hpl), hL]; rfl
  have hidn : (fs.map (·.1.id)).Nodup := by rw [hfs, List.map_map]; exact hI.nodup
  let len : Nat → Nat := fun i => match fs.find? (fun x => x.1.id = i) with | some x => x.2.length | none => 0
  have hlen : ∀ x ∈ fs, len x.1.id = x.2.length := by
    intro x hx
    have hs : fs.find? (fun y => y.1.id = x.1.id) = some x := by
      cases hf : fs.find? (fun y => y.1.id = x.1.id) with
      | none =>
        rw [List.find?_eq_none] at hf
        exact absurd (hf x hx) (by simp)
      | some y =>
        have h1 := List.mem_of_find?_eq_some hf
        have h2 := List.find?_some hf
        simp only [decide_eq_true_eq] at h2
        rw [mem_unique (fun x : FieldObj K × List Nat => x.1.id) fs hidn y h1 x hx h2]
    show (match fs.find? (fun y => y.1.id = x.1.id) with | some x => x.2.length | none => 0) = _
    rw [hs]
  have hmem : ∀ o ∈ G.fields, (o, pointsOf regionIds regionMap o.regions) ∈ fs := fun o ho => by rw [hfs]; exact List.mem_map.2 ⟨o, ho, rfl⟩
  have hmem' : ∀ x ∈ fs, x.1 ∈ G.fields ∧ x.2 = pointsOf regionIds regionMap x.1.regions := by
    intro x hx
    rw [hfs] at hx
    obtain ⟨o, ho, rfl⟩ := List.mem_map.1 hx
    exact ⟨ho, rfl⟩
  have hpar : ∀ d ∈ ds, ∀ p ∈ d.params, ∀ i, Refers G.fields d.regions p i → ∃ o ∈ G.fields, o.id = i ∧ o.regions = d.regions := by
    intro d hd p hp i hr
    cases p with
    | num v => obtain ⟨o, ho, h1, _, h3⟩ := hr; exact ⟨o, ho, h1, h3⟩
    | name s =>
      obtain ⟨o, ho, h1, h2⟩ := hr
      obtain ⟨d', hd', h3, _, h5, _⟩ := hI.defs o ho s h2
      exact ⟨o, ho, h1, by rw [h5, hg.params d hd s hp d' hd' h3]⟩
  have hfilt : ∀ ids : List Nat, (∀ i ∈ ids, i < points.length) → (ids.filterMap fun i => points[i]?).length = ids.length := by
    intro ids
    induction ids with
    | nil => intro _; rfl
    | cons a ids ih =>
      intro h
      rw [List.filterMap_cons_some (List.getElem?_eq_getElem (h a (by simp))), List.length_cons, ih (fun i hi => h i (by simp [hi])), List.length_cons]
  have hmap : fs.map (fun x => x.1) = G.fields := by rw [hfs, List.map_map]; exact List.map_id _
  obtain ⟨⟨S, R⟩, hQ'⟩ := sampleLoop_ok draw points.length rp len fs [] [] [] (by rw [hmap]; exact hOrd) (by simp) hlen (by
    intro x hx f hf
    obtain ⟨hxo, hx2⟩ := hmem' x hx
    have hs : ∃ s, x.1.name = .user s := by
      cases hn : x.1.name with
      | user s => exact ⟨s, rfl⟩
      | const v => rw [hI.consts x.1 hxo v hn] at hf; cases hf
    obtain ⟨s, hs⟩ := hs
    obtain ⟨d, hd, _, h2, h3, h4, h5⟩ := hI.defs x.1 hxo s hs
    have hdp : d.params ≠ [] := by
      have := hfit d hd
      unfold ParamsFit at this
      rw [← h2, hf] at this
      exact this
    refine ⟨?_, ?_⟩
    · intro he
      rw [he] at h4
      exact hdp (List.forall₂_nil_right_iff.1 h4)
    · intro i hi
      obtain ⟨k, hk, rfl⟩ := List.mem_iff_getElem.1 hi
      have hkd : k < d.params.length := by rw [h4.length_eq]; exact hk
      obtain ⟨o, ho, ho1, ho2⟩ := hpar d hd _ (List.getElem_mem hkd) _ (List.Forall₂.get h4 hkd hk)
      have := hlen _ (hmem o ho)
      simp only at this
      rw [List.get_eq_getElem] at ho1
      rw [← ho1, this, ho2, hx2, h3]) (by
    intro x hx r hr
    obtain ⟨hxo, hx2⟩ := hmem' x hx
    refine ⟨_, hrp x.1 hxo r hr, ?_⟩
    rw [hdraw, hx2]
    exact hfilt _ fun i hi => by rw [hpl]; exact pointsOf_lt _ _ _ i hi) (by intro i v h; cases h)
  refine ⟨_, R, hF, hP, ?_⟩
  unfold Placed.sample
  simp only
  rw [hQ']; rfl

/-! ## A concrete set, and sets for which the claim fails -/

/-- Build, place and sample. -/
def runFields (ds : List (FieldDef ℚ)) (outer : Option (List String)) (points : List ℚ) (regionIds : List Nat) (regionMap : Dict String Nat)
    (draw : Nat → Nat → List ℚ → List ℚ) : Except PyErr (Dict (FName ℚ) (List ℚ)) := do
  let F ← Fields.new ds
  let pl ← (withOuter outer F).setPoints points regionIds regionMap
  pl.sample draw

/-- `conductivity = 3 * porosity + 1` on one region of three, `porosity` random on that region, `source` constant everywhere. -/
def exampleSet : List (FieldDef ℚ) :=
  [⟨"porosity", .random 7, [], ["rock"]⟩, ⟨"cond", .func fun l => l.getD 0 0 * l.getD 1 0 + l.getD 2 0, [.num 3, .name "porosity", .num 1], ["rock"]⟩,
   ⟨"source", .const 5, [], []⟩]

example : GoodSet exampleSet := ⟨by decide, by decide, by decide, by
  intro d hd s hs d' hd' hn
  simp only [exampleSet, List.mem_cons, List.not_mem_nil, or_false] at hd hd'
  rcases hd with rfl | rfl | rfl <;> rcases hd' with rfl | rfl | rfl <;> simp_all⟩

example : ∃ res, runFields exampleSet none [10, 20, 30, 40] [1, 2, 1, 2] [("rock", 2), ("bulk", 1)] (fun _ _ pts => pts) = .ok res ∧
    Dict.get? res (.user "porosity") = some [0, 20, 0, 40] ∧ Dict.get? res (.user "cond") = some [0, 61, 0, 121] ∧
    Dict.get? res (.user "source") = some [5, 5, 5, 5] := ⟨_, rfl, by decide +kernel⟩

/-- **C61** fails when two fields use one random field object (as in the example in the documentation of `Fields`): the first field gets the values drawn for the
points of the second. -/
theorem C61_counterexample_shared_random_field : ∃ (ds : List (FieldDef ℚ)) (points : List ℚ) (regionIds : List Nat) (regionMap : Dict String Nat) (res : Dict (FName ℚ) (List ℚ)),
    ds = [⟨"a", .random 7, [], ["left"]⟩, ⟨"b", .random 7, [], ["right"]⟩] ∧
    runFields ds none points regionIds regionMap (fun _ _ pts => pts) = .ok res ∧
    pointsOf regionIds regionMap ["left"] = [0] ∧ points[0]? = some 10 ∧ Dict.get? res (.user "a") = some [20, 0] :=
  ⟨_, [10, 20], [1, 2], [("left", 1), ("right", 2)], _, rfl, rfl, by decide +kernel⟩

/-- **C61** fails when a parameter lives on another region with the same number of points: the function is evaluated at values from other points. -/
theorem C61_counterexample_other_region : ∃ (ds : List (FieldDef ℚ)) (points : List ℚ) (regionIds : List Nat) (regionMap : Dict String Nat) (res : Dict (FName ℚ) (List ℚ)),
    ds = [⟨"a", .random 7, [], ["left"]⟩, ⟨"b", .func fun l => l.getD 0 0, [.name "a"], ["right"]⟩] ∧
    runFields ds none points regionIds regionMap (fun _ _ pts => pts) = .ok res ∧
    Dict.get? res (.user "a") = some [10, 0] ∧ Dict.get? res (.user "b") = some [0, 10] :=
  ⟨_, [10, 20], [1, 2], [("left", 1), ("right", 2)], _, rfl, rfl, by decide +kernel⟩

/-- Constants given as parameters are returned under a name made of their value: with two of the same value in different regions one array is lost. -/
theorem C61_counterexample_constant_names : ∃ (ds : List (FieldDef ℚ)) (res : Dict (FName ℚ) (List ℚ)),
    ds = [⟨"a", .func fun l => l.getD 0 0, [.num 2], ["left"]⟩, ⟨"b", .func fun l => l.getD 0 0, [.num 2], ["right"]⟩] ∧
    runFields ds none [10, 20] [1, 2] [("left", 1), ("right", 2)] (fun _ _ pts => pts) = .ok res ∧
    res.keys.length = 3 ∧ Dict.get? res (.const 2) = some [2, 0] :=
  ⟨_, _, rfl, rfl, by decide +kernel⟩

end MLMC.Fld
