import Verif.Spec.Fields
import Verif.Proofs.Dict
import Mathlib.Data.List.Nodup
import Mathlib.Data.List.Forall2
/-
Invariants of sets of fields.
-/
namespace MLMC.Fld
variable {K P : Type}

theorem mem_unique {α β : Type} (f : α → β) : ∀ (l : List α), (l.map f).Nodup → ∀ a ∈ l, ∀ b ∈ l, f a = f b → a = b
  | [], _, a, ha, _, _, _ => by simp at ha
  | x :: l, hn, a, ha, b, hb, hab => by
    rw [List.map_cons, List.nodup_cons] at hn
    rcases List.mem_cons.1 ha with h1 | h1 <;> rcases List.mem_cons.1 hb with h2 | h2
    · rw [h1, h2]
    · rw [← h1] at hn; exact absurd (List.mem_map.2 ⟨b, h2, hab.symm⟩) hn.1
    · rw [← h2] at hn; exact absurd (List.mem_map.2 ⟨a, h1, hab⟩) hn.1
    · exact mem_unique f l hn.2 a h1 b h2 hab

theorem filterMap_unique {α β : Type} (f : α → Option β) : ∀ (l : List α), (l.filterMap f).Nodup → ∀ a ∈ l, ∀ b ∈ l, ∀ c, f a = some c → f b = some c → a = b
  | [], _, a, ha, _, _, _, _, _ => by simp at ha
  | x :: l, hn, a, ha, b, hb, c, hac, hbc => by
    have hn' : (l.filterMap f).Nodup := by
      cases hx : f x with
      | none => rwa [List.filterMap_cons_none hx] at hn
      | some y => rw [List.filterMap_cons_some hx, List.nodup_cons] at hn; exact hn.2
    rcases List.mem_cons.1 ha with h1 | h1 <;> rcases List.mem_cons.1 hb with h2 | h2
    · rw [h1, h2]
    · rw [← h1, List.filterMap_cons_some hac, List.nodup_cons] at hn
      exact absurd (List.mem_filterMap.2 ⟨b, h2, hbc⟩) hn.1
    · rw [← h2, List.filterMap_cons_some hbc, List.nodup_cons] at hn
      exact absurd (List.mem_filterMap.2 ⟨a, h1, hac⟩) hn.1
    · exact filterMap_unique f l hn' a h1 b h2 c hac hbc

theorem getD_map_idxOf (ids : List Nat) (s : List K) [Zero K] (hn : ids.Nodup) (hl : s.length = ids.length) :
    ids.map (fun i => s.getD (ids.idxOf i) 0) = s := by
  apply List.ext_getElem
  · simp [hl]
  · intro k h1 h2
    rw [List.length_map] at h1
    rw [List.getElem_map, hn.idxOf_getElem, List.getD_eq_getElem?_getD, List.getElem?_eq_getElem h2]; rfl

def userName : FName K → Option String
  | .user s => some s
  | .const _ => none

/-- What a reference of a field stands for. -/
def Refers (fields : List (FieldObj K)) (regions : List String) (p : Param K) (i : Nat) : Prop :=
  match p with
  | .num v => ∃ o ∈ fields, o.id = i ∧ o.kind = .const v ∧ o.regions = regions
  | .name s => ∃ o ∈ fields, o.id = i ∧ o.name = .user s

structure Inv (ds : List (FieldDef K)) (fields : List (FieldObj K)) (next : Nat) : Prop where
  lt : ∀ o ∈ fields, o.id < next
  nodup : (fields.map (·.id)).Nodup
  names : fields.filterMap (fun o => userName o.name) = ds.map (·.name)
  rand : fields.filterMap (fun o => randOf o.kind) = ds.filterMap fun d => randOf d.kind
  consts : ∀ o ∈ fields, ∀ v, o.name = .const v → o.kind = .const v
  defs : ∀ o ∈ fields, ∀ s, o.name = .user s → ∃ d ∈ ds, d.name = s ∧ o.kind = d.kind ∧ o.regions = d.regions ∧
    List.Forall₂ (Refers fields d.regions) d.params o.params ∧ d.check = .ok ()

def DictOk [DecidableEq K] (F : Fields K) : Prop := ∀ s i, Dict.get? F.dict (.user s) = some i → ∃ o ∈ F.fields, o.id = i ∧ o.name = .user s

theorem Refers.mono {fs fs' : List (FieldObj K)} (h : ∀ o ∈ fs, o ∈ fs') {r : List String} {p : Param K} {i : Nat} (hr : Refers fs r p i) :
    Refers fs' r p i := by
  cases p with
  | num v => obtain ⟨o, ho, h'⟩ := hr; exact ⟨o, h o ho, h'⟩
  | name s => obtain ⟨o, ho, h'⟩ := hr; exact ⟨o, h o ho, h'⟩

variable [DecidableEq K]

theorem getFieldObjs_inv (ds : List (FieldDef K)) (regions : List String) : ∀ (ps : List (Param K)) (F F' : Fields K) (is : List Nat),
    Inv ds F.fields F.next → DictOk F → (∀ o ∈ F.fields, o.outer = true) → F.getFieldObjs regions ps = .ok (F', is) →
    Inv ds F'.fields F'.next ∧ DictOk F' ∧ (∀ o ∈ F'.fields, o.outer = true) ∧ (∀ o ∈ F.fields, o ∈ F'.fields) ∧
      List.Forall₂ (Refers F'.fields regions) ps is
  | [], F, F', is, hI, hD, hO, h => by
    unfold Fields.getFieldObjs at h
    injection h with h; cases h
    exact ⟨hI, hD, hO, fun o ho => ho, .nil⟩
  | p :: ps, F, F', is, hI, hD, hO, h => by
    unfold Fields.getFieldObjs at h
    cases hp : F.getFieldObj regions p with
    | error e => rw [hp] at h; cases h
    | ok r =>
      obtain ⟨F1, i⟩ := r
      rw [hp] at h
      change (F1.getFieldObjs regions ps).bind (fun r => .ok (r.1, i :: r.2)) = _ at h
      cases hq : F1.getFieldObjs regions ps with
      | error e => rw [hq] at h; cases h
      | ok r2 =>
        obtain ⟨F2, is2⟩ := r2
        rw [hq] at h
        injection h with h; cases h
        have step : Inv ds F1.fields F1.next ∧ DictOk F1 ∧ (∀ o ∈ F1.fields, o.outer = true) ∧ (∀ o ∈ F.fields, o ∈ F1.fields) ∧
            Refers F1.fields regions p i := by
          cases p with
          | name s =>
            unfold Fields.getFieldObj at hp
            simp only at hp
            cases hg : Dict.get? F.dict (.user s) with
            | none => rw [hg] at hp; cases hp
            | some j =>
              rw [hg] at hp
              injection hp with hp; cases hp
              exact ⟨hI, hD, hO, fun o ho => ho, hD s _ hg⟩
          | num v =>
            unfold Fields.getFieldObj at hp
            injection hp with hp; cases hp
            have hmono : ∀ o ∈ F.fields, o ∈ ((⟨F.next, .const v, .const v, [], regions, true⟩ : FieldObj K) :: F.fields) :=
              fun o ho => List.mem_cons_of_mem _ ho
            refine ⟨⟨?_, ?_, ?_, ?_, ?_, ?_⟩, ?_, ?_, hmono, ⟨_, List.mem_cons_self, rfl, rfl, rfl⟩⟩
            · intro o ho
              rcases List.mem_cons.1 ho with rfl | ho
              · exact Nat.lt_succ_self _
              · exact Nat.lt_succ_of_lt (hI.lt o ho)
            · rw [List.map_cons, List.nodup_cons]
              refine ⟨fun hm => ?_, hI.nodup⟩
              obtain ⟨o, ho, he⟩ := List.mem_map.1 hm
              have := hI.lt o ho
              simp only at he
              omega
            · rw [List.filterMap_cons_none (by rfl)]; exact hI.names
            · rw [List.filterMap_cons_none (by rfl)]; exact hI.rand
            · intro o ho w hw
              rcases List.mem_cons.1 ho with rfl | ho
              · injection hw with hw; rw [hw]
              · exact hI.consts o ho w hw
            · intro o ho s hs
              rcases List.mem_cons.1 ho with rfl | ho
              · cases hs
              · obtain ⟨d, hd, h1, h2, h3, h4, h5⟩ := hI.defs o ho s hs
                exact ⟨d, hd, h1, h2, h3, h4.imp fun _ _ hr => hr.mono hmono, h5⟩
            · intro s i hg
              simp only at hg
              rw [Dict.get?_set_ne _ _ (by simp)] at hg
              obtain ⟨o, ho, h'⟩ := hD s i hg
              exact ⟨o, hmono o ho, h'⟩
            · intro o ho
              rcases List.mem_cons.1 ho with rfl | ho
              · rfl
              · exact hO o ho
        obtain ⟨a1, a2, a3, a4, a5⟩ := step
        obtain ⟨b1, b2, b3, b4, b5⟩ := getFieldObjs_inv ds regions ps F1 _ is2 a1 a2 a3 hq
        exact ⟨b1, b2, b3, fun o ho => b4 o (a4 o ho), .cons (a5.mono b4) b5⟩

theorem add_inv (ds : List (FieldDef K)) (d : FieldDef K) (F F' : Fields K) (hI : Inv ds F.fields F.next) (hD : DictOk F)
    (hO : ∀ o ∈ F.fields, o.outer = true) (h : F.add d = .ok F') :
    Inv (ds ++ [d]) F'.fields F'.next ∧ DictOk F' ∧ ∀ o ∈ F'.fields, o.outer = true := by
  unfold Fields.add at h
  cases hc : d.check with
  | error e => rw [hc] at h; cases h
  | ok u =>
    rw [hc] at h
    change (F.getFieldObjs d.regions d.params).bind _ = _ at h
    cases hp : F.getFieldObjs d.regions d.params with
    | error e => rw [hp] at h; cases h
    | ok r =>
      obtain ⟨F1, is⟩ := r
      rw [hp] at h
      injection h with h; cases h
      obtain ⟨hI1, hD1, hO1, hm1, href⟩ := getFieldObjs_inv ds d.regions d.params F F1 is hI hD hO hp
      have hmono : ∀ o ∈ F1.fields, o ∈ F1.fields ++ [(⟨F1.next, .user d.name, d.kind, is, d.regions, true⟩ : FieldObj K)] :=
        fun o ho => List.mem_append_left _ ho
      refine ⟨⟨?_, ?_, ?_, ?_, ?_, ?_⟩, ?_, ?_⟩
      · intro o ho
        rcases List.mem_append.1 ho with ho | ho
        · exact Nat.lt_succ_of_lt (hI1.lt o ho)
        · rw [List.mem_singleton.1 ho]; exact Nat.lt_succ_self _
      · rw [List.map_append, List.nodup_append]
        refine ⟨hI1.nodup, by simp, ?_⟩
        intro a ha b hb
        obtain ⟨o, ho, rfl⟩ := List.mem_map.1 ha
        have := hI1.lt o ho
        simp only [List.map_cons, List.map_nil, List.mem_singleton] at hb
        omega
      · rw [List.filterMap_append, hI1.names, List.map_append]; rfl
      · rw [List.filterMap_append, hI1.rand, List.filterMap_append]; rfl
      · intro o ho v hv
        rcases List.mem_append.1 ho with ho | ho
        · exact hI1.consts o ho v hv
        · rw [List.mem_singleton.1 ho] at hv; cases hv
      · intro o ho s hs
        rcases List.mem_append.1 ho with ho | ho
        · obtain ⟨d', hd', h1, h2, h3, h4, h5⟩ := hI1.defs o ho s hs
          exact ⟨d', List.mem_append_left _ hd', h1, h2, h3, h4.imp fun _ _ hr => hr.mono hmono, h5⟩
        · obtain rfl := List.mem_singleton.1 ho
          injection hs with hs
          exact ⟨d, by simp, hs, rfl, rfl, href.imp fun _ _ hr => hr.mono hmono, hc⟩
      · intro s i hg
        simp only at hg
        by_cases hs : s = d.name
        · subst hs
          rw [Dict.get?_set_self] at hg
          injection hg with hg
          exact ⟨⟨F1.next, .user d.name, d.kind, is, d.regions, true⟩, by simp, hg, rfl⟩
        · rw [Dict.get?_set_ne _ _ (by simpa using hs)] at hg
          obtain ⟨o, ho, h'⟩ := hD1 s i hg
          exact ⟨o, hmono o ho, h'⟩
      · intro o ho
        rcases List.mem_append.1 ho with ho | ho
        · exact hO1 o ho
        · rw [List.mem_singleton.1 ho]

theorem addAll_inv : ∀ (ds' ds : List (FieldDef K)) (F F' : Fields K), Inv ds F.fields F.next → DictOk F → (∀ o ∈ F.fields, o.outer = true) →
    F.addAll ds' = .ok F' → Inv (ds ++ ds') F'.fields F'.next ∧ ∀ o ∈ F'.fields, o.outer = true
  | [], ds, F, F', hI, _, hO, h => by
    unfold Fields.addAll at h
    injection h with h; subst h
    rw [List.append_nil]; exact ⟨hI, hO⟩
  | d :: ds', ds, F, F', hI, hD, hO, h => by
    unfold Fields.addAll at h
    cases hp : F.add d with
    | error e => rw [hp] at h; cases h
    | ok F1 =>
      rw [hp] at h
      obtain ⟨a, b, c⟩ := add_inv ds d F F1 hI hD hO hp
      have := addAll_inv ds' (ds ++ [d]) F1 F' a b c h
      rwa [List.append_assoc] at this

theorem new_inv (ds : List (FieldDef K)) (F : Fields K) (h : Fields.new ds = .ok F) : Inv ds F.fields F.next ∧ ∀ o ∈ F.fields, o.outer = true := by
  have := addAll_inv ds [] {} F ⟨by simp, by simp, rfl, rfl, by simp, by simp⟩ (by intro s i h; cases h) (by simp) h
  simpa using this

theorem refers_outer {fs : List (FieldObj K)} (g : FieldObj K → Bool) {r : List String} {p : Param K} {i : Nat} (h : Refers fs r p i) :
    Refers (fs.map fun o => { o with outer := g o }) r p i := by
  cases p with
  | num v =>
    obtain ⟨o, ho, h⟩ := h
    exact ⟨{ o with outer := g o }, List.mem_map.2 ⟨o, ho, rfl⟩, h⟩
  | name s =>
    obtain ⟨o, ho, h⟩ := h
    exact ⟨{ o with outer := g o }, List.mem_map.2 ⟨o, ho, rfl⟩, h⟩

theorem inv_outer (ds : List (FieldDef K)) (fs : List (FieldObj K)) (n : Nat) (g : FieldObj K → Bool) (h : Inv ds fs n) :
    Inv ds (fs.map fun o => { o with outer := g o }) n := by
  refine ⟨?_, ?_, ?_, ?_, ?_, ?_⟩
  · intro o ho
    obtain ⟨o', ho', rfl⟩ := List.mem_map.1 ho
    exact h.lt o' ho'
  · rw [List.map_map]; exact h.nodup
  · rw [List.filterMap_map]; exact h.names
  · rw [List.filterMap_map]; exact h.rand
  · intro o ho v hv
    obtain ⟨o', ho', rfl⟩ := List.mem_map.1 ho
    exact h.consts o' ho' v hv
  · intro o ho s hs
    obtain ⟨o', ho', rfl⟩ := List.mem_map.1 ho
    obtain ⟨d, hd, h1, h2, h3, h4, h5⟩ := h.defs o' ho' s hs
    exact ⟨d, hd, h1, h2, h3, h4.imp fun _ _ hr => refers_outer g hr, h5⟩

/-! ## Placing -/

omit [DecidableEq K] in
theorem pointIds_eq (regionIds : List Nat) (regionMap : Dict String Nat) (regions : List String) (ids : List Nat)
    (h : pointIds regionIds regionMap regions = .ok ids) : ids = pointsOf regionIds regionMap regions := by
  cases regions with
  | nil => injection h with h; exact h.symm
  | cons r rs =>
    change ((r :: rs).mapM (regLookup regionIds regionMap)).bind (fun ids => .ok ids.flatten) = _ at h
    unfold pointsOf
    rw [if_neg (by simp)]
    have key : ∀ (l : List String) (out : List (List Nat)),
        (l.mapM (regLookup regionIds regionMap)) = .ok out →
        out.flatten = l.flatMap fun r => (List.range regionIds.length).filter fun i => some (regionIds.getD i 0) = Dict.get? regionMap r := by
      intro l
      induction l with
      | nil => intro out ho; cases ho; rfl
      | cons a l ih =>
        intro out ho
        rw [List.mapM_cons] at ho
        unfold regLookup at ho
        cases ha : Dict.get? regionMap a with
        | none => rw [ha] at ho; cases ho
        | some j =>
          rw [ha] at ho
          change (l.mapM (regLookup regionIds regionMap)).bind (fun o' => .ok (regPoints regionIds j :: o')) = _ at ho
          cases hl : (l.mapM (regLookup regionIds regionMap)) with
          | error e => rw [hl] at ho; cases ho
          | ok out' =>
            rw [hl] at ho
            injection ho with ho
            subst ho
            rw [List.flatten_cons, List.flatMap_cons, ih out' hl, ha]
            simp [regPoints]
    cases hm : (r :: rs).mapM (regLookup regionIds regionMap) with
    | error e => rw [hm] at h; cases h
    | ok out =>
      rw [hm] at h
      injection h with h
      rw [← h]; exact key _ _ hm

omit [DecidableEq K] in
theorem placeLoop_spec (points : List P) (regionIds : List Nat) (regionMap : Dict String Nat) : ∀ (os : List (FieldObj K)) (rp rp' : Dict Nat (List P))
    (fs : List (FieldObj K × List Nat)), placeLoop points regionIds regionMap os rp = .ok (fs, rp') →
    (os.filterMap fun o => randOf o.kind).Nodup →
    fs = os.map (fun o => (o, pointsOf regionIds regionMap o.regions)) ∧
    (∀ r, r ∉ (os.filterMap fun o => randOf o.kind) → Dict.get? rp' r = Dict.get? rp r) ∧
    ∀ o ∈ os, ∀ r, o.kind = .random r → Dict.get? rp' r = some ((pointsOf regionIds regionMap o.regions).filterMap fun i => points[i]?)
  | [], rp, rp', fs, h, _ => by
    unfold placeLoop at h
    injection h with h; cases h
    exact ⟨rfl, fun _ _ => rfl, by simp⟩
  | o :: os, rp, rp', fs, h, hn => by
    unfold placeLoop at h
    cases hi : pointIds regionIds regionMap o.regions with
    | error e => rw [hi] at h; cases h
    | ok ids =>
      rw [hi] at h
      have hids := pointIds_eq _ _ _ _ hi
      set rp1 := (match o.kind with | .random r => Dict.set rp r (ids.filterMap fun i => points[i]?) | _ => rp) with hrp1
      change (placeLoop points regionIds regionMap os rp1).bind (fun x => .ok ((o, ids) :: x.1, x.2)) = _ at h
      cases hl : placeLoop points regionIds regionMap os rp1 with
      | error e => rw [hl] at h; cases h
      | ok r =>
        obtain ⟨fs1, rp2⟩ := r
        rw [hl] at h
        injection h with h; cases h
        cases hk : randOf o.kind with
        | none =>
          rw [List.filterMap_cons_none (f := fun o : FieldObj K => randOf o.kind) (by exact hk)] at hn ⊢
          have hrp : rp1 = rp := by
            rw [hrp1]; cases hkk : o.kind with
            | random r => rw [hkk] at hk; cases hk
            | const v => rfl
            | func f => rfl
          obtain ⟨h1, h2, h3⟩ := placeLoop_spec points regionIds regionMap os rp1 _ fs1 hl hn
          refine ⟨by rw [h1, List.map_cons, hids], by rw [← hrp]; exact h2, ?_⟩
          intro o' ho' r hr
          rcases List.mem_cons.1 ho' with rfl | ho'
          · rw [hr] at hk; cases hk
          · exact h3 o' ho' r hr
        | some r0 =>
          rw [List.filterMap_cons_some (f := fun o : FieldObj K => randOf o.kind) (b := r0) (by exact hk)] at hn ⊢
          rw [List.nodup_cons] at hn
          have hko : o.kind = .random r0 := by
            cases hkk : o.kind with
            | random r => rw [hkk] at hk; injection hk with hk; rw [hk]
            | const v => rw [hkk] at hk; cases hk
            | func f => rw [hkk] at hk; cases hk
          have hrp : rp1 = Dict.set rp r0 (ids.filterMap fun i => points[i]?) := by rw [hrp1, hko]
          obtain ⟨h1, h2, h3⟩ := placeLoop_spec points regionIds regionMap os rp1 _ fs1 hl hn.2
          refine ⟨by rw [h1, List.map_cons, hids], ?_, ?_⟩
          · intro r hr
            rw [List.mem_cons, not_or] at hr
            rw [h2 r hr.2, hrp, Dict.get?_set_ne _ _ hr.1]
          · intro o' ho' r hr
            rcases List.mem_cons.1 ho' with rfl | ho'
            · rw [hko] at hr; injection hr with hr; subst hr
              rw [h2 _ hn.1, hrp, Dict.get?_set_self, hids]
            · exact h3 o' ho' r hr

/-! ## Sampling -/

omit [DecidableEq K] in
theorem pointsOf_lt (regionIds : List Nat) (regionMap : Dict String Nat) (regions : List String) : ∀ i ∈ pointsOf regionIds regionMap regions, i < regionIds.length := by
  intro i hi
  unfold pointsOf at hi
  split at hi
  · exact List.mem_range.1 hi
  · obtain ⟨r, _, hr⟩ := List.mem_flatMap.1 hi
    exact List.mem_range.1 (List.mem_filter.1 hr).1

theorem pointsOf_nodup (regionIds : List Nat) (regionMap : Dict String Nat) (regions : List String) (hn : regions.Nodup)
    (hinj : ∀ r r' i, Dict.get? regionMap r = some i → Dict.get? regionMap r' = some i → r = r') : (pointsOf regionIds regionMap regions).Nodup := by
  unfold pointsOf
  split
  · exact List.nodup_range
  · rw [List.nodup_flatMap]
    refine ⟨fun r _ => List.nodup_range.filter _, ?_⟩
    refine hn.imp fun {a b} hab => ?_
    intro i hi hj
    have h1 := (List.mem_filter.1 hi).2
    have h2 := (List.mem_filter.1 hj).2
    simp only [decide_eq_true_eq] at h1 h2
    exact hab (hinj a b _ h1.symm h2.symm)

variable [Zero K]

theorem evalFunc_len (f : List K → K) (ps : List (List K)) (n : Nat) (hne : ps ≠ []) (hlen : ∀ p ∈ ps, p.length = n) :
    evalFunc f ps = .ok ((List.range n).map fun i => f (ps.map fun p => p.getD i 0)) := by
  unfold evalFunc
  have hn : ((ps.map (·.length)).filter (· ≠ 1)).headD 1 = n := by
    cases ps with
    | nil => exact absurd rfl hne
    | cons p ps =>
      by_cases h1 : n = 1
      · subst h1
        rw [List.filter_eq_nil_iff.2]
        · rfl
        · intro x hx
          obtain ⟨q, hq, rfl⟩ := List.mem_map.1 hx
          simp [hlen q hq]
      · rw [List.map_cons, List.filter_cons_of_pos (by simp [hlen p (by simp), h1])]
        simp [hlen p (by simp)]
  simp only [hn]
  rw [if_pos (by rw [List.all_eq_true]; intro p hp; simp [hlen p hp])]
  congr 1
  apply List.map_congr_left
  intro i hi
  congr 1
  apply List.map_congr_left
  intro p hp
  split
  · rename_i h1
    rw [hlen p hp] at h1; subst h1
    rw [List.mem_range] at hi
    obtain rfl : i = 0 := by omega
    rfl
  · rfl

theorem mapM_lookup_mono (S S' : Dict Nat (List K)) (hS : ∀ i v, Dict.get? S i = some v → Dict.get? S' i = some v) : ∀ (is : List Nat) (ps : List (List K)),
    (is.mapM (sampleOf S)) = .ok ps →
    (is.mapM (sampleOf S')) = .ok ps ∧
    List.Forall₂ (fun i p => Dict.get? S i = some p) is ps
  | [], ps, h => by cases h; exact ⟨rfl, .nil⟩
  | i :: is, ps, h => by
    rw [List.mapM_cons] at h ⊢
    cases hi : Dict.get? S i with
    | none => rw [show sampleOf S i = .error .attributeError by unfold sampleOf; rw [hi]] at h; cases h
    | some s =>
      rw [show sampleOf S i = .ok s by unfold sampleOf; rw [hi]] at h
      rw [show sampleOf S' i = .ok s by unfold sampleOf; rw [hS i s hi]]
      change (is.mapM (sampleOf S)).bind (fun l => .ok (s :: l)) = _ at h
      cases hl : (is.mapM (sampleOf S)) with
      | error e => rw [hl] at h; cases h
      | ok ps' =>
        rw [hl] at h
        injection h with h; subst h
        obtain ⟨h1, h2⟩ := mapM_lookup_mono S S' hS is ps' hl
        rw [h1]
        exact ⟨rfl, .cons hi h2⟩

/-- What the stored sample of a field is, in terms of all stored samples. -/
def IsSampleOf (draw : Nat → Nat → List P → List K) (rp : Dict Nat (List P)) (S : Dict Nat (List K)) (o : FieldObj K) (n : Nat) (s : List K) : Prop :=
  s.length = n ∧ match o.kind with
  | .const v => s = List.replicate n v
  | .random r => ∃ pts, Dict.get? rp r = some pts ∧ s = draw o.id r pts
  | .func f => ∃ ps, List.Forall₂ (fun i p => Dict.get? S i = some p) o.params ps ∧ (∀ p ∈ ps, p.length = n) ∧
      s = (List.range n).map fun i => f (ps.map fun p => p.getD i 0)

theorem IsSampleOf.mono {draw : Nat → Nat → List P → List K} {rp : Dict Nat (List P)} {S S' : Dict Nat (List K)} {o : FieldObj K} {n : Nat} {s : List K}
    (hS : ∀ i v, Dict.get? S i = some v → Dict.get? S' i = some v) (h : IsSampleOf draw rp S o n s) : IsSampleOf draw rp S' o n s := by
  refine ⟨h.1, ?_⟩
  have h2 := h.2
  cases hk : o.kind with
  | const v => rw [hk] at h2; exact h2
  | random r => rw [hk] at h2; exact h2
  | func f =>
    rw [hk] at h2
    obtain ⟨ps, h3, h4⟩ := h2
    exact ⟨ps, h3.imp fun _ _ hh => hS _ _ hh, h4⟩

theorem sampleLoop_spec (draw : Nat → Nat → List P → List K) (n : Nat) (rp : Dict Nat (List P)) (len : Nat → Nat) :
    ∀ (fs : List (FieldObj K × List Nat)) (S S' : Dict Nat (List K)) (R R' : Dict (FName K) (List K)),
    (fs.map (·.1.id)).Nodup → (∀ x ∈ fs, Dict.get? S x.1.id = none) → (fs.filterMap fun x => userName x.1.name).Nodup →
    (∀ x ∈ fs, len x.1.id = x.2.length) →
    (∀ x ∈ fs, ∀ f, x.1.kind = .func f → x.1.params ≠ [] ∧ ∀ i ∈ x.1.params, len i = x.2.length) →
    (∀ x ∈ fs, ∀ r pts, x.1.kind = .random r → Dict.get? rp r = some pts → (draw x.1.id r pts).length = x.2.length) →
    (∀ i v, Dict.get? S i = some v → v.length = len i) →
    sampleLoop draw n rp fs S R = .ok (S', R') →
    (∀ i v, Dict.get? S i = some v → Dict.get? S' i = some v) ∧
    (∀ s, s ∉ (fs.filterMap fun x => userName x.1.name) → Dict.get? R' (.user s) = Dict.get? R (.user s)) ∧
    ∀ x ∈ fs, ∃ s, Dict.get? S' x.1.id = some s ∧ IsSampleOf draw rp S' x.1 x.2.length s ∧
      ∀ u, x.1.name = .user u → if x.1.outer then ∃ v, scatter n x.2 s = .ok v ∧ Dict.get? R' (.user u) = some v
        else Dict.get? R' (.user u) = Dict.get? R (.user u)
  | [], S, S', R, R', _, _, _, _, _, _, _, h => by
    unfold sampleLoop at h
    injection h with h; cases h
    exact ⟨fun _ _ h => h, fun _ _ => rfl, by simp⟩
  | (o, ids) :: fs, S, S', R, R', hid, hnone, hun, hlen, hfun, hdraw, hSlen, h => by
    unfold sampleLoop at h
    rw [List.map_cons, List.nodup_cons] at hid
    have hlo : len o.id = ids.length := hlen (o, ids) (by simp)
    cases hs : sampleField draw rp S o ids with
    | error e => rw [hs] at h; cases h
    | ok s =>
      rw [hs] at h
      have hS1 : ∀ i v, Dict.get? S i = some v → Dict.get? (Dict.set S o.id s) i = some v := by
        intro i v hv
        rw [Dict.get?_set_ne _ _ ?_]
        · exact hv
        · rintro rfl
          rw [hnone (o, ids) (by simp)] at hv; cases hv
      have hsam : IsSampleOf draw rp S o ids.length s := by
        unfold sampleField at hs
        unfold IsSampleOf
        cases hk : o.kind with
        | const v =>
          rw [hk] at hs; injection hs with hs; subst hs
          exact ⟨by simp, rfl⟩
        | random r =>
          rw [hk] at hs
          simp only at hs
          cases hr : Dict.get? rp r with
          | none => rw [hr] at hs; cases hs
          | some pts =>
            rw [hr] at hs; injection hs with hs; subst hs
            exact ⟨hdraw (o, ids) (by simp) r pts hk hr, pts, hr, rfl⟩
        | func f =>
          rw [hk] at hs
          simp only at hs
          cases hm : (o.params.mapM (sampleOf S)) with
          | error e => rw [hm] at hs; cases hs
          | ok ps =>
            rw [hm] at hs
            change evalFunc f ps = .ok s at hs
            obtain ⟨_, hf2⟩ := mapM_lookup_mono S S (fun _ _ h => h) _ _ hm
            obtain ⟨hne, hpl⟩ := hfun (o, ids) (by simp) f hk
            have hps : ∀ p ∈ ps, p.length = ids.length := by
              intro p hp
              obtain ⟨k, hk', rfl⟩ := List.mem_iff_getElem.1 hp
              have hl := hf2.length_eq
              have := List.Forall₂.get hf2 (by omega : k < o.params.length) hk'
              exact (hSlen _ _ this).trans (hpl _ (by simp))
            have hpn : ps ≠ [] := by
              rintro rfl
              have hl := hf2.length_eq
              exact hne (List.length_eq_zero_iff.1 hl)
            rw [evalFunc_len f ps _ hpn hps] at hs
            injection hs with hs
            exact ⟨by rw [← hs]; simp, ps, hf2, hps, hs.symm⟩
      have hS1len : ∀ i v, Dict.get? (Dict.set S o.id s) i = some v → v.length = len i := by
        intro i v hv
        by_cases hi : i = o.id
        · subst hi
          rw [Dict.get?_set_self] at hv
          injection hv with hv
          rw [← hv, hsam.1, hlo]
        · rw [Dict.get?_set_ne _ _ hi] at hv
          exact hSlen i v hv
      have hnone1 : ∀ x ∈ fs, Dict.get? (Dict.set S o.id s) x.1.id = none := by
        intro x hx
        rw [Dict.get?_set_ne _ _ ?_]
        · exact hnone x (by simp [hx])
        · intro he
          exact hid.1 (List.mem_map.2 ⟨x, hx, he⟩)
      have hun1 : (fs.filterMap fun x => userName x.1.name).Nodup := by
        cases hu : userName o.name with
        | none => rwa [List.filterMap_cons_none (by exact hu)] at hun
        | some u => rw [List.filterMap_cons_some (b := u) (by exact hu), List.nodup_cons] at hun; exact hun.2
      change (if o.outer = true then (scatter n ids s).bind fun v => sampleLoop draw n rp fs (Dict.set S o.id s) (Dict.set R o.name v)
        else sampleLoop draw n rp fs (Dict.set S o.id s) R) = _ at h
      have hrec := fun R1 h => sampleLoop_spec draw n rp len fs (Dict.set S o.id s) S' R1 R' hid.2 hnone1 hun1
        (fun x hx => hlen x (by simp [hx])) (fun x hx => hfun x (by simp [hx])) (fun x hx => hdraw x (by simp [hx])) hS1len h
      have hself : Dict.get? (Dict.set S o.id s) o.id = some s := Dict.get?_set_self _ _ _
      by_cases ho : o.outer = true
      · rw [if_pos ho] at h
        cases hsc : scatter n ids s with
        | error e => rw [hsc] at h; cases h
        | ok v =>
          rw [hsc] at h
          obtain ⟨r1, r2, r3⟩ := hrec _ h
          refine ⟨fun i w hw => r1 i w (hS1 i w hw), ?_, ?_⟩
          · intro u hu
            have hu' : u ∉ fs.filterMap fun x => userName x.1.name := by
              intro hm; apply hu
              cases huo : userName o.name with
              | none => rw [List.filterMap_cons_none (by exact huo)]; exact hm
              | some w => rw [List.filterMap_cons_some (b := w) (by exact huo)]; exact List.mem_cons_of_mem _ hm
            rw [r2 u hu', Dict.get?_set_ne]
            intro he
            apply hu
            rw [List.filterMap_cons_some (b := u) (by simp [← he, userName])]
            simp
          · intro x hx
            rcases List.mem_cons.1 hx with rfl | hx
            · refine ⟨s, r1 _ _ hself, (hsam.mono hS1).mono r1, ?_⟩
              intro u hu
              simp only at hu ⊢
              rw [if_pos ho]
              refine ⟨v, hsc, ?_⟩
              have hnot : u ∉ fs.filterMap fun x => userName x.1.name := by
                rw [List.filterMap_cons_some (b := u) (by simp [hu, userName]), List.nodup_cons] at hun
                exact hun.1
              rw [r2 u hnot, hu, Dict.get?_set_self]
            · obtain ⟨s', h1, h2, h3⟩ := r3 x hx
              refine ⟨s', h1, h2, ?_⟩
              intro u hu
              have := h3 u hu
              split
              · rename_i hxo; rw [if_pos hxo] at this; exact this
              · rename_i hxo; rw [if_neg hxo] at this
                rw [this, Dict.get?_set_ne]
                intro he
                rw [List.filterMap_cons_some (b := u) (by simp [← he, userName]), List.nodup_cons] at hun
                exact hun.1 (List.mem_filterMap.2 ⟨x, hx, by simp [hu, userName]⟩)
      · rw [if_neg ho] at h
        obtain ⟨r1, r2, r3⟩ := hrec _ h
        refine ⟨fun i w hw => r1 i w (hS1 i w hw), ?_, ?_⟩
        · intro u hu
          apply r2
          intro hm; apply hu
          cases huo : userName o.name with
          | none => rw [List.filterMap_cons_none (by exact huo)]; exact hm
          | some w => rw [List.filterMap_cons_some (b := w) (by exact huo)]; exact List.mem_cons_of_mem _ hm
        · intro x hx
          rcases List.mem_cons.1 hx with rfl | hx
          · refine ⟨s, r1 _ _ hself, (hsam.mono hS1).mono r1, ?_⟩
            intro u hu
            simp only at hu ⊢
            rw [if_neg ho]
            apply r2
            rw [List.filterMap_cons_some (b := u) (by simp [hu, userName]), List.nodup_cons] at hun
            exact hun.1
          · exact r3 x hx

omit [DecidableEq K] in
theorem scatter_eq (n : Nat) (ids : List Nat) (s : List K) (hn : ids.Nodup) (hl : s.length = ids.length) (hlt : ∀ i ∈ ids, i < n) :
    scatter n ids s = .ok ((List.range n).map fun i => if i ∈ ids then s.getD (ids.idxOf i) 0 else 0) := by
  unfold scatter
  rw [if_pos hl]
  congr 1
  have key : ∀ (ids : List Nat) (s v : List K), ids.Nodup → s.length = ids.length → (∀ i ∈ ids, i < v.length) →
      (ids.zip s).foldl (fun v x => v.set x.1 x.2) v = (List.range v.length).map fun i => if i ∈ ids then s.getD (ids.idxOf i) 0 else v.getD i 0 := by
    intro ids
    induction ids with
    | nil =>
      intro s v _ _ _
      simp only [List.zip_nil_left, List.foldl_nil, List.not_mem_nil, if_false]
      apply List.ext_getElem
      · simp
      · intro i h1 h2
        rw [List.getElem_map, List.getElem_range, List.getD_eq_getElem?_getD, List.getElem?_eq_getElem h1]; rfl
    | cons a ids ih =>
      intro s v hn hl hlt
      cases s with
      | nil => simp at hl
      | cons x s =>
        rw [List.nodup_cons] at hn
        rw [List.zip_cons_cons, List.foldl_cons, ih s (v.set a x) hn.2 (by simpa using hl) (by intro i hi; rw [List.length_set]; exact hlt i (by simp [hi])),
          List.length_set]
        apply List.map_congr_left
        intro i hi
        by_cases hia : i = a
        · subst hia
          rw [if_neg hn.1, if_pos (by simp), List.idxOf_cons_self, List.getD_eq_getElem?_getD, List.getElem?_set_self (hlt i (by simp))]
          rfl
        · by_cases him : i ∈ ids
          · rw [if_pos him, if_pos (by simp [him]), List.idxOf_cons_ne _ (Ne.symm hia)]; rfl
          · rw [if_neg him, if_neg (by simp [him, hia]), List.getD_eq_getElem?_getD, List.getElem?_set_ne (Ne.symm hia), List.getD_eq_getElem?_getD]
  rw [key ids s _ hn hl (by simpa using hlt), List.length_replicate]
  apply List.map_congr_left
  intro i hi
  split
  · rfl
  · rw [List.getD_eq_getElem?_getD, List.getElem?_replicate]; split <;> rfl

/-! ## Success -/

/-- Every parameter comes before the field which uses it. -/
def Ordered : List Nat → List (FieldObj K) → Prop
  | _, [] => True
  | seen, o :: os => (∀ i ∈ o.params, i ∈ seen) ∧ Ordered (o.id :: seen) os

omit [DecidableEq K] [Zero K] in
theorem Ordered.mono : ∀ (os : List (FieldObj K)) (s s' : List Nat), (∀ i ∈ s, i ∈ s') → Ordered s os → Ordered s' os
  | [], _, _, _, _ => trivial
  | o :: os, s, s', h, ho => ⟨fun i hi => h i (ho.1 i hi), Ordered.mono os _ _ (by
      intro i hi
      rcases List.mem_cons.1 hi with rfl | hi
      · simp
      · simp [h i hi]) ho.2⟩

omit [DecidableEq K] [Zero K] in
theorem Ordered.snoc : ∀ (os : List (FieldObj K)) (s : List Nat) (o : FieldObj K), Ordered s os → (∀ i ∈ o.params, i ∈ s ∨ ∃ o' ∈ os, o'.id = i) →
    Ordered s (os ++ [o])
  | [], s, o, _, h => ⟨fun i hi => (h i hi).elim id (by simp), trivial⟩
  | a :: os, s, o, ho, h => ⟨ho.1, Ordered.snoc os _ o ho.2 (by
      intro i hi
      rcases h i hi with h | ⟨o', ho', rfl⟩
      · exact .inl (by simp [h])
      · rcases List.mem_cons.1 ho' with rfl | ho'
        · exact .inl (by simp)
        · exact .inr ⟨o', ho', rfl⟩)⟩

omit [Zero K] in
theorem getFieldObjs_ord (Q : List String → Prop) (regions : List String) (hq : Q regions) : ∀ (ps : List (Param K)) (F F' : Fields K) (is : List Nat),
    Ordered [] F.fields → (∀ o ∈ F.fields, Q o.regions) → F.getFieldObjs regions ps = .ok (F', is) → Ordered [] F'.fields ∧ ∀ o ∈ F'.fields, Q o.regions
  | [], F, F', is, hO, hQ, h => by
    unfold Fields.getFieldObjs at h
    injection h with h; cases h
    exact ⟨hO, hQ⟩
  | p :: ps, F, F', is, hO, hQ, h => by
    unfold Fields.getFieldObjs at h
    cases hp : F.getFieldObj regions p with
    | error e => rw [hp] at h; cases h
    | ok r =>
      obtain ⟨F1, i⟩ := r
      rw [hp] at h
      change (F1.getFieldObjs regions ps).bind (fun r => .ok (r.1, i :: r.2)) = _ at h
      cases hq' : F1.getFieldObjs regions ps with
      | error e => rw [hq'] at h; cases h
      | ok r2 =>
        obtain ⟨F2, is2⟩ := r2
        rw [hq'] at h
        injection h with h; cases h
        have : Ordered [] F1.fields ∧ ∀ o ∈ F1.fields, Q o.regions := by
          cases p with
          | name s =>
            unfold Fields.getFieldObj at hp
            simp only at hp
            cases hg : Dict.get? F.dict (.user s) with
            | none => rw [hg] at hp; cases hp
            | some j => rw [hg] at hp; injection hp with hp; cases hp; exact ⟨hO, hQ⟩
          | num v =>
            unfold Fields.getFieldObj at hp
            injection hp with hp; cases hp
            refine ⟨⟨by simp, Ordered.mono _ _ _ (by simp) hO⟩, ?_⟩
            intro o ho
            rcases List.mem_cons.1 ho with rfl | ho
            · exact hq
            · exact hQ o ho
        exact getFieldObjs_ord Q regions hq ps F1 _ is2 this.1 this.2 hq'

omit [Zero K] in
theorem addAll_ord (Q : List String → Prop) : ∀ (ds' ds : List (FieldDef K)) (F F' : Fields K), (∀ d ∈ ds', Q d.regions) →
    Inv ds F.fields F.next → DictOk F → (∀ o ∈ F.fields, o.outer = true) →
    Ordered [] F.fields → (∀ o ∈ F.fields, Q o.regions) → F.addAll ds' = .ok F' → Ordered [] F'.fields ∧ ∀ o ∈ F'.fields, Q o.regions
  | [], ds, F, F', _, _, _, _, hO, hQ, h => by
    unfold Fields.addAll at h
    injection h with h; subst h
    exact ⟨hO, hQ⟩
  | d :: ds', ds, F, F', hd, hI, hD, hOut, hO, hQ, h => by
    unfold Fields.addAll at h
    cases hp : F.add d with
    | error e => rw [hp] at h; cases h
    | ok F1 =>
      rw [hp] at h
      obtain ⟨a, b, c⟩ := add_inv ds d F F1 hI hD hOut hp
      have : Ordered [] F1.fields ∧ ∀ o ∈ F1.fields, Q o.regions := by
        unfold Fields.add at hp
        cases hc : d.check with
        | error e => rw [hc] at hp; cases hp
        | ok u =>
          rw [hc] at hp
          change (F.getFieldObjs d.regions d.params).bind _ = _ at hp
          cases hg : F.getFieldObjs d.regions d.params with
          | error e => rw [hg] at hp; cases hp
          | ok r =>
            obtain ⟨F2, is⟩ := r
            rw [hg] at hp
            injection hp with hp; cases hp
            obtain ⟨e1, e2⟩ := getFieldObjs_ord Q d.regions (hd d (by simp)) d.params F F2 is hO hQ hg
            obtain ⟨_, _, _, _, href⟩ := getFieldObjs_inv ds d.regions d.params F F2 is hI hD hOut hg
            refine ⟨Ordered.snoc _ _ _ e1 ?_, ?_⟩
            · intro i hi
              obtain ⟨k, hk, rfl⟩ := List.mem_iff_getElem.1 hi
              have hl := href.length_eq
              have hkd : k < d.params.length := by rw [hl]; exact hk
              have hr := List.Forall₂.get href hkd hk
              right
              rw [List.get_eq_getElem, List.get_eq_getElem] at hr
              revert hr
              cases d.params[k] with
              | num v => rintro ⟨o, ho, h1, _⟩; exact ⟨o, ho, h1⟩
              | name s => rintro ⟨o, ho, h1, _⟩; exact ⟨o, ho, h1⟩
            · intro o ho
              rcases List.mem_append.1 ho with ho | ho
              · exact e2 o ho
              · rw [List.mem_singleton.1 ho]; exact hd d (by simp)
      exact addAll_ord Q ds' (ds ++ [d]) F1 F' (fun d' hd' => hd d' (by simp [hd'])) a b c this.1 this.2 h

omit [DecidableEq K] [Zero K] in
theorem placeLoop_ok (points : List P) (regionIds : List Nat) (regionMap : Dict String Nat) : ∀ (os : List (FieldObj K)) (rp : Dict Nat (List P)),
    (∀ o ∈ os, ∀ r ∈ o.regions, (Dict.get? regionMap r).isSome) → ∃ x, placeLoop points regionIds regionMap os rp = .ok x
  | [], rp, _ => ⟨_, rfl⟩
  | o :: os, rp, h => by
    unfold placeLoop
    have hids : ∃ ids, pointIds regionIds regionMap o.regions = .ok ids := by
      have hh := h o (by simp)
      cases hr : o.regions with
      | nil => exact ⟨_, rfl⟩
      | cons a l =>
        rw [hr] at hh
        have key : ∀ l : List String, (∀ r ∈ l, (Dict.get? regionMap r).isSome) → ∃ out, l.mapM (regLookup regionIds regionMap) = .ok out := by
          intro l
          induction l with
          | nil => intro _; exact ⟨[], rfl⟩
          | cons b l ih =>
            intro hl
            obtain ⟨out, ho⟩ := ih fun r hr => hl r (by simp [hr])
            obtain ⟨j, hj⟩ := Option.isSome_iff_exists.1 (hl b (by simp))
            rw [List.mapM_cons, ho]
            unfold regLookup
            rw [hj]
            exact ⟨_, rfl⟩
        obtain ⟨out, ho⟩ := key _ hh
        refine ⟨out.flatten, ?_⟩
        show ((a :: l).mapM (regLookup regionIds regionMap)).bind (fun ids => .ok ids.flatten) = _
        rw [ho]; rfl
    obtain ⟨ids, hids⟩ := hids
    rw [hids]
    obtain ⟨x, hx⟩ := placeLoop_ok points regionIds regionMap os
      (match o.kind with | .random r => Dict.set rp r (ids.filterMap fun i => points[i]?) | _ => rp) fun o' ho' => h o' (by simp [ho'])
    refine ⟨((o, ids) :: x.1, x.2), ?_⟩
    show (placeLoop points regionIds regionMap os
      (match o.kind with | .random r => Dict.set rp r (ids.filterMap fun i => points[i]?) | _ => rp)).bind (fun x => .ok ((o, ids) :: x.1, x.2)) = _
    rw [hx]; rfl

theorem sampleLoop_ok (draw : Nat → Nat → List P → List K) (n : Nat) (rp : Dict Nat (List P)) (len : Nat → Nat) :
    ∀ (fs : List (FieldObj K × List Nat)) (S : Dict Nat (List K)) (R : Dict (FName K) (List K)) (seen : List Nat),
    Ordered seen (fs.map (·.1)) → (∀ i ∈ seen, (Dict.get? S i).isSome) →
    (∀ x ∈ fs, len x.1.id = x.2.length) →
    (∀ x ∈ fs, ∀ f, x.1.kind = .func f → x.1.params ≠ [] ∧ ∀ i ∈ x.1.params, len i = x.2.length) →
    (∀ x ∈ fs, ∀ r, x.1.kind = .random r → ∃ pts, Dict.get? rp r = some pts ∧ (draw x.1.id r pts).length = x.2.length) →
    (∀ i v, Dict.get? S i = some v → v.length = len i) → ∃ y, sampleLoop draw n rp fs S R = .ok y
  | [], S, R, _, _, _, _, _, _, _ => ⟨_, rfl⟩
  | (o, ids) :: fs, S, R, seen, hord, hseen, hlen, hfun, hrand, hS => by
    have hlo : len o.id = ids.length := hlen (o, ids) (by simp)
    have hs : ∃ s, sampleField draw rp S o ids = .ok s ∧ s.length = ids.length := by
      unfold sampleField
      cases hk : o.kind with
      | const v => exact ⟨_, rfl, by simp⟩
      | random r =>
        obtain ⟨pts, h1, h2⟩ := hrand (o, ids) (by simp) r hk
        simp only [h1]
        exact ⟨_, rfl, h2⟩
      | func f =>
        simp only
        have key : ∀ is : List Nat, (∀ i ∈ is, (Dict.get? S i).isSome) → ∃ ps, is.mapM (sampleOf S) = .ok ps ∧ ps.length = is.length ∧
            ∀ p ∈ ps, ∃ i ∈ is, Dict.get? S i = some p := by
          intro is
          induction is with
          | nil => intro _; exact ⟨[], rfl, rfl, by simp⟩
          | cons a is ih =>
            intro h
            obtain ⟨ps, h1, h2, h3⟩ := ih fun i hi => h i (by simp [hi])
            obtain ⟨v, hv⟩ := Option.isSome_iff_exists.1 (h a (by simp))
            rw [List.mapM_cons, h1, show sampleOf S a = .ok v by unfold sampleOf; rw [hv]]
            refine ⟨v :: ps, rfl, by simp [h2], ?_⟩
            intro p hp
            rcases List.mem_cons.1 hp with rfl | hp
            · exact ⟨a, by simp, hv⟩
            · obtain ⟨i, hi, hi2⟩ := h3 p hp
              exact ⟨i, by simp [hi], hi2⟩
        obtain ⟨ps, h1, h2, h3⟩ := key o.params fun i hi => hseen i (hord.1 i hi)
        obtain ⟨hne, hpl⟩ := hfun (o, ids) (by simp) f hk
        rw [h1]
        show ∃ s, evalFunc f ps = .ok s ∧ _
        rw [evalFunc_len f ps ids.length (by rintro rfl; exact hne (List.length_eq_zero_iff.1 h2.symm)) (by
          intro p hp
          obtain ⟨i, hi, hi2⟩ := h3 p hp
          exact (hS i p hi2).trans (hpl i hi))]
        exact ⟨_, rfl, by simp⟩
    obtain ⟨s, hs, hsl⟩ := hs
    have hrec := fun R1 => sampleLoop_ok draw n rp len fs (Dict.set S o.id s) R1 (o.id :: seen) hord.2 (by
      intro i hi
      by_cases hio : i = o.id
      · subst hio; rw [Dict.get?_set_self]; rfl
      · rw [Dict.get?_set_ne _ _ hio]
        rcases List.mem_cons.1 hi with h | h
        · exact absurd h hio
        · exact hseen i h) (fun x hx => hlen x (by simp [hx])) (fun x hx => hfun x (by simp [hx])) (fun x hx => hrand x (by simp [hx])) (by
      intro i v hv
      by_cases hio : i = o.id
      · subst hio
        rw [Dict.get?_set_self] at hv
        injection hv with hv
        rw [← hv, hsl, hlo]
      · rw [Dict.get?_set_ne _ _ hio] at hv
        exact hS i v hv)
    unfold sampleLoop
    rw [hs]
    show ∃ y, (if o.outer = true then (scatter n ids s).bind fun v => sampleLoop draw n rp fs (Dict.set S o.id s) (Dict.set R o.name v)
        else sampleLoop draw n rp fs (Dict.set S o.id s) R) = .ok y
    split
    · have : ∃ v, scatter n ids s = .ok v := by
        unfold scatter; rw [if_pos hsl]; exact ⟨_, rfl⟩
      obtain ⟨v, hv⟩ := this
      rw [hv]
      exact hrec _
    · exact hrec _

omit [Zero K] in
theorem getFieldObjs_ok (regions : List String) (known : List String) : ∀ (ps : List (Param K)) (F : Fields K), (∀ s, .name s ∈ ps → s ∈ known) →
    (∀ s ∈ known, (Dict.get? F.dict (.user s)).isSome) → ∃ F' is, F.getFieldObjs regions ps = .ok (F', is) ∧
      ∀ s ∈ known, (Dict.get? F'.dict (.user s)).isSome
  | [], F, _, hk => ⟨F, [], rfl, hk⟩
  | p :: ps, F, hp, hk => by
    have : ∃ F1 i, F.getFieldObj regions p = .ok (F1, i) ∧ ∀ s ∈ known, (Dict.get? F1.dict (.user s)).isSome := by
      cases p with
      | num v =>
        refine ⟨_, _, rfl, ?_⟩
        intro s hs
        simp only
        rw [Dict.get?_set_ne _ _ (by simp)]
        exact hk s hs
      | name s =>
        obtain ⟨j, hj⟩ := Option.isSome_iff_exists.1 (hk s (hp s (by simp)))
        refine ⟨F, j, ?_, hk⟩
        unfold Fields.getFieldObj
        simp only [hj]
    obtain ⟨F1, i, h1, h2⟩ := this
    obtain ⟨F2, is, h3, h4⟩ := getFieldObjs_ok regions known ps F1 (fun s hs => hp s (by simp [hs])) h2
    refine ⟨F2, i :: is, ?_, h4⟩
    unfold Fields.getFieldObjs
    rw [h1]
    show (F1.getFieldObjs regions ps).bind (fun r => .ok (r.1, i :: r.2)) = _
    rw [h3]; rfl

omit [Zero K] in
theorem addAll_ok : ∀ (ds : List (FieldDef K)) (known : List String) (F : Fields K), (∀ d ∈ ds, ParamsFit d) → Resolved known ds →
    (∀ s ∈ known, (Dict.get? F.dict (.user s)).isSome) → ∃ F', F.addAll ds = .ok F'
  | [], _, F, _, _, _ => ⟨F, rfl⟩
  | d :: ds, known, F, hf, hr, hk => by
    obtain ⟨F1, is, h1, h2⟩ := getFieldObjs_ok d.regions known d.params F hr.1 hk
    have hc : d.check = .ok () := by
      have := hf d (by simp)
      unfold ParamsFit at this
      unfold FieldDef.check
      cases hkd : d.kind with
      | func f => rw [hkd] at this; simp only; rw [if_neg this]
      | const v => rw [hkd] at this; simp only at this ⊢; rw [this]
      | random r => rw [hkd] at this; simp only at this ⊢; rw [this]
    have ha : F.add d = .ok ⟨F1.fields ++ [⟨F1.next, .user d.name, d.kind, is, d.regions, true⟩], Dict.set F1.dict (.user d.name) F1.next, F1.next + 1⟩ := by
      unfold Fields.add
      rw [hc]
      show (F.getFieldObjs d.regions d.params).bind _ = _
      rw [h1]; rfl
    obtain ⟨F', hF'⟩ := addAll_ok ds (d.name :: known)
      ⟨F1.fields ++ [⟨F1.next, .user d.name, d.kind, is, d.regions, true⟩], Dict.set F1.dict (.user d.name) F1.next, F1.next + 1⟩ (fun d' hd' => hf d' (by simp [hd'])) hr.2 (by
      intro s hs
      show (Dict.get? (Dict.set F1.dict (.user d.name) F1.next) (.user s)).isSome
      by_cases hsd : s = d.name
      · subst hsd; rw [Dict.get?_set_self]; rfl
      · rw [Dict.get?_set_ne _ _ (by simpa using hsd)]
        rcases List.mem_cons.1 hs with h | h
        · exact absurd h hsd
        · exact h2 s h)
    refine ⟨F', ?_⟩
    unfold Fields.addAll
    rw [ha]
    exact hF'

omit [DecidableEq K] [Zero K] in
theorem ordered_outer (g : FieldObj K → Bool) : ∀ (os : List (FieldObj K)) (s : List Nat), Ordered s os → Ordered s (os.map fun o => { o with outer := g o })
  | [], _, _ => trivial
  | o :: os, s, h => ⟨h.1, ordered_outer g os _ h.2⟩

end MLMC.Fld
