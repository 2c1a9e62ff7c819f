import Verif.Spec.TargetArrays
import Mathlib.Tactic.Linarith
import Mathlib.Tactic.Push
import Mathlib.Data.Rat.Floor
/-
C140: the target numbers of a sampler belong to it.
-/
namespace MLMC

variable {V : Type}

/-! ### Fractions dropped by arrays of integers do not matter -/

theorem pyInt_intCast (z : ℤ) : pyInt (z : ℚ) = z := by unfold pyInt; split <;> simp

theorem pyInt_mono {x y : ℚ} (h : x ≤ y) : pyInt x ≤ pyInt y := by
  unfold pyInt
  split <;> split
  · exact Int.ceil_le_ceil h
  · rename_i h1 h2
    have a : ⌈x⌉ ≤ 0 := Int.ceil_le.2 (by push_cast; linarith)
    have b : 0 ≤ ⌊y⌋ := Int.le_floor.2 (by push_cast; linarith)
    omega
  · linarith
  · exact Int.floor_le_floor h

theorem pyInt_max (x y : ℚ) : pyInt (max x y) = max (pyInt x) (pyInt y) := by
  rcases le_total x y with h | h
  · rw [max_eq_right h, max_eq_right (pyInt_mono h)]
  · rw [max_eq_left h, max_eq_left (pyInt_mono h)]

theorem planCount_pyInt (t : ℚ) (s : Nat) : planCount t s = (pyInt t - s).toNat := by
  unfold planCount pyInt
  by_cases h : t < s
  · rw [if_pos (by linarith)]
    have a : ⌈t - s⌉ ≤ 0 := Int.ceil_le.2 (by push_cast; linarith)
    have b : (if t < 0 then ⌈t⌉ else ⌊t⌋) ≤ (s : ℤ) := by
      split
      · rename_i h0
        have : ⌈t⌉ ≤ 0 := Int.ceil_le.2 (by push_cast; linarith)
        omega
      · have : (⌊t⌋ : ℚ) ≤ t := Int.floor_le t
        have : (⌊t⌋ : ℚ) ≤ ((s : ℤ) : ℚ) := by push_cast; linarith
        exact_mod_cast this
    omega
  · push Not at h
    have h0 : (0 : ℚ) ≤ s := by positivity
    rw [if_neg (by linarith), if_neg (by linarith), Int.floor_sub_natCast]

theorem plan_congr : ∀ (t t' : List ℚ) (n : List Nat), t.map pyInt = t'.map pyInt → List.zipWith planCount t n = List.zipWith planCount t' n
  | [], [], _, _ => rfl
  | [], _ :: _, _, h => by simp at h
  | _ :: _, [], _, h => by simp at h
  | _ :: _, _ :: _, [], _ => rfl
  | t :: ts, t' :: ts', s :: ss, h => by
    simp only [List.map_cons, List.cons.injEq] at h
    simp only [List.zipWith_cons_cons, planCount_pyInt, h.1]
    rw [plan_congr ts ts' ss h.2]

theorem setLevelTarget_congr : ∀ (t t' v : List ℚ), t.map pyInt = t'.map pyInt → (setLevelTarget t v).map pyInt = (setLevelTarget t' v).map pyInt
  | [], [], _, _ => rfl
  | [], _ :: _, _, h => by simp at h
  | _ :: _, [], _, h => by simp at h
  | _ :: _, _ :: _, [], h => h
  | t :: ts, t' :: ts', n :: ns, h => by
    simp only [List.map_cons, List.cons.injEq] at h
    simp only [setLevelTarget, List.map_cons, pyInt_max, h.1]
    rw [setLevelTarget_congr ts ts' ns h.2]

theorem pyInt_npStored (b : Bool) (x : ℚ) : pyInt (npStored b x) = pyInt x := by
  unfold npStored; split
  · exact pyInt_intCast _
  · rfl

theorem npMake_pyInt (b : Bool) (xs : List ℚ) : (npMake b xs).data.map pyInt = xs.map pyInt := by
  simp [npMake, pyInt_npStored]

/-- Equal up to the fractions of the target numbers. -/
structure SameUpTo (s s' : Sys V) : Prop where
  rest : s.noTarget = s'.noTarget
  target : s.target.map pyInt = s'.target.map pyInt

theorem SameUpTo.eta {s s' : Sys V} (h : SameUpTo s s') : s = { s' with target := s.target } := by
  have := h.rest
  cases s; cases s'
  simp only [Sys.noTarget, Sys.mk.injEq, true_and] at this ⊢
  exact this

theorem act_target (a : SchedAct) (s : Sys V) (t : List ℚ) : a.apply { s with target := t } = { a.apply s with target := t } := by
  cases a with
  | begin l => rfl
  | hand l =>
    simp only [SchedAct.apply]
    cases s.nSched[l]? <;> rfl
  | save l => rfl

theorem acts_target (as : List SchedAct) : ∀ (s : Sys V) (t : List ℚ), runActs as { s with target := t } = { runActs as s with target := t } := by
  induction as with
  | nil => intro s t; rfl
  | cons a as ih =>
    intro s t
    simp only [runActs, List.foldl_cons, act_target] at ih ⊢
    exact ih _ _

theorem acts_target_eq (as : List SchedAct) (s : Sys V) : (runActs as s).target = s.target := by
  have := congrArg Sys.target (acts_target as s s.target)
  exact this

theorem SameUpTo.acts {s s' : Sys V} (h : SameUpTo s s') (as : List SchedAct) : SameUpTo (runActs as s) (runActs as s') := by
  refine ⟨?_, ?_⟩
  · rw [h.eta, acts_target]; rfl
  · rw [acts_target_eq, acts_target_eq]; exact h.target

theorem SameUpTo.nSched {s s' : Sys V} (h : SameUpTo s s') : s.nSched = s'.nSched := by
  have := congrArg Sys.nSched h.rest
  exact this
theorem SameUpTo.store {s s' : Sys V} (h : SameUpTo s s') : s.store = s'.store := by
  have := congrArg Sys.store h.rest
  exact this
theorem SameUpTo.handed {s s' : Sys V} (h : SameUpTo s s') : s.handed = s'.handed := by
  have := congrArg Sys.handed h.rest
  exact this
theorem SameUpTo.renewed {s s' : Sys V} (h : SameUpTo s s') : s.renewed = s'.renewed := by
  have := congrArg Sys.renewed h.rest
  exact this
theorem SameUpTo.len {s s' : Sys V} (h : SameUpTo s s') : s.target.length = s'.target.length := by
  simpa using congrArg List.length h.target

theorem SameUpTo.plan {s s' : Sys V} (h : SameUpTo s s') : s.plan = s'.plan := by
  unfold Sys.plan
  rw [h.nSched]; exact plan_congr _ _ _ h.target

theorem SameUpTo.schedule {s s' : Sys V} (h : SameUpTo s s') : SameUpTo s.schedule s'.schedule := by
  unfold Sys.schedule
  rw [h.len, h.nSched, h.plan]
  split
  · exact h.acts _
  · exact h

theorem SameUpTo.restart {s s' : Sys V} (h : SameUpTo s s') : s.restart = s'.restart := by
  unfold Sys.restart
  rw [h.store, h.handed, h.renewed]

theorem SameUpTo.setTarget {s s' : Sys V} (h : SameUpTo s s') (v : List ℚ) :
    SameUpTo { s with target := setLevelTarget s.target v } { s' with target := setLevelTarget s'.target v } :=
  ⟨h.rest, setLevelTarget_congr _ _ _ h.target⟩

theorem SameUpTo.step {s s' : Sys V} (h : SameUpTo s s') (op : SamplerOp V) : SameUpTo (s.step op) (s'.step op) := by
  cases op with
  | setInitial v => exact ⟨h.rest, rfl⟩
  | setTarget v => exact h.setTarget v
  | poll a b c =>
    refine ⟨?_, h.target⟩
    rw [h.eta]; rfl
  | schedule => exact h.schedule
  | processAdding est c =>
    simp only [Sys.step, Sys.processAdding]
    by_cases e : est.length = s'.nSched.length
    · rw [if_pos e, if_pos (by rw [h.nSched]; exact e)]
      have := (h.setTarget ((addSamplesVec est s'.nSched c).map fun z : ℤ => (z : ℚ))).schedule
      rw [← h.nSched] at this ⊢
      exact this
    · rw [if_neg e, if_neg (by rw [h.nSched]; exact e)]
      exact h
  | renew =>
    simp only [Sys.step, Sys.renew]
    rw [h.store]
    cases hdfFailedSamples s'.store with
    | error e => exact h
    | ok f =>
      refine ⟨?_, h.target⟩
      rw [h.eta]; rfl
  | restart => simp only [Sys.step]; rw [h.restart]; exact ⟨rfl, rfl⟩
  | crashInSchedule k =>
    have : SameUpTo (if s.target.length = s.nSched.length ∨ s.nSched.length = 1 then runActs ((schedActs 0 s.plan).take k) s else s)
        (if s'.target.length = s'.nSched.length ∨ s'.nSched.length = 1 then runActs ((schedActs 0 s'.plan).take k) s' else s') := by
      rw [h.len, h.nSched, h.plan]
      split
      · exact h.acts _
      · exact h
    simp only [Sys.step]; rw [this.restart]; exact ⟨rfl, rfl⟩

/-! ### One sampler among others -/

/-- Sampler `k` uses an array of its own, and is like `S` up to fractions. -/
structure OwnAt (k : Nat) (st : TState V) (S : Sys V) : Prop where
  bound : ∀ s ∈ st.samplers, s.loc < st.heap.length
  own : ∃ s a, st.samplers[k]? = some s ∧ st.heap[s.loc]? = some a ∧ SameUpTo { s.sys with target := a.data } S ∧
    ∀ j s', j ≠ k → st.samplers[j]? = some s' → s'.loc ≠ s.loc

theorem mem_set_loc {ss : List (TSampler V)} {k : Nat} {s x : TSampler V} (h : x ∈ ss.set k s) : x ∈ ss ∨ x = s :=
  (List.mem_or_eq_of_mem_set h)

theorem OwnAt.push {k : Nat} {st : TState V} {S S' : Sys V} (h : OwnAt k st S) (j : Nat) (s : TSampler V) (a : NArr) (hj : st.samplers[j]?.isSome)
    (hk : j = k → SameUpTo { s.sys with target := a.data } S') (hk' : j ≠ k → S' = S) : OwnAt k (st.pushTarget j s a) S' := by
  obtain ⟨s0, a0, h1, h2, h3, h4⟩ := h.own
  have hlt : j < st.samplers.length := by
    by_contra hc
    rw [List.getElem?_eq_none (by omega)] at hj; simp at hj
  refine ⟨?_, ?_⟩
  · intro x hx
    simp only [TState.pushTarget, List.length_append, List.length_singleton] at hx ⊢
    rcases mem_set_loc hx with hx | rfl
    · have := h.bound x hx; omega
    · simp
  · by_cases e : j = k
    · subst e
      refine ⟨{ s with loc := st.heap.length }, a, ?_, ?_, hk rfl, ?_⟩
      · simp [TState.pushTarget, hlt]
      · simp [TState.pushTarget]
      · intro i s' hi hs'
        simp only [TState.pushTarget, List.getElem?_set_ne (Ne.symm hi)] at hs'
        have := h.bound s' (List.mem_of_getElem? hs')
        simp only; omega
    · obtain rfl := hk' e
      have hb := h.bound s0 (List.mem_of_getElem? h1)
      refine ⟨s0, a0, ?_, ?_, h3, ?_⟩
      · simp only [TState.pushTarget, List.getElem?_set_ne e]; exact h1
      · simp only [TState.pushTarget, List.getElem?_append_left hb]; exact h2
      · intro i s' hi hs'
        by_cases ei : i = j
        · subst ei
          simp only [TState.pushTarget, List.getElem?_set_self hlt, Option.some.injEq] at hs'
          subst hs'; simp only; omega
        · simp only [TState.pushTarget, List.getElem?_set_ne (Ne.symm ei)] at hs'
          exact h4 i s' hi hs'

theorem expandInit_length {rng : Nat → ℚ → ℚ → List ℤ} {L : Nat} {data : List ℚ} (h : data.length = 1 ∨ data.length = 2) : ∃ b, expandInit rng L data = some b := by
  match data, h with
  | [x], _ => exact ⟨_, rfl⟩
  | [x, y], _ => exact ⟨_, rfl⟩

theorem expandInit_passed (rng : Nat → ℚ → ℚ → List ℤ) (L : Nat) (b : Bool) (data : List ℚ) :
    (((expandInit rng L data).getD (npMake b data)).data).map pyInt = (((expandInit rng L data).map NArr.data).getD data).map pyInt := by
  cases expandInit rng L data with
  | none => exact npMake_pyInt b data
  | some a => rfl

/-- The meaning of one step for sampler `k` alone. -/
def TState.callOn (rng : Nat → ℚ → ℚ → List ℤ) (k : Nat) (st : TState V) (o : TOp V) : List (SamplerOp V) := st.callsOn rng k [o]

theorem callsOn_cons (rng : Nat → ℚ → ℚ → List ℤ) (k : Nat) (st : TState V) (o : TOp V) (os : List (TOp V)) :
    st.callsOn rng k (o :: os) = st.callOn rng k o ++ (st.step rng o).callsOn rng k os := by
  simp [TState.callOn, TState.callsOn]

theorem OwnAt.init {rng : Nat → ℚ → ℚ → List ℤ} {k : Nat} {st : TState V} {S : Sys V} (h : OwnAt k st S) (j : Nat) (arg : InitArg) (os : List (TOp V))
    (hu : st.Unshared rng (.init j arg :: os)) : OwnAt k (st.init rng j arg) (S.run (st.callOn rng k (.init j arg))) := by
  obtain ⟨s0, a0, h1, h2, h3, h4⟩ := h.own
  simp only [TState.callOn, TState.callsOn, List.append_nil]
  unfold TState.init
  cases hj : st.samplers[j]? with
  | none =>
    have : j ≠ k := by rintro rfl; rw [h1] at hj; cases hj
    simp only [if_neg this]
    exact h
  | some s =>
    have hl : j = k → st.levels k = s.sys.store.length := by rintro rfl; simp [TState.levels, hj]
    have hrest : j = k → s.sys.noTarget = S.noTarget := by
      rintro rfl; rw [h1] at hj; cases hj; exact h3.rest
    cases arg with
    | default =>
      refine h.push j s _ (by simp [hj]) ?_ ?_
      · intro e
        simp only [if_pos e, hl e, TState.passed]
        exact ⟨hrest e, rfl⟩
      · intro e; simp only [if_neg e]; rfl
    | values b data =>
      refine h.push j s _ (by simp [hj]) ?_ ?_
      · intro e
        simp only [if_pos e, hl e, TState.passed]
        exact ⟨hrest e, expandInit_passed _ _ _ _⟩
      · intro e; simp only [if_neg e]; rfl
    | array loc =>
      simp only
      cases ha : st.heap[loc]? with
      | none =>
        simp only
        by_cases e : j = k
        · simp only [if_pos e, TState.passed, ha]; exact h
        · simp only [if_neg e]; exact h
      | some a =>
        simp only
        cases hx : expandInit rng s.sys.store.length a.data with
        | some b =>
          refine h.push j s _ (by simp [hj]) ?_ ?_
          · intro e
            simp only [if_pos e, hl e, TState.passed, ha, Option.map_some, hx, Option.getD_some]
            exact ⟨hrest e, rfl⟩
          · intro e; simp only [if_neg e]; rfl
        | none =>
          have hsep : ∀ i s', i ≠ j → st.samplers[i]? = some s' → s'.loc ≠ loc := by
            rcases hu.1 with ⟨a', e1, e2⟩ | hs
            · rw [ha] at e1; cases e1
              obtain ⟨b, hb⟩ := expandInit_length (rng := rng) (L := s.sys.store.length) e2
              rw [hb] at hx; cases hx
            · exact hs
          have hlt : j < st.samplers.length := by
            by_contra hc
            rw [List.getElem?_eq_none (by omega)] at hj; cases hj
          have hloc : loc < st.heap.length := by
            by_contra hc
            rw [List.getElem?_eq_none (by omega)] at ha; cases ha
          refine ⟨?_, ?_⟩
          · intro x hx'
            rcases mem_set_loc hx' with hx' | rfl
            · exact h.bound x hx'
            · exact hloc
          · by_cases e : j = k
            · subst e
              refine ⟨{ s with loc := loc }, a, ?_, ha, ?_, ?_⟩
              · simp [hlt]
              · simp only [if_true, hl rfl, TState.passed, ha, Option.map_some, hx, Option.map_none, Option.getD_none]
                exact ⟨hrest rfl, rfl⟩
              · intro i s' hi hs'
                simp only [List.getElem?_set_ne (Ne.symm hi)] at hs'
                exact hsep i s' hi hs'
            · simp only [if_neg e]
              refine ⟨s0, a0, ?_, h2, h3, ?_⟩
              · simp only [List.getElem?_set_ne e]; exact h1
              · intro i s' hi hs'
                by_cases ei : i = j
                · subst ei
                  simp only [List.getElem?_set_self hlt, Option.some.injEq] at hs'
                  subst hs'
                  exact fun hc => hsep k s0 (Ne.symm hi) h1 hc.symm
                · simp only [List.getElem?_set_ne (Ne.symm ei)] at hs'
                  exact h4 i s' hi hs'

theorem OwnAt.inPlace {k : Nat} {st : TState V} {S S' : Sys V} (h : OwnAt k st S) (j : Nat) (s : TSampler V) (sys : Sys V) (a : NArr) (hj : st.samplers[j]? = some s)
    (hk : j = k → SameUpTo { sys with target := a.data } S') (hk' : j ≠ k → S' = S) :
    OwnAt k { heap := st.heap.set s.loc a, samplers := st.samplers.set j { s with sys := sys } } S' := by
  obtain ⟨s0, a0, h1, h2, h3, h4⟩ := h.own
  have hlt : j < st.samplers.length := by
    by_contra hc
    rw [List.getElem?_eq_none (by omega)] at hj; cases hj
  have hb := h.bound s (List.mem_of_getElem? hj)
  refine ⟨?_, ?_⟩
  · intro x hx
    simp only [List.length_set]
    rcases mem_set_loc hx with hx | rfl
    · exact h.bound x hx
    · exact hb
  · by_cases e : j = k
    · subst e
      refine ⟨{ s with sys := sys }, a, by simp [hlt], by simp [hb], hk rfl, ?_⟩
      intro i s' hi hs'
      simp only [List.getElem?_set_ne (Ne.symm hi)] at hs'
      rw [h1] at hj; cases hj
      exact h4 i s' hi hs'
    · obtain rfl := hk' e
      refine ⟨s0, a0, ?_, ?_, h3, ?_⟩
      · simp only [List.getElem?_set_ne e]; exact h1
      · simp only [List.getElem?_set_ne (h4 j s e hj)]; exact h2
      · intro i s' hi hs'
        by_cases ei : i = j
        · subst ei
          simp only [List.getElem?_set_self hlt, Option.some.injEq] at hs'
          subst hs'
          exact h4 i s hi hj
        · simp only [List.getElem?_set_ne (Ne.symm ei)] at hs'
          exact h4 i s' hi hs'

theorem OwnAt.call {rng : Nat → ℚ → ℚ → List ℤ} {k : Nat} {st : TState V} {S : Sys V} (h : OwnAt k st S) (j : Nat) (op : SamplerOp V) :
    OwnAt k (st.call j op) (S.run (st.callOn rng k (.call j op))) := by
  obtain ⟨s0, a0, h1, h2, h3, h4⟩ := h.own
  simp only [TState.callOn, TState.callsOn, List.append_nil]
  unfold TState.call
  cases hj : st.samplers[j]? with
  | none =>
    have : j ≠ k := by rintro rfl; rw [h1] at hj; cases hj
    simp only [if_neg this]
    exact h
  | some s =>
    have hb := h.bound s (List.mem_of_getElem? hj)
    obtain ⟨a, ha⟩ : ∃ a, st.heap[s.loc]? = some a := ⟨_, List.getElem?_eq_getElem hb⟩
    have hst : j = k → SameUpTo (Sys.step { s.sys with target := a.data } op) (S.step op) := by
      rintro rfl
      rw [h1] at hj; cases hj
      rw [h2] at ha; cases ha
      exact h3.step op
    have hk : ∀ b, j = k → SameUpTo { Sys.step { s.sys with target := a.data } op with target := (npMake b (Sys.step { s.sys with target := a.data } op).target).data }
        (S.run (if j = k then [op] else [])) := by
      intro b e
      rw [if_pos e]
      exact ⟨(hst e).rest, (npMake_pyInt _ _).trans (hst e).target⟩
    have hk' : j ≠ k → S.run (if j = k then [op] else []) = S := by
      intro e; rw [if_neg e]; rfl
    have hpush : OwnAt k (st.pushTarget j { s with sys := Sys.step { s.sys with target := a.data } op } ⟨false, (Sys.step { s.sys with target := a.data } op).target⟩)
        (S.run (if j = k then [op] else [])) := by
      refine h.push j _ _ (by simp [hj]) ?_ hk'
      intro e
      rw [if_pos e]
      exact ⟨(hst e).rest, (hst e).target⟩
    simp only [ha]
    cases op with
    | restart => exact hpush
    | crashInSchedule n => exact hpush
    | setInitial v => exact h.inPlace j s _ _ hj (hk _) hk'
    | setTarget v => exact h.inPlace j s _ _ hj (hk _) hk'
    | poll x y z => exact h.inPlace j s _ _ hj (hk _) hk'
    | schedule => exact h.inPlace j s _ _ hj (hk _) hk'
    | processAdding x y => exact h.inPlace j s _ _ hj (hk _) hk'
    | renew => exact h.inPlace j s _ _ hj (hk _) hk'

theorem OwnAt.step {rng : Nat → ℚ → ℚ → List ℤ} {k : Nat} {st : TState V} {S : Sys V} (h : OwnAt k st S) (o : TOp V) (os : List (TOp V))
    (hu : st.Unshared rng (o :: os)) : OwnAt k (st.step rng o) (S.run (st.callOn rng k o)) := by
  cases o with
  | make b data =>
    obtain ⟨s0, a0, h1, h2, h3, h4⟩ := h.own
    have hb := h.bound s0 (List.mem_of_getElem? h1)
    refine ⟨?_, s0, a0, h1, ?_, h3, h4⟩
    · intro x hx
      have := h.bound x hx
      simp only [TState.step, List.length_append]; omega
    · simp only [TState.step, List.getElem?_append_left hb]; exact h2
  | assign loc i x =>
    obtain ⟨s0, a0, h1, h2, h3, h4⟩ := h.own
    simp only [TState.step]
    cases ha : st.heap[loc]? with
    | none => exact h
    | some a =>
      refine ⟨?_, s0, a0, h1, ?_, h3, h4⟩
      · intro x hx
        simp only [List.length_set]; exact h.bound x hx
      · simp only [List.getElem?_set_ne (Ne.symm (hu.1 s0 (List.mem_of_getElem? h1)))]; exact h2
  | init j arg => exact h.init j arg os hu
  | call j op => exact h.call j op

theorem OwnAt.run {rng : Nat → ℚ → ℚ → List ℤ} {k : Nat} : ∀ (os : List (TOp V)) {st : TState V} {S : Sys V}, OwnAt k st S → st.Unshared rng os →
    OwnAt k (st.run rng os) (S.run (st.callsOn rng k os))
  | [], _, _, h, _ => h
  | o :: os, st, S, h, hu => by
    have := OwnAt.run os (h.step o os hu) hu.2
    rw [callsOn_cons]
    simpa [TState.run, Sys.run] using this

theorem ownAt_start (syss : List (Sys V)) (k : Nat) (S : Sys V) (hk : syss[k]? = some S) : OwnAt k (TState.start syss) S := by
  have hs : ∀ (i : Nat) (s : TSampler V), (TState.start syss).samplers[i]? = some s → s.loc = i ∧ syss[i]? = some s.sys := by
    intro i s h
    simp only [TState.start, List.getElem?_map, List.getElem?_zipIdx, Option.map_map, Option.map_eq_some_iff] at h
    obtain ⟨x, h1, rfl⟩ := h
    simp [h1]
  refine ⟨?_, ⟨k, S⟩, ⟨false, S.target⟩, ?_, ?_, ⟨rfl, rfl⟩, ?_⟩
  · intro s h
    obtain ⟨i, hi⟩ := List.getElem?_of_mem h
    obtain ⟨e, h2⟩ := hs i s hi
    rw [e]
    by_contra hc
    simp only [TState.start, List.length_map, not_lt] at hc
    rw [List.getElem?_eq_none hc] at h2; cases h2
  · simp [TState.start, hk]
  · simp [TState.start, hk]
  · intro j s' hj h
    rw [(hs j s' h).1]; exact hj

/-- `C140`, the part that holds: in every program that does not share arrays, whatever it does with its arrays and its other
samplers, a sampler schedules, stores, hands to its pool and renews exactly what it would if it were alone, were given
numbers instead of arrays, and kept exact fractions. -/
theorem C140_own_numbers_partial (rng : Nat → ℚ → ℚ → List ℤ) (syss : List (Sys V)) (ops : List (TOp V)) (hu : (TState.start syss).Unshared rng ops)
    (k : Nat) (S : Sys V) (hk : syss[k]? = some S) :
    ∃ s, ((TState.start syss).run rng ops).samplers[k]? = some s ∧ s.sys.noTarget = (S.run ((TState.start syss).callsOn rng k ops)).noTarget := by
  obtain ⟨s, a, h1, _, h3, _⟩ := (OwnAt.run ops (ownAt_start syss k S hk) hu).own
  exact ⟨s, h1, h3.rest⟩

theorem step_heap {rng : Nat → ℚ → ℚ → List ℤ} {loc : Nat} {st : TState V} (o : TOp V) (os : List (TOp V)) (hlt : loc < st.heap.length)
    (hs : ∀ s ∈ st.samplers, s.loc ≠ loc) (hn : st.NotPassed rng loc (o :: os)) :
    (st.step rng o).heap[loc]? = st.heap[loc]? ∧ loc < (st.step rng o).heap.length ∧ ∀ s ∈ (st.step rng o).samplers, s.loc ≠ loc := by
  have hpush : ∀ k s a, (st.pushTarget k s a).heap[loc]? = st.heap[loc]? ∧ loc < (st.pushTarget k s a).heap.length ∧
      ∀ x ∈ (st.pushTarget k s a).samplers, x.loc ≠ loc := by
    intro k s a
    refine ⟨?_, ?_, ?_⟩
    · simp only [TState.pushTarget, List.getElem?_append_left hlt]
    · simp only [TState.pushTarget, List.length_append]; omega
    · intro x hx
      rcases mem_set_loc hx with hx | rfl
      · exact hs x hx
      · simp only; omega
  have hin : ∀ k (s : TSampler V) sys a, st.samplers[k]? = some s → ((st.heap.set s.loc a)[loc]? = st.heap[loc]? ∧ loc < (st.heap.set s.loc a).length ∧
      ∀ x ∈ st.samplers.set k { s with sys := sys }, x.loc ≠ loc) := by
    intro k s sys a hk
    have := hs s (List.mem_of_getElem? hk)
    refine ⟨List.getElem?_set_ne this, by rw [List.length_set]; exact hlt, ?_⟩
    intro x hx
    rcases mem_set_loc hx with hx | rfl
    · exact hs x hx
    · exact this
  cases o with
  | make b data =>
    refine ⟨?_, ?_, hs⟩
    · simp only [TState.step, List.getElem?_append_left hlt]
    · simp only [TState.step, List.length_append]; omega
  | assign l i x =>
    simp only [TState.step]
    cases ha : st.heap[l]? with
    | none => exact ⟨rfl, hlt, hs⟩
    | some a =>
      exact ⟨List.getElem?_set_ne hn.1, by rw [List.length_set]; exact hlt, hs⟩
  | init k arg =>
    simp only [TState.step, TState.init]
    cases hk : st.samplers[k]? with
    | none => exact ⟨rfl, hlt, hs⟩
    | some s =>
      cases arg with
      | default => exact hpush _ _ _
      | values b data => exact hpush _ _ _
      | array l =>
        simp only
        cases ha : st.heap[l]? with
        | none => exact ⟨rfl, hlt, hs⟩
        | some a =>
          simp only
          cases hx : expandInit rng s.sys.store.length a.data with
          | some b => exact hpush _ _ _
          | none =>
            have : l ≠ loc := by
              rintro rfl
              obtain ⟨a', e1, e2⟩ := hn.1 rfl
              rw [ha] at e1; cases e1
              obtain ⟨b, hb⟩ := expandInit_length (rng := rng) (L := s.sys.store.length) e2
              rw [hb] at hx; cases hx
            refine ⟨rfl, hlt, ?_⟩
            intro x hx
            rcases mem_set_loc hx with hx | rfl
            · exact hs x hx
            · exact this
  | call k op =>
    simp only [TState.step, TState.call]
    cases hk : st.samplers[k]? with
    | none => exact ⟨rfl, hlt, hs⟩
    | some s =>
      simp only
      cases ha : st.heap[s.loc]? with
      | none => exact ⟨rfl, hlt, hs⟩
      | some a =>
        cases op with
        | restart => exact hpush _ _ _
        | crashInSchedule n => exact hpush _ _ _
        | setInitial v => exact hin _ _ _ _ hk
        | setTarget v => exact hin _ _ _ _ hk
        | poll x y z => exact hin _ _ _ _ hk
        | schedule => exact hin _ _ _ _ hk
        | processAdding x y => exact hin _ _ _ _ hk
        | renew => exact hin _ _ _ _ hk

/-- `C140`, the part that holds for arrays of the user: an array that is not passed to `set_initial_n_samples`, or has one or two
entries, keeps its content whatever is done with the samplers. -/
theorem C140_array_kept_partial (rng : Nat → ℚ → ℚ → List ℤ) (loc : Nat) : ∀ (ops : List (TOp V)) (st : TState V), loc < st.heap.length →
    (∀ s ∈ st.samplers, s.loc ≠ loc) → st.NotPassed rng loc ops → (st.run rng ops).heap[loc]? = st.heap[loc]?
  | [], _, _, _, _ => rfl
  | o :: os, st, hlt, hs, hn => by
    obtain ⟨h1, h2, h3⟩ := step_heap o os hlt hs hn
    have := C140_array_kept_partial rng loc os _ h2 h3 hn.2
    rw [h1] at this
    exact this

/-- `C140` is false: if an array with three or more entries is passed to two samplers, the numbers one of them is told to reach
later (`set_level_target_n_samples(v)`) are from then on the target numbers of the other one as well, and the content of the
array of the user. -/
theorem C140_shared_counterexample (rng : Nat → ℚ → ℚ → List ℤ) (st : TState V) (j k : Nat) (hjk : j ≠ k) (hj : j < st.samplers.length) (hk : k < st.samplers.length)
    (loc : Nat) (a : NArr) (ha : st.heap[loc]? = some a) (h3 : 3 ≤ a.data.length) (v : List ℚ) :
    ∃ sj sk, (st.run rng [.init j (.array loc), .init k (.array loc), .call j (.setTarget v)]).samplers[j]? = some sj ∧
      (st.run rng [.init j (.array loc), .init k (.array loc), .call j (.setTarget v)]).samplers[k]? = some sk ∧ sj.loc = loc ∧ sk.loc = loc ∧
      (st.run rng [.init j (.array loc), .init k (.array loc), .call j (.setTarget v)]).heap[loc]? = some (npMake a.ints (setLevelTarget a.data v)) := by
  have hx : ∀ L, expandInit rng L a.data = none := by
    intro L
    match hd : a.data with
    | [] => rfl
    | [x] => rw [hd] at h3; simp at h3
    | [x, y] => rw [hd] at h3; simp at h3
    | x :: y :: z :: r => rfl
  have hloc : loc < st.heap.length := by
    by_contra hc
    rw [List.getElem?_eq_none (by omega)] at ha; cases ha
  obtain ⟨sj, ej⟩ : ∃ s, st.samplers[j]? = some s := ⟨_, List.getElem?_eq_getElem hj⟩
  obtain ⟨sk, ek⟩ : ∃ s, st.samplers[k]? = some s := ⟨_, List.getElem?_eq_getElem hk⟩
  have e1 : st.step rng (.init j (.array loc)) = { st with samplers := st.samplers.set j { sj with loc := loc } } := by
    simp only [TState.step, TState.init, ej, ha, hx]
  have e2 : (st.step rng (.init j (.array loc))).step rng (.init k (.array loc)) =
      { st with samplers := (st.samplers.set j { sj with loc := loc }).set k { sk with loc := loc } } := by
    rw [e1]
    simp only [TState.step, TState.init, List.getElem?_set_ne hjk, ek, ha, hx]
  simp only [TState.run, List.foldl_cons, List.foldl_nil, e2]
  simp only [TState.step, TState.call, List.getElem?_set_ne (Ne.symm hjk), List.getElem?_set_self hj, ha]
  refine ⟨{ loc := loc, sys := Sys.step { sj.sys with target := a.data } (.setTarget v) }, { sk with loc := loc }, ?_, ?_, rfl, rfl, ?_⟩
  · rw [List.getElem?_set_self (by simpa using hj)]
  · rw [List.getElem?_set_ne hjk, List.getElem?_set_self (by simpa using hk)]
  · rw [List.getElem?_set_self hloc]; rfl

namespace ExTargetArrays

/-- `sample_range` is not called in the example. -/
def rng : Nat → ℚ → ℚ → List ℤ := fun L a _ => List.replicate L ⌊a⌋

/-- Two new samplers with three levels, and an array `n = np.array([4, 2, 1])` of the user at place 2. -/
def two : TState Nat := (TState.start [Sys.fresh Nat 3, Sys.fresh Nat 3]).step rng (.make true [4, 2, 1])

/-- Both samplers are given `n`; the first is told to reach 9 samples on level 0; then the second schedules its samples. -/
def shared : List (TOp Nat) := [.init 0 (.array 2), .init 1 (.array 2), .call 0 (.setTarget [9, 0, 0]), .call 1 .schedule]

/-- The same with a copy of `n` for the second one. -/
def copied : List (TOp Nat) :=
  [.make true [4, 2, 1], .init 0 (.array 2), .make true [4, 2, 1], .init 1 (.array 3), .call 0 (.setTarget [19 / 2, 0, 0]), .call 0 .schedule, .call 1 .schedule]

/-- The numbers of samples scheduled by the samplers. -/
def scheduled (st : TState Nat) : List (List Nat) := st.samplers.map fun s => s.sys.nSched

/-- The second sampler schedules 9 samples on level 0 although it was asked for 4, and `n[0]` is 9. -/
theorem C140_counterexample : scheduled (two.run rng shared) = [[0, 0, 0], [9, 2, 1]] ∧ (two.run rng shared).heap[2]? = some ⟨true, [9, 2, 1]⟩ := by
  decide +kernel

/-- The hypotheses of `C140_own_numbers_partial` hold for `copied`, ... -/
example : (TState.start [Sys.fresh Nat 3, Sys.fresh Nat 3]).Unshared rng copied := by
  refine ⟨trivial, Or.inr ?_, trivial, Or.inr ?_, trivial, trivial, trivial, trivial⟩
  · intro j s hj hs hl
    have : ∀ x ∈ ((TState.start [Sys.fresh Nat 3, Sys.fresh Nat 3]).step rng (.make true [4, 2, 1])).samplers, x.loc ≠ 2 := by decide +kernel
    exact this s (List.mem_of_getElem? hs) hl
  · intro j s hj hs hl
    have : ∀ x ∈ ((TState.start [Sys.fresh Nat 3, Sys.fresh Nat 3]).run rng (copied.take 3)).samplers, x.loc ≠ 3 := by decide +kernel
    exact this s (List.mem_of_getElem? hs) hl

/-- ... and then 9 and 4 samples are scheduled on level 0 (the fraction of 19/2 is dropped by the array of integers). -/
example : scheduled ((TState.start [Sys.fresh Nat 3, Sys.fresh Nat 3]).run rng copied) = [[9, 2, 1], [4, 2, 1]] := by decide +kernel

/-- Two samplers and `n = np.array([5, 3])` at place 2. -/
def short : TState Nat := (TState.start [Sys.fresh Nat 3, Sys.fresh Nat 3]).step rng (.make true [5, 3])

/-- The hypotheses of `C140_array_kept_partial` hold when an array with two numbers is passed to both samplers. -/
example : 2 < short.heap.length ∧ (∀ s ∈ short.samplers, s.loc ≠ 2) ∧
    short.NotPassed rng 2 [.init 0 (.array 2), .init 1 (.array 2), .call 0 (.setTarget [9, 9, 9]), .call 0 .schedule] := by
  refine ⟨by decide +kernel, by decide +kernel, fun _ => ⟨⟨true, [5, 3]⟩, by decide +kernel, Or.inr rfl⟩, fun _ => ⟨⟨true, [5, 3]⟩, by decide +kernel, Or.inr rfl⟩,
    trivial, trivial, trivial⟩

end ExTargetArrays

end MLMC
