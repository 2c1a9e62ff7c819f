import Verif.Spec.ProgramDirs
import Verif.Proofs.Program
import Verif.Props.Pool
/-! Helper lemmas: directories during a program. -/
namespace MLMC
variable {Cfg K C : Type}

theorem get?_erase_ne {κ α : Type} [DecidableEq κ] (d : Dict κ α) {k j : κ} (h : j ≠ k) : Dict.get? (Dict.erase d k) j = Dict.get? d j := by
  induction d with
  | nil => rfl
  | cons e d ih =>
    unfold Dict.erase at ih ⊢
    rw [List.filter_cons]
    by_cases he : e.1 = k
    · rw [if_neg (by simpa using he), ih]
      show _ = if e.1 = j then some e.2 else Dict.get? d j
      rw [if_neg (by rw [he]; exact fun h' => h h'.symm)]
    · rw [if_pos (by simpa using he)]
      show (if e.1 = j then some e.2 else Dict.get? (d.filter fun e => decide (e.1 ≠ k)) j) = if e.1 = j then some e.2 else Dict.get? d j
      rw [ih]

theorem keepSuccessful_ne (hasDir : Bool) {id x : SampleId} (d : Dirs C) (h : x ≠ id) : (d.keepSuccessful hasDir id).at x = d.at x := by
  unfold Dirs.keepSuccessful
  split
  · simp only [Dirs.at, Dict.get?_set_ne _ _ h]
  · rfl

theorem keepFailed_ne {id x : SampleId} (d : Dirs C) (h : x ≠ id) : (d.keepFailed id).at x = d.at x := by
  unfold Dirs.keepFailed
  split
  · simp only [Dirs.at, Dict.get?_set_ne _ _ h]
  · rfl

theorem remove_ne {id x : SampleId} (d : Dirs C) (h : x ≠ id) : (d.remove id).at x = d.at x := by
  simp only [Dirs.at, Dirs.remove, get?_erase_ne _ h]

theorem moveRm_ne (hasDir ws : Bool) {id x : SampleId} (d : Dirs C) (h : x ≠ id) : (d.moveSuccessfulRm hasDir ws id).1.at x = d.at x := by
  unfold Dirs.moveSuccessfulRm
  split
  · rfl
  · simp only
    split
    · rw [remove_ne _ h]
      split
      · exact keepSuccessful_ne _ _ h
      · rfl
    · split
      · exact keepSuccessful_ne _ _ h
      · rfl

theorem processResult_dirs (p : Pool K C) (sim : PoolSim Cfg K C) (r : Calc K) :
    (p.processResult sim r).1.debug = p.debug ∧ (p.processResult sim r).1.hasDir = p.hasDir ∧
    ∀ x, x ≠ r.id → (p.processResult sim r).1.dirs.at x = p.dirs.at x := by
  unfold Pool.processResult
  simp only
  split
  · split
    · exact ⟨rfl, rfl, fun x _ => rfl⟩
    · exact ⟨rfl, rfl, fun x h => moveRm_ne _ _ _ h⟩
  · exact ⟨rfl, rfl, fun x _ => rfl⟩
  · refine ⟨rfl, rfl, fun x h => ?_⟩
    simp only
    split
    · rw [remove_ne _ h, keepFailed_ne _ h]
    · rfl

theorem schedule_dirs (md5 : SampleId → List UInt8) (p : Pool K C) (sim : PoolSim Cfg K C) (i : Nat) (dur : ℚ) (hf : sim.workspace = true → sim.filesOk = true) :
    let q := (p.schedule md5 sim (sampleTag sim.level i) dur).1
    q.debug = p.debug ∧ q.hasDir = p.hasDir ∧ (∀ x, x ≠ sampleTag sim.level i → q.dirs.at x = p.dirs.at x) ∧
    ((p.dirs.at (sampleTag sim.level i) = (none, none, none) ∨ p.dirs.at (sampleTag sim.level i) = expectedDirs md5 p.debug p.hasDir sim i) →
      q.dirs.at (sampleTag sim.level i) = expectedDirs md5 p.debug p.hasDir sim i) := by
  intro q
  have hid : (calculateSample md5 sim (sampleTag sim.level i) none dur).id = sampleTag sim.level i :=
    (C11_success_iff_well_formed md5 sim (sampleTag sim.level i) none dur).2.2
  have hc : ¬ (sim.workspace = true ∧ ¬ sim.filesOk = true) := fun h => h.2 (hf h.1)
  have hq : q = (Pool.processResult { p with nRunning := p.nRunning + 1, dirs := if sim.workspace = true then
      { p.dirs with output := Dict.set p.dirs.output (sampleTag sim.level i) (sim.files sim.cfg (computeSeed md5 (sampleTag sim.level i))) } else p.dirs }
      sim (calculateSample md5 sim (sampleTag sim.level i) none dur)).1 := by
    show (p.schedule md5 sim (sampleTag sim.level i) dur).1 = _
    simp only [Pool.schedule, if_neg hc]
  obtain ⟨h1, h2, h3⟩ := processResult_dirs { p with nRunning := p.nRunning + 1, dirs := if sim.workspace = true then
      { p.dirs with output := Dict.set p.dirs.output (sampleTag sim.level i) (sim.files sim.cfg (computeSeed md5 (sampleTag sim.level i))) } else p.dirs }
      sim (calculateSample md5 sim (sampleTag sim.level i) none dur)
  rw [← hq] at h1 h2 h3
  refine ⟨h1, h2, fun x hx => ?_, fun hprev => ?_⟩
  · rw [h3 x (by rw [hid]; exact hx)]
    simp only
    split
    · simp only [Dirs.at, Dict.get?_set_ne _ _ hx]
    · rfl
  · by_cases hw : sim.workspace = true
    · obtain ⟨g1, g2, g3⟩ := C13_directories_by_last_digits md5 p sim i dur hw (hf hw)
      have hf3 : ∀ {a b c : Option C} {x : Dirs C}, x.at (sampleTag sim.level i) = (a, b, c) →
          Dict.get? x.output (sampleTag sim.level i) = a ∧ Dict.get? x.failed (sampleTag sim.level i) = b ∧ Dict.get? x.several (sampleTag sim.level i) = c := by
        intro a b c x h; simpa [Dirs.at] using h
      unfold expectedDirs at hprev ⊢
      simp only [hw, Bool.true_eq_false, if_false] at hprev ⊢
      by_cases hg : WellFormed sim.fmt (outcome md5 (sampleTag sim.level i) sim)
      · simp only [hg, if_true] at hprev ⊢
        cases hdb : p.debug with
        | true =>
          simp only [hdb, if_true] at hprev ⊢
          obtain ⟨a1, a2, a3⟩ := g2 hg hdb
          have hb : Dict.get? p.dirs.failed (sampleTag sim.level i) = none ∧ Dict.get? p.dirs.several (sampleTag sim.level i) = none := by
            rcases hprev with h | h <;> exact (hf3 h).2
          simp only [Dirs.at]
          rw [show Dict.get? q.dirs.output _ = _ from a1, show q.dirs.several = _ from a2, show q.dirs.failed = _ from a3, hb.1, hb.2]
        | false =>
          simp only [hdb, Bool.false_eq_true, if_false] at hprev ⊢
          obtain ⟨a1, a2, a3, a4⟩ := g1 hg hdb
          have hb : Dict.get? p.dirs.failed (sampleTag sim.level i) = none := by
            rcases hprev with h | h
            · exact (hf3 h).2.1
            · split at h <;> exact (hf3 h).2.1
          simp only [Dirs.at]
          rw [show Dict.get? q.dirs.output _ = _ from a1, show q.dirs.failed = _ from a2, hb]
          by_cases h5 : p.hasDir = true ∧ i % 10 ^ 7 < 5
          · rw [if_pos h5, show Dict.get? q.dirs.several _ = _ from a3 h5.1 h5.2]
          · rw [if_neg h5, show q.dirs.several = _ from a4 h5]
            rw [if_neg h5] at hprev
            rw [show Dict.get? p.dirs.several _ = none from by rcases hprev with h | h <;> exact (hf3 h).2.2]
      · simp only [hg, if_false] at hprev ⊢
        obtain ⟨a1, a2, a3⟩ := g3 hg
        have hb : Dict.get? p.dirs.several (sampleTag sim.level i) = none := by rcases hprev with h | h <;> exact (hf3 h).2.2
        simp only [Dirs.at]
        rw [show Dict.get? q.dirs.output _ = _ from a2, show Dict.get? q.dirs.failed _ = _ from a1, show q.dirs.several = _ from a3, hb]
    · have hw' : sim.workspace = false := by simpa using hw
      have hexp : expectedDirs md5 p.debug p.hasDir sim i = (none, none, none) := by unfold expectedDirs; simp [hw']
      rw [hexp] at hprev ⊢
      have hp : p.dirs.at (sampleTag sim.level i) = (none, none, none) := by rcases hprev with h | h <;> exact h
      have hm : ∀ (d : Dirs C) (x : Bool), (d.moveSuccessfulRm x false (sampleTag sim.level i)).1 = d := by
        intro d x
        unfold Dirs.moveSuccessfulRm
        split
        · rfl
        · simp
      rw [hq]
      unfold Pool.processResult
      simp only [hw', Bool.false_eq_true, if_false]
      split
      · split
        · exact hp
        · simp only [hid, hm]; exact hp
      · exact hp
      · exact hp

/-- Directories between calls. -/
structure DirInv (env : ProgEnv Cfg K C) (debug hasDir : Bool) (p : Prog K C) : Prop where
  dbg : p.pool.debug = debug
  dir : p.pool.hasDir = hasDir
  here : ∀ (l k i : Nat) sim, env.sims[l]? = some sim → p.sys.nSched[l]? = some k → i < k → p.pool.dirs.at (sampleTag l i) = expectedDirs env.md5 debug hasDir sim i
  other : ∀ x, (∀ l k i, p.sys.nSched[l]? = some k → i < k → x ≠ sampleTag l i) → p.pool.dirs.at x = (none, none, none)

theorem dir_act {env : ProgEnv Cfg K C} (he : env.Proper) {debug hasDir : Bool} {p q : Prog K C} (h : DirInv env debug hasDir p) (a : SchedAct)
    (hq : p.act env a = (q, none)) : DirInv env debug hasDir q := by
  cases a with
  | begin l => cases hq; exact ⟨h.dbg, h.dir, h.here, h.other⟩
  | save l => cases hq; exact ⟨h.dbg, h.dir, h.here, h.other⟩
  | hand l =>
    simp only [Prog.act] at hq
    split at hq
    · rename_i k sim hk hs
      split at hq
      · cases hq
      · injection hq with hq
        subst hq
        have hl := he.level l sim hs
        have hf := he.files sim (List.mem_of_getElem? hs)
        obtain ⟨g1, g2, g3, g4⟩ := schedule_dirs env.md5 p.pool sim k (env.dur (p.sys.handed.length + p.sys.renewed.length)) hf
        rw [hl] at g1 g2 g3 g4
        have hnone : p.pool.dirs.at (sampleTag l k) = (none, none, none) := by
          refine h.other _ fun l' k' i' h1 h2 h3 => ?_
          obtain ⟨rfl, rfl⟩ := sampleTag_injective h3
          rw [hk] at h1; injection h1 with h1; omega
        have hlt : l < p.sys.nSched.length := (List.getElem?_eq_some_iff.1 hk).1
        have hns : ((SchedAct.hand l).apply p.sys).nSched = p.sys.nSched.set l (k + 1) := by simp only [SchedAct.apply, hk]
        refine ⟨g1.trans h.dbg, g2.trans h.dir, fun l' k' i' sim' h1 h2 h3 => ?_, fun x hx => ?_⟩
        · simp only [hns] at h2
          by_cases e : l' = l ∧ i' = k
          · obtain ⟨rfl, rfl⟩ := e
            rw [hs] at h1; injection h1 with h1; subst h1
            rw [← h.dbg, ← h.dir]
            exact g4 (.inl hnone)
          · have hne : sampleTag l' i' ≠ sampleTag l k := fun e' => e (sampleTag_injective e')
            rw [show (Prog.mk _ _ : Prog K C).pool.dirs.at (sampleTag l' i') = _ from g3 _ hne]
            by_cases el : l' = l
            · subst el
              rw [List.getElem?_set_self hlt] at h2
              injection h2 with h2
              exact h.here l' k i' sim' h1 hk (by have : i' ≠ k := fun e' => e ⟨rfl, e'⟩; omega)
            · rw [List.getElem?_set_ne (fun e' => el e'.symm)] at h2
              exact h.here l' k' i' sim' h1 h2 h3
        · simp only [hns] at hx
          have hne : x ≠ sampleTag l k := hx l (k + 1) k (List.getElem?_set_self hlt) (by omega)
          rw [show (Prog.mk _ _ : Prog K C).pool.dirs.at x = _ from g3 _ hne]
          refine h.other x fun l' k' i' h1 h2 => ?_
          by_cases el : l' = l
          · subst el
            rw [hk] at h1; injection h1 with h1
            exact hx l' (k + 1) i' (List.getElem?_set_self hlt) (by omega)
          · exact hx l' k' i' (by rw [List.getElem?_set_ne (fun e' => el e'.symm)]; exact h1) h2
    · cases hq

theorem dir_acts {env : ProgEnv Cfg K C} (he : env.Proper) {debug hasDir : Bool} : ∀ (as : List SchedAct) {p q : Prog K C}, DirInv env debug hasDir p →
    p.acts env as = (q, none) → DirInv env debug hasDir q
  | [], p, q, h, hq => by cases hq; exact h
  | a :: as, p, q, h, hq => by
    rw [Prog.acts] at hq
    split at hq
    · rename_i p' hp'
      exact dir_acts he as (dir_act he h a hp') hq
    · cases hq

theorem dir_collect {env : ProgEnv Cfg K C} {debug hasDir : Bool} {p : Prog K C} (h : DirInv env debug hasDir p) : DirInv env debug hasDir p.collect.2 :=
  ⟨h.dbg, h.dir, h.here, h.other⟩

theorem dir_wait {env : ProgEnv Cfg K C} {debug hasDir : Bool} (timeout : ℚ) : ∀ (clock : List ℚ) {p q : Prog K C}, DirInv env debug hasDir p → p.wait timeout clock = some q →
    DirInv env debug hasDir q
  | [], p, q, _, hq => by cases hq
  | t :: ts, p, q, h, hq => by
    rw [Prog.wait] at hq
    split at hq
    · injection hq with hq; subst hq; exact dir_collect h
    · split at hq
      · exact dir_wait timeout ts (dir_collect h) hq
      · injection hq with hq; subst hq; exact dir_collect h

theorem dir_ask {env : ProgEnv Cfg K C} {debug hasDir : Bool} {p q : Prog K C} (h : DirInv env debug hasDir p) (timeout : Option ℚ) (clock : List ℚ) (hq : p.ask timeout clock = some q) :
    DirInv env debug hasDir q := by
  cases timeout with
  | none => exact dir_wait 0 clock h hq
  | some t =>
    simp only [Prog.ask] at hq
    split at hq
    · injection hq with hq; subst hq; exact h
    · exact dir_wait t clock h hq

theorem dir_renewLoop {env : ProgEnv Cfg K C} (he : env.Proper) {debug hasDir : Bool} : ∀ (L : List (Nat × SampleId)) {p q : Prog K C}, DirInv env debug hasDir p →
    (∀ e ∈ L, ∃ i k, e.2 = sampleTag e.1 i ∧ p.sys.nSched[e.1]? = some k ∧ i < k) → p.renewLoop env L = (q, none) → DirInv env debug hasDir q
  | [], p, q, h, _, hq => by cases hq; exact h
  | (l, id) :: L, p, q, h, hL, hq => by
    rw [Prog.renewLoop] at hq
    split at hq
    · cases hq
    · rename_i sim hs
      simp only at hq
      split at hq
      · cases hq
      · have hl := he.level l sim hs
        have hf := he.files sim (List.mem_of_getElem? hs)
        obtain ⟨i, k, e1, e2, e3⟩ := hL (l, id) (by simp)
        simp only at e1 e2
        obtain ⟨g1, g2, g3, g4⟩ := schedule_dirs env.md5 p.pool sim i (env.dur (p.sys.handed.length + p.sys.renewed.length)) hf
        rw [hl, ← e1] at g1 g2 g3 g4
        refine dir_renewLoop he L (p := ⟨{ p.sys with renewed := p.sys.renewed ++ [(l, id)] }, _⟩) ⟨g1.trans h.dbg, g2.trans h.dir, fun l' k' i' sim' h1 h2 h3 => ?_, fun x hx => ?_⟩
          (fun e he' => hL e (by simp [he'])) hq
        · by_cases e : sampleTag l' i' = id
          · rw [e1] at e
            obtain ⟨rfl, rfl⟩ := sampleTag_injective e
            rw [hs] at h1; injection h1 with h1; subst h1
            rw [← e1, ← h.dbg, ← h.dir]
            refine g4 (.inr ?_)
            rw [e1, h.dbg, h.dir]
            exact h.here l' k i' sim hs e2 e3
          · rw [show (Prog.mk _ _ : Prog K C).pool.dirs.at (sampleTag l' i') = _ from g3 _ e]
            exact h.here l' k' i' sim' h1 h2 h3
        · rw [show (Prog.mk _ _ : Prog K C).pool.dirs.at x = _ from g3 _ (by rw [e1]; exact hx l k i e2 e3)]
          exact h.other x hx

theorem dir_renew {env : ProgEnv Cfg K C} (he : env.Proper) {debug hasDir : Bool} {p q : Prog K C} {sops} (hi : ProgInv env [] p sops) (h : DirInv env debug hasDir p)
    (hq : p.renew env = (q, none)) : DirInv env debug hasDir q := by
  have hfs : hdfFailedSamples p.sys.store = .ok ((List.range env.sims.length).map fun l => (savedFailed sops l).map (·.1)) := by
    rw [hi.store]; exact failed_fresh _ _
  unfold Prog.renew at hq
  rw [hfs] at hq
  simp only at hq
  split at hq
  · cases hq
  · rename_i q' hq'
    injection hq with hq
    subst hq
    have := dir_renewLoop he _ h (by
      rintro ⟨l, id⟩ hm
      obtain ⟨hl, hid⟩ := mem_levelPairs _ _ _ _ hm
      have hl' : l < p.sys.nSched.length := by rw [hi.len]; exact hl
      have hb := hi.bad l _ _ (List.getElem?_eq_getElem hl') (List.getElem?_eq_getElem hl)
      have := (List.mem_filter.1 ((hb.mem_iff (a := id)).1 (List.mem_append_left _ hid))).1
      simp only [badSamples, List.mem_filter, List.mem_map, List.mem_range] at this
      obtain ⟨⟨i, h1, h2⟩, _⟩ := this
      rw [he.level l _ (List.getElem?_eq_getElem hl)] at h2
      exact ⟨i, _, h2.symm, List.getElem?_eq_getElem hl', h1⟩) hq'
    exact ⟨this.dbg, this.dir, this.here, this.other⟩

theorem dir_run {env : ProgEnv Cfg K C} (he : env.Proper) {debug hasDir : Bool} : ∀ (ops : List ProgOp) {w : Nat → Want} {p q : Prog K C}, ProgAt env [] w p → DirInv env debug hasDir p →
    (∀ o ∈ ops, o.Proper env.sims.length) → p.run env ops = some q → DirInv env debug hasDir q
  | [], w, p, q, _, h, _, hq => by cases hq; exact h
  | o :: ops, w, p, q, hp, h, ho, hq => by
    obtain ⟨r, h1, h2⟩ := progAt_step he hp o (ho o (by simp))
    rw [Prog.run, h1] at hq
    refine dir_run he ops h2 ?_ (fun o' h' => ho o' (by simp [h'])) hq
    cases o with
    | setInitial v => cases h1; exact ⟨h.dbg, h.dir, h.here, h.other⟩
    | setTarget v => simp only [Prog.step, Option.some.injEq, Prod.mk.injEq] at h1; rw [← h1.1]; exact ⟨h.dbg, h.dir, h.here, h.other⟩
    | ask timeout clock =>
      simp only [Prog.step, Option.map_eq_some_iff] at h1
      obtain ⟨r', h3, h4⟩ := h1
      cases h4
      exact dir_ask h timeout clock h3
    | schedule timeout clock =>
      simp only [Prog.step, Option.map_eq_some_iff] at h1
      obtain ⟨r', h3, h4⟩ := h1
      unfold Prog.scheduleSamples at h4
      split at h4
      · exact dir_acts he _ (dir_ask h timeout clock h3) h4
      · cases h4
    | renew =>
      obtain ⟨sops, hi⟩ := hp.inv
      simp only [Prog.step, Option.some.injEq] at h1
      exact dir_renew he hi h h1

end MLMC
