import Verif.Spec.ProgramRestart
import Verif.Proofs.Program
import Verif.Props.Storage
/-! Helper lemmas about several programs on one file. -/
namespace MLMC
variable {Cfg K C : Type}

theorem sublist_eq_filter {α β : Type} [DecidableEq β] (f : α → β) : ∀ {xs ys : List α}, xs.Sublist ys → (ys.map f).Nodup →
    xs = ys.filter fun y => f y ∈ xs.map f := by
  intro xs ys h
  induction h with
  | slnil => intro _; rfl
  | @cons xs ys a h ih =>
    intro hn
    simp only [List.map_cons, List.nodup_cons] at hn
    have : f a ∉ xs.map f := fun hm => hn.1 (h.map f |>.subset hm)
    rw [List.filter_cons_of_neg (by simpa using this)]
    exact ih hn.2
  | @cons_cons xs ys a h ih =>
    intro hn
    simp only [List.map_cons, List.nodup_cons] at hn
    rw [List.filter_cons_of_pos (by simp)]
    congr 1
    conv_lhs => rw [ih hn.2]
    apply List.filter_congr
    intro y hy
    have hne : f y ≠ f a := fun e => hn.1 (e ▸ List.mem_map_of_mem hy)
    simp [hne]

theorem good_id {md5 : SampleId → List UInt8} {sim : PoolSim Cfg K C} {k : Nat} {s} (h : s ∈ goodSamples md5 sim k) :
    (∃ i, i < k ∧ s.1 = sampleTag sim.level i) ∧ WellFormed sim.fmt (outcome md5 s.1 sim) := by
  obtain ⟨i, hi, h⟩ := List.mem_filterMap.1 h
  cases ho : outcome md5 (sampleTag sim.level i) sim with
  | raised m => simp [ho] at h
  | notPair m => simp [ho] at h
  | pair f c =>
    simp only [ho] at h
    split at h
    · rename_i hw
      injection h with h; subst h
      exact ⟨⟨i, by simpa using hi, rfl⟩, by simp only [ho]; exact hw⟩
    · simp at h

theorem good_ids (md5 : SampleId → List UInt8) (sim : PoolSim Cfg K C) (k : Nat) :
    ((goodSamples md5 sim k).map (·.1)).Sublist ((List.range k).map (sampleTag sim.level)) := by
  induction k with
  | zero => simp [goodSamples]
  | succ k ih =>
    rw [good_succ, List.range_succ, List.map_append, List.map_append]
    refine ih.append ?_
    unfold succEntry
    split
    · split <;> simp
    · simp

theorem tags_nodup (l k : Nat) : ((List.range k).map (sampleTag l)).Nodup :=
  (List.nodup_range).map fun a b h => (sampleTag_injective h).2

theorem good_nodup (md5 : SampleId → List UInt8) (sim : PoolSim Cfg K C) (k : Nat) : ((goodSamples md5 sim k).map (·.1)).Nodup :=
  (tags_nodup _ _).sublist (good_ids md5 sim k)

theorem bad_nodup (md5 : SampleId → List UInt8) (sim : PoolSim Cfg K C) (k : Nat) : (badSamples md5 sim k).Nodup :=
  (tags_nodup _ _).filter _

theorem good_mono (md5 : SampleId → List UInt8) (sim : PoolSim Cfg K C) {k k' : Nat} (h : k ≤ k') :
    (goodSamples md5 sim k).Sublist (goodSamples md5 sim k') := by
  obtain ⟨d, rfl⟩ := Nat.exists_eq_add_of_le h
  induction d with
  | zero => exact List.Sublist.refl _
  | succ d ih => rw [← Nat.add_assoc, good_succ]; exact (ih (by omega)).trans (List.sublist_append_left _ _)

theorem bad_mono (md5 : SampleId → List UInt8) (sim : PoolSim Cfg K C) {k k' : Nat} (h : k ≤ k') :
    (badSamples md5 sim k).Sublist (badSamples md5 sim k') := by
  obtain ⟨d, rfl⟩ := Nat.exists_eq_add_of_le h
  induction d with
  | zero => exact List.Sublist.refl _
  | succ d ih => rw [← Nat.add_assoc, bad_succ]; exact (ih (by omega)).trans (List.sublist_append_left _ _)

/-- What holds of the file between programs: `k` samples are listed on each level, what is stored are results of some of them. -/
structure FileOk (env : ProgEnv Cfg K C) (sops : List (StoreOp (ResPart K × ResPart K))) (k : Nat → Nat)
    (g : HdfLevels (ResPart K × ResPart K)) : Prop where
  store : g = hdfRun (hdfFresh _ env.sims.length) sops
  sched : ∀ l, l < env.sims.length → savedSched sops l = (List.range (k l)).map (sampleTag l)
  good : ∀ (l : Nat) sim, env.sims[l]? = some sim → (savedSucc sops l).Sublist (goodSamples env.md5 sim (k l))
  bad : ∀ (l : Nat) sim, env.sims[l]? = some sim → ((savedFailed sops l).map (·.1)).Subperm (badSamples env.md5 sim (k l))

/-- The scheduled samples without result. -/
def openIds (env : ProgEnv Cfg K C) (sops : List (StoreOp (ResPart K × ResPart K))) : List SampleId :=
  (List.range env.sims.length).flatMap fun l => (savedSched sops l).filter fun id => decide (OpenAt sops id l)

theorem mem_openIds {env : ProgEnv Cfg K C} {sops : List (StoreOp (ResPart K × ResPart K))} {id : SampleId} :
    id ∈ openIds env sops ↔ ∃ l, l < env.sims.length ∧ OpenAt sops id l := by
  simp only [openIds, List.mem_flatMap, List.mem_range, List.mem_filter, decide_eq_true_eq]
  constructor
  · rintro ⟨l, h1, _, h2⟩; exact ⟨l, h1, h2⟩
  · rintro ⟨l, h1, h2⟩; exact ⟨l, h1, h2.1, h2⟩

theorem mem_unfinished {env : ProgEnv Cfg K C} {sops k g} (h : FileOk env sops k g) :
    ∃ r, hdfUnfinishedIds g = .ok r ∧ ∀ id, id ∈ r ↔ id ∈ openIds env sops := by
  rw [h.store]
  obtain ⟨r, r1, r2, _⟩ := C18_unfinished_ids env.sims.length sops
  exact ⟨r, r1, fun id => by rw [r2, mem_openIds]⟩

/-- A tag of level `l` is open iff it is open on that level. -/
theorem FileOk.open_tag {env : ProgEnv Cfg K C} {sops k g} (h : FileOk env sops k g) {l i : Nat} (hl : l < env.sims.length) :
    sampleTag l i ∈ openIds env sops ↔ OpenAt sops (sampleTag l i) l := by
  rw [mem_openIds]
  constructor
  · rintro ⟨l', h1, h2⟩
    have h3 := h2.1
    rw [h.sched l' h1] at h3
    obtain ⟨j, _, e⟩ := List.mem_map.1 h3
    have e1 := (sampleTag_injective e).1
    subst e1
    exact h2
  · intro h2; exact ⟨l, hl, h2⟩

theorem FileOk.good_filter {env : ProgEnv Cfg K C} (he : env.Proper) {sops k g} (h : FileOk env sops k g) (l : Nat) (sim : PoolSim Cfg K C) (hs : env.sims[l]? = some sim) :
    savedSucc sops l = (goodSamples env.md5 sim (k l)).filter fun s => s.1 ∉ openIds env sops := by
  have hl := (List.getElem?_eq_some_iff.1 hs).1
  have hlev := he.level l sim hs
  conv_lhs => rw [sublist_eq_filter (·.1) (h.good l sim hs) (good_nodup _ _ _)]
  apply List.filter_congr
  intro s hm
  obtain ⟨⟨i, hi, hid⟩, hw⟩ := good_id hm
  rw [hlev] at hid
  simp only [decide_eq_decide, hid, h.open_tag hl]
  have hsc : sampleTag l i ∈ savedSched sops l := by
    rw [h.sched l hl]; exact List.mem_map_of_mem (List.mem_range.2 hi)
  have hnf : sampleTag l i ∉ (savedFailed sops l).map (·.1) := by
    intro hf
    have := (h.bad l sim hs).subset hf
    rw [hid] at hw
    exact (mem_bad this).2 hw
  unfold OpenAt
  tauto

theorem FileOk.bad_filter {env : ProgEnv Cfg K C} (he : env.Proper) {sops k g} (h : FileOk env sops k g) (l : Nat) (sim : PoolSim Cfg K C) (hs : env.sims[l]? = some sim) :
    ((savedFailed sops l).map (·.1)).Perm ((badSamples env.md5 sim (k l)).filter fun id => id ∉ openIds env sops) := by
  have hl := (List.getElem?_eq_some_iff.1 hs).1
  have hlev := he.level l sim hs
  have hn : ((savedFailed sops l).map (·.1)).Nodup := by
    obtain ⟨l', hp, hsub⟩ := h.bad l sim hs
    exact hp.nodup_iff.1 ((bad_nodup _ _ _).sublist hsub)
  rw [List.perm_ext_iff_of_nodup hn ((bad_nodup _ _ _).filter _)]
  intro id
  rw [List.mem_filter]
  constructor
  · intro hf
    have hb := (h.bad l sim hs).subset hf
    obtain ⟨⟨i, rfl⟩, _⟩ := mem_bad hb
    refine ⟨hb, ?_⟩
    rw [hlev] at hf ⊢
    simp only [decide_eq_true_eq, h.open_tag hl, OpenAt]
    tauto
  · rintro ⟨hb, ho⟩
    have hb' := hb
    simp only [badSamples, List.mem_filter, hlev] at hb'
    obtain ⟨i, _, rfl⟩ := List.mem_map.1 hb'.1
    have hsc : sampleTag l i ∈ savedSched sops l := by rw [h.sched l hl]; exact hb'.1
    have hns : sampleTag l i ∉ (savedSucc sops l).map (·.1) := by
      intro hm
      obtain ⟨s, hs1, hs2⟩ := List.mem_map.1 hm
      have := (good_id ((h.good l sim hs).subset hs1)).2
      rw [hs2] at this
      exact (mem_bad hb).2 this
    simp only [decide_eq_true_eq, h.open_tag hl, OpenAt] at ho
    tauto

theorem reopen_at {env : ProgEnv Cfg K C} (he : env.Proper) {sops k g} (h : FileOk env sops k g) (s : Session C) :
    ProgAt env (openIds env sops) (fun l => ⟨0, k l⟩) (Prog.reopen g s) := by
  have hlen : g.length = env.sims.length := by rw [h.store, hdfRun_length]; simp [hdfFresh]
  have hsch : ∀ l, l < env.sims.length → (schedOf g)[l]? = some ((List.range (k l)).map (sampleTag l)) := by
    intro l hl
    obtain ⟨y, y1, y2, _⟩ := hdf_fresh_spec env.sims.length l hl sops
    rw [schedOf, List.getElem?_map, h.store, y1, Option.map_some, y2, h.sched l hl]
  have hn : ∀ l, l < env.sims.length → (Prog.reopen g s : Prog K C).sys.nSched[l]? = some (k l) := by
    intro l hl
    have := hsch l hl
    simp only [schedOf, List.getElem?_map] at this
    simp only [Prog.reopen, Sys.construct, hdfLoadScheduled, List.map_map, List.getElem?_map]
    cases hg : g[l]? with
    | none => simp [hg] at this
    | some x => simp only [hg, Option.map_some, Option.some.injEq] at this; simp [this]
  have hnl : (Prog.reopen g s : Prog K C).sys.nSched.length = env.sims.length := by
    simp [Prog.reopen, Sys.construct, hdfLoadScheduled, hlen]
  have hst : (Prog.reopen g s : Prog K C).sys.store = g := rfl
  refine ⟨⟨sops, create_inv _ _ _, hnl, h.store, ?_, ?_, ?_⟩, ⟨hnl, ?_, ?_, ?_⟩, ?_, ?_⟩
  · intro l k' sim h1 h2
    rw [hn l (List.getElem?_eq_some_iff.1 h2).1] at h1
    injection h1 with h1; subst h1
    show savedSucc sops l ++ [] = _
    rw [List.append_nil]; exact h.good_filter he l sim h2
  · intro l k' sim h1 h2
    rw [hn l (List.getElem?_eq_some_iff.1 h2).1] at h1
    injection h1 with h1; subst h1
    show ((savedFailed sops l).map (·.1) ++ ([] : List (SampleId × Msg)).map (·.1)).Perm _
    rw [List.map_nil]
    rw [List.append_nil]; exact h.bad_filter he l sim h2
  · intro l k' i h1 hi
    have hl : l < env.sims.length := by rw [← hnl]; exact (List.getElem?_eq_some_iff.1 h1).1
    rw [hn l hl] at h1; injection h1 with h1; subst h1
    rw [h.open_tag hl, OpenAt, h.sched l hl]
    rintro ⟨hm, _⟩
    obtain ⟨j, hj, e⟩ := List.mem_map.1 hm
    have := (sampleTag_injective e).2
    rw [List.mem_range] at hj; omega
  · intro l
    rcases Nat.lt_or_ge l env.sims.length with hl | hl
    · rw [hst, hsch l hl, hn l hl]; simp [levelTags, List.range_eq_range']
    · rw [List.getElem?_eq_none (by rw [hst, schedOf, List.length_map, hlen]; exact hl), List.getElem?_eq_none (by rw [hnl]; exact hl)]; rfl
  · intro p hp; simp [Prog.reopen, Sys.construct] at hp
  · simp [Prog.reopen, Sys.construct]
  · simp [Prog.reopen, Sys.construct, hlen]
  · intro l hl
    exact ⟨by simp [Prog.reopen, Sys.construct, hlen, hl], hn l hl⟩

/-- What a program leaves. -/
theorem file_of_at {env : ProgEnv Cfg K C} {lost : List SampleId} {w : Nat → Want} {p : Prog K C} (h : ProgAt env lost w p) {sops} (hi : ProgInv env lost p sops) :
    FileOk env sops (fun l => (w l).count) p.sys.store := by
  refine ⟨hi.store, ?_, ?_, ?_⟩
  · intro l hl
    obtain ⟨y, y1, y2, _⟩ := hdf_fresh_spec env.sims.length l hl sops
    have := h.sched.sched l
    rw [(h.want l hl).2, schedOf, List.getElem?_map, hi.store, y1] at this
    simp only [Option.map_some, Option.some.injEq, levelTags] at this
    rw [← y2, this, List.range_eq_range']
  · intro l sim hs
    have := hi.good l _ sim (h.want l (List.getElem?_eq_some_iff.1 hs).1).2 hs
    exact ((this ▸ List.sublist_append_left _ _ : (savedSucc sops l).Sublist _)).trans List.filter_sublist
  · intro l sim hs
    have := hi.bad l _ sim (h.want l (List.getElem?_eq_some_iff.1 hs).1).2 hs
    exact ((List.sublist_append_left _ _).subperm.trans this.subperm).trans List.filter_sublist.subperm

theorem runActs_store_begin {V : Type} (n l : Nat) (s : Sys V) (j : Nat) :
    (runActs ((SchedAct.begin l :: List.replicate n (.hand l)).take j) s).store = s.store := by
  have : ∀ (as : List SchedAct) (s : Sys V), (∀ a ∈ as, ∀ l, a ≠ .save l) → (runActs as s).store = s.store := by
    intro as
    induction as with
    | nil => intro s _; rfl
    | cons a as ih =>
      intro s ha
      rw [runActs_cons, ih _ (fun b hb => ha b (by simp [hb]))]
      cases a with
      | begin l => rfl
      | hand l => simp only [SchedAct.apply]; split <;> rfl
      | save l => exact absurd rfl (ha _ (by simp) l)
  apply this
  intro a ha l' e
  have := List.mem_of_mem_take ha
  simp only [List.mem_cons, List.mem_replicate] at this
  rcases this with rfl | ⟨_, rfl⟩ <;> cases e

/-- Killed in the loop: on each level all samples of the call are listed, or none; nothing else changes. -/
theorem runActs_take (plan : List Nat) {V : Type} : ∀ (l0 : Nat) (s : Sys V) (j : Nat), l0 + plan.length ≤ s.nSched.length → ∀ l : Nat, ∃ b : Bool,
    (runActs ((schedActs l0 plan).take j) s).store[l]? = (s.store[l]?).map fun x =>
      { x with scheduled := x.scheduled ++ if b then levelTags l ((s.nSched[l]?).getD 0) (planAt l0 plan l) else [] } := by
  induction plan with
  | nil => intro l0 s j _ l; exact ⟨false, by simp [schedActs, runActs]⟩
  | cons n plan ih =>
    intro l0 s j hlen l
    simp only [List.length_cons] at hlen
    have hk : s.nSched[l0]? = some s.nSched[l0] := List.getElem?_eq_getElem (by omega)
    rcases Nat.lt_or_ge j (n + 2) with hj | hj
    · refine ⟨false, ?_⟩
      have : (schedActs l0 (n :: plan)).take j = (SchedAct.begin l0 :: List.replicate n (.hand l0)).take j := by
        rw [schedActs, List.append_assoc, List.take_append_of_le_length (by simp; omega)]
      rw [this, runActs_store_begin]
      simp
    · have : (schedActs l0 (n :: plan)).take j = ((SchedAct.begin l0 :: List.replicate n (.hand l0)) ++ [.save l0]) ++ (schedActs (l0 + 1) plan).take (j - (n + 2)) := by
        rw [schedActs, List.take_append, List.take_of_length_le (by simp; omega)]
        simp
      rw [this, runActs_append, runActs_level l0 n s _ hk]
      obtain ⟨b, hb⟩ := ih (l0 + 1) { s with
        handed := s.handed ++ (levelTags l0 s.nSched[l0] n).map (Prod.mk l0)
        nSched := s.nSched.set l0 (s.nSched[l0] + n)
        pending := levelTags l0 s.nSched[l0] n
        store := s.store.modify l0 fun x => { x with scheduled := x.scheduled ++ levelTags l0 s.nSched[l0] n } } (j - (n + 2)) (by simp; omega) l
      rw [hb]
      by_cases e : l0 = l
      · subst e
        refine ⟨true, ?_⟩
        have h0 : planAt (l0 + 1) plan l0 = 0 := by simp [planAt]
        have h1 : planAt l0 (n :: plan) l0 = n := by simp [planAt]
        rw [h0, h1]
        simp only [List.getElem?_modify, if_true, Option.map_map, hk, Option.getD_some]
        cases s.store[l0]? <;> simp [levelTags]
      · refine ⟨b, ?_⟩
        have h1 : planAt (l0 + 1) plan l = planAt l0 (n :: plan) l := by
          unfold planAt
          rcases Nat.lt_trichotomy l l0 with h | h | h
          · rw [if_pos (by omega), if_pos h]
          · exact absurd h.symm e
          · rw [if_neg (by omega), if_neg (by omega), show l - l0 = (l - (l0 + 1)) + 1 from by omega]; simp
        rw [h1]
        simp only [List.getElem?_modify, if_neg e, List.getElem?_set_ne e]
        simp

theorem ext_fst_snd {α β : Type} {xs ys : List (α × β)} (h1 : xs.map (·.1) = ys.map (·.1)) (h2 : xs.map (·.2) = ys.map (·.2)) : xs = ys := by
  rw [← List.zip_unzip xs, ← List.zip_unzip ys]
  simp only [List.unzip_eq_map] 
  rw [h1, h2]

theorem kill_file {env : ProgEnv Cfg K C} (he : env.Proper) {lost : List SampleId} {w : Nat → Want} {p : Prog K C} (h : ProgAt env lost w p) {sops} (hi : ProgInv env lost p sops) (j : Nat) :
    ∃ sops' k', FileOk env sops' k' (p.kill env j).sys.store ∧
      (∀ l, l < env.sims.length → k' l = (w l).count ∨ k' l = ((w l).step l (.schedule (some 0) [])).count) ∧
      (∀ l, l < env.sims.length → savedSucc sops' l = savedSucc sops l ∧ savedFailed sops' l = savedFailed sops l) := by
  have hl : p.sys.target.length = p.sys.nSched.length := by rw [h.tlen, hi.len]
  have hp : p.sys.plan.length = env.sims.length := by simp [Sys.plan, hl, hi.len]
  obtain ⟨q, s', h1, h2, h3⟩ := inv_acts he ((schedActs 0 p.sys.plan).take j) hi
    (fun l hm => by have := hand_mem_schedActs _ _ _ (List.mem_of_mem_take hm); omega)
  have hkill : (p.kill env j) = q := by simp only [Prog.kill, hl, if_true, h1]
  rw [hkill]
  have hF := file_of_at h hi
  have key : ∀ l : Nat, ∃ b : Bool, q.sys.store[l]? = (p.sys.store[l]?).map fun (x : LevelGroup (ResPart K × ResPart K)) =>
      { x with scheduled := x.scheduled ++ if b then levelTags l ((p.sys.nSched[l]?).getD 0) (planAt 0 p.sys.plan l) else [] } := by
    intro l
    rw [h2]
    exact runActs_take p.sys.plan 0 p.sys j (by rw [hp, hi.len]; omega) l
  choose b hb using key
  have hcmp : ∀ l, l < env.sims.length → savedSucc s' l = savedSucc sops l ∧ savedFailed s' l = savedFailed sops l ∧
      savedSched s' l = savedSched sops l ++ if b l then levelTags l ((p.sys.nSched[l]?).getD 0) (planAt 0 p.sys.plan l) else [] := by
    intro l hl
    obtain ⟨y, y1, y2, y3, y4, y5⟩ := hdf_fresh_spec env.sims.length l hl sops
    obtain ⟨z, z1, z2, z3, z4, z5⟩ := hdf_fresh_spec env.sims.length l hl s'
    have := hb l
    rw [h3.store, hi.store, y1, z1, Option.map_some] at this
    injection this with this
    subst this
    simp only at z2 z3 z4 z5
    refine ⟨?_, ?_, ?_⟩
    · apply ext_fst_snd
      · rw [← z3, y3]
      · rw [y4] at z4
        by_cases e1 : savedSucc sops l = [] <;> by_cases e2 : savedSucc s' l = [] <;> simp_all
    · rw [y5] at z5; exact (Option.some.inj z5).symm
    · rw [← z2, y2]
  have hk : ∀ l, l < env.sims.length → ((w l).step l (.schedule (some 0) [])).count = (w l).count + planAt 0 p.sys.plan l := by
    intro l hl
    have hpl : planAt 0 p.sys.plan l = (p.sys.plan[l]?).getD 0 := by simp [planAt]
    have hz : p.sys.plan[l]? = some (planCount (w l).target (w l).count) := by
      simp [Sys.plan, List.getElem?_zipWith, (h.want l hl).1, (h.want l hl).2]
    rw [hpl, hz]
    simp only [Want.step, Option.getD_some, add_planCount]
  refine ⟨s', fun l => if b l then ((w l).step l (.schedule (some 0) [])).count else (w l).count, ⟨h3.store, ?_, ?_, ?_⟩, ?_, ?_⟩
  · intro l hl
    rw [(hcmp l hl).2.2, hF.sched l hl, (h.want l hl).2]
    cases hbl : b l
    · simp
    · simp only [if_true, Option.getD_some, hk l hl, List.range_add, List.map_append, levelTags]
      congr 1
      rw [List.map_map, List.range'_eq_map_range, List.map_map]
  · intro l sim hs
    have hl := (List.getElem?_eq_some_iff.1 hs).1
    rw [(hcmp l hl).1]
    refine (hF.good l sim hs).trans (good_mono _ _ ?_)
    rw [hk l hl]; split <;> omega
  · intro l sim hs
    have hl := (List.getElem?_eq_some_iff.1 hs).1
    rw [(hcmp l hl).2.1]
    refine (hF.bad l sim hs).trans (bad_mono _ _ ?_).subperm
    rw [hk l hl]; split <;> omega
  · intro l _
    simp only
    cases b l
    · left; rfl
    · right; rfl
  · intro l hl
    exact ⟨(hcmp l hl).1, (hcmp l hl).2.1⟩

theorem want_count_mono (l : Nat) (ops : List ProgOp) : ∀ w : Want, w.count ≤ (ops.foldl (Want.step l) w).count := by
  induction ops with
  | nil => intro w; exact le_rfl
  | cons o ops ih =>
    intro w
    refine le_trans ?_ (ih _)
    cases o with
    | setTarget v => simp only [Want.step]; split <;> exact le_rfl
    | schedule t c => exact le_max_left _ _
    | _ => exact le_rfl

theorem levelCount_le (l : Nat) (ops : List ProgOp) (c : Nat) : c ≤ levelCount l ops c := want_count_mono l ops ⟨0, c⟩

theorem counts_le {l : Nat} {s : Session C} {c c' : Nat} (h : s.Counts l c c') : c ≤ c' := by
  rcases h with rfl | ⟨_, rfl⟩ <;> exact levelCount_le _ _ _

theorem session_file {env : ProgEnv Cfg K C} (he : env.Proper) {sops k g} (h : FileOk env sops k g) (s : Session C) (hs : s.Proper env.sims.length) :
    ∃ g' sops' k', s.run env g = some g' ∧ FileOk env sops' k' g' ∧ (∀ l, l < env.sims.length → s.Counts l (k l) (k' l)) ∧
      (∀ id ∈ openIds env sops, id ∈ openIds env sops') ∧ (s.Waits → ∀ id ∈ openIds env sops', id ∈ openIds env sops) := by
  obtain ⟨q, h1, h2⟩ := progAt_run he s.ops (reopen_at he h s) hs
  obtain ⟨sq, hq⟩ := h2.inv
  have mono : ∀ sops' k' g', FileOk env sops' k' g' → (∀ l, l < env.sims.length → k l ≤ k' l) →
      (∀ l, l < env.sims.length → savedSucc sops' l = savedSucc sq l ∧ savedFailed sops' l = savedFailed sq l) →
      ∀ id ∈ openIds env sops, id ∈ openIds env sops' := by
    intro sops' k' g' hF hk hss id hid
    obtain ⟨l, hl, ho⟩ := mem_openIds.1 hid
    have hsim : env.sims[l]? = some env.sims[l] := List.getElem?_eq_getElem hl
    refine mem_openIds.2 ⟨l, hl, ?_, ?_, ?_⟩
    · have := ho.1
      rw [h.sched l hl] at this
      rw [hF.sched l hl]
      obtain ⟨i, hi, rfl⟩ := List.mem_map.1 this
      have := hk l hl
      exact List.mem_map_of_mem (List.mem_range.2 (by have := List.mem_range.1 hi; omega))
    · rw [(hss l hl).1]
      intro hm
      obtain ⟨x, hx, rfl⟩ := List.mem_map.1 hm
      have := hq.good l _ _ (h2.want l hl).2 hsim
      have hx' : x ∈ (goodSamples env.md5 env.sims[l] _).filter fun s => s.1 ∉ openIds env sops := this ▸ List.mem_append_left _ hx
      simp only [List.mem_filter, decide_eq_true_eq] at hx'
      exact hx'.2 hid
    · rw [(hss l hl).2]
      intro hm
      have := (hq.bad l _ _ (h2.want l hl).2 hsim).subset (List.mem_append_left _ hm)
      simp only [List.mem_filter, decide_eq_true_eq] at this
      exact this.2 hid
  cases hkl : s.killed with
  | some j =>
    obtain ⟨s', k', f1, f2, f3⟩ := kill_file he h2 hq j
    have hc : ∀ l, l < env.sims.length → s.Counts l (k l) (k' l) := by
      intro l hl
      rcases f2 l hl with e | e
      · left; exact e
      · right
        refine ⟨by simp [hkl], ?_⟩
        rw [e, levelCount, List.foldl_append]; rfl
    refine ⟨_, s', k', by simp only [Session.run, h1, Option.map_some, hkl], f1, hc, mono _ _ _ f1 (fun l hl => counts_le (hc l hl)) f3, ?_⟩
    intro hw; rw [hw.1] at hkl; simp at hkl
  | none =>
    have hF := file_of_at h2 hq
    refine ⟨_, sq, _, by simp only [Session.run, h1, Option.map_some, hkl], hF, fun l _ => Or.inl rfl,
      mono _ _ _ hF (fun l _ => levelCount_le l _ _) (fun _ _ => ⟨rfl, rfl⟩), ?_⟩
    rintro ⟨_, ops, t, hops⟩
    -- the queues of the pool are empty after the last call
    have hlast : (∀ l, q.pool.readyS l = []) ∧ (∀ l, q.pool.readyF l = []) := by
      rw [hops, prog_run_append] at h1
      obtain ⟨r, r1, r2⟩ := progAt_run he ops (reopen_at he h s) (fun o ho => hs o (by rw [hops]; simp [ho]))
      obtain ⟨sr, hr⟩ := r2.inv
      obtain ⟨_, _, _, _, c3, c4⟩ := inv_collect hr
      have hw := inv_wait hr 0 [t] (by simp)
      rw [r1] at h1
      simp only [Option.bind_some, Prog.run, Prog.step, Prog.ask, hw, Option.map_some, Option.some.injEq] at h1
      subst h1
      exact ⟨c3, c4⟩
    intro id hid
    obtain ⟨l, hl, ho⟩ := mem_openIds.1 hid
    have hsim : env.sims[l]? = some env.sims[l] := List.getElem?_eq_getElem hl
    by_contra hno
    have hsc := ho.1
    rw [hF.sched l hl] at hsc
    rcases good_or_bad (md5 := env.md5) (he.level l _ hsim) hsc with hg | hb
    · obtain ⟨x, hx, rfl⟩ := List.mem_map.1 hg
      apply ho.2.1
      have := hq.good l _ _ (h2.want l hl).2 hsim
      rw [hlast.1, List.append_nil] at this
      rw [this]
      exact List.mem_map_of_mem (List.mem_filter.2 ⟨hx, by simpa using hno⟩)
    · apply ho.2.2
      have := hq.bad l _ _ (h2.want l hl).2 hsim
      rw [hlast.2, List.map_nil, List.append_nil] at this
      exact this.symm.subset (List.mem_filter.2 ⟨hb, by simpa using hno⟩)

theorem sessions_file {env : ProgEnv Cfg K C} (he : env.Proper) : ∀ (ss : List (Session C)) {sops k g}, FileOk env sops k g → (∀ s ∈ ss, s.Proper env.sims.length) →
    ∃ g' sops' k', runSessions env ss g = some g' ∧ FileOk env sops' k' g' ∧ (∀ l, l < env.sims.length → SessionCounts l ss (k l) (k' l)) ∧
      (∀ id ∈ openIds env sops, id ∈ openIds env sops') ∧ ((∀ s ∈ ss, s.Waits) → ∀ id ∈ openIds env sops', id ∈ openIds env sops) := by
  intro ss
  induction ss with
  | nil => intro sops k g h _; exact ⟨g, sops, k, rfl, h, fun _ _ => rfl, fun _ h => h, fun _ _ h => h⟩
  | cons s ss ih =>
    intro sops k g h hs
    obtain ⟨g1, s1, k1, a1, a2, a3, a4, a5⟩ := session_file he h s (hs s (by simp))
    obtain ⟨g2, s2, k2, b1, b2, b3, b4, b5⟩ := ih a2 (fun s' h' => hs s' (by simp [h']))
    exact ⟨g2, s2, k2, by simp only [runSessions, a1, Option.bind_some, b1], b2, fun l hl => ⟨k1 l, a3 l hl, b3 l hl⟩,
      fun id hid => b4 id (a4 id hid), fun hw id hid => a5 (hw s (by simp)) id (b5 (fun s' h' => hw s' (by simp [h'])) id hid)⟩

theorem file_fresh (env : ProgEnv Cfg K C) : FileOk env [] (fun _ => 0) (hdfFresh _ env.sims.length) := by
  refine ⟨rfl, fun l _ => rfl, fun l sim _ => ?_, fun l sim _ => ?_⟩
  · exact List.nil_sublist _
  · exact List.nil_subperm

theorem runSessions_append (env : ProgEnv Cfg K C) : ∀ (a b : List (Session C)) (g : HdfLevels (ResPart K × ResPart K)),
    runSessions env (a ++ b) g = (runSessions env a g).bind (runSessions env b) := by
  intro a
  induction a with
  | nil => intro b g; rfl
  | cons s a ih =>
    intro b g
    simp only [List.cons_append, runSessions]
    cases s.run env g with
    | none => rfl
    | some g' => exact ih b g'

theorem counts_waits {l : Nat} {s : Session C} (hw : s.killed = none) {c c' : Nat} (h : s.Counts l c c') : c' = levelCount l s.ops c := by
  rcases h with h | ⟨h, _⟩
  · exact h
  · rw [hw] at h; simp at h

theorem sessionCounts_waits {l : Nat} : ∀ {ss : List (Session C)}, (∀ s ∈ ss, s.killed = none) → ∀ {c c'}, SessionCounts l ss c c' →
    c' = ss.foldl (fun c s => levelCount l s.ops c) c := by
  intro ss
  induction ss with
  | nil => intro _ c c' h; exact h
  | cons s ss ih =>
    intro hw c c' ⟨m, h1, h2⟩
    rw [ih (fun s' h' => hw s' (by simp [h'])) h2, counts_waits (hw s (by simp)) h1]; rfl

end MLMC
