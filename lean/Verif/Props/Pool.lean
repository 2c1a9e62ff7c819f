import Verif.Proofs.Pool
import Verif.Props.StorageFile
import Mathlib.Tactic.FieldSimp
import Mathlib.Tactic.Ring
/-! Properties C09, C11–C14 of the in-process pool and the pool part of C22. -/
namespace MLMC
variable {Cfg K C : Type}

/-! ## C09 In-process pool delivers every scheduled sample exactly once -/

/-- C09: for every sequence of calls whose common files can be copied, followed by `get_finished`: all answers together
deliver for every level exactly the successful samples scheduled on it, once each and in order, with the simulation's
results, and exactly its failed samples, once each; and every answer reports zero running samples.  (Taking `ops` as any
prefix of a history shows that each sample is in the next answer after it was scheduled.) -/
theorem C09_delivered_exactly_once (md5 : SampleId → List UInt8) (debug hasDir : Bool) (d : Dirs C)
    (ops : List (PoolOp Cfg K C)) (hf : FilesOk ops) (l : Nat) :
    let answers := ((Pool.create debug hasDir d).run md5 (ops ++ [.get])).2
    deliveredSucc answers l = scheduledSucc md5 l ops ∧
    (deliveredFailed answers l).map (·.1) = scheduledFailed md5 l ops ∧
    (∀ a ∈ answers, a.nRunning = 0) ∧
    answers.length = (ops.filter fun o => o matches .get).length + 1 := by
  intro answers
  have hf' : FilesOk (ops ++ [.get]) := by
    intro id sim dur hm
    simp only [List.mem_append, List.mem_singleton, reduceCtorEq, or_false] at hm
    exact hf id sim dur hm
  obtain ⟨_, h2, h3, h4⟩ := run_spec md5 l (ops ++ [.get]) (Pool.create (K := K) debug hasDir d) (create_inv _ _ _) hf'
  have hq : ∀ l, (Dict.get? ((Pool.create (K := K) debug hasDir d).run md5 (ops ++ [.get])).1.queues l).getD [] = [] := by
    intro l
    rw [run_append]
    exact (getFinished_inv _ (run_spec md5 l ops _ (create_inv _ _ _) hf).1).2.2.2.2.1 l
  have hqf : ∀ l, (Dict.get? ((Pool.create (K := K) debug hasDir d).run md5 (ops ++ [.get])).1.failedQ l).getD [] = [] := by
    intro l
    rw [run_append]
    exact (getFinished_inv _ (run_spec md5 l ops _ (create_inv _ _ _) hf).1).2.2.2.2.2 l
  have e1 : scheduledSucc md5 l (ops ++ [.get]) = scheduledSucc md5 l ops := by simp [scheduledSucc, List.filterMap_append]
  have e2 : scheduledFailed md5 l (ops ++ [.get]) = scheduledFailed md5 l ops := by simp [scheduledFailed, List.filterMap_append]
  rw [hq, List.append_nil, e1] at h3
  rw [hqf, List.map_nil, List.append_nil, e2] at h4
  refine ⟨h3, h4, h2, ?_⟩
  have hlen : ∀ (ops : List (PoolOp Cfg K C)) (p : Pool K C),
      (p.run md5 ops).2.length = (ops.filter fun o => o matches .get).length := by
    intro ops
    induction ops with
    | nil => intro p; rfl
    | cons o ops ih =>
      intro p
      cases o with
      | get => simp only [Pool.run, List.length_cons, ih]; simp
      | schedule id sim dur => simp only [Pool.run, ih]; simp
  rw [show answers = _ from rfl, hlen]
  simp

/-- A simulation for examples: configuration 0 succeeds, 1 raises, 2 returns a result of wrong size. -/
def exampleSim (level cfg : Nat) (ws : Bool) : PoolSim Nat Nat Nat where
  level := level
  cfg := cfg
  workspace := ws
  filesOk := true
  calculate c seed := if c = 0 then .pair (.array [seed]) (.array [0]) else if c = 1 then .raised ['x'] else .pair (.array []) (.array [])
  files _ seed := seed
  fmt := [⟨['q'], ['m'], [1], [0], [.name ['a']]⟩]

def exampleMd5 (id : SampleId) : List UInt8 := id.reverse.map fun c => c.toNat.toUInt8

/-- Non-vacuity: a success and two kinds of failures on two levels. -/
example : let ops : List (PoolOp Nat Nat Nat) := [.schedule (sampleTag 0 0) (exampleSim 0 0 true) 2, .get,
      .schedule (sampleTag 1 0) (exampleSim 1 1 false) 3, .schedule (sampleTag 1 1) (exampleSim 1 2 true) 1]
    (((Pool.create false true {}).run exampleMd5 (ops ++ [.get])).2.map fun a => (a.succ.map fun e => (e.1, e.2.map (·.1)))) =
      [[(0, [sampleTag 0 0])], []] ∧
    (((Pool.create false true {}).run exampleMd5 (ops ++ [.get])).2.map fun a => (a.failed.map fun e => (e.1, e.2.map (·.1)))) =
      [[], [(1, [sampleTag 1 0, sampleTag 1 1])]] := by decide +kernel

/-- If a common file is missing the scheduling call raises, and a caller that goes on sees one running sample for ever:
the sample is in none of the answers. -/
theorem C09_missing_file_counterexample :
    let ops : List (PoolOp Nat Nat Nat) := [.schedule (sampleTag 0 0) { exampleSim 0 0 true with filesOk := false } 2, .get, .get]
    (((Pool.create false true {}).run exampleMd5 ops).2.map fun a => (a.succ.length, a.failed.length, a.nRunning)) =
      [(0, 0, 1), (0, 0, 1)] := by decide +kernel

/-! ## C11 A sample counts as successful only if the simulation returned a well-formed result -/

/-- C11: for every simulation, configuration and seed, `calculate_sample` reports no error exactly when the simulation
returned a pair whose two arrays have the declared size (`WellFormed`), and then passes on exactly what the simulation
returned; otherwise the error message is not empty. -/
theorem C11_success_iff_well_formed (md5 : SampleId → List UInt8) (sim : PoolSim Cfg K C) (id : SampleId)
    (seed : Option Nat) (dur : ℚ) :
    let out := sim.calculate sim.cfg (seed.getD (computeSeed md5 id))
    let r := calculateSample md5 sim id seed dur
    (r.err = [] ↔ WellFormed sim.fmt out) ∧
    (r.err = [] → ∃ f c, out = .pair f c ∧ r.res = some (f, c)) ∧ r.id = id := by
  intro out r
  cases ho : sim.calculate sim.cfg (seed.getD (computeSeed md5 id)) with
  | raised msg => simp [r, out, calculateSample, ho, traceback, WellFormed]
  | notPair msg => simp [r, out, calculateSample, ho, traceback, WellFormed]
  | pair f c =>
    by_cases hw : formatCheck sim.fmt f c = true
    · have := (formatCheck_iff _ _ _).1 hw
      simp [r, out, calculateSample, ho, hw, this]
    · have : ¬ WellFormed sim.fmt (.pair f c) := fun h => hw ((formatCheck_iff _ _ _).2 h)
      simp [r, out, calculateSample, ho, hw, this, traceback]

/-- The declared size is the sum over quantities of (product of shape) · (number of times) · (number of locations). -/
theorem C11_declared_size (q : QSpec) (fmt : List QSpec) :
    formatSize [] = 0 ∧ formatSize (q :: fmt) = q.shape.prod * q.times.length * q.locations.length + formatSize fmt := by
  simp [formatSize, QSpec.size]

/-- Results that are not arrays are not checked: a list of wrong length counts as successful. -/
theorem C11_list_counterexample :
    let sim : PoolSim Nat Nat Nat := { exampleSim 0 0 false with calculate := fun _ _ => .pair (.plain [1, 2, 3]) (.plain []) }
    formatSize sim.fmt = 1 ∧ (calculateSample exampleMd5 sim ['i'] none 1).err = [] := by decide +kernel

/-! ## C12 A sample's result depends only on its identifier and its level -/

theorem scheduledSucc_mem (md5 : SampleId → List UInt8) (l : Nat) (ops : List (PoolOp Cfg K C)) (id : SampleId)
    (r : ResPart K × ResPart K) (h : (id, r) ∈ scheduledSucc md5 l ops) :
    ∃ sim dur, .schedule id sim dur ∈ ops ∧ sim.level = l ∧ sim.calculate sim.cfg (computeSeed md5 id) = .pair r.1 r.2 := by
  simp only [scheduledSucc, List.mem_filterMap] at h
  obtain ⟨o, ho, hs⟩ := h
  cases o with
  | get => simp at hs
  | schedule id' sim dur =>
    simp only at hs
    split at hs
    · rename_i hl
      split at hs
      · rename_i f c hout
        simp only [Option.some.injEq, Prod.mk.injEq] at hs
        obtain ⟨rfl, rfl⟩ := hs
        exact ⟨sim, dur, ho, hl.1, hout⟩
      · simp at hs
    · simp at hs

theorem scheduledFailed_mem (md5 : SampleId → List UInt8) (l : Nat) (ops : List (PoolOp Cfg K C)) (id : SampleId)
    (h : id ∈ scheduledFailed md5 l ops) :
    ∃ sim dur, .schedule id sim dur ∈ ops ∧ sim.level = l ∧
      ¬ WellFormed sim.fmt (sim.calculate sim.cfg (computeSeed md5 id)) := by
  simp only [scheduledFailed, List.mem_filterMap] at h
  obtain ⟨o, ho, hs⟩ := h
  cases o with
  | get => simp at hs
  | schedule id' sim dur =>
    simp only at hs
    split at hs
    · rename_i hl
      simp only [Option.some.injEq] at hs
      subst hs
      exact ⟨sim, dur, ho, hl.1, hl.2⟩
    · simp at hs

/-- C12: the seed is the 32 bit number whose bytes, lowest first, are the first four bytes of the digest of the identifier; so it is
accepted by `np.random.seed`, and identifiers whose digests start with other bytes get other seeds. -/
theorem C12_seed_bytes (md5 : SampleId → List UInt8) (id : SampleId) (h : 4 ≤ (md5 id).length) :
    computeSeed md5 id < 2 ^ 32 ∧ (∀ k, k < 4 → (md5 id)[k]?.map (·.toNat) = some (computeSeed md5 id / 256 ^ k % 256)) ∧
    ∀ id', 4 ≤ (md5 id').length → (computeSeed md5 id = computeSeed md5 id' ↔ (md5 id).take 4 = (md5 id').take 4) := by
  have key : ∀ i, 4 ≤ (md5 i).length → ∃ a b c d r, md5 i = a :: b :: c :: d :: r := by
    intro i hi
    match hm : md5 i, hi with
    | a :: b :: c :: d :: r, _ => exact ⟨a, b, c, d, r, rfl⟩
  obtain ⟨a, b, c, d, r, e⟩ := key id h
  have ha := a.toNat_lt; have hb := b.toNat_lt; have hc := c.toNat_lt; have hd := d.toNat_lt
  refine ⟨?_, ?_, ?_⟩
  · simp only [computeSeed, e]; omega
  · intro k hk
    simp only [computeSeed, e]
    match k, hk with
    | 0, _ => simp <;> omega
    | 1, _ => simp; omega
    | 2, _ => simp; omega
    | 3, _ => simp; omega
  · intro i hi
    obtain ⟨a', b', c', d', r', e'⟩ := key i hi
    have ha' := a'.toNat_lt; have hb' := b'.toNat_lt; have hc' := c'.toNat_lt; have hd' := d'.toNat_lt
    simp only [computeSeed, e, e', List.take_succ_cons, List.take_zero, List.cons.injEq, and_true, ← UInt8.toNat_inj]
    omega

/-- The digest of the example: seed `1 + 256 * 2 + 256² * 3 + 256³ * 4`. -/
example : computeSeed (fun _ => [1, 2, 3, 4, 5]) ['x'] = 67305985 ∧ (67305985 / 256 ^ 2) % 256 = 3 := by decide +kernel

/-- C12: take any two histories of calls on two pools (any order, any durations, any number of polls, with or without
working directories) in which the sample `id` of level `l` is always scheduled with the same level simulation.  Whenever both
deliver it as successful the results are equal, namely what the simulation computes from its configuration and the seed of the
identifier; and it never is successful in one and failed in the other. -/
theorem C12_result_function_of_id_and_level (md5 : SampleId → List UInt8) (b1 b2 c1 c2 : Bool) (d d' : Dirs C)
    (ops ops' : List (PoolOp Cfg K C)) (hf : FilesOk ops) (hf' : FilesOk ops') (l : Nat) (id : SampleId)
    (sim : PoolSim Cfg K C)
    (h : ∀ s dur, .schedule id s dur ∈ ops ++ ops' → s.level = l → s = sim) :
    let a := ((Pool.create b1 b2 d).run md5 (ops ++ [.get])).2
    let a' := ((Pool.create c1 c2 d').run md5 (ops' ++ [.get])).2
    (∀ r r', (id, r) ∈ deliveredSucc a l → (id, r') ∈ deliveredSucc a' l →
      r = r' ∧ sim.calculate sim.cfg (computeSeed md5 id) = .pair r.1 r.2) ∧
    (∀ r e, (id, r) ∈ deliveredSucc a l → (id, e) ∉ deliveredFailed a' l) := by
  intro a a'
  obtain ⟨h1, _, _⟩ := C09_delivered_exactly_once md5 b1 b2 d ops hf l
  obtain ⟨h2, h3, _⟩ := C09_delivered_exactly_once md5 c1 c2 d' ops' hf' l
  constructor
  · intro r r' hr hr'
    rw [show deliveredSucc a l = _ from h1] at hr
    rw [show deliveredSucc a' l = _ from h2] at hr'
    obtain ⟨s, dur, m, hl, hc⟩ := scheduledSucc_mem md5 l ops id r hr
    obtain ⟨s', dur', m', hl', hc'⟩ := scheduledSucc_mem md5 l ops' id r' hr'
    have e := h s dur (List.mem_append_left _ m) hl
    have e' := h s' dur' (List.mem_append_right _ m') hl'
    subst e; subst e'
    rw [hc] at hc'
    simp only [SimOut.pair.injEq] at hc'
    exact ⟨Prod.ext hc'.1 hc'.2, hc⟩
  · intro r e hr he
    rw [show deliveredSucc a l = _ from h1] at hr
    have he' : id ∈ scheduledFailed md5 l ops' := by
      rw [← h3]; exact List.mem_map.2 ⟨_, he, rfl⟩
    obtain ⟨s', dur', m', hl', hc'⟩ := scheduledFailed_mem md5 l ops' id he'
    have e' := h s' dur' (List.mem_append_right _ m') hl'
    subst e'
    -- the same sample is well formed
    simp only [scheduledSucc, List.mem_filterMap] at hr
    obtain ⟨o, ho, hs⟩ := hr
    cases o with
    | get => simp at hs
    | schedule id' s dur =>
      simp only at hs
      split at hs
      · rename_i hl
        split at hs
        · simp only [Option.some.injEq, Prod.mk.injEq] at hs
          obtain ⟨rfl, _⟩ := hs
          have e := h s dur (List.mem_append_left _ ho) hl.1
          subst e
          exact hc' hl.2
        · simp at hs
      · simp at hs

/-- Non-vacuity of C12: the same sample scheduled in another order, by another pool, with other durations. -/
example : let s := exampleSim 0 0 false
    let a := ((Pool.create false true {}).run exampleMd5 ([.schedule (sampleTag 0 0) s 1, .schedule (sampleTag 0 1) s 1] ++ [.get])).2
    let a' := ((Pool.create true false {}).run exampleMd5 ([.schedule (sampleTag 0 1) s 5, .get, .schedule (sampleTag 0 0) s 2] ++ [.get])).2
    (deliveredSucc a 0).length = 2 ∧ (deliveredSucc a 0).reverse = deliveredSucc a' 0 := by decide +kernel

/-! ## C13 Which sample directories survive -/

theorem ofDigitChars_acc (l : List Char) : ∀ a : Nat, Nat.ofDigitChars 10 l a = a * 10 ^ l.length + Nat.ofDigitChars 10 l 0 := by
  induction l with
  | nil => intro a; simp [Nat.ofDigitChars]
  | cons c l ih =>
    intro a
    have h1 : ∀ a, Nat.ofDigitChars 10 (c :: l) a = Nat.ofDigitChars 10 l (10 * a + (c.toNat - '0'.toNat)) := by
      intro a; simp [Nat.ofDigitChars]
    rw [h1 a, h1 0, ih (10 * a + _), ih (10 * 0 + _), List.length_cons, pow_succ]
    ring

theorem ofDigitChars_append (a b : List Char) :
    Nat.ofDigitChars 10 (a ++ b) 0 = Nat.ofDigitChars 10 a 0 * 10 ^ b.length + Nat.ofDigitChars 10 b 0 := by
  have : Nat.ofDigitChars 10 (a ++ b) 0 = Nat.ofDigitChars 10 b (Nat.ofDigitChars 10 a 0) := by
    simp [Nat.ofDigitChars, List.foldl_append]
  rw [this, ofDigitChars_acc]

theorem ofDigitChars_lt (l : List Char) (h : ∀ c ∈ l, c.isDigit = true) : Nat.ofDigitChars 10 l 0 < 10 ^ l.length := by
  induction l with
  | nil => simp [Nat.ofDigitChars]
  | cons c l ih =>
    have h1 : Nat.ofDigitChars 10 (c :: l) 0 = Nat.ofDigitChars 10 l (10 * 0 + (c.toNat - '0'.toNat)) := by
      simp [Nat.ofDigitChars]
    have hc : c.toNat - '0'.toNat ≤ 9 := by
      have := h c (by simp)
      simp only [Char.isDigit, Bool.and_eq_true, decide_eq_true_eq] at this
      have h2 : c.val.toNat ≤ 57 := this.2
      have h3 : '0'.toNat = 48 := by decide
      have h4 : c.toNat = c.val.toNat := rfl
      omega
    have ih' := ih (fun x hx => h x (List.mem_cons_of_mem _ hx))
    rw [h1, ofDigitChars_acc, List.length_cons, pow_succ]
    have : (10 * 0 + (c.toNat - '0'.toNat)) * 10 ^ l.length ≤ 9 * 10 ^ l.length := Nat.mul_le_mul_right _ (by omega)
    omega

/-- The last seven characters of an identifier read as a number give the running number modulo `10^7`. -/
theorem lastSeven_tag (l n : Nat) : pyIntOfStr (lastSeven (sampleTag l n)) = some (n % 10 ^ 7) := by
  have hlen : 7 ≤ (zpad 7 n).length := by
    simp only [zpad, List.length_append, List.length_replicate]; omega
  have hdrop : lastSeven (sampleTag l n) = (zpad 7 n).drop ((zpad 7 n).length - 7) := by
    have : sampleTag l n = ('L' :: (zpad 2 l ++ ['_', 'S'])) ++ zpad 7 n := by simp [sampleTag]
    rw [lastSeven, this, List.length_append, List.drop_append]
    rw [List.drop_eq_nil_of_le (by omega)]
    simp only [List.nil_append]
    congr 1
    omega
  rw [hdrop]
  have hl7 : ((zpad 7 n).drop ((zpad 7 n).length - 7)).length = 7 := by rw [List.length_drop]; omega
  have hdig : ∀ c ∈ (zpad 7 n).drop ((zpad 7 n).length - 7), c.isDigit = true :=
    fun c hc => isDigit_of_mem_zpad (List.mem_of_mem_drop hc)
  have hval : Nat.ofDigitChars 10 ((zpad 7 n).drop ((zpad 7 n).length - 7)) 0 = n % 10 ^ 7 := by
    have h1 := ofDigitChars_append ((zpad 7 n).take ((zpad 7 n).length - 7)) ((zpad 7 n).drop ((zpad 7 n).length - 7))
    rw [List.take_append_drop, value_zpad, hl7] at h1
    have h2 := ofDigitChars_lt _ hdig
    rw [hl7] at h2
    omega
  have hne : (zpad 7 n).drop ((zpad 7 n).length - 7) ≠ [] := by
    intro h; rw [h] at hl7; simp at hl7
  rw [pyIntOfStr, if_pos ⟨hne, List.all_eq_true.2 hdig⟩, hval]

theorem get?_erase_self {κ α : Type} [DecidableEq κ] (d : Dict κ α) (k : κ) : Dict.get? (Dict.erase d k) k = none := by
  rw [Dict.get?_eq_none_iff]
  simp [Dict.erase, Dict.keys]

/-- C13 as the code has it, for every level, running number `n`, outcome and previous content of the directories: the
working directory of a sample ends up
* successful, no debug: no longer in the output directory, and under `several_successful` exactly if the last seven digits
  of its number are below 5 (and a working directory was given to the pool), with the simulation's files;
* successful, debug: in place;
* failed: under `failed` with the simulation's files, no longer in place. -/
theorem C13_directories_by_last_digits (md5 : SampleId → List UInt8) (p : Pool K C) (sim : PoolSim Cfg K C) (n : Nat) (dur : ℚ)
    (hw : sim.workspace = true) (hf : sim.filesOk = true) :
    let id := sampleTag sim.level n
    let c := sim.files sim.cfg (computeSeed md5 id)
    let d := (p.schedule md5 sim id dur).1.dirs
    let good := WellFormed sim.fmt (outcome md5 id sim)
    (good → p.debug = false → Dict.get? d.output id = none ∧ d.failed = p.dirs.failed ∧
      (p.hasDir = true → n % 10 ^ 7 < 5 → Dict.get? d.several id = some c) ∧
      (¬ (p.hasDir = true ∧ n % 10 ^ 7 < 5) → d.several = p.dirs.several)) ∧
    (good → p.debug = true → Dict.get? d.output id = some c ∧ d.several = p.dirs.several ∧ d.failed = p.dirs.failed) ∧
    (¬ good → Dict.get? d.failed id = some c ∧ Dict.get? d.output id = none ∧ d.several = p.dirs.several) := by
  intro id c d good
  have hd : d = (p.schedule md5 sim id dur).1.dirs := rfl
  have hint := lastSeven_tag sim.level n
  simp only [Pool.schedule, hw, hf, not_true_eq_false, and_false, if_false, if_true] at hd
  have bad : (¬ good) → (calculateSample md5 sim id none dur).err ≠ [] := by
    intro hg he
    exact hg ((C11_success_iff_well_formed md5 sim id none dur).1.1 he)
  refine ⟨?_, ?_, ?_⟩
  · intro hg hdb
    have he := (C11_success_iff_well_formed md5 sim id none dur).1.2 hg
    obtain ⟨f, cc, _, hr⟩ := (C11_success_iff_well_formed md5 sim id none dur).2.1 he
    have hid := (C11_success_iff_well_formed md5 sim id none dur).2.2
    simp only [Pool.processResult, he, hr, hdb, hid, Dirs.moveSuccessfulRm, show pyIntOfStr (lastSeven id) = _ from hint, hw,
      Bool.false_eq_true, if_false, and_true, if_true] at hd
    rw [hd]
    refine ⟨get?_erase_self _ _, ?_, ?_, ?_⟩
    · split
      · unfold Dirs.keepSuccessful; split <;> rfl
      · rfl
    · intro h1 h2
      simp only [h2, if_true, Dirs.remove, Dirs.keepSuccessful, h1, Dict.get?_set_self]
      rfl
    · intro h1
      by_cases h2 : n % 10 ^ 7 < 5
      · have h3 : p.hasDir = false := by
          cases hh : p.hasDir with
          | true => exact absurd ⟨hh, h2⟩ h1
          | false => rfl
        simp only [h2, if_true, Dirs.remove, Dirs.keepSuccessful, h3]
      · simp only [h2, if_false, Dirs.remove]
  · intro hg hdb
    have he := (C11_success_iff_well_formed md5 sim id none dur).1.2 hg
    obtain ⟨f, cc, _, hr⟩ := (C11_success_iff_well_formed md5 sim id none dur).2.1 he
    simp only [Pool.processResult, he, hr, hdb, if_true] at hd
    rw [hd]
    exact ⟨Dict.get?_set_self _ _ _, rfl, rfl⟩
  · intro hg
    have hb := bad hg
    have hid := (C11_success_iff_well_formed md5 sim id none dur).2.2
    cases he : (calculateSample md5 sim id none dur).err with
    | nil => exact absurd he hb
    | cons e es =>
      simp only [Pool.processResult, he, hw, hid, if_true] at hd
      rw [hd]
      simp only [Dirs.keepFailed, Dict.get?_set_self, Dirs.remove]
      exact ⟨rfl, get?_erase_self _ _, trivial⟩

/-- C13, partial: with a working directory given and running numbers below ten million, a successful sample's directory is
kept under `several_successful` exactly when its running number is below 5 (if nothing of that name was there before).
Missing: larger running numbers, see `C13_counterexample`. -/
theorem C13_directories_partial (md5 : SampleId → List UInt8) (p : Pool K C) (sim : PoolSim Cfg K C) (n : Nat) (dur : ℚ)
    (hw : sim.workspace = true) (hf : sim.filesOk = true) (hdir : p.hasDir = true) (hdb : p.debug = false) (hn : n < 10 ^ 7)
    (hnew : Dict.get? p.dirs.several (sampleTag sim.level n) = none)
    (good : WellFormed sim.fmt (outcome md5 (sampleTag sim.level n) sim)) :
    ((Dict.get? (p.schedule md5 sim (sampleTag sim.level n) dur).1.dirs.several (sampleTag sim.level n)).isSome ↔ n < 5) ∧
    Dict.get? (p.schedule md5 sim (sampleTag sim.level n) dur).1.dirs.output (sampleTag sim.level n) = none := by
  obtain ⟨h1, _, _⟩ := C13_directories_by_last_digits md5 p sim n dur hw hf
  obtain ⟨a, _, b, c⟩ := h1 good hdb
  rw [Nat.mod_eq_of_lt hn] at b c
  refine ⟨?_, a⟩
  constructor
  · intro hs
    by_contra h5
    rw [c (fun h => h5 h.2), hnew] at hs
    simp at hs
  · intro h5
    rw [b hdir h5]; rfl

/-- The code violates C13 for large numbers: the directory of sample number 10000000 is kept although it is not one of
the first five. -/
theorem C13_counterexample :
    let s := exampleSim 0 0 true
    let p : Pool Nat Nat := Pool.create false true {}
    (Dict.get? (p.schedule exampleMd5 s (sampleTag 0 10000000) 1).1.dirs.several (sampleTag 0 10000000)).isSome = true := by
  decide +kernel

/-- A new pool on the same working directory deletes all kept directories, unless in debug mode. -/
theorem C13_new_pool_wipes (d : Dirs C) :
    (Pool.create (K := K) false true d).dirs.failed = [] ∧ (Pool.create (K := K) false true d).dirs.several = [] ∧
    (Pool.create (K := K) true true d).dirs = d := by
  simp [Pool.create]

/-! ## C14 Accounted running time -/

/-- The simulation did not raise. -/
def SimOut.returned : SimOut K → Bool
  | .raised _ => false
  | _ => true

/-- Durations of the samples of level `l` whose simulation returned (whatever it returned), measured longer than 0. -/
def returnedDurs (md5 : SampleId → List UInt8) (l : Nat) (ops : List (PoolOp Cfg K C)) : List ℚ :=
  ops.filterMap fun
    | .get => none
    | .schedule id sim dur => if sim.level = l ∧ (outcome md5 id sim).returned = true ∧ dur ≠ 0 then some dur else none

/-- Durations of the successful samples of level `l`. -/
def successDurs (md5 : SampleId → List UInt8) (l : Nat) (ops : List (PoolOp Cfg K C)) : List ℚ :=
  ops.filterMap fun
    | .get => none
    | .schedule id sim dur => if sim.level = l ∧ WellFormed sim.fmt (outcome md5 id sim) then some dur else none

theorem schedule_times (md5 : SampleId → List UInt8) (p : Pool K C) (sim : PoolSim Cfg K C) (id : SampleId) (dur : ℚ)
    (hf : sim.workspace = true → sim.filesOk = true) :
    (p.schedule md5 sim id dur).1.times =
      saveRunningTime p.times sim.level (if (outcome md5 id sim).returned then dur else 0) := by
  have hc : ¬ (sim.workspace = true ∧ ¬ sim.filesOk = true) := fun h => h.2 (hf h.1)
  have ht : (calculateSample md5 sim id none dur).time = if (outcome md5 id sim).returned then dur else 0 := by
    cases ho : sim.calculate sim.cfg (computeSeed md5 id) with
    | raised _ => simp [calculateSample, outcome, ho, SimOut.returned]
    | notPair _ => simp [calculateSample, outcome, ho, SimOut.returned]
    | pair f c =>
      simp only [calculateSample, outcome, ho, Option.getD_none, SimOut.returned, if_true]
      split <;> rfl
  simp only [Pool.schedule, hc, if_false, ← ht, Pool.processResult]
  split
  · split <;> rfl
  · rfl
  · rfl

theorem run_times (md5 : SampleId → List UInt8) (l : Nat) : ∀ (ops : List (PoolOp Cfg K C)) (p : Pool K C), FilesOk ops →
    let t := (Dict.get? (p.run md5 ops).1.times l).getD (0, 0)
    let t0 := (Dict.get? p.times l).getD (0, 0)
    t.1 = t0.1 + (returnedDurs md5 l ops).sum ∧ t.2 = t0.2 + (returnedDurs md5 l ops).length := by
  intro ops
  induction ops with
  | nil => intro p _; simp [Pool.run, returnedDurs]
  | cons o ops ih =>
    intro p hf
    have hf' : FilesOk ops := fun id sim dur hm => hf id sim dur (List.mem_cons_of_mem _ hm)
    cases o with
    | get =>
      have := ih p.getFinished.2 hf'
      have ht : p.getFinished.2.times = p.times := rfl
      rw [ht] at this
      exact this
    | schedule id sim dur =>
      have h1 := ih (p.schedule md5 sim id dur).1 hf'
      have h2 := schedule_times md5 p sim id dur (hf id sim dur (by simp))
      simp only [Pool.run]
      simp only at h1
      rw [h2] at h1
      have h3 : (Dict.get? (saveRunningTime p.times sim.level (if (outcome md5 id sim).returned then dur else 0)) l).getD (0, 0) =
          if sim.level = l ∧ (outcome md5 id sim).returned = true ∧ dur ≠ 0 then
            (((Dict.get? p.times l).getD (0, 0)).1 + dur, ((Dict.get? p.times l).getD (0, 0)).2 + 1)
          else (Dict.get? p.times l).getD (0, 0) := by
        by_cases hl : sim.level = l
        · subst hl
          rw [saveRunningTime, Dict.get?_upd_self]
          by_cases hr : (outcome md5 id sim).returned = true
          · by_cases hd : dur = 0 <;> simp [hr, hd]
          · simp [hr]
        · rw [saveRunningTime, Dict.get?_upd_ne _ _ _ (fun e => hl e.symm)]
          simp [hl]
      rw [h3] at h1
      by_cases hc : sim.level = l ∧ (outcome md5 id sim).returned = true ∧ dur ≠ 0
      · rw [if_pos hc] at h1
        have : returnedDurs md5 l (.schedule id sim dur :: ops) = dur :: returnedDurs md5 l ops := by
          simp only [returnedDurs, List.filterMap_cons, if_pos hc]
        rw [this, h1.1, h1.2]
        simp only [List.sum_cons, List.length_cons]
        push_cast
        constructor <;> ring
      · rw [if_neg hc] at h1
        have : returnedDurs md5 l (.schedule id sim dur :: ops) = returnedDurs md5 l ops := by
          simp only [returnedDurs, List.filterMap_cons, if_neg hc]
        rw [this]
        exact h1

/-- C14 as the code has it: the pair reported for a level is the total duration and number of the samples whose simulation
returned at all, with a measured duration different from 0. -/
theorem C14_times_of_returned (md5 : SampleId → List UInt8) (debug hasDir : Bool) (d : Dirs C)
    (ops : List (PoolOp Cfg K C)) (hf : FilesOk ops) (l : Nat) :
    (Dict.get? ((Pool.create (K := K) debug hasDir d).run md5 ops).1.times l).getD (0, 0) =
      ((returnedDurs md5 l ops).sum, ((returnedDurs md5 l ops).length : ℚ)) := by
  obtain ⟨h1, h2⟩ := run_times md5 l ops (Pool.create (K := K) debug hasDir d) hf
  have h0 : (Dict.get? (Pool.create (K := K) debug hasDir d).times l).getD ((0, 0) : ℚ × ℚ) = (0, 0) := rfl
  rw [h0] at h1 h2
  exact Prod.ext (by rw [h1]; simp) (by rw [h2]; simp)

/-- C14, partial: if every simulation either raises or returns a well-formed result, and durations are measured positive, the
reported pair is the total running time and the number of the successful samples.  Missing: results of wrong size, see
`C14_counterexample`. -/
theorem C14_times_partial (md5 : SampleId → List UInt8) (debug hasDir : Bool) (d : Dirs C)
    (ops : List (PoolOp Cfg K C)) (hf : FilesOk ops) (l : Nat)
    (h : ∀ id sim dur, .schedule id sim dur ∈ ops → 0 < dur ∧
      ((outcome md5 id sim).returned = true → WellFormed sim.fmt (outcome md5 id sim))) :
    (Dict.get? ((Pool.create (K := K) debug hasDir d).run md5 ops).1.times l).getD (0, 0) =
      ((successDurs md5 l ops).sum, ((successDurs md5 l ops).length : ℚ)) := by
  rw [C14_times_of_returned md5 debug hasDir d ops hf l]
  have : returnedDurs md5 l ops = successDurs md5 l ops := by
    apply List.filterMap_congr
    intro o ho
    cases o with
    | get => rfl
    | schedule id sim dur =>
      obtain ⟨hd, hw⟩ := h id sim dur ho
      have hr : WellFormed sim.fmt (outcome md5 id sim) → (outcome md5 id sim).returned = true := by
        cases outcome md5 id sim with
        | raised _ => exact fun h => absurd h (fun h => h)
        | notPair _ => intro _; rfl
        | pair _ _ => intro _; rfl
      by_cases hl : sim.level = l ∧ WellFormed sim.fmt (outcome md5 id sim)
      · have : sim.level = l ∧ (outcome md5 id sim).returned = true ∧ dur ≠ 0 := ⟨hl.1, hr hl.2, ne_of_gt hd⟩
        simp only [if_pos hl, if_pos this]
      · have : ¬ (sim.level = l ∧ (outcome md5 id sim).returned = true ∧ dur ≠ 0) := fun e => hl ⟨e.1, hw e.2.1⟩
        simp only [if_neg hl, if_neg this]
  rw [this]

/-- The code violates C14: a sample that fails the format check is counted. -/
theorem C14_counterexample :
    let ops : List (PoolOp Nat Nat Nat) := [.schedule (sampleTag 0 0) (exampleSim 0 2 false) 3, .get]
    let r := (Pool.create false true {}).run exampleMd5 ops
    (r.2.map fun a => (a.succ.length, a.failed.length, a.nOps)) = [(0, 1, [(0, (3, 1))])] := by decide +kernel

example : let ops : List (PoolOp Nat Nat Nat) := [.schedule (sampleTag 0 0) (exampleSim 0 0 false) 3, .get,
      .schedule (sampleTag 0 1) (exampleSim 0 1 false) 4, .schedule (sampleTag 0 2) (exampleSim 0 0 false) 5]
    ((Pool.create (K := Nat) false true {}).run exampleMd5 ops).1.times = [(0, (8, 2))] := by decide +kernel

/-! ## C22 Cost per sample, with the pool -/

/-- The code violates C22: `get_finished` reports the totals since the start and the storage adds up all reports.  Two
samples that took 1 and 3 time units, collected in two polls, have the stored cost (1 + 4) / (1 + 2) instead of 2. -/
theorem C22_counterexample :
    let s := exampleSim 0 0 false
    let ops : List (PoolOp Nat Nat Nat) := [.schedule (sampleTag 0 0) s 1, .get, .schedule (sampleTag 0 1) s 3, .get]
    let answers := ((Pool.create (K := Nat) false true {}).run exampleMd5 ops).2
    getNOps (answers.foldl storeSamples (hdfFresh _ 1)) = .ok [5 / 3] := by decide +kernel

/-- The memory storage adds averages: one sample that took 1 time unit, polled twice, has the cost 2. -/
theorem C22_memory_counterexample :
    let s := exampleSim 0 0 false
    let ops : List (PoolOp Nat Nat Nat) := [.schedule (sampleTag 0 0) s 1, .get, .get]
    let answers := ((Pool.create (K := Nat) false true {}).run exampleMd5 ops).2
    (answers.foldl (fun (m : MemStore Unit) a => m.saveNOps a.nOps) {}).getNOps = .ok [2] := by decide +kernel

/-- Every answer carries the totals of a prefix of the history. -/
theorem answer_prefix (md5 : SampleId → List UInt8) : ∀ (ops : List (PoolOp Cfg K C)) (p : Pool K C)
    (a : PoolAnswer (ResPart K × ResPart K)), a ∈ (p.run md5 ops).2 →
    ∃ pre, pre <+: ops ∧ a.nOps = (p.run md5 pre).1.times := by
  intro ops
  induction ops with
  | nil => intro p a h; simp [Pool.run] at h
  | cons o ops ih =>
    intro p a h
    cases o with
    | get =>
      simp only [Pool.run, List.mem_cons] at h
      rcases h with rfl | h
      · exact ⟨[], List.nil_prefix, rfl⟩
      · obtain ⟨pre, h1, h2⟩ := ih _ a h
        exact ⟨.get :: pre, (List.prefix_cons_inj _).2 h1, h2⟩
    | schedule id sim dur =>
      obtain ⟨pre, h1, h2⟩ := ih _ a h
      exact ⟨.schedule id sim dur :: pre, (List.prefix_cons_inj _).2 h1, h2⟩

theorem times_nodup (md5 : SampleId → List UInt8) : ∀ (ops : List (PoolOp Cfg K C)) (p : Pool K C), FilesOk ops →
    (Dict.keys p.times).Nodup → (Dict.keys (p.run md5 ops).1.times).Nodup := by
  intro ops
  induction ops with
  | nil => intro p _ h; exact h
  | cons o ops ih =>
    intro p hf h
    have hf' : FilesOk ops := fun id sim dur hm => hf id sim dur (List.mem_cons_of_mem _ hm)
    cases o with
    | get => exact ih p.getFinished.2 hf' h
    | schedule id sim dur =>
      apply ih _ hf'
      rw [schedule_times md5 p sim id dur (hf id sim dur (by simp))]
      exact Dict.nodup_keys_upd _ _ _ _ h

theorem filter_nodup_key {α : Type} (d : Dict Nat α) (h : (Dict.keys d).Nodup) (l : Nat) :
    (d.filter fun x => decide (x.1 = l)).map (·.2) = (Dict.get? d l).toList := by
  induction d with
  | nil => rfl
  | cons e d ih =>
    obtain ⟨k, v⟩ := e
    simp only [Dict.keys, List.map_cons, List.nodup_cons] at h
    by_cases hk : k = l
    · subst hk
      have h1 : Dict.get? d k = none := (Dict.get?_eq_none_iff d k).2 h.1
      have := ih h.2
      rw [h1] at this
      simp only [List.filter_cons, decide_true, if_true, List.map_cons, Dict.get?, this]
      rfl
    · have := ih h.2
      simp only [List.filter_cons, hk, decide_false, Bool.false_eq_true, if_false, Dict.get?, this]

/-- Storing a sequence of answers is a storage history. -/
theorem store_answers {V : Type} (as : List (PoolAnswer V)) (g : HdfLevels V) :
    as.foldl storeSamples g = hdfRun g (as.flatMap fun a => [.samples a.succ a.failed, .nOps a.nOps]) := by
  induction as generalizing g with
  | nil => rfl
  | cons a as ih => rw [List.foldl_cons, ih]; rfl

/-- C22, partial: for every history of scheduling and polling, the stored cost per sample of a level lies between the smallest and the largest running time of its samples, however the results
were split into batches.  Missing: it is not their average if the times vary (`C22_counterexample`). -/
theorem C22_cost_between_partial (md5 : SampleId → List UInt8) (debug hasDir : Bool) (d : Dirs C) (n : Nat) (lo hi : Nat → ℚ)
    (ops : List (PoolOp Cfg K C)) (hf : FilesOk ops)
    (hdur : ∀ id sim dur, .schedule id sim dur ∈ ops → lo sim.level ≤ dur ∧ dur ≤ hi sim.level)
    (hsome : ∀ l, l < n → returnedDurs md5 l ops ≠ []) :
    ∃ cost : Nat → ℚ, getNOps (((Pool.create (K := K) debug hasDir d).run md5 (ops ++ [.get])).2.foldl storeSamples (hdfFresh _ n)) =
      .ok ((List.range n).map cost) ∧ ∀ l, l < n → lo l ≤ cost l ∧ cost l ≤ hi l := by
  have hfg : FilesOk (ops ++ [.get]) := by
    intro id sim dur hm
    simp only [List.mem_append, List.mem_singleton, reduceCtorEq, or_false] at hm
    exact hf id sim dur hm
  have hdur' : ∀ id sim dur, .schedule id sim dur ∈ ops ++ [.get] → lo sim.level ≤ dur ∧ dur ≤ hi sim.level := by
    intro id sim dur hm
    simp only [List.mem_append, List.mem_singleton, reduceCtorEq, or_false] at hm
    exact hdur id sim dur hm
  generalize hA : ((Pool.create (K := K) debug hasDir d).run md5 (ops ++ [.get])).2 = as
  have hrep : ∀ l, ∀ a ∈ as, ∀ r ∈ (a.nOps.filter fun x => decide (x.1 = l)).map (·.2), lo l * r.2 ≤ r.1 ∧ r.1 ≤ hi l * r.2 ∧ 0 ≤ r.2 := by
    intro l a ha r hr
    rw [← hA] at ha
    obtain ⟨pre, hp, ht⟩ := answer_prefix md5 _ _ a ha
    have hfp : FilesOk pre := fun id sim dur hm => hfg id sim dur (hp.subset hm)
    rw [ht, filter_nodup_key _ (times_nodup md5 pre _ hfp (by simp [Pool.create, Dict.keys]))] at hr
    have ht2 := C14_times_of_returned md5 debug hasDir d pre hfp l
    cases hg : Dict.get? ((Pool.create (K := K) debug hasDir d).run md5 pre).1.times l with
    | none => rw [hg] at hr; simp at hr
    | some t =>
      rw [hg] at hr ht2
      simp only [Option.toList_some, List.mem_singleton] at hr
      subst hr
      simp only [Option.getD_some] at ht2
      have hconst : ∀ x ∈ returnedDurs md5 l pre, lo l ≤ x ∧ x ≤ hi l := by
        intro x hx
        simp only [returnedDurs, List.mem_filterMap] at hx
        obtain ⟨o, ho, hs⟩ := hx
        cases o with
        | get => simp at hs
        | schedule id sim dur =>
          simp only at hs
          split at hs
          · rename_i hh
            simp only [Option.some.injEq] at hs
            rw [← hs, ← hh.1]; exact hdur' id sim dur (hp.subset ho)
          · simp at hs
      have hsum : ∀ xs : List ℚ, (∀ x ∈ xs, lo l ≤ x ∧ x ≤ hi l) → lo l * xs.length ≤ xs.sum ∧ xs.sum ≤ hi l * xs.length := by
        intro xs
        induction xs with
        | nil => intro _; simp
        | cons x xs ih =>
          intro h
          obtain ⟨i1, i2⟩ := ih (fun y hy => h y (List.mem_cons_of_mem _ hy))
          obtain ⟨h1, h2⟩ := h x (by simp)
          rw [List.sum_cons, List.length_cons]
          push_cast
          constructor <;> linarith
      rw [ht2]
      exact ⟨(hsum _ hconst).1, (hsum _ hconst).2, Nat.cast_nonneg _⟩
  have hsaved : ∀ l, savedOps (as.flatMap fun a => [StoreOp.samples a.succ a.failed, .nOps a.nOps]) l =
      as.flatMap fun a => (a.nOps.filter fun x => decide (x.1 = l)).map (·.2) := by
    intro l
    have : ∀ as : List (PoolAnswer (ResPart K × ResPart K)),
        savedOps (as.flatMap fun a => [StoreOp.samples a.succ a.failed, .nOps a.nOps]) l =
        as.flatMap fun a => (a.nOps.filter fun x => decide (x.1 = l)).map (·.2) := by
      intro as
      induction as with
      | nil => rfl
      | cons a as ih =>
        simp only [List.flatMap_cons, ← ih]
        simp [savedOps]
    exact this as
  -- the last answer has a positive report
  have hpos : ∀ l, l < n → ∃ r ∈ savedOps (as.flatMap fun a => [StoreOp.samples a.succ a.failed, .nOps a.nOps]) l, 0 < r.2 := by
    intro l hl
    rw [hsaved l]
    have hlast : ∃ a ∈ as, a.nOps = ((Pool.create (K := K) debug hasDir d).run md5 ops).1.times := by
      rw [← hA, run_append]
      exact ⟨_, List.mem_append_right _ (List.mem_singleton.2 rfl), rfl⟩
    obtain ⟨a, ha, hn⟩ := hlast
    have ht2 := C14_times_of_returned md5 debug hasDir d ops hf l
    have hlen : 0 < (returnedDurs md5 l ops).length := List.length_pos_of_ne_nil (hsome l hl)
    cases hg : Dict.get? ((Pool.create (K := K) debug hasDir d).run md5 ops).1.times l with
    | none =>
      rw [hg] at ht2
      simp only [Option.getD_none, Prod.mk.injEq] at ht2
      have := ht2.2
      have h0 : (0 : ℚ) < ((returnedDurs md5 l ops).length : ℚ) := by exact_mod_cast hlen
      rw [← this] at h0
      exact absurd h0 (lt_irrefl _)
    | some t =>
      rw [hg] at ht2
      simp only [Option.getD_some] at ht2
      refine ⟨t, ?_, ?_⟩
      · rw [List.mem_flatMap]
        refine ⟨a, ha, ?_⟩
        rw [hn, filter_nodup_key _ (times_nodup md5 ops _ hf (by simp [Pool.create, Dict.keys])), hg]
        simp
      · rw [ht2]
        show (0 : ℚ) < ((returnedDurs md5 l ops).length : ℚ)
        exact_mod_cast hlen
  refine ⟨fun l =>
      let pos := (savedOps (as.flatMap fun a => [StoreOp.samples a.succ a.failed, .nOps a.nOps]) l).filter fun r => decide (r.2 > 0)
      (pos.map (·.1)).sum / (pos.map (·.2)).sum, ?_, ?_⟩
  · rw [store_answers]
    apply C22_storage_cost_ratio
    intro l hl h0
    obtain ⟨r, hr, _⟩ := hpos l hl
    rw [h0] at hr
    simp at hr
  · intro l hl'
    obtain ⟨r, hr, hr0⟩ := hpos l hl'
    generalize hS : savedOps (as.flatMap fun a => [StoreOp.samples a.succ a.failed, .nOps a.nOps]) l = S at hr
    have hS' : ∀ r ∈ S, lo l * r.2 ≤ r.1 ∧ r.1 ≤ hi l * r.2 ∧ 0 ≤ r.2 := by
      intro r hr
      rw [← hS, hsaved l, List.mem_flatMap] at hr
      obtain ⟨a, ha, hr⟩ := hr
      exact hrep l a ha r hr
    have hsum : ∀ S : List (ℚ × ℚ), (∀ r ∈ S, lo l * r.2 ≤ r.1 ∧ r.1 ≤ hi l * r.2 ∧ 0 ≤ r.2) →
        lo l * ((S.filter fun r => decide (r.2 > 0)).map (·.2)).sum ≤ ((S.filter fun r => decide (r.2 > 0)).map (·.1)).sum ∧
        ((S.filter fun r => decide (r.2 > 0)).map (·.1)).sum ≤ hi l * ((S.filter fun r => decide (r.2 > 0)).map (·.2)).sum ∧
        0 ≤ ((S.filter fun r => decide (r.2 > 0)).map (·.2)).sum ∧
        ((∃ r ∈ S, 0 < r.2) → 0 < ((S.filter fun r => decide (r.2 > 0)).map (·.2)).sum) := by
      intro S
      induction S with
      | nil => intro _; simp
      | cons r S ih =>
        intro h
        obtain ⟨i1, i1', i2, i3⟩ := ih (fun x hx => h x (List.mem_cons_of_mem _ hx))
        obtain ⟨h1, h1', h2⟩ := h r (by simp)
        by_cases hp : r.2 > 0
        · simp only [List.filter_cons, hp, decide_true, if_true, List.map_cons, List.sum_cons]
          refine ⟨by linarith, by linarith, by linarith, fun _ => by linarith⟩
        · simp only [List.filter_cons, hp, decide_false, Bool.false_eq_true, if_false]
          refine ⟨i1, i1', i2, ?_⟩
          rintro ⟨x, hx, hx0⟩
          rcases List.mem_cons.1 hx with rfl | hx
          · exact absurd hx0 hp
          · exact i3 ⟨x, hx, hx0⟩
    obtain ⟨s1, s2, _, s3⟩ := hsum S hS'
    have s3' := s3 ⟨r, hr, hr0⟩
    simp only [hS]
    exact ⟨(le_div_iff₀ s3').2 s1, (div_le_iff₀ s3').2 s2⟩

/-- C22, partial: for every history of scheduling and polling in which all samples of a level take the same time `c l`
(and at least one sample of every level has returned before the last poll), the stored cost per sample of level `l` is `c l`,
however the results were split into batches.  Missing: varying times (`C22_counterexample`). -/
theorem C22_constant_cost_partial (md5 : SampleId → List UInt8) (debug hasDir : Bool) (d : Dirs C) (n : Nat) (c : Nat → ℚ)
    (ops : List (PoolOp Cfg K C)) (hf : FilesOk ops)
    (hdur : ∀ id sim dur, .schedule id sim dur ∈ ops → dur = c sim.level)
    (hsome : ∀ l, l < n → returnedDurs md5 l ops ≠ []) :
    getNOps (((Pool.create (K := K) debug hasDir d).run md5 (ops ++ [.get])).2.foldl storeSamples (hdfFresh _ n)) =
      .ok ((List.range n).map c) := by
  obtain ⟨cost, h1, h2⟩ := C22_cost_between_partial md5 debug hasDir d n c c ops hf (fun id sim dur h => by rw [hdur id sim dur h]; exact ⟨le_refl _, le_refl _⟩) hsome
  rw [h1]
  congr 1
  exact List.map_congr_left fun l hl => le_antisymm (h2 l (List.mem_range.1 hl)).2 (h2 l (List.mem_range.1 hl)).1

/-- Non-vacuity: three polls, two levels. -/
example : let ops : List (PoolOp Nat Nat Nat) := [.schedule (sampleTag 0 0) (exampleSim 0 0 false) 2, .get,
      .schedule (sampleTag 1 0) (exampleSim 1 0 false) 7, .get, .schedule (sampleTag 0 1) (exampleSim 0 0 false) 2]
    getNOps (((Pool.create (K := Nat) false true {}).run exampleMd5 (ops ++ [.get])).2.foldl storeSamples (hdfFresh _ 2)) =
      .ok [2, 7] := by decide +kernel

end MLMC
