import Verif.Proofs.Program
import Verif.Props.Storage
import Verif.Proofs.ProgramEstimate
import Verif.Props.EstimateIndex
/-! # C85 Whole programs: what is stored is what the simulations of the requested samples returned -/
namespace MLMC
variable {Cfg K C : Type}

/-- `C85`: every program of proper calls on a new storage with a `OneProcessPool`, whatever simulations do, whatever they take and
however often and with whatever timeouts the pool is asked, runs without an exception, and every call returns.  If the last call waits for
the samples, then on every level the storage lists exactly the requested samples as scheduled, holds the identifiers and results of exactly
those whose simulation returned a well formed result, each once and in the order of the numbers, and lists the others as
failed, each once; none is unfinished. -/
theorem C85_program_stores_all_results (env : ProgEnv Cfg K C) (he : env.Proper) (debug hasDir : Bool) (dirs : Dirs C)
    (ops : List ProgOp) (ho : ∀ o ∈ ops, o.Proper env.sims.length) (t : ℚ) :
    ∃ p, (Prog.start env debug hasDir dirs).run env (ops ++ [.ask none [t]]) = some p ∧
      p.sys.store.length = env.sims.length ∧
      (∀ l sim, env.sims[l]? = some sim → ∃ x, p.sys.store[l]? = some x ∧
        x.scheduled = (List.range (wantedCount l ops)).map (sampleTag l) ∧
        x.collectedIds = (goodSamples env.md5 sim (wantedCount l ops)).map (·.1) ∧
        x.collectedValues = (if goodSamples env.md5 sim (wantedCount l ops) = [] then none
          else some ((goodSamples env.md5 sim (wantedCount l ops)).map (·.2))) ∧
        ∃ f, x.failed = some f ∧ (f.map (·.1)).Perm (badSamples env.md5 sim (wantedCount l ops))) ∧
      hdfUnfinishedIds p.sys.store = .ok [] ∧
      hdfNFinished p.sys.store = .ok ((List.range env.sims.length).map fun l => wantedCount l ops) := by
  obtain ⟨q, h1, h2⟩ := progAt_run he ops (progAt_start env debug hasDir dirs) ho
  obtain ⟨sq, hq⟩ := h2.inv
  obtain ⟨s, _, c1, ⟨a, b, c, c2⟩, c3, c4⟩ := inv_collect hq
  have hw := inv_wait hq 0 [t] (by simp)
  have hrun : (Prog.start env debug hasDir dirs).run env (ops ++ [.ask none [t]]) = some q.collect.2 := by
    rw [prog_run_append, h1]
    simp only [Option.bind_some, Prog.run, Prog.step, Prog.ask, hw, Option.map_some]
  have hsched : SchedInv env.sims.length q.collect.2.sys := by rw [c2]; exact schedInv_step h2.sched _ rfl
  have hcnt : ∀ l, l < env.sims.length → q.collect.2.sys.nSched[l]? = some (wantedCount l ops) := by
    intro l hl; rw [c2]; exact (h2.want l hl).2
  have hlen : q.collect.2.sys.store.length = env.sims.length := hsched.storeLen
  have hgood : ∀ (l : Nat) sim, env.sims[l]? = some sim → savedSucc s l = goodSamples env.md5 sim (wantedCount l ops) := by
    intro l sim hs
    have := c1.good l _ sim (hcnt l (List.getElem?_eq_some_iff.1 hs).1) hs
    rwa [c3, List.append_nil, filter_lost_nil] at this
  have hbad : ∀ (l : Nat) sim, env.sims[l]? = some sim → ((savedFailed s l).map (·.1)).Perm (badSamples env.md5 sim (wantedCount l ops)) := by
    intro l sim hs
    have := c1.bad l _ sim (hcnt l (List.getElem?_eq_some_iff.1 hs).1) hs
    rwa [c4, List.map_nil, List.append_nil, filter_lost_nil (fun id => id)] at this
  have hsaved : ∀ l, l < env.sims.length → savedSched s l = (List.range (wantedCount l ops)).map (sampleTag l) := by
    intro l hl
    obtain ⟨y, y1, y2, _⟩ := hdf_fresh_spec env.sims.length l hl s
    have := hsched.sched l
    rw [hcnt l hl, schedOf, List.getElem?_map, c1.store, y1] at this
    simp only [Option.map_some, Option.some.injEq, levelTags] at this
    rw [← y2, this, List.range_eq_range']
  refine ⟨_, hrun, hlen, ?_, ?_, ?_⟩
  · intro l sim hs
    have hl := (List.getElem?_eq_some_iff.1 hs).1
    obtain ⟨y, y1, y2, y3, y4, y5⟩ := hdf_fresh_spec env.sims.length l hl s
    refine ⟨y, by rw [c1.store]; exact y1, by rw [y2, hsaved l hl], by rw [y3, hgood l sim hs], by rw [y4, hgood l sim hs], _, y5, hbad l sim hs⟩
  · rw [c1.store]
    obtain ⟨r, r1, _, _, r4⟩ := C18_unfinished_ids env.sims.length s
    rw [r1, r4]
    intro l id hl hid
    have hs : env.sims[l]? = some env.sims[l] := List.getElem?_eq_getElem hl
    rw [hsaved l hl] at hid
    rw [hgood l _ hs, (hbad l _ hs).mem_iff]
    exact good_or_bad (he.level l _ hs) hid
  · rw [c1.store, C16_hdf_finished_counts]
    congr 1
    apply List.map_congr_left
    intro l hl
    have hl := List.mem_range.1 hl
    have hs : env.sims[l]? = some env.sims[l] := List.getElem?_eq_getElem hl
    have := (hbad l _ hs).length_eq
    rw [List.length_map] at this
    rw [hgood l _ hs, this, good_add_bad]

theorem clearFailed_map {V : Type} (g : HdfLevels V) : applyOps (clearFailedOps g) g = g.map fun x => { x with failed := x.failed.map fun _ => [] } := by
  refine List.ext_getElem? fun l => ?_
  rw [applyOps_get, List.getElem?_map]
  cases h : g[l]? with
  | none => rfl
  | some x => exact congrArg some (onAll_clearFailed l g x h)

theorem failed_cleared {V : Type} (g : HdfLevels V) (failed : List (List SampleId)) (h : hdfFailedSamples g = .ok failed) :
    hdfFailedSamples (applyOps (clearFailedOps g) g) = .ok (failed.map fun _ => []) := by
  rw [clearFailed_map]
  unfold hdfFailedSamples at h ⊢
  induction g generalizing failed with
  | nil => simp [pure, Except.pure] at h ⊢; subst h; rfl
  | cons x g ih =>
    rw [List.mapM_cons] at h
    rw [List.map_cons, List.mapM_cons]
    cases hx : x.failed with
    | none => simp [LevelGroup.failedIds, hx, bind, Except.bind] at h
    | some f =>
      simp only [LevelGroup.failedIds, hx, bind, Except.bind] at h
      cases hm : List.mapM LevelGroup.failedIds g with
      | error e =>
        simp only [hm] at h
        cases h
      | ok fs =>
        simp only [hm, pure, Except.pure, Except.ok.injEq] at h
        subst h
        simp only [LevelGroup.failedIds, Option.map_some, List.map_nil, bind, Except.bind, ih fs hm, pure, Except.pure, List.map_cons]

theorem renewLoop_store (env : ProgEnv Cfg K C) : ∀ (L : List (Nat × SampleId)) (p : Prog K C),
    (p.renewLoop env L).1.sys.store = p.sys.store ∧ ((p.renewLoop env L).2 = none → (p.renewLoop env L).1.sys.renewed = p.sys.renewed ++ L)
  | [], p => ⟨rfl, fun _ => by simp [Prog.renewLoop]⟩
  | (l, id) :: rest, p => by
    rw [Prog.renewLoop]
    cases env.sims[l]? with
    | none => exact ⟨rfl, fun h => by simp at h⟩
    | some sim =>
      simp only
      cases (p.pool.schedule env.md5 sim id (env.dur (p.sys.handed.length + p.sys.renewed.length))).2 with
      | some e => exact ⟨rfl, fun h => by simp at h⟩
      | none =>
        obtain ⟨h1, h2⟩ := renewLoop_store env rest ⟨{ p.sys with renewed := p.sys.renewed ++ [(l, id)] },
          (p.pool.schedule env.md5 sim id (env.dur (p.sys.handed.length + p.sys.renewed.length))).1⟩
        exact ⟨h1, fun h => by rw [h2 h]; simp⟩

/-- `C85`: `renew_failed_samples`, in any state and whatever the simulations and their files are like.  If it returns, every failed sample was scheduled again, once, with the simulation of its
level, and no sample is listed as failed; if it raises, nothing in the storage has changed. -/
theorem C85_renew_all_or_nothing (env : ProgEnv Cfg K C) (p : Prog K C) :
    ((p.renew env).2 = none → ∃ failed, hdfFailedSamples p.sys.store = .ok failed ∧
      (p.renew env).1.sys.renewed = p.sys.renewed ++ (failed.zipIdx.flatMap fun (ids, l) => ids.map fun i => (l, i)) ∧
      hdfFailedSamples (p.renew env).1.sys.store = .ok (failed.map fun _ => [])) ∧
    (∀ e, (p.renew env).2 = some e → (p.renew env).1.sys.store = p.sys.store) := by
  rw [Prog.renew]
  cases hf : hdfFailedSamples p.sys.store with
  | error e => exact ⟨fun h => by simp at h, fun _ _ => rfl⟩
  | ok failed =>
    simp only
    obtain ⟨h1, h2⟩ := renewLoop_store env (failed.zipIdx.flatMap fun (ids, l) => ids.map fun i => (l, i)) p
    cases hr : p.renewLoop env (failed.zipIdx.flatMap fun (ids, l) => ids.map fun i => (l, i)) with
    | mk q e =>
      rw [hr] at h1 h2
      cases e with
      | some e => exact ⟨fun h => by simp at h, fun _ _ => h1⟩
      | none =>
        refine ⟨fun _ => ⟨failed, rfl, h2 rfl, ?_⟩, fun _ h => by simp at h⟩
        simp only at h1 ⊢
        rw [h1]
        exact failed_cleared p.sys.store failed hf

/-! # C86 Whole programs: what is estimated -/

theorem good_widths {env : ProgEnv Cfg K C} {W : Nat} (ha : env.Arrays W) {sim : PoolSim Cfg K C} (hs : sim ∈ env.sims) (k : Nat) :
    ∀ s ∈ goodSamples env.md5 sim k, s.2.1.content.length = W ∧ s.2.2.content.length = W := by
  intro s hm
  obtain ⟨i, _, h⟩ := List.mem_filterMap.1 hm
  cases ho : outcome env.md5 (sampleTag sim.level i) sim with
  | raised m => simp [ho] at h
  | notPair m => simp [ho] at h
  | pair f c =>
    simp only [ho] at h
    split at h
    · rename_i hw
      injection h with h; subst h
      obtain ⟨⟨a, rfl⟩, b, rfl⟩ := ha.arrays sim hs _ _ _ ho
      have := hw a b rfl rfl
      rw [ha.fmt sim hs] at this
      exact this
    · simp at h

theorem storedNumbers_get {K : Type} (g : HdfLevels (ResPart K × ResPart K)) (l : Nat) :
    (storedNumbers g)[l]? = (g[l]?).map fun x =>
      ⟨x.scheduled, x.collectedIds, x.collectedValues.map fun vs => vs.map fun v => (v.1.content, v.2.content), x.failed, x.nOps⟩ := by
  simp [storedNumbers]

/-- The chunks `estimate_mean` sees after a program. -/
theorem program_chunks {F : Type} [Field F] (env : ProgEnv Cfg (Option F) C) (he : env.Proper) (W : Nat) (ha : env.Arrays W) (debug hasDir : Bool) (dirs : Dirs C)
    (ops : List ProgOp) (ho : ∀ o ∈ ops, o.Proper env.sims.length) (t : ℚ)
    (hne : ∀ l, l < env.sims.length → wantedSamples env ops l ≠ [])
    (c : Nat → Nat) (hc : ∀ l, 0 < c l) (sid : Nat) (q : Quantity (Option F))
    (p : Prog (Option F) C) (hp : (Prog.start env debug hasDir dirs).run env (ops ++ [.ask none [t]]) = some p) :
    ∃ chunks, ChunksWF W chunks ∧ (∀ ch ∈ chunks, ch.1 < env.sims.length) ∧ (∀ l, l < env.sims.length → levelData chunks l = wantedSamples env ops l) ∧
      estimateFromStorage (storedNumbers p.sys.store) c sid q = estimateMean q env.sims.length (asChunks sid W chunks) := by
  obtain ⟨p', hp', hlen, hlev, _⟩ := C85_program_stores_all_results env he debug hasDir dirs ops ho t
  rw [hp] at hp'; injection hp' with hp'; subst hp'
  have hlen' : (storedNumbers p.sys.store).length = env.sims.length := by simp [storedNumbers, hlen]
  have hvals : ∀ l (hl : l < env.sims.length), ∃ x, (storedNumbers p.sys.store)[l]? = some x ∧
      x.collectedValues = some ((goodSamples env.md5 env.sims[l] (wantedCount l ops)).map fun s => (s.2.1.content, s.2.2.content)) := by
    intro l hl
    obtain ⟨x, x1, _, _, x4, _⟩ := hlev l _ (List.getElem?_eq_getElem hl)
    refine ⟨_, by rw [storedNumbers_get, x1]; rfl, ?_⟩
    have hg : goodSamples env.md5 env.sims[l] (wantedCount l ops) ≠ [] := by
      intro h0
      apply hne l hl
      simp [wantedSamples, hl, simSamples, h0]
    rw [if_neg hg] at x4
    simp [x4]
  obtain ⟨chunks, c1, c2, c3, c4⟩ := estimateFromStorage_eq (storedNumbers p.sys.store) c hc sid W q (by
    intro x hx
    obtain ⟨l, hl, rfl⟩ := List.getElem_of_mem hx
    rw [hlen'] at hl
    obtain ⟨y, y1, y2⟩ := hvals l hl
    rw [List.getElem?_eq_getElem (by rw [hlen']; exact hl)] at y1
    injection y1 with y1
    refine ⟨_, by rw [y1]; exact y2, ?_⟩
    intro v hv
    obtain ⟨s, hs, rfl⟩ := List.mem_map.1 hv
    exact good_widths ha (List.getElem_mem hl) _ s hs)
  rw [hlen'] at c2 c3 c4
  refine ⟨chunks, c1, c2, fun l hl => ?_, c4⟩
  obtain ⟨y, y1, y2⟩ := hvals l hl
  rw [c3 l hl]
  have hlv := he.level l _ (List.getElem?_eq_getElem hl)
  simp [valsAt, y1, y2, asSamples, wantedSamples, hl, simSamples, hlv, Function.comp_def]

/-- `C86`: a program as in C85 that ends by waiting for its samples, on simulations returning arrays, with at least one well formed result on
every level.  If `estimate_mean` of a quantity built on its storage returns, then what it returns are the numbers of used and dropped samples,
the arithmetic means and the unbiased variances over exactly the results of the requested samples — whatever the order of calls, timeouts,
durations, failures and the chunk lengths of the file. -/
theorem C86_program_estimate {F : Type} [Field F] [CharZero F] (env : ProgEnv Cfg (Option F) C) (he : env.Proper) (W : Nat) (ha : env.Arrays W) (debug hasDir : Bool) (dirs : Dirs C)
    (ops : List ProgOp) (ho : ∀ o ∈ ops, o.Proper env.sims.length) (t : ℚ)
    (hne : ∀ l, l < env.sims.length → wantedSamples env ops l ≠ [])
    (c : Nat → Nat) (hc : ∀ l, 0 < c l) (sid : Nat) (q : Quantity (Option F)) (hq : Built sid .qty q) (hid : IdsIdentify q)
    (p : Prog (Option F) C) (hp : (Prog.start env debug hasDir dirs).run env (ops ++ [.ask none [t]]) = some p)
    (e : QuantityMean F) (hest : estimateFromStorage (storedNumbers p.sys.store) c sid q = .ok e) :
    IsEstimate q sid W env.sims.length (wantedSamples env ops) e := by
  obtain ⟨chunks, c1, c2, c3, c4⟩ := program_chunks env he W ha debug hasDir dirs ops ho t hne c hc sid q p hp
  rw [c4] at hest
  exact isEstimate_congr c3 (C46_textbook_estimators sid W env.sims.length q hq hid chunks c1 c2 e hest)

/-- `C86`: it does return if the quantity can be evaluated at all (on any samples of this length), is built without broadcasting, and some
requested sample gives a value without NaN. -/
theorem C86_estimate_returns {F : Type} [Field F] [CharZero F] (env : ProgEnv Cfg (Option F) C) (he : env.Proper) (W : Nat) (ha : env.Arrays W) (debug hasDir : Bool) (dirs : Dirs C)
    (ops : List ProgOp) (ho : ∀ o ∈ ops, o.Proper env.sims.length) (t : ℚ)
    (hne : ∀ l, l < env.sims.length → wantedSamples env ops l ≠ [])
    (c : Nat → Nat) (hc : ∀ l, 0 < c l) (sid : Nat) (q : Quantity (Option F)) (hq : Built sid .qty q) (hid : IdsIdentify q) (hpl : Plain sid W q)
    (hev : ∃ b : Batch (Option F), b.WF ∧ b.width = W ∧ ∃ v, q.values sid b = .ok v)
    (hused : ∃ l, l < env.sims.length ∧ usedValues q sid W (wantedSamples env ops l) ≠ [])
    (p : Prog (Option F) C) (hp : (Prog.start env debug hasDir dirs).run env (ops ++ [.ask none [t]]) = some p) :
    ∃ e, estimateFromStorage (storedNumbers p.sys.store) c sid q = .ok e := by
  obtain ⟨chunks, c1, c2, c3, c4⟩ := program_chunks env he W ha debug hasDir dirs ops ho t hne c hc sid q p hp
  rw [c4]
  obtain ⟨l, hl, hu⟩ := hused
  rw [← c3 l hl] at hu
  obtain ⟨b, hb, hw, v, hv⟩ := hev
  obtain ⟨⟨res, h⟩, _⟩ := built_good W hq hid
  cases res with
  | none =>
    obtain ⟨x, hx⟩ := h b hb hw
    unfold Quantity.values at hv
    rw [hx] at hv; simp at hv
  | some x =>
    obtain ⟨m, g⟩ := x
    obtain ⟨a, ha, hr⟩ := h b hb hw
    have hm : m = q.size := by
      rw [← hr.m]; exact C37_size_partial sid W q hpl b hw a ha
    subst hm
    exact est_exists hq hid h c1 c2 hu

/-- `C86`: if no sample of some level gave a well formed result, `estimate_mean` raises. -/
theorem C86_empty_level {F : Type} [Field F] (env : ProgEnv Cfg (Option F) C) (he : env.Proper) (debug hasDir : Bool) (dirs : Dirs C)
    (ops : List ProgOp) (ho : ∀ o ∈ ops, o.Proper env.sims.length) (t : ℚ) (l : Nat) (hl : l < env.sims.length) (h0 : wantedSamples env ops l = [])
    (c : Nat → Nat) (sid : Nat) (q : Quantity (Option F)) (p : Prog (Option F) C)
    (hp : (Prog.start env debug hasDir dirs).run env (ops ++ [.ask none [t]]) = some p) :
    estimateFromStorage (storedNumbers p.sys.store) c sid q = .error .attributeError := by
  obtain ⟨p', hp', hlen, hlev, _⟩ := C85_program_stores_all_results env he debug hasDir dirs ops ho t
  rw [hp] at hp'; injection hp' with hp'; subst hp'
  obtain ⟨x, x1, _, _, x4, _⟩ := hlev l _ (List.getElem?_eq_getElem hl)
  have hg : goodSamples env.md5 env.sims[l] (wantedCount l ops) = [] := by
    simpa [wantedSamples, hl, simSamples] using h0
  rw [if_pos hg] at x4
  have herr : (storedNumbers p.sys.store).zipIdx.mapM (fun (e : LevelGroup (List (Option F) × List (Option F)) × Nat) => e.1.chunks (c e.2) e.2 none) =
      .error .attributeError := by
    apply mapM_error_of
    · refine ⟨(⟨x.scheduled, x.collectedIds, none, x.failed, x.nOps⟩, l), ?_, rfl⟩
      rw [List.mem_zipIdx_iff_getElem?, storedNumbers_get, x1]
      simp [x4]
    · intro y _ e' hy
      simp only [LevelGroup.chunks] at hy
      split at hy
      · injection hy with hy; exact hy.symm
      · simp at hy
  simp only [estimateFromStorage, hdfAllChunks, herr]
  rfl

/-! ### A concrete program: two levels, some failing samples, renewal, a raised target -/

namespace ExProg

/-- The last character decides about seed and outcome; simulations of samples ending with 0, 3, 6, 9 raise. -/
def md5 (id : SampleId) : List UInt8 := [UInt8.ofNat (id.getLast?.getD 'x').toNat, 0, 0, 0]

def sim (l : Nat) : PoolSim Unit (Option ℚ) Unit :=
  { level := l, cfg := (), workspace := true, filesOk := true
    calculate := fun _ seed => if seed % 3 = 0 then .raised ['e'] else
      .pair (.array [some (seed : ℚ), some 1]) (.array [if l = 0 then some 0 else some (seed - 2 : ℚ), if seed = 52 then none else some 0])
    files := fun _ _ => (), fmt := [⟨['q'], ['m'], [2], [1], [.name ['a']]⟩] }

def env : ProgEnv Unit (Option ℚ) Unit := { md5 := md5, sims := [sim 0, sim 1], dur := fun i => i + 1 }

def ops : List ProgOp :=
  [.setInitial [3, 2], .schedule none [0], .ask (some 1) [2], .renew, .setTarget [6, 5], .schedule (some (-1)) [], .renew, .ask (some (1/2)) [0, 1], .renew]

theorem proper : env.Proper := by
  constructor
  · intro l s h
    rcases l with _ | _ | l
    · simp [env] at h; subst h; rfl
    · simp [env] at h; subst h; rfl
    · simp [env] at h
  · intro s hs _
    simp [env] at hs
    rcases hs with rfl | rfl <;> rfl

theorem opsProper : ∀ o ∈ ops, o.Proper env.sims.length := by
  intro o ho
  simp only [ops, List.mem_cons, List.not_mem_nil, or_false] at ho
  rcases ho with rfl | rfl | rfl | rfl | rfl | rfl | rfl | rfl | rfl <;> simp [ProgOp.Proper, env]

theorem arrays : env.Arrays 2 := by
  constructor
  · intro s hs
    simp [env] at hs
    rcases hs with rfl | rfl <;> rfl
  · intro s hs seed f c h
    simp [env] at hs
    rcases hs with rfl | rfl <;>
    · simp only [sim] at h
      split at h
      · simp at h
      · injection h with h1 h2; exact ⟨⟨_, h1.symm⟩, _, h2.symm⟩

/-- Both cases occur: with the files of the simulations missing, renewing two failed samples raises. -/
example : (({ Prog.start env true true {} with sys := { (Prog.start env true true {}).sys with store := [{ failed := some [(sampleTag 0 0, ['e'])] }, {}] } } : Prog (Option ℚ) Unit).renew env).2 = none ∧
    (({ Prog.start env true true {} with sys := { (Prog.start env true true {}).sys with store := [{ failed := some [(sampleTag 0 0, ['e'])] }, {}] } } : Prog (Option ℚ) Unit).renew
      { env with sims := [{ sim 0 with filesOk := false }, sim 1] }).2.isSome = true := by decide +kernel

example : wantedCount 0 ops = 6 ∧ wantedCount 1 ops = 5 ∧
    (goodSamples md5 (sim 0) 6).map (fun s => (s.1.getLast?.getD 'x').toNat) = [49, 50, 52, 53] ∧
    (badSamples md5 (sim 1) 5).map (fun s => (s.getLast?.getD 'x').toNat) = [48, 51] := by decide +kernel

example := C85_program_stores_all_results env proper true true {} ops opsProper 7

theorem some_samples : ∀ l, l < env.sims.length → wantedSamples env ops l ≠ [] := by decide +kernel

/-- The numbers the estimate must have: level 0 uses samples 1, 2, 4 and 5 (the NaN in the coarse part of sample 4 is not read there), level 1
samples 1 and 2 (sample 4 is dropped). -/
example : ∃ p e, (Prog.start env true true {}).run env (ops ++ [.ask none [7]]) = some p ∧
    estimateFromStorage (storedNumbers p.sys.store) (fun _ => 3) 7 (.storage 7 (.array [2] .scalar)) = .ok e ∧
    IsEstimate (.storage 7 (.array [2] .scalar)) 7 2 2 (wantedSamples env ops) e ∧
    e.nSamples = [4, 2] ∧ e.nRm = [0, 1] ∧ e.lMeans = [[some 51, some 1], [some 2, some 1]] := by
  obtain ⟨p, hp, _⟩ := C85_program_stores_all_results env proper true true {} ops opsProper 7
  have hids : IdsIdentify (.storage 7 (.array [2] .scalar) : Quantity (Option ℚ)) := by intro a ha; simp [Quantity.selections] at ha
  obtain ⟨e, h⟩ := C86_estimate_returns env proper 2 arrays true true {} ops opsProper 7 some_samples (fun _ => 3) (fun _ => by omega) 7 _
    (.root (.array [2] .scalar)) hids (.root _ (by decide)) ⟨⟨2, 1, []⟩, by intro s hs; simp at hs, rfl, [], rfl⟩
    ⟨0, by decide, by decide +kernel⟩ p hp
  have hE := C86_program_estimate env proper 2 arrays true true {} ops opsProper 7 some_samples (fun _ => 3) (fun _ => by omega) 7 _
    (.root (.array [2] .scalar)) hids p hp e h
  refine ⟨p, e, hp, h, hE, ?_, ?_, ?_⟩
  · rw [hE.used]; decide +kernel
  · rw [hE.dropped]; decide +kernel
  · rw [hE.means]; decide +kernel

/-- With one sample per level, level 0 has no result. -/
example : wantedSamples env [.setInitial [1, 2], .schedule none [0]] 0 = [] := by decide +kernel

end ExProg

end MLMC
