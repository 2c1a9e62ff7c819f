import Verif.Proofs.ProgramMem
/-! # C123 Whole programs on the storage in memory -/
namespace MLMC
variable {Cfg K C : Type}

/-- `C123`: every program of proper calls other than `renew_failed_samples` runs on the storage in memory without an exception, and every call returns; if the last call waits for the
samples, then on every level the storage lists exactly the requested samples as scheduled, holds identifiers and results of exactly those whose
simulation returned a well formed result, each once and in the order of the numbers, and lists the others as failed, each once; there are no results of other levels. -/
theorem C123_memory_stores_all_results (env : ProgEnv Cfg K C) (he : env.Proper) (debug hasDir : Bool) (dirs : Dirs C)
    (ops : List ProgOp) (ho : ∀ o ∈ ops, o.Proper env.sims.length) (hn : ∀ o ∈ ops, o ≠ .renew) (t : ℚ) :
    ∃ m, (MemProg.start env debug hasDir dirs).run env (ops ++ [.ask none [t]]) = some m ∧
      (∀ l sim, env.sims[l]? = some sim →
        (Dict.get? m.mem.scheduled l).getD [] = (List.range (wantedCount l ops)).map (sampleTag l) ∧
        (Dict.get? m.mem.successfulIds l).getD [] = (goodSamples env.md5 sim (wantedCount l ops)).map (·.1) ∧
        Dict.get? m.mem.results l = (if goodSamples env.md5 sim (wantedCount l ops) = [] then none
          else some ((goodSamples env.md5 sim (wantedCount l ops)).map (·.2))) ∧
        (((Dict.get? m.mem.failed l).getD []).map (·.1)).Perm (badSamples env.md5 sim (wantedCount l ops))) ∧
      (∀ l, env.sims.length ≤ l → Dict.get? m.mem.results l = none) ∧
      m.mem.levelIds.Nodup := by
  obtain ⟨p, h1, _, h2, _⟩ := C85_program_stores_all_results env he debug hasDir dirs ops ho t
  obtain ⟨m, m1, m2⟩ := inStep_run he (ops ++ [.ask none [t]]) (by
    intro o ho
    rcases List.mem_append.1 ho with h | h
    · exact hn o h
    · rw [List.mem_singleton.1 h]; simp) (inStep_start env debug hasDir dirs) h1
  obtain ⟨sops, s1, s2, s3⟩ := m2.store
  refine ⟨m, m1, ?_, ?_, memRun_keys _ _ s1⟩
  · intro l sim hs
    obtain ⟨x, x1, x2, x3, x4, f, x5, x6⟩ := h2 l sim hs
    obtain ⟨y, y1, y2, y3, y4, y5⟩ := (C25_storages_agree_partial env.sims.length sops m.mem s1).1 l (List.getElem?_eq_some_iff.1 hs).1
    rw [← s2, x1] at y1
    injection y1 with y1; subst y1
    refine ⟨y2.trans x2, y4.trans x3, y3.trans x4, ?_⟩
    rw [x5] at y5
    injection y5 with y5
    rw [y5]; exact x6
  · intro l hl
    rw [(memRun_spec l sops m.mem s1).results, s3 l hl]
    rfl

/-- `C123`: `renew_failed_samples` raises whatever happened before, also when no sample failed. -/
theorem C123_renew_raises (env : ProgEnv Cfg K C) (m : MemProg K C) : m.step env .renew = some (.error .attributeError) := rfl

/-- The chunks `estimate_mean` sees after a program; `n` is the number of the last level with a result plus 1. -/
theorem memory_chunks {F : Type} [Field F] (env : ProgEnv Cfg (Option F) C) (he : env.Proper) (W : Nat) (ha : env.Arrays W) (debug hasDir : Bool) (dirs : Dirs C)
    (ops : List ProgOp) (ho : ∀ o ∈ ops, o.Proper env.sims.length) (hn : ∀ o ∈ ops, o ≠ .renew) (t : ℚ)
    (n : Nat) (hlast : wantedSamples env ops n ≠ []) (habove : ∀ l, n < l → wantedSamples env ops l = []) (sid : Nat) (q : Quantity (Option F))
    (m : MemProg (Option F) C) (hm : (MemProg.start env debug hasDir dirs).run env (ops ++ [.ask none [t]]) = some m) :
    ∃ chunks, ChunksWF W chunks ∧ (∀ ch ∈ chunks, ch.1 < n + 1) ∧ (∀ l, levelData chunks l = wantedSamples env ops l) ∧
      estimateFromMemory (memNumbers m.mem) sid q = estimateMean q (n + 1) (asChunks sid W chunks) := by
  obtain ⟨m', hm', h1, h2, h3⟩ := C123_memory_stores_all_results env he debug hasDir dirs ops ho hn t
  rw [hm] at hm'; injection hm' with hm'; subst hm'
  have hget : ∀ l, (Dict.get? (memNumbers m.mem).results l = none ↔ wantedSamples env ops l = []) ∧
      (∀ vals, Dict.get? (memNumbers m.mem).results l = some vals → vals ≠ [] ∧ asSamples l vals = wantedSamples env ops l ∧
        ∀ e ∈ vals, e.1.length = W ∧ e.2.length = W) := by
    intro l
    rw [memNumbers_get]
    by_cases hl : l < env.sims.length
    · have hs : env.sims[l]? = some env.sims[l] := List.getElem?_eq_getElem hl
      have hlv := he.level l _ hs
      rw [(h1 l _ hs).2.2.1]
      by_cases hg : goodSamples env.md5 env.sims[l] (wantedCount l ops) = []
      · simp [hg, wantedSamples, hs, simSamples]
      · refine ⟨by simp [hg, wantedSamples, hs, simSamples], ?_⟩
        intro vals hv
        rw [if_neg hg] at hv
        simp only [Option.map_some, Option.some.injEq, List.map_map] at hv
        subst hv
        refine ⟨by simpa using hg, ?_, ?_⟩
        · simp [asSamples, wantedSamples, hs, simSamples, hlv, Function.comp_def]
        · intro e hm
          obtain ⟨s, hs, rfl⟩ := List.mem_map.1 hm
          exact good_widths ha (List.getElem_mem hl) _ s hs
    · rw [h2 l (by omega)]
      simp [wantedSamples, List.getElem?_eq_none (Nat.le_of_not_lt hl)]
  have hids : ∀ l, l ∈ (memNumbers m.mem).levelIds ↔ wantedSamples env ops l ≠ [] := by
    intro l
    have := Dict.get?_eq_none_iff (memNumbers m.mem).results l
    rw [(hget l).1] at this
    show l ∈ Dict.keys (memNumbers m.mem).results ↔ _
    tauto
  have hmax : (memNumbers m.mem).levelIds.foldl max 0 = n := by
    obtain ⟨_, a, b⟩ := foldl_max_spec (memNumbers m.mem).levelIds 0
    have hle := a n ((hids n).2 hlast)
    rcases b with b | b
    · omega
    · by_contra hne
      exact (hids _).1 b (habove _ (by omega))
  obtain ⟨chunks, c1, c2, c3, c4⟩ := estimateFromMemory_eq (memNumbers m.mem) sid W q (by rw [memNumbers_ids]; exact h3)
    (List.ne_nil_of_mem ((hids n).2 hlast)) (fun l vals hv => ⟨((hget l).2 vals hv).1, ((hget l).2 vals hv).2.2⟩)
  rw [hmax] at c2 c4
  refine ⟨chunks, c1, c2, fun l => ?_, c4⟩
  rw [c3 l]
  cases hv : Dict.get? (memNumbers m.mem).results l with
  | none => rw [(hget l).1.1 hv]; rfl
  | some vals => exact ((hget l).2 vals hv).2.1

/-- `C123`: if `estimate_mean` of a quantity built on the storage returns, then what it returns are the numbers of used and dropped samples, the arithmetic means and the unbiased
variances over exactly the results of the requested samples, for the levels up to the last one that has a result. -/
theorem C123_memory_estimate {F : Type} [Field F] [CharZero F] (env : ProgEnv Cfg (Option F) C) (he : env.Proper) (W : Nat) (ha : env.Arrays W) (debug hasDir : Bool) (dirs : Dirs C)
    (ops : List ProgOp) (ho : ∀ o ∈ ops, o.Proper env.sims.length) (hn : ∀ o ∈ ops, o ≠ .renew) (t : ℚ)
    (n : Nat) (hlast : wantedSamples env ops n ≠ []) (habove : ∀ l, n < l → wantedSamples env ops l = [])
    (sid : Nat) (q : Quantity (Option F)) (hq : Built sid .qty q) (hid : IdsIdentify q)
    (m : MemProg (Option F) C) (hm : (MemProg.start env debug hasDir dirs).run env (ops ++ [.ask none [t]]) = some m)
    (e : QuantityMean F) (hest : estimateFromMemory (memNumbers m.mem) sid q = .ok e) :
    IsEstimate q sid W (n + 1) (wantedSamples env ops) e := by
  obtain ⟨chunks, c1, c2, c3, c4⟩ := memory_chunks env he W ha debug hasDir dirs ops ho hn t n hlast habove sid q m hm
  rw [c4] at hest
  exact isEstimate_congr (fun l _ => c3 l) (C46_textbook_estimators sid W (n + 1) q hq hid chunks c1 c2 e hest)

/-- `C123`: it does return if the quantity can be evaluated at all (on any samples of this length), is built without broadcasting, and some requested sample gives a value
without NaN. -/
theorem C123_estimate_returns {F : Type} [Field F] [CharZero F] (env : ProgEnv Cfg (Option F) C) (he : env.Proper) (W : Nat) (ha : env.Arrays W) (debug hasDir : Bool) (dirs : Dirs C)
    (ops : List ProgOp) (ho : ∀ o ∈ ops, o.Proper env.sims.length) (hn : ∀ o ∈ ops, o ≠ .renew) (t : ℚ)
    (sid : Nat) (q : Quantity (Option F)) (hq : Built sid .qty q) (hid : IdsIdentify q) (hpl : Plain sid W q)
    (hev : ∃ b : Batch (Option F), b.WF ∧ b.width = W ∧ ∃ v, q.values sid b = .ok v)
    (hused : ∃ l, l < env.sims.length ∧ usedValues q sid W (wantedSamples env ops l) ≠ [])
    (m : MemProg (Option F) C) (hm : (MemProg.start env debug hasDir dirs).run env (ops ++ [.ask none [t]]) = some m) :
    ∃ e, estimateFromMemory (memNumbers m.mem) sid q = .ok e := by
  obtain ⟨l, hl, hu⟩ := hused
  obtain ⟨n, hlast, habove⟩ : ∃ n, wantedSamples env ops n ≠ [] ∧ ∀ l, n < l → wantedSamples env ops l = [] := by
    classical
    have hl0 : wantedSamples env ops l ≠ [] := by
      intro h0; apply hu; rw [h0]; rfl
    have hout : ∀ l, env.sims.length ≤ l → wantedSamples env ops l = [] := by
      intro l hl; simp [wantedSamples, List.getElem?_eq_none hl]
    refine ⟨Nat.findGreatest (fun l => wantedSamples env ops l ≠ []) env.sims.length,
      Nat.findGreatest_spec (P := fun l => wantedSamples env ops l ≠ []) (Nat.le_of_lt hl) hl0, ?_⟩
    intro k hk
    by_cases hk' : k ≤ env.sims.length
    · exact not_not.1 (Nat.findGreatest_is_greatest hk hk')
    · exact hout k (by omega)
  obtain ⟨chunks, c1, c2, c3, c4⟩ := memory_chunks env he W ha debug hasDir dirs ops ho hn t n hlast habove sid q m hm
  rw [c4]
  rw [← c3 l] at hu
  obtain ⟨b, hb, hw, v, hv⟩ := hev
  obtain ⟨⟨res, h⟩, _⟩ := built_good W hq hid
  cases res with
  | none =>
    obtain ⟨x, hx⟩ := h b hb hw
    unfold Quantity.values at hv
    rw [hx] at hv; simp at hv
  | some x =>
    obtain ⟨k, g⟩ := x
    obtain ⟨a, ha, hr⟩ := h b hb hw
    have hk : k = q.size := by
      rw [← hr.m]; exact C37_size_partial sid W q hpl b hw a ha
    subst hk
    exact est_exists hq hid h c1 c2 hu

/-- `C123`: with results on every level, the estimate from memory and the estimate from the HDF file of the same program are the same, or both raise. -/
theorem C123_same_as_hdf {F : Type} [Field F] [CharZero F] (env : ProgEnv Cfg (Option F) C) (he : env.Proper) (W : Nat) (ha : env.Arrays W) (debug hasDir : Bool) (dirs : Dirs C)
    (ops : List ProgOp) (ho : ∀ o ∈ ops, o.Proper env.sims.length) (hn : ∀ o ∈ ops, o ≠ .renew) (t : ℚ)
    (h0 : env.sims ≠ []) (hne : ∀ l, l < env.sims.length → wantedSamples env ops l ≠ [])
    (c : Nat → Nat) (hc : ∀ l, 0 < c l) (sid : Nat) (q : Quantity (Option F)) (hq : Built sid .qty q) (hid : IdsIdentify q)
    (m : MemProg (Option F) C) (hm : (MemProg.start env debug hasDir dirs).run env (ops ++ [.ask none [t]]) = some m)
    (p : Prog (Option F) C) (hp : (Prog.start env debug hasDir dirs).run env (ops ++ [.ask none [t]]) = some p) :
    (∃ e, estimateFromMemory (memNumbers m.mem) sid q = .ok e ∧ estimateFromStorage (storedNumbers p.sys.store) c sid q = .ok e) ∨
    (∃ x y, estimateFromMemory (memNumbers m.mem) sid q = .error x ∧ estimateFromStorage (storedNumbers p.sys.store) c sid q = .error y) := by
  have hpos : 0 < env.sims.length := List.length_pos_iff.2 h0
  have hout : ∀ l, env.sims.length ≤ l → wantedSamples env ops l = [] := by
    intro l hl
    simp [wantedSamples, List.getElem?_eq_none hl]
  obtain ⟨ch, a1, a2, a3, a4⟩ := memory_chunks env he W ha debug hasDir dirs ops ho hn t (env.sims.length - 1) (hne _ (by omega))
    (fun l hl => hout l (by omega)) sid q m hm
  obtain ⟨ch', b1, b2, b3, b4⟩ := program_chunks env he W ha debug hasDir dirs ops ho t hne c hc sid q p hp
  rw [Nat.sub_add_cancel hpos] at a2 a4
  rw [a4, b4]
  refine C45_chunking_and_order sid W env.sims.length q hq hid ch ch' a1 b1 a2 b2 ?_
  intro l
  by_cases hl : l < env.sims.length
  · rw [a3 l, b3 l hl]
  · have e0 : levelData ch' l = [] := by
      rw [levelData, List.filter_eq_nil_iff.2]; · rfl
      intro x hx
      have := b2 x hx
      simp; omega
    rw [a3 l, hout l (by omega), e0]

/-- `C123`: without any result `estimate_mean` raises. -/
theorem C123_no_results {F : Type} [Field F] (env : ProgEnv Cfg (Option F) C) (he : env.Proper) (debug hasDir : Bool) (dirs : Dirs C)
    (ops : List ProgOp) (ho : ∀ o ∈ ops, o.Proper env.sims.length) (hn : ∀ o ∈ ops, o ≠ .renew) (t : ℚ)
    (h0 : ∀ l, wantedSamples env ops l = []) (sid : Nat) (q : Quantity (Option F))
    (m : MemProg (Option F) C) (hm : (MemProg.start env debug hasDir dirs).run env (ops ++ [.ask none [t]]) = some m) :
    estimateFromMemory (memNumbers m.mem) sid q = .error .valueError := by
  obtain ⟨m', hm', h1, h2, _⟩ := C123_memory_stores_all_results env he debug hasDir dirs ops ho hn t
  rw [hm] at hm'; injection hm' with hm'; subst hm'
  have hids : (memNumbers m.mem).levelIds = [] := by
    rw [memNumbers_ids]
    rw [List.eq_nil_iff_forall_not_mem]
    intro l hl
    have hnone : Dict.get? m.mem.results l = none := by
      by_cases hlt : l < env.sims.length
      · have hs : env.sims[l]? = some env.sims[l] := List.getElem?_eq_getElem hlt
        rw [(h1 l _ hs).2.2.1, if_pos]
        simpa [wantedSamples, hs, simSamples] using h0 l
      · exact h2 l (by omega)
    exact (Dict.get?_eq_none_iff _ _).1 hnone hl
  rw [estimateFromMemory, if_pos hids]

/-! ### A concrete program -/

namespace ExProg

def memOps : List ProgOp :=
  [.setInitial [3, 2], .schedule none [0], .ask (some 1) [2], .setTarget [6, 5], .schedule (some (-1)) [], .ask (some (1/2)) [0, 1]]

theorem memOpsProper : ∀ o ∈ memOps, o.Proper env.sims.length := by
  intro o ho
  simp only [memOps, List.mem_cons, List.not_mem_nil, or_false] at ho
  rcases ho with rfl | rfl | rfl | rfl | rfl | rfl <;> simp [ProgOp.Proper, env]

theorem memOpsNoRenew : ∀ o ∈ memOps, o ≠ .renew := by
  intro o ho
  simp only [memOps, List.mem_cons, List.not_mem_nil, or_false] at ho
  rcases ho with rfl | rfl | rfl | rfl | rfl | rfl <;> simp

theorem mem_some : ∀ l, l < env.sims.length → wantedSamples env memOps l ≠ [] := by decide +kernel

theorem mem_above (ops : List ProgOp) : ∀ l, 1 < l → wantedSamples env ops l = [] := by
  intro l hl
  have : env.sims[l]? = none := List.getElem?_eq_none (by simp [env]; omega)
  simp [wantedSamples, this]

/-- The program runs, the estimate returns and has the same numbers as from the HDF storage (Props/Program.lean). -/
example : ∃ m e, (MemProg.start env true true {}).run env (memOps ++ [.ask none [7]]) = some m ∧
    estimateFromMemory (memNumbers m.mem) 7 (.storage 7 (.array [2] .scalar)) = .ok e ∧
    e.nSamples = [4, 2] ∧ e.nRm = [0, 1] ∧ e.lMeans = [[some 51, some 1], [some 2, some 1]] := by
  obtain ⟨m, hm, _⟩ := C123_memory_stores_all_results env proper true true {} memOps memOpsProper memOpsNoRenew 7
  obtain ⟨p, hp, _⟩ := C85_program_stores_all_results env proper true true {} memOps memOpsProper 7
  have hids : IdsIdentify (.storage 7 (.array [2] .scalar) : Quantity (Option ℚ)) := by intro a ha; simp [Quantity.selections] at ha
  obtain ⟨e, h⟩ := C86_estimate_returns env proper 2 arrays true true {} memOps memOpsProper 7 mem_some (fun _ => 3) (fun _ => by omega) 7 _
    (.root (.array [2] .scalar)) hids (.root _ (by decide)) ⟨⟨2, 1, []⟩, by intro s hs; simp at hs, rfl, [], rfl⟩
    ⟨0, by decide, by decide +kernel⟩ p hp
  obtain ⟨e', h1, h2⟩ | ⟨x, y, _, h2⟩ := C123_same_as_hdf env proper 2 arrays true true {} memOps memOpsProper memOpsNoRenew 7 (by simp [env]) mem_some
    (fun _ => 3) (fun _ => by omega) 7 _ (.root (.array [2] .scalar)) hids m hm p hp
  · have hE := C123_memory_estimate env proper 2 arrays true true {} memOps memOpsProper memOpsNoRenew 7 1 (mem_some 1 (by decide)) (mem_above _) 7 _
      (.root (.array [2] .scalar)) hids m hm e' h1
    refine ⟨m, e', hm, h1, ?_, ?_, ?_⟩
    · rw [hE.used]; decide +kernel
    · rw [hE.dropped]; decide +kernel
    · rw [hE.means]; decide +kernel
  · rw [h] at h2; cases h2

/-- With a single requested sample on level 1, whose simulation raises, -/
def shortOps : List ProgOp := [.setInitial [3, 1], .schedule none [0]]

end ExProg

open ExProg in
/-- `C123`: a silent loss.  On two levels the only sample of the finest level failed; the estimate from memory returns, for one level, as if the finest level did not exist, while the estimate
from the HDF storage of the same program raises. -/
theorem C123_counterexample_lost_level : ∃ m p e, (MemProg.start env true true {}).run env (shortOps ++ [.ask none [7]]) = some m ∧
    (Prog.start env true true {}).run env (shortOps ++ [.ask none [7]]) = some p ∧
    env.sims.length = 2 ∧ wantedCount 1 shortOps = 1 ∧
    estimateFromMemory (memNumbers m.mem) 7 (.storage 7 (.array [2] .scalar)) = .ok e ∧ e.nSamples = [2] ∧ e.nRm = [0] ∧ e.lMeans = [[some (99 / 2), some 1]] ∧
    estimateFromStorage (storedNumbers p.sys.store) (fun _ => 3) 7 (.storage 7 (.array [2] .scalar)) = .error .attributeError := by
  have hop : ∀ o ∈ shortOps, o.Proper env.sims.length := by
    intro o ho
    simp only [shortOps, List.mem_cons, List.not_mem_nil, or_false] at ho
    rcases ho with rfl | rfl <;> simp [ProgOp.Proper, env]
  have hnr : ∀ o ∈ shortOps, o ≠ .renew := by
    intro o ho
    simp only [shortOps, List.mem_cons, List.not_mem_nil, or_false] at ho
    rcases ho with rfl | rfl <;> simp
  obtain ⟨m, hm, _⟩ := C123_memory_stores_all_results env proper true true {} shortOps hop hnr 7
  obtain ⟨p, hp, _⟩ := C85_program_stores_all_results env proper true true {} shortOps hop 7
  have hids : IdsIdentify (.storage 7 (.array [2] .scalar) : Quantity (Option ℚ)) := by intro a ha; simp [Quantity.selections] at ha
  have habove : ∀ l, 0 < l → wantedSamples env shortOps l = [] := by
    intro l hl
    by_cases h1 : l = 1
    · subst h1; decide +kernel
    · exact mem_above _ l (by omega)
  have hq : Built 7 .qty (.storage 7 (.array [2] .scalar) : Quantity (Option ℚ)) := .root (.array [2] .scalar)
  have hlast : wantedSamples env shortOps 0 ≠ [] := by decide +kernel
  obtain ⟨e, hest⟩ := C123_estimate_returns env proper 2 arrays true true {} shortOps hop hnr 7 7 _ hq hids (.root _ (by decide))
    ⟨⟨2, 1, []⟩, by intro s hs; simp at hs, rfl, [], rfl⟩ ⟨0, by decide, by decide +kernel⟩ m hm
  have hE := C123_memory_estimate env proper 2 arrays true true {} shortOps hop hnr 7 0 hlast habove 7 _ hq hids m hm e hest
  refine ⟨m, p, e, hm, hp, rfl, by decide +kernel, hest, ?_, ?_, ?_, ?_⟩
  · rw [hE.used]; decide +kernel
  · rw [hE.dropped]; decide +kernel
  · rw [hE.means]; decide +kernel
  · exact C86_empty_level env proper true true {} shortOps hop 7 1 (by decide) (habove 1 (by omega)) _ 7 _ p hp

end MLMC
