import Verif.Props.Program
/-! # Storages holding the same results up to the order give the same estimates -/
namespace MLMC
variable {Cfg K C : Type}

/-- The storage holds on level `l` the well formed results of samples `0 … count l - 1`, each once. -/
def HoldsGood (md5 : SampleId → List UInt8) (sims : List (PoolSim Cfg K C)) (count : Nat → Nat) (g : HdfLevels (ResPart K × ResPart K)) : Prop :=
  g.length = sims.length ∧ ∀ l sim, sims[l]? = some sim → ∃ x stored, g[l]? = some x ∧
    x.collectedValues = (if stored = [] then none else some (stored.map (·.2))) ∧
    stored.Perm (goodSamples md5 sim (count l))

theorem holds_congr {md5 : SampleId → List UInt8} {sims : List (PoolSim Cfg K C)} {n m : Nat → Nat} {g : HdfLevels (ResPart K × ResPart K)}
    (h : HoldsGood md5 sims n g) (e : ∀ l, l < sims.length → n l = m l) : HoldsGood md5 sims m g := by
  refine ⟨h.1, fun l sim hs => ?_⟩
  rw [← e l (List.getElem?_eq_some_iff.1 hs).1]
  exact h.2 l sim hs

theorem holds_oneProcess (env : ProgEnv Cfg K C) (he : env.Proper) (debug hasDir : Bool) (dirs : Dirs C)
    (ops : List ProgOp) (ho : ∀ o ∈ ops, o.Proper env.sims.length) (t : ℚ) (p : Prog K C)
    (hp : (Prog.start env debug hasDir dirs).run env (ops ++ [.ask none [t]]) = some p) :
    HoldsGood env.md5 env.sims (fun l => wantedCount l ops) p.sys.store := by
  obtain ⟨p', hp', hlen, hlev, _⟩ := C85_program_stores_all_results env he debug hasDir dirs ops ho t
  rw [hp] at hp'; injection hp' with hp'; subst hp'
  refine ⟨hlen, fun l sim hs => ?_⟩
  obtain ⟨x, x1, _, _, x4, _⟩ := hlev l sim hs
  exact ⟨x, _, x1, x4, List.Perm.refl _⟩

/-- The chunks `estimate_mean` sees. -/
theorem holds_chunks {F : Type} [Field F] {md5 : SampleId → List UInt8} {sims : List (PoolSim Cfg (Option F) C)}
    (he : ∀ (l : Nat) (sim : PoolSim Cfg (Option F) C), sims[l]? = some sim → sim.level = l) {W : Nat}
    (ha : ProgEnv.Arrays ⟨md5, sims, fun _ => 0⟩ W) {count : Nat → Nat} {g : HdfLevels (ResPart (Option F) × ResPart (Option F))} (hg : HoldsGood md5 sims count g)
    (hne : ∀ l sim, sims[l]? = some sim → simSamples md5 sim (count l) ≠ [])
    (c : Nat → Nat) (hc : ∀ l, 0 < c l) (sid : Nat) (q : Quantity (Option F)) :
    ∃ chunks, ChunksWF W chunks ∧ (∀ ch ∈ chunks, ch.1 < sims.length) ∧
      (∀ l sim, sims[l]? = some sim → (levelData chunks l).Perm (simSamples md5 sim (count l))) ∧
      estimateFromStorage (storedNumbers g) c sid q = estimateMean q sims.length (asChunks sid W chunks) := by
  obtain ⟨hlen, hlev⟩ := hg
  have hlen' : (storedNumbers g).length = sims.length := by simp [storedNumbers, hlen]
  have hvals : ∀ l (hl : l < sims.length), ∃ x, ∃ stored : List (SampleId × (ResPart (Option F) × ResPart (Option F))), (storedNumbers g)[l]? = some x ∧
      x.collectedValues = some (stored.map fun s => (s.2.1.content, s.2.2.content)) ∧
      stored.Perm (goodSamples md5 sims[l] (count l)) := by
    intro l hl
    obtain ⟨x, stored, x1, x4, x6⟩ := hlev l _ (List.getElem?_eq_getElem hl)
    refine ⟨_, stored, by rw [storedNumbers_get, x1]; rfl, ?_, x6⟩
    have hg : stored ≠ [] := by
      intro h0
      apply hne l _ (List.getElem?_eq_getElem hl)
      rw [h0] at x6
      rw [simSamples, x6.nil_eq.symm]; rfl
    rw [if_neg hg] at x4
    simp [x4]
  obtain ⟨chunks, c1, c2, c3, c4⟩ := estimateFromStorage_eq (storedNumbers g) c hc sid W q (by
    intro x hx
    obtain ⟨l, hl, rfl⟩ := List.getElem_of_mem hx
    rw [hlen'] at hl
    obtain ⟨y, stored, y1, y2, y3⟩ := hvals l hl
    rw [List.getElem?_eq_getElem (by rw [hlen']; exact hl)] at y1
    injection y1 with y1
    refine ⟨_, by rw [y1]; exact y2, ?_⟩
    intro v hv
    obtain ⟨s, hs, rfl⟩ := List.mem_map.1 hv
    exact good_widths (env := ⟨md5, sims, fun _ => 0⟩) ha (List.getElem_mem hl) _ s (y3.subset hs))
  rw [hlen'] at c2 c3 c4
  refine ⟨chunks, c1, c2, fun l sim hs => ?_, c4⟩
  obtain ⟨hl, rfl⟩ := List.getElem?_eq_some_iff.1 hs
  obtain ⟨y, stored, y1, y2, y3⟩ := hvals l hl
  rw [c3 l hl]
  have hlv := he l _ (List.getElem?_eq_getElem hl)
  have hv : asSamples l (valsAt (storedNumbers g) l) = stored.map fun s => if l = 0 then [s.2.1.content] else [s.2.1.content, s.2.2.content] := by
    simp [valsAt, y1, y2, asSamples, Function.comp_def]
  rw [hv, simSamples, hlv]
  exact y3.map _

theorem holds_empty {F : Type} [Field F] {md5 : SampleId → List UInt8} {sims : List (PoolSim Cfg (Option F) C)}
    {count : Nat → Nat} {g : HdfLevels (ResPart (Option F) × ResPart (Option F))} (hg : HoldsGood md5 sims count g)
    {l : Nat} {sim : PoolSim Cfg (Option F) C} (hs : sims[l]? = some sim) (h0 : simSamples md5 sim (count l) = []) (c : Nat → Nat) (sid : Nat) (q : Quantity (Option F)) :
    estimateFromStorage (storedNumbers g) c sid q = .error .attributeError := by
  obtain ⟨x, stored, x1, x4, x6⟩ := hg.2 l sim hs
  have hg : goodSamples md5 sim (count l) = [] := by simpa [simSamples] using h0
  rw [hg] at x6
  rw [if_pos x6.eq_nil] at x4
  have herr : (storedNumbers g).zipIdx.mapM (fun (e : LevelGroup (List (Option F) × List (Option F)) × Nat) => e.1.chunks (c e.2) e.2 none) =
      .error .attributeError := by
    apply mapM_error_of
    · refine ⟨(⟨x.scheduled, x.collectedIds, none, x.failed, x.nOps⟩, l), ?_, rfl⟩
      rw [List.mem_zipIdx_iff_getElem?, storedNumbers_get, x1]
      simp [x4]
    · intro y _ e' hy
      simp only [LevelGroup.chunks] at hy
      split at hy
      · injection hy with hy; exact hy.symm
      · simp at hy
  simp only [estimateFromStorage, hdfAllChunks, herr]
  rfl

theorem holds_same_estimates {F : Type} [Field F] [CharZero F] {md5 : SampleId → List UInt8} {sims : List (PoolSim Cfg (Option F) C)}
    (he : ∀ (l : Nat) (sim : PoolSim Cfg (Option F) C), sims[l]? = some sim → sim.level = l) {W : Nat}
    (ha : ProgEnv.Arrays ⟨md5, sims, fun _ => 0⟩ W) {count : Nat → Nat} {g g1 : HdfLevels (ResPart (Option F) × ResPart (Option F))}
    (hg : HoldsGood md5 sims count g) (hg1 : HoldsGood md5 sims count g1)
    (c c1 : Nat → Nat) (hc : ∀ l, 0 < c l) (hc1 : ∀ l, 0 < c1 l) (sid : Nat) (q : Quantity (Option F)) (hq : Built sid .qty q) (hid : IdsIdentify q) :
    (∃ e, estimateFromStorage (storedNumbers g) c sid q = .ok e ∧ estimateFromStorage (storedNumbers g1) c1 sid q = .ok e) ∨
    (∃ x y, estimateFromStorage (storedNumbers g) c sid q = .error x ∧ estimateFromStorage (storedNumbers g1) c1 sid q = .error y) := by
  by_cases hne : ∀ l sim, sims[l]? = some sim → simSamples md5 sim (count l) ≠ []
  · obtain ⟨ch, a1, a2, a3, a4⟩ := holds_chunks he ha hg hne c hc sid q
    obtain ⟨ch', b1, b2, b3, b4⟩ := holds_chunks he ha hg1 hne c1 hc1 sid q
    rw [a4, b4]
    refine C45_chunking_and_order sid W sims.length q hq hid ch ch' a1 b1 a2 b2 ?_
    intro l
    by_cases hl : l < sims.length
    · have hs : sims[l]? = some sims[l] := List.getElem?_eq_getElem hl
      exact (a3 l _ hs).trans (b3 l _ hs).symm
    · have e0 : ∀ ch : List (Nat × List (Sample (Option F))), (∀ x ∈ ch, x.1 < sims.length) → levelData ch l = [] := by
        intro ch h
        rw [levelData, List.filter_eq_nil_iff.2]; · rfl
        intro x hx
        have := h x hx
        simp; omega
      rw [e0 ch a2, e0 ch' b2]
  · right
    push Not at hne
    obtain ⟨l, sim, hs, h0⟩ := hne
    exact ⟨_, _, holds_empty hg hs h0 c sid q, holds_empty hg1 hs h0 c1 sid q⟩

end MLMC
