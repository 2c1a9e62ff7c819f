import Verif.Proofs.Sampler
/-!
Properties C01–C05, C07 of the sampler (English text in /verif/properties.jsonl).
-/
namespace MLMC
variable {V : Type}

/-! ## C01 Sample identifiers are unique -/

/-- C01: distinct (level, running number) pairs have distinct identifiers, without any bound. -/
theorem C01_sample_ids_unique (l n l' n' : Nat) :
    sampleTag l n = sampleTag l' n' ↔ l = l' ∧ n = n' :=
  ⟨sampleTag_injective, by rintro ⟨rfl, rfl⟩; rfl⟩

example : sampleTag 3 42 = "L03_S0000042".toList ∧ sampleTag 123 12345678 = "L123_S12345678".toList := by decide

/-! ## C02 No identifier is ever scheduled twice by schedule_samples -/

/-- C02, first part: in every history without a crash inside `schedule_samples` (restarts between calls allowed) the
identifiers handed to the pool are pairwise distinct. -/
theorem C02_no_id_scheduled_twice (nLevels : Nat) (ops : List (SamplerOp V))
    (hops : ∀ o ∈ ops, ∀ k, o ≠ .crashInSchedule k) :
    (((Sys.fresh V nLevels).run ops).handed.map (·.2)).Nodup := by
  have h := schedInv_run (n := nLevels) ops (Sys.fresh V nLevels) (schedInv_fresh _) (by
    intro o ho
    cases o <;> first | rfl | (rename_i k; exact absurd rfl (hops _ ho k)))
  refine List.Nodup.map_on ?_ h.nodup
  intro a ha b hb hab
  obtain ⟨i, _, _, _, hi⟩ := h.form a ha
  obtain ⟨j, _, _, _, hj⟩ := h.form b hb
  have := sampleTag_injective (hi.symm.trans (hab.trans hj))
  exact Prod.ext this.1 hab

/-- Non-vacuity: a history with two scheduling rounds, polling and a restart hands over six samples. -/
example : (((Sys.fresh Unit 3).run
    [.setInitial [2, 1, 1], .schedule, .poll [(0, [(sampleTag 0 0, ())])] [] [], .restart,
     .setTarget [3, 0, 2], .schedule]).handed.map (·.2)) =
    [sampleTag 0 0, sampleTag 0 1, sampleTag 1 0, sampleTag 2 0, sampleTag 0 2, sampleTag 2 1] := by
  decide +kernel

/-- C02, second part: after a crash inside `schedule_samples`, every identifier that was handed over but not recorded
by the storage (its running number is at least the recorded count) is handed over again by the next
`schedule_samples` whose target covers it. -/
theorem C02_crash_reuses_ids (s : Sys V) (k l i c : Nat) (v : List ℚ) (t : ℚ)
    (hlen : v.length = s.store.length)
    (hh : (l, sampleTag l i) ∈ (s.step (.crashInSchedule k)).handed)
    (hc : (s.step (.crashInSchedule k)).nSched[l]? = some c) (hci : c ≤ i)
    (ht : v[l]? = some t) (hti : (i + 1 : ℚ) ≤ t) :
    2 ≤ (((s.step (.crashInSchedule k)).run [.setInitial v, .schedule]).handed).count (l, sampleTag l i) := by
  have hstore : (s.step (.crashInSchedule k)).store.length = s.store.length := by
    simp only [Sys.step]
    split
    · show (runActs _ s).store.length = _
      generalize (schedActs 0 s.plan).take k = acts
      have : ∀ (acts : List SchedAct) (s : Sys V), (runActs acts s).store.length = s.store.length := by
        intro acts
        induction acts with
        | nil => intro s; rfl
        | cons a acts ih =>
          intro s
          rw [runActs_cons, ih]
          cases a with
          | begin l => rfl
          | hand l => simp only [SchedAct.apply]; split <;> rfl
          | save l => simp [SchedAct.apply, save_eq]
      exact this acts s
    · rfl
  have hn : (s.step (.crashInSchedule k)).nSched.length = (s.step (.crashInSchedule k)).store.length := by
    simp only [Sys.step, Sys.restart, Sys.construct, hdfLoadScheduled, List.length_map]
  generalize s.step (.crashInSchedule k) = s1 at *
  have hcl := schedule_closed { s1 with target := v } (Or.inl (by simp; omega))
  show 2 ≤ List.count _ (Sys.schedule { s1 with target := v }).handed
  rw [hcl.2.2.2.2.2.2, List.count_append]
  have h1 : 1 ≤ List.count (l, sampleTag l i) s1.handed := List.one_le_count_iff.2 hh
  have h2 : 1 ≤ List.count (l, sampleTag l i)
      (newHanded { s1 with target := v } (Sys.plan { s1 with target := v })) := by
    refine List.one_le_count_iff.2 ?_
    simp only [newHanded, List.mem_flatMap, List.mem_range, List.mem_map]
    have hp := plan_get { s1 with target := v } l
    simp only [ht, hc] at hp
    have hlt : l < (Sys.plan { s1 with target := v }).length := by
      rcases Nat.lt_or_ge l (Sys.plan { s1 with target := v }).length with h | h
      · exact h
      · rw [List.getElem?_eq_none h] at hp; simp at hp
    refine ⟨l, hlt, sampleTag l i, ?_, rfl⟩
    rw [mem_levelTags, hp, hc]
    simp only [Option.getD_some]
    refine ⟨i, hci, ?_, rfl⟩
    rw [add_planCount]
    have : ((i : ℤ) + 1) ≤ ⌊t⌋ := Int.le_floor.2 (by exact_mod_cast hti)
    omega
  show 2 ≤ List.count _ s1.handed + _
  omega

/-- Non-vacuity of the crash window: killed after handing over two of three samples of level 0, the same two
identifiers are handed over again. -/
example : (((Sys.fresh Unit 3).run
    [.setInitial [3, 1, 1], .crashInSchedule 3, .setInitial [3, 1, 1], .schedule]).handed.map (·.2)) =
    [sampleTag 0 0, sampleTag 0 1, sampleTag 0 0, sampleTag 0 1, sampleTag 0 2, sampleTag 1 0, sampleTag 2 0] := by
  decide +kernel

/-! ## C03 schedule_samples schedules exactly up to the target -/

/-- C03: in any state whose vectors have one entry per level, after `schedule_samples`, for every level with target
`t` and `k` samples scheduled before: the new count is `max k ⌊t⌋`; the storage's scheduled list is extended by exactly
the tags with running numbers `k, k+1, …` and nothing else of the level's data changes; the pool got exactly these
tags of this level (with the level's own simulation object), once each and in this order; targets are unchanged. -/
theorem C03_schedule_exactly_to_target (s : Sys V)
    (hl : s.target.length = s.nSched.length) (hs : s.store.length = s.nSched.length)
    (l : Nat) (t : ℚ) (k : Nat) (x : LevelGroup V)
    (ht : s.target[l]? = some t) (hk : s.nSched[l]? = some k) (hx : s.store[l]? = some x) :
    let new := (List.range' k (max k ⌊t⌋.toNat - k)).map (sampleTag l)
    (s.step .schedule).nSched[l]? = some (max k ⌊t⌋.toNat) ∧
    (s.step .schedule).store[l]? = some { x with scheduled := x.scheduled ++ new } ∧
    (∃ h, (s.step .schedule).handed = s.handed ++ h ∧
      (h.filter (fun p => p.1 = l)).map (·.2) = new ∧ (∀ p ∈ h, p.1 < s.nSched.length)) ∧
    (s.step .schedule).target = s.target ∧
    (s.step .schedule).nSched.length = s.nSched.length ∧ (s.step .schedule).store.length = s.store.length := by
  obtain ⟨h1, _, h3, h4, h5, h6, h7⟩ := schedule_closed s (Or.inl hl)
  have hp := plan_get s l
  simp only [ht, hk] at hp
  have hpl : s.plan.length = s.nSched.length := by simp [Sys.plan, hl]
  have hll : l < s.nSched.length := by
    rcases Nat.lt_or_ge l s.nSched.length with h | h
    · exact h
    · rw [List.getElem?_eq_none h] at hk; simp at hk
  have hc := add_planCount t k
  have hd : max k ⌊t⌋.toNat - k = planCount t k := by omega
  have hnew : (List.range' k (max k ⌊t⌋.toNat - k)).map (sampleTag l) = levelTags l k (planCount t k) := by
    rw [hd]; rfl
  simp only [hnew]
  refine ⟨?_, ?_, ⟨newHanded s s.plan, h7, ?_, ?_⟩, h1, h3, h4⟩
  · show s.schedule.nSched[l]? = _
    rw [h5 l, hk, hp]; simp [hc]
  · show s.schedule.store[l]? = _
    rw [h6 l, hx, hk, hp]; rfl
  · have key : ∀ (m : Nat), l < m →
        (((List.range m).flatMap fun i =>
          (levelTags i ((s.nSched[i]?).getD 0) ((s.plan[i]?).getD 0)).map (Prod.mk i)).filter
            (fun p : Nat × SampleId => p.1 = l)).map (·.2) = levelTags l k (planCount t k) := by
      intro m
      induction m with
      | zero => intro h; omega
      | succ m ih =>
        intro hm
        rw [List.range_succ, List.flatMap_append, List.filter_append, List.map_append]
        simp only [List.flatMap_singleton]
        by_cases e : l = m
        · subst e
          have h0 : ((List.range l).flatMap fun i =>
              (levelTags i ((s.nSched[i]?).getD 0) ((s.plan[i]?).getD 0)).map (Prod.mk i)).filter
                (fun p : Nat × SampleId => p.1 = l) = [] := by
            rw [List.filter_eq_nil_iff]
            intro p hp
            simp only [List.mem_flatMap, List.mem_range, List.mem_map] at hp
            obtain ⟨i, hi, _, _, rfl⟩ := hp
            simp; omega
          rw [h0, hk, hp]
          simp [List.filter_map, Function.comp_def]
        · have h0 : ((levelTags m ((s.nSched[m]?).getD 0) ((s.plan[m]?).getD 0)).map (Prod.mk m)).filter
                (fun p : Nat × SampleId => p.1 = l) = [] := by
            rw [List.filter_eq_nil_iff]
            intro p hp
            simp only [List.mem_map] at hp
            obtain ⟨_, _, rfl⟩ := hp
            simp; omega
          rw [h0, ih (by omega)]; simp
    exact key _ (by omega)
  · intro p hp
    have := (mem_newHanded hp).1
    omega

/-- Non-vacuity: targets above, below and equal to the scheduled numbers. -/
example :
    let s : Sys Unit := (Sys.fresh Unit 3).run [.setInitial [2, 3, 1], .schedule, .setInitial [4, 1, 1]]
    s.target.length = s.nSched.length ∧ s.store.length = s.nSched.length ∧
    s.nSched = [2, 3, 1] ∧ (s.step .schedule).nSched = [4, 3, 1] ∧
    (s.step .schedule).store.map (·.scheduled) =
      [[sampleTag 0 0, sampleTag 0 1, sampleTag 0 2, sampleTag 0 3],
       [sampleTag 1 0, sampleTag 1 1, sampleTag 1 2], [sampleTag 2 0]] := by
  decide +kernel

/-- C03 (global form): in every history without a crash inside `schedule_samples`, at every moment the storage's list of
a level is exactly the tags `0 … n-1` where `n` is the sampler's count for that level. -/
theorem C03_scheduled_list_is_prefix (nLevels : Nat) (ops : List (SamplerOp V))
    (hops : ∀ o ∈ ops, ∀ k, o ≠ .crashInSchedule k) (l : Nat) (hl : l < nLevels) :
    ∃ x n, ((Sys.fresh V nLevels).run ops).store[l]? = some x ∧
      ((Sys.fresh V nLevels).run ops).nSched[l]? = some n ∧
      x.scheduled = (List.range n).map (sampleTag l) := by
  have h := schedInv_run (n := nLevels) ops (Sys.fresh V nLevels) (schedInv_fresh _) (by
    intro o ho
    cases o <;> first | rfl | (rename_i k; exact absurd rfl (hops _ ho k)))
  have hs := h.sched l
  have hn : l < ((Sys.fresh V nLevels).run ops).nSched.length := by rw [h.len]; exact hl
  have hst : l < ((Sys.fresh V nLevels).run ops).store.length := by rw [h.storeLen]; exact hl
  refine ⟨_, _, List.getElem?_eq_getElem hst, List.getElem?_eq_getElem hn, ?_⟩
  simp only [schedOf, List.getElem?_map, List.getElem?_eq_getElem hst, List.getElem?_eq_getElem hn,
    Option.map_some, Option.some.injEq] at hs
  rw [hs, levelTags, List.range_eq_range']

/-! ## C04 Raising targets never lowers a target -/

/-- C04: `set_level_target_n_samples` takes the maximum on listed levels, keeps the others, and is idempotent. -/
theorem C04_targets_only_raised (s : Sys V) (v : List ℚ) (hv : v.length ≤ s.target.length) :
    let s' := s.step (.setTarget v)
    s'.target.length = s.target.length ∧
    (∀ (l : Nat) (t : ℚ), s.target[l]? = some t →
      s'.target[l]? = some (match v[l]? with | some r => max t r | none => t)) ∧
    s'.step (.setTarget v) = s' ∧
    s'.nSched = s.nSched ∧ s'.store = s.store ∧ s'.handed = s.handed := by
  have h : ∀ (ts v : List ℚ), v.length ≤ ts.length →
      (setLevelTarget ts v).length = ts.length ∧
      (∀ (l : Nat) (t : ℚ), ts[l]? = some t →
        (setLevelTarget ts v)[l]? = some (match v[l]? with | some r => max t r | none => t)) ∧
      setLevelTarget (setLevelTarget ts v) v = setLevelTarget ts v := by
    intro ts
    induction ts with
    | nil => intro v _; simp [setLevelTarget]
    | cons t ts ih =>
      intro v hv
      cases v with
      | nil =>
        refine ⟨rfl, ?_, rfl⟩
        intro l t' h; simpa [setLevelTarget] using h
      | cons r v =>
        obtain ⟨a, b, c⟩ := ih v (by simpa using hv)
        refine ⟨by simp [setLevelTarget, a], ?_, by simp [setLevelTarget, c]⟩
        intro l t' h
        cases l with
        | zero => simp at h; subst h; simp [setLevelTarget]
        | succ l => simp at h; simpa [setLevelTarget] using b l t' h
  obtain ⟨a, b, c⟩ := h s.target v hv
  refine ⟨a, b, ?_, rfl, rfl, rfl⟩
  simp [Sys.step, c]

example : setLevelTarget [5, 2, 7] [3, 4] = [5, 4, 7] := by decide +kernel

/-! ## C07 Levels are chained -/

/-- C07: one level simulation per entry, numbered consecutively; level 0 gets the coarse parameters `[0]`
(`zero`), level `l+1` gets as coarse parameters the fine parameters of level `l`. -/
theorem C07_levels_chained {P C : Type} (factory : P → P → C) (zero : P) (params : List P) :
    (createLevelSims factory zero params).length = params.length ∧
    (∀ (l : Nat) (sim : LevelSim C), (createLevelSims factory zero params)[l]? = some sim → sim.levelId = l) ∧
    (∀ p, params[0]? = some p →
      ((createLevelSims factory zero params)[0]?).map (·.config) = some (factory p zero)) ∧
    (∀ (l : Nat) (fine coarse : P), params[l + 1]? = some fine → params[l]? = some coarse →
      ((createLevelSims factory zero params)[l + 1]?).map (·.config) = some (factory fine coarse)) := by
  refine ⟨by simp [createLevelSims], ?_, ?_, ?_⟩
  · intro l sim h
    simp only [createLevelSims, List.getElem?_ofFn] at h
    split at h
    · simp only [Option.some.injEq] at h
      subst h
      split <;> rfl
    · simp at h
  · intro p hp
    have hl : 0 < params.length := by
      rcases Nat.lt_or_ge 0 params.length with h | h
      · exact h
      · rw [List.getElem?_eq_none h] at hp; simp at hp
    rw [List.getElem?_eq_getElem hl] at hp
    simp only [Option.some.injEq] at hp
    simp [createLevelSims, List.getElem?_ofFn, hl, hp]
  · intro l fine coarse hf hc
    have hl : l + 1 < params.length := by
      rcases Nat.lt_or_ge (l + 1) params.length with h | h
      · exact h
      · rw [List.getElem?_eq_none h] at hf; simp at hf
    rw [List.getElem?_eq_getElem hl] at hf
    rw [List.getElem?_eq_getElem (by omega)] at hc
    simp only [Option.some.injEq] at hf hc
    simp [createLevelSims, List.getElem?_ofFn, hl, hf, hc]

example : (createLevelSims (fun f c : Nat => (f, c)) 0 [8, 4, 2]).map (·.config) = [(8, 0), (4, 8), (2, 4)] := by
  decide

end MLMC
