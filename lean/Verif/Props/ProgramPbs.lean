import Verif.Proofs.ProgramPbs
import Verif.Props.Storage
import Verif.Props.Program
import Verif.Proofs.SameEstimates
/-! # C91 Whole programs with PBS: what is stored, whatever the order of jobs, failures and deaths -/
namespace MLMC
variable {Cfg K C : Type}

/-- What the conservation of samples needs of PBS. -/
structure PbsTame (env : PbsEnv Cfg K C) (p : PbsProg Cfg K C) : Prop where
  plain : PlainQsub p.hist
  ids : ((submissions (p.outs env)).map (·.pbsId)).Nodup
  jobs : JobsRun p.hist (submissions (p.outs env))

theorem PbsNormal.tame {env : PbsEnv Cfg K C} {p : PbsProg Cfg K C} (h : PbsNormal env p) : PbsTame env p :=
  ⟨h.plain, h.ids, fun s hs => by obtain ⟨clock, hc⟩ := h.jobs s hs; exact ⟨_, _, clock, hc⟩⟩

/-- What all C91 theorems rest on. -/
theorem pbsAt_core (env : PbsEnv Cfg K C) {w : Nat → Want} {p : PbsProg Cfg K C} (h : PbsAt env w p) (hn : PbsTame env p) :
    ∃ sops, PbsInv env p sops ∧ SchedInv env.sims.length p.sys ∧ p.sys.store.length = env.sims.length ∧
      (∀ l, l < env.sims.length → savedSched sops l = (List.range (w l).count).map (sampleTag l) ∧
        ((savedSucc sops l).map (·.1) ++ (savedFailed sops l).map (·.1) ++ p.waiting env l).Perm
          ((List.range (w l).count).map (sampleTag l))) := by
  obtain ⟨sops, hi⟩ := h.inv
  refine ⟨sops, hi, h.sched, h.sched.storeLen, ?_⟩
  intro l hl
  have hcnt : p.sys.nSched[l]? = some (w l).count := (h.want l hl).2
  constructor
  · obtain ⟨y, y1, y2, _⟩ := hdf_fresh_spec env.sims.length l hl sops
    have := h.sched.sched l
    rw [hcnt, schedOf, List.getElem?_map, hi.store, y1] at this
    simp only [Option.map_some, Option.some.injEq, levelTags] at this
    rw [← y2, this, List.range_eq_range']
  · have hC := C31_conservation_partial (computeSeed env.md5) p.hist hn.plain hi.noR hi.noP (handed_nodup hi.core h.sched.hand) hn.ids hn.jobs l
    rw [hi.cov l _ hcnt, ← hi.world] at hC
    refine List.Perm.trans ?_ hC
    rw [PbsProg.waiting, ← List.append_assoc]
    refine List.Perm.append_right _ (List.Perm.append_right _ ?_)
    rw [hi.succ, hi.failed, deliveredAt]
    show List.Perm _ ((answers (p.outs env)).flatMap _)
    generalize answers (p.outs env) = as
    induction as with
    | nil => exact List.Perm.refl _
    | cons a as ih =>
      simp only [List.flatMap_cons, List.map_append]
      refine List.Perm.trans ?_ (List.Perm.append_left _ ih)
      simp only [List.append_assoc]
      refine List.Perm.append_left _ ?_
      rw [← List.append_assoc, ← List.append_assoc]
      exact List.Perm.append_right _ List.perm_append_comm

theorem pbsProgram_core (env : PbsEnv Cfg K C) (ops : List (PbsProgOp K)) (ho : ∀ o ∈ ops, o.Proper env.sims.length)
    (p : PbsProg Cfg K C) (hp : (PbsProg.start env).run env ops = some p) (hn : PbsNormal env p) :
    ∃ sops, PbsInv env p sops ∧ SchedInv env.sims.length p.sys ∧ p.sys.store.length = env.sims.length ∧
      (∀ l, l < env.sims.length → savedSched sops l = (List.range (wantedCount l (ops.map (·.call)))).map (sampleTag l) ∧
        ((savedSucc sops l).map (·.1) ++ (savedFailed sops l).map (·.1) ++ p.waiting env l).Perm
          ((List.range (wantedCount l (ops.map (·.call)))).map (sampleTag l))) :=
  pbsAt_core env (pbsAt_run ops (pbsAt_start env) ho hp) hn.tame

/-- `C91`: every program of proper calls on a new storage with a `SamplingPoolPBS`, whatever `qsub` and `qstat` answer, in whatever order
jobs run, finish and are reported, and wherever they die; if its calls return without an exception then at its end, on every level, the
storage lists exactly the requested samples as scheduled; its stored results are results the level's own simulation computed for the
requested samples from their own seeds; and the stored samples, the failed ones and the ones still waiting in jobs or for a job are together
the requested samples, each once.  Missing: `renew_failed_samples` and restarts (C33), `qsub` succeeding without its file being written. -/
theorem C91_pbs_program_partial (env : PbsEnv Cfg K C) (he : env.Proper) (ops : List (PbsProgOp K)) (ho : ∀ o ∈ ops, o.Proper env.sims.length)
    (p : PbsProg Cfg K C) (hp : (PbsProg.start env).run env ops = some p) (hn : PbsNormal env p) :
    p.sys.store.length = env.sims.length ∧
    (∀ l sim, env.sims[l]? = some sim → ∃ x, p.sys.store[l]? = some x ∧
      x.scheduled = (List.range (wantedCount l (ops.map (·.call)))).map (sampleTag l) ∧
      ∃ stored failed, x.collectedIds = stored.map (·.1) ∧ x.collectedValues = (if stored = [] then none else some (stored.map (·.2))) ∧
        x.failed = some failed ∧
        (∀ s ∈ stored, s ∈ goodSamples env.md5 sim (wantedCount l (ops.map (·.call)))) ∧
        (stored.map (·.1) ++ failed.map (·.1) ++ p.waiting env l).Perm x.scheduled) ∧
    ∃ u, hdfUnfinishedIds p.sys.store = .ok u ∧ ∀ id, id ∈ u ↔ ∃ l, l < env.sims.length ∧ id ∈ p.waiting env l := by
  obtain ⟨sops, hi, hs, hlen, hcore⟩ := pbsProgram_core env ops ho p hp hn
  refine ⟨hlen, ?_, ?_⟩
  · intro l sim hsim
    have hl := (List.getElem?_eq_some_iff.1 hsim).1
    obtain ⟨y, y1, y2, y3, y4, y5⟩ := hdf_fresh_spec env.sims.length l hl sops
    obtain ⟨c1, c2⟩ := hcore l hl
    refine ⟨y, by rw [hi.store]; exact y1, by rw [y2, c1], _, _, y3, y4, y5, ?_, by rw [y2, c1]; exact c2⟩
    rintro ⟨id, v⟩ hv
    have hid : id ∈ (List.range (wantedCount l (ops.map (·.call)))).map (sampleTag l) := by
      apply c2.subset
      simp only [List.mem_append, List.mem_map]
      exact .inl (.inl ⟨_, hv, rfl⟩)
    rw [hi.succ] at hv
    obtain ⟨a, ha, hv⟩ := List.mem_flatMap.1 hv
    obtain ⟨d1, d2⟩ := (delivered hi.core hs.hand hn l sim hsim a ha).1 id v hv
    obtain ⟨i, hi', rfl⟩ := List.mem_map.1 hid
    refine List.mem_filterMap.2 ⟨i, hi', ?_⟩
    rw [he l sim hsim]
    rw [d1] at d2
    simp [d1, d2]
  · obtain ⟨u, u1, u2, _, _⟩ := C18_unfinished_ids env.sims.length sops
    refine ⟨u, by rw [hi.store]; exact u1, ?_⟩
    intro id
    rw [u2]
    apply exists_congr
    intro l
    refine and_congr_right fun hl => ?_
    obtain ⟨c1, c2⟩ := hcore l hl
    have hnd : ((savedSucc sops l).map (·.1) ++ (savedFailed sops l).map (·.1) ++ p.waiting env l).Nodup := by
      rw [c2.nodup_iff]
      exact (List.nodup_map_iff_inj_on List.nodup_range).2 fun x _ y _ e => (sampleTag_injective e).2
    have hm := c2.mem_iff (a := id)
    have hd := (List.nodup_append.1 hnd).2.2
    simp only [List.mem_append] at hm hd
    unfold OpenAt
    rw [c1, ← hm]
    constructor
    · rintro ⟨(h | h), h1, h2⟩
      · rcases h with h | h
        · exact absurd h h1
        · exact absurd h h2
      · exact h
    · intro h
      exact ⟨.inr h, fun h1 => hd id (.inl h1) id h rfl, fun h1 => hd id (.inr h1) id h rfl⟩

/-- If the stored samples are well formed results, the failed ones are not well formed and together they are the first `n` samples of the level,
they are the good and the bad samples. -/
theorem stored_failed_perm {md5 : SampleId → List UInt8} {sim : PoolSim Cfg K C} {l n : Nat} (hlv : sim.level = l) {stored : List (SampleId × PairRes K)}
    {failed : List (SampleId × Msg)} (x6 : ∀ s ∈ stored, s ∈ goodSamples md5 sim n)
    (hfail : ∀ id ∈ failed.map (·.1), ¬ WellFormed sim.fmt (outcome md5 id sim))
    (x7 : (stored.map (·.1) ++ failed.map (·.1)).Perm ((List.range n).map (sampleTag l))) :
    stored.Perm (goodSamples md5 sim n) ∧ (failed.map (·.1)).Perm (badSamples md5 sim n) := by
  have hnd : (stored.map (·.1) ++ failed.map (·.1)).Nodup := by
    rw [x7.nodup_iff]
    exact (List.nodup_map_iff_inj_on List.nodup_range).2 fun x _ y _ e => (sampleTag_injective e).2
  obtain ⟨n1, n2, n3⟩ := List.nodup_append.1 hnd
  have hsucc : ∀ s ∈ stored, WellFormed sim.fmt (outcome md5 s.1 sim) := by
    intro s hs
    obtain ⟨i, -, h⟩ := List.mem_filterMap.1 (x6 s hs)
    cases ho : outcome md5 (sampleTag sim.level i) sim with
    | raised m => simp [ho] at h
    | notPair m => simp [ho] at h
    | pair f c =>
      simp only [ho] at h
      split at h
      · rename_i hw; injection h with h; subst h; simp only [ho]; exact hw
      · simp at h
  have hgnd : (goodSamples md5 sim n).Nodup := by
    unfold goodSamples
    refine List.Nodup.filterMap ?_ List.nodup_range
    intro i j b hb hb'
    simp only [Option.mem_def] at hb hb'
    split at hb
    · split at hb
      · injection hb with hb
        split at hb'
        · split at hb'
          · injection hb' with hb'
            rw [← hb'] at hb
            exact (sampleTag_injective (congrArg Prod.fst hb)).2
          · simp at hb'
        · simp at hb'
      · simp at hb
    · simp at hb
  constructor
  · rw [List.perm_ext_iff_of_nodup (List.Nodup.of_map _ n1) hgnd]
    intro s
    refine ⟨x6 s, ?_⟩
    intro hg
    obtain ⟨i, hi', h⟩ := List.mem_filterMap.1 hg
    cases ho : outcome md5 (sampleTag sim.level i) sim with
    | raised m => simp [ho] at h
    | notPair m => simp [ho] at h
    | pair f c =>
      simp only [ho] at h
      split at h
      · rename_i hw'
        injection h with h
        have hmem : s.1 ∈ stored.map (·.1) ++ failed.map (·.1) := by
          apply x7.symm.subset
          rw [← h, hlv]
          exact List.mem_map.2 ⟨i, hi', rfl⟩
        rcases List.mem_append.1 hmem with hm | hm
        · obtain ⟨s', hs', e⟩ := List.mem_map.1 hm
          obtain ⟨j, -, h'⟩ := List.mem_filterMap.1 (x6 s' hs')
          cases ho' : outcome md5 (sampleTag sim.level j) sim with
          | raised m => simp [ho'] at h'
          | notPair m => simp [ho'] at h'
          | pair f' c' =>
            simp only [ho'] at h'
            split at h'
            · injection h' with h'
              have : j = i := by
                rw [← h, ← h'] at e
                exact (sampleTag_injective e).2
              subst this
              rw [ho] at ho'
              injection ho' with e1 e2
              subst e1; subst e2
              rw [← h, h']; exact hs'
            · simp at h'
        · exfalso
          apply hfail s.1 hm
          rw [← h]; simp only [ho]; exact hw'
      · simp at h
  · have hbnd : (badSamples md5 sim n).Nodup := by
      unfold badSamples
      refine List.Nodup.filter _ ?_
      exact (List.nodup_map_iff_inj_on List.nodup_range).2 fun x _ y _ e => (sampleTag_injective e).2
    rw [List.perm_ext_iff_of_nodup n2 hbnd]
    intro id
    simp only [badSamples, List.mem_filter, decide_eq_true_eq]
    constructor
    · intro hid
      refine ⟨?_, hfail id hid⟩
      rw [hlv]
      exact x7.subset (List.mem_append_right _ hid)
    · rintro ⟨h1, h2⟩
      rw [hlv] at h1
      rcases List.mem_append.1 (x7.symm.subset h1) with hm | hm
      · obtain ⟨s, hs', rfl⟩ := List.mem_map.1 hm
        exact absurd (hsucc s hs') h2
      · exact hm

/-- `C91`: if no job dies and at the end nothing is waiting, the storage holds on every level exactly the well formed results of the
requested samples, each once, and lists the others as failed, each once; none is unfinished.  This is what a program with a
`OneProcessPool` stores (C85), up to the order. -/
theorem C91_pbs_program_complete_partial (env : PbsEnv Cfg K C) (he : env.Proper) (ops : List (PbsProgOp K)) (ho : ∀ o ∈ ops, o.Proper env.sims.length)
    (p : PbsProg Cfg K C) (hp : (PbsProg.start env).run env ops = some p) (hn : PbsNormal env p) (hd : NoJobDies env p)
    (hw : ∀ l, p.waiting env l = []) :
    (∀ l sim, env.sims[l]? = some sim → ∃ x, p.sys.store[l]? = some x ∧
      x.scheduled = (List.range (wantedCount l (ops.map (·.call)))).map (sampleTag l) ∧
      ∃ stored failed, x.collectedIds = stored.map (·.1) ∧ x.collectedValues = (if stored = [] then none else some (stored.map (·.2))) ∧
        x.failed = some failed ∧
        stored.Perm (goodSamples env.md5 sim (wantedCount l (ops.map (·.call)))) ∧
        (failed.map (·.1)).Perm (badSamples env.md5 sim (wantedCount l (ops.map (·.call))))) ∧
    hdfUnfinishedIds p.sys.store = .ok [] := by
  obtain ⟨sops, hi, hs, hlen, hcore⟩ := pbsProgram_core env ops ho p hp hn
  obtain ⟨-, hlev, u, hu1, hu2⟩ := C91_pbs_program_partial env he ops ho p hp hn
  constructor
  · intro l sim hsim
    have hl := (List.getElem?_eq_some_iff.1 hsim).1
    obtain ⟨x, x1, x2, stored, failed, x3, x4, x5, x6, x7⟩ := hlev l sim hsim
    refine ⟨x, x1, x2, stored, failed, x3, x4, x5, ?_⟩
    have hlv := he l sim hsim
    rw [hw l, List.append_nil, x2] at x7
    obtain ⟨y, y1, -, -, -, y5⟩ := hdf_fresh_spec env.sims.length l hl sops
    have hxy : x = y := by rw [hi.store, y1] at x1; injection x1 with x1; exact x1.symm
    subst hxy
    have hff : failed = savedFailed sops l := by rw [x5] at y5; injection y5
    have hfail : ∀ id ∈ failed.map (·.1), ¬ WellFormed sim.fmt (outcome env.md5 id sim) := by
      intro id hid
      rw [hff, hi.failed] at hid
      simp only [List.map_flatMap, List.mem_flatMap] at hid
      obtain ⟨a, ha, hid⟩ := hid
      exact (delivered hi.core hs.hand hn l sim hsim a ha).2 hd id hid
    exact stored_failed_perm hlv x6 hfail x7
  · rw [hu1]
    congr 1
    apply List.eq_nil_iff_forall_not_mem.2
    intro id hid
    obtain ⟨l, -, h⟩ := (hu2 id).1 hid
    rw [hw l] at h; simp at h

/-- `C91`: a program with PBS in which no job dies and nothing is waiting at the end gives the same estimates as a program with a
`OneProcessPool` (with or without a working directory, any durations) asking for the same numbers of samples: for every quantity,
`estimate_mean` returns the same from both storages, or raises on both. -/
theorem C91_same_estimates_partial {F : Type} [Field F] [CharZero F] (env : PbsEnv Cfg (Option F) C) (he : env.Proper) (W : Nat)
    (env1 : ProgEnv Cfg (Option F) C) (h1 : env1.md5 = env.md5 ∧ env1.sims = env.sims) (he1 : env1.Proper) (ha : env1.Arrays W)
    (ops : List (PbsProgOp (Option F))) (ho : ∀ o ∈ ops, o.Proper env.sims.length)
    (p : PbsProg Cfg (Option F) C) (hp : (PbsProg.start env).run env ops = some p) (hn : PbsNormal env p) (hd : NoJobDies env p)
    (hw : ∀ l, p.waiting env l = [])
    (debug hasDir : Bool) (dirs : Dirs C) (ops1 : List ProgOp) (ho1 : ∀ o ∈ ops1, o.Proper env.sims.length) (t : ℚ)
    (hsame : ∀ l, l < env.sims.length → wantedCount l (ops.map (·.call)) = wantedCount l ops1)
    (p1 : Prog (Option F) C) (hp1 : (Prog.start env1 debug hasDir dirs).run env1 (ops1 ++ [.ask none [t]]) = some p1)
    (c c1 : Nat → Nat) (hc : ∀ l, 0 < c l) (hc1 : ∀ l, 0 < c1 l) (sid : Nat) (q : Quantity (Option F)) (hq : Built sid .qty q) (hid : IdsIdentify q) :
    (∃ e, estimateFromStorage (storedNumbers p.sys.store) c sid q = .ok e ∧ estimateFromStorage (storedNumbers p1.sys.store) c1 sid q = .ok e) ∨
    (∃ x y, estimateFromStorage (storedNumbers p.sys.store) c sid q = .error x ∧
      estimateFromStorage (storedNumbers p1.sys.store) c1 sid q = .error y) := by
  obtain ⟨md5, sims, dur⟩ := env1
  obtain ⟨rfl, rfl⟩ := h1
  have ha' : ProgEnv.Arrays ⟨env.md5, env.sims, fun _ => 0⟩ W := ⟨ha.fmt, ha.arrays⟩
  obtain ⟨hlev, _⟩ := C91_pbs_program_complete_partial env he ops ho p hp hn hd hw
  obtain ⟨hlen, _⟩ := C91_pbs_program_partial env he ops ho p hp hn
  refine holds_same_estimates he ha' (count := fun l => wantedCount l (ops.map (·.call))) ⟨hlen, ?_⟩ ?_ c c1 hc hc1 sid q hq hid
  · intro l sim hs
    obtain ⟨x, x1, _, stored, failed, _, x4, _, x6, _⟩ := hlev l sim hs
    exact ⟨x, stored, x1, x4, x6⟩
  · exact holds_congr (holds_oneProcess ⟨env.md5, env.sims, dur⟩ he1 debug hasDir dirs ops1 ho1 t p1 hp1) (fun l hl => (hsame l hl).symm)

theorem wait_iff (env : PbsEnv Cfg K C) (limit : Option ℚ) (hl : ∀ t, limit = some t → 0 < t) (q : PbsProg Cfg K C) :
    ∀ (rounds : List (PbsRound K)) (p : PbsProg Cfg K C),
    p.wait env (limit.getD 0) rounds = some q ↔ ∃ used rest, rounds = used ++ rest ∧ Polls env limit used p q := by
  have hcond : ∀ x : ℚ, (0 < limit.getD 0 ∧ limit.getD 0 < x) ↔ ∃ t, limit = some t ∧ t < x := by
    intro x
    cases limit with
    | none => simp
    | some t => simp [hl t rfl]
  intro rounds
  induction rounds with
  | nil =>
    intro p
    simp only [PbsProg.wait, reduceCtorEq, false_iff, not_exists, not_and]
    intro used rest h hp
    obtain ⟨rfl, -⟩ := List.append_eq_nil_iff.1 h.symm
    cases hp
  | cons r rs ih =>
    intro p
    simp only [PbsProg.wait]
    cases hc : p.collect env r with
    | none =>
      simp only [reduceCtorEq, false_iff, not_exists, not_and]
      intro used rest h hp
      cases hp with
      | last h' _ => simp only [List.cons_append, List.nil_append, List.cons.injEq] at h; obtain ⟨rfl, -⟩ := h; rw [hc] at h'; cases h'
      | more h' _ _ _ => simp only [List.cons_append, List.cons.injEq] at h; obtain ⟨rfl, -⟩ := h; rw [hc] at h'; cases h'
    | some x =>
      obtain ⟨n, m⟩ := x
      simp only [hcond]
      by_cases ht : ∃ t, limit = some t ∧ t < r.time
      · rw [if_pos ht]
        simp only [Option.some.injEq]
        constructor
        · rintro rfl; exact ⟨[r], rs, rfl, .last hc (.inr ht)⟩
        · rintro ⟨used, rest, h, hp⟩
          cases hp with
          | last h' _ =>
            simp only [List.cons_append, List.nil_append, List.cons.injEq] at h
            obtain ⟨rfl, -⟩ := h
            rw [hc] at h'; simp only [Option.some.injEq, Prod.mk.injEq] at h'; exact h'.2
          | more h' _ ht' _ =>
            simp only [List.cons_append, List.cons.injEq] at h
            obtain ⟨rfl, -⟩ := h
            obtain ⟨t, e, h2⟩ := ht
            exact absurd h2 (not_lt.2 (ht' t e))
      · rw [if_neg ht]
        by_cases hn : n > 0
        · rw [if_pos hn, ih]
          constructor
          · rintro ⟨used, rest, rfl, hp⟩
            exact ⟨r :: used, rest, rfl, .more hc hn (fun t e => not_lt.1 fun h => ht ⟨t, e, h⟩) hp⟩
          · rintro ⟨used, rest, h, hp⟩
            cases hp with
            | last h' hn' =>
              simp only [List.cons_append, List.nil_append, List.cons.injEq] at h
              obtain ⟨rfl, -⟩ := h
              rw [hc] at h'; simp only [Option.some.injEq, Prod.mk.injEq] at h'
              obtain ⟨rfl, -⟩ := h'
              rcases hn' with hn' | hn'
              · exact absurd hn (not_lt.2 hn')
              · exact absurd hn' ht
            | more h' _ _ hs =>
              simp only [List.cons_append, List.cons.injEq] at h
              obtain ⟨rfl, rfl⟩ := h
              rw [hc] at h'; simp only [Option.some.injEq, Prod.mk.injEq] at h'
              obtain ⟨-, rfl⟩ := h'
              exact ⟨_, _, rfl, hs⟩
        · rw [if_neg hn]
          simp only [Option.some.injEq]
          constructor
          · rintro rfl; exact ⟨[r], rs, rfl, .last hc (.inl (not_lt.1 hn))⟩
          · rintro ⟨used, rest, h, hp⟩
            cases hp with
            | last h' _ =>
              simp only [List.cons_append, List.nil_append, List.cons.injEq] at h
              obtain ⟨rfl, -⟩ := h
              rw [hc] at h'; simp only [Option.some.injEq, Prod.mk.injEq] at h'; exact h'.2
            | more h' hn' _ _ =>
              simp only [List.cons_append, List.cons.injEq] at h
              obtain ⟨rfl, -⟩ := h
              rw [hc] at h'; simp only [Option.some.injEq, Prod.mk.injEq] at h'
              obtain ⟨rfl, -⟩ := h'
              exact absurd hn' hn

/-- `C91`: when asking for samples ends.  Without a time limit: exactly at the first poll that reports no running samples.  With a limit: at
the first poll that reports none or after which more time has passed; a limit that is not positive means no poll at all. -/
theorem C91_asking_ends (env : PbsEnv Cfg K C) (timeout : Option ℚ) (rounds : List (PbsRound K)) (p q : PbsProg Cfg K C) :
    p.ask env timeout rounds = some q ↔
      if ∃ t, timeout = some t ∧ t ≤ 0 then p = q else ∃ used rest, rounds = used ++ rest ∧ Polls env timeout used p q := by
  cases timeout with
  | none =>
    simp only [reduceCtorEq, false_and, exists_false, if_false, PbsProg.ask]
    exact wait_iff env none (by simp) q rounds p
  | some t =>
    simp only [PbsProg.ask, Option.some.injEq, exists_eq_left']
    by_cases h : t ≤ 0
    · simp [h]
    · rw [if_neg h, if_neg h]
      exact wait_iff env (some t) (by rintro _ ⟨⟩; exact not_le.1 h) q rounds p

/-! ## A concrete program -/
namespace ExPbsProg

/-- One simulation for three samples; sample 1 returns vectors of a wrong length. -/
def sim : PoolSim Unit (Option ℚ) Unit :=
  { level := 0, cfg := (), workspace := false, filesOk := true
    calculate := fun _ s => if s = 49 then .pair (.array [some s, none]) (.array [some 0]) else .pair (.array [some s]) (.array [some 0])
    files := fun _ _ => ()
    fmt := [⟨['q'], ['m'], [1], [0], [.point 0 0 0]⟩] }

/-- Each sample is a job of its own. -/
def env : PbsEnv Unit (Option ℚ) Unit := { md5 := fun id => [(id.getLast?.getD 'x').toNat.toUInt8, 0, 0, 0], sims := [sim], size := fun _ => 2 }

theorem proper : env.Proper := by
  intro l s h
  match l with
  | 0 => simp only [env, List.getElem?_cons_zero, Option.some.injEq] at h; subst h; rfl
  | l + 1 => simp [env] at h

/-- Appends of the job of sample `i`. -/
def run (i : Nat) : List (Nat × JobAppend (PairRes (Option ℚ))) :=
  (jobAppends (fun l => if l = 0 then some sim else none) (pbsCompute env.md5) (fun _ => (0, 1)) [(0, sampleTag 0 i, computeSeed env.md5 (sampleTag 0 i))]).map (i, ·)

/-- Three samples are scheduled; `qsub` gives the jobs the numbers 70, 71, 72. -/
def begin : List (PbsProgOp (Option ℚ)) := [.setInitial [3], .schedule (some 0) [] fun i => ([], .ok (69 + i))]

/-- The jobs end in the order 2, 0, 1 and are reported over several polls, one of which fails. -/
def whole : List (PbsProgOp (Option ℚ)) := begin ++ [.pause (run 2),
  .ask none [{ qsub := .fail, qstat := .fail }, { jobs := run 0, qsub := .fail, qstat := .ok [72] }, { jobs := run 1, qsub := .fail, qstat := .ok [72, 71, 70] }],
  .ask none [{ qsub := .fail, qstat := .ok [70, 71, 72] }]]

theorem whole_proper : ∀ o ∈ whole, o.Proper env.sims.length := by
  intro o ho
  simp only [whole, begin, List.cons_append, List.nil_append, List.mem_cons, List.not_mem_nil, or_false] at ho
  rcases ho with rfl | rfl | rfl | rfl | rfl <;> simp [PbsProgOp.Proper, env]

/-- The state after a program (the start if it raises). -/
def final (ops : List (PbsProgOp (Option ℚ))) : PbsProg Unit (Option ℚ) Unit := ((PbsProg.start env).run env ops).getD (.start env)

/-- The simulations the jobs load. -/
def simAt (l : Nat) : Option (PoolSim Unit (Option ℚ) Unit) := if l = 0 then some sim else none

/-- A record of the history agrees with "no job dies". -/
def RecordOk (p : PbsProg Unit (Option ℚ) Unit) (s : Submitted) (k : Nat) : Prop :=
  match p.hist[k]? with
  | some (.get _ qa) => s.pbsId ∈ qa.finished → appendsOf s.job (p.hist.take k) = jobAppends simAt (pbsCompute env.md5) (fun _ => (0, 1)) s.samples
  | _ => True

instance (p : PbsProg Unit (Option ℚ) Unit) (s : Submitted) (k : Nat) : Decidable (RecordOk p s k) := by
  unfold RecordOk
  split <;> infer_instance

/-- Not the third kind of answer of `qsub`. -/
def PlainOk (o : PbsOp (PoolSim Unit (Option ℚ) Unit) (PairRes (Option ℚ))) : Bool :=
  match o.qsubAns? with
  | some (.okNoFile _) => false
  | _ => true

/-- What can be computed about the history. -/
structure Checked (p : PbsProg Unit (Option ℚ) Unit) : Prop where
  plain : ∀ o ∈ p.hist, PlainOk o = true
  ids : ((submissions (p.outs env)).map (·.pbsId)).Nodup
  keys : Dict.keys p.world.disk.sims = [0]
  jobs : ∀ s ∈ submissions (p.outs env), appendsOf s.job p.hist <+: jobAppends simAt (pbsCompute env.md5) (fun _ => (0, 1)) s.samples
  ends : ∀ s ∈ submissions (p.outs env), ∀ k ∈ List.range p.hist.length, RecordOk p s k

theorem of_checked (ops : List (PbsProgOp (Option ℚ))) (ho : ∀ o ∈ ops, o.Proper env.sims.length)
    (hs : ((PbsProg.start env).run env ops).isSome = true) (h : Checked (final ops)) :
    (PbsProg.start env).run env ops = some (final ops) ∧ PbsNormal env (final ops) ∧ NoJobDies env (final ops) := by
  have hp : (PbsProg.start env).run env ops = some (final ops) := by
    obtain ⟨p, hp⟩ := Option.isSome_iff_exists.1 hs
    rw [final, hp]; rfl
  obtain ⟨sops, hi⟩ := (pbsAt_run ops (pbsAt_start env) ho hp).inv
  have hsim : (fun l => Dict.get? (final ops).world.disk.sims l) = simAt := by
    funext l
    by_cases hl : l = 0
    · subst hl
      have h0 : (0 : Nat) ∈ Dict.keys (final ops).world.disk.sims := by rw [h.keys]; simp
      obtain ⟨v, hv⟩ := Option.isSome_iff_exists.1 ((Dict.get?_isSome_iff _ _).2 h0)
      have := C35_level_simulation_is_first (computeSeed env.md5) (final ops).hist (fun l h => hi.noR _ _ h) 0
      rw [← hi.world, hv] at this
      have := hi.sims 0 v this.symm
      simp only [env, List.getElem?_cons_zero, Option.some.injEq] at this
      rw [hv, simAt, this]; rfl
    · rw [simAt, if_neg hl, Dict.get?_eq_none_iff, h.keys]; simp [hl]
  refine ⟨hp, ⟨?_, h.ids, ?_⟩, ?_⟩
  · intro o ho q hq
    have := h.plain o ho
    unfold PlainOk at this
    rw [Option.mem_def] at hq
    rw [hq] at this
    cases q <;> first | trivial | simp at this
  · intro s hs
    exact ⟨_, by rw [hsim]; exact h.jobs s hs⟩
  · intro before q qa rest e s hs hf
    refine ⟨fun _ => (0, 1), ?_⟩
    rw [hsim]
    have hk := h.ends s hs before.length (by rw [e]; simp)
    unfold RecordOk at hk
    rw [e] at hk
    simp only [List.getElem?_append_right (Nat.le_refl _), Nat.sub_self, List.getElem?_cons_zero, List.take_left'] at hk
    exact hk hf

theorem whole_ok : (PbsProg.start env).run env whole = some (final whole) ∧ PbsNormal env (final whole) ∧ NoJobDies env (final whole) :=
  of_checked whole whole_proper (by decide +kernel)
    ⟨by decide +kernel, by decide +kernel, by decide +kernel, by decide +kernel, by decide +kernel⟩

/-- The hypotheses of both theorems hold, with results stored in the order the jobs were reported. -/
example : (PbsProg.start env).run env whole = some (final whole) ∧ PbsNormal env (final whole) ∧ NoJobDies env (final whole) ∧
    (∀ l, (final whole).waiting env l = []) ∧
    (final whole).sys.store.map (·.collectedIds) = [[sampleTag 0 2, sampleTag 0 0]] ∧
    (final whole).sys.store.map (fun x => x.failed.map (·.map (·.1))) = [some [sampleTag 0 1]] := by
  refine ⟨whole_ok.1, whole_ok.2.1, whole_ok.2.2, ?_, by decide +kernel, by decide +kernel⟩
  intro l
  have h1 : outstanding ((final whole).hist.zip ((final whole).outs env)) = [] := by decide +kernel
  have h2 : (final whole).world.pool.scheduled = [] := by decide +kernel
  rw [PbsProg.waiting, h1, h2]; rfl

/-- The same request to a `OneProcessPool`: the same estimate. -/
example : ∃ p1, (Prog.start ⟨env.md5, env.sims, fun _ => 1⟩ false false {}).run ⟨env.md5, env.sims, fun _ => 1⟩
      ([.setInitial [2], .schedule none [1], .setTarget [3], .schedule (some 2) [1]] ++ [.ask none [1]]) = some p1 ∧
    ∃ e, estimateFromStorage (storedNumbers (final whole).sys.store) (fun _ => 1) 7 (.storage 7 (.array [1] .scalar)) = .ok e ∧
      estimateFromStorage (storedNumbers p1.sys.store) (fun _ => 2) 7 (.storage 7 (.array [1] .scalar)) = .ok e ∧
      e.nSamples = [2] ∧ e.lMeans = [[some 49]] ∧ e.lVars = [[some 2]] := by
  have he1 : (⟨env.md5, env.sims, fun _ => 1⟩ : ProgEnv Unit (Option ℚ) Unit).Proper := by
    refine ⟨proper, ?_⟩
    intro s hs _
    simp only [env, List.mem_singleton] at hs
    subst hs; rfl
  have ha : (⟨env.md5, env.sims, fun _ => 1⟩ : ProgEnv Unit (Option ℚ) Unit).Arrays 1 := by
    constructor
    · intro s hs
      simp only [env, List.mem_singleton] at hs
      subst hs; decide
    · intro s hs seed f c h
      simp only [env, List.mem_singleton] at hs
      subst hs
      simp only [sim] at h
      split at h <;> (injection h with h1 h2; exact ⟨⟨_, h1.symm⟩, _, h2.symm⟩)
  have ho1 : ∀ o ∈ [ProgOp.setInitial [2], .schedule none [1], .setTarget [3], .schedule (some 2) [1]], o.Proper env.sims.length := by
    intro o ho
    simp only [List.mem_cons, List.not_mem_nil, or_false] at ho
    rcases ho with rfl | rfl | rfl | rfl <;> simp [ProgOp.Proper, env]
  obtain ⟨p1, hp1, _⟩ := C85_program_stores_all_results ⟨env.md5, env.sims, fun _ => 1⟩ he1 false false {} _ ho1 1
  have hids : IdsIdentify (.storage 7 (.array [1] .scalar) : Quantity (Option ℚ)) := by intro a ha; simp [Quantity.selections] at ha
  have hs : ∀ l, l < env.sims.length → wantedSamples ⟨env.md5, env.sims, fun _ => 1⟩
      [ProgOp.setInitial [2], .schedule none [1], .setTarget [3], .schedule (some 2) [1]] l ≠ [] := by decide +kernel
  obtain ⟨e, h⟩ := C86_estimate_returns ⟨env.md5, env.sims, fun _ => 1⟩ he1 1 ha false false {} _ ho1 1 hs (fun _ => 2) (fun _ => by omega) 7 _
    (.root (.array [1] .scalar)) hids (.root _ (by decide)) ⟨⟨1, 1, []⟩, by intro s hs; simp at hs, rfl, [], rfl⟩
    ⟨0, by decide, by decide +kernel⟩ p1 hp1
  have hE := C86_program_estimate ⟨env.md5, env.sims, fun _ => 1⟩ he1 1 ha false false {} _ ho1 1 hs (fun _ => 2) (fun _ => by omega) 7 _
    (.root (.array [1] .scalar)) hids p1 hp1 e h
  refine ⟨p1, hp1, e, ?_, h, by rw [hE.used]; decide +kernel, by rw [hE.means]; decide +kernel, by rw [hE.vars]; decide +kernel⟩
  have hw : ∀ l, (final whole).waiting env l = [] := by
    intro l
    have h1 : outstanding ((final whole).hist.zip ((final whole).outs env)) = [] := by decide +kernel
    have h2 : (final whole).world.pool.scheduled = [] := by decide +kernel
    rw [PbsProg.waiting, h1, h2]; rfl
  rcases C91_same_estimates_partial env proper 1 _ ⟨rfl, rfl⟩ he1 ha whole whole_proper _ whole_ok.1 whole_ok.2.1 whole_ok.2.2 hw false false {} _ ho1 1
    (by decide +kernel) p1 hp1 (fun _ => 1) (fun _ => 2) (fun _ => by omega) (fun _ => by omega) 7 _ (.root (.array [1] .scalar)) hids with ⟨e', h1, h2⟩ | ⟨x, y, _, h2⟩
  · rw [h] at h2; injection h2 with h2; rw [h2]; exact h1
  · rw [h] at h2; cases h2

/-- Two samples; the first job is done and reported as finished, the other one still runs. -/
def early : List (PbsProgOp (Option ℚ)) := [.setInitial [2], .schedule (some 0) [] fun i => ([], .ok (69 + i)), .pause (run 0),
  .ask none [{ qsub := .fail, qstat := .ok [70] }]]

end ExPbsProg

/-- `C91`: without a timeout `ask_sampling_pool_for_samples` can return while a job is running, although `qsub` and `qstat` never fail and no
job dies: `qstat` looks only at every other job after a finished one, so one poll counts no running sample. -/
theorem C91_waits_for_all_counterexample : ∃ (env : PbsEnv Unit (Option ℚ) Unit) (before : List (PbsProgOp (Option ℚ))) (rounds : List (PbsRound (Option ℚ)))
    (p : PbsProg Unit (Option ℚ) Unit), env.Proper ∧ (∀ o ∈ before, o.Proper env.sims.length) ∧
    (PbsProg.start env).run env (before ++ [.ask none rounds]) = some p ∧ PbsNormal env p ∧ NoJobDies env p ∧
    hdfUnfinishedIds p.sys.store = .ok [sampleTag 0 1] ∧ p.waiting env 0 = [sampleTag 0 1] := by
  have ho : ∀ o ∈ ExPbsProg.early, o.Proper ExPbsProg.env.sims.length := by
    intro o ho
    simp only [ExPbsProg.early, List.mem_cons, List.not_mem_nil, or_false] at ho
    rcases ho with rfl | rfl | rfl | rfl <;> simp [PbsProgOp.Proper, ExPbsProg.env]
  obtain ⟨h1, h2, h3⟩ := ExPbsProg.of_checked ExPbsProg.early ho (by decide +kernel)
    ⟨by decide +kernel, by decide +kernel, by decide +kernel, by decide +kernel, by decide +kernel⟩
  exact ⟨ExPbsProg.env, ExPbsProg.early.take 3, _, ExPbsProg.final ExPbsProg.early, ExPbsProg.proper,
    fun o h => ho o (List.mem_of_mem_take h), h1, h2, h3, by decide +kernel, by decide +kernel⟩

end MLMC
