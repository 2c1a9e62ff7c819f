import Verif.Proofs.PbsRenew
/-! # C135 Programs with PBS that renew failed samples: nothing is lost, and samples of dead jobs are recovered -/
namespace MLMC
variable {Cfg K C : Type}

/-- What all C135 theorems rest on. -/
theorem renewProgram_core (env : PbsEnv Cfg K C) {w : Nat → Want} {since : Nat} {p : PbsProg Cfg K C} (h : RenewAt env w since p) (hn : PbsTame env p) :
    ∃ sops, RenewInv env p sops since [] ∧ p.sys.store.length = env.sims.length ∧
      (∀ l, l < env.sims.length → savedSched sops l = (List.range (w l).count).map (sampleTag l) ∧
        ((savedSucc sops l).map (·.1) ++ (savedFailed sops l).map (·.1) ++ p.waiting env l).Perm
          ((List.range (w l).count).map (sampleTag l))) := by
  obtain ⟨sops, hi⟩ := h.inv
  refine ⟨sops, hi, h.sched.storeLen, ?_⟩
  intro l hl
  have hcnt : p.sys.nSched[l]? = some (w l).count := (h.want l hl).2
  constructor
  · obtain ⟨y, y1, y2, _⟩ := hdf_fresh_spec env.sims.length l hl sops
    have := h.sched.sched l
    rw [hcnt, schedOf, List.getElem?_map, hi.store, y1] at this
    simp only [Option.map_some, Option.some.injEq, levelTags] at this
    rw [← y2, this, List.range_eq_range']
  · have := hi.cons hn l
    rw [hcnt] at this
    simpa using this

theorem renewAt_program (env : PbsEnv Cfg K C) (ops : List (PbsRenewOp K)) (ho : ∀ o ∈ ops, o.Proper env.sims.length)
    (p : PbsProg Cfg K C) (hp : (PbsProg.start env).runR env ops = some p) (hn : PbsTame env p) :
    ∃ since, RenewAt env (fun l => ⟨((ops.map (·.call')).foldl (Want.step l) ⟨0, 0⟩).target, wantedCount l (ops.map (·.call'))⟩) since p := by
  obtain ⟨since, -, h⟩ := renewAt_run ops (renewAt_start env) ho hp hn
  exact ⟨since, h⟩

/-- The answers of the polls after the first `n` calls of the pool. -/
theorem answer_after (env : PbsEnv Cfg K C) (p : PbsProg Cfg K C) (n : Nat) (hn : n ≤ p.hist.length) (a : PoolAnswer (PairRes K))
    (ha : a ∈ answers ((p.outs env).drop n)) : ∃ before q qa rest, p.hist = before ++ .get q qa :: rest ∧ p.hist.take n <+: before ∧
      ((((PbsWorld.create false [] {}).run (computeSeed env.md5) before).1.step (computeSeed env.md5) (.get q qa)).2).answer = some a := by
  have hs : p.outs env = ((PbsWorld.create false [] {}).run (computeSeed env.md5) (p.hist.take n)).2 ++
      (((PbsWorld.create false [] {}).run (computeSeed env.md5) (p.hist.take n)).1.run (computeSeed env.md5) (p.hist.drop n)).2 := by
    rw [PbsProg.outs]
    conv_lhs => rw [← List.take_append_drop n p.hist]
    rw [run_append_pbs]
  have hl : ((PbsWorld.create false [] {}).run (computeSeed env.md5) (p.hist.take n)).2.length = n := by rw [run_length]; simpa using hn
  rw [hs, List.drop_left' hl] at ha
  obtain ⟨b, o, rest, hb, hans⟩ := answer_call _ _ _ _ ha
  obtain ⟨q, qa, rfl⟩ := answer_get _ _ _ _ hans
  refine ⟨p.hist.take n ++ b, q, qa, rest, ?_, List.prefix_append _ _, ?_⟩
  · rw [List.append_assoc, ← hb, List.take_append_drop]
  · rw [run_append_pbs]; exact hans

/-- `C135`: every program of proper calls, `renew_failed_samples` among them at any moments and any number of times, on a new storage with a
`SamplingPoolPBS`, whatever `qsub` and `qstat` answer, in whatever order jobs run, finish and are reported, and wherever they die; if its calls
return without an exception then at its end, on every level, the storage lists exactly the requested samples as scheduled; its stored results are
results the level's own simulation computed for the requested samples from their own seeds; and the stored samples, the failed ones and the ones
still waiting in jobs or for a job are together the requested samples, each once: a sample that failed and was renewed is never stored twice and
never lost.  Missing: restarts, `qsub` succeeding without its file being written. -/
theorem C135_pbs_program_partial (env : PbsEnv Cfg K C) (he : env.Proper) (ops : List (PbsRenewOp K)) (ho : ∀ o ∈ ops, o.Proper env.sims.length)
    (p : PbsProg Cfg K C) (hp : (PbsProg.start env).runR env ops = some p) (hn : PbsNormal env p) :
    p.sys.store.length = env.sims.length ∧
    (∀ l sim, env.sims[l]? = some sim → ∃ x, p.sys.store[l]? = some x ∧
      x.scheduled = (List.range (wantedCount l (ops.map (·.call')))).map (sampleTag l) ∧
      ∃ stored failed, x.collectedIds = stored.map (·.1) ∧ x.collectedValues = (if stored = [] then none else some (stored.map (·.2))) ∧
        x.failed = some failed ∧
        (∀ s ∈ stored, s ∈ goodSamples env.md5 sim (wantedCount l (ops.map (·.call')))) ∧
        (stored.map (·.1) ++ failed.map (·.1) ++ p.waiting env l).Perm x.scheduled) ∧
    ∃ u, hdfUnfinishedIds p.sys.store = .ok u ∧ ∀ id, id ∈ u ↔ ∃ l, l < env.sims.length ∧ id ∈ p.waiting env l := by
  obtain ⟨since, hat⟩ := renewAt_program env ops ho p hp hn.tame
  obtain ⟨sops, hi, hlen, hcore⟩ := renewProgram_core env hat hn.tame
  refine ⟨hlen, ?_, ?_⟩
  · intro l sim hsim
    have hl := (List.getElem?_eq_some_iff.1 hsim).1
    obtain ⟨y, y1, y2, y3, y4, y5⟩ := hdf_fresh_spec env.sims.length l hl sops
    obtain ⟨c1, c2⟩ := hcore l hl
    refine ⟨y, by rw [hi.store]; exact y1, by rw [y2, c1], _, _, y3, y4, y5, ?_, by rw [y2, c1]; exact c2⟩
    rintro ⟨id, v⟩ hv
    have hid : id ∈ (List.range (wantedCount l (ops.map (·.call')))).map (sampleTag l) := by
      apply c2.subset
      simp only [List.mem_append, List.mem_map]
      exact .inl (.inl ⟨_, hv, rfl⟩)
    rw [hi.succ] at hv
    obtain ⟨a, ha, hv⟩ := List.mem_flatMap.1 hv
    obtain ⟨before, q, qa, rest, hb, -, hans⟩ := answer_after env p 0 (Nat.zero_le _) a ha
    have hh := hi.hist
    obtain ⟨d1, d2⟩ := (delivered_at hh.world hh.noR hh.noP hh.sims hh.lev hh.pk hn l sim hsim a before rest q qa hb hans).1 id v hv
    obtain ⟨i, hi', rfl⟩ := List.mem_map.1 hid
    refine List.mem_filterMap.2 ⟨i, hi', ?_⟩
    rw [he l sim hsim]
    rw [d1] at d2
    simp [d1, d2]
  · obtain ⟨u, u1, u2, _, _⟩ := C18_unfinished_ids env.sims.length sops
    refine ⟨u, by rw [hi.store]; exact u1, ?_⟩
    intro id
    rw [u2]
    apply exists_congr
    intro l
    refine and_congr_right fun hl => ?_
    obtain ⟨c1, c2⟩ := hcore l hl
    have hnd : ((savedSucc sops l).map (·.1) ++ (savedFailed sops l).map (·.1) ++ p.waiting env l).Nodup := by
      rw [c2.nodup_iff]
      exact (List.nodup_map_iff_inj_on List.nodup_range).2 fun x _ y _ e => (sampleTag_injective e).2
    have hm := c2.mem_iff (a := id)
    have hd := (List.nodup_append.1 hnd).2.2
    simp only [List.mem_append] at hm hd
    unfold OpenAt
    rw [c1, ← hm]
    constructor
    · rintro ⟨(h | h), h1, h2⟩
      · rcases h with h | h
        · exact absurd h h1
        · exact absurd h h2
      · exact h
    · intro h
      exact ⟨.inr h, fun h1 => hd id (.inl h1) id h rfl, fun h1 => hd id (.inr h1) id h rfl⟩

/-- The failed samples were reported after the last renewal. -/
theorem renew_complete_core (env : PbsEnv Cfg K C) (he : env.Proper) (ops : List (PbsRenewOp K)) (ho : ∀ o ∈ ops, o.Proper env.sims.length)
    (p : PbsProg Cfg K C) (hp : (PbsProg.start env).runR env ops = some p) (hn : PbsNormal env p) {w : Nat → Want} {since : Nat}
    (hat : RenewAt env w since p) (p1 : PbsProg Cfg K C) (hp1 : p1.hist <+: p.hist.take since) (hd : NoJobDiesAfter env p1 p)
    (hw : ∀ l, p.waiting env l = []) :
    (∀ l sim, env.sims[l]? = some sim → ∃ x, p.sys.store[l]? = some x ∧
      x.scheduled = (List.range (wantedCount l (ops.map (·.call')))).map (sampleTag l) ∧
      ∃ stored failed, x.collectedIds = stored.map (·.1) ∧ x.collectedValues = (if stored = [] then none else some (stored.map (·.2))) ∧
        x.failed = some failed ∧
        stored.Perm (goodSamples env.md5 sim (wantedCount l (ops.map (·.call')))) ∧
        (failed.map (·.1)).Perm (badSamples env.md5 sim (wantedCount l (ops.map (·.call'))))) ∧
    hdfUnfinishedIds p.sys.store = .ok [] := by
  obtain ⟨-, hlev, u, hu1, hu2⟩ := C135_pbs_program_partial env he ops ho p hp hn
  obtain ⟨sops, hi, -, -⟩ := renewProgram_core env hat hn.tame
  constructor
  · intro l sim hsim
    have hl := (List.getElem?_eq_some_iff.1 hsim).1
    obtain ⟨x, x1, x2, stored, failed, x3, x4, x5, x6, x7⟩ := hlev l sim hsim
    refine ⟨x, x1, x2, stored, failed, x3, x4, x5, ?_⟩
    rw [hw l, List.append_nil, x2] at x7
    obtain ⟨y, y1, -, -, -, y5⟩ := hdf_fresh_spec env.sims.length l hl sops
    have hxy : x = y := by rw [hi.store, y1] at x1; injection x1 with x1; exact x1.symm
    subst hxy
    have hff : failed = savedFailed sops l := by rw [x5] at y5; injection y5
    refine stored_failed_perm (he l sim hsim) x6 ?_ x7
    intro id hid
    rw [hff, hi.failed] at hid
    simp only [List.map_flatMap, List.mem_flatMap] at hid
    obtain ⟨a, ha, hid⟩ := hid
    obtain ⟨before, q, qa, rest, hb, hpre, hans⟩ := answer_after env p since hi.le a ha
    have hh := hi.hist
    exact (delivered_at hh.world hh.noR hh.noP hh.sims hh.lev hh.pk hn l sim hsim a before rest q qa hb hans).2
      (hd before q qa rest hb (hp1.trans hpre)) id hid
  · rw [hu1]
    congr 1
    apply List.eq_nil_iff_forall_not_mem.2
    intro id hid
    obtain ⟨l, -, h⟩ := (hu2 id).1 hid
    rw [hw l] at h; simp at h

/-- `C135`: samples of dead jobs are recovered.  Jobs may die anywhere; then the program calls `renew_failed_samples` and goes on (in any way, with
further renewals or not); if no job is found dead after that and at the end nothing is waiting, the storage holds on every level exactly the well
formed results of the requested samples, each once, and lists the others as failed, each once; none is unfinished: the deaths have left no trace. -/
theorem C135_renewal_recovers_partial (env : PbsEnv Cfg K C) (he : env.Proper) (first later : List (PbsRenewOp K)) (cmds)
    (ho : ∀ o ∈ first ++ later, o.Proper env.sims.length) (p1 p : PbsProg Cfg K C) (hp1 : (PbsProg.start env).runR env (first ++ [.renew cmds]) = some p1)
    (hp : p1.runR env later = some p) (hn : PbsNormal env p) (hd : NoJobDiesAfter env p1 p) (hw : ∀ l, p.waiting env l = []) :
    (∀ l sim, env.sims[l]? = some sim → ∃ x, p.sys.store[l]? = some x ∧
      x.scheduled = (List.range (wantedCount l ((first ++ later).map (·.call')))).map (sampleTag l) ∧
      ∃ stored failed, x.collectedIds = stored.map (·.1) ∧ x.collectedValues = (if stored = [] then none else some (stored.map (·.2))) ∧
        x.failed = some failed ∧
        stored.Perm (goodSamples env.md5 sim (wantedCount l ((first ++ later).map (·.call')))) ∧
        (failed.map (·.1)).Perm (badSamples env.md5 sim (wantedCount l ((first ++ later).map (·.call'))))) ∧
    hdfUnfinishedIds p.sys.store = .ok [] := by
  have hcnt : ∀ l, wantedCount l (((first ++ [PbsRenewOp.renew cmds]) ++ later).map (·.call')) = wantedCount l ((first ++ later).map (·.call')) := by
    intro l
    simp [wantedCount, PbsRenewOp.call', Want.step, List.foldl_append]
  have ho' : ∀ o ∈ (first ++ [PbsRenewOp.renew cmds]) ++ later, o.Proper env.sims.length := by
    intro o h
    simp only [List.mem_append, List.mem_singleton] at h
    rcases h with (h | rfl) | h
    · exact ho o (by simp [h])
    · trivial
    · exact ho o (by simp [h])
  have hp' : (PbsProg.start env).runR env ((first ++ [.renew cmds]) ++ later) = some p := by rw [runR_append, hp1]; exact hp
  have htp1 : PbsTame env p1 := hn.tame.mono (runR_histPrefix hp)
  rw [runR_append] at hp1
  obtain ⟨p0, h0, hr⟩ := Option.bind_eq_some_iff.1 hp1
  have hr : p0.stepR env (.renew cmds) = some p1 := by
    simp only [PbsProg.runR] at hr
    cases h : p0.stepR env (.renew cmds) with
    | none => rw [h] at hr; cases hr
    | some x => rw [h] at hr; exact hr
  obtain ⟨s0, hat0⟩ := renewAt_program env first (fun o h => ho o (by simp [h])) p0 h0 (htp1.mono (stepR_histPrefix hr))
  obtain ⟨s1, -, hs1, hat1⟩ := renewAt_step hat0 (.renew cmds) trivial hr htp1
  have hs1 : s1 = p1.hist.length := hs1 ⟨cmds, rfl⟩
  obtain ⟨s2, hs2, hat2⟩ := renewAt_run later hat1 (fun o h => ho o (by simp [h])) hp hn.tame
  have hpre : p1.hist <+: p.hist.take s2 := by
    rw [List.prefix_take_iff]
    exact ⟨runR_histPrefix hp, by rw [← hs1]; exact hs2⟩
  have := renew_complete_core env he _ ho' p hp' hn hat2 p1 hpre hd hw
  simp only [hcnt] at this
  exact this

/-- `C135`: if no job dies at all and at the end nothing is waiting, the storage holds exactly the well formed results of the requested samples, each
once, and lists the others as failed, each once, however often failed samples were renewed. -/
theorem C135_pbs_program_complete_partial (env : PbsEnv Cfg K C) (he : env.Proper) (ops : List (PbsRenewOp K)) (ho : ∀ o ∈ ops, o.Proper env.sims.length)
    (p : PbsProg Cfg K C) (hp : (PbsProg.start env).runR env ops = some p) (hn : PbsNormal env p) (hd : NoJobDies env p)
    (hw : ∀ l, p.waiting env l = []) :
    (∀ l sim, env.sims[l]? = some sim → ∃ x, p.sys.store[l]? = some x ∧
      x.scheduled = (List.range (wantedCount l (ops.map (·.call')))).map (sampleTag l) ∧
      ∃ stored failed, x.collectedIds = stored.map (·.1) ∧ x.collectedValues = (if stored = [] then none else some (stored.map (·.2))) ∧
        x.failed = some failed ∧
        stored.Perm (goodSamples env.md5 sim (wantedCount l (ops.map (·.call')))) ∧
        (failed.map (·.1)).Perm (badSamples env.md5 sim (wantedCount l (ops.map (·.call'))))) ∧
    hdfUnfinishedIds p.sys.store = .ok [] := by
  obtain ⟨since, hat⟩ := renewAt_program env ops ho p hp hn.tame
  exact renew_complete_core env he ops ho p hp hn hat (PbsProg.start env) (by simp [PbsProg.start])
    (fun before q qa rest hb _ => hd before q qa rest hb) hw

/-- `C135`: after a renewal that recovered everything, `estimate_mean` returns for every quantity what it returns for a program with a
`OneProcessPool` asking for the same numbers of samples, or raises on both. -/
theorem C135_same_estimates_partial {F : Type} [Field F] [CharZero F] (env : PbsEnv Cfg (Option F) C) (he : env.Proper) (W : Nat)
    (env1 : ProgEnv Cfg (Option F) C) (h1 : env1.md5 = env.md5 ∧ env1.sims = env.sims) (he1 : env1.Proper) (ha : env1.Arrays W)
    (first later : List (PbsRenewOp (Option F))) (cmds)
    (ho : ∀ o ∈ first ++ later, o.Proper env.sims.length) (pr p : PbsProg Cfg (Option F) C) (hpr : (PbsProg.start env).runR env (first ++ [.renew cmds]) = some pr)
    (hp : pr.runR env later = some p) (hn : PbsNormal env p) (hd : NoJobDiesAfter env pr p) (hw : ∀ l, p.waiting env l = [])
    (debug hasDir : Bool) (dirs : Dirs C) (ops1 : List ProgOp) (ho1 : ∀ o ∈ ops1, o.Proper env.sims.length) (t : ℚ)
    (hsame : ∀ l, l < env.sims.length → wantedCount l ((first ++ later).map (·.call')) = wantedCount l ops1)
    (p1 : Prog (Option F) C) (hp1 : (Prog.start env1 debug hasDir dirs).run env1 (ops1 ++ [.ask none [t]]) = some p1)
    (c c1 : Nat → Nat) (hc : ∀ l, 0 < c l) (hc1 : ∀ l, 0 < c1 l) (sid : Nat) (q : Quantity (Option F)) (hq : Built sid .qty q) (hid : IdsIdentify q) :
    (∃ e, estimateFromStorage (storedNumbers p.sys.store) c sid q = .ok e ∧ estimateFromStorage (storedNumbers p1.sys.store) c1 sid q = .ok e) ∨
    (∃ x y, estimateFromStorage (storedNumbers p.sys.store) c sid q = .error x ∧
      estimateFromStorage (storedNumbers p1.sys.store) c1 sid q = .error y) := by
  obtain ⟨md5, sims, dur⟩ := env1
  obtain ⟨rfl, rfl⟩ := h1
  have ha' : ProgEnv.Arrays ⟨env.md5, env.sims, fun _ => 0⟩ W := ⟨ha.fmt, ha.arrays⟩
  obtain ⟨hlev, _⟩ := C135_renewal_recovers_partial env he first later cmds ho pr p hpr hp hn hd hw
  have hlen : p.sys.store.length = env.sims.length := by
    refine (C135_pbs_program_partial env he ((first ++ [.renew cmds]) ++ later) ?_ p (by rw [runR_append, hpr]; exact hp) hn).1
    intro o h
    simp only [List.mem_append, List.mem_singleton] at h
    rcases h with (h | rfl) | h
    · exact ho o (by simp [h])
    · trivial
    · exact ho o (by simp [h])
  refine holds_same_estimates he ha' (count := fun l => wantedCount l ((first ++ later).map (·.call'))) ⟨hlen, ?_⟩ ?_ c c1 hc hc1 sid q hq hid
  · intro l sim hs
    obtain ⟨x, x1, _, stored, failed, _, x4, _, x6, _⟩ := hlev l sim hs
    exact ⟨x, stored, x1, x4, x6⟩
  · exact holds_congr (holds_oneProcess ⟨env.md5, env.sims, dur⟩ he1 debug hasDir dirs ops1 ho1 t p1 hp1) (fun l hl => (hsame l hl).symm)

/-! ## A concrete program -/
namespace ExPbsRenew
open ExPbsProg

/-- Appends of job `j` computing sample `i`. -/
def runAs (j i : Nat) : List (Nat × JobAppend (PairRes (Option ℚ))) := (run i).map fun a => (j, a.2)

/-- Three samples; the jobs of samples 0 and 1 run (sample 1 returns vectors of a wrong length), the one of sample 2 dies before it writes anything. -/
def first : List (PbsRenewOp (Option ℚ)) := [.call (.setInitial [3]), .call (.schedule (some 0) [] fun i => ([], .ok (69 + i))), .call (.pause (run 0 ++ run 1)),
  .call (.ask none [{ qsub := .fail, qstat := .ok [71, 72, 70] }])]

/-- Samples 1 and 2 are handed over again and come into the jobs 73 and 74. -/
def cmds (i : Nat) : List (Nat × JobAppend (PairRes (Option ℚ))) × QsubAns := ([], .ok (73 + i))

/-- The new jobs run to their ends. -/
def later : List (PbsRenewOp (Option ℚ)) := [.call (.ask none [{ jobs := runAs 4 2 ++ runAs 3 1, qsub := .fail, qstat := .ok [74, 73] }])]

def atRenewal : PbsProg Unit (Option ℚ) Unit := ((PbsProg.start env).runR env (first ++ [.renew cmds])).getD (.start env)
def final : PbsProg Unit (Option ℚ) Unit := (atRenewal.runR env later).getD (.start env)

theorem proper_ops : ∀ o ∈ first ++ later, o.Proper env.sims.length := by
  intro o ho
  simp only [first, later, List.cons_append, List.nil_append, List.mem_cons, List.not_mem_nil, or_false] at ho
  rcases ho with rfl | rfl | rfl | rfl | rfl <;> simp [PbsRenewOp.Proper, PbsProgOp.Proper, env]

theorem getD_run {α : Type} {o : Option α} (h : o.isSome = true) (d : α) : o = some (o.getD d) := by
  cases o with
  | none => cases h
  | some a => rfl

theorem run1 : (PbsProg.start env).runR env (first ++ [.renew cmds]) = some atRenewal := getD_run (by decide +kernel) _
theorem run2 : atRenewal.runR env later = some final := getD_run (by decide +kernel) _

theorem plain : PlainQsub final.hist := by
  have h : ∀ o ∈ final.hist, PlainOk o = true := by decide +kernel
  intro o ho q hq
  have := h o ho
  unfold PlainOk at this
  rw [Option.mem_def] at hq
  rw [hq] at this
  cases q <;> first | trivial | simp at this

theorem jobsPrefix : ∀ s ∈ submissions (final.outs env), appendsOf s.job final.hist <+: jobAppends simAt (pbsCompute env.md5) (fun _ => (0, 1)) s.samples := by
  decide +kernel

theorem tame : PbsTame env final := ⟨plain, by decide +kernel, fun s hs => ⟨_, _, _, jobsPrefix s hs⟩⟩

theorem simsOf : (fun l => Dict.get? final.world.disk.sims l) = simAt := by
  have hp : (PbsProg.start env).runR env ((first ++ [.renew cmds]) ++ later) = some final := by rw [runR_append, run1]; exact run2
  obtain ⟨since, hat⟩ := renewAt_program env _ (by
    intro o h
    simp only [List.mem_append, List.mem_singleton] at h
    rcases h with (h | rfl) | h
    · exact proper_ops o (by simp [h])
    · trivial
    · exact proper_ops o (by simp [h])) final hp tame
  obtain ⟨sops, hi⟩ := hat.inv
  have hh := hi.hist
  have keys : Dict.keys final.world.disk.sims = [0] := by decide +kernel
  funext l
  by_cases hl : l = 0
  · subst hl
    have h0 : (0 : Nat) ∈ Dict.keys final.world.disk.sims := by rw [keys]; simp
    obtain ⟨v, hv⟩ := Option.isSome_iff_exists.1 ((Dict.get?_isSome_iff _ _).2 h0)
    have := C35_level_simulation_is_first (computeSeed env.md5) final.hist (fun l h => hh.noR _ _ h) 0
    rw [← hh.world, hv] at this
    have := hh.sims 0 v this.symm
    simp only [env, List.getElem?_cons_zero, Option.some.injEq] at this
    rw [hv, simAt, this]; rfl
  · rw [simAt, if_neg hl, Dict.get?_eq_none_iff, keys]; simp [hl]

theorem normal : PbsNormal env final := ⟨plain, tame.ids, fun s hs => ⟨_, by rw [simsOf]; exact jobsPrefix s hs⟩⟩

theorem noneDiesAfter : NoJobDiesAfter env atRenewal final := by
  intro before q qa rest e hpre s hs hf
  refine ⟨fun _ => (0, 1), ?_⟩
  rw [simsOf]
  have hall : ∀ s ∈ submissions (final.outs env), ∀ k ∈ List.range final.hist.length, atRenewal.hist.length ≤ k → RecordOk final s k := by decide +kernel
  have hk := hall s hs before.length (by rw [e]; simp) hpre.length_le
  unfold RecordOk at hk
  rw [e] at hk
  simp only [List.getElem?_append_right (Nat.le_refl _), Nat.sub_self, List.getElem?_cons_zero, List.take_left'] at hk
  exact hk hf

theorem waitsNot (l : Nat) : final.waiting env l = [] := by
  have h1 : outstanding (final.hist.zip (final.outs env)) = [] := by decide +kernel
  have h2 : final.world.pool.scheduled = [] := by decide +kernel
  rw [PbsProg.waiting, h1, h2]; rfl

/-- The job of sample 2 died: `NoJobDies` fails, before the renewal two samples were listed as failed, after it only the one whose simulation fails. -/
example : (PbsProg.start env).runR env (first ++ [.renew cmds]) = some atRenewal ∧ atRenewal.runR env later = some final ∧ PbsNormal env final ∧
    NoJobDiesAfter env atRenewal final ∧ (∀ l, final.waiting env l = []) ∧
    (((PbsProg.start env).runR env first).map fun p => p.sys.store.map fun x => x.failed.map (·.map (·.1))) = some [some [sampleTag 0 1, sampleTag 0 2]] ∧
    atRenewal.sys.store.map (fun x => x.failed.map (·.map (·.1))) = [some []] ∧ atRenewal.waiting env 0 = [sampleTag 0 1, sampleTag 0 2] ∧
    final.sys.store.map (·.collectedIds) = [[sampleTag 0 0, sampleTag 0 2]] ∧
    final.sys.store.map (fun x => x.failed.map (·.map (·.1))) = [some [sampleTag 0 1]] :=
  ⟨run1, run2, normal, noneDiesAfter, waitsNot, by decide +kernel, by decide +kernel, by decide +kernel, by decide +kernel, by decide +kernel⟩

end ExPbsRenew

end MLMC
