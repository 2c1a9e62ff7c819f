import Verif.Proofs.ProgramPar
import Verif.Props.Storage
import Verif.Proofs.SameEstimates
/-! # C92 Whole programs with parallel pools: what is stored, whatever the order in which workers finish -/
namespace MLMC
variable {Cfg K C : Type}

/-- What all C92 theorems rest on. -/
theorem parProgram_core (env : ParEnv Cfg K C) (he : env.Proper) (ops : List ParOp) (ho : ∀ o ∈ ops, o.Proper env.sims.length)
    (p : ParProg K) (hp : (ParProg.start env).run env ops = some p) :
    ∃ sops, ParInv env p sops ∧ p.sys.store.length = env.sims.length ∧
      (∀ l sim, env.sims[l]? = some sim → savedSched sops l = (List.range (wantedCount l (ops.map (·.call)))).map (sampleTag l) ∧
        (storedItems sops l).Subperm ((List.range (wantedCount l (ops.map (·.call)))).map fun i => parItem env.md5 sim (sampleTag l i)) ∧
        (p.pool.running ≤ 0 → (storedItems sops l).Perm ((List.range (wantedCount l (ops.map (·.call)))).map fun i => parItem env.md5 sim (sampleTag l i)))) := by
  have h := parAt_run he ops (parAt_start env) ho hp
  obtain ⟨sops, hi⟩ := h.inv
  refine ⟨sops, hi, h.sched.storeLen, ?_⟩
  intro l sim hs
  have hl := (List.getElem?_eq_some_iff.1 hs).1
  have hcnt : p.sys.nSched[l]? = some (wantedCount l (ops.map (·.call))) := (h.want l hl).2
  refine ⟨?_, stored_subperm he hi hcnt hs⟩
  obtain ⟨y, y1, y2, _⟩ := hdf_fresh_spec env.sims.length l hl sops
  have := h.sched.sched l
  rw [hcnt, schedOf, List.getElem?_map, hi.store, y1] at this
  simp only [Option.map_some, Option.some.injEq, levelTags] at this
  rw [← y2, this, List.range_eq_range']

/-- `C92`: a program of proper calls on a new storage with a `ThreadPool` or `ProcessPool`, whatever simulations do, in whatever order and at
whatever moments workers finish (also between the steps of `get_finished`) or raise.  At every point where its calls have returned, on every
level, the storage lists exactly the requested samples as scheduled; its stored results are well formed results the level's own simulation
computed for requested samples from their own seeds, each at most once; and the samples listed as failed are requested ones whose simulation did
not return a well formed result, each at most once. -/
theorem C92_parallel_program (env : ParEnv Cfg K C) (he : env.Proper) (ops : List ParOp) (ho : ∀ o ∈ ops, o.Proper env.sims.length)
    (p : ParProg K) (hp : (ParProg.start env).run env ops = some p) :
    p.sys.store.length = env.sims.length ∧
    ∀ l sim, env.sims[l]? = some sim → ∃ x, p.sys.store[l]? = some x ∧
      x.scheduled = (List.range (wantedCount l (ops.map (·.call)))).map (sampleTag l) ∧
      ∃ stored failed, x.collectedIds = stored.map (·.1) ∧ x.collectedValues = (if stored = [] then none else some (stored.map (·.2))) ∧
        x.failed = some failed ∧
        stored.Subperm (goodSamples env.md5 sim (wantedCount l (ops.map (·.call)))) ∧
        (failed.map (·.1)).Subperm (badSamples env.md5 sim (wantedCount l (ops.map (·.call)))) := by
  obtain ⟨sops, hi, hlen, hcore⟩ := parProgram_core env he ops ho p hp
  refine ⟨hlen, ?_⟩
  intro l sim hsim
  have hl := (List.getElem?_eq_some_iff.1 hsim).1
  obtain ⟨y, y1, y2, y3, y4, y5⟩ := hdf_fresh_spec env.sims.length l hl sops
  obtain ⟨c1, c2, _⟩ := hcore l sim hsim
  obtain ⟨e1, e2⟩ := okOf_items env.md5 sim (he l sim hsim) (wantedCount l (ops.map (·.call)))
  obtain ⟨d1, d2⟩ := okOf_perm.1 c2
  rw [okOf_stored, e1] at d1
  rw [errOf_stored, e2] at d2
  exact ⟨y, by rw [hi.store]; exact y1, by rw [y2, c1], _, _, y3, y4, y5, d1, d2⟩

/-- `C92`: if moreover the last call waits for the samples (`ask_sampling_pool_for_samples()` without timeout) and returns, then every requested
sample is stored or listed as failed: on every level the storage holds exactly the well formed results of the requested samples, each once, and
lists the others as failed, each once; none is unfinished. -/
theorem C92_parallel_program_complete (env : ParEnv Cfg K C) (he : env.Proper) (ops : List ParOp) (ho : ∀ o ∈ ops, o.Proper env.sims.length)
    (rounds : List ParRound) (p : ParProg K) (hp : (ParProg.start env).run env (ops ++ [.ask none rounds]) = some p) :
    p.sys.store.length = env.sims.length ∧
    (∀ l sim, env.sims[l]? = some sim → ∃ x, p.sys.store[l]? = some x ∧
      x.scheduled = (List.range (wantedCount l (ops.map (·.call)))).map (sampleTag l) ∧
      ∃ stored failed, x.collectedIds = stored.map (·.1) ∧ x.collectedValues = (if stored = [] then none else some (stored.map (·.2))) ∧
        x.failed = some failed ∧
        stored.Perm (goodSamples env.md5 sim (wantedCount l (ops.map (·.call)))) ∧
        (failed.map (·.1)).Perm (badSamples env.md5 sim (wantedCount l (ops.map (·.call))))) ∧
    hdfUnfinishedIds p.sys.store = .ok [] ∧
    hdfNFinished p.sys.store = .ok ((List.range env.sims.length).map fun l => wantedCount l (ops.map (·.call))) := by
  have ho' : ∀ o ∈ ops ++ [.ask none rounds], o.Proper env.sims.length := by
    intro o h
    rcases List.mem_append.1 h with h | h
    · exact ho o h
    · rw [List.mem_singleton.1 h]; trivial
  have hcnt : ∀ l, wantedCount l ((ops ++ [ParOp.ask none rounds]).map (·.call)) = wantedCount l (ops.map (·.call)) := by
    intro l
    simp [wantedCount, ParOp.call, Want.step, List.foldl_append]
  have hrun : p.pool.running ≤ 0 := by
    rw [parProg_run_append] at hp
    cases hq : (ParProg.start env).run env ops with
    | none => rw [hq] at hp; cases hp
    | some q =>
      rw [hq] at hp
      simp only [Option.bind_some, ParProg.run, ParProg.step, ParProg.ask] at hp
      have h := parAt_run he ops (parAt_start env) ho hq
      cases hw : q.wait 0 rounds with
      | none => rw [hw] at hp; cases hp
      | some r =>
        rw [hw] at hp
        simp only [Option.bind_some, Option.some.injEq] at hp
        subst hp
        exact (parAt_wait 0 rounds h hw).2 le_rfl
  obtain ⟨sops, hi, hlen, hcore⟩ := parProgram_core env he _ ho' p hp
  simp only [hcnt] at hcore
  have hperm : ∀ l sim, env.sims[l]? = some sim → (savedSucc sops l).Perm (goodSamples env.md5 sim (wantedCount l (ops.map (·.call)))) ∧
      ((savedFailed sops l).map (·.1)).Perm (badSamples env.md5 sim (wantedCount l (ops.map (·.call)))) := by
    intro l sim hsim
    obtain ⟨c1, _, c2⟩ := hcore l sim hsim
    obtain ⟨e1, e2⟩ := okOf_items env.md5 sim (he l sim hsim) (wantedCount l (ops.map (·.call)))
    obtain ⟨d1, d2⟩ := okOf_perm.2 (c2 hrun)
    rw [okOf_stored, e1] at d1
    rw [errOf_stored, e2] at d2
    exact ⟨d1, d2⟩
  refine ⟨hlen, ?_, ?_, ?_⟩
  · intro l sim hsim
    have hl := (List.getElem?_eq_some_iff.1 hsim).1
    obtain ⟨y, y1, y2, y3, y4, y5⟩ := hdf_fresh_spec env.sims.length l hl sops
    exact ⟨y, by rw [hi.store]; exact y1, by rw [y2, (hcore l sim hsim).1], _, _, y3, y4, y5, hperm l sim hsim⟩
  · rw [hi.store]
    obtain ⟨r, r1, _, _, r4⟩ := C18_unfinished_ids env.sims.length sops
    rw [r1, r4]
    intro l id hl hid
    have hs : env.sims[l]? = some env.sims[l] := List.getElem?_eq_getElem hl
    obtain ⟨d1, d2⟩ := hperm l _ hs
    rw [(hcore l _ hs).1] at hid
    rcases good_or_bad (md5 := env.md5) (he l _ hs) hid with h | h
    · left; exact (d1.map (·.1)).symm.subset h
    · right; exact d2.symm.subset h
  · rw [hi.store, C16_hdf_finished_counts]
    congr 1
    apply List.map_congr_left
    intro l hl
    have hl := List.mem_range.1 hl
    have hs : env.sims[l]? = some env.sims[l] := List.getElem?_eq_getElem hl
    obtain ⟨d1, d2⟩ := hperm l _ hs
    have e2 : (savedFailed sops l).length = (badSamples env.md5 env.sims[l] (wantedCount l (ops.map (·.call)))).length := by
      rw [← d2.length_eq, List.length_map]
    rw [d1.length_eq, e2]
    exact good_add_bad _ _ _

/-- `C92`: such a program gives the same estimates as a program with a `OneProcessPool` (with or without a working directory, any durations)
asking for the same numbers of samples: for every quantity, `estimate_mean` returns the same from both storages, or raises on both. -/
theorem C92_same_estimates {F : Type} [Field F] [CharZero F] (env : ParEnv Cfg (Option F) C) (he : env.Proper) (W : Nat)
    (env1 : ProgEnv Cfg (Option F) C) (h1 : env1.md5 = env.md5 ∧ env1.sims = env.sims) (he1 : env1.Proper) (ha : env1.Arrays W)
    (ops : List ParOp) (ho : ∀ o ∈ ops, o.Proper env.sims.length) (rounds : List ParRound)
    (p : ParProg (Option F)) (hp : (ParProg.start env).run env (ops ++ [.ask none rounds]) = some p)
    (debug hasDir : Bool) (dirs : Dirs C) (ops1 : List ProgOp) (ho1 : ∀ o ∈ ops1, o.Proper env.sims.length) (t : ℚ)
    (hsame : ∀ l, l < env.sims.length → wantedCount l (ops.map (·.call)) = wantedCount l ops1)
    (p1 : Prog (Option F) C) (hp1 : (Prog.start env1 debug hasDir dirs).run env1 (ops1 ++ [.ask none [t]]) = some p1)
    (c c1 : Nat → Nat) (hc : ∀ l, 0 < c l) (hc1 : ∀ l, 0 < c1 l) (sid : Nat) (q : Quantity (Option F)) (hq : Built sid .qty q) (hid : IdsIdentify q) :
    (∃ e, estimateFromStorage (storedNumbers p.sys.store) c sid q = .ok e ∧ estimateFromStorage (storedNumbers p1.sys.store) c1 sid q = .ok e) ∨
    (∃ x y, estimateFromStorage (storedNumbers p.sys.store) c sid q = .error x ∧
      estimateFromStorage (storedNumbers p1.sys.store) c1 sid q = .error y) := by
  obtain ⟨md5, sims, dur⟩ := env1
  obtain ⟨rfl, rfl⟩ := h1
  have ha' : ProgEnv.Arrays ⟨env.md5, env.sims, fun _ => 0⟩ W := ⟨ha.fmt, ha.arrays⟩
  obtain ⟨hlen, hlev, _⟩ := C92_parallel_program_complete env he ops ho rounds p hp
  refine holds_same_estimates he ha' (count := fun l => wantedCount l (ops.map (·.call))) ⟨hlen, ?_⟩ ?_ c c1 hc hc1 sid q hq hid
  · intro l sim hs
    obtain ⟨x, x1, _, stored, failed, _, x4, _, x6, _⟩ := hlev l sim hs
    exact ⟨x, stored, x1, x4, x6⟩
  · exact holds_congr (holds_oneProcess ⟨env.md5, env.sims, dur⟩ he1 debug hasDir dirs ops1 ho1 t p1 hp1) (fun l hl => (hsame l hl).symm)

/-- No task is left, all queues are empty, and still the counter of running samples is positive. -/
structure Stuck (p : ParProg K) : Prop where
  tasks : p.tasks = []
  queues : ∀ k, (Dict.get? p.pool.queues k).getD [] = []
  running : 0 < p.pool.running
  pc : ∀ f k i r, p.pool.pc ≠ .snapped f k i r

theorem finishAll_nil {p : ParProg K} (h : p.tasks = []) (is : List Nat) : p.finishAll is = p := by
  unfold ParProg.finishAll
  induction is with
  | nil => rfl
  | cons i is ih =>
    rw [List.foldl_cons]
    have : p.finish i = p := by simp [ParProg.finish, h]
    rw [this, ih]

theorem stuck_main {p : ParProg K} (h : Stuck p) : Stuck { p with pool := p.pool.step .main } ∧ (p.pool.step .main).returned = p.pool.returned := by
  have hq := h.queues
  have hr := h.running
  have hp := h.pc
  cases hpc : p.pool.pc with
  | idle => exact ⟨⟨h.tasks, by simpa [Par.step, hpc] using hq, by simpa [Par.step, hpc] using hr, by simp [Par.step, hpc]⟩, by simp [Par.step, hpc]⟩
  | snapped f k i r => exact absurd hpc (hp f k i r)
  | loop f rest =>
    cases rest with
    | nil =>
      cases f with
      | false => exact ⟨⟨h.tasks, by simpa [Par.step, hpc] using hq, by simpa [Par.step, hpc] using hr, by simp [Par.step, hpc]⟩, by simp [Par.step, hpc]⟩
      | true => exact ⟨⟨h.tasks, by simpa [Par.step, hpc] using hq, by simpa [Par.step, hpc] using hr, by simp [Par.step, hpc]⟩, by simp [Par.step, hpc]⟩
    | cons k rest =>
      exact ⟨⟨h.tasks, by simpa [Par.step, hpc, hq k] using hq, by simpa [Par.step, hpc, hq k] using hr, by simp [Par.step, hpc, hq k]⟩, by simp [Par.step, hpc, hq k]⟩

theorem stuck_getSteps : ∀ (steps : List (List Nat)) {p q : ParProg K}, Stuck p → p.getSteps steps = some q → Stuck q := by
  intro steps
  induction steps with
  | nil => intro p q _ hq; cases hq
  | cons is rest ih =>
    intro p q h hq
    simp only [ParProg.getSteps, finishAll_nil h.tasks] at hq
    split at hq
    · split at hq
      · injection hq with hq; subst hq; exact (stuck_main h).1
      · cases hq
    · exact ih (stuck_main h).1 hq

theorem stuck_collect {p q : ParProg K} (h : Stuck p) (r : ParRound) {n : ℤ} (hq : p.collect r = some (n, q)) : Stuck q ∧ 0 < n := by
  simp only [ParProg.collect] at hq
  cases hg : p.getSteps r.steps with
  | none => rw [hg] at hq; cases hq
  | some x =>
    rw [hg] at hq
    simp only [Option.map_some, Option.some.injEq, Prod.mk.injEq] at hq
    obtain ⟨rfl, rfl⟩ := hq
    have := stuck_getSteps _ h hg
    exact ⟨⟨this.tasks, this.queues, this.running, this.pc⟩, this.running⟩

/-- Waiting without timeout never ends then. -/
theorem stuck_ask : ∀ (rounds : List ParRound) {p : ParProg K}, Stuck p → p.ask none rounds = none := by
  intro rounds
  induction rounds with
  | nil => intro p _; rfl
  | cons r rs ih =>
    intro p h
    simp only [ParProg.ask, ParProg.wait] at ih ⊢
    split
    · rfl
    · rename_i n q hq
      obtain ⟨h1, h2⟩ := stuck_collect h r hq
      rw [if_neg (fun hc => lt_irrefl _ hc.1), if_pos h2]
      exact ih h1

/-! ## A concrete program -/

namespace ExParProg

/-- Simulations of seeds divisible by 3 raise. -/
def sim (l : Nat) : PoolSim Unit (Option ℚ) Unit :=
  { level := l, cfg := (), workspace := true, filesOk := true
    calculate := fun _ seed => if seed % 3 = 0 then .raised ['e'] else
      .pair (.array [some (seed : ℚ), some 1]) (.array [if l = 0 then some 0 else some (seed - 2 : ℚ), if seed = 52 then none else some 0])
    files := fun _ _ => (), fmt := [⟨['q'], ['m'], [2], [1], [.name ['a']]⟩] }

/-- The seed is the last character of the identifier. -/
def env : ParEnv Unit (Option ℚ) Unit := { md5 := fun id => [UInt8.ofNat (id.getLast?.getD 'x').toNat, 0, 0, 0], sims := [sim 0, sim 1] }

theorem proper : env.Proper := by
  intro l s h
  rcases l with _ | _ | l
  · simp [env] at h; subst h; rfl
  · simp [env] at h; subst h; rfl
  · simp [env] at h

/-- Three and two samples are requested, the workers finish some between the steps of the polls, failed samples are renewed, the targets raised. -/
def ops : List ParOp :=
  [.setInitial [3, 2], .schedule (some 0) [] (fun i => if i = 5 then [2] else []), .pause [2, 0],
   .ask (some 1) [{ steps := List.replicate 7 [] }, { steps := [[1], [], [], [0]] ++ List.replicate 3 [], time := 2 }],
   .renew (fun _ => []), .setTarget [6, 5], .schedule (some (-1)) [] (fun i => if i = 2 then [1] else []), .renew (fun _ => [0])]

/-- The final wait. -/
def rounds : List ParRound := [{ steps := [[3, 1], [0], [], [], [0]] ++ List.replicate 4 [] }, { steps := [[0, 0, 0, 0]] ++ List.replicate 9 [] }]

theorem opsProper : ∀ o ∈ ops, o.Proper env.sims.length := by
  intro o ho
  simp only [ops, List.mem_cons, List.not_mem_nil, or_false] at ho
  rcases ho with rfl | rfl | rfl | rfl | rfl | rfl | rfl | rfl <;> simp [ParOp.Proper, env]

theorem returns : ((ParProg.start env).run env (ops ++ [.ask none rounds])).isSome = true := by decide +kernel

/-- The hypotheses hold; the results are stored in the order the workers finished. -/
example : ∃ p, (ParProg.start env).run env (ops ++ [.ask none rounds]) = some p ∧
    (p.sys.store.map fun x => x.collectedIds.map fun s => (s.getLast?.getD 'x')) = [['2', '1', '4', '5'], ['1', '2', '4']] ∧
    (p.sys.store.map fun x => x.failed.map fun f => f.map fun s => (s.1.getLast?.getD 'x')) = [some ['0', '3'], some ['0', '3']] := by
  obtain ⟨p, hp⟩ := Option.isSome_iff_exists.1 returns
  have hp' : p = ((ParProg.start env).run env (ops ++ [.ask none rounds])).getD (.start env) := by rw [hp]; rfl
  exact ⟨p, hp, by rw [hp']; decide +kernel, by rw [hp']; decide +kernel⟩

/-- The same request to a `OneProcessPool`: the same estimate. -/
example : ∃ p p1 e, (ParProg.start env).run env (ops ++ [.ask none rounds]) = some p ∧
    (Prog.start ExProg.env true true {}).run ExProg.env (ExProg.ops ++ [.ask none [7]]) = some p1 ∧
    estimateFromStorage (storedNumbers p.sys.store) (fun _ => 2) 7 (.storage 7 (.array [2] .scalar)) = .ok e ∧
    estimateFromStorage (storedNumbers p1.sys.store) (fun _ => 3) 7 (.storage 7 (.array [2] .scalar)) = .ok e := by
  obtain ⟨p, hp⟩ := Option.isSome_iff_exists.1 returns
  obtain ⟨p1, hp1, _⟩ := C85_program_stores_all_results ExProg.env ExProg.proper true true {} ExProg.ops ExProg.opsProper 7
  have hids : IdsIdentify (.storage 7 (.array [2] .scalar) : Quantity (Option ℚ)) := by intro a ha; simp [Quantity.selections] at ha
  obtain ⟨e, h⟩ := C86_estimate_returns ExProg.env ExProg.proper 2 ExProg.arrays true true {} ExProg.ops ExProg.opsProper 7 ExProg.some_samples (fun _ => 3) (fun _ => by omega) 7 _
    (.root (.array [2] .scalar)) hids (.root _ (by decide)) ⟨⟨2, 1, []⟩, by intro s hs; simp at hs, rfl, [], rfl⟩
    ⟨0, by decide, by decide +kernel⟩ p1 hp1
  rcases C92_same_estimates env proper 2 ExProg.env ⟨rfl, rfl⟩ ExProg.proper ExProg.arrays ops opsProper rounds p hp true true {} ExProg.ops ExProg.opsProper 7
    (by decide +kernel) p1 hp1 (fun _ => 2) (fun _ => 3) (fun _ => by omega) (fun _ => by omega) 7 _ (.root (.array [2] .scalar)) hids with ⟨e', h1, h2⟩ | ⟨x, y, _, h2⟩
  · exact ⟨p, p1, e', hp, hp1, h1, h2⟩
  · rw [h] at h2; cases h2

/-- Sample 2 of level 0 is put into the queue between reading and clearing it. -/
def hang : List ParOp := [.setInitial [3, 1], .schedule (some 0) [] (fun _ => []), .pause [1],
  .ask (some 1) [{ steps := [[], [], [0, 0, 0]] ++ List.replicate 6 [], time := 2 }]]

end ExParProg

/-- `C92`: a waiting call need not return, although all workers have finished without raising: there is a program after which no task is left with
the workers and waiting without timeout runs for ever, whatever happens, with a sample requested, computed and neither stored nor failed. -/
theorem C92_waiting_ends_counterexample : ∃ (env : ParEnv Unit (Option ℚ) Unit) (ops : List ParOp) (p : ParProg (Option ℚ)),
    env.Proper ∧ (∀ o ∈ ops, o.Proper env.sims.length) ∧ (∀ sim ∈ env.sims, sim.filesOk = true) ∧
    (ParProg.start env).run env ops = some p ∧ p.tasks = [] ∧ (∀ rounds, p.ask none rounds = none) ∧
    hdfUnfinishedIds p.sys.store = .ok [sampleTag 0 2] := by
  have hs : ((ParProg.start ExParProg.env).run ExParProg.env ExParProg.hang).isSome = true := by decide +kernel
  obtain ⟨p, hp⟩ := Option.isSome_iff_exists.1 hs
  have hp' : p = ((ParProg.start ExParProg.env).run ExParProg.env ExParProg.hang).getD (.start ExParProg.env) := by rw [hp]; rfl
  refine ⟨ExParProg.env, ExParProg.hang, p, ExParProg.proper, ?_, ?_, hp, ?_, ?_, ?_⟩
  · intro o ho
    simp only [ExParProg.hang, List.mem_cons, List.not_mem_nil, or_false] at ho
    rcases ho with rfl | rfl | rfl | rfl <;> simp [ParOp.Proper, ExParProg.env]
  · intro s hs
    simp only [ExParProg.env, List.mem_cons, List.not_mem_nil, or_false] at hs
    rcases hs with rfl | rfl <;> rfl
  · have : (((ParProg.start ExParProg.env).run ExParProg.env ExParProg.hang).getD (.start ExParProg.env)).tasks.length = 0 := by decide +kernel
    rw [← hp'] at this
    exact List.eq_nil_of_length_eq_zero this
  · intro rounds
    apply stuck_ask
    have h1 : (((ParProg.start ExParProg.env).run ExParProg.env ExParProg.hang).getD (.start ExParProg.env)).tasks.length = 0 := by decide +kernel
    have h2 : ((((ParProg.start ExParProg.env).run ExParProg.env ExParProg.hang).getD (.start ExParProg.env)).pool.queues.map fun x => x.2.length) = [0, 0, 0] := by decide +kernel
    have h3 : (((ParProg.start ExParProg.env).run ExParProg.env ExParProg.hang).getD (.start ExParProg.env)).pool.running = 1 := by decide +kernel
    have h4 : (((ParProg.start ExParProg.env).run ExParProg.env ExParProg.hang).getD (.start ExParProg.env)).pool.pc.isIdle = true := by decide +kernel
    rw [← hp'] at h1 h2 h3 h4
    refine ⟨List.eq_nil_of_length_eq_zero h1, ?_, by rw [h3]; decide, ?_⟩
    · intro k
      cases hg : Dict.get? p.pool.queues k with
      | none => rfl
      | some v =>
        have hm := Dict.mem_of_get? hg
        have : v.length ∈ p.pool.queues.map fun x => x.2.length := List.mem_map.2 ⟨(k, v), hm, rfl⟩
        rw [h2] at this
        simp at this
        exact this
    · intro f k i r h
      rw [h] at h4; cases h4
  · rw [hp']; decide +kernel

end MLMC
