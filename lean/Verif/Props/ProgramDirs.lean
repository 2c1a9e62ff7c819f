import Verif.Proofs.ProgramDirs
import Verif.Props.Program
/-
C112: directories of samples after a program.  C113: exceptions while a sample is prepared.
-/
namespace MLMC
variable {Cfg K C : Type}

/-- `C112`: after any program of proper calls on a pool whose directories are new (`work_dir` without debug removes old ones), the directory of every sample asked for is where it has to be,
with what its simulation left there, also for samples that were renewed: failed samples under `failed`; successful ones in debug mode in the output directory, otherwise those with number
(modulo ten million) below five under `several_successful`, the others nowhere.  There are no other directories. -/
theorem C112_directories (env : ProgEnv Cfg K C) (he : env.Proper) (debug hasDir : Bool) (dirs : Dirs C) (hd : (hasDir = true ∧ debug = false) ∨ dirs = {})
    (ops : List ProgOp) (ho : ∀ o ∈ ops, o.Proper env.sims.length) (p : Prog K C) (hp : (Prog.start env debug hasDir dirs).run env ops = some p) :
    (∀ (l i : Nat) sim, env.sims[l]? = some sim → i < wantedCount l ops → p.pool.dirs.at (sampleTag l i) = expectedDirs env.md5 debug hasDir sim i) ∧
    ∀ x, (∀ l i, l < env.sims.length → i < wantedCount l ops → x ≠ sampleTag l i) → p.pool.dirs.at x = (none, none, none) := by
  obtain ⟨p', h1, h2⟩ := progAt_run he ops (progAt_start env debug hasDir dirs) ho
  obtain rfl : p' = p := by rw [h1] at hp; exact Option.some.inj hp
  have h0 : DirInv env debug hasDir (Prog.start env debug hasDir dirs) := by
    have hdirs : (Prog.start env debug hasDir dirs).pool.dirs = {} := by
      rcases hd with ⟨rfl, rfl⟩ | rfl
      · rfl
      · simp [Prog.start, Pool.create]
    refine ⟨rfl, rfl, fun l k i sim a1 a2 a3 => ?_, fun x _ => ?_⟩
    · have hl := (List.getElem?_eq_some_iff.1 a1).1
      rw [((progAt_start env debug hasDir dirs).want l hl).2] at a2
      injection a2 with a2
      simp only at a2
      omega
    · rw [hdirs]; rfl
  have h3 := dir_run he ops (progAt_start env debug hasDir dirs) h0 ho hp
  refine ⟨fun l i sim a1 a2 => h3.here l _ i sim a1 (h2.want l (List.getElem?_eq_some_iff.1 a1).1).2 a2, fun x hx => h3.other x fun l k i a1 a2 => ?_⟩
  obtain ⟨_, hi⟩ := h2.inv
  have hl : l < env.sims.length := by rw [← hi.len]; exact (List.getElem?_eq_some_iff.1 a1).1
  rw [(h2.want l hl).2] at a1
  injection a1 with a1
  exact hx l i hl (by unfold wantedCount; rw [a1]; exact a2)

/-- In particular all failed samples can be inspected: the directory of a sample is under `failed` exactly if the sample failed (for simulations that need a directory). -/
theorem C112_failed_directories (env : ProgEnv Cfg K C) (he : env.Proper) (debug hasDir : Bool) (dirs : Dirs C) (hd : (hasDir = true ∧ debug = false) ∨ dirs = {})
    (ops : List ProgOp) (ho : ∀ o ∈ ops, o.Proper env.sims.length) (p : Prog K C) (hp : (Prog.start env debug hasDir dirs).run env ops = some p)
    (l : Nat) (sim : PoolSim Cfg K C) (hs : env.sims[l]? = some sim) (hw : sim.workspace = true) (i : Nat) (hi : i < wantedCount l ops) :
    Dict.get? p.pool.dirs.failed (sampleTag l i) =
      if sampleTag l i ∈ badSamples env.md5 sim (wantedCount l ops) then some (sim.files sim.cfg (computeSeed env.md5 (sampleTag l i))) else none := by
  have h := (C112_directories env he debug hasDir dirs hd ops ho p hp).1 l i sim hs hi
  have hl := he.level l sim hs
  have hmem : sampleTag l i ∈ badSamples env.md5 sim (wantedCount l ops) ↔ ¬ WellFormed sim.fmt (outcome env.md5 (sampleTag l i) sim) := by
    simp only [badSamples, List.mem_filter, List.mem_map, List.mem_range, decide_eq_true_eq, hl]
    exact ⟨fun h => h.2, fun h => ⟨⟨i, hi, rfl⟩, h⟩⟩
  have h2 : Dict.get? p.pool.dirs.failed (sampleTag l i) = (expectedDirs env.md5 debug hasDir sim i).2.1 := by rw [← h]; rfl
  rw [h2]
  unfold expectedDirs
  simp only [hw, Bool.true_eq_false, if_false, hl]
  by_cases hg : WellFormed sim.fmt (outcome env.md5 (sampleTag l i) sim)
  · rw [if_pos hg, if_neg (fun hm => (hmem.1 hm) hg)]
    cases debug
    · simp only [Bool.false_eq_true, if_false]; split <;> rfl
    · rfl
  · rw [if_neg hg, if_pos (hmem.2 hg)]

/-! ## C113 -/

/-- The pool counts more running samples than it will ever return. -/
def Pool.Stuck (p : Pool K C) : Prop := (total p.queues + total p.failedQ : ℤ) < p.nRunning

theorem getFinished_stuck {p : Pool K C} (h : p.Stuck) : 0 < p.getFinished.1.nRunning ∧ p.getFinished.2.Stuck := by
  have e1 := total_nonempty p.queues
  have e2 := total_nonempty p.failedQ
  have hz : ∀ {α : Type} (d : Dict Nat (List α)), total (d.map fun e => (e.1, ([] : List α))) = 0 := by
    intro α d; unfold total; induction d with
    | nil => rfl
    | cons e d ih => simpa using ih
  unfold Pool.Stuck at *
  simp only [Pool.getFinished, queuesToList]
  rw [hz, hz]
  unfold total at e1 e2 h
  constructor <;> omega

theorem wait_stuck (clock : List ℚ) : ∀ {p : Prog K C}, p.pool.Stuck → p.wait 0 clock = none := by
  induction clock with
  | nil => intro p _; rfl
  | cons t ts ih =>
    intro p h
    obtain ⟨h1, h2⟩ := getFinished_stuck h
    rw [Prog.wait]
    rw [if_neg (by simp), if_pos (show p.collect.1 > 0 from h1)]
    exact ih h2

theorem acts_missing {env : ProgEnv Cfg K C} (hlev : ∀ (l : Nat) sim, env.sims[l]? = some sim → sim.level = l) : ∀ (as : List SchedAct) {p : Prog K C}, PoolInv p.pool →
    p.sys.nSched.length = env.sims.length → (∀ l, SchedAct.hand l ∈ as → l < env.sims.length) →
    ((∀ l sim, SchedAct.hand l ∈ as → env.sims[l]? = some sim → sim.workspace = true → sim.filesOk = true) ∧ ∃ q, p.acts env as = (q, none)) ∨
    ((∃ l sim, SchedAct.hand l ∈ as ∧ env.sims[l]? = some sim ∧ sim.workspace = true ∧ sim.filesOk = false) ∧ ∃ q, p.acts env as = (q, some .other) ∧ q.pool.Stuck)
  | [], p, _, _, _ => .inl ⟨by simp, p, rfl⟩
  | a :: as, p, hp, hn, ha => by
    have ih := fun {p : Prog K C} h1 h2 => acts_missing hlev as (p := p) h1 h2 fun l hl => ha l (by simp [hl])
    have hskip : ∀ q : Prog K C, p.act env a = (q, none) → PoolInv q.pool → q.sys.nSched.length = env.sims.length →
        (∀ l sim, a = .hand l → env.sims[l]? = some sim → sim.workspace = true → sim.filesOk = true) →
        ((∀ l sim, SchedAct.hand l ∈ a :: as → env.sims[l]? = some sim → sim.workspace = true → sim.filesOk = true) ∧ ∃ q, p.acts env (a :: as) = (q, none)) ∨
        ((∃ l sim, SchedAct.hand l ∈ a :: as ∧ env.sims[l]? = some sim ∧ sim.workspace = true ∧ sim.filesOk = false) ∧
          ∃ q, p.acts env (a :: as) = (q, some .other) ∧ q.pool.Stuck) := by
      intro q h1 h2 h3 h4
      rw [Prog.acts, h1]
      rcases ih h2 h3 with ⟨b1, b2⟩ | ⟨⟨l, sim, b1, b2⟩, b3⟩
      · refine .inl ⟨fun l sim c1 c2 => ?_, b2⟩
        rcases List.mem_cons.1 c1 with c1 | c1
        · exact h4 l sim c1.symm c2
        · exact b1 l sim c1 c2
      · exact .inr ⟨⟨l, sim, by simp [b1], b2⟩, b3⟩
    cases a with
    | begin l => exact hskip _ rfl hp hn (by intro l sim e; cases e)
    | save l => exact hskip _ rfl hp hn (by intro l sim e; cases e)
    | hand l =>
      have hl := ha l (by simp)
      have hk : p.sys.nSched[l]? = some p.sys.nSched[l] := List.getElem?_eq_getElem (by omega)
      have hs : env.sims[l]? = some env.sims[l] := List.getElem?_eq_getElem hl
      by_cases hf : env.sims[l].workspace = true ∧ env.sims[l].filesOk = false
      · right
        refine ⟨⟨l, _, by simp, hs, hf⟩, ?_⟩
        have hact : p.act env (.hand l) = (⟨p.sys, { p.pool with nRunning := p.pool.nRunning + 1 }⟩, some .other) := by
          simp [Prog.act, hk, hs, Pool.schedule, hf.1, hf.2]
        refine ⟨_, by rw [Prog.acts, hact], ?_⟩
        unfold Pool.Stuck
        simp only
        rw [hp.n]
        omega
      · have hf' : env.sims[l].workspace = true → env.sims[l].filesOk = true := by
          intro h
          cases hx : env.sims[l].filesOk with
          | true => rfl
          | false => exact absurd ⟨h, hx⟩ hf
        have hne := schedule_noerr env.md5 p.pool env.sims[l] l p.sys.nSched[l] (env.dur (p.sys.handed.length + p.sys.renewed.length)) hf'
        refine hskip ⟨(SchedAct.hand l).apply p.sys, (p.pool.schedule env.md5 env.sims[l] (sampleTag l p.sys.nSched[l]) (env.dur (p.sys.handed.length + p.sys.renewed.length))).1⟩
          (by simp only [Prog.act, hk, hs, hne]) (schedule_inv _ _ _ _ _ hf' hp) (by simp only [SchedAct.apply, hk, List.length_set]; exact hn) ?_
        intro l' sim e h
        injection e with e
        subst e
        rw [hs] at h
        injection h with h
        subst h
        exact hf'

theorem hand_mem_schedActs_iff (plan : List Nat) : ∀ (l0 l : Nat), SchedAct.hand l ∈ schedActs l0 plan ↔ ∃ n, l0 ≤ l ∧ plan[l - l0]? = some n ∧ 0 < n := by
  induction plan with
  | nil => intro l0 l; simp [schedActs]
  | cons n plan ih =>
    intro l0 l
    simp only [schedActs, List.mem_append, List.mem_cons, List.not_mem_nil, or_false, List.mem_replicate, reduceCtorEq, false_or, ih]
    constructor
    · rintro (⟨h1, h2⟩ | ⟨m, h1, h2, h3⟩)
      · injection h2 with h2
        subst h2
        exact ⟨n, le_refl _, by simp, by omega⟩
      · refine ⟨m, by omega, ?_, h3⟩
        rw [show l - l0 = (l - (l0 + 1)) + 1 by omega]
        exact h2
    · rintro ⟨m, h1, h2, h3⟩
      by_cases h : l = l0
      · subst h
        simp at h2
        exact .inl ⟨by omega, rfl⟩
      · refine .inr ⟨m, by omega, ?_, h3⟩
        rw [show l - l0 = (l - (l0 + 1)) + 1 by omega] at h2
        exact h2

theorem planCount_pos (t : ℚ) (k : Nat) : 0 < planCount t k ↔ (k : ℚ) + 1 ≤ t := by
  unfold planCount pyInt
  split
  · rename_i h
    have : ⌈t - k⌉ ≤ 0 := Int.ceil_le.2 (by push_cast; exact le_of_lt h)
    constructor
    · intro h; omega
    · intro h; linarith
  · rw [show (0 < (⌊t - k⌋).toNat) ↔ 1 ≤ ⌊t - k⌋ by omega, Int.le_floor]
    push_cast
    constructor <;> intro h <;> linarith

/-- `C113`, what happens: after any program of proper calls some files needed by samples are removed (`env'`).  If samples are to be scheduled on a level whose files are missing,
`schedule_samples` raises; otherwise it does not. -/
theorem C113_missing_files_raise (env env' : ProgEnv Cfg K C) (he : env.Proper) (debug hasDir : Bool) (dirs : Dirs C)
    (ops : List ProgOp) (ho : ∀ o ∈ ops, o.Proper env.sims.length) (p : Prog K C) (hp : (Prog.start env debug hasDir dirs).run env ops = some p)
    (hlen : env'.sims.length = env.sims.length) (hlev : ∀ (l : Nat) sim, env'.sims[l]? = some sim → sim.level = l) :
    (∃ q, p.scheduleSamples env' = (q, some .other)) ↔
      ∃ (l : Nat) (sim : PoolSim Cfg K C) (t : ℚ) (k : Nat), env'.sims[l]? = some sim ∧ sim.workspace = true ∧ sim.filesOk = false ∧ p.sys.target[l]? = some t ∧ p.sys.nSched[l]? = some k ∧
        (k : ℚ) + 1 ≤ t := by
  obtain ⟨p', h1, h2⟩ := progAt_run he ops (progAt_start env debug hasDir dirs) ho
  obtain rfl : p' = p := by rw [h1] at hp; exact Option.some.inj hp
  obtain ⟨_, hi⟩ := h2.inv
  have hl : p'.sys.target.length = p'.sys.nSched.length := by rw [h2.tlen, hi.len]
  have hpl : p'.sys.plan.length = env'.sims.length := by simp [Sys.plan, hl, hi.len, hlen]
  have hmem : ∀ l, SchedAct.hand l ∈ schedActs 0 p'.sys.plan ↔ ∃ (t : ℚ) (k : Nat), p'.sys.target[l]? = some t ∧ p'.sys.nSched[l]? = some k ∧ (k : ℚ) + 1 ≤ t := by
    intro l
    rw [hand_mem_schedActs_iff]
    simp only [Nat.zero_le, true_and, Nat.sub_zero, Sys.plan, List.getElem?_zipWith_eq_some]
    constructor
    · rintro ⟨n, ⟨t, k, a1, a2, a3⟩, a4⟩
      exact ⟨t, k, a1, a2, (planCount_pos t k).1 (by rw [a3]; exact a4)⟩
    · rintro ⟨t, k, a1, a2, a3⟩
      exact ⟨_, ⟨t, k, a1, a2, rfl⟩, (planCount_pos t k).2 a3⟩
  unfold Prog.scheduleSamples
  rw [if_pos hl]
  rcases acts_missing hlev (schedActs 0 p'.sys.plan) hi.pool (by rw [hi.len, hlen]) (fun l hm => by have := hand_mem_schedActs _ _ _ hm; omega) with ⟨hg, r, hr⟩ | ⟨hg, r, hr, _⟩
  · rw [hr]
    constructor
    · rintro ⟨q, hq⟩; cases hq
    · rintro ⟨l, sim, t, k, a1, a2, a3, a4⟩
      rw [hg l sim ((hmem l).2 ⟨t, k, a4⟩) a1 a2] at a3
      cases a3
  · rw [hr]
    refine ⟨fun _ => ?_, fun _ => ⟨r, rfl⟩⟩
    obtain ⟨l, sim, a1, a2, a3, a4⟩ := hg
    obtain ⟨t, k, b⟩ := (hmem l).1 a1
    exact ⟨l, sim, t, k, a2, a3, a4, b⟩

/-- `C113` is false: after this exception waiting for all samples (`ask_sampling_pool_for_samples()`, or the wait of `schedule_samples()`) never returns, for all simulations `env''`
(repaired or not): the sample that raised is counted as running forever. -/
theorem C113_counterexample_waiting_forever (env env' : ProgEnv Cfg K C) (he : env.Proper) (debug hasDir : Bool) (dirs : Dirs C)
    (ops : List ProgOp) (ho : ∀ o ∈ ops, o.Proper env.sims.length) (p : Prog K C) (hp : (Prog.start env debug hasDir dirs).run env ops = some p)
    (hlen : env'.sims.length = env.sims.length) (hlev : ∀ (l : Nat) sim, env'.sims[l]? = some sim → sim.level = l) (q : Prog K C) (hq : p.scheduleSamples env' = (q, some .other))
    (env'' : ProgEnv Cfg K C) (clock : List ℚ) : q.step env'' (.ask none clock) = none ∧ q.step env'' (.schedule none clock) = none := by
  obtain ⟨p', h1, h2⟩ := progAt_run he ops (progAt_start env debug hasDir dirs) ho
  obtain rfl : p' = p := by rw [h1] at hp; exact Option.some.inj hp
  obtain ⟨_, hi⟩ := h2.inv
  have hl : p'.sys.target.length = p'.sys.nSched.length := by rw [h2.tlen, hi.len]
  have hpl : p'.sys.plan.length = env'.sims.length := by simp [Sys.plan, hl, hi.len, hlen]
  unfold Prog.scheduleSamples at hq
  rw [if_pos hl] at hq
  have hst : q.pool.Stuck := by
    rcases acts_missing hlev (schedActs 0 p'.sys.plan) hi.pool (by rw [hi.len, hlen]) (fun l hm => by have := hand_mem_schedActs _ _ _ hm; omega) with ⟨_, r, hr⟩ | ⟨_, r, hr, h3⟩
    · rw [hr] at hq; cases hq
    · rw [hr] at hq; cases hq; exact h3
  constructor
  · simp only [Prog.step, Prog.ask, wait_stuck clock hst, Option.map_none]
  · simp only [Prog.step, Prog.ask, wait_stuck clock hst, Option.map_none]

/-- The part that holds: samples on levels whose files are there are scheduled without an exception, and nothing is lost. -/
theorem C113_files_there_partial (env env' : ProgEnv Cfg K C) (he : env.Proper) (debug hasDir : Bool) (dirs : Dirs C)
    (ops : List ProgOp) (ho : ∀ o ∈ ops, o.Proper env.sims.length) (p : Prog K C) (hp : (Prog.start env debug hasDir dirs).run env ops = some p)
    (hlen : env'.sims.length = env.sims.length) (hlev : ∀ (l : Nat) sim, env'.sims[l]? = some sim → sim.level = l)
    (hf : ∀ (l : Nat) (sim : PoolSim Cfg K C) (t : ℚ) (k : Nat), env'.sims[l]? = some sim → sim.workspace = true → p.sys.target[l]? = some t → p.sys.nSched[l]? = some k → (k : ℚ) + 1 ≤ t →
      sim.filesOk = true) :
    ∃ q, p.scheduleSamples env' = (q, none) ∧ q.sys = p.sys.schedule := by
  obtain ⟨p', h1, h2⟩ := progAt_run he ops (progAt_start env debug hasDir dirs) ho
  obtain rfl : p' = p := by rw [h1] at hp; exact Option.some.inj hp
  obtain ⟨_, hi⟩ := h2.inv
  have hl : p'.sys.target.length = p'.sys.nSched.length := by rw [h2.tlen, hi.len]
  have hpl : p'.sys.plan.length = env'.sims.length := by simp [Sys.plan, hl, hi.len, hlen]
  have hno : ¬ ∃ q, p'.scheduleSamples env' = (q, some .other) := by
    rw [C113_missing_files_raise env env' he debug hasDir dirs ops ho p' hp hlen hlev]
    rintro ⟨l, sim, t, k, a1, a2, a3, a4, a5, a6⟩
    rw [hf l sim t k a1 a2 a4 a5 a6] at a3
    cases a3
  have hsys : ∀ (as : List SchedAct) (p q : Prog K C), p.acts env' as = (q, none) → q.sys = runActs as p.sys := by
    intro as
    induction as with
    | nil => intro p q h; cases h; rfl
    | cons a as ih =>
      intro p q h
      rw [Prog.acts] at h
      cases hx : p.act env' a with
      | mk r e =>
        rw [hx] at h
        cases e with
        | some e => cases h
        | none =>
          have hr : r.sys = a.apply p.sys := by
            cases a with
            | begin l => cases hx; rfl
            | save l => cases hx; rfl
            | hand l =>
              revert hx
              simp only [Prog.act]
              split
              · split
                · intro hx; cases hx
                · intro hx; cases hx; rfl
              · intro hx; cases hx
          rw [ih r q h, hr]
          rfl
  unfold Prog.scheduleSamples at hno ⊢
  rw [if_pos hl] at hno ⊢
  rcases acts_missing hlev (schedActs 0 p'.sys.plan) hi.pool (by rw [hi.len, hlen]) (fun l hm => by have := hand_mem_schedActs _ _ _ hm; omega) with ⟨_, r, hr⟩ | ⟨_, r, hr, _⟩
  · exact ⟨r, hr, by rw [hsys _ _ _ hr]; unfold Sys.schedule; rw [if_pos (Or.inl hl)]⟩
  · exact absurd ⟨r, hr⟩ hno

/-! ### Concrete cases -/

namespace ExProg

/-- The program of `ExProg.ops` ends, and its directories are as stated: here for every sample asked for on both levels, and for one that was not. -/
example : ∃ p, (Prog.start env false true {}).run env ops = some p ∧ p.pool.dirs.at (sampleTag 0 0) = (none, some (), none) ∧ p.pool.dirs.at (sampleTag 0 1) = (none, none, some ()) ∧
    p.pool.dirs.at (sampleTag 0 5) = (none, none, none) ∧ p.pool.dirs.at (sampleTag 1 3) = (none, some (), none) ∧ p.pool.dirs.at (sampleTag 1 4) = (none, none, some ()) ∧
    p.pool.dirs.at (sampleTag 1 5) = (none, none, none) := by
  obtain ⟨p, hp⟩ : ∃ p, (Prog.start env false true {}).run env ops = some p := Option.isSome_iff_exists.1 (by decide +kernel)
  have h := C112_directories env proper false true {} (.inl ⟨rfl, rfl⟩) ops opsProper p hp
  refine ⟨p, hp, ?_, ?_, ?_, ?_, ?_, ?_⟩
  · rw [h.1 0 0 (sim 0) rfl (by decide +kernel)]; decide +kernel
  · rw [h.1 0 1 (sim 0) rfl (by decide +kernel)]; decide +kernel
  · rw [h.1 0 5 (sim 0) rfl (by decide +kernel)]; decide +kernel
  · rw [h.1 1 3 (sim 1) rfl (by decide +kernel)]; decide +kernel
  · rw [h.1 1 4 (sim 1) rfl (by decide +kernel)]; decide +kernel
  · refine h.2 _ fun l i hl hi he => ?_
    obtain ⟨rfl, rfl⟩ := sampleTag_injective he
    revert hi
    decide +kernel

/-- The files of level 1 are removed. -/
def lost : ProgEnv Unit (Option ℚ) Unit := { env with sims := [sim 0, { sim 1 with filesOk := false }] }

/-- After the program of `ExProg.ops` and a higher target on both levels the call raises, then no call that waits returns, also with the files back. -/
example : ∃ p q, (Prog.start env false true {}).run env (ops ++ [.setTarget [7, 6]]) = some p ∧ p.scheduleSamples lost = (q, some .other) ∧
    ∀ clock, q.step env (.ask none clock) = none ∧ q.step env (.schedule none clock) = none := by
  obtain ⟨p, hp⟩ : ∃ p, (Prog.start env false true {}).run env (ops ++ [.setTarget [7, 6]]) = some p := Option.isSome_iff_exists.1 (by decide +kernel)
  have ho : ∀ o ∈ ops ++ [.setTarget [7, 6]], o.Proper env.sims.length := by
    intro o h
    rcases List.mem_append.1 h with h | h
    · exact opsProper o h
    · simp only [List.mem_singleton] at h
      subst h
      show [(7 : ℚ), 6].length ≤ 2
      simp
  have hlev : ∀ (l : Nat) sim, lost.sims[l]? = some sim → sim.level = l := by
    intro l s h
    rcases l with _ | _ | l
    · simp [lost] at h; subst h; rfl
    · simp [lost] at h; subst h; rfl
    · simp [lost] at h
  have hq : ∃ q, p.scheduleSamples lost = (q, some .other) := by
    rw [C113_missing_files_raise env lost proper false true {} _ ho p hp rfl hlev]
    have h1 : ((Prog.start env false true {}).run env (ops ++ [.setTarget [7, 6]])).map (fun p => (p.sys.target, p.sys.nSched)) = some ([7, 6], [6, 5]) := by decide +kernel
    rw [hp] at h1
    injection h1 with h1
    rw [Prod.mk.injEq] at h1
    exact ⟨1, _, 6, 5, rfl, rfl, rfl, by rw [h1.1]; rfl, by rw [h1.2]; rfl, by norm_num⟩
  obtain ⟨q, hq⟩ := hq
  exact ⟨p, q, hp, hq, fun clock => C113_counterexample_waiting_forever env lost proper false true {} _ ho p hp rfl hlev q hq env clock⟩

end ExProg

end MLMC
