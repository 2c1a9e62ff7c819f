import Verif.Proofs.ProgramRestart
import Verif.Proofs.SameEstimates
/-! # C93 Several programs one after another on one file -/
namespace MLMC
variable {Cfg K C : Type}

/-- `C93`: any number of programs one after another on one file, each with a new `Sampler` and a new `OneProcessPool` and any proper calls, each
ending anywhere between calls, or killed anywhere in the loop of a `schedule_samples`.  No call raises.  At the end the file lists on every level
exactly the samples the programs asked for (of the killed calls, on each level all or none), numbered from 0 without gaps or repetitions; a
sample is stored with the result of its own simulation, or listed as failed because its simulation did not return a well formed result, or
it is among `unfinished_ids()`; the stored samples are in the order of their numbers, and none is stored or listed as failed twice. -/
theorem C93_programs_one_after_another (env : ProgEnv Cfg K C) (he : env.Proper) (ss : List (Session C))
    (hs : ∀ s ∈ ss, s.Proper env.sims.length) :
    ∃ g r, runSessions env ss (hdfFresh _ env.sims.length) = some g ∧ hdfUnfinishedIds g = .ok r ∧ g.length = env.sims.length ∧
      ∀ l sim, env.sims[l]? = some sim → ∃ k x stored failed, g[l]? = some x ∧ SessionCounts l ss 0 k ∧
        x.scheduled = (List.range k).map (sampleTag l) ∧
        x.collectedIds = stored.map (·.1) ∧
        x.collectedValues = (if stored = [] then none else some (stored.map (·.2))) ∧
        x.failed = some failed ∧
        stored = ((goodSamples env.md5 sim k).filter fun s => s.1 ∉ r) ∧
        (failed.map (·.1)).Perm ((badSamples env.md5 sim k).filter fun id => id ∉ r) := by
  obtain ⟨g, sops, k, h1, h2, h3, _⟩ := sessions_file he ss (file_fresh env) hs
  obtain ⟨r, r1, r2⟩ := mem_unfinished h2
  refine ⟨g, r, h1, r1, by rw [h2.store, hdfRun_length]; simp [hdfFresh], ?_⟩
  intro l sim hsim
  have hl := (List.getElem?_eq_some_iff.1 hsim).1
  obtain ⟨y, y1, y2, y3, y4, y5⟩ := hdf_fresh_spec env.sims.length l hl sops
  refine ⟨k l, y, savedSucc sops l, savedFailed sops l, by rw [h2.store, y1], h3 l hl, by rw [y2, h2.sched l hl], y3, y4, y5, ?_, ?_⟩
  · rw [h2.good_filter he l sim hsim]
    simp only [r2]
  · have := h2.bad_filter he l sim hsim
    simpa only [r2] using this

/-- `C93`: if every program ends by waiting for its samples and none is killed, the file is the one a single program would have left: all
requested samples, all their results, all their failures. -/
theorem C93_waiting_programs (env : ProgEnv Cfg K C) (he : env.Proper) (ss : List (Session C))
    (hs : ∀ s ∈ ss, s.Proper env.sims.length) (hw : ∀ s ∈ ss, s.Waits) :
    ∃ g, runSessions env ss (hdfFresh _ env.sims.length) = some g ∧ g.length = env.sims.length ∧
      (∀ l sim, env.sims[l]? = some sim → ∃ x, g[l]? = some x ∧
        x.scheduled = (List.range (wantedOverall l ss)).map (sampleTag l) ∧
        x.collectedIds = (goodSamples env.md5 sim (wantedOverall l ss)).map (·.1) ∧
        x.collectedValues = (if goodSamples env.md5 sim (wantedOverall l ss) = [] then none
          else some ((goodSamples env.md5 sim (wantedOverall l ss)).map (·.2))) ∧
        ∃ f, x.failed = some f ∧ (f.map (·.1)).Perm (badSamples env.md5 sim (wantedOverall l ss))) ∧
      hdfUnfinishedIds g = .ok [] := by
  obtain ⟨g, sops, k, h1, h2, h3, _, h5⟩ := sessions_file he ss (file_fresh env) hs
  have hopen : ∀ id, id ∉ openIds env sops := by
    intro id hid
    have := h5 hw id hid
    simp [openIds, savedSched] at this
  obtain ⟨r, r1, r2⟩ := mem_unfinished h2
  have hr : r = [] := by
    rw [List.eq_nil_iff_forall_not_mem]
    intro id hid
    exact hopen id ((r2 id).1 hid)
  refine ⟨g, h1, by rw [h2.store, hdfRun_length]; simp [hdfFresh], ?_, by rw [r1, hr]⟩
  intro l sim hsim
  have hl := (List.getElem?_eq_some_iff.1 hsim).1
  have hk : k l = wantedOverall l ss := sessionCounts_waits (fun s h => (hw s h).1) (h3 l hl)
  obtain ⟨y, y1, y2, y3, y4, y5⟩ := hdf_fresh_spec env.sims.length l hl sops
  have hg := h2.good_filter he l sim hsim
  have hb := h2.bad_filter he l sim hsim
  rw [List.filter_eq_self.2 (fun a _ => by simpa using hopen a.1), hk] at hg
  rw [List.filter_eq_self.2 (fun a _ => by simpa using hopen a), hk] at hb
  exact ⟨y, by rw [h2.store, y1], by rw [y2, h2.sched l hl, hk], by rw [y3, hg], by rw [y4, hg], _, y5, hb⟩

theorem holds_sessions (env : ProgEnv Cfg K C) (he : env.Proper) (tt : List (Session C)) (g2 : HdfLevels (ResPart K × ResPart K))
    (h1 : ∀ s ∈ tt, s.Proper env.sims.length) (h2 : ∀ s ∈ tt, s.Waits) (h3 : runSessions env tt (hdfFresh _ env.sims.length) = some g2) :
    HoldsGood env.md5 env.sims (fun l => wantedOverall l tt) g2 := by
  obtain ⟨g', a1, a2, a3, _⟩ := C93_waiting_programs env he tt h1 h2
  rw [h3] at a1; injection a1 with a1; subst a1
  refine ⟨a2, fun l sim hsim => ?_⟩
  obtain ⟨x, x1, _, _, x4, _⟩ := a3 l sim hsim
  exact ⟨x, _, x1, x4, List.Perm.refl _⟩

/-- `C93`: how the samples are divided among programs does not change the estimates: two histories of programs that wait for their samples and ask for
the same numbers of samples overall give the same `estimate_mean` for every quantity, or it raises for both. -/
theorem C93_same_estimates {F : Type} [Field F] [CharZero F] (env : ProgEnv Cfg (Option F) C) (he : env.Proper) (W : Nat) (ha : env.Arrays W)
    (ss ss1 : List (Session C)) (hs : ∀ s ∈ ss, s.Proper env.sims.length) (hs1 : ∀ s ∈ ss1, s.Proper env.sims.length)
    (hw : ∀ s ∈ ss, s.Waits) (hw1 : ∀ s ∈ ss1, s.Waits) (hsame : ∀ l, l < env.sims.length → wantedOverall l ss = wantedOverall l ss1)
    (g g1 : HdfLevels (ResPart (Option F) × ResPart (Option F)))
    (hg : runSessions env ss (hdfFresh _ env.sims.length) = some g) (hg1 : runSessions env ss1 (hdfFresh _ env.sims.length) = some g1)
    (c c1 : Nat → Nat) (hc : ∀ l, 0 < c l) (hc1 : ∀ l, 0 < c1 l) (sid : Nat) (q : Quantity (Option F)) (hq : Built sid .qty q) (hid : IdsIdentify q) :
    (∃ e, estimateFromStorage (storedNumbers g) c sid q = .ok e ∧ estimateFromStorage (storedNumbers g1) c1 sid q = .ok e) ∨
    (∃ x y, estimateFromStorage (storedNumbers g) c sid q = .error x ∧ estimateFromStorage (storedNumbers g1) c1 sid q = .error y) := by
  exact holds_same_estimates he.level (⟨ha.fmt, ha.arrays⟩ : ProgEnv.Arrays ⟨env.md5, env.sims, fun _ => 0⟩ W) (holds_sessions env he ss g hs hw hg)
    (holds_congr (holds_sessions env he ss1 g1 hs1 hw1 hg1) fun l hl => (hsame l hl).symm) c c1 hc hc1 sid q hq hid

/-- `C93`: a sample that is unfinished when a program begins stays unfinished in all later programs, whatever they call; and if these
wait for their samples, they leave no others unfinished. -/
theorem C93_unfinished_stays (env : ProgEnv Cfg K C) (he : env.Proper) (ss later : List (Session C))
    (hs : ∀ s ∈ ss, s.Proper env.sims.length) (hl : ∀ s ∈ later, s.Proper env.sims.length) :
    ∃ g g' r r', runSessions env ss (hdfFresh _ env.sims.length) = some g ∧ runSessions env (ss ++ later) (hdfFresh _ env.sims.length) = some g' ∧
      hdfUnfinishedIds g = .ok r ∧ hdfUnfinishedIds g' = .ok r' ∧ r ⊆ r' ∧ ((∀ s ∈ later, s.Waits) → r' ⊆ r) := by
  obtain ⟨g, sops, k, h1, h2, _⟩ := sessions_file he ss (file_fresh env) hs
  obtain ⟨g', sops', k', h1', h2', _, h4, h5⟩ := sessions_file he later h2 hl
  obtain ⟨r, r1, r2⟩ := mem_unfinished h2
  obtain ⟨r', r1', r2'⟩ := mem_unfinished h2'
  refine ⟨g, g', r, r', h1, by rw [runSessions_append, h1]; exact h1', r1, r1', ?_, ?_⟩
  · intro id hid
    exact (r2' id).2 (h4 id ((r2 id).1 hid))
  · intro hw id hid
    exact (r2 id).2 (h5 hw id ((r2' id).1 hid))

namespace ExRestart
open ExProg

/-- The first program schedules samples and ends before it asks for results; the second asks for the same numbers and waits. -/
def lossy : List (Session Unit) :=
  [{ ops := [.setInitial [3, 2], .schedule none [0]] }, { ops := [.setInitial [3, 2], .schedule none [0], .ask none [5]] }]

theorem lossyProper : ∀ s ∈ lossy, s.Proper env.sims.length := by
  intro s hs o ho
  simp only [lossy, List.mem_cons, List.not_mem_nil, or_false] at hs
  rcases hs with rfl | rfl <;> simp only [List.mem_cons, List.not_mem_nil, or_false] at ho
  · rcases ho with rfl | rfl <;> simp [ProgOp.Proper, env]
  · rcases ho with rfl | rfl | rfl <;> simp [ProgOp.Proper, env]

end ExRestart

/-- `C93`, the full claim "a program on an existing file, asking for the samples and waiting for them, finishes all of them" fails: with the results of an
interrupted program lost, it plans nothing, and the file keeps five scheduled samples without a single result. -/
theorem C93_restart_recovers_counterexample : ∃ g r, runSessions ExProg.env ExRestart.lossy (hdfFresh _ 2) = some g ∧
    (∀ s ∈ ExRestart.lossy, s.Proper 2) ∧ hdfUnfinishedIds g = .ok r ∧
    r = [sampleTag 0 0, sampleTag 0 1, sampleTag 0 2, sampleTag 1 0, sampleTag 1 1] ∧
    g.map (·.collectedIds) = [[], []] ∧ g.map (·.failed) = [some [], some []] := by
  obtain ⟨g, r, h1, h2, _⟩ := C93_programs_one_after_another ExProg.env ExProg.proper ExRestart.lossy ExRestart.lossyProper
  have h1' : runSessions ExProg.env ExRestart.lossy (hdfFresh _ 2) = some g := h1
  have k1 : (runSessions ExProg.env ExRestart.lossy (hdfFresh _ 2)).map (fun g => (hdfUnfinishedIds g).toOption) =
      some (some [sampleTag 0 0, sampleTag 0 1, sampleTag 0 2, sampleTag 1 0, sampleTag 1 1]) := by decide +kernel
  have k2 : (runSessions ExProg.env ExRestart.lossy (hdfFresh _ 2)).map (fun g => g.map (·.collectedIds)) = some [[], []] := by decide +kernel
  have k3 : (runSessions ExProg.env ExRestart.lossy (hdfFresh _ 2)).map (fun g => g.map (·.failed)) = some [some [], some []] := by decide +kernel
  rw [h1', Option.map_some] at k1 k2 k3
  rw [h2] at k1
  simp only [Except.toOption, Option.some.injEq] at k1 k2 k3
  exact ⟨g, r, h1, ExRestart.lossyProper, h2, k1, k2, k3⟩

namespace ExRestart
open ExProg

/-- Three programs: the first is killed while it schedules (level 0 is already recorded, level 1 is not), the second has failures renewed, the
third raises a target. -/
def sessions : List (Session Unit) :=
  [{ ops := [.setInitial [3, 2]], killed := some 6 }, { ops := [.setInitial [4, 3], .schedule none [0], .ask none [1], .renew, .ask none [2]] },
   { debug := true, hasDir := true, ops := [.setTarget [5, 5], .schedule (some 0) [], .ask none [3]] }]

theorem sessionsProper : ∀ s ∈ sessions, s.Proper env.sims.length := by
  intro s hs o ho
  simp only [sessions, List.mem_cons, List.not_mem_nil, or_false] at hs
  rcases hs with rfl | rfl | rfl <;> simp only [List.mem_cons, List.not_mem_nil, or_false] at ho
  · rcases ho with rfl; simp [ProgOp.Proper, env]
  · rcases ho with rfl | rfl | rfl | rfl | rfl <;> simp [ProgOp.Proper, env]
  · rcases ho with rfl | rfl | rfl <;> simp [ProgOp.Proper, env]

example := C93_programs_one_after_another env proper sessions sessionsProper

/-- Samples 0, 1, 2 of level 0 are lost; of the others samples 4 on level 0 and 1, 2, 4 on level 1 have results, and 3 (level 0) and 0, 3 (level 1) fail. -/
example : ∃ g r, runSessions env sessions (hdfFresh _ 2) = some g ∧ hdfUnfinishedIds g = .ok r ∧
    r = [sampleTag 0 0, sampleTag 0 1, sampleTag 0 2] ∧
    g.map (·.collectedIds) = [[sampleTag 0 4], [sampleTag 1 1, sampleTag 1 2, sampleTag 1 4]] ∧
    g.map (fun x => x.failed.map fun f => f.map (·.1)) = [some [sampleTag 0 3], some [sampleTag 1 0, sampleTag 1 3]] := by
  obtain ⟨g, r, h1, h2, _⟩ := C93_programs_one_after_another env proper sessions sessionsProper
  have h1' : runSessions env sessions (hdfFresh _ 2) = some g := h1
  have k1 : (runSessions env sessions (hdfFresh _ 2)).map (fun g => (hdfUnfinishedIds g).toOption) =
      some (some [sampleTag 0 0, sampleTag 0 1, sampleTag 0 2]) := by decide +kernel
  have k2 : (runSessions env sessions (hdfFresh _ 2)).map (fun g => g.map (·.collectedIds)) =
      some [[sampleTag 0 4], [sampleTag 1 1, sampleTag 1 2, sampleTag 1 4]] := by decide +kernel
  have k3 : (runSessions env sessions (hdfFresh _ 2)).map (fun g => g.map (fun x => x.failed.map fun f => f.map (·.1))) =
      some [some [sampleTag 0 3], some [sampleTag 1 0, sampleTag 1 3]] := by decide +kernel
  rw [h1', Option.map_some] at k1 k2 k3
  rw [h2] at k1
  simp only [Except.toOption, Option.some.injEq] at k1 k2 k3
  exact ⟨g, r, h1, h2, k1, k2, k3⟩

/-- Two programs that wait, and one asking for the same in one go. -/
def two : List (Session Unit) :=
  [{ ops := [.setInitial [3, 2], .schedule none [0], .ask none [1]] }, { ops := [.setTarget [6, 5], .schedule none [0], .renew, .ask none [1]] }]

def one : List (Session Unit) := [{ hasDir := true, ops := [.setInitial [6, 5], .schedule none [0], .ask none [1]] }]

theorem twoProper : ∀ s ∈ two, s.Proper env.sims.length := by
  intro s hs o ho
  simp only [two, List.mem_cons, List.not_mem_nil, or_false] at hs
  rcases hs with rfl | rfl <;> simp only [List.mem_cons, List.not_mem_nil, or_false] at ho
  · rcases ho with rfl | rfl | rfl <;> simp [ProgOp.Proper, env]
  · rcases ho with rfl | rfl | rfl | rfl <;> simp [ProgOp.Proper, env]

theorem oneProper : ∀ s ∈ one, s.Proper env.sims.length := by
  intro s hs o ho
  simp only [one, List.mem_cons, List.not_mem_nil, or_false] at hs
  rcases hs with rfl; simp only [List.mem_cons, List.not_mem_nil, or_false] at ho
  rcases ho with rfl | rfl | rfl <;> simp [ProgOp.Proper, env]

theorem twoWaits : ∀ s ∈ two, s.Waits := by
  intro s hs
  simp only [two, List.mem_cons, List.not_mem_nil, or_false] at hs
  rcases hs with rfl | rfl
  · exact ⟨rfl, [.setInitial [3, 2], .schedule none [0]], 1, rfl⟩
  · exact ⟨rfl, [.setTarget [6, 5], .schedule none [0], .renew], 1, rfl⟩

theorem oneWaits : ∀ s ∈ one, s.Waits := by
  intro s hs
  simp only [one, List.mem_cons, List.not_mem_nil, or_false] at hs
  rcases hs with rfl
  exact ⟨rfl, [.setInitial [6, 5], .schedule none [0]], 1, rfl⟩

example : ∃ g g1, runSessions env two (hdfFresh _ 2) = some g ∧ runSessions env one (hdfFresh _ 2) = some g1 ∧
    (estimateFromStorage (storedNumbers g) (fun _ => 3) 7 (.storage 7 (.array [2] .scalar)) =
      estimateFromStorage (storedNumbers g1) (fun _ => 2) 7 (.storage 7 (.array [2] .scalar)) ∨
    ∃ x y, estimateFromStorage (storedNumbers g) (fun _ => 3) 7 (.storage 7 (.array [2] .scalar)) = .error x ∧
      estimateFromStorage (storedNumbers g1) (fun _ => 2) 7 (.storage 7 (.array [2] .scalar)) = .error y) := by
  obtain ⟨g, h, _⟩ := C93_waiting_programs env proper two twoProper twoWaits
  obtain ⟨g1, h1, _⟩ := C93_waiting_programs env proper one oneProper oneWaits
  refine ⟨g, g1, h, h1, ?_⟩
  have hids : IdsIdentify (.storage 7 (.array [2] .scalar) : Quantity (Option ℚ)) := by intro a ha; simp [Quantity.selections] at ha
  rcases C93_same_estimates env proper 2 arrays two one twoProper oneProper twoWaits oneWaits (by decide +kernel) g g1 h h1 (fun _ => 3) (fun _ => 2)
    (fun _ => by omega) (fun _ => by omega) 7 _ (.root (.array [2] .scalar)) hids with ⟨e, e1, e2⟩ | h
  · left; rw [e1, e2]
  · right; exact h

end ExRestart

end MLMC
