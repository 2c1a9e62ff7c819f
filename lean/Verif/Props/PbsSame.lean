import Verif.Props.PbsOnce
import Verif.Props.ProgramPbs
import Verif.Proofs.ProgramRestart
/-! # C139 Interrupted computations with PBS give the estimates of uninterrupted ones -/
namespace MLMC
variable {Cfg K C : Type}

theorem mem_good {md5 : SampleId → List UInt8} {sim : PoolSim Cfg K C} {k i : Nat} (hi : i < k) {v : PairRes K}
    (ho : outcome md5 (sampleTag sim.level i) sim = .pair v.1 v.2) (hw : WellFormed sim.fmt (.pair v.1 v.2)) : (sampleTag sim.level i, v) ∈ goodSamples md5 sim k := by
  unfold goodSamples
  rw [List.mem_filterMap]
  refine ⟨i, List.mem_range.2 hi, ?_⟩
  simp only [ho, if_pos hw]

/-- C139: whatever the history of programs with PBS, under the conditions of C138: each level of the file lists the samples `0 … k-1` as scheduled, and its
results are those which the level's simulation returns for them with their own seeds, without those that are not stored, each once. -/
theorem C139_file_partial (env : PbsEnv Cfg K C) (he : env.Proper) (es : List (PbsEvent K)) (p : PbsProg Cfg K C)
    (hp : (PbsProg.start env).events env es = some p) (hu : GivesUnfinished env es)
    (hc : CleanPbs env p.hist) (hw : WholeJobs env p.hist) (hj : HonestJobs env p.hist) (hf : HonestFailures env p.hist) :
    p.sys.store.length = env.sims.length ∧ ∀ l sim, env.sims[l]? = some sim → ∃ x stored, p.sys.store[l]? = some x ∧
      x.scheduled = (List.range x.scheduled.length).map (sampleTag l) ∧ x.collectedIds = stored.map (·.1) ∧
      x.collectedValues = (if stored = [] then none else some (stored.map (·.2))) ∧
      stored.Perm ((goodSamples env.md5 sim x.scheduled.length).filter fun s => decide (s.1 ∈ x.collectedIds)) := by
  constructor
  · obtain ⟨s0, -⟩ := sess_start env
    obtain ⟨⟨m, -, hs, -⟩, -⟩ := sched_events (keep := False) es s0 (sess_start env).2 (fun k => k.elim) hp
    rw [hs.store, hdfRun_length]; simp [hdfFresh]
  · intro l sim hsim
    have hl := (List.getElem?_eq_some_iff.1 hsim).1
    have hlv := he l sim hsim
    obtain ⟨x, k, stored, x1, x2, x3, x4, x5, -⟩ := C106_values_right env es p hp hj hf l hl
    have hk : x.scheduled.length = k := by rw [x2]; simp
    obtain ⟨n1, n2, -⟩ := C138_stored_once_partial env es p hp hu hc hw hj hf l x x1 _ rfl
    have hnd : (stored.map (·.1)).Nodup := by rw [← x3]; exact (List.nodup_append.1 n1).1
    refine ⟨x, stored, x1, by rw [hk]; exact x2, x3, x4, ?_⟩
    rw [hk, List.perm_ext_iff_of_nodup (List.Nodup.of_map _ hnd) ((List.Nodup.of_map _ (good_nodup env.md5 sim k)).filter _)]
    have hsub : ∀ s ∈ stored, s ∈ goodSamples env.md5 sim k := by
      rintro ⟨id, v⟩ hs
      obtain ⟨i, sim', e, hsim', ho, hwf⟩ := x5 _ hs
      rw [hsim] at hsim'
      injection hsim' with e'
      subst e'
      simp only at e ho hwf
      subst e
      have hin : sampleTag l i ∈ x.scheduled := n2 (List.mem_append_left _ (by rw [x3]; exact List.mem_map_of_mem hs))
      rw [x2, List.mem_map] at hin
      obtain ⟨i', hi', e⟩ := hin
      obtain ⟨-, rfl⟩ := sampleTag_injective e
      rw [ho] at hwf
      rw [← hlv] at ho ⊢
      exact mem_good (List.mem_range.1 hi') ho hwf
    intro s
    rw [List.mem_filter, decide_eq_true_eq, x3]
    refine ⟨fun hs => ⟨hsub s hs, List.mem_map_of_mem hs⟩, ?_⟩
    rintro ⟨hg, hm⟩
    obtain ⟨s', hs', e⟩ := List.mem_map.1 hm
    have := List.inj_on_of_nodup_map (good_nodup env.md5 sim k) (hsub s' hs') hg e
    rwa [← this]

/-- The file of such programs holds all results, if none is missing. -/
theorem holds_restarted (env : PbsEnv Cfg K C) (he : env.Proper) (es : List (PbsEvent K)) (p : PbsProg Cfg K C)
    (hp : (PbsProg.start env).events env es = some p) (hu : GivesUnfinished env es)
    (hc : CleanPbs env p.hist) (hw : WholeJobs env p.hist) (hj : HonestJobs env p.hist) (hf : HonestFailures env p.hist)
    (n : Nat → Nat) (hn : ∀ l x, p.sys.store[l]? = some x → x.scheduled.length = n l)
    (hall : ∀ l sim x, env.sims[l]? = some sim → p.sys.store[l]? = some x → ∀ s ∈ goodSamples env.md5 sim (n l), s.1 ∈ x.collectedIds) :
    HoldsGood env.md5 env.sims n p.sys.store := by
  obtain ⟨h1, h2⟩ := C139_file_partial env he es p hp hu hc hw hj hf
  refine ⟨h1, fun l sim hsim => ?_⟩
  obtain ⟨x, stored, x1, -, -, x4, x5⟩ := h2 l sim hsim
  refine ⟨x, stored, x1, x4, ?_⟩
  rw [hn l x x1, List.filter_eq_self.2 (fun s hs => by simpa using hall l sim x hsim x1 s hs)] at x5
  exact x5

/-- C139: if in the end every scheduled sample whose simulation succeeds is stored, `estimate_mean` returns for every quantity what it returns for one
uninterrupted program with a `OneProcessPool` that asks for as many samples as are scheduled in the file, or raises on both. -/
theorem C139_same_estimates_partial {F : Type} [Field F] [CharZero F] (env : PbsEnv Cfg (Option F) C) (he : env.Proper) (W : Nat)
    (env1 : ProgEnv Cfg (Option F) C) (h1 : env1.md5 = env.md5 ∧ env1.sims = env.sims) (he1 : env1.Proper) (ha : env1.Arrays W)
    (es : List (PbsEvent (Option F))) (p : PbsProg Cfg (Option F) C)
    (hp : (PbsProg.start env).events env es = some p) (hu : GivesUnfinished env es)
    (hc : CleanPbs env p.hist) (hw : WholeJobs env p.hist) (hj : HonestJobs env p.hist) (hf : HonestFailures env p.hist)
    (n : Nat → Nat) (hn : ∀ l x, p.sys.store[l]? = some x → x.scheduled.length = n l)
    (hall : ∀ l sim x, env.sims[l]? = some sim → p.sys.store[l]? = some x → ∀ s ∈ goodSamples env.md5 sim (n l), s.1 ∈ x.collectedIds)
    (debug hasDir : Bool) (dirs : Dirs C) (ops1 : List ProgOp) (ho1 : ∀ o ∈ ops1, o.Proper env.sims.length) (t : ℚ)
    (hsame : ∀ l, l < env.sims.length → wantedCount l ops1 = n l)
    (p1 : Prog (Option F) C) (hp1 : (Prog.start env1 debug hasDir dirs).run env1 (ops1 ++ [.ask none [t]]) = some p1)
    (c c1 : Nat → Nat) (hc0 : ∀ l, 0 < c l) (hc1 : ∀ l, 0 < c1 l) (sid : Nat) (q : Quantity (Option F)) (hq : Built sid .qty q) (hid : IdsIdentify q) :
    (∃ e, estimateFromStorage (storedNumbers p.sys.store) c sid q = .ok e ∧ estimateFromStorage (storedNumbers p1.sys.store) c1 sid q = .ok e) ∨
    (∃ x y, estimateFromStorage (storedNumbers p.sys.store) c sid q = .error x ∧
      estimateFromStorage (storedNumbers p1.sys.store) c1 sid q = .error y) := by
  obtain ⟨md5, sims, dur⟩ := env1
  obtain ⟨rfl, rfl⟩ := h1
  have ha' : ProgEnv.Arrays ⟨env.md5, env.sims, fun _ => 0⟩ W := ⟨ha.fmt, ha.arrays⟩
  exact holds_same_estimates he ha' (holds_restarted env he es p hp hu hc hw hj hf n hn hall)
    (holds_congr (holds_oneProcess ⟨env.md5, env.sims, dur⟩ he1 debug hasDir dirs ops1 ho1 t p1 hp1) hsame) c c1 hc0 hc1 sid q hq hid

namespace ExPbsSame
open ExPbsSess (pairs)
open ExPbsOnce (runs good three threeEnd)

/-- Two samples make a job; all samples succeed, with different values. -/
def env : PbsEnv Unit (Option ℚ) Unit := { pairs with md5 := fun id => [2 * (id.getLast?.getD 'x').toNat.toUInt8, 0, 0, 0] }

/-- A program is killed while its job runs; the next one asks when the job has recorded its first sample, and is killed; the third one asks when the job has ended. -/
def skew : List (PbsEvent (Option ℚ)) := [
  .call (.setInitial [2]), .call (.schedule (some 0) [] fun _ => ([], .ok 70)),
  .restart (.killed .between) ((runs env 0 [0, 1]).take 2) true [0] [sampleTag 0 0, sampleTag 0 1],
  .call (.ask none [{ qsub := .fail, qstat := .fail }]),
  .restart (.killed .between) ((runs env 0 [0, 1]).drop 2) true [0] [sampleTag 0 1],
  .call (.ask none [{ qsub := .fail, qstat := .fail }])]

def skewEnd : PbsProg Unit (Option ℚ) Unit := ((PbsProg.start env).events env skew).getD (.start env)

/-- The mean that is reported. -/
def mean (g : HdfLevels (PairRes (Option ℚ))) : Option (List (Option ℚ)) :=
  match estimateFromStorage (storedNumbers g) (fun _ => 3) 7 (.storage 7 (.array [1] .scalar)) with
  | .ok e => some e.mean
  | .error _ => none

/-- The same numbers asked of a `OneProcessPool`. -/
def plainEnd : Prog (Option ℚ) Unit :=
  ((Prog.start (⟨env.md5, env.sims, fun _ => 1⟩ : ProgEnv Unit (Option ℚ) Unit) true true {}).run ⟨env.md5, env.sims, fun _ => 1⟩
    ([.setInitial [2], .schedule none [0]] ++ [.ask none [7]])).getD (.start ⟨env.md5, env.sims, fun _ => 1⟩ true true {})

end ExPbsSame

/-- Against C139 without `WholeJobs`: every sample is computed once, with the right value, none fails, none is unfinished in the end, but the mean that is
reported counts one of two samples twice, because its job was half recorded when a new program asked. -/
theorem C139_half_recorded_counterexample : ∃ (env : PbsEnv Unit (Option ℚ) Unit) (es : List (PbsEvent (Option ℚ))) (p : PbsProg Unit (Option ℚ) Unit)
    (p1 : Prog (Option ℚ) Unit) (e e1 : QuantityMean ℚ),
    env.Proper ∧ (PbsProg.start env).events env es = some p ∧ GivesUnfinished env es ∧ CleanPbs env p.hist ∧ HonestJobs env p.hist ∧ HonestFailures env p.hist ∧
    p.sys.store.map (·.scheduled) = [[sampleTag 0 0, sampleTag 0 1]] ∧ hdfUnfinishedIds p.sys.store = .ok [] ∧ p.sys.store.map (·.failed) = [some []] ∧
    (Prog.start (⟨env.md5, env.sims, fun _ => 1⟩ : ProgEnv Unit (Option ℚ) Unit) true true {}).run ⟨env.md5, env.sims, fun _ => 1⟩
      ([.setInitial [2], .schedule none [0]] ++ [.ask none [7]]) = some p1 ∧
    estimateFromStorage (storedNumbers p.sys.store) (fun _ => 3) 7 (.storage 7 (.array [1] .scalar)) = .ok e ∧
    estimateFromStorage (storedNumbers p1.sys.store) (fun _ => 3) 7 (.storage 7 (.array [1] .scalar)) = .ok e1 ∧
    e.mean = [some (290 / 3)] ∧ e1.mean = [some 97] := by
  have key : ∀ (g : HdfLevels (PairRes (Option ℚ))) (m : List (Option ℚ)), ExPbsSame.mean g = some m →
      ∃ e, estimateFromStorage (storedNumbers g) (fun _ => 3) 7 (.storage 7 (.array [1] .scalar)) = .ok e ∧ e.mean = m := by
    intro g m h
    unfold ExPbsSame.mean at h
    split at h
    · rename_i e he; exact ⟨e, he, by injection h⟩
    · cases h
  obtain ⟨e, h1, h2⟩ := key ExPbsSame.skewEnd.sys.store [some (290 / 3)] (by decide +kernel)
  obtain ⟨e1, h3, h4⟩ := key ExPbsSame.plainEnd.sys.store [some 97] (by decide +kernel)
  have hr : ((Prog.start (⟨ExPbsSame.env.md5, ExPbsSame.env.sims, fun _ => 1⟩ : ProgEnv Unit (Option ℚ) Unit) true true {}).run ⟨ExPbsSame.env.md5, ExPbsSame.env.sims, fun _ => 1⟩
      ([.setInitial [2], .schedule none [0]] ++ [.ask none [7]])).isSome = true := by decide +kernel
  refine ⟨ExPbsSame.env, ExPbsSame.skew, ExPbsSame.skewEnd, ExPbsSame.plainEnd, e, e1, ExPbsProg.proper, ExPbsRestart.getD_some (by decide +kernel),
    ExPbsOnce.gives (by decide +kernel), ExPbsOnce.clean (by decide +kernel) (by decide +kernel) (ExPbsSess.asked (by decide +kernel)) (by decide +kernel) (by decide +kernel),
    ExPbsSess.honest (by decide +kernel), ExPbsSess.honestFailures (by decide +kernel), by decide +kernel, by decide +kernel, by decide +kernel, ?_, h1, h3, h2, h4⟩
  obtain ⟨p1, hp1⟩ := Option.isSome_iff_exists.1 hr
  rw [ExPbsSame.plainEnd, hp1]; rfl

/-- A case for the theorems: the three programs of `ExPbsOnce.three` and one program asking for six samples. -/
example : ExPbsOnce.good.Proper ∧ (PbsProg.start ExPbsOnce.good).events ExPbsOnce.good ExPbsOnce.three = some ExPbsOnce.threeEnd ∧
    GivesUnfinished ExPbsOnce.good ExPbsOnce.three ∧ CleanPbs ExPbsOnce.good ExPbsOnce.threeEnd.hist ∧ WholeJobs ExPbsOnce.good ExPbsOnce.threeEnd.hist ∧
    HonestJobs ExPbsOnce.good ExPbsOnce.threeEnd.hist ∧ HonestFailures ExPbsOnce.good ExPbsOnce.threeEnd.hist ∧
    (∀ x ∈ ExPbsOnce.threeEnd.sys.store, x.scheduled.length = 6 ∧ ∀ s ∈ goodSamples ExPbsOnce.good.md5 ExPbsProg.sim 6, s.1 ∈ x.collectedIds) ∧
    ExPbsSame.mean ExPbsOnce.threeEnd.sys.store = some [some 7] :=
  ⟨ExPbsProg.proper, ExPbsRestart.getD_some (by decide +kernel), ExPbsOnce.gives (by decide +kernel),
    ExPbsOnce.clean (by decide +kernel) (by decide +kernel) (ExPbsSess.asked (by decide +kernel)) (by decide +kernel) (by decide +kernel),
    ExPbsOnce.whole (by decide +kernel), ExPbsSess.honest (by decide +kernel), ExPbsSess.honestFailures (by decide +kernel), by decide +kernel, by decide +kernel⟩

end MLMC
