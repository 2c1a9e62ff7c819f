import Verif.Spec.FailingStats
import Verif.Spec.ProgramPar
import Verif.Spec.ProgramPbs
import Verif.Spec.PbsRenew
import Verif.Spec.PbsOnce
import Verif.Spec.ProgramRestart
import Verif.Model.ProgramMem
import Verif.Model.StoreHistory
/-
Notions used in the statements about what programs with different pools report.
-/
namespace MLMC
variable {Cfg C F : Type}

/-- `L` level simulations as the sampler creates them, with common files that can be copied, returning arrays and declaring results of length `W`. -/
structure SimsSound (sims : List (PoolSim Cfg (Option F) C)) (W L : Nat) : Prop where
  levels : sims.length = L
  level : ∀ (l : Nat) (sim : PoolSim Cfg (Option F) C), sims[l]? = some sim → sim.level = l
  files : ∀ sim ∈ sims, sim.workspace = true → sim.filesOk = true
  fmt : ∀ sim ∈ sims, formatSize sim.fmt = W
  arrays : ∀ sim ∈ sims, ∀ (seed : Nat) (f c : ResPart (Option F)), sim.calculate sim.cfg seed = .pair f c → (∃ a, f = .array a) ∧ ∃ b, c = .array b

/-- A program asks for `n l` samples of every level `l`, waits for them, and then `estimate_mean` of the quantity on its storage (with chunks of `c l` samples on level `l`) returns `e`.
Its pool is a `OneProcessPool`; or a `ThreadPool` or `ProcessPool`, whose workers finish in any order and at any moments; or the PBS pool, with jobs that finish in any order and do not die,
and nothing waiting at the end; or the PBS pool with jobs some of which die, after which the program calls `renew_failed_samples` and then no job is found dead (`pbsRenewed`);
or programs with the PBS pool, killed and started again any number of times under the conditions of C138, in the end with all results in the file (`pbsRestarted`).
Or several programs with a `OneProcessPool` work one after another on the same file, each waiting for its samples (`sessions`); or the samples are kept in memory, and each level has a result
(`memory`). -/
inductive PoolReports [Field F] (md5 : SampleId → List UInt8) (sims : List (PoolSim Cfg (Option F) C)) (n c : Nat → Nat) (sid : Nat) (q : Quantity (Option F)) (e : QuantityMean F) : Prop
  | oneProcess (dur : Nat → ℚ) (ops : List ProgOp) (proper : ∀ o ∈ ops, o.Proper sims.length) (asked : ∀ l < sims.length, wantedCount l ops = n l)
      (reports : (⟨md5, sims, dur⟩ : ProgEnv Cfg (Option F) C).Reports ops c sid q e)
  | parallel (ops : List ParOp) (rounds : List ParRound) (p : ParProg (Option F)) (proper : ∀ o ∈ ops, o.Proper sims.length)
      (asked : ∀ l < sims.length, wantedCount l (ops.map (·.call)) = n l)
      (run : (ParProg.start ⟨md5, sims⟩).run (⟨md5, sims⟩ : ParEnv Cfg (Option F) C) (ops ++ [.ask none rounds]) = some p)
      (reports : estimateFromStorage (storedNumbers p.sys.store) c sid q = .ok e)
  | pbs (size : Nat → ℚ) (ops : List (PbsProgOp (Option F))) (p : PbsProg Cfg (Option F) C) (proper : ∀ o ∈ ops, o.Proper sims.length)
      (asked : ∀ l < sims.length, wantedCount l (ops.map (·.call)) = n l)
      (run : (PbsProg.start ⟨md5, sims, size⟩).run (⟨md5, sims, size⟩ : PbsEnv Cfg (Option F) C) ops = some p)
      (normal : PbsNormal ⟨md5, sims, size⟩ p) (noneDies : NoJobDies ⟨md5, sims, size⟩ p) (noneWaits : ∀ l, p.waiting ⟨md5, sims, size⟩ l = [])
      (reports : estimateFromStorage (storedNumbers p.sys.store) c sid q = .ok e)
  | pbsRenewed (size : Nat → ℚ) (first later : List (PbsRenewOp (Option F))) (cmds : Nat → List (Nat × JobAppend (PairRes (Option F))) × QsubAns) (p1 p : PbsProg Cfg (Option F) C)
      (proper : ∀ o ∈ first ++ later, o.Proper sims.length) (asked : ∀ l < sims.length, wantedCount l ((first ++ later).map (·.call')) = n l)
      (run1 : (PbsProg.start ⟨md5, sims, size⟩).runR (⟨md5, sims, size⟩ : PbsEnv Cfg (Option F) C) (first ++ [.renew cmds]) = some p1)
      (run2 : p1.runR (⟨md5, sims, size⟩ : PbsEnv Cfg (Option F) C) later = some p)
      (normal : PbsNormal ⟨md5, sims, size⟩ p) (noneDies : NoJobDiesAfter ⟨md5, sims, size⟩ p1 p) (noneWaits : ∀ l, p.waiting ⟨md5, sims, size⟩ l = [])
      (reports : estimateFromStorage (storedNumbers p.sys.store) c sid q = .ok e)
  | pbsRestarted (size : Nat → ℚ) (es : List (PbsEvent (Option F))) (p : PbsProg Cfg (Option F) C)
      (run : (PbsProg.start ⟨md5, sims, size⟩).events (⟨md5, sims, size⟩ : PbsEnv Cfg (Option F) C) es = some p)
      (gives : GivesUnfinished (⟨md5, sims, size⟩ : PbsEnv Cfg (Option F) C) es) (clean : CleanPbs ⟨md5, sims, size⟩ p.hist) (whole : WholeJobs ⟨md5, sims, size⟩ p.hist)
      (honest : HonestJobs ⟨md5, sims, size⟩ p.hist) (fails : HonestFailures ⟨md5, sims, size⟩ p.hist)
      (asked : ∀ l x, p.sys.store[l]? = some x → x.scheduled.length = n l)
      (all : ∀ l sim x, sims[l]? = some sim → p.sys.store[l]? = some x → ∀ s ∈ goodSamples md5 sim (n l), s.1 ∈ x.collectedIds)
      (reports : estimateFromStorage (storedNumbers p.sys.store) c sid q = .ok e)
  | sessions (dur : Nat → ℚ) (ss : List (Session C)) (g : HdfLevels (ResPart (Option F) × ResPart (Option F))) (proper : ∀ s ∈ ss, s.Proper sims.length)
      (waits : ∀ s ∈ ss, s.Waits) (asked : ∀ l < sims.length, wantedOverall l ss = n l)
      (run : runSessions (⟨md5, sims, dur⟩ : ProgEnv Cfg (Option F) C) ss (hdfFresh _ sims.length) = some g)
      (reports : estimateFromStorage (storedNumbers g) c sid q = .ok e)
  | memory (dur : Nat → ℚ) (debug hasDir : Bool) (dirs : Dirs C) (ops : List ProgOp) (t : ℚ) (m : MemProg (Option F) C)
      (proper : ∀ o ∈ ops, o.Proper sims.length) (noRenewal : ∀ o ∈ ops, o ≠ .renew) (asked : ∀ l < sims.length, wantedCount l ops = n l)
      (results : ∀ l < sims.length, wantedSamples (⟨md5, sims, dur⟩ : ProgEnv Cfg (Option F) C) ops l ≠ [])
      (run : (MemProg.start (⟨md5, sims, dur⟩ : ProgEnv Cfg (Option F) C) debug hasDir dirs).run (⟨md5, sims, dur⟩ : ProgEnv Cfg (Option F) C) (ops ++ [.ask none [t]]) = some m)
      (reports : estimateFromMemory (memNumbers m.mem) sid q = .ok e)

end MLMC
