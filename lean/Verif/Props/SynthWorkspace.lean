import Verif.Model.SynthWorkspace
import Verif.Props.Synth
/-! # C127 Artificial failures in batch jobs -/
namespace MLMC.Syn

/-- The result of a failed sample. -/
def isFailed : Except PyErr (List ℝ × List ℝ) → Bool
  | .error _ => true
  | .ok _ => false

/-- A sample whose configuration file asks for the normal distribution and the fraction `ν` of failures, and whose format is supported. -/
def Asks (ν : ℝ) (s : WsSample) : Prop := s.config = .ok ("norm".toList, ν) ∧ Supported s.fmt

/-- Number of failed samples of a list of results. -/
def nFailed (rs : List (Except PyErr (List ℝ × List ℝ))) : Nat := (rs.filter isFailed).length

theorem wsCalculate_eq (ν : ℝ) (s : WsSample) (hs : Asks ν s) (rvs : Nat → Nat → List ℝ) (c : Counters) :
    wsCalculate s.config rvs s.fineStep s.coarseStep s.fmt s.seed c = calculate ν rvs s.fineStep s.coarseStep s.fmt s.seed c := by
  obtain ⟨q, fmt', hf⟩ := List.exists_cons_of_ne_nil hs.2.nonempty
  rw [hs.1, hf]
  simp only [wsCalculate, calculate, wsGenerate, generate]
  split_ifs <;> rfl

theorem wsRun_counts (ν : ℝ) (hν : 0 ≤ ν ∧ ν ≤ 1) (rvs : Nat → Nat → List ℝ) (samples : List WsSample) (hs : ∀ s ∈ samples, Asks ν s) (c : Counters)
    (h : ν * c.lenResults ≤ c.nNans ∧ (c.nNans : ℝ) ≤ ν * (c.lenResults + 1 / 10 ^ 10) + 1) :
    ν * (c.lenResults + samples.length) ≤ c.nNans + nFailed (wsRun rvs samples c) ∧
    (c.nNans : ℝ) + nFailed (wsRun rvs samples c) ≤ ν * (c.lenResults + samples.length + 1 / 10 ^ 10) + 1 := by
  induction samples generalizing c with
  | nil => simpa [wsRun, nFailed] using h
  | cons s samples ih =>
    have ha := hs s (List.mem_cons_self ..)
    obtain ⟨q, fmt', hf⟩ := List.exists_cons_of_ne_nil ha.2.nonempty
    obtain ⟨g1, g2⟩ := generate_step ν hν rvs s.seed q.shape.prod c h
    have hc2 : (calculate ν rvs s.fineStep s.coarseStep s.fmt s.seed c).2 = (generate ν rvs s.seed q.shape.prod c).2 := by
      rw [hf]; simp only [calculate]
      cases generate ν rvs s.seed q.shape.prod c with
      | mk a b => cases a <;> rfl
    have hc1 : (c.nNans : ℝ) + (if isFailed (calculate ν rvs s.fineStep s.coarseStep s.fmt s.seed c).1 = true then 1 else 0 : ℕ) = (generate ν rvs s.seed q.shape.prod c).2.nNans := by
      have hreg := regular_of _ ha.2
      rw [hf] at hreg ⊢
      by_cases hlt : (c.nNans : ℝ) / (1 / 10 ^ 10 + (c.lenResults + 1 : ℕ)) < ν
      · have hg : generate ν rvs s.seed q.shape.prod c = (none, ⟨c.nNans + 1, c.lenResults + 1⟩) := if_pos hlt
        have hcal : calculate ν rvs s.fineStep s.coarseStep (q :: fmt') s.seed c = (.error .other, ⟨c.nNans + 1, c.lenResults + 1⟩) := by
          simp only [calculate, hg]
        rw [hg, hcal]; simp [isFailed]
      · have hg : generate ν rvs s.seed q.shape.prod c = (some (rvs s.seed q.shape.prod), ⟨c.nNans, c.lenResults + 1⟩) := if_neg hlt
        have hcal : ∃ r, calculate ν rvs s.fineStep s.coarseStep (q :: fmt') s.seed c = (.ok r, ⟨c.nNans, c.lenResults + 1⟩) := by
          simp only [calculate, hg, calculateFrom, if_pos hreg]; exact ⟨_, rfl⟩
        obtain ⟨r, hcal⟩ := hcal
        rw [hg, hcal]; simp [isFailed]
    have i := ih (fun x hx => hs x (List.mem_cons_of_mem _ hx)) _ g2
    have hn : nFailed (wsRun rvs (s :: samples) c) = (if isFailed (calculate ν rvs s.fineStep s.coarseStep s.fmt s.seed c).1 = true then 1 else 0) +
        nFailed (wsRun rvs samples (generate ν rvs s.seed q.shape.prod c).2) := by
      rw [wsRun]
      simp only [wsCalculate_eq ν s ha rvs c, hc2, nFailed]
      rw [List.filter_cons]
      split <;> simp [Nat.add_comm]
    rw [hn, Nat.cast_add, ← add_assoc, hc1, List.length_cons]
    rw [g1] at i
    push_cast at i ⊢
    constructor
    · refine le_trans (le_of_eq (by ring)) i.1
    · exact i.2.trans (le_of_eq (by ring))

/-- `C127`: over any jobs, at least the requested fraction of all samples fails, and at most one sample per job (and 1e-10) more. -/
theorem C127_fraction_of_jobs_partial (ν : ℝ) (hν : 0 ≤ ν ∧ ν ≤ 1) (rvs : Nat → Nat → List ℝ) (jobs : List (List WsSample)) (hs : ∀ job ∈ jobs, ∀ s ∈ job, Asks ν s) :
    ν * jobs.flatten.length ≤ nFailed (jobs.flatMap (wsJob rvs)) ∧
    (nFailed (jobs.flatMap (wsJob rvs)) : ℝ) ≤ ν * jobs.flatten.length + jobs.length * (1 + 1 / 10 ^ 10) := by
  induction jobs with
  | nil => simp [nFailed]
  | cons job jobs ih =>
    obtain ⟨i1, i2⟩ := ih fun j hj => hs j (List.mem_cons_of_mem _ hj)
    have h0 : ν * (1 / 10 ^ 10) ≤ 1 * (1 / 10 ^ 10) := mul_le_mul_of_nonneg_right hν.2 (by positivity)
    have h1 : 0 ≤ ν * (1 / 10 ^ 10) := mul_nonneg hν.1 (by positivity)
    obtain ⟨j1, j2⟩ := wsRun_counts ν hν rvs job (hs job (List.mem_cons_self ..)) ⟨0, 0⟩ (by
      constructor
      · simp
      · simp only [Nat.cast_zero, zero_add]; linarith)
    have hn : nFailed ((job :: jobs).flatMap (wsJob rvs)) = nFailed (wsRun rvs job ⟨0, 0⟩) + nFailed (jobs.flatMap (wsJob rvs)) := by
      simp [nFailed, wsJob]
    rw [hn, List.flatten_cons, List.length_append, List.length_cons]
    simp only [Nat.cast_zero, zero_add] at j1 j2
    push_cast
    constructor <;> nlinarith

/-- `C127` fails: with one sample in each job every sample fails, however small the requested (positive) fraction is. -/
theorem C127_counterexample_small_jobs (ν : ℝ) (hν : 0 < ν) (rvs : Nat → Nat → List ℝ) (samples : List WsSample) (hs : ∀ s ∈ samples, Asks ν s) :
    ∀ r ∈ (samples.map fun s => [s]).flatMap (wsJob rvs), isFailed r = true := by
  intro r hr
  simp only [List.mem_flatMap, List.mem_map] at hr
  obtain ⟨_, ⟨s, hsm, rfl⟩, hr⟩ := hr
  simp only [wsJob, wsRun, List.mem_singleton] at hr
  subst hr
  rw [wsCalculate_eq ν s (hs s hsm) rvs, C77_first_fails ν hν rvs _ _ _ (hs s hsm).2.nonempty]
  rfl

/-- The first sample of every job fails for every positive fraction. -/
theorem C127_first_of_job_fails (ν : ℝ) (hν : 0 < ν) (rvs : Nat → Nat → List ℝ) (s : WsSample) (rest : List WsSample) (hs : Asks ν s) :
    ∃ e rs, wsJob rvs (s :: rest) = .error e :: rs := by
  simp only [wsJob, wsRun]
  rw [wsCalculate_eq ν s hs rvs, C77_first_fails ν hν rvs _ _ _ hs.2.nonempty]
  exact ⟨_, _, rfl⟩

/-- `C127`: with the fraction zero no sample fails, in any jobs. -/
theorem C127_no_failures (rvs : Nat → Nat → List ℝ) (job : List WsSample) (hs : ∀ s ∈ job, Asks 0 s) : ∀ r ∈ wsJob rvs job, isFailed r = false := by
  unfold wsJob
  generalize (⟨0, 0⟩ : Counters) = c
  induction job generalizing c with
  | nil => intro r hr; simp [wsRun] at hr
  | cons s job ih =>
    intro r hr
    rw [wsRun] at hr
    simp only [List.mem_cons] at hr
    rcases hr with rfl | hr
    · obtain ⟨x, hx⟩ := C77_no_failures rvs s.fineStep s.coarseStep s.fmt (hs s (List.mem_cons_self ..)).2 s.seed c
      rw [wsCalculate_eq 0 s (hs s (List.mem_cons_self ..)) rvs, hx]; rfl
    · exact ih (fun x hx => hs x (List.mem_cons_of_mem _ hx)) _ r hr

/-- `C127`: every sample whose configuration file names another distribution, or cannot be read, fails. -/
theorem C127_other_distributions_fail (rvs : Nat → Nat → List ℝ) (config : Except PyErr (List Char × ℝ)) (hd : ∀ ν, config ≠ .ok ("norm".toList, ν)) (h H : ℝ) (fmt : List QSpec)
    (seed : Nat) (c : Counters) : isFailed (wsCalculate config rvs h H fmt seed c).1 = true := by
  unfold wsCalculate
  cases config with
  | error e => rfl
  | ok p =>
    obtain ⟨d, ν⟩ := p
    cases fmt with
    | nil => rfl
    | cons q fmt =>
      have : d ≠ "norm".toList := fun h => hd ν (by rw [h])
      simp only [wsGenerate, if_neg this]
      rfl

namespace ExWs
noncomputable def sample (seed : Nat) : WsSample := ⟨.ok ("norm".toList, 1 / 100), 1, 0, resultFormat, seed⟩
theorem asks (seed : Nat) : Asks (1 / 100) (sample seed) := ⟨rfl, (⟨by decide, by decide⟩ : Supported resultFormat)⟩

/-- A hundred samples in hundred jobs all fail; in one job at most two of them do. -/
example (rvs : Nat → Nat → List ℝ) : (∀ r ∈ (((List.range 100).map sample).map fun s => [s]).flatMap (wsJob rvs), isFailed r = true) ∧
    nFailed (wsJob rvs ((List.range 100).map sample)) ≤ 2 := by
  have hall : ∀ s ∈ (List.range 100).map sample, Asks (1 / 100) s := by
    intro s hs
    obtain ⟨k, _, rfl⟩ := List.mem_map.1 hs
    exact asks k
  refine ⟨C127_counterexample_small_jobs _ (by norm_num) rvs _ hall, ?_⟩
  have h := (C127_fraction_of_jobs_partial (1 / 100) (by norm_num) rvs [(List.range 100).map sample] (by simpa using hall)).2
  simp only [List.flatMap_cons, List.flatMap_nil, List.append_nil, List.flatten_cons, List.flatten_nil, List.length_map, List.length_range, List.length_cons, List.length_nil] at h
  have h' : (nFailed (wsJob rvs ((List.range 100).map sample)) : ℝ) < 3 := h.trans_lt (by norm_num)
  have : nFailed (wsJob rvs ((List.range 100).map sample)) < 3 := by exact_mod_cast h'
  omega

end ExWs

end MLMC.Syn
