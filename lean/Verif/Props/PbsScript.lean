import Verif.Spec.PbsScript
import Verif.Proofs.PbsScript
import Verif.Proofs.Tag
/-
Scripts of jobs and parameters of job processes.
-/
namespace MLMC.Script

theorem jobName_plain (job : Nat) : ∀ c ∈ jobName job, c.isDigit = true := by
  intro c hc
  exact isDigit_of_mem_zpad hc

/-- C101 (the script).  With all requested values, and lines of the user and a working directory without braces, the script has exactly the expected lines. -/
theorem C101_script (workDir : Str) (job : Nat) (s : Settings) (r : Request) (optional env : List Str) (hd : ∀ c ∈ workDir, c ≠ '{' ∧ c ≠ '}') (hg : Gives s r)
    (ho : s.optional = some optional) (he : s.env = some env) (hol : PlainLines optional) (hel : PlainLines env) :
    script workDir s job = .ok (expectedScript workDir job s r optional env) := by
  rw [script, commonSetting_eq workDir s optional env ho he]
  show createScript _ _ _ _ = _
  unfold createScript
  obtain ⟨c1, c2, c3⟩ := config_job workDir job (settingsOf s)
  obtain ⟨d1, d2, d3⟩ := config_defaults workDir job s
  have e1 := (config_other workDir job s "n_nodes".toList (by decide)).trans hg.nodes
  have e2 := (config_other workDir job s "n_cores".toList (by decide)).trans hg.cores
  have e3 := (config_other workDir job s "mem".toList (by decide)).trans hg.mem
  have e4 := (config_other workDir job s "walltime".toList (by decide)).trans hg.walltime
  have e5 := (config_other workDir job s "queue".toList (by decide)).trans hg.queue
  have e6 := (config_other workDir job s "pbs_name".toList (by decide)).trans hg.name
  refine mapM_append_ok _ _ _ _ _ (mapM_append_ok _ _ _ _ _ (mapM_append_ok _ _ _ _ _ (mapM_append_ok _ _ _ _ _ (fixed_fmt _ e1 e2 e3 d3 e4 e5 e6 d2 c2 c1) ?_) (work_fmt _ _ hd)) ?_) (command_fmt _ d1 c3 c1 c2)
  · exact plain_fmt _ optional hol
  · exact plain_fmt _ env hel

theorem fmt_doubled (kw : Dict Str Str) : ∀ t : Str, fmt kw .text (doubled t) = .ok t
  | [] => rfl
  | c :: t => by
    have ih := fmt_doubled kw t
    rw [doubled, List.flatMap_cons]
    show fmt kw .text (_ ++ doubled t) = _
    by_cases h1 : c = '{'
    · subst h1
      rw [if_pos rfl, List.cons_append, List.cons_append, List.nil_append, fmt, if_pos rfl, fmt, if_pos rfl, ih]; rfl
    · by_cases h2 : c = '}'
      · subst h2
        rw [if_neg h1, if_pos rfl, List.cons_append, List.cons_append, List.nil_append, fmt, if_neg h1, if_pos rfl, fmt, if_pos rfl, ih]; rfl
      · rw [if_neg h1, if_neg h2, List.cons_append, List.nil_append, fmt, if_neg h1, if_neg h2, ih]; rfl

/-- C101 (braces in lines of the user).  Lines of the user with any characters come into the script unchanged if each of their braces is given twice; nothing else of the script changes. -/
theorem C101_doubled_braces (workDir : Str) (job : Nat) (s : Settings) (r : Request) (optional env : List Str) (hd : ∀ c ∈ workDir, c ≠ '{' ∧ c ≠ '}') (hg : Gives s r)
    (ho : s.optional = some (optional.map doubled)) (he : s.env = some (env.map doubled)) :
    script workDir s job = .ok (expectedScript workDir job s r optional env) := by
  rw [script, commonSetting_eq workDir s _ _ ho he]
  show createScript _ _ _ _ = _
  unfold createScript
  obtain ⟨c1, c2, c3⟩ := config_job workDir job (settingsOf s)
  obtain ⟨d1, d2, d3⟩ := config_defaults workDir job s
  have e1 := (config_other workDir job s "n_nodes".toList (by decide)).trans hg.nodes
  have e2 := (config_other workDir job s "n_cores".toList (by decide)).trans hg.cores
  have e3 := (config_other workDir job s "mem".toList (by decide)).trans hg.mem
  have e4 := (config_other workDir job s "walltime".toList (by decide)).trans hg.walltime
  have e5 := (config_other workDir job s "queue".toList (by decide)).trans hg.queue
  have e6 := (config_other workDir job s "pbs_name".toList (by decide)).trans hg.name
  have hdb : ∀ (kw : Dict Str Str) (l : List Str), (l.map doubled).mapM (fmt kw .text) = .ok l := by
    intro kw l
    rw [List.mapM_map]
    have := mapM_ok (fun t => fmt kw .text (doubled t)) id l fun t _ => fmt_doubled kw t
    rw [List.map_id] at this
    exact this
  exact mapM_append_ok _ _ _ _ _ (mapM_append_ok _ _ _ _ _ (mapM_append_ok _ _ _ _ _ (mapM_append_ok _ _ _ _ _ (fixed_fmt _ e1 e2 e3 d3 e4 e5 e6 d2 c2 c1) (hdb _ _)) (work_fmt _ _ hd)) (hdb _ _)) (command_fmt _ d1 c3 c1 c2)

/-- A line with a variable of the shell in braces. -/
example : doubled "export A=${B}".toList = "export A=${{B}}".toList := by decide +kernel

/-- The parameters read from the file written for a pool on a plain directory. -/
theorem read_back (workDir : Str) (debug : Bool) (hd : PlainDir workDir) : deserialize (serialize none (jobsDir workDir) simFile debug) = .ok (jobsDir workDir, simFile, debug) := by
  have hjobs : ∀ c ∈ jobsDir workDir, c ≠ ';' ∧ c ≠ '\n' := by
    intro c hc
    rw [jobsDir, subdir, outputDir, subdir, List.mem_append, List.mem_append] at hc
    rcases hc with (hc | hc) | hc
    · exact ⟨(hd c hc).2.1, (hd c hc).2.2.2.2⟩
    · revert c; decide +kernel
    · revert c; decide +kernel
  have hb : ∃ u, splitOn ';' ((if debug = true then "True" else "False").toList ++ [';']) = (if debug = true then "True".toList else "False".toList) :: u := by
    cases debug <;> exact ⟨[[]], by decide +kernel⟩
  obtain ⟨u, hu⟩ := hb
  rw [serialize, deserialize, takeWhile_line _ (by
    intro c hc
    rw [List.mem_append, List.mem_cons, List.mem_append, List.mem_cons, List.mem_append] at hc
    rcases hc with hc | hc | hc | hc | hc | hc
    · exact (hjobs c hc).2
    · rw [hc]; decide
    · revert c; decide +kernel
    · rw [hc]; decide
    · cases debug <;> revert c <;> decide +kernel
    · revert c; decide +kernel), splitOn_plain ';' _ _ fun c hc => (hjobs c hc).1, splitOn_plain ';' simFile _ (by decide +kernel), hu]
  cases debug
  · show Except.ok _ = _
    rw [show decide ((if false = true then "True".toList else "False".toList) = "True".toList) = false by decide +kernel]
  · show Except.ok _ = _
    rw [show decide ((if true = true then "True".toList else "False".toList) = "True".toList) = true by decide +kernel]

/-- The arguments of the process of a job. -/
theorem args_of (workDir python : Str) (job : Nat) (tail : Str) (hd : PlainDir workDir) (hpy : "mlmc.tool.pbs_job".toList ∉ splitOn ' ' python) :
    shellArgs (python ++ ' ' :: ("-m".toList ++ ' ' :: ("mlmc.tool.pbs_job".toList ++ ' ' :: (outputDir workDir ++ ' ' :: (jobName job ++ ' ' :: tail))))) =
      outputDir workDir :: jobName job :: splitOn ' ' tail := by
  have hdig : ∀ c : Char, c.isDigit = true → c ≠ ' ' := by rintro c h rfl; exact absurd h (by decide)
  have hout : ∀ c ∈ outputDir workDir, c ≠ ' ' := by
    intro c hc
    rw [outputDir, subdir, List.mem_append] at hc
    rcases hc with hc | hc
    · exact (hd c hc).1
    · revert c; decide +kernel
  rw [shellArgs, splitOn_append, splitOn_plain ' ' "-m".toList _ (by decide +kernel), splitOn_plain ' ' "mlmc.tool.pbs_job".toList _ (by decide +kernel), splitOn_plain ' ' _ _ hout,
    splitOn_plain ' ' _ _ fun c hc => hdig c (jobName_plain job c hc), dropWhile_skip _ _ _ (fun x hx => by
      simp only [ne_eq, decide_not, Bool.not_eq_true', decide_eq_false_iff_not]; rintro rfl; exact hpy hx)]
  rw [List.dropWhile_cons, if_pos (by decide +kernel), List.dropWhile_cons, if_neg (by decide +kernel)]
  rfl

theorem last_line (workDir : Str) (job : Nat) (s : Settings) (r : Request) (optional env : List Str) : (expectedScript workDir job s r optional env).getLastD [] =
      pythonOf s ++ ' ' :: ("-m".toList ++ ' ' :: ("mlmc.tool.pbs_job".toList ++ ' ' :: (outputDir workDir ++ ' ' :: (jobName job ++ ' ' :: ('>' :: (jobsDir workDir ++ '/' :: (jobName job ++ "_STDOUT 2>&1".toList))))))) := by
  unfold expectedScript
  rw [List.getLastD_eq_getLast?, List.getLast?_append]
  simp [outputDir, jobsDir, subdir]

theorem outputDir_eq (workDir : Str) : outputDir workDir = workDir ++ "/output".toList := by simp [outputDir, subdir]
theorem jobsDir_eq (workDir : Str) : jobsDir workDir = workDir ++ "/output/jobs".toList := by simp [jobsDir, outputDir, subdir]

/-- C101 (the job process).  For a working directory with a plain name, and without a file left by an earlier pool that would be kept, the process of a job gets the output directory and the directory of jobs of
the pool, its own job name, the file name of simulations and the debug flag of the pool.  Missing: other working directories and lines, and pools with `debug` on the directory of an earlier one, see below. -/
theorem C101_job_parameters_partial (workDir : Str) (job : Nat) (old : Option Str) (debug : Bool) (s : Settings) (r : Request) (optional env : List Str) (hd : PlainDir workDir) (hg : Gives s r)
    (ho : s.optional = some optional) (he : s.env = some env) (hol : PlainLines optional) (hel : PlainLines env) (hpy : "mlmc.tool.pbs_job".toList ∉ splitOn ' ' (pythonOf s)) (hold : debug = true → old = none) :
    runJob workDir old debug s job =
      .ok { outputDir := workDir ++ "/output".toList, jobsDir := workDir ++ "/output/jobs".toList, jobId := jobName job, simFile := "level_{}_simulation_config".toList, debug := debug } := by
  have hs := C101_script workDir job s r optional env (fun c hc => ⟨(hd c hc).2.2.1, (hd c hc).2.2.2.1⟩) hg ho he hol hel
  have hnone : afterInit old debug = none := by
    unfold afterInit
    cases debug with
    | false => rfl
    | true => exact hold rfl
  unfold runJob
  rw [hs, hnone]
  show createProcess _ _ = _
  unfold createProcess
  rw [last_line, args_of workDir _ job _ hd hpy, ← outputDir_eq, ← jobsDir_eq]
  simp only [if_true]
  rw [read_back workDir debug hd]
  rfl

/-! ### Settings for examples -/

/-- Settings as in the examples of the project. -/
def settingsEx : Settings where
  values := [("n_nodes".toList, "1".toList), ("n_cores".toList, "1".toList), ("mem".toList, "1Gb".toList), ("walltime".toList, "1:00:00".toList), ("queue".toList, "charon".toList), ("pbs_name".toList, "flow123".toList),
    ("python".toList, "python3.8".toList)]
  optional := some ["#PBS -m ae".toList]
  env := some ["cd $MLMC_WORKDIR".toList, "module load python".toList]

/-- Hypotheses of `C101_job_parameters_partial` hold. -/
example : PlainDir "/storage/mlmc".toList ∧ Gives settingsEx ⟨"1".toList, "1".toList, "1Gb".toList, "1:00:00".toList, "charon".toList, "flow123".toList⟩ ∧
    PlainLines ["#PBS -m ae".toList] ∧ PlainLines ["cd $MLMC_WORKDIR".toList, "module load python".toList] ∧ "mlmc.tool.pbs_job".toList ∉ splitOn ' ' (pythonOf settingsEx) := by
  refine ⟨by unfold PlainDir; decide +kernel, ⟨by decide +kernel, by decide +kernel, by decide +kernel, by decide +kernel, by decide +kernel, by decide +kernel⟩, by unfold PlainLines; decide +kernel,
    by unfold PlainLines; decide +kernel, by decide +kernel⟩

/-- C101 (what the documentation lists is not enough).  Without `optional_pbs_requests`, which the documentation of parameters does not name, `pbs_common_setting` raises KeyError. -/
theorem C101_undocumented_parameter (workDir : Str) (s : Settings) (h : s.optional = none) : commonSetting workDir s = .error .keyError := by
  unfold commonSetting
  rw [h]

/-- C101 (missing values).  Without the wall time, which the documentation does not list either, or the name of the job, no script is made. -/
theorem C101_missing_value_raises (workDir : Str) (job : Nat) (s : Settings) (h : Dict.get? s.values "walltime".toList = none ∨ Dict.get? s.values "pbs_name".toList = none) :
    ∃ e, script workDir s job = .error e := by
  unfold script
  cases hc : commonSetting workDir s with
  | error e => exact ⟨e, rfl⟩
  | ok p =>
    have hp : p.1 = fixedLines ++ s.optional.getD [] ++ [workLine workDir] ++ s.env.getD [] ++ [commandLine] ∧ p.2 = settingsOf s := by
      cases ho : s.optional with
      | none => rw [C101_undocumented_parameter workDir s ho] at hc; cases hc
      | some o =>
        cases he : s.env with
        | none => unfold commonSetting at hc; rw [ho, he] at hc; cases hc
        | some e => rw [commonSetting_eq workDir s o e ho he] at hc; cases hc; exact ⟨rfl, rfl⟩
    show ∃ e, createScript workDir job p.1 p.2 = _
    rw [hp.1, hp.2]
    refine mapM_error _ _ ?_
    rcases h with h | h
    · refine ⟨"#PBS -l walltime={walltime}".toList, by simp [fixedLines], .keyError, ?_⟩
      show fmt _ .text ("#PBS -l walltime=".toList ++ '{' :: ("walltime".toList ++ '}' :: [])) = _
      rw [fmt_plain _ _ _ (by decide), fmt_field _ _ _ (by decide) (by decide), field_none (by decide) ((config_other workDir job s _ (by decide)).trans h)]
      rfl
    · refine ⟨"#PBS -N {pbs_name}".toList, by simp [fixedLines], .keyError, ?_⟩
      show fmt _ .text ("#PBS -N ".toList ++ '{' :: ("pbs_name".toList ++ '}' :: [])) = _
      rw [fmt_plain _ _ _ (by decide), fmt_field _ _ _ (by decide) (by decide), field_none (by decide) ((config_other workDir job s _ (by decide)).trans h)]
      rfl

/-- C101 (variables of the shell).  A line of the environment with a variable in braces, `${NAME}`, that is not a setting makes every job fail to be written: the text in braces is taken as a setting. -/
theorem C101_shell_variable_raises (workDir : Str) (job : Nat) (s : Settings) (o e : List Str) (ho : s.optional = some o) (he : s.env = some e) (a b name : Str) (ha : ∀ c ∈ a, c ≠ '{' ∧ c ≠ '}')
    (hn : name ≠ [] ∧ ∀ c ∈ name, c.isAlpha = true ∨ c = '_')
    (hk : Dict.get? s.values name = none)
    (hnew : name ∉ ["job_name".toList, "pbs_output_dir".toList, "output_dir".toList, "work_dir".toList, "std_out_err".toList, "python".toList, "select_flags".toList])
    (hl : a ++ "${".toList ++ name ++ "}".toList ++ b ∈ e) : ∃ err, script workDir s job = .error err := by
  rw [script, commonSetting_eq workDir s o e ho he]
  show ∃ err, createScript _ _ _ _ = _
  unfold createScript
  have hf : FieldName name := by
    have hx : ∀ c ∈ name, c ∉ ['{', '}', '.', '[', '!', ':'] ∧ c.isDigit = false := by
      intro c hc
      rcases hn.2 c hc with h | rfl
      · refine ⟨fun hm => ?_, ?_⟩
        · revert h
          simp only [List.mem_cons, List.not_mem_nil, or_false] at hm
          rcases hm with rfl | rfl | rfl | rfl | rfl | rfl <;> decide
        · cases hd : c.isDigit with
          | false => rfl
          | true =>
            exfalso
            simp only [Char.isDigit, Char.isAlpha, Char.isUpper, Char.isLower, Bool.and_eq_true, Bool.or_eq_true, decide_eq_true_eq, ge_iff_le] at hd h
            have h1 := UInt32.le_iff_toNat_le.1 hd.1
            have h2 := UInt32.le_iff_toNat_le.1 hd.2
            rcases h with h | h
            · have h3 := UInt32.le_iff_toNat_le.1 h.1
              simp at h1 h2 h3
              omega
            · have h3 := UInt32.le_iff_toNat_le.1 h.1
              simp at h1 h2 h3
              omega
      · decide
    refine ⟨hn.1, fun c hc => ?_, ?_, ?_⟩
    · have := (hx c hc).1
      simp only [List.mem_cons, List.not_mem_nil, or_false, not_or] at this
      exact ⟨this.1, this.2.1⟩
    · obtain ⟨c, l, rfl⟩ := List.exists_cons_of_ne_nil hn.1
      rw [List.all_cons, (hx c (List.mem_cons_self ..)).2, Bool.false_and]
    · rw [List.any_eq_false]
      intro c hc
      have := (hx c hc).1
      simp only [List.mem_cons, List.not_mem_nil, or_false, not_or] at this
      simp [this]
  refine mapM_error _ _ ⟨_, List.mem_append_left _ (List.mem_append_right _ hl), .keyError, ?_⟩
  have : a ++ "${".toList ++ name ++ "}".toList ++ b = (a ++ ['$']) ++ '{' :: (name ++ '}' :: b) := by simp
  rw [this, fmt_plain _ _ _ (by
    intro c hc
    rw [List.mem_append] at hc
    rcases hc with hc | hc
    · exact ha c hc
    · revert c; decide), fmt_field _ _ _ hf.1 hf.2.1, field_none hf ((config_other workDir job s name hnew).trans hk)]
  rfl

/-- Hypotheses hold: `export PATH=${HOME}/bin`. -/
example : ("export PATH=".toList ++ "${".toList ++ "HOME".toList ++ "}".toList ++ "/bin".toList = "export PATH=${HOME}/bin".toList) ∧ (∀ c ∈ "HOME".toList, c.isAlpha = true ∨ c = '_') ∧
    Dict.get? settingsEx.values "HOME".toList = none := by decide +kernel

/-- C101 fails (debug).  The pool is created with `debug` on the directory of a pool without it: the file of the earlier pool is kept, and the job runs without `debug`, so it deletes directories of samples. -/
theorem C101_debug_counterexample :
    runJob "/w".toList (some (serialize none (jobsDir "/w".toList) simFile false)) true settingsEx 3 =
      .ok { outputDir := "/w/output".toList, jobsDir := "/w/output/jobs".toList, jobId := "0003".toList, simFile := "level_{}_simulation_config".toList, debug := false } := by
  decide +kernel

/-- C101 fails (blanks).  In a working directory with a blank in its name the process of the job looks for its parameters in another directory and fails. -/
theorem C101_blank_counterexample : runJob "/home/u/my runs".toList none false settingsEx 0 = .error .other := by decide +kernel

/-- C101 fails (semicolons).  With a semicolon in the name of the directory (and a shell that keeps it) the process gets a wrong directory of jobs and a wrong file of simulations. -/
theorem C101_semicolon_counterexample : deserialize (serialize none (jobsDir "/a;b".toList) simFile true) = .ok ("/a".toList, "b/output/jobs".toList, false) := by decide +kernel
end MLMC.Script
