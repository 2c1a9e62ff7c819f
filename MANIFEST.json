{"claims": [
{"property": "C01", "status": "proved", "theorems": ["MLMC.C01_sample_ids_unique"], "note": ""},
{"property": "C02", "status": "proved", "theorems": ["MLMC.C02_no_id_scheduled_twice", "MLMC.C02_crash_reuses_ids"], "note": "Both parts: distinct identifiers in histories with restarts, and reuse of the identifiers after a crash between handing samples to the pool and recording them (for every state and crash point)."},
{"property": "C03", "status": "proved", "theorems": ["MLMC.C03_schedule_exactly_to_target", "MLMC.C03_scheduled_list_is_prefix"], "note": ""},
{"property": "C04", "status": "proved", "theorems": ["MLMC.C04_targets_only_raised"], "note": ""},
{"property": "C05", "status": "proved", "theorems": ["MLMC.C05_adding_one_call", "MLMC.C05_adding_terminates"], "note": ""},
{"property": "C06", "status": "proved", "theorems": ["MLMC.C06_polling", "MLMC.C06_polling_returns"], "note": ""},
{"property": "C07", "status": "proved", "theorems": ["MLMC.C07_levels_chained"], "note": ""},
{"property": "C08", "status": "proved", "theorems": ["MLMC.C08_initial_numbers", "MLMC.C08_geometric_sequence"], "note": ""},
{"property": "C09", "status": "proved", "theorems": ["MLMC.C09_delivered_exactly_once", "MLMC.C09_missing_file_counterexample"], "note": "All call sequences whose common files can be copied; a missing common file makes schedule_sample raise after the running count was raised (witness)."},
{"property": "C10", "status": "partial", "theorems": ["MLMC.C10_nothing_returned_twice", "MLMC.C10_no_result_lost_partial", "MLMC.C10_counterexample", "MLMC.C10_worker_error_counterexample"], "note": "Nothing is returned twice in any interleaving; nothing is lost if no callback falls inside the draining of a get_finished call; otherwise a result can stay unreturned while the running count is wrong (witnesses)."},
{"property": "C100", "status": "partial", "theorems": ["MLMC.Qstat.C100_taken_as_finished", "MLMC.Qstat.C100_finished_found", "MLMC.Qstat.C100_exactly_finished_partial", "MLMC.Qstat.C100_running_counterexample", "MLMC.Qstat.C100_submitted_id", "MLMC.Qstat.C100_job_of_identifier"], "note": "Exact characterisation for every table. False for rows in which a column ending with a digit is followed after one blank by a column beginning with F (16 characters long names of jobs of users with F): such running jobs are taken as finished."},
{"property": "C101", "status": "partial", "theorems": ["MLMC.Script.C101_script", "MLMC.Script.C101_doubled_braces", "MLMC.Script.C101_job_parameters_partial", "MLMC.Script.C101_undocumented_parameter", "MLMC.Script.C101_missing_value_raises", "MLMC.Script.C101_shell_variable_raises", "MLMC.Script.C101_debug_counterexample", "MLMC.Script.C101_blank_counterexample", "MLMC.Script.C101_semicolon_counterexample"], "note": "Proved for directories without blanks, semicolons and braces. False otherwise; a pool with debug on the directory of a pool without it runs jobs without debug; lines with shell variables in braces raise; parameters the documentation does not list are required. The shell is a split at blanks."},
{"property": "C102", "status": "partial", "theorems": ["MLMC.Work.C102_own_directory_partial", "MLMC.Work.C102_all_finish", "MLMC.Work.C102_threads_wrong_directory", "MLMC.Work.C102_threads_counterexample", "MLMC.Work.C102_relative_path_fails", "MLMC.Work.C102_no_current_directory", "MLMC.Work.C102_relative_debug_counterexample"], "note": "Proved for OneProcessPool and ProcessPool with absolute paths of common files, for every interleaving. False for ThreadPool (general negative theorem: any two samples have an order in which one runs in the directory of the other; witness with a wrong result) and for relative paths of common files (general negative theorem)."},
{"property": "C103", "status": "partial", "theorems": ["MLMC.Dens.C103_mass", "MLMC.Dens.C103_kept_combinations", "MLMC.Dens.C103_error_partial", "MLMC.Dens.C103_all_moments_partial", "MLMC.Dens.C103_counterexample_cut", "MLMC.Dens.C103_refuses"], "note": "From stored samples to the fit, over the reals, with eigh, rq, the optimizer and the quadrature as arguments. Mass one for every cut; all moments, an error bound, and that the fix of the normalization changes nothing, when no eigenvalue is cut off. False after a cut: with samples 2 and -2 and monomials 1, t, t^2 the fitted second moment is 3, the estimated one 4, and the normalization takes the logarithm of 0."},
{"property": "C104", "status": "partial", "theorems": ["MLMC.C104_restart_recovers_partial", "MLMC.C104_restart_completes_partial", "MLMC.C104_failed_sample_counterexample", "MLMC.C104_running_job_counterexample"], "note": "For every program, point of the kill (between calls, inside schedule_samples, inside the asking, between collecting and storing) and history of jobs, the first question for samples of a new program with debug=True stores exactly the recorded successes of unfinished samples. Assumed: every unfinished sample is in an accepted job (samples that were packed but not submitted raise or stay unfinished), different PBS identifiers, successes only for completion. False for failed samples (they stay unfinished and the successes of their job are stored twice) and for jobs still running at the first question (never collected). Second and later restarts: C137."},
{"property": "C105", "status": "partial", "theorems": ["MLMC.Fl.C105_accuracy", "MLMC.Fl.C105_factor", "MLMC.Fl.C105_exact", "MLMC.Fl.C105_mean_accuracy", "MLMC.Fl.C105_var_accuracy", "MLMC.Fl.C105_nonneg_partial", "MLMC.Fl.C105_negative_variance_counterexample", "MLMC.Fl.C105_cancellation_counterexample"], "note": "Error bounds in the standard model of rounding (no overflow or underflow, given values of the quantity), which is proved for np.float64. The sign of variances holds only above the error bound: three samples of the value 0.1 get a negative variance, and 2^27, 2^27+1, 2^27+2 the variance 0 instead of 1 (witnesses, in the arithmetic of np.float64)."},
{"property": "C106", "status": "partial", "theorems": ["MLMC.C106_values_right", "MLMC.C106_nothing_lost", "MLMC.C106_sample_twice_counterexample"], "note": "Values and prefixes for every history of programs, renew_failed_samples and kills in it included (only a call of it clears failures); of the jobs only the honesty of each record is assumed. False that each sample is stored once: a sample of a job that is half recorded when the next program first asks is stored twice (witness, in which qstat reports only jobs it was asked for). Kills during the writing of one file operation (also clear_failed) are in C20 and C21."},
{"property": "C107", "status": "partial", "theorems": ["MLMC.Read.C107_level_samples_partial", "MLMC.Read.C107_memory_level_samples", "MLMC.Read.C107_counterexample_more", "MLMC.Read.C107_memory_chunks"], "note": "Proved for the storage in memory, and for the HDF storage when no more samples are requested than are saved at that time; quantities stay alive (see C42 for reused identities). False for larger requests on the HDF storage: the same request repeated after more samples are saved returns the old ones (witness)."},
{"property": "C108", "status": "partial", "theorems": ["MLMC.Staged.C108_sizes", "MLMC.Staged.C108_sizes_few", "MLMC.Staged.C108_tolerances", "MLMC.Staged.C108_stages_partial", "MLMC.Staged.C108_counterexample_unit_domain", "MLMC.Staged.C108_counterexample_newton"], "note": "Sizes and tolerances for every n; stages for every minimization that keeps the number of multipliers. Partial: the first penalty is finite only if the domain has not the length one; estimate_density always raises."},
{"property": "C109", "status": "partial", "theorems": ["MLMC.Stat.C109_chi2_level", "MLMC.Stat.C109_chi2_normal", "MLMC.Stat.C109_anova_normal", "MLMC.Stat.C109_counterexample_t_normal", "MLMC.Stat.C109_anova_level", "MLMC.Stat.C109_anova_same_means", "MLMC.Stat.C109_counterexample_t_level", "MLMC.Stat.C109_counterexample_t_exact"], "note": "Proved for chi2_test and anova (whose statistic is computed from the groups), for any continuous distribution function that is the one of the statistic; in particular for independent normal samples with the χ² and Fisher distributions (Cochran's theorem is proved in Proofs/Cochran.lean). False for t_test: the comparison is the wrong way round (general: normal samples with the right mean fail with probability 1 - max_p_val; two more witnesses)."},
{"property": "C11", "status": "proved", "theorems": ["MLMC.C11_success_iff_well_formed", "MLMC.C11_declared_size", "MLMC.C11_list_counterexample"], "note": ""},
{"property": "C110", "status": "proved", "theorems": ["MLMC.C110_call_returns", "MLMC.C110_adaptive_ends", "MLMC.C110_no_more_than_needed", "MLMC.C110_estimates_bounded", "MLMC.C110_documented_loop_ends", "MLMC.C110_counterexample_growing_estimates", "MLMC.C110_counterexample_zero_timeout", "MLMC.C110_wrong_targets_raise"], "note": "Variances and times come from any function of the program; boundedness of the estimates (or variances) is a hypothesis, shown necessary by the first witness, and so is a positive timeout by the second."},
{"property": "C111", "status": "partial", "theorems": ["MLMC.C111_moments_bounded", "MLMC.C111_documented_program_ends_partial", "MLMC.C111_no_exception_partial", "MLMC.C111_counterexample_regression"], "note": "Proved for up to four levels with different positive steps (the loop may end with an exception of an estimate; excluded for one or two levels by the third theorem). For five levels the regression can turn variances of at most one into arbitrarily large ones (witness); whether the program then runs forever is not shown."},
{"property": "C112", "status": "proved", "theorems": ["MLMC.C112_directories", "MLMC.C112_failed_directories"], "note": "The pool is new, or its work directory is wiped (work_dir given, debug off); simulations are functions of configuration and seed (C09)."},
{"property": "C113", "status": "partial", "theorems": ["MLMC.C113_missing_files_raise", "MLMC.C113_files_there_partial", "MLMC.C113_counterexample_waiting_forever"], "note": "Exactly when schedule_samples raises for missing files, and that without missing files it schedules everything. False otherwise: the sample that raised is counted as running for ever, so every later waiting call without a timeout never returns, also after the files are restored."},
{"property": "C114", "status": "partial", "theorems": ["MLMC.Flow.C114_levels_share_runs_partial", "MLMC.Flow.C114_counterexample_default", "MLMC.Flow.C114_common_files"], "note": "Proved for objects that prepare the common files, non-zero steps with different texts, complete planar meshes with the same groups, and templates using the field (see C63 for what happens otherwise). With the default clean=None no level can be created in an empty work directory (witness)."},
{"property": "C115", "status": "partial", "theorems": ["MLMC.Shoot.C115_levels_share_shots_partial", "MLMC.Shoot.C115_counterexample_equal_elements", "MLMC.Shoot.C115_counterexample_2d", "MLMC.Shoot.C115_shot_converges"], "note": "Proved in one dimension for numbers of elements growing with the level, with error at most T²(B+TL)/n for forces bounded by B with Lipschitz constant L along the way. With equal numbers of elements all samples of the level raise. In two dimensions all levels share one configuration and the coarse run gets the fine values, so every level computes the finest shot and all differences are zero."},
{"property": "C116", "status": "partial", "theorems": ["MLMC.Mom.C116_value_by_value_partial", "MLMC.Mom.C116_number", "MLMC.Mom.C116_single_partial", "MLMC.Mom.C116_moments_operation_partial", "MLMC.Mom.C116_derivative_partial", "MLMC.Mom.C116_counterexample_fourier", "MLMC.Mom.C116_eval_vector", "MLMC.Mom.C116_eval_matrix", "MLMC.Mom.C116_counterexample_eval", "MLMC.Mom.C116_counterexample_derivative"], "note": "Holds for monomials, Legendre polynomials and their combinations on every shape, for Fourier functions on one-dimensional arrays only: the moments of a quantity always raise with Fourier functions. `eval` is right on arrays with one axis; on one with two axes its entry (k, s) is moment s of the last value of row k; and `eval_all_der` of one returns values of other functions at other numbers."},
{"property": "C117", "status": "partial", "theorems": ["MLMC.C117_tags", "MLMC.C117_scheduled", "MLMC.C117_ascii_partial", "MLMC.C117_recorded_partial", "MLMC.C117_counterexample_unicode", "MLMC.C117_counterexample_identifier"], "note": "Proved for ASCII messages (cut to 1000 characters). A message with any other character (a file name with accents) makes save_samples raise after the dataset was made longer: the level counts failed samples with empty identifiers, the samples themselves stay unfinished, and failed samples of later levels are lost."},
{"property": "C118", "status": "partial", "theorems": ["MLMC.Place.C118_absolute", "MLMC.Place.C118_relative_partial", "MLMC.Place.C118_counterexample_pbs", "MLMC.Place.C118_counterexample_workspace"], "note": "Proved for absolute paths (the documented use). With a relative path the first schedule_samples with a PBS pool, or with a simulation that needs a workspace, raises after the samples were handed out; nothing of them is recorded."},
{"property": "C119", "status": "partial", "theorems": ["MLMC.Race.C119_undisturbed_partial", "MLMC.Race.C119_separate_partial", "MLMC.Race.C119_process_pool_partial", "MLMC.Race.C119_process_pool_fraction", "MLMC.Race.C119_one_worker_partial", "MLMC.Race.C119_counterexample_threads", "MLMC.Race.C119_counterexample_fraction", "MLMC.Race.C119_counterexample_counts"], "note": "Proved for a ProcessPool (where every worker keeps its own counters, so that the failed fraction is bounded with one more sample for each worker), for a pool with one worker, and for every schedule that does not let a worker step between the seeding and the drawing of another one with the same memory. It fails for a ThreadPool: the distribution object, its generator and the counters are shared, so a sample can be made from the numbers of another seed, and the number of failing samples can exceed nan_fraction."},
{"property": "C12", "status": "proved", "theorems": ["MLMC.C12_result_function_of_id_and_level", "MLMC.C12_seed_bytes", "MLMC.C12_pbs_result_function_of_id_and_level"], "note": ""},
{"property": "C120", "status": "partial", "theorems": ["MLMC.Flow.C120_few_elements_partial", "MLMC.Flow.C120_exact_decomposition_partial", "MLMC.Flow.C120_counterexample_seed_unused", "MLMC.Flow.C120_counterexample_other_fields", "MLMC.Flow.C120_counterexample_svd"], "note": "Proved for the SVD field if the meshes have at most ten elements together, or if the decomposition does not depend on random numbers. It fails otherwise: the Fourier and GSTools fields never use the seed, and the SVD field is decomposed by randomized_svd before np.random.seed is called."},
{"property": "C121", "status": "partial", "theorems": ["MLMC.Fit.C121_renewed_iff", "MLMC.Fit.C121_quadrature_partial", "MLMC.Fit.C121_lower_bound_partial", "MLMC.Fit.C121_counterexample_far", "MLMC.Fit.C121_counterexample_history"], "note": "Proved: the quadrature is renewed exactly if the first order change of the integral reaches the tolerance (the first of the two tests of the code is redundant); the integral is at most the tolerance below the one at the multipliers the quadrature was made for. It fails in general: at the uniform start the gradient of the integral vanishes in all components but the first, so the quadrature of the uniform density is kept for multipliers arbitrarily far away, and values depend on earlier evaluations."},
{"property": "C122", "status": "partial", "theorems": ["MLMC.RF.C122_exponential", "MLMC.RF.C122_lognormal", "MLMC.RF.C122_mean_bounds_partial", "MLMC.RF.C122_counterexample_mu"], "note": "Proved except for the last sentence, which is false for every field: mu is the mean of the logarithm, the mean of the value is larger than mu by at least one. Exact singular value decomposition; exponents in (0,2]. The Fourier field is not covered (its values are not normal)."},
{"property": "C123", "status": "partial", "theorems": ["MLMC.C123_memory_stores_all_results", "MLMC.C123_memory_estimate", "MLMC.C123_estimate_returns", "MLMC.C123_same_as_hdf", "MLMC.C123_no_results", "MLMC.C123_renew_raises", "MLMC.C123_counterexample_lost_level"], "note": "Proved for all programs without renew_failed_samples, which always raises AttributeError on this storage. The estimates cover the levels up to the last one with a result: if all samples of the finest levels failed, these levels are silently missing from the estimate, where the HDF storage raises (witness). Result vectors of one length; a OneProcessPool."},
{"property": "C124", "status": "proved", "theorems": ["MLMC.C124_consistent", "MLMC.C124_finest_level"], "note": "Exact arithmetic over the reals. Complements C87, where adaptively chosen numbers are shown to bias the mean."},
{"property": "C125", "status": "proved", "theorems": ["MLMC.C125_error_normal", "MLMC.C125_confidence_interval"], "note": "Exact arithmetic over the reals; numbers of samples fixed in advance."},
{"property": "C126", "status": "partial", "theorems": ["MLMC.Alloc.C126_one_moment_partial", "MLMC.Alloc.C126_several_moments_partial", "MLMC.Alloc.C126_counterexample_several_moments"], "note": "True for one moment, up to two samples per level. For several moments the cost is within the factor given by the number of moments with nonzero variance; the exact claim fails (witness: 1200 samples allocated where 1000 suffice), because the maximum over the moments is taken level by level."},
{"property": "C127", "status": "partial", "theorems": ["MLMC.Syn.C127_fraction_of_jobs_partial", "MLMC.Syn.C127_counterexample_small_jobs", "MLMC.Syn.C127_first_of_job_fails", "MLMC.Syn.C127_no_failures", "MLMC.Syn.C127_other_distributions_fail"], "note": "The counters of the class start at zero in every process, so rounding up happens in every job: at least the fraction fails, and at most one sample per job more. In jobs of one sample all samples fail, however small the fraction (counterexample). Only the distribution 'norm' works; with any other, or without configuration file, every sample fails. Random values are an argument of the model."},
{"property": "C128", "status": "proved", "theorems": ["MLMC.Alloc.C128_decreasing", "MLMC.Alloc.C128_balanced", "MLMC.Alloc.C128_growing", "MLMC.Alloc.C128_single_level"], "note": "The cost theorem of the multilevel method for the numbers the code allocates, over the reals; rounding, the limit V L / target and the least number of two are those of the code. That the samples reach the target up to a factor of two is C52."},
{"property": "C129", "status": "partial", "theorems": ["MLMC.VarVar.C129_moments", "MLMC.VarVar.C129_variance", "MLMC.VarVar.C129_nonneg", "MLMC.VarVar.C129_one_sample", "MLMC.VarVar.C129_saved_partial", "MLMC.VarVar.C129_counterexample_stale", "MLMC.VarVar.C129_counterexample_broadcast", "MLMC.VarVar.C129_counterexample_broadcast_back"], "note": "The last sentence is false: the numbers are kept as a reference to the list of the caller, so a list that is changed in place gives the old values; a saved list of one level matches longer lists, and a longer saved list a list of one level (broadcasting). It holds for lists that are not changed and for which this does not happen. A level with one sample raises an exception. Quadrature is the integral."},
{"property": "C13", "status": "partial", "theorems": ["MLMC.C13_directories_by_last_digits", "MLMC.C13_directories_partial", "MLMC.C13_counterexample", "MLMC.C13_new_pool_wipes"], "note": "The rule looks at the last seven digits only: running numbers from ten million on are treated as small ones (witness)."},
{"property": "C130", "status": "partial", "theorems": ["MLMC.Frac.C130_regions", "MLMC.Frac.C130_geometry_partial", "MLMC.Frac.C130_counterexample_overlap", "MLMC.Frac.C130_counterexample_side"], "note": "The library geomop is not modelled: its decomposition is an argument (dictionaries with different keys, one map per fracture). True for segments of one fracture off the inflow and outflow sides. A segment shared by fractures is only in the region of the last one (a covered fracture has no segment), one on the inflow or outflow side only in the region of the side."},
{"property": "C131", "status": "partial", "theorems": ["MLMC.Gs.C131_sample_partial", "MLMC.Gs.C131_counterexample_repeated", "MLMC.Gs.C131_counterexample_dimension"], "note": "The first part is false for every field: the object evaluates one SRF whose seed does not change, so all samples between calls of change_srf are equal (FlowSim makes a new object for each sample, C120). Fields of four or more dimensions accept points and raise at each sample. The library is an argument: the values of an SRF are a function of model, number of modes, seed and points."},
{"property": "C132", "status": "partial", "theorems": ["MLMC.C132_program_unbiased", "MLMC.C132_seeds_unbiased", "MLMC.C132_seeds_converge", "MLMC.C132_seeds_interval", "MLMC.C132_counterexample_many_samples"], "note": "MD5 is idealized as a random function with values uniform on the 2^32 seeds. With the actual fixed function and random simulations the finite-sample statement holds as long as the results are uncorrelated; beyond 2^32 samples of a level this is impossible unless their variance is zero (counterexample). Simulations that fail are excluded (their results are left out, which changes the mean that is estimated)."},
{"property": "C133", "status": "partial", "theorems": ["MLMC.C133_failing_converge", "MLMC.C133_counterexample_bias"], "note": "Proved: the reported mean converges with probability one to the sum over the levels of the means over the seeds that succeed on that level. This is not the mean of the finest level if failures depend on the seed: an example whose levels telescope for every seed reports 1/2, while the finest level has the mean 1 over all seeds and 0 over the successful ones. MD5 idealized as in C132."},
{"property": "C134", "status": "partial", "theorems": ["MLMC.C134_any_pool_unbiased", "MLMC.C134_any_pool_converge", "MLMC.C134_any_pool_interval", "MLMC.C134_any_pool_failing", "MLMC.C134_counterexample_timeout"], "note": "Proved for programs that wait for all their samples (PBS: jobs that do not die, or whose samples are renewed, and nothing waiting at the end, as in C91 and C135, or programs killed and restarted as in C139; several programs on one file as in C93; the storage in memory as in C123). Not true with a timeout: samples that need longer are missing and the estimate is biased (witness: mean 1/2, the program always reports 0). MD5 idealized as in C132."},
{"property": "C135", "status": "partial", "theorems": ["MLMC.C135_pbs_program_partial", "MLMC.C135_renewal_recovers_partial", "MLMC.C135_pbs_program_complete_partial", "MLMC.C135_same_estimates_partial", "MLMC.C31_collected_again_partial", "MLMC.C31_conservation_again_partial", "MLMC.C106_sample_twice_counterexample", "MLMC.C26_marker_file_counterexample"], "note": "Proved for programs without restarts and plain answers of qsub. Otherwise a sample can be stored twice (C106_sample_twice_counterexample) or be in two accepted jobs (C26_marker_file_counterexample). The recovery needs that nothing is waiting at the end (asking without a timeout can return earlier, C91)."},
{"property": "C136", "status": "partial", "theorems": ["MLMC.C136_no_damage", "MLMC.C136_undamaged_poll_partial", "MLMC.C136_damaged_poll_raises", "MLMC.C136_results_lost", "MLMC.C136_recovery_blocked"], "note": "True only for polls that do not come to the damaged file. False otherwise (general negative theorems): the poll that reports the damaged job raises, results of complete jobs read before it in the same poll are never returned by a later poll, and after a restart every poll raises while a sample of the damaged job is unfinished, so no result of any job is recovered. A truncated file that still parses is read as a file whose last record has another result (None, or a part of it): these are histories in which a job records an arbitrary result, covered by C26 to C33, and C141 says what storing such a result does."},
{"property": "C137", "status": "partial", "theorems": ["MLMC.C137_first_question_recovers_partial", "MLMC.C137_all_recovered", "MLMC.C137_unpacked_raises", "MLMC.C137_new_directory_raises"], "note": "Proved for all sequences of sessions if every unfinished sample was written into a job since the directory was last emptied and jobs record only what simulations compute. False otherwise: one unfinished sample in no job makes the first question raise (so does every start without debug on a file with unfinished samples, the default). That each recovered sample is stored once is false: C106_sample_twice_counterexample. Failures recorded by old jobs are not recovered (C33, C104)."},
{"property": "C138", "status": "partial", "theorems": ["MLMC.C138_stored_once_partial", "MLMC.C138_failed_neighbour_counterexample", "MLMC.C138_copies"], "note": "Proved for all sequences of sessions, with renewing, for results and failures together, if PBS gives no identifier twice, job numbers are not used again (C29), no job records a sample twice, and whenever a pool looks for samples of earlier programs, the jobs it reads have recorded successes of all of them or of none. False without the last condition, even for jobs that have ended: a failed sample in a job makes the next program store the job's successes again (witness), and in general a recorded success is stored at least once for each unrecorded or failed sample of its job."},
{"property": "C139", "status": "partial", "theorems": ["MLMC.C139_file_partial", "MLMC.C139_same_estimates_partial", "MLMC.C139_half_recorded_counterexample"], "note": "Proved under the conditions of C138. False without the condition that no job is half recorded or has failures when a new program looks for its samples: then a sample is counted twice, and with all samples computed, right and finished, the reported mean of the values 96 and 98 is 290/3 (witness)."},
{"property": "C14", "status": "partial", "theorems": ["MLMC.C14_times_of_returned", "MLMC.C14_times_partial", "MLMC.C14_counterexample"], "note": "Totals are proved over all samples whose simulation returned; failed samples with a result of wrong size are counted too (witness)."},
{"property": "C140", "status": "partial", "theorems": ["MLMC.C140_own_numbers_partial", "MLMC.C140_array_kept_partial", "MLMC.C140_shared_counterexample", "MLMC.ExTargetArrays.C140_counterexample", "MLMC.C140_initial_numbers"], "note": "False: np.atleast_1d does not copy an array, so an array with three or more entries becomes the target of the sampler itself, and set_level_target_n_samples changes it in place; with two samplers the second schedules what the first was told to reach (general theorem and witness). Proved when arrays of three or more entries are not shared between samplers and not assigned to while in use; arrays with one or two entries and lists are always safe. The proof also shows that the exact rational targets of the other models schedule the same samples as arrays of integers."},
{"property": "C141", "status": "partial", "theorems": ["MLMC.C141_one_shape_partial", "MLMC.C141_zeros_counterexample", "MLMC.C141_save_zeros_counterexample", "MLMC.C141_not_unfinished", "MLMC.C141_failed_lost_counterexample", "MLMC.C141_memory_counterexample", "MLMC.C141_memory_partial"], "note": "False: _append_dataset enlarges the dataset before it writes, and the identifiers are written before the results, so a result of another shape (a list of another length, which calculate_sample does not check, or an array with other axes) raises and leaves the whole batch recorded as collected with zeros as results; these samples are never computed again, and the failed samples of the same poll are lost. A Memory storage counts the samples as finished without results. Proved: with one shape per level nothing raises and the file is the one of the other storage models."},
{"property": "C142", "status": "partial", "theorems": ["MLMC.C142_history", "MLMC.C142_independent_partial", "MLMC.C142_regression_functions", "MLMC.C142_bootstrap_replaces", "MLMC.C142_lengths_counterexample", "MLMC.C142_counterexample", "MLMC.C142_surface_moments"], "note": "False: est_bootstrap(moments_fn=g) makes g the moment functions of the object for good, although the call itself always raises (C79); and a regression raises ValueError if the object was asked for one with another number of levels before. Proved: in every history in which the lists of numbers of samples have one length, a call is answered as by a new object with the quantity assigned last and the functions given last, in the constructor or to est_bootstrap. Lists changed in place between the calls are in C129, get_level_samples in C107; the attributes est_bootstrap sets when it succeeds (it never does) are left out."},
{"property": "C143", "status": "proved", "theorems": ["MLMC.C143_all", "MLMC.C143_subset", "MLMC.C143_too_many"], "note": "Proved for 1 ≤ k < n; for k ≥ n it is proved that a moment that does not exist is named (ValueError for one moment)."},
{"property": "C144", "status": "proved", "theorems": ["MLMC.C144_breakdown", "MLMC.C144_total", "MLMC.C144_places", "MLMC.C144_too_many"], "note": "For tables with the same number of moments; a subset with as many moments as there are or more raises IndexError (C144_too_many)."},
{"property": "C145", "status": "partial", "theorems": ["MLMC.C145_decreasing_partial", "MLMC.C145_increasing_partial", "MLMC.C145_increasing_counterexample", "MLMC.C145_threshold_counterexample", "MLMC.C145_positive_counterexample", "MLMC.C145_errors_counterexample"], "note": "False for increasing values: without a threshold they raise TypeError, with one the line is drawn at len - 1 - threshold of the values turned round although the threshold is not turned unless it is half. On a logarithmic axis one value that is not positive is drawn too; numpy errors of two or more entries raise ValueError."},
{"property": "C146", "status": "partial", "theorems": ["MLMC.C146_exact", "MLMC.C146_curves", "MLMC.C146_errors", "MLMC.C146_kl", "MLMC.C146_histogram", "MLMC.C146_few_counterexample"], "note": "The histogram is false for few samples: 4 to 15 samples give no bars and fewer raise. Proved for 16 or more, on linear and (for positive samples and domains) logarithmic axes; np.histogram is modelled exactly, geomspace is an argument."},
{"property": "C147", "status": "partial", "theorems": ["MLMC.C147_variances_partial", "MLMC.C147_range", "MLMC.C147_few_counterexample", "MLMC.C147_later_counterexample"], "note": "False: with fewer than five different steps show raises, and of several variances with one step only the first is used for the curve, and the smallest step is left out. The least squares fit itself is an argument."},
{"property": "C148", "status": "partial", "theorems": ["MLMC.C148_bs_variances", "MLMC.C148_caller_counterexample", "MLMC.C148_regression_places", "MLMC.C148_regression_counterexample", "MLMC.C148_means_partial", "MLMC.C148_means_counterexample"], "note": "The method is right for a table with a row of totals; its only caller passes the table of the levels alone, so every level is drawn at the tick of the level before and the first at the total. Curves are at other places than their points for a part of the moments. With exact moments the mean in the middle is missing."},
{"property": "C149", "status": "partial", "theorems": ["MLMC.C149_file_partial", "MLMC.C149_counterexample"], "note": "False for names that end with pdf but not with .pdf: they get no extension; and figures without a title and name all go to the file `.pdf`. Proved: which file is written for every name and title."},
{"property": "C15", "status": "proved", "theorems": ["MLMC.C15_hdf_pairs_read_back", "MLMC.C15_memory_pairs_read_back", "MLMC.C15_hdf_sample_pairs", "MLMC.C15_memory_sample_pairs"], "note": ""},
{"property": "C150", "status": "partial", "theorems": ["MLMC.C150_index_partial", "MLMC.C150_ellipsis_counterexample", "MLMC.C150_ellipsis_mean_counterexample"], "note": "Proved without an ellipsis and with an ellipsis at the end (the documented length_result[:2, ...]). False for an ellipsis followed by items: the chunk has two more axes than the declared shape, so q[..., i] takes part i (fine or coarse) and passes array entries as samples and samples as parts; the estimated mean is then that of other numbers, or evaluation raises IndexError (proved for every shape and i)."},
{"property": "C151", "status": "partial", "theorems": ["MLMC.C151_centred", "MLMC.C151_second_moment", "MLMC.C151_central_moments", "MLMC.C151_domain_counterexample", "MLMC.C151_recipe_counterexample"], "note": "Proved for arithmetic on quantities when every level has a used sample, and for moments of any order with functions that are powers on all numbers (binomial formula; the monomials without safe_eval whose reference domain is the domain). False for the documented recipe: it uses the moment functions of the domain of the original samples, so whenever the mean is not 0 the centred value of a sample at one bound of the domain is outside of it and the sample is dropped (proved for every domain, family, moment and mean); with samples 1, 2, 6 the first central moment is 3 instead of 0."},
{"property": "C152", "status": "partial", "theorems": ["MLMC.C152_arithmetic", "MLMC.C152_function", "MLMC.C152_function_of_two", "MLMC.C152_reduction", "MLMC.C152_reduction_axis", "MLMC.C152_no_axis_counterexample", "MLMC.C152_keepdims_counterexample", "MLMC.C152_samples_axis_counterexample"], "note": "Proved for arithmetic and NumPy functions and for reductions along axis 0 (or -3) with keepdims=True. False for other reductions: np.max(q) without axis raises always; without keepdims the quantity can be made for a given axis but no estimate of it can; along axis 1 with keepdims the samples of each chunk are reduced to one, so the mean of the samples 1, 2, 3, 4 reduced with maximum is 4 in one chunk and 3 in two."},
{"property": "C153", "status": "partial", "theorems": ["MLMC.C153_part_of_moments", "MLMC.C153_part_of_covariance", "MLMC.C153_selected_covariance", "MLMC.C153_selected_part", "MLMC.C153_single_moment", "MLMC.C153_nan_counterexample", "MLMC.C153_tuple_counterexample"], "note": "Proved for sequences of keys and single indices or slices if no sample is dropped from one of the two estimates only. False otherwise: with a NaN in another component the sample is missing in the estimate of the whole, and a tuple of indices selects the moments of all entries (witnesses)."},
{"property": "C154", "status": "partial", "theorems": ["MLMC.Process.C154_commands", "MLMC.Process.C154_renew_counterexample", "MLMC.Process.C154_all_collected", "MLMC.Process.C154_returns", "MLMC.Process.C154_environment_partial", "MLMC.Process.C154_relative", "MLMC.Process.C154_paths", "MLMC.Process.C154_root_counterexample", "MLMC.Process.C154_two_slashes_counterexample"], "note": "Waiting is proved for every number of samplers. Commands: with the default of ProcessBase.run every command renews (witness); a run with the default False does not. Machine: proved for all paths but two kinds: for the root directory UnboundLocalError is raised, and for a path with exactly two slashes at the beginning the search for the first directory never ends (both for every such path)."},
{"property": "C155", "status": "partial", "theorems": ["MLMC.C155_interpolated_mean_partial", "MLMC.C155_at_times_partial", "MLMC.ExTime.C155_nan_counterexample"], "note": "Proved if the same samples are dropped because of NaN. Otherwise false: interp1d computes the value at a stored time from it and the time before, so a NaN at the time before drops samples that q[t] uses (witness)."},
{"property": "C156", "status": "partial", "theorems": ["MLMC.C156_affine_estimate", "MLMC.C156_moments", "MLMC.C156_covariances", "MLMC.C156_allocation", "MLMC.C156_domain", "MLMC.C156_moment_functions_partial", "MLMC.C156_log_moment_functions", "MLMC.C156_narrow_counterexample"], "note": "Moment functions: the width of the domain has to be at least 1e-15 in both units; below it the constructor replaces the width and the values change (witness). All other parts hold in general."},
{"property": "C157", "status": "partial", "theorems": ["MLMC.C157_change_of_basis_partial", "MLMC.C157_domain_counterexample"], "note": "With safe_eval both objects must have the same domain of width at least 1e-15; for different domains the claim is false (witness)."},
{"property": "C158", "status": "partial", "theorems": ["MLMC.Fl.C158_inside_partial", "MLMC.Fl.C158_error", "MLMC.Fl.C158_outside", "MLMC.Fl.C158_interior", "MLMC.Fl.C158_constants", "MLMC.Fl.C158_no_sample_dropped_partial", "MLMC.Fl.C158_fourier_counterexample"], "note": "Numbers with 53 binary digits and unlimited exponents (no overflow or underflow). True for reference domains with a power of two as width, in particular the defaults of Legendre and Monomial; false for Fourier (witness)."},
{"property": "C159", "status": "partial", "theorems": ["MLMC.C159_whole_range", "MLMC.C159_default_counterexample", "MLMC.C159_dropped_samples", "MLMC.C159_library", "MLMC.C159_counterexample"], "note": "True for the quantile 0; false without a quantile (general negative theorem and witness with samples 1, 2, 3, of which one is used). The bound on the number of dropped samples holds for every quantile. Exact arithmetic."},
{"property": "C16", "status": "partial", "theorems": ["MLMC.C16_hdf_finished_counts", "MLMC.C16_memory_finished_counts_partial", "MLMC.C16_memory_counterexample"], "note": "HDF storage in full; the memory storage drops a first batch that is all failures (witness)."},
{"property": "C160", "status": "proved", "theorems": ["MLMC.C160_error_unlikely", "MLMC.C160_enough_samples", "MLMC.C160_moments", "MLMC.C160_any_pool", "MLMC.C160_adaptive"], "note": "Non-asymptotic, in contrast to C125, and exponential, in contrast to C87. Exact arithmetic; at least two samples on each level, no dropped samples. C160_any_pool is about whole programs with any pool, C160_adaptive about programs that choose the numbers of samples from the results, within fixed limits (MD5 idealized as in C132). That the moment functions of the library are bounded by 1 is C111_moments_bounded."},
{"property": "C161", "status": "proved", "theorems": ["MLMC.Alloc.C161_near_limited_optimum", "MLMC.Alloc.C161_within_factor_two", "MLMC.Alloc.C161_negative_moment", "MLMC.Alloc.C161_negative_variance", "MLMC.Alloc.C161_nan_variance", "MLMC.Alloc.C161_counterexample_monotone"], "note": "Overflow and underflow of floats are not modelled. What NaN and too large numbers become as 64-bit integers is that of x86-64. The exact counterparts are C51 and C52."},
{"property": "C162", "status": "proved", "theorems": ["MLMC.C162_adding_one_call", "MLMC.C162_adding_terminates", "MLMC.C162_changing_estimates", "MLMC.C162_counterexample_small_coefficient"], "note": "Doubles have unlimited exponents in the model. The exact counterpart is C05."},
{"property": "C163", "status": "proved", "theorems": ["MLMC.Alloc.C163_numbers", "MLMC.Alloc.C163_order", "MLMC.Alloc.C163_doubles", "MLMC.Alloc.C163_other"], "note": "The exact counterparts are C08 and C73. That NumPy's log2 and exp2 are accurate to 2^-50 is an assumption (a hypothesis of the theorems)."},
{"property": "C164", "status": "proved", "theorems": ["MLMC.Alloc.C164_refused_one_level", "MLMC.Alloc.C164_steps", "MLMC.Alloc.C164_decreasing", "MLMC.Alloc.C164_doubles"], "note": "The exact counterpart is C53. The accuracy of the power and its exactness for the exponents 0 and 1 are assumptions (hypotheses of the theorems)."},
{"property": "C165", "status": "proved", "theorems": ["MLMC.Fl.C165_legendre", "MLMC.Fl.C165_monomial", "MLMC.Fl.C165_outside"], "note": "Positions are between the logarithms the machine gives, if a logarithm is used. The bound for Legendre polynomials uses only the triangle inequality along the recurrence and is pessimistic for large degrees. Fourier functions need the accuracy of the library's sin and cos and are not treated. Overflow and underflow are not modelled."},
{"property": "C166", "status": "proved", "theorems": ["MLMC.Fl.C166_legendre", "MLMC.Fl.C166_monomial", "MLMC.Fl.C166_legendre_mean", "MLMC.Fl.C166_monomial_mean", "MLMC.Fl.C166_legendre_var", "MLMC.Fl.C166_monomial_var", "MLMC.Fl.C166_dropped"], "note": "The bound for variances is absolute: a variance far below 2^-53 is not resolved (C105 has witnesses). Fourier functions are not treated. Overflow and underflow are not modelled."},
{"property": "C17", "status": "proved", "theorems": ["MLMC.C17_chunks_cover", "MLMC.C17_memory_chunks", "MLMC.C17_chunk_positions"], "note": ""},
{"property": "C18", "status": "proved", "theorems": ["MLMC.C18_unfinished_ids"], "note": ""},
{"property": "C19", "status": "partial", "theorems": ["MLMC.C19_reopen_partial", "MLMC.C19_counterexample"], "note": "For formats the file can represent; otherwise the reopened storage refuses its own format (witness)."},
{"property": "C20", "status": "partial", "theorems": ["MLMC.C20_ids_and_values_aligned_partial", "MLMC.C20_crash_keeps_values_partial", "MLMC.C20_counterexample"], "note": "A crash between the writes of one batch shifts identifiers against values (witness)."},
{"property": "C21", "status": "partial", "theorems": ["MLMC.C21_renew_failed", "MLMC.C21_crash_duplicates_counterexample", "MLMC.C21_crash_breaks_storage_counterexample", "MLMC.C21_missing_dataset_stays", "MLMC.crashInRenew_full"], "note": "Proved for uninterrupted calls; two crash witnesses; a dataset lost in a crash is never repaired, by any later history of calls."},
{"property": "C22", "status": "partial", "theorems": ["MLMC.C22_storage_cost_ratio", "MLMC.C22_cost_between_partial", "MLMC.C22_constant_cost_partial", "MLMC.C22_memory_cost_partial", "MLMC.C22_memory_single_report_partial", "MLMC.C22_counterexample", "MLMC.C22_memory_counterexample"], "note": "The storage adds up all reports although a pool reports totals since its start: the stored cost lies between the smallest and the largest running time of the level and is exact for constant times, but it is not the average (witness). The memory storage adds averages (witness)."},
{"property": "C23", "status": "partial", "theorems": ["MLMC.C23_format_guard_partial", "MLMC.C23_counterexample", "MLMC.C23_points_counterexample"], "note": "Reordered locations and point locations pass the guard (witnesses); a different number of locations of the first quantity is refused by the type of the dataset."},
{"property": "C24", "status": "partial", "theorems": ["MLMC.C24_level_ids_partial", "MLMC.C24_counterexample"], "note": "Fails when a file is reopened with another number of levels (witness)."},
{"property": "C25", "status": "partial", "theorems": ["MLMC.C25_storages_agree_partial", "MLMC.C25_counterexample"], "note": "Stored pairs and collected numbers agree; finished counts and unfinished ids do not (witness)."},
{"property": "C26", "status": "partial", "theorems": ["MLMC.C26_nothing_lost", "MLMC.C26_in_exactly_one_job", "MLMC.C26_marker_file_counterexample"], "note": "Proved for histories in which qsub either fails or succeeds entirely; if the marker file cannot be written after qsub accepted the job the package is submitted twice (witness)."},
{"property": "C27", "status": "proved", "theorems": ["MLMC.C27_package_limits"], "note": ""},
{"property": "C28", "status": "proved", "theorems": ["MLMC.C28_eleventh_failure_raises", "MLMC.C28_retry_same_number"], "note": ""},
{"property": "C29", "status": "partial", "theorems": ["MLMC.C29_job_numbers_not_reused_partial", "MLMC.C29_listing_order_counterexample", "MLMC.C29_sorted_names_counterexample"], "note": "Holds if the directory listing read at a restart ends with the largest number; glob promises no order, and then numbers are reused (witness)."},
{"property": "C30", "status": "proved", "theorems": ["MLMC.C30_read_results_exact"], "note": ""},
{"property": "C31", "status": "partial", "theorems": ["MLMC.C31_collected_when_first_reported_partial", "MLMC.C31_conservation_partial", "MLMC.C31_collected_again_partial", "MLMC.C31_conservation_again_partial", "MLMC.C31_marker_file_counterexample", "MLMC.C31_restart_counterexample"], "note": "Proved for histories of one pool object without restart, qsub answers that are a failure or a full success and distinct PBS identifiers (a rule of PBS). False across restarts (witness; recovery: C33) and if the marker file of an accepted job cannot be written (witness); samples may be handed over again (renewal) as long as no job contains a sample twice."},
{"property": "C32", "status": "partial", "theorems": ["MLMC.C32_running_count_partial", "MLMC.C32_counterexample", "MLMC.C32_pending_counterexample"], "note": "Exact only while no collected job is followed by another one in the list of jobs (the list is changed while iterated); samples waiting in the package are not counted (witnesses)."},
{"property": "C33", "status": "partial", "theorems": ["MLMC.C33_successes_recovered_partial", "MLMC.C33_failed_and_duplicate_counterexample", "MLMC.C33_running_lost_counterexample", "MLMC.C33_pending_counterexample", "MLMC.C33_not_debug_counterexample", "MLMC.C33_new_job_counterexample", "MLMC.C33_hang_counterexample"], "note": "Written successful results are recovered; failed samples are reported wrongly, running and pending ones lost (witnesses)."},
{"property": "C34", "status": "proved", "theorems": ["MLMC.C34_map_points_to_last_job", "MLMC.C34_after_emptying"], "note": "A restart with debug=False empties the directory and the map with it; C34_after_emptying counts the packages written since."},
{"property": "C35", "status": "proved", "theorems": ["MLMC.C35_job_computes_each_sample", "MLMC.C35_level_simulation_is_first", "MLMC.C35_stale_simulation_counterexample"], "note": "The level simulation read by jobs is the first one handed over (a restart with another configuration keeps using the old one, witness)."},
{"property": "C36", "status": "proved", "theorems": ["MLMC.C36_named_access", "MLMC.C36_addresses_distinct", "MLMC.C36_nothing_else", "MLMC.C36_location_before_time"], "note": "Formats with distinct names, times and locations (FormatOK); the addresses are distinct, as many as the root quantity has components, and each is the entry at its position in the documented order."},
{"property": "C37", "status": "partial", "theorems": ["MLMC.C37_size_partial", "MLMC.C37_broadcast_counterexample", "MLMC.C37_repeated_key_counterexample", "MLMC.C37_field_entries"], "note": "All expressions without broadcasting between components and with distinct keys (predicate Plain); otherwise the size is wrong (witnesses)."},
{"property": "C38", "status": "proved", "theorems": ["MLMC.C38_samplewise", "MLMC.C38_chunked_evaluation", "MLMC.C38_hdf_chunks"], "note": "All quantities built with the API (inductive predicate Built), any partition; ids of live selection objects are assumed unique (IdsIdentify). C38_hdf_chunks uses the chunks the HDF storage really makes."},
{"property": "C39", "status": "proved", "theorems": ["MLMC.C39_select_keeps_exactly", "MLMC.C39_comparison", "MLMC.C39_comparison_with_number"], "note": "Any number of conditions, logical combinations included; comparisons of quantities of equal size and with numbers."},
{"property": "C40", "status": "proved", "theorems": ["MLMC.C40_mixing_raises", "MLMC.C40_single_source", "MLMC.C40_same_source_and_constants_combine", "MLMC.C40_function_of_constant_refused"], "note": "Every combining operation of the API. Additionally: a NumPy function of a constant is not treated as a constant and cannot be combined."},
{"property": "C41", "status": "partial", "theorems": ["MLMC.C41_dict_part", "MLMC.C41_time_part", "MLMC.C41_field_part", "MLMC.C41_array_part_partial", "MLMC.C41_array_index", "MLMC.C41_array_counterexample", "MLMC.C41_dict_types", "MLMC.C41_dict_types_counterexample"], "note": "Dictionaries, time series and fields with distinct keys; arrays of parts of size one. Arrays of larger parts cannot be indexed at all (general negative theorem). A dictionary of conditions and numbers is refused only if a condition comes first."},
{"property": "C42", "status": "partial", "theorems": ["MLMC.C42_history_partial", "MLMC.C42_estimates", "MLMC.C42_hdf_chunks_distinct", "MLMC.C42_counterexample_identity", "MLMC.C42_counterexample_growth"], "note": "Histories without reuse of object identities and with unchanged chunk contents between clearings; estimate_mean always (it clears first). Otherwise stale values (witnesses)."},
{"property": "C43", "status": "partial", "theorems": ["MLMC.C43_refused", "MLMC.C43_stored_samples", "MLMC.C43_number_partial", "MLMC.C43_chunk_numbers_partial", "MLMC.C43_counterexample_number", "MLMC.C43_counterexample_repeated"], "note": "Exact number for levels stored in one chunk; with several chunks the number is wrong and samples may repeat (witnesses)."},
{"property": "C44", "status": "proved", "theorems": ["MLMC.C44_exact_at_times", "MLMC.C44_linear_between", "MLMC.C44_outside_raises"], "note": ""},
{"property": "C45", "status": "proved", "theorems": ["MLMC.C45_chunking_and_order"], "note": ""},
{"property": "C46", "status": "proved", "theorems": ["MLMC.C46_textbook_estimators", "MLMC.C46_totals", "MLMC.C46_variance_nonneg"], "note": ""},
{"property": "C47", "status": "proved", "theorems": ["MLMC.C47_counts", "MLMC.C47_all_evaluated", "MLMC.C47_nan_samples_do_not_matter", "MLMC.C47_all_dropped_raises"], "note": ""},
{"property": "C48", "status": "partial", "theorems": ["MLMC.C48_linear", "MLMC.C48_linear_nan_partial", "MLMC.ExCombine.C48_linear_nan_counterexample", "MLMC.C48_indexing_partial", "MLMC.C48_indexing_nan_partial", "MLMC.C48_nan_counterexample", "MLMC.C48_tuple_counterexample"], "note": "Linearity for data without NaN, or with NaN in the same samples of both quantities (otherwise false, witness); indexing with keys and single indices for data without NaN, or with NaN that drop the same samples from both. With NaN in another component, or with a tuple of indices, indexing does not commute (witnesses)."},
{"property": "C49", "status": "proved", "theorems": ["MLMC.C49_telescoping", "MLMC.C49_identical_levels"], "note": ""},
{"property": "C50", "status": "proved", "theorems": ["MLMC.C50_moment_layout", "MLMC.C50_moments_bottom_layout", "MLMC.C50_moments_surface_layout", "MLMC.C50_covariance_bottom_layout", "MLMC.C50_covariance_surface_layout", "MLMC.C50_covariance_estimate", "MLMC.C50_nested_index_counterexample"], "note": "Layout for all shapes and the consequences for estimates (both layouts). Additionally: moments of a nested array type cannot be indexed per scalar."},
{"property": "C51", "status": "proved", "theorems": ["MLMC.Alloc.C51_formula", "MLMC.Alloc.C51_at_least_two", "MLMC.Alloc.C51_near_limited_optimum", "MLMC.Alloc.C51_monotone", "MLMC.Alloc.npRound_rounded"], "note": ""},
{"property": "C52", "status": "partial", "theorems": ["MLMC.Alloc.C52_within_factor_two_partial", "MLMC.Alloc.C52_balanced_partial", "MLMC.Alloc.C52_counterexample"], "note": "The limit V_l*L/target cuts levels with a small share of the work, so the target is missed by 40 percent in the witness; it is never exceeded by more than a factor of two (up to rounding) and met when all levels share the work equally."},
{"property": "C53", "status": "proved", "theorems": ["MLMC.Alloc.C53_refused", "MLMC.Alloc.C53_geometric", "MLMC.Alloc.C53_one_level", "MLMC.Alloc.C53_level_parameters"], "note": ""},
{"property": "C54", "status": "partial", "theorems": ["MLMC.C54_level_zero_partial", "MLMC.C54_counterexample"], "note": "Level 0 is covered for any number of levels; other levels are never read (witness with all fine samples of level 1 outside)."},
{"property": "C55", "status": "partial", "theorems": ["MLMC.Mom.C55_bounds", "MLMC.Mom.C55_strictly_increasing", "MLMC.Mom.C55_inverse", "MLMC.Mom.C55_safe_eval", "MLMC.Mom.C55_unsafe_eval", "MLMC.Mom.C55_onto", "MLMC.Mom.C55_tiny_domain_counterexample"], "note": "Linear and logarithmic domains of (logarithmic) width at least 1e-15; below that width the bounds are not mapped to each other (witness)."},
{"property": "C56", "status": "partial", "theorems": ["MLMC.Mom.C56_nested", "MLMC.Mom.C56_zeroth_is_one", "MLMC.Mom.C56_single_is_column", "MLMC.Mom.C56_eval_is_column_partial", "MLMC.Mom.C56_columns", "MLMC.Mom.C56_fourier_counterexample", "MLMC.Mom.C56_fourier_eval_shifted"], "note": "All but eval of the Fourier functions, which returns other functions than the columns of eval_all (witness; in general it returns the column before)."},
{"property": "C57", "status": "proved", "theorems": ["MLMC.Mom.C57_any_degree", "MLMC.Mom.C57_degree_one_two", "MLMC.Mom.C57_derivatives", "MLMC.Mom.C57_other_size", "MLMC.Mom.C57_original_variable"], "note": ""},
{"property": "C58", "status": "proved", "theorems": ["MLMC.Mom.C58_any_degree", "MLMC.Mom.C58_values", "MLMC.Mom.C58_derivatives", "MLMC.Mom.C58_nan", "MLMC.Mom.C58_shape", "MLMC.Mom.C58_composition", "MLMC.Mom.C58_zeroth"], "note": "Where a base moment is NaN all transformed ones are NaN (C58_nan)."},
{"property": "C59", "status": "partial", "theorems": ["MLMC.Mom.C59_equal_objects_partial", "MLMC.Mom.C59_ref_domain_counterexample", "MLMC.Mom.C59_change_size_counterexample"], "note": "Holds for objects with the same reference domain; the comparison ignores it (witness). change_size always raises (general negative theorem)."},
{"property": "C60", "status": "partial", "theorems": ["MLMC.RF.C60_positive_to_range_partial", "MLMC.RF.C60_counterexample", "MLMC.RF.C60_kozeny_carman_bound", "MLMC.RF.C60_kozeny_carman_monotone"], "note": "positive_to_range for a positive upper bound; for every other upper bound it leaves the range (general negative theorem)."},
{"property": "C61", "status": "partial", "theorems": ["MLMC.Fld.C61_values_at_own_points_partial", "MLMC.Fld.C61_sampling_succeeds", "MLMC.Fld.C61_counterexample_shared_random_field", "MLMC.Fld.C61_counterexample_other_region", "MLMC.Fld.C61_counterexample_constant_names"], "note": "Fields with distinct names and random field objects, parameters on the same regions; otherwise the placement is wrong (witnesses)."},
{"property": "C62", "status": "partial", "theorems": ["MLMC.RF.C62_samples_latest_points_partial", "MLMC.RF.C62_first_sample_partial", "MLMC.RF.C62_counterexample_stale_factor", "MLMC.RF.C62_counterexample_stale_matrix", "MLMC.RF.C62_counterexample_array_sigma", "MLMC.RF.C62_no_points", "MLMC.RF.C62_counterexample_no_points"], "note": "Holds when each set_points is followed by the decomposition (as Fields does) and for the first sample; setting points again after a sample keeps the old factor (witness); an empty set of points raises, and a caught exception leaves the old factor (witness)."},
{"property": "C63", "status": "partial", "theorems": ["MLMC.Flow.C63_same_realization_partial", "MLMC.Flow.C63_one_level_partial", "MLMC.Flow.C63_different_regions_raise", "MLMC.Flow.C63_counterexample_axes", "MLMC.Flow.C63_counterexample_unused"], "note": "Meshes with at least two bulk elements whose templates use the field; a one-element coarse mesh drops the wrong axis and a template not using the fields gets no coarse run (witnesses)."},
{"property": "C64", "status": "partial", "theorems": ["MLMC.Sub.C64_substitution_partial", "MLMC.Sub.C64_every_template_has_pieces", "MLMC.Sub.C64_text_without_placeholders", "MLMC.Sub.C64_reported_names_partial", "MLMC.Sub.C64_counterexample_value", "MLMC.Sub.C64_counterexample_nested"], "note": "Templates whose substituted values create no further placeholders; otherwise values are substituted again (witnesses)."},
{"property": "C65", "status": "partial", "theorems": ["MLMC.Gm.C65_fields_roundtrip_partial", "MLMC.Gm.C65_counterexample_five_components", "MLMC.Gm.C65_counterexample_repeated_element", "MLMC.Gm.C65_counterexample_carriage_return"], "note": "Fields with 1 to 4 components on distinct elements; with five or more components the file cannot be read (general negative theorem), repeated elements lose values (witness), names with a carriage return cannot be read (witness)."},
{"property": "C66", "status": "partial", "theorems": ["MLMC.Gm.C66_mesh_roundtrip_partial", "MLMC.Gm.C66_same_text", "MLMC.Gm.C66_listed_in_order", "MLMC.Gm.C66_line_ends", "MLMC.Gm.C66_counterexample_quotes", "MLMC.Gm.C66_counterexample_space", "MLMC.Gm.C66_counterexample_short_element"], "note": "Meshes with unquoted names without spaces and elements with tags; quoted names gain quotes, names with spaces and elements with few entries are not read back (witnesses)."},
{"property": "C67", "status": "proved", "theorems": ["MLMC.Flow.C67_initial_outflow"], "note": ""},
{"property": "C68", "status": "partial", "theorems": ["MLMC.Flow.C68_bulk_elements_partial", "MLMC.Flow.C68_unnamed_region", "MLMC.Flow.C68_counterexample"], "note": "Region ids distinct across dimensions; shared ids across dimensions misclassify elements (witness)."},
{"property": "C69", "status": "partial", "theorems": ["MLMC.Syn.C69_declared_length", "MLMC.Syn.C69_coarse_zero", "MLMC.Syn.C69_error_of_step", "MLMC.Syn.C69_telescoping_partial", "MLMC.Syn.C69_one_location_partial", "MLMC.Syn.C69_counterexample"], "note": "Levels above the first, or one location; the coarse result of level 1 differs from the fine result of level 0 at further locations (witness)."},
{"property": "C70", "status": "partial", "theorems": ["MLMC.Dist.C70_bounds", "MLMC.Dist.C70_sorted_partial", "MLMC.Dist.C70_monotone_partial", "MLMC.Dist.C70_interior_monotone_partial", "MLMC.Dist.C70_counterexample_order", "MLMC.Dist.C70_counterexample_normalization"], "note": "Arguments given in increasing order and a normalized density; the sorted arguments are discarded (witness)."},
{"property": "C71", "status": "partial", "theorems": ["MLMC.C71_second_sampler_wipes_counterexample", "MLMC.C71_second_sampler_keeps_partial"], "note": "Data are lost for objects made on a new file."},
{"property": "C72", "status": "partial", "theorems": ["MLMC.C72_plain_format_roundtrip", "MLMC.C72_times_counterexample", "MLMC.C72_three_letter_location_counterexample", "MLMC.C72_shape_counterexample", "MLMC.C72_points_counterexample", "MLMC.C72_failed_first_save", "MLMC.C72_unicode_counterexample", "MLMC.C72_failed_save_counterexample"], "note": "Round trip for formats that fit the stored type; witnesses for the others."},
{"property": "C73", "status": "proved", "theorems": ["MLMC.Alloc.C73_n_samples", "MLMC.Alloc.C73_other", "MLMC.Alloc.C73_sample_vec"], "note": ""},
{"property": "C74", "status": "partial", "theorems": ["MLMC.RF.C74_sum_of_modes_partial", "MLMC.RF.C74_sum_of_modes_first_attempt", "MLMC.RF.C74_counterexample"], "note": "Holds if failing attempts fail at their first chunk; otherwise chunks are added twice (witness)."},
{"property": "C75", "status": "partial", "theorems": ["MLMC.Flow.C75_coarse_result_own_run", "MLMC.Flow.C75_fine_result_own_run_partial", "MLMC.Flow.C75_counterexample_stale", "MLMC.Flow.C75_files_of_run"], "note": "Fine result for a fresh sample directory; a reused directory gives a stale result (witness)."},
{"property": "C76", "status": "partial", "theorems": ["MLMC.Flow.C76_prepared_partial", "MLMC.Flow.C76_counterexample"], "note": "With clean=True; with clean=False every sample fails (general negative theorem)."},
{"property": "C77", "status": "proved", "theorems": ["MLMC.Syn.C77_failed_fraction", "MLMC.Syn.C77_first_fails", "MLMC.Syn.C77_no_failures"], "note": ""},
{"property": "C78", "status": "partial", "theorems": ["MLMC.Dist.C78_integral_after", "MLMC.Dist.C78_counterexample", "MLMC.Dist.C78_counterexample_concrete", "MLMC.Dist.C78_counterexample_distribution"], "note": "The exact integral after the correction of the multipliers, and that it is one only in special cases."},
{"property": "C79", "status": "partial", "theorems": ["MLMC.C79_counterexample"], "note": "General negative theorem: every round of the bootstrap raises."},
{"property": "C80", "status": "partial", "theorems": ["MLMC.Reg.C80_unchanged", "MLMC.Reg.C80_nearly_zero", "MLMC.Reg.C80_positive", "MLMC.Reg.C80_least_squares", "MLMC.Reg.C80_exact_data", "MLMC.Reg.C80_up_to_four_levels", "MLMC.Reg.C80_succeeds_partial", "MLMC.Reg.C80_counterexample_zero", "MLMC.Reg.C80_counterexample_single"], "note": "All results are as stated; the regression fails for a variance that is zero on one level only, or a level with one created sample (general negative theorems)."},
{"property": "C81", "status": "partial", "theorems": ["MLMC.C81_enough_finished", "MLMC.C81_returns", "MLMC.C81_hdf_returns", "MLMC.C81_counterexample_timeout", "MLMC.C81_counterexample_memory"], "note": "HDF storage with a positive timeout or none; a timeout of zero or less never ends (general negative theorem), the memory storage does not count failed samples and the wait never ends (witness)."},
{"property": "C82", "status": "partial", "theorems": ["MLMC.Fit.C82_gradient_partial", "MLMC.Fit.C82_gradient_distribution_partial", "MLMC.Fit.C82_hessian_partial", "MLMC.Fit.C82_symmetric", "MLMC.Fit.C82_positive_semidefinite", "MLMC.Fit.C82_counterexample_clipped", "MLMC.Fit.C82_counterexample_penalty", "MLMC.Fit.C82_counterexample_grown"], "note": "Symmetry and semidefiniteness always. Derivatives where no exponent is clipped at 200, no end point penalty is active and no stabilized stage added moments; each restriction has a witness."},
{"property": "C83", "status": "partial", "theorems": ["MLMC.Fit.C83_stationary_iff_moments", "MLMC.Fit.C83_moment_error", "MLMC.Fit.C83_stabilized_moments", "MLMC.Fit.C83_convex_partial", "MLMC.Fit.C83_moments_minimize_partial", "MLMC.Fit.C83_counterexample_no_minimum", "MLMC.Fit.C83_unique_partial", "MLMC.Fit.C83_maximal_entropy_partial", "MLMC.Fit.C83_start_uniform", "MLMC.Fit.C83_start_uniform_simple_partial", "MLMC.Fit.C83_counterexample_start"], "note": "For the quadrature in use; comparisons among multipliers whose exponents are not clipped; over all multipliers the functional with its clipped exponents is unbounded below, so nothing minimizes it (general negative theorem). Distribution's stabilization shifts the moments (C83_stabilized_moments)."},
{"property": "C84", "status": "partial", "theorems": ["MLMC.Ortho.C84_orthonormal", "MLMC.Ortho.C84_orthonormal_threshold", "MLMC.Ortho.C84_first_moment_partial", "MLMC.Ortho.C84_means", "MLMC.Ortho.C84_counterexample_cut"], "note": "Orthonormality always (tolerance in [0,1)). The first moment is the constant 1 when no eigenvalue is cut off; with a cut it need not be (witness), and the means are (1,0,..,0) whenever it is."},
{"property": "C85", "status": "proved", "theorems": ["MLMC.C85_program_stores_all_results", "MLMC.C85_renew_all_or_nothing"], "note": "Composition of the models of sampler, OneProcessPool and HDF storage; simulations are functions of configuration and seed. process_adding_samples is a sequence of the modelled calls; restarts are in C02, C19, C20."},
{"property": "C86", "status": "proved", "theorems": ["MLMC.C86_program_estimate", "MLMC.C86_estimate_returns", "MLMC.C86_empty_level"], "note": "On the storage of the program of C85, read back in chunks of any length."},
{"property": "C87", "status": "partial", "theorems": ["MLMC.C87_unbiased_partial", "MLMC.C87_finest_level_partial", "MLMC.C87_confidence_partial", "MLMC.C87_adaptive_counterexample"], "note": "For numbers of samples that do not depend on the drawn values, at least two on each level, no dropped samples. Numbers chosen by the allocation from the samples themselves give a biased mean (witness)."},
{"property": "C88", "status": "partial", "theorems": ["MLMC.RF.C88_correlation_matrix_partial", "MLMC.RF.C88_correlation_length", "MLMC.RF.C88_counterexample_exponent"], "note": "Exponents in (0,2], including the named models gauss and exp. Every exponent above 2, accepted by the constructor, has three points with a matrix that is not positive semidefinite."},
{"property": "C89", "status": "partial", "theorems": ["MLMC.RF.C89_terms", "MLMC.RF.C89_all_terms", "MLMC.RF.C89_returns_exactly", "MLMC.RF.C89_mean_covariance_partial", "MLMC.RF.C89_precision", "MLMC.RF.C89_counterexample_precision"], "note": "Mean and upper bound of the variance always; covariances exact with all terms, error bounded by the first dropped singular value otherwise, hence by the precision when the loop is ended by it. The loop also ends when 1.5 times the number of terms exceeds the number of points; then a variance of 4/5 instead of 1 occurs with default arguments (witness). Exponents in (0,2]; singular value decompositions exact (randomized_svd is not); logarithmic fields in C122."},
{"property": "C90", "status": "partial", "theorems": ["MLMC.RF.Fourier.C90_plane_partial", "MLMC.RF.Fourier.C90_line_law", "MLMC.RF.Fourier.C90_counterexample_line", "MLMC.RF.Fourier.C90_counterexample_line_exp", "MLMC.RF.Fourier.C90_counterexample_exponent"], "note": "Exact in the plane for the models gauss and exp. On a line gauss gives exp(-h^2/(2 pi^2 L^4)) instead of exp(-h^2/L^2), every other exponent raises AttributeError; in the plane exponents other than 1 and 2 give the field of exponent 1; in space the code raises NotImplementedError. Scalar correlation length; the streams of random numbers are taken as independent; enough memory (C74)."},
{"property": "C91", "status": "partial", "theorems": ["MLMC.C91_pbs_program_partial", "MLMC.C91_pbs_program_complete_partial", "MLMC.C91_same_estimates_partial", "MLMC.C91_asking_ends", "MLMC.C91_waits_for_all_counterexample"], "note": "Asking without a timeout can return while a job is running (witness, two jobs). Everything else for programs without restarts whose calls return (with renew_failed_samples: C135), with qsub failing or succeeding entirely, different PBS identifiers; jobs may die anywhere, except for the equality of estimates."},
{"property": "C92", "status": "proved", "theorems": ["MLMC.C92_parallel_program", "MLMC.C92_parallel_program_complete", "MLMC.C92_same_estimates", "MLMC.C92_waiting_ends_counterexample"], "note": "For all programs whose calls return. That asking without a timeout returns is not part of the property: C92_waiting_ends_counterexample is a program whose workers have all finished and whose wait never ends, because a result put into a queue between reading and clearing it is dropped (see C10)."},
{"property": "C93", "status": "partial", "theorems": ["MLMC.C93_programs_one_after_another", "MLMC.C93_waiting_programs", "MLMC.C93_same_estimates", "MLMC.C93_unfinished_stays", "MLMC.C93_restart_recovers_counterexample"], "note": "The last sentence fails: samples unfinished at the end of one program are never run again or finished by any later one with a OneProcessPool (C93_unfinished_stays, for all histories; witness C93_restart_recovers_counterexample). The rest is proved. A kill in the middle of writing collected samples is C20."},
{"property": "C94", "status": "partial", "theorems": ["MLMC.C94_zeroth_moment", "MLMC.C94_covariance_psd_partial", "MLMC.C94_covariance_psd_counterexample", "MLMC.C94_default_moments", "MLMC.C94_diff_vars", "MLMC.C94_diff_vars_counterexample"], "note": "Zeroth moment 1 with variance 0 for any number of levels (two used samples per level). The covariance estimate is positive semidefinite for storages with one level; with two levels the telescoping sum can make a diagonal entry negative (witness). estimate_moments and estimate_covariance fall back to the object's moment functions, estimate_diff_vars() does not and raises."},
{"property": "C95", "status": "partial", "theorems": ["MLMC.Gm.C95_format1_counterexample", "MLMC.Gm.C95_format1_partial"], "note": "read never reads a file of format 1.0: for every content it raises UnboundLocalError (general negative theorem). With a $MeshFormat section in front, sections of format 1.0 are read as written."},
{"property": "C96", "status": "partial", "theorems": ["MLMC.Dist.C96_kl_nonnegative", "MLMC.Dist.C96_kl_value_partial", "MLMC.Dist.C96_kl_zero_counterexample", "MLMC.Dist.C96_kl_unnormalized_counterexample", "MLMC.Dist.C96_l2_metric"], "note": "Over the reals with exact integration. The value is that of the integral for positive continuous densities; a density with a zero inside the interval gives NaN (witness), and the older module does not compensate densities that do not integrate to the same value (witness). The L2 distance is proved to be a metric."},
{"property": "C97", "status": "proved", "theorems": ["MLMC.Dist.C97_exact_covariance", "MLMC.Dist.C97_exact_symmetric", "MLMC.Dist.C97_semiexact_semidefinite", "MLMC.Dist.C97_semiexact_polynomial"], "note": "Over the reals; exact integration is an assumption of the first theorem only, that leggauss gives a Gauss rule (positive weights, exact up to a degree) and that quad returns a subdivision of the domain are assumptions of the last two."},
{"property": "C98", "status": "partial", "theorems": ["MLMC.Const.C98_number", "MLMC.Const.C98_vector", "MLMC.Const.C98_wrong_length_raises", "MLMC.Const.C98_chunks_broadcast", "MLMC.Const.C98_matrix_counterexample", "MLMC.Const.C98_matrix_comparison_counterexample", "MLMC.Const.C98_matrix_selection_counterexample", "MLMC.Const.C98_numpy_number_counterexample", "MLMC.Const.C98_two_constants_counterexample"], "note": "Numbers and arrays with one axis as stated, for all operations. Every array with two or more axes fails (general negative theorem: an error or a result with four or more axes; comparisons with two columns silently match the columns with the fine and coarse part). NumPy integers are refused, two constants combined first give five axes. A vector added to a quantity of size one is C37_broadcast_counterexample. C98_chunks_broadcast also shows that the array operations of the quantity model are NumPy's broadcasting."},
{"property": "C99", "status": "partial", "theorems": ["MLMC.Slope.C99_few_raise", "MLMC.Slope.C99_three_moments_raise", "MLMC.Slope.C99_detected", "MLMC.Slope.C99_coarse_window_partial", "MLMC.Slope.C99_best_window_partial", "MLMC.Slope.C99_last_value_counterexample", "MLMC.Slope.C99_kept_positive_partial", "MLMC.Slope.C99_orthonormal_partial", "MLMC.Slope.C99_nothing_detected_counterexample", "MLMC.Slope.C99_equal_counterexample"], "note": "Proved for at least four distinct positive eigenvalues. False otherwise: with three or fewer positive eigenvalues TypeError is raised; equal eigenvalues keep an eigenvalue 0; when all eigenvalues have the same slope the smallest one is cut nevertheless; the window never contains the last value."}
]}
