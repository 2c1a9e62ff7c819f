MLMC.Alloc.C126_counterexample_several_moments: propext, Classical.choice, Quot.sound
MLMC.Alloc.C126_one_moment_partial: propext, Classical.choice, Quot.sound
MLMC.Alloc.C126_several_moments_partial: propext, Classical.choice, Quot.sound
MLMC.Alloc.C128_balanced: propext, Classical.choice, Quot.sound
MLMC.Alloc.C128_decreasing: propext, Classical.choice, Quot.sound
MLMC.Alloc.C128_growing: propext, Classical.choice, Quot.sound
MLMC.Alloc.C128_single_level: propext, Classical.choice, Quot.sound
MLMC.Alloc.C161_counterexample_monotone: propext, Classical.choice, Quot.sound
MLMC.Alloc.C161_nan_variance: propext, Classical.choice, Quot.sound
MLMC.Alloc.C161_near_limited_optimum: propext, Classical.choice, Quot.sound
MLMC.Alloc.C161_negative_moment: propext, Classical.choice, Quot.sound
MLMC.Alloc.C161_negative_variance: propext, Classical.choice, Quot.sound
MLMC.Alloc.C161_within_factor_two: propext, Classical.choice, Quot.sound
MLMC.Alloc.C163_doubles: propext, Classical.choice, Quot.sound
MLMC.Alloc.C163_numbers: propext, Classical.choice, Quot.sound
MLMC.Alloc.C163_order: propext, Classical.choice, Quot.sound
MLMC.Alloc.C163_other: propext, Classical.choice, Quot.sound
MLMC.Alloc.C164_decreasing: propext, Classical.choice, Quot.sound
MLMC.Alloc.C164_doubles: propext, Classical.choice, Quot.sound
MLMC.Alloc.C164_refused_one_level: propext, Classical.choice, Quot.sound
MLMC.Alloc.C164_steps: propext, Classical.choice, Quot.sound
MLMC.Alloc.C51_at_least_two: propext, Classical.choice, Quot.sound
MLMC.Alloc.C51_formula: propext, Classical.choice, Quot.sound
MLMC.Alloc.C51_monotone: propext, Classical.choice, Quot.sound
MLMC.Alloc.C51_near_limited_optimum: propext, Classical.choice, Quot.sound
MLMC.Alloc.C52_balanced_partial: propext, Classical.choice, Quot.sound
MLMC.Alloc.C52_counterexample: propext, Classical.choice, Quot.sound
MLMC.Alloc.C52_within_factor_two_partial: propext, Classical.choice, Quot.sound
MLMC.Alloc.C53_geometric: propext, Classical.choice, Quot.sound
MLMC.Alloc.C53_level_parameters: propext, Classical.choice, Quot.sound
MLMC.Alloc.C53_one_level: propext, Classical.choice, Quot.sound
MLMC.Alloc.C53_refused: propext, Classical.choice, Quot.sound
MLMC.Alloc.C73_n_samples: propext, Classical.choice, Quot.sound
MLMC.Alloc.C73_other: propext, Classical.choice, Quot.sound
MLMC.Alloc.C73_sample_vec: propext, Quot.sound
MLMC.Alloc.npRound_rounded: propext, Classical.choice, Quot.sound
MLMC.C01_sample_ids_unique: propext, Classical.choice, Quot.sound
MLMC.C02_crash_reuses_ids: propext, Classical.choice, Quot.sound
MLMC.C02_no_id_scheduled_twice: propext, Classical.choice, Quot.sound
MLMC.C03_schedule_exactly_to_target: propext, Classical.choice, Quot.sound
MLMC.C03_scheduled_list_is_prefix: propext, Classical.choice, Quot.sound
MLMC.C04_targets_only_raised: propext, Classical.choice, Quot.sound
MLMC.C05_adding_one_call: propext, Classical.choice, Quot.sound
MLMC.C05_adding_terminates: propext, Classical.choice, Quot.sound
MLMC.C06_polling: propext, Classical.choice, Quot.sound
MLMC.C06_polling_returns: propext, Classical.choice, Quot.sound
MLMC.C07_levels_chained: propext, Classical.choice, Quot.sound
MLMC.C08_geometric_sequence: propext, Classical.choice, Quot.sound
MLMC.C08_initial_numbers: propext, Classical.choice, Quot.sound
MLMC.C09_delivered_exactly_once: propext, Classical.choice, Quot.sound
MLMC.C09_missing_file_counterexample: propext, Classical.choice, Quot.sound
MLMC.C104_failed_sample_counterexample: propext, Classical.choice, Quot.sound
MLMC.C104_restart_completes_partial: propext, Classical.choice, Quot.sound
MLMC.C104_restart_recovers_partial: propext, Classical.choice, Quot.sound
MLMC.C104_running_job_counterexample: propext, Classical.choice, Quot.sound
MLMC.C106_nothing_lost: propext, Classical.choice, Quot.sound
MLMC.C106_sample_twice_counterexample: propext, Classical.choice, Quot.sound
MLMC.C106_values_right: propext, Classical.choice, Quot.sound
MLMC.C10_counterexample: propext, Quot.sound
MLMC.C10_no_result_lost_partial: propext, Quot.sound
MLMC.C10_nothing_returned_twice: propext, Quot.sound
MLMC.C10_worker_error_counterexample: propext, Quot.sound
MLMC.C110_adaptive_ends: propext, Classical.choice, Quot.sound
MLMC.C110_call_returns: propext, Classical.choice, Quot.sound
MLMC.C110_counterexample_growing_estimates: propext, Classical.choice, Quot.sound
MLMC.C110_counterexample_zero_timeout: propext, Classical.choice, Quot.sound
MLMC.C110_documented_loop_ends: propext, Classical.choice, Quot.sound
MLMC.C110_estimates_bounded: propext, Classical.choice, Quot.sound
MLMC.C110_no_more_than_needed: propext, Classical.choice, Quot.sound
MLMC.C110_wrong_targets_raise: propext, Classical.choice, Quot.sound
MLMC.C111_counterexample_regression: propext, Classical.choice, Quot.sound
MLMC.C111_documented_program_ends_partial: propext, Classical.choice, Quot.sound
MLMC.C111_moments_bounded: propext, Classical.choice, Quot.sound
MLMC.C111_no_exception_partial: propext, Classical.choice, Quot.sound
MLMC.C112_directories: propext, Classical.choice, Quot.sound
MLMC.C112_failed_directories: propext, Classical.choice, Quot.sound
MLMC.C113_counterexample_waiting_forever: propext, Classical.choice, Quot.sound
MLMC.C113_files_there_partial: propext, Classical.choice, Quot.sound
MLMC.C113_missing_files_raise: propext, Classical.choice, Quot.sound
MLMC.C117_ascii_partial: propext, Classical.choice, Quot.sound
MLMC.C117_counterexample_identifier: propext, Quot.sound
MLMC.C117_counterexample_unicode: propext, Classical.choice, Quot.sound
MLMC.C117_recorded_partial: propext, Quot.sound
MLMC.C117_scheduled: propext, Classical.choice, Quot.sound
MLMC.C117_tags: propext, Classical.choice, Quot.sound
MLMC.C11_declared_size: propext
MLMC.C11_list_counterexample: propext, Quot.sound
MLMC.C11_success_iff_well_formed: propext, Quot.sound
MLMC.C123_counterexample_lost_level: propext, Classical.choice, Quot.sound
MLMC.C123_estimate_returns: propext, Classical.choice, Quot.sound
MLMC.C123_memory_estimate: propext, Classical.choice, Quot.sound
MLMC.C123_memory_stores_all_results: propext, Classical.choice, Quot.sound
MLMC.C123_no_results: propext, Classical.choice, Quot.sound
MLMC.C123_renew_raises: propext, Classical.choice, Quot.sound
MLMC.C123_same_as_hdf: propext, Classical.choice, Quot.sound
MLMC.C124_consistent: propext, Classical.choice, Quot.sound
MLMC.C124_finest_level: propext, Classical.choice, Quot.sound
MLMC.C125_confidence_interval: propext, Classical.choice, Quot.sound
MLMC.C125_error_normal: propext, Classical.choice, Quot.sound
MLMC.C12_pbs_result_function_of_id_and_level: propext, Classical.choice, Quot.sound
MLMC.C12_result_function_of_id_and_level: propext, Classical.choice, Quot.sound
MLMC.C12_seed_bytes: propext, Classical.choice, Quot.sound
MLMC.C132_counterexample_many_samples: propext, Classical.choice, Quot.sound
MLMC.C132_program_unbiased: propext, Classical.choice, Quot.sound
MLMC.C132_seeds_converge: propext, Classical.choice, Quot.sound
MLMC.C132_seeds_interval: propext, Classical.choice, Quot.sound
MLMC.C132_seeds_unbiased: propext, Classical.choice, Quot.sound
MLMC.C133_counterexample_bias: propext, Classical.choice, Quot.sound
MLMC.C133_failing_converge: propext, Classical.choice, Quot.sound
MLMC.C134_any_pool_converge: propext, Classical.choice, Quot.sound
MLMC.C134_any_pool_failing: propext, Classical.choice, Quot.sound
MLMC.C134_any_pool_interval: propext, Classical.choice, Quot.sound
MLMC.C134_any_pool_unbiased: propext, Classical.choice, Quot.sound
MLMC.C134_counterexample_timeout: propext, Classical.choice, Quot.sound
MLMC.C135_pbs_program_complete_partial: propext, Classical.choice, Quot.sound
MLMC.C135_pbs_program_partial: propext, Classical.choice, Quot.sound
MLMC.C135_renewal_recovers_partial: propext, Classical.choice, Quot.sound
MLMC.C135_same_estimates_partial: propext, Classical.choice, Quot.sound
MLMC.C136_damaged_poll_raises: propext, Classical.choice, Quot.sound
MLMC.C136_no_damage: propext, Classical.choice, Quot.sound
MLMC.C136_recovery_blocked: propext, Classical.choice, Quot.sound
MLMC.C136_results_lost: propext, Classical.choice, Quot.sound
MLMC.C136_undamaged_poll_partial: propext, Classical.choice, Quot.sound
MLMC.C137_all_recovered: propext, Classical.choice, Quot.sound
MLMC.C137_first_question_recovers_partial: propext, Classical.choice, Quot.sound
MLMC.C137_new_directory_raises: propext, Classical.choice, Quot.sound
MLMC.C137_unpacked_raises: propext, Classical.choice, Quot.sound
MLMC.C138_copies: propext, Classical.choice, Quot.sound
MLMC.C138_failed_neighbour_counterexample: propext, Classical.choice, Quot.sound
MLMC.C138_stored_once_partial: propext, Classical.choice, Quot.sound
MLMC.C139_file_partial: propext, Classical.choice, Quot.sound
MLMC.C139_half_recorded_counterexample: propext, Classical.choice, Quot.sound
MLMC.C139_same_estimates_partial: propext, Classical.choice, Quot.sound
MLMC.C13_counterexample: propext, Classical.choice, Quot.sound
MLMC.C13_directories_by_last_digits: propext, Classical.choice, Quot.sound
MLMC.C13_directories_partial: propext, Classical.choice, Quot.sound
MLMC.C13_new_pool_wipes: propext
MLMC.C140_array_kept_partial: propext, Classical.choice, Quot.sound
MLMC.C140_initial_numbers: propext, Classical.choice, Quot.sound
MLMC.C140_own_numbers_partial: propext, Classical.choice, Quot.sound
MLMC.C140_shared_counterexample: propext, Classical.choice, Quot.sound
MLMC.C141_failed_lost_counterexample: propext, Quot.sound
MLMC.C141_memory_counterexample: propext, Classical.choice, Quot.sound
MLMC.C141_memory_partial: propext, Classical.choice, Quot.sound
MLMC.C141_not_unfinished: propext, Quot.sound
MLMC.C141_one_shape_partial: propext, Classical.choice, Quot.sound
MLMC.C141_save_zeros_counterexample: propext, Quot.sound
MLMC.C141_zeros_counterexample: propext, Quot.sound
MLMC.C142_bootstrap_replaces: propext, Classical.choice, Quot.sound
MLMC.C142_counterexample: propext, Classical.choice, Quot.sound
MLMC.C142_history: propext, Classical.choice, Quot.sound
MLMC.C142_independent_partial: propext, Classical.choice, Quot.sound
MLMC.C142_lengths_counterexample: propext, Classical.choice, Quot.sound
MLMC.C142_regression_functions: propext, Classical.choice, Quot.sound
MLMC.C142_surface_moments: propext, Quot.sound
MLMC.C143_all: propext, Classical.choice, Quot.sound
MLMC.C143_subset: propext, Classical.choice, Quot.sound
MLMC.C143_too_many: propext, Classical.choice, Quot.sound
MLMC.C144_breakdown: propext, Classical.choice, Quot.sound
MLMC.C144_places: propext, Classical.choice, Quot.sound
MLMC.C144_too_many: propext, Classical.choice, Quot.sound
MLMC.C144_total: propext, Quot.sound
MLMC.C145_decreasing_partial: propext, Quot.sound
MLMC.C145_errors_counterexample: propext, Quot.sound
MLMC.C145_increasing_counterexample: propext, Quot.sound
MLMC.C145_increasing_partial: propext, Quot.sound
MLMC.C145_positive_counterexample: propext, Classical.choice, Quot.sound
MLMC.C145_threshold_counterexample: propext, Classical.choice, Quot.sound
MLMC.C146_curves: propext, Quot.sound
MLMC.C146_errors: propext, Quot.sound
MLMC.C146_exact: propext, Quot.sound
MLMC.C146_few_counterexample: propext, Classical.choice, Quot.sound
MLMC.C146_histogram: propext, Classical.choice, Quot.sound
MLMC.C146_kl: propext, Classical.choice, Quot.sound
MLMC.C147_few_counterexample: propext, Classical.choice, Quot.sound
MLMC.C147_later_counterexample: propext, Classical.choice, Quot.sound
MLMC.C147_range: propext, Quot.sound
MLMC.C147_variances_partial: propext, Classical.choice, Quot.sound
MLMC.C148_bs_variances: propext, Classical.choice, Quot.sound
MLMC.C148_caller_counterexample: propext, Classical.choice, Quot.sound
MLMC.C148_means_counterexample: propext, Classical.choice, Quot.sound
MLMC.C148_means_partial: propext, Classical.choice, Quot.sound
MLMC.C148_regression_counterexample: propext, Classical.choice, Quot.sound
MLMC.C148_regression_places: propext, Quot.sound
MLMC.C149_counterexample: propext, Classical.choice, Quot.sound
MLMC.C149_file_partial: propext, Classical.choice, Quot.sound
MLMC.C14_counterexample: propext, Classical.choice, Quot.sound
MLMC.C14_times_of_returned: propext, Classical.choice, Quot.sound
MLMC.C14_times_partial: propext, Classical.choice, Quot.sound
MLMC.C150_ellipsis_counterexample: propext, Classical.choice, Quot.sound
MLMC.C150_ellipsis_mean_counterexample: propext, Classical.choice, Quot.sound
MLMC.C150_index_partial: propext, Classical.choice, Quot.sound
MLMC.C151_central_moments: propext, Classical.choice, Quot.sound
MLMC.C151_centred: propext, Classical.choice, Quot.sound
MLMC.C151_domain_counterexample: propext, Classical.choice, Quot.sound
MLMC.C151_recipe_counterexample: propext, Classical.choice, Quot.sound
MLMC.C151_second_moment: propext, Classical.choice, Quot.sound
MLMC.C152_arithmetic: propext, Classical.choice, Quot.sound
MLMC.C152_function: propext, Classical.choice, Quot.sound
MLMC.C152_function_of_two: propext, Classical.choice, Quot.sound
MLMC.C152_keepdims_counterexample: propext, Quot.sound
MLMC.C152_no_axis_counterexample: propext
MLMC.C152_reduction: propext, Classical.choice, Quot.sound
MLMC.C152_reduction_axis: propext, Classical.choice, Quot.sound
MLMC.C152_samples_axis_counterexample: propext, Classical.choice, Quot.sound
MLMC.C153_nan_counterexample: propext, Classical.choice, Quot.sound
MLMC.C153_part_of_covariance: propext, Classical.choice, Quot.sound
MLMC.C153_part_of_moments: propext, Classical.choice, Quot.sound
MLMC.C153_selected_covariance: propext, Classical.choice, Quot.sound
MLMC.C153_selected_part: propext, Classical.choice, Quot.sound
MLMC.C153_single_moment: propext, Classical.choice, Quot.sound
MLMC.C153_tuple_counterexample: propext, Classical.choice, Quot.sound
MLMC.C155_at_times_partial: propext, Classical.choice, Quot.sound
MLMC.C155_interpolated_mean_partial: propext, Classical.choice, Quot.sound
MLMC.C156_affine_estimate: propext, Classical.choice, Quot.sound
MLMC.C156_allocation: propext, Classical.choice, Quot.sound
MLMC.C156_covariances: propext, Classical.choice, Quot.sound
MLMC.C156_domain: propext, Classical.choice, Quot.sound
MLMC.C156_log_moment_functions: propext, Classical.choice, Quot.sound
MLMC.C156_moment_functions_partial: propext, Classical.choice, Quot.sound
MLMC.C156_moments: propext, Classical.choice, Quot.sound
MLMC.C156_narrow_counterexample: propext, Classical.choice, Quot.sound
MLMC.C157_change_of_basis_partial: propext, Classical.choice, Quot.sound
MLMC.C157_domain_counterexample: propext, Classical.choice, Quot.sound
MLMC.C159_counterexample: propext, Classical.choice, Quot.sound
MLMC.C159_default_counterexample: propext, Classical.choice, Quot.sound
MLMC.C159_dropped_samples: propext, Classical.choice, Quot.sound
MLMC.C159_library: propext, Classical.choice, Quot.sound
MLMC.C159_whole_range: propext, Classical.choice, Quot.sound
MLMC.C15_hdf_pairs_read_back: propext, Classical.choice, Quot.sound
MLMC.C15_hdf_sample_pairs: propext, Classical.choice, Quot.sound
MLMC.C15_memory_pairs_read_back: propext, Classical.choice, Quot.sound
MLMC.C15_memory_sample_pairs: propext, Classical.choice, Quot.sound
MLMC.C160_adaptive: propext, Classical.choice, Quot.sound
MLMC.C160_any_pool: propext, Classical.choice, Quot.sound
MLMC.C160_enough_samples: propext, Classical.choice, Quot.sound
MLMC.C160_error_unlikely: propext, Classical.choice, Quot.sound
MLMC.C160_moments: propext, Classical.choice, Quot.sound
MLMC.C162_adding_one_call: propext, Classical.choice, Quot.sound
MLMC.C162_adding_terminates: propext, Classical.choice, Quot.sound
MLMC.C162_changing_estimates: propext, Classical.choice, Quot.sound
MLMC.C162_counterexample_small_coefficient: propext, Classical.choice, Quot.sound
MLMC.C16_hdf_finished_counts: propext, Classical.choice, Quot.sound
MLMC.C16_memory_counterexample: propext, Classical.choice, Quot.sound
MLMC.C16_memory_finished_counts_partial: propext, Classical.choice, Quot.sound
MLMC.C17_chunk_positions: propext, Classical.choice, Quot.sound
MLMC.C17_chunks_cover: propext, Classical.choice, Quot.sound
MLMC.C17_memory_chunks: propext
MLMC.C18_unfinished_ids: propext, Classical.choice, Quot.sound
MLMC.C19_counterexample: propext, Classical.choice, Quot.sound
MLMC.C19_reopen_partial: propext, Classical.choice, Quot.sound
MLMC.C20_counterexample: propext, Classical.choice, Quot.sound
MLMC.C20_crash_keeps_values_partial: propext, Classical.choice, Quot.sound
MLMC.C20_ids_and_values_aligned_partial: propext, Classical.choice, Quot.sound
MLMC.C21_crash_breaks_storage_counterexample: propext, Classical.choice, Quot.sound
MLMC.C21_crash_duplicates_counterexample: propext, Classical.choice, Quot.sound
MLMC.C21_missing_dataset_stays: propext, Classical.choice, Quot.sound
MLMC.C21_renew_failed: propext, Classical.choice, Quot.sound
MLMC.C22_constant_cost_partial: propext, Classical.choice, Quot.sound
MLMC.C22_cost_between_partial: propext, Classical.choice, Quot.sound
MLMC.C22_counterexample: propext, Classical.choice, Quot.sound
MLMC.C22_memory_cost_partial: propext, Classical.choice, Quot.sound
MLMC.C22_memory_counterexample: propext, Classical.choice, Quot.sound
MLMC.C22_memory_single_report_partial: propext, Classical.choice, Quot.sound
MLMC.C22_storage_cost_ratio: propext, Classical.choice, Quot.sound
MLMC.C23_counterexample: propext, Classical.choice, Quot.sound
MLMC.C23_format_guard_partial: propext, Quot.sound
MLMC.C23_points_counterexample: propext, Classical.choice, Quot.sound
MLMC.C24_counterexample: propext, Classical.choice, Quot.sound
MLMC.C24_level_ids_partial: propext, Classical.choice, Quot.sound
MLMC.C25_counterexample: propext, Classical.choice, Quot.sound
MLMC.C25_storages_agree_partial: propext, Classical.choice, Quot.sound
MLMC.C26_in_exactly_one_job: propext, Classical.choice, Quot.sound
MLMC.C26_marker_file_counterexample: propext, Classical.choice, Quot.sound
MLMC.C26_nothing_lost: propext, Classical.choice, Quot.sound
MLMC.C27_package_limits: propext, Classical.choice, Quot.sound
MLMC.C28_eleventh_failure_raises: propext, Classical.choice, Quot.sound
MLMC.C28_retry_same_number: propext, Classical.choice, Quot.sound
MLMC.C29_job_numbers_not_reused_partial: propext, Classical.choice, Quot.sound
MLMC.C29_listing_order_counterexample: propext, Classical.choice, Quot.sound
MLMC.C29_sorted_names_counterexample: none
MLMC.C30_read_results_exact: propext, Classical.choice, Quot.sound
MLMC.C31_collected_again_partial: propext, Classical.choice, Quot.sound
MLMC.C31_collected_when_first_reported_partial: propext, Classical.choice, Quot.sound
MLMC.C31_conservation_again_partial: propext, Classical.choice, Quot.sound
MLMC.C31_conservation_partial: propext, Classical.choice, Quot.sound
MLMC.C31_marker_file_counterexample: propext, Classical.choice, Quot.sound
MLMC.C31_restart_counterexample: propext, Classical.choice, Quot.sound
MLMC.C32_counterexample: propext, Classical.choice, Quot.sound
MLMC.C32_pending_counterexample: propext, Classical.choice, Quot.sound
MLMC.C32_running_count_partial: propext, Classical.choice, Quot.sound
MLMC.C33_failed_and_duplicate_counterexample: propext, Classical.choice, Quot.sound
MLMC.C33_hang_counterexample: propext, Classical.choice, Quot.sound
MLMC.C33_new_job_counterexample: propext, Classical.choice, Quot.sound
MLMC.C33_not_debug_counterexample: propext, Classical.choice, Quot.sound
MLMC.C33_pending_counterexample: propext, Classical.choice, Quot.sound
MLMC.C33_running_lost_counterexample: propext, Classical.choice, Quot.sound
MLMC.C33_successes_recovered_partial: propext, Classical.choice, Quot.sound
MLMC.C34_after_emptying: propext, Classical.choice, Quot.sound
MLMC.C34_map_points_to_last_job: propext, Classical.choice, Quot.sound
MLMC.C35_job_computes_each_sample: propext, Classical.choice, Quot.sound
MLMC.C35_level_simulation_is_first: propext, Classical.choice, Quot.sound
MLMC.C35_stale_simulation_counterexample: propext, Classical.choice, Quot.sound
MLMC.C36_addresses_distinct: propext, Classical.choice, Quot.sound
MLMC.C36_location_before_time: propext, Classical.choice, Quot.sound
MLMC.C36_named_access: propext, Classical.choice, Quot.sound
MLMC.C36_nothing_else: propext, Classical.choice, Quot.sound
MLMC.C37_broadcast_counterexample: propext, Classical.choice, Quot.sound
MLMC.C37_field_entries: propext, Classical.choice, Quot.sound
MLMC.C37_repeated_key_counterexample: propext, Classical.choice, Quot.sound
MLMC.C37_size_partial: propext, Classical.choice, Quot.sound
MLMC.C38_chunked_evaluation: propext, Classical.choice, Quot.sound
MLMC.C38_hdf_chunks: propext, Classical.choice, Quot.sound
MLMC.C38_samplewise: propext, Classical.choice, Quot.sound
MLMC.C39_comparison: propext, Classical.choice, Quot.sound
MLMC.C39_comparison_with_number: propext, Classical.choice, Quot.sound
MLMC.C39_select_keeps_exactly: propext, Classical.choice, Quot.sound
MLMC.C40_function_of_constant_refused: propext, Quot.sound
MLMC.C40_mixing_raises: propext, Quot.sound
MLMC.C40_same_source_and_constants_combine: propext, Classical.choice, Quot.sound
MLMC.C40_single_source: propext, Quot.sound
MLMC.C41_array_counterexample: propext, Classical.choice, Quot.sound
MLMC.C41_array_index: propext, Classical.choice, Quot.sound
MLMC.C41_array_part_partial: propext, Classical.choice, Quot.sound
MLMC.C41_dict_part: propext, Classical.choice, Quot.sound
MLMC.C41_dict_types: propext, Classical.choice, Quot.sound
MLMC.C41_dict_types_counterexample: propext, Classical.choice, Quot.sound
MLMC.C41_field_part: propext, Classical.choice, Quot.sound
MLMC.C41_time_part: propext, Classical.choice, Quot.sound
MLMC.C42_counterexample_growth: propext, Classical.choice, Quot.sound
MLMC.C42_counterexample_identity: propext, Classical.choice, Quot.sound
MLMC.C42_estimates: propext, Quot.sound
MLMC.C42_hdf_chunks_distinct: propext, Quot.sound
MLMC.C42_history_partial: propext, Quot.sound
MLMC.C43_chunk_numbers_partial: propext, Classical.choice, Quot.sound
MLMC.C43_counterexample_number: propext, Classical.choice, Quot.sound
MLMC.C43_counterexample_repeated: propext, Classical.choice, Quot.sound
MLMC.C43_number_partial: propext, Quot.sound
MLMC.C43_refused: propext
MLMC.C43_stored_samples: propext, Quot.sound
MLMC.C44_exact_at_times: propext, Classical.choice, Quot.sound
MLMC.C44_linear_between: propext, Classical.choice, Quot.sound
MLMC.C44_outside_raises: propext, Classical.choice, Quot.sound
MLMC.C45_chunking_and_order: propext, Classical.choice, Quot.sound
MLMC.C46_textbook_estimators: propext, Classical.choice, Quot.sound
MLMC.C46_totals: propext, Quot.sound
MLMC.C46_variance_nonneg: propext, Classical.choice, Quot.sound
MLMC.C47_all_dropped_raises: propext, Classical.choice, Quot.sound
MLMC.C47_all_evaluated: propext, Classical.choice, Quot.sound
MLMC.C47_counts: propext, Quot.sound
MLMC.C47_nan_samples_do_not_matter: propext, Quot.sound
MLMC.C48_indexing_nan_partial: propext, Classical.choice, Quot.sound
MLMC.C48_indexing_partial: propext, Classical.choice, Quot.sound
MLMC.C48_linear: propext, Classical.choice, Quot.sound
MLMC.C48_linear_nan_partial: propext, Classical.choice, Quot.sound
MLMC.C48_nan_counterexample: propext, Classical.choice, Quot.sound
MLMC.C48_tuple_counterexample: propext, Classical.choice, Quot.sound
MLMC.C49_identical_levels: propext, Classical.choice, Quot.sound
MLMC.C49_telescoping: propext, Classical.choice, Quot.sound
MLMC.C50_covariance_bottom_layout: propext, Classical.choice, Quot.sound
MLMC.C50_covariance_estimate: propext, Classical.choice, Quot.sound
MLMC.C50_covariance_surface_layout: propext, Classical.choice, Quot.sound
MLMC.C50_moment_layout: propext, Classical.choice, Quot.sound
MLMC.C50_moments_bottom_layout: propext, Classical.choice, Quot.sound
MLMC.C50_moments_surface_layout: propext, Classical.choice, Quot.sound
MLMC.C50_nested_index_counterexample: propext, Classical.choice, Quot.sound
MLMC.C54_counterexample: propext, Classical.choice, Quot.sound
MLMC.C54_level_zero_partial: propext, Classical.choice, Quot.sound
MLMC.C71_second_sampler_keeps_partial: propext, Quot.sound
MLMC.C71_second_sampler_wipes_counterexample: propext, Classical.choice, Quot.sound
MLMC.C72_failed_first_save: propext, Classical.choice, Quot.sound
MLMC.C72_failed_save_counterexample: propext, Classical.choice, Quot.sound
MLMC.C72_plain_format_roundtrip: propext, Quot.sound
MLMC.C72_points_counterexample: propext, Classical.choice, Quot.sound
MLMC.C72_shape_counterexample: propext, Classical.choice, Quot.sound
MLMC.C72_three_letter_location_counterexample: propext, Classical.choice, Quot.sound
MLMC.C72_times_counterexample: propext, Classical.choice, Quot.sound
MLMC.C72_unicode_counterexample: propext, Classical.choice, Quot.sound
MLMC.C79_counterexample: propext, Quot.sound
MLMC.C81_counterexample_memory: propext, Classical.choice, Quot.sound
MLMC.C81_counterexample_timeout: propext, Classical.choice, Quot.sound
MLMC.C81_enough_finished: propext, Classical.choice, Quot.sound
MLMC.C81_hdf_returns: propext, Classical.choice, Quot.sound
MLMC.C81_returns: propext, Classical.choice, Quot.sound
MLMC.C85_program_stores_all_results: propext, Classical.choice, Quot.sound
MLMC.C85_renew_all_or_nothing: propext, Classical.choice, Quot.sound
MLMC.C86_empty_level: propext, Classical.choice, Quot.sound
MLMC.C86_estimate_returns: propext, Classical.choice, Quot.sound
MLMC.C86_program_estimate: propext, Classical.choice, Quot.sound
MLMC.C87_adaptive_counterexample: propext, Classical.choice, Quot.sound
MLMC.C87_confidence_partial: propext, Classical.choice, Quot.sound
MLMC.C87_finest_level_partial: propext, Classical.choice, Quot.sound
MLMC.C87_unbiased_partial: propext, Classical.choice, Quot.sound
MLMC.C91_asking_ends: propext, Classical.choice, Quot.sound
MLMC.C91_pbs_program_complete_partial: propext, Classical.choice, Quot.sound
MLMC.C91_pbs_program_partial: propext, Classical.choice, Quot.sound
MLMC.C91_same_estimates_partial: propext, Classical.choice, Quot.sound
MLMC.C91_waits_for_all_counterexample: propext, Classical.choice, Quot.sound
MLMC.C92_parallel_program: propext, Classical.choice, Quot.sound
MLMC.C92_parallel_program_complete: propext, Classical.choice, Quot.sound
MLMC.C92_same_estimates: propext, Classical.choice, Quot.sound
MLMC.C92_waiting_ends_counterexample: propext, Classical.choice, Quot.sound
MLMC.C93_programs_one_after_another: propext, Classical.choice, Quot.sound
MLMC.C93_restart_recovers_counterexample: propext, Classical.choice, Quot.sound
MLMC.C93_same_estimates: propext, Classical.choice, Quot.sound
MLMC.C93_unfinished_stays: propext, Classical.choice, Quot.sound
MLMC.C93_waiting_programs: propext, Classical.choice, Quot.sound
MLMC.C94_covariance_psd_counterexample: propext, Classical.choice, Quot.sound
MLMC.C94_covariance_psd_partial: propext, Classical.choice, Quot.sound
MLMC.C94_default_moments: propext, Quot.sound
MLMC.C94_diff_vars: propext, Classical.choice, Quot.sound
MLMC.C94_diff_vars_counterexample: propext, Quot.sound
MLMC.C94_zeroth_moment: propext, Classical.choice, Quot.sound
MLMC.Const.C98_chunks_broadcast: propext, Classical.choice, Quot.sound
MLMC.Const.C98_matrix_comparison_counterexample: propext, Quot.sound
MLMC.Const.C98_matrix_counterexample: propext, Classical.choice, Quot.sound
MLMC.Const.C98_matrix_selection_counterexample: propext
MLMC.Const.C98_number: propext, Quot.sound
MLMC.Const.C98_numpy_number_counterexample: none
MLMC.Const.C98_two_constants_counterexample: propext, Classical.choice, Quot.sound
MLMC.Const.C98_vector: propext, Quot.sound
MLMC.Const.C98_wrong_length_raises: propext, Quot.sound
MLMC.Dens.C103_all_moments_partial: propext, Classical.choice, Quot.sound
MLMC.Dens.C103_counterexample_cut: propext, Classical.choice, Quot.sound
MLMC.Dens.C103_error_partial: propext, Classical.choice, Quot.sound
MLMC.Dens.C103_kept_combinations: propext, Classical.choice, Quot.sound
MLMC.Dens.C103_mass: propext, Classical.choice, Quot.sound
MLMC.Dens.C103_refuses: propext, Classical.choice, Quot.sound
MLMC.Dist.C70_bounds: propext, Quot.sound
MLMC.Dist.C70_counterexample_normalization: propext, Classical.choice, Quot.sound
MLMC.Dist.C70_counterexample_order: propext, Classical.choice, Quot.sound
MLMC.Dist.C70_interior_monotone_partial: propext, Classical.choice, Quot.sound
MLMC.Dist.C70_monotone_partial: propext, Classical.choice, Quot.sound
MLMC.Dist.C70_sorted_partial: propext, Classical.choice, Quot.sound
MLMC.Dist.C78_counterexample: propext, Classical.choice, Quot.sound
MLMC.Dist.C78_counterexample_concrete: propext, Classical.choice, Quot.sound
MLMC.Dist.C78_counterexample_distribution: propext, Classical.choice, Quot.sound
MLMC.Dist.C78_integral_after: propext, Classical.choice, Quot.sound
MLMC.Dist.C96_kl_nonnegative: propext, Classical.choice, Quot.sound
MLMC.Dist.C96_kl_unnormalized_counterexample: propext, Classical.choice, Quot.sound
MLMC.Dist.C96_kl_value_partial: propext, Classical.choice, Quot.sound
MLMC.Dist.C96_kl_zero_counterexample: propext, Classical.choice, Quot.sound
MLMC.Dist.C96_l2_metric: propext, Classical.choice, Quot.sound
MLMC.Dist.C97_exact_covariance: propext, Classical.choice, Quot.sound
MLMC.Dist.C97_exact_symmetric: propext, Classical.choice, Quot.sound
MLMC.Dist.C97_semiexact_polynomial: propext, Classical.choice, Quot.sound
MLMC.Dist.C97_semiexact_semidefinite: propext, Classical.choice, Quot.sound
MLMC.ExCombine.C48_linear_nan_counterexample: propext, Classical.choice, Quot.sound
MLMC.ExTargetArrays.C140_counterexample: propext, Classical.choice, Quot.sound
MLMC.ExTime.C155_nan_counterexample: propext, Classical.choice, Quot.sound
MLMC.Fit.C121_counterexample_far: propext, Classical.choice, Quot.sound
MLMC.Fit.C121_counterexample_history: propext, Classical.choice, Quot.sound
MLMC.Fit.C121_lower_bound_partial: propext, Classical.choice, Quot.sound
MLMC.Fit.C121_quadrature_partial: propext, Classical.choice, Quot.sound
MLMC.Fit.C121_renewed_iff: propext, Classical.choice, Quot.sound
MLMC.Fit.C82_counterexample_clipped: propext, Classical.choice, Quot.sound
MLMC.Fit.C82_counterexample_grown: propext, Classical.choice, Quot.sound
MLMC.Fit.C82_counterexample_penalty: propext, Classical.choice, Quot.sound
MLMC.Fit.C82_gradient_distribution_partial: propext, Classical.choice, Quot.sound
MLMC.Fit.C82_gradient_partial: propext, Classical.choice, Quot.sound
MLMC.Fit.C82_hessian_partial: propext, Classical.choice, Quot.sound
MLMC.Fit.C82_positive_semidefinite: propext, Classical.choice, Quot.sound
MLMC.Fit.C82_symmetric: propext, Classical.choice, Quot.sound
MLMC.Fit.C83_convex_partial: propext, Classical.choice, Quot.sound
MLMC.Fit.C83_counterexample_no_minimum: propext, Classical.choice, Quot.sound
MLMC.Fit.C83_counterexample_start: propext, Classical.choice, Quot.sound
MLMC.Fit.C83_maximal_entropy_partial: propext, Classical.choice, Quot.sound
MLMC.Fit.C83_moment_error: propext, Classical.choice, Quot.sound
MLMC.Fit.C83_moments_minimize_partial: propext, Classical.choice, Quot.sound
MLMC.Fit.C83_stabilized_moments: propext, Classical.choice, Quot.sound
MLMC.Fit.C83_start_uniform: propext, Classical.choice, Quot.sound
MLMC.Fit.C83_start_uniform_simple_partial: propext, Classical.choice, Quot.sound
MLMC.Fit.C83_stationary_iff_moments: propext, Classical.choice, Quot.sound
MLMC.Fit.C83_unique_partial: propext, Classical.choice, Quot.sound
MLMC.Fl.C105_accuracy: propext, Classical.choice, Quot.sound
MLMC.Fl.C105_cancellation_counterexample: propext, Classical.choice, Quot.sound
MLMC.Fl.C105_exact: propext, Classical.choice, Quot.sound
MLMC.Fl.C105_factor: propext, Classical.choice, Quot.sound
MLMC.Fl.C105_mean_accuracy: propext, Classical.choice, Quot.sound
MLMC.Fl.C105_negative_variance_counterexample: propext, Classical.choice, Quot.sound
MLMC.Fl.C105_nonneg_partial: propext, Classical.choice, Quot.sound
MLMC.Fl.C105_var_accuracy: propext, Classical.choice, Quot.sound
MLMC.Fl.C158_constants: propext, Classical.choice, Quot.sound
MLMC.Fl.C158_error: propext, Classical.choice, Quot.sound
MLMC.Fl.C158_fourier_counterexample: propext, Classical.choice, Quot.sound
MLMC.Fl.C158_inside_partial: propext, Classical.choice, Quot.sound
MLMC.Fl.C158_interior: propext, Classical.choice, Quot.sound
MLMC.Fl.C158_no_sample_dropped_partial: propext, Classical.choice, Quot.sound
MLMC.Fl.C158_outside: propext, Classical.choice, Quot.sound
MLMC.Fl.C165_legendre: propext, Classical.choice, Quot.sound
MLMC.Fl.C165_monomial: propext, Classical.choice, Quot.sound
MLMC.Fl.C165_outside: propext, Classical.choice, Quot.sound
MLMC.Fl.C166_dropped: propext, Classical.choice, Quot.sound
MLMC.Fl.C166_legendre: propext, Classical.choice, Quot.sound
MLMC.Fl.C166_legendre_mean: propext, Classical.choice, Quot.sound
MLMC.Fl.C166_legendre_var: propext, Classical.choice, Quot.sound
MLMC.Fl.C166_monomial: propext, Classical.choice, Quot.sound
MLMC.Fl.C166_monomial_mean: propext, Classical.choice, Quot.sound
MLMC.Fl.C166_monomial_var: propext, Classical.choice, Quot.sound
MLMC.Fld.C61_counterexample_constant_names: propext, Classical.choice, Quot.sound
MLMC.Fld.C61_counterexample_other_region: propext, Classical.choice, Quot.sound
MLMC.Fld.C61_counterexample_shared_random_field: propext, Classical.choice, Quot.sound
MLMC.Fld.C61_sampling_succeeds: propext, Classical.choice, Quot.sound
MLMC.Fld.C61_values_at_own_points_partial: propext, Classical.choice, Quot.sound
MLMC.Flow.C114_common_files: propext, Classical.choice, Quot.sound
MLMC.Flow.C114_counterexample_default: propext, Classical.choice, Quot.sound
MLMC.Flow.C114_levels_share_runs_partial: propext, Classical.choice, Quot.sound
MLMC.Flow.C120_counterexample_other_fields: propext, Classical.choice, Quot.sound
MLMC.Flow.C120_counterexample_seed_unused: propext, Classical.choice, Quot.sound
MLMC.Flow.C120_counterexample_svd: propext, Classical.choice, Quot.sound
MLMC.Flow.C120_exact_decomposition_partial: propext, Classical.choice, Quot.sound
MLMC.Flow.C120_few_elements_partial: propext, Classical.choice, Quot.sound
MLMC.Flow.C63_counterexample_axes: propext, Classical.choice, Quot.sound
MLMC.Flow.C63_counterexample_unused: propext, Classical.choice, Quot.sound
MLMC.Flow.C63_different_regions_raise: propext, Classical.choice, Quot.sound
MLMC.Flow.C63_one_level_partial: propext, Classical.choice, Quot.sound
MLMC.Flow.C63_same_realization_partial: propext, Classical.choice, Quot.sound
MLMC.Flow.C67_initial_outflow: propext, Quot.sound
MLMC.Flow.C68_bulk_elements_partial: propext, Classical.choice, Quot.sound
MLMC.Flow.C68_counterexample: propext, Classical.choice, Quot.sound
MLMC.Flow.C68_unnamed_region: propext, Quot.sound
MLMC.Flow.C75_coarse_result_own_run: propext, Classical.choice, Quot.sound
MLMC.Flow.C75_counterexample_stale: propext, Classical.choice, Quot.sound
MLMC.Flow.C75_files_of_run: propext, Classical.choice, Quot.sound
MLMC.Flow.C75_fine_result_own_run_partial: propext, Classical.choice, Quot.sound
MLMC.Flow.C76_counterexample: propext, Classical.choice, Quot.sound
MLMC.Flow.C76_prepared_partial: propext, Classical.choice, Quot.sound
MLMC.Frac.C130_counterexample_overlap: propext, Classical.choice, Quot.sound
MLMC.Frac.C130_counterexample_side: propext, Classical.choice, Quot.sound
MLMC.Frac.C130_geometry_partial: propext, Classical.choice, Quot.sound
MLMC.Frac.C130_regions: propext, Classical.choice, Quot.sound
MLMC.Gm.C65_counterexample_carriage_return: propext, Classical.choice, Quot.sound
MLMC.Gm.C65_counterexample_five_components: propext, Classical.choice, Quot.sound
MLMC.Gm.C65_counterexample_repeated_element: propext, Classical.choice, Quot.sound
MLMC.Gm.C65_fields_roundtrip_partial: propext, Classical.choice, Quot.sound
MLMC.Gm.C66_counterexample_quotes: propext, Classical.choice, Quot.sound
MLMC.Gm.C66_counterexample_short_element: propext, Classical.choice, Quot.sound
MLMC.Gm.C66_counterexample_space: propext, Classical.choice, Quot.sound
MLMC.Gm.C66_line_ends: propext, Classical.choice, Quot.sound
MLMC.Gm.C66_listed_in_order: propext, Classical.choice, Quot.sound
MLMC.Gm.C66_mesh_roundtrip_partial: propext, Classical.choice, Quot.sound
MLMC.Gm.C66_same_text: propext, Classical.choice, Quot.sound
MLMC.Gm.C95_format1_counterexample: propext, Classical.choice, Quot.sound
MLMC.Gm.C95_format1_partial: propext, Classical.choice, Quot.sound
MLMC.Gs.C131_counterexample_dimension: propext, Quot.sound
MLMC.Gs.C131_counterexample_repeated: propext, Quot.sound
MLMC.Gs.C131_sample_partial: propext
MLMC.Mom.C116_counterexample_derivative: propext, Classical.choice, Quot.sound
MLMC.Mom.C116_counterexample_eval: propext, Classical.choice, Quot.sound
MLMC.Mom.C116_counterexample_fourier: propext, Classical.choice, Quot.sound
MLMC.Mom.C116_derivative_partial: propext, Classical.choice, Quot.sound
MLMC.Mom.C116_eval_matrix: propext, Classical.choice, Quot.sound
MLMC.Mom.C116_eval_vector: propext, Classical.choice, Quot.sound
MLMC.Mom.C116_moments_operation_partial: propext, Classical.choice, Quot.sound
MLMC.Mom.C116_number: propext, Classical.choice, Quot.sound
MLMC.Mom.C116_single_partial: propext, Classical.choice, Quot.sound
MLMC.Mom.C116_value_by_value_partial: propext, Classical.choice, Quot.sound
MLMC.Mom.C55_bounds: propext, Classical.choice, Quot.sound
MLMC.Mom.C55_inverse: propext, Classical.choice, Quot.sound
MLMC.Mom.C55_onto: propext, Classical.choice, Quot.sound
MLMC.Mom.C55_safe_eval: propext, Classical.choice, Quot.sound
MLMC.Mom.C55_strictly_increasing: propext, Classical.choice, Quot.sound
MLMC.Mom.C55_tiny_domain_counterexample: propext, Classical.choice, Quot.sound
MLMC.Mom.C55_unsafe_eval: propext, Classical.choice, Quot.sound
MLMC.Mom.C56_columns: propext, Classical.choice, Quot.sound
MLMC.Mom.C56_eval_is_column_partial: propext, Classical.choice, Quot.sound
MLMC.Mom.C56_fourier_counterexample: propext, Classical.choice, Quot.sound
MLMC.Mom.C56_fourier_eval_shifted: propext, Classical.choice, Quot.sound
MLMC.Mom.C56_nested: propext, Classical.choice, Quot.sound
MLMC.Mom.C56_single_is_column: propext, Classical.choice, Quot.sound
MLMC.Mom.C56_zeroth_is_one: propext, Classical.choice, Quot.sound
MLMC.Mom.C57_any_degree: propext, Classical.choice, Quot.sound
MLMC.Mom.C57_degree_one_two: propext, Classical.choice, Quot.sound
MLMC.Mom.C57_derivatives: propext, Classical.choice, Quot.sound
MLMC.Mom.C57_original_variable: propext, Classical.choice, Quot.sound
MLMC.Mom.C57_other_size: propext, Classical.choice, Quot.sound
MLMC.Mom.C58_any_degree: propext, Classical.choice, Quot.sound
MLMC.Mom.C58_composition: propext, Classical.choice, Quot.sound
MLMC.Mom.C58_derivatives: propext, Classical.choice, Quot.sound
MLMC.Mom.C58_nan: propext, Classical.choice, Quot.sound
MLMC.Mom.C58_shape: propext, Classical.choice, Quot.sound
MLMC.Mom.C58_values: propext, Classical.choice, Quot.sound
MLMC.Mom.C58_zeroth: propext, Classical.choice, Quot.sound
MLMC.Mom.C59_change_size_counterexample: propext, Classical.choice, Quot.sound
MLMC.Mom.C59_equal_objects_partial: propext, Classical.choice, Quot.sound
MLMC.Mom.C59_ref_domain_counterexample: propext, Classical.choice, Quot.sound
MLMC.Ortho.C84_counterexample_cut: propext, Classical.choice, Quot.sound
MLMC.Ortho.C84_first_moment_partial: propext, Classical.choice, Quot.sound
MLMC.Ortho.C84_means: propext, Classical.choice, Quot.sound
MLMC.Ortho.C84_orthonormal: propext, Classical.choice, Quot.sound
MLMC.Ortho.C84_orthonormal_threshold: propext, Classical.choice, Quot.sound
MLMC.Place.C118_absolute: propext, Classical.choice, Quot.sound
MLMC.Place.C118_counterexample_pbs: propext, Quot.sound
MLMC.Place.C118_counterexample_workspace: propext
MLMC.Place.C118_relative_partial: propext, Classical.choice, Quot.sound
MLMC.Process.C154_all_collected: propext, Classical.choice, Quot.sound
MLMC.Process.C154_commands: none
MLMC.Process.C154_environment_partial: propext, Classical.choice, Quot.sound
MLMC.Process.C154_paths: propext, Classical.choice, Quot.sound
MLMC.Process.C154_relative: propext, Classical.choice, Quot.sound
MLMC.Process.C154_renew_counterexample: none
MLMC.Process.C154_returns: propext, Classical.choice, Quot.sound
MLMC.Process.C154_root_counterexample: propext, Classical.choice, Quot.sound
MLMC.Process.C154_two_slashes_counterexample: propext, Classical.choice, Quot.sound
MLMC.Qstat.C100_exactly_finished_partial: propext, Quot.sound
MLMC.Qstat.C100_finished_found: propext, Quot.sound
MLMC.Qstat.C100_job_of_identifier: propext, Classical.choice, Quot.sound
MLMC.Qstat.C100_running_counterexample: propext, Classical.choice, Quot.sound
MLMC.Qstat.C100_submitted_id: propext
MLMC.Qstat.C100_taken_as_finished: propext, Quot.sound
MLMC.RF.C122_counterexample_mu: propext, Classical.choice, Quot.sound
MLMC.RF.C122_exponential: propext, Classical.choice, Quot.sound
MLMC.RF.C122_lognormal: propext, Classical.choice, Quot.sound
MLMC.RF.C122_mean_bounds_partial: propext, Classical.choice, Quot.sound
MLMC.RF.C60_counterexample: propext, Classical.choice, Quot.sound
MLMC.RF.C60_kozeny_carman_bound: propext, Classical.choice, Quot.sound
MLMC.RF.C60_kozeny_carman_monotone: propext, Classical.choice, Quot.sound
MLMC.RF.C60_positive_to_range_partial: propext, Classical.choice, Quot.sound
MLMC.RF.C62_counterexample_array_sigma: propext, Quot.sound
MLMC.RF.C62_counterexample_no_points: propext, Classical.choice, Quot.sound
MLMC.RF.C62_counterexample_stale_factor: propext, Classical.choice, Quot.sound
MLMC.RF.C62_counterexample_stale_matrix: propext, Classical.choice, Quot.sound
MLMC.RF.C62_first_sample_partial: propext, Quot.sound
MLMC.RF.C62_no_points: propext
MLMC.RF.C62_samples_latest_points_partial: propext, Quot.sound
MLMC.RF.C74_counterexample: propext, Classical.choice, Quot.sound
MLMC.RF.C74_sum_of_modes_first_attempt: propext, Classical.choice, Quot.sound
MLMC.RF.C74_sum_of_modes_partial: propext, Classical.choice, Quot.sound
MLMC.RF.C88_correlation_length: propext, Classical.choice, Quot.sound
MLMC.RF.C88_correlation_matrix_partial: propext, Classical.choice, Quot.sound
MLMC.RF.C88_counterexample_exponent: propext, Classical.choice, Quot.sound
MLMC.RF.C89_all_terms: propext, Classical.choice, Quot.sound
MLMC.RF.C89_counterexample_precision: propext, Classical.choice, Quot.sound
MLMC.RF.C89_mean_covariance_partial: propext, Classical.choice, Quot.sound
MLMC.RF.C89_precision: propext, Classical.choice, Quot.sound
MLMC.RF.C89_returns_exactly: propext, Classical.choice, Quot.sound
MLMC.RF.C89_terms: propext, Classical.choice, Quot.sound
MLMC.RF.Fourier.C90_counterexample_exponent: propext, Classical.choice, Quot.sound
MLMC.RF.Fourier.C90_counterexample_line: propext, Classical.choice, Quot.sound
MLMC.RF.Fourier.C90_counterexample_line_exp: propext, Classical.choice, Quot.sound
MLMC.RF.Fourier.C90_line_law: propext, Classical.choice, Quot.sound
MLMC.RF.Fourier.C90_plane_partial: propext, Classical.choice, Quot.sound
MLMC.Race.C119_counterexample_counts: propext, Classical.choice, Quot.sound
MLMC.Race.C119_counterexample_fraction: propext, Classical.choice, Quot.sound
MLMC.Race.C119_counterexample_threads: propext, Classical.choice, Quot.sound
MLMC.Race.C119_one_worker_partial: propext, Classical.choice, Quot.sound
MLMC.Race.C119_process_pool_fraction: propext, Classical.choice, Quot.sound
MLMC.Race.C119_process_pool_partial: propext, Classical.choice, Quot.sound
MLMC.Race.C119_separate_partial: propext, Classical.choice, Quot.sound
MLMC.Race.C119_undisturbed_partial: propext, Classical.choice, Quot.sound
MLMC.Read.C107_counterexample_more: propext, Classical.choice, Quot.sound
MLMC.Read.C107_level_samples_partial: propext, Classical.choice, Quot.sound
MLMC.Read.C107_memory_chunks: propext, Classical.choice, Quot.sound
MLMC.Read.C107_memory_level_samples: propext, Classical.choice, Quot.sound
MLMC.Reg.C80_counterexample_single: propext, Classical.choice, Quot.sound
MLMC.Reg.C80_counterexample_zero: propext, Classical.choice, Quot.sound
MLMC.Reg.C80_exact_data: propext, Classical.choice, Quot.sound
MLMC.Reg.C80_least_squares: propext, Classical.choice, Quot.sound
MLMC.Reg.C80_nearly_zero: propext, Classical.choice, Quot.sound
MLMC.Reg.C80_positive: propext, Classical.choice, Quot.sound
MLMC.Reg.C80_succeeds_partial: propext, Classical.choice, Quot.sound
MLMC.Reg.C80_unchanged: propext, Classical.choice, Quot.sound
MLMC.Reg.C80_up_to_four_levels: propext, Classical.choice, Quot.sound
MLMC.Script.C101_blank_counterexample: propext, Classical.choice, Quot.sound
MLMC.Script.C101_debug_counterexample: propext, Classical.choice, Quot.sound
MLMC.Script.C101_doubled_braces: propext, Classical.choice, Quot.sound
MLMC.Script.C101_job_parameters_partial: propext, Classical.choice, Quot.sound
MLMC.Script.C101_missing_value_raises: propext, Classical.choice, Quot.sound
MLMC.Script.C101_script: propext, Classical.choice, Quot.sound
MLMC.Script.C101_semicolon_counterexample: propext, Classical.choice, Quot.sound
MLMC.Script.C101_shell_variable_raises: propext, Classical.choice, Quot.sound
MLMC.Script.C101_undocumented_parameter: propext, Classical.choice, Quot.sound
MLMC.Shoot.C115_counterexample_2d: propext, Classical.choice, Quot.sound
MLMC.Shoot.C115_counterexample_equal_elements: propext, Classical.choice, Quot.sound
MLMC.Shoot.C115_levels_share_shots_partial: propext, Classical.choice, Quot.sound
MLMC.Shoot.C115_shot_converges: propext, Classical.choice, Quot.sound
MLMC.Slope.C99_best_window_partial: propext, Classical.choice, Quot.sound
MLMC.Slope.C99_coarse_window_partial: propext, Classical.choice, Quot.sound
MLMC.Slope.C99_detected: propext, Classical.choice, Quot.sound
MLMC.Slope.C99_equal_counterexample: propext, Classical.choice, Quot.sound
MLMC.Slope.C99_few_raise: propext, Classical.choice, Quot.sound
MLMC.Slope.C99_kept_positive_partial: propext, Classical.choice, Quot.sound
MLMC.Slope.C99_last_value_counterexample: propext, Classical.choice, Quot.sound
MLMC.Slope.C99_nothing_detected_counterexample: propext, Classical.choice, Quot.sound
MLMC.Slope.C99_orthonormal_partial: propext, Classical.choice, Quot.sound
MLMC.Slope.C99_three_moments_raise: propext, Classical.choice, Quot.sound
MLMC.Staged.C108_counterexample_newton: propext, Classical.choice, Quot.sound
MLMC.Staged.C108_counterexample_unit_domain: propext, Classical.choice, Quot.sound
MLMC.Staged.C108_sizes: propext, Classical.choice, Quot.sound
MLMC.Staged.C108_sizes_few: propext, Classical.choice, Quot.sound
MLMC.Staged.C108_stages_partial: propext, Classical.choice, Quot.sound
MLMC.Staged.C108_tolerances: propext, Classical.choice, Quot.sound
MLMC.Stat.C109_anova_level: propext, Classical.choice, Quot.sound
MLMC.Stat.C109_anova_normal: propext, Classical.choice, Quot.sound
MLMC.Stat.C109_anova_same_means: propext, Classical.choice, Quot.sound
MLMC.Stat.C109_chi2_level: propext, Classical.choice, Quot.sound
MLMC.Stat.C109_chi2_normal: propext, Classical.choice, Quot.sound
MLMC.Stat.C109_counterexample_t_exact: propext, Classical.choice, Quot.sound
MLMC.Stat.C109_counterexample_t_level: propext, Classical.choice, Quot.sound
MLMC.Stat.C109_counterexample_t_normal: propext, Classical.choice, Quot.sound
MLMC.Sub.C64_counterexample_nested: propext, Classical.choice, Quot.sound
MLMC.Sub.C64_counterexample_value: propext, Classical.choice, Quot.sound
MLMC.Sub.C64_every_template_has_pieces: propext, Quot.sound
MLMC.Sub.C64_reported_names_partial: propext, Quot.sound
MLMC.Sub.C64_substitution_partial: propext, Quot.sound
MLMC.Sub.C64_text_without_placeholders: propext, Quot.sound
MLMC.Syn.C127_counterexample_small_jobs: propext, Classical.choice, Quot.sound
MLMC.Syn.C127_first_of_job_fails: propext, Classical.choice, Quot.sound
MLMC.Syn.C127_fraction_of_jobs_partial: propext, Classical.choice, Quot.sound
MLMC.Syn.C127_no_failures: propext, Classical.choice, Quot.sound
MLMC.Syn.C127_other_distributions_fail: propext, Classical.choice, Quot.sound
MLMC.Syn.C69_coarse_zero: propext, Classical.choice, Quot.sound
MLMC.Syn.C69_counterexample: propext, Classical.choice, Quot.sound
MLMC.Syn.C69_declared_length: propext, Classical.choice, Quot.sound
MLMC.Syn.C69_error_of_step: propext, Classical.choice, Quot.sound
MLMC.Syn.C69_one_location_partial: propext, Classical.choice, Quot.sound
MLMC.Syn.C69_telescoping_partial: propext, Classical.choice, Quot.sound
MLMC.Syn.C77_failed_fraction: propext, Classical.choice, Quot.sound
MLMC.Syn.C77_first_fails: propext, Classical.choice, Quot.sound
MLMC.Syn.C77_no_failures: propext, Classical.choice, Quot.sound
MLMC.VarVar.C129_counterexample_broadcast: propext, Classical.choice, Quot.sound
MLMC.VarVar.C129_counterexample_broadcast_back: propext, Classical.choice, Quot.sound
MLMC.VarVar.C129_counterexample_stale: propext, Classical.choice, Quot.sound
MLMC.VarVar.C129_moments: propext, Classical.choice, Quot.sound
MLMC.VarVar.C129_nonneg: propext, Classical.choice, Quot.sound
MLMC.VarVar.C129_one_sample: propext, Classical.choice, Quot.sound
MLMC.VarVar.C129_saved_partial: propext, Classical.choice, Quot.sound
MLMC.VarVar.C129_variance: propext, Classical.choice, Quot.sound
MLMC.Work.C102_all_finish: propext, Classical.choice, Quot.sound
MLMC.Work.C102_no_current_directory: propext
MLMC.Work.C102_own_directory_partial: propext, Classical.choice, Quot.sound
MLMC.Work.C102_relative_debug_counterexample: propext, Classical.choice, Quot.sound
MLMC.Work.C102_relative_path_fails: propext, Quot.sound
MLMC.Work.C102_threads_counterexample: propext, Classical.choice, Quot.sound
MLMC.Work.C102_threads_wrong_directory: propext, Classical.choice, Quot.sound
MLMC.crashInRenew_full: propext, Quot.sound
