{"id": "C01", "title": "Sample identifiers are unique", "statement": "Two samples scheduled on different levels, or with different running numbers on one level, never receive the same sample identifier, however large the level or running number is.", "quantifier": "all pairs (level, running number), unbounded", "why_tests_cant": "A test samples a few identifiers; the zero-padded format changes width above 99 levels / 10^7 samples and must stay injective everywhere.", "anchors": ["mlmc/sampler.py:Sampler._get_sample_tag"]}
{"id": "C02", "title": "No identifier is ever scheduled twice by schedule_samples", "statement": "In every history of Sampler calls (set_initial_n_samples, set_level_target_n_samples, schedule_samples, process_adding_samples, polling, in any order and number), including closing the program between calls and building a new Sampler on the same HDF storage, the identifiers handed to the sampling pool by schedule_samples are pairwise distinct; if the program dies inside schedule_samples after handing samples over but before the storage recorded them, the next run hands the same identifiers over again as soon as its targets cover them.", "quantifier": "all histories of sampler calls, restarts and crash points", "why_tests_cant": "Needs an invariant over unbounded call histories with restarts, not a finite script.", "anchors": ["mlmc/sampler.py:Sampler.__init__", "mlmc/sampler.py:Sampler.schedule_samples", "mlmc/sample_storage_hdf.py:SampleStorageHDF.load_scheduled_samples"]}
{"id": "C03", "title": "schedule_samples schedules exactly up to the target", "statement": "After schedule_samples returns, the number of scheduled samples of each level is the maximum of the level's target and the number scheduled before; nothing is ever unscheduled, exactly the missing identifiers (consecutive running numbers) are handed to the pool with the level's own simulation object, and the storage's scheduled list grows by exactly those identifiers in that order.", "quantifier": "all level counts, all targets (also below the scheduled number), all previous states", "why_tests_cant": "Arithmetic over all targets and counts, all levels.", "anchors": ["mlmc/sampler.py:Sampler.schedule_samples", "mlmc/sample_storage.py:Memory.save_scheduled_samples"]}
{"id": "C04", "title": "Raising targets never lowers a target", "statement": "set_level_target_n_samples changes each listed level's target to the larger of old and requested value and leaves the other levels untouched; asking for the same numbers twice has no further effect.", "quantifier": "all target vectors and requests", "why_tests_cant": "Universal over vectors.", "anchors": ["mlmc/sampler.py:Sampler.set_level_target_n_samples"]}
{"id": "C05", "title": "process_adding_samples moves toward the estimate and terminates", "statement": "For an add coefficient in (0,1], one call never reduces the number of scheduled samples, never schedules beyond the rounded-up estimate (or an earlier target) on a level that is below it, strictly increases every level that is below its estimate, leaves levels at or above their estimate alone (unless an earlier target is still open), returns True only if no level is left below its estimate, and always returns True then if no earlier target was open; so repeating the call with a fixed estimate returns True after finitely many calls.", "quantifier": "all estimate vectors (real valued), all scheduled counts, all coefficients in (0,1], unbounded number of repetitions", "why_tests_cant": "Termination of a user-level while loop for all inputs is not testable.", "anchors": ["mlmc/sampler.py:Sampler.process_adding_samples", "mlmc/sampler.py:Sampler.set_scheduled_and_wait"]}
{"id": "C06", "title": "Polling stores everything it collects and reports completion truthfully", "statement": "ask_sampling_pool_for_samples hands every batch obtained from the pool to the storage, in order; without a timeout it returns only when the pool reported zero running samples, and then returns 0; with a positive timeout the returned number is what the pool last reported; with a timeout of zero or less it does not touch pool or storage and returns 1.", "quantifier": "all sequences of pool answers, all clock behaviours, all timeouts", "why_tests_cant": "Depends on all schedules of pool answers and clocks.", "anchors": ["mlmc/sampler.py:Sampler.ask_sampling_pool_for_samples", "mlmc/sampler.py:Sampler._store_samples"]}
{"id": "C07", "title": "Levels are chained: coarse of level l is fine of level l-1", "statement": "For any list of level parameters the sampler creates one level simulation per entry, numbered consecutively; level 0 gets the coarse parameters [0] and every later level gets as coarse parameters exactly the fine parameters of the level below.", "quantifier": "all level parameter lists", "why_tests_cant": "Universal over list lengths; the telescoping sum depends on it.", "anchors": ["mlmc/sampler.py:Sampler._create_level_sim_objects"]}
{"id": "C08", "title": "Default and geometric sample numbers", "statement": "set_initial_n_samples keeps an explicit vector of three or more entries unchanged; one number n is read as the pair (n,10), None as (100,10); a pair (n0,nL) is expanded to one number per level that starts with n0, ends with nL (for two or more levels) and is monotone in between.", "quantifier": "all level counts, all positive n0, nL", "why_tests_cant": "Endpoint and monotonicity law for all level counts and pairs.", "anchors": ["mlmc/sampler.py:Sampler.set_initial_n_samples", "mlmc/sampler.py:Sampler.sample_range"]}
{"id": "C09", "title": "In-process pool delivers every scheduled sample exactly once", "statement": "With OneProcessPool, for every interleaving of schedule_sample and get_finished calls, each scheduled sample is returned by exactly one get_finished call (the next one), either among the successful or among the failed ones of its own level, and the reported number of running samples is the number scheduled minus the number returned, so it is 0 after every get_finished.", "quantifier": "all sequences of schedule_sample/get_finished calls, all simulations (succeeding, raising, wrong size) whose common files can be copied", "why_tests_cant": "Invariant over unbounded call sequences.", "anchors": ["mlmc/sampling_pool.py:OneProcessPool.schedule_sample", "mlmc/sampling_pool.py:OneProcessPool.get_finished", "mlmc/sampling_pool.py:OneProcessPool._queues_to_list"]}
{"id": "C10", "title": "Parallel pool loses no result", "statement": "With ProcessPool/ThreadPool, for every interleaving of result callbacks with get_finished, every finished sample is eventually returned exactly once and the running count reaches zero when all samples have been returned.", "quantifier": "all interleavings of callback thread and polling thread, at the granularity of queue operations", "why_tests_cant": "Thread schedules cannot be enumerated by tests.", "anchors": ["mlmc/sampling_pool.py:OneProcessPool._queues_to_list", "mlmc/sampling_pool.py:ProcessPool.res_callback", "mlmc/sampling_pool.py:ProcessPool.schedule_sample"]}
{"id": "C11", "title": "A sample counts as successful only if the simulation returned a well-formed result", "statement": "calculate_sample reports an error message exactly when the simulation raised, returned something that is not a pair, or returned two arrays whose lengths are not both equal to the size declared by the result format (sum over quantities of prod(shape) * number of times * number of locations); otherwise it passes the simulation's result through unchanged.", "quantifier": "all result formats and all simulation outcomes", "why_tests_cant": "Universal over formats and results.", "anchors": ["mlmc/sampling_pool.py:SamplingPool.calculate_sample"]}
{"id": "C12", "title": "A sample's result depends only on its identifier and its level", "statement": "The random seed passed to the simulation is a function of the sample identifier alone: re-running a sample (renewal, another pool type, PBS job, another order) uses the same seed and configuration, so a deterministic simulation gives the same result in every pool and in every execution order.", "quantifier": "all schedules, all pools, all simulations that are functions of configuration and seed", "why_tests_cant": "Equality between all executions of different pools.", "anchors": ["mlmc/sampling_pool.py:SamplingPool.compute_seed", "mlmc/sampling_pool.py:SamplingPool.calculate_sample", "mlmc/sampling_pool_pbs.py:SamplingPoolPBS.schedule_sample", "mlmc/tool/pbs_job.py:PbsJob.calculate_samples"]}
{"id": "C13", "title": "Which sample directories survive", "statement": "Without debug mode a successful sample's working directory is kept (under several_successful) exactly when its running number is below 5 and is deleted from the output directory; a failed sample's directory is always kept under failed; with debug mode successful directories stay in place.", "quantifier": "all sample numbers, all outcomes", "why_tests_cant": "Holds for every running number; the code looks at the last seven characters only.", "anchors": ["mlmc/sampling_pool.py:SamplingPool.move_successful_rm", "mlmc/sampling_pool.py:SamplingPool.move_failed_rm", "mlmc/sampling_pool.py:OneProcessPool._process_result"]}
{"id": "C14", "title": "Accounted running time is the total over successful samples", "statement": "The per-level pair (total time, number of samples) reported by the in-process pool is the sum of running times and the number of the samples that finished successfully.", "quantifier": "all sequences of samples with any running times and outcomes", "why_tests_cant": "Universal over histories and outcomes.", "anchors": ["mlmc/sampling_pool.py:OneProcessPool._save_running_time", "mlmc/sampling_pool.py:SamplingPool.calculate_sample"]}
{"id": "C15", "title": "Stored sample pairs are read back exactly", "statement": "For both storages, after any sequence of save_samples calls, reading a level returns every stored fine/coarse pair exactly once, in the order of saving, with values unchanged; on level 0 only the fine part is returned.", "quantifier": "all sequences of batches, all levels, all values", "why_tests_cant": "Round-trip law over unbounded histories.", "anchors": ["mlmc/sample_storage.py:Memory.save_samples", "mlmc/sample_storage.py:Memory.sample_pairs_level", "mlmc/sample_storage_hdf.py:SampleStorageHDF.save_samples", "mlmc/tool/hdf5.py:LevelGroup.append_successful"]}
{"id": "C16", "title": "Finished counts equal successful plus failed", "statement": "For both storages, n_finished() at a level is the number of successful plus the number of failed samples saved for that level.", "quantifier": "all sequences of save_samples calls", "why_tests_cant": "Counter invariant over unbounded histories (including failure-first histories).", "anchors": ["mlmc/sample_storage.py:Memory._save_failed", "mlmc/sample_storage.py:Memory.n_finished", "mlmc/sample_storage_hdf.py:SampleStorageHDF.n_finished"]}
{"id": "C17", "title": "Chunks cover the collected samples exactly once", "statement": "Reading a level chunk by chunk and concatenating gives the same samples in the same order as reading it in one piece, for any chunk size; asking for n_samples gives one chunk with the first n_samples samples.", "quantifier": "all numbers of collected samples, all chunk sizes, all n", "why_tests_cant": "Partition law for all sizes.", "anchors": ["mlmc/sample_storage.py:SampleStorage.chunks", "mlmc/sample_storage.py:Memory._level_chunks", "mlmc/tool/hdf5.py:LevelGroup.chunks", "mlmc/tool/hdf5.py:LevelGroup.collected"]}
{"id": "C18", "title": "Unfinished identifiers are exactly scheduled minus finished", "statement": "For the HDF storage an identifier is reported by unfinished_ids() if and only if it was saved as scheduled and neither as successful nor as failed; each such identifier is reported once per level; when every scheduled sample has been saved as finished the list is empty.", "quantifier": "all histories of save_scheduled_samples/save_samples/clear_failed", "why_tests_cant": "Set algebra over unbounded histories.", "anchors": ["mlmc/tool/hdf5.py:LevelGroup.get_unfinished_ids", "mlmc/sample_storage_hdf.py:SampleStorageHDF.unfinished_ids"]}
{"id": "C19", "title": "HDF storage survives closing and reopening", "statement": "Opening an existing file and calling save_global_data with the same level parameters and result format yields a storage that answers every query as the one that was closed: scheduled, finished, failed, unfinished identifiers, sample pairs, cost estimates.", "quantifier": "all histories before closing, any number of reopenings", "why_tests_cant": "Persistence across unbounded histories.", "anchors": ["mlmc/sample_storage_hdf.py:SampleStorageHDF.__init__", "mlmc/sample_storage_hdf.py:SampleStorageHDF.save_global_data", "mlmc/tool/hdf5.py:HDF5.create_file_structure"]}
{"id": "C20", "title": "HDF storage never pairs an identifier with another sample's values", "statement": "At every point of every execution, including a crash between any two file operations followed by reopening and further saves, the i-th collected identifier belongs to the i-th stored pair of values.", "quantifier": "all histories and all crash points between dataset writes", "why_tests_cant": "Crash points cannot be enumerated by tests.", "anchors": ["mlmc/tool/hdf5.py:LevelGroup.append_successful", "mlmc/tool/hdf5.py:LevelGroup._append_dataset"]}
{"id": "C21", "title": "Failed samples can be renewed without losing or duplicating samples", "statement": "renew_failed_samples hands exactly the identifiers recorded as failed to the pool, each with the simulation of its level, does not change the number of scheduled samples, and leaves no failed record, so that after the pool has finished them every identifier is again finished exactly once.", "quantifier": "all storage states, all later outcomes, crash points inside the renewal", "why_tests_cant": "State invariant over histories with repeated renewals and crashes.", "anchors": ["mlmc/sampler.py:Sampler.renew_failed_samples", "mlmc/sample_storage_hdf.py:SampleStorageHDF.failed_samples", "mlmc/sample_storage_hdf.py:SampleStorageHDF.clear_failed"]}
{"id": "C22", "title": "Cost per sample is total time over number of samples", "statement": "get_n_ops() of a level is the total running time of its samples divided by their number, no matter in how many batches the results were collected and how often the pool was polled.", "quantifier": "all polling histories", "why_tests_cant": "Universal over the number of polls and batches.", "anchors": ["mlmc/sample_storage_hdf.py:SampleStorageHDF.save_n_ops", "mlmc/sample_storage_hdf.py:SampleStorageHDF.get_n_ops", "mlmc/sample_storage.py:Memory.save_n_ops", "mlmc/sample_storage.py:Memory.get_n_ops", "mlmc/sampling_pool.py:OneProcessPool.get_finished"]}
{"id": "C23", "title": "A storage refuses a different result format", "statement": "Saving global data into an existing HDF storage succeeds if and only if the given result format is the stored one; a format that differs in any name, unit, shape, time or location is refused with ValueError.", "quantifier": "all pairs of result formats", "why_tests_cant": "Universal over pairs of formats.", "anchors": ["mlmc/sample_storage_hdf.py:SampleStorageHDF.save_result_format", "mlmc/quantity/quantity_spec.py:QuantitySpec.__eq__"]}
{"id": "C24", "title": "Level list is consistent after opening with any number of levels", "statement": "After constructing a storage on a new or existing file and calling save_global_data with any number of levels, the storage reports level ids 0..n-1, each once, where n is the number of levels given.", "quantifier": "all pairs (stored number of levels, requested number of levels)", "why_tests_cant": "Universal over pairs of level counts.", "anchors": ["mlmc/sample_storage_hdf.py:SampleStorageHDF.save_global_data"]}
{"id": "C25", "title": "Memory and HDF storages are interchangeable", "statement": "For every sequence of save operations accepted by both, the two storages give the same answers to scheduled samples, sample pairs, collected counts and finished counts.", "quantifier": "all operation sequences", "why_tests_cant": "Refinement over unbounded histories.", "anchors": ["mlmc/sample_storage.py:Memory", "mlmc/sample_storage_hdf.py:SampleStorageHDF"]}
{"id": "C26", "title": "Every sample given to the PBS pool is in exactly one submitted job or still pending", "statement": "For every sequence of schedule_sample/execute calls and every pattern of qsub failures, each sample handed to the pool is either in the pending package or in the scheduled file of exactly one successfully submitted job, and never lost.", "quantifier": "all call sequences, all qsub success/failure patterns", "why_tests_cant": "All fault schedules.", "anchors": ["mlmc/sampling_pool_pbs.py:SamplingPoolPBS.schedule_sample", "mlmc/sampling_pool_pbs.py:SamplingPoolPBS.execute"]}
{"id": "C27", "title": "PBS packages respect the weight and count limits", "statement": "Right after schedule_sample returned with qsub working, the pending package has weight at most 1 and at most 1000 samples, and every submitted job exceeded one of these limits only by its last sample (or was flushed by get_finished).", "quantifier": "all sequences of task sizes", "why_tests_cant": "Universal over weight sequences.", "anchors": ["mlmc/sampling_pool_pbs.py:SamplingPoolPBS.schedule_sample"]}
{"id": "C28", "title": "qsub failures are tolerated up to ten in a row", "statement": "The pool raises an exception on a submission exactly when it is at least the eleventh consecutive failure; any success resets the count; the package that failed to submit is retried together with newer samples under the same job id.", "quantifier": "all success/failure sequences", "why_tests_cant": "All fault sequences.", "anchors": ["mlmc/sampling_pool_pbs.py:SamplingPoolPBS.execute"]}
{"id": "C29", "title": "PBS job numbers are never reused", "statement": "Two successfully submitted jobs have different job ids, also when the pool is recreated on an existing jobs directory.", "quantifier": "all histories with restarts, all directory listing orders", "why_tests_cant": "Directory order is unspecified; tests see one order.", "anchors": ["mlmc/sampling_pool_pbs.py:SamplingPoolPBS._get_job_count", "mlmc/sampling_pool_pbs.py:SamplingPoolPBS.execute"]}
{"id": "C30", "title": "Reading a finished job's results accounts for every sample of the job exactly once", "statement": "For every point at which the job process may have died (between any two file appends), read_results returns each sample scheduled in the job exactly once: as successful with its computed result if that was written, as failed with its error message if that was written, and otherwise as failed with 'job failed'; it returns no other sample.", "quantifier": "all jobs, all crash points, all simulation outcomes", "why_tests_cant": "Crash points and job contents are unbounded.", "anchors": ["mlmc/tool/pbs_job.py:PbsJob.read_results", "mlmc/tool/pbs_job.py:PbsJob.calculate_samples", "mlmc/tool/pbs_job.py:PbsJob._save_to_file"]}
{"id": "C31", "title": "PBS results are collected at most once and finally all", "statement": "For every order in which PBS jobs are reported finished (including qstat failures and repeated reports), the results of a job are returned by at most one get_finished call, and by the call in which the job is first reported as finished.", "quantifier": "all job completion orders and qstat answers", "why_tests_cant": "All schedules of an external batch system.", "anchors": ["mlmc/sampling_pool_pbs.py:SamplingPoolPBS._qstat_pbs_job", "mlmc/sampling_pool_pbs.py:SamplingPoolPBS._get_result_files"]}
{"id": "C32", "title": "PBS running count covers every unfinished job", "statement": "get_finished() reports as running exactly the samples of the submitted jobs that qstat does not report as finished; in particular it never reports 0 while a submitted job is unfinished, so the sampler does not stop waiting early.", "quantifier": "all sets of submitted jobs and all subsets reported finished", "why_tests_cant": "Universal over qstat answers.", "anchors": ["mlmc/sampling_pool_pbs.py:SamplingPoolPBS._qstat_pbs_job", "mlmc/sampling_pool_pbs.py:SamplingPoolPBS._get_result_files"]}
{"id": "C33", "title": "Samples unfinished at a crash are recovered from PBS job files", "statement": "After the main program was restarted on the same working directory, the first get_finished returns every unfinished sample whose job has written its outcome, successful or failed, exactly once; samples whose job is still running are returned by a later call.", "quantifier": "all sets of unfinished samples, all job states", "why_tests_cant": "All crash histories.", "anchors": ["mlmc/sampling_pool_pbs.py:SamplingPoolPBS._collect_unfinished", "mlmc/sampling_pool_pbs.py:SamplingPoolPBS.have_permanent_samples", "mlmc/tool/pbs_job.py:PbsJob.job_id_from_sample_id"]}
{"id": "C34", "title": "The sample to job map points to the latest job", "statement": "job_id_from_sample_id returns, for every sample ever packed, the id of the last job that was written with this sample, for every history of executes and retries.", "quantifier": "all histories of packages written since the output directory was last emptied", "why_tests_cant": "Map invariant over histories.", "anchors": ["mlmc/tool/pbs_job.py:PbsJob.save_sample_id_job_id", "mlmc/tool/pbs_job.py:PbsJob.job_id_from_sample_id"]}
{"id": "C35", "title": "A PBS job computes each scheduled sample with its own level's simulation and seed", "statement": "calculate_samples processes every scheduled triple exactly once, ordered by level and in scheduling order inside a level, with the level simulation of its own level and the stored seed; the last time record of a level carries the number of samples processed at the level.", "quantifier": "all job contents", "why_tests_cant": "Universal over job contents.", "anchors": ["mlmc/tool/pbs_job.py:PbsJob.calculate_samples", "mlmc/tool/pbs_job.py:PbsJob._get_level_id_sample_id_seed"]}
{"id": "C36", "title": "Named access addresses the right entries of the result vector", "statement": "For a root quantity made from any result format, root[name][time][location][i,j] evaluates, for every sample, to the entry of the flat simulation result at the position given by counting all entries in the documented order quantity, time, location, array index; distinct addresses give distinct entries and together they cover the whole vector. Nothing else can be addressed: other names, times, locations or indices are refused, in particular a location before a time.", "quantifier": "all result formats with distinct names/times/locations, all addresses, all samples", "why_tests_cant": "Index arithmetic for all formats.", "anchors": ["mlmc/quantity/quantity.py:make_root_quantity", "mlmc/quantity/quantity.py:Quantity.__getitem__", "mlmc/quantity/quantity_types.py:DictType.get_key", "mlmc/quantity/quantity_types.py:TimeSeriesType.get_key", "mlmc/quantity/quantity_types.py:FieldType.get_key", "mlmc/quantity/quantity_types.py:ArrayType.get_key"]}
{"id": "C37", "title": "A quantity's size is the number of values it evaluates to", "statement": "For every quantity built by indexing, arithmetic, concatenation (QArray, QDict, QTimeSeries, QField), moments or covariance from a root quantity, size() equals the number of component rows that evaluating it on any chunk gives.", "quantifier": "all quantity expressions, all chunks", "why_tests_cant": "Structural induction over all expressions.", "anchors": ["mlmc/quantity/quantity_types.py:QType.size", "mlmc/quantity/quantity_estimate.py:moments", "mlmc/quantity/quantity_estimate.py:covariance", "mlmc/quantity/quantity_types.py:QType.replace_scalar"]}
{"id": "C38", "title": "Chunked evaluation equals whole evaluation", "statement": "Evaluating any sample-wise quantity expression (indexing, arithmetic with quantities and constants, selection, concatenation, moments) chunk by chunk and joining the chunks gives the same samples as evaluating it on all samples of the level at once.", "quantifier": "all expressions, all partitions into chunks", "why_tests_cant": "Induction over expressions and partitions.", "anchors": ["mlmc/quantity/quantity.py:Quantity.samples", "mlmc/quantity/quantity.py:Quantity.select"]}
{"id": "C39", "title": "Selection keeps exactly the samples satisfying the conditions", "statement": "q.select(c1,...,ck) evaluates to the samples of q, in order and unchanged, for which every component, fine and coarse, satisfies every condition.", "quantifier": "all quantities, all conditions, all chunks", "why_tests_cant": "Universal over samples and predicates.", "anchors": ["mlmc/quantity/quantity.py:Quantity.select", "mlmc/quantity/quantity.py:Quantity._process_mask", "mlmc/quantity/quantity.py:Quantity._mask_quantity"]}
{"id": "C40", "title": "Quantities from different selections or storages cannot be mixed", "statement": "Combining two quantities that carry different selections or come from different storages raises; constants combine with everything.", "quantifier": "all pairs of quantity expressions", "why_tests_cant": "Structural over all expressions.", "anchors": ["mlmc/quantity/quantity.py:Quantity.set_selection_id", "mlmc/quantity/quantity.py:Quantity._check_selection_ids"]}
{"id": "C41", "title": "Composed quantities give back their parts", "statement": "Indexing QArray, QDict, QTimeSeries or QField results with a key of a part evaluates to exactly that part.", "quantifier": "all lists of parts of equal type, all keys", "why_tests_cant": "Round-trip law for all shapes.", "anchors": ["mlmc/quantity/quantity.py:Quantity.QArray", "mlmc/quantity/quantity.py:Quantity.QDict", "mlmc/quantity/quantity.py:Quantity.QTimeSeries", "mlmc/quantity/quantity.py:Quantity.QField", "mlmc/quantity/quantity.py:Quantity._concatenate"]}
{"id": "C42", "title": "Evaluation caching is invisible", "statement": "Evaluating quantities with the cache returns what evaluation without the cache would return, in every history of evaluations, storage growth, and creation and garbage collection of quantity objects.", "quantifier": "all histories of evaluations and storage changes", "why_tests_cant": "Stale-cache bugs depend on histories and object identity reuse.", "anchors": ["mlmc/quantity/quantity.py:Quantity.get_cache_key", "mlmc/quantity/quantity.py:Quantity.samples", "mlmc/quantity/quantity_estimate.py:cache_clear"]}
{"id": "C43", "title": "Subsampling returns the requested number of samples", "statement": "subsample(sample_vec) evaluates over all chunks of a level to exactly sample_vec[level] samples, all of them distinct stored samples.", "quantifier": "all chunkings, all random draws", "why_tests_cant": "Universal over random outcomes and chunkings.", "anchors": ["mlmc/quantity/quantity.py:Quantity.subsample", "mlmc/quantity/quantity.py:Quantity.pick_samples"]}
{"id": "C44", "title": "Time interpolation is exact at the nodes and linear between", "statement": "time_interpolation(t) gives the stored values when t is one of the times, and the linear interpolation of the neighbouring stored values otherwise.", "quantifier": "all increasing time lists, all t inside the range", "why_tests_cant": "Universal over time grids.", "anchors": ["mlmc/quantity/quantity_types.py:TimeSeriesType.time_interpolation"]}
{"id": "C45", "title": "Mean estimate does not depend on chunking or sample order", "statement": "estimate_mean gives the same level means, level variances and sample counts for every chunk size and for every order of the samples of a level.", "quantifier": "all data sets, all chunkings, all permutations", "why_tests_cant": "Universal over partitions and permutations.", "anchors": ["mlmc/quantity/quantity_estimate.py:estimate_mean"]}
{"id": "C46", "title": "Level mean and variance are the textbook estimators", "statement": "For each level estimate_mean returns the arithmetic mean of the level differences (fine on level 0, fine minus coarse above) and their unbiased sample variance (sum of squared deviations over n-1, non-negative); the total mean is the sum of the level means and the total variance the sum of level variance over sample number.", "quantifier": "all data sets with at least two valid samples at each level", "why_tests_cant": "The implementation uses a one-pass formula; equality with the definition must hold for all data.", "anchors": ["mlmc/quantity/quantity_estimate.py:estimate_mean", "mlmc/quantity/quantity.py:QuantityMean._calculate_mean_var"]}
{"id": "C47", "title": "NaN samples are dropped completely and counted", "statement": "A sample with a NaN in any component, fine or coarse, does not influence the estimate at all, and for each level number of used plus number of dropped samples is the number of collected samples; if every sample of every level is dropped the estimation raises.", "quantifier": "all data sets with any NaN pattern", "why_tests_cant": "Universal over NaN patterns.", "anchors": ["mlmc/quantity/quantity_estimate.py:mask_nan_samples", "mlmc/quantity/quantity_estimate.py:estimate_mean"]}
{"id": "C48", "title": "Mean estimation is linear and commutes with indexing", "statement": "The estimated mean of a linear combination of quantities (without NaN samples) is the linear combination of the estimated means, and indexing the QuantityMean of q gives the estimate of the indexed q.", "quantifier": "all data, all coefficients, all keys", "why_tests_cant": "Algebraic law over all data.", "anchors": ["mlmc/quantity/quantity_estimate.py:estimate_mean", "mlmc/quantity/quantity.py:QuantityMean.__getitem__"]}
{"id": "C49", "title": "Telescoping: consistent levels give the finest-level mean", "statement": "If on every level the coarse values are, sample set by sample set, averages equal to the fine averages of the level below, the MLMC mean equals the finest-level fine average; with all levels identical in fine and coarse the estimate is the level-0 average.", "quantifier": "all data sets, all numbers of levels", "why_tests_cant": "Algebraic law over all data.", "anchors": ["mlmc/quantity/quantity_estimate.py:estimate_mean", "mlmc/quantity/quantity.py:QuantityMean.mean"]}
{"id": "C50", "title": "Moment and covariance quantities have the documented layout", "statement": "moments(q) with moments at the bottom has at row m*R+r the r-th moment of component m (on the surface: row r*M+m), covariance(q) at row (m*R+i)*R+j the product of i-th and j-th moments of component m, fine and coarse separately; consequently the covariance estimate is symmetric with moment 0 row equal to the moment means when the zeroth moment is 1.", "quantifier": "all sizes M, R, all samples", "why_tests_cant": "Index arithmetic for all sizes.", "anchors": ["mlmc/quantity/quantity_estimate.py:moments", "mlmc/quantity/quantity_estimate.py:covariance"]}
{"id": "C51", "title": "Sample allocation follows the optimal formula within its bounds", "statement": "estimate_n_samples_for_target_variance gives each level at least 2 samples; for each moment the number is the rounded optimum sqrt(V_l/C_l)*sum_k sqrt(V_k C_k)/target limited by V_l*L/target; the result does not decrease when the target variance decreases.", "quantifier": "all non-negative variances, positive costs and targets, all level counts", "why_tests_cant": "Real inequality over all inputs.", "anchors": ["mlmc/estimator.py:estimate_n_samples_for_target_variance"]}
{"id": "C52", "title": "The allocated sample numbers meet the variance target", "statement": "With the allocated numbers of samples the predicted variance sum_l V_l/n_l of every moment does not exceed the requested target variance (up to rounding).", "quantifier": "all variances, costs, targets", "why_tests_cant": "Real inequality over all inputs.", "anchors": ["mlmc/estimator.py:estimate_n_samples_for_target_variance"]}
{"id": "C53", "title": "Level parameters interpolate geometrically between the step bounds", "statement": "determine_level_parameters gives n_levels steps, starting at the coarsest and ending at the finest step, strictly decreasing with constant ratio; for one level it is the finest step; a step range that is not decreasing is refused.", "quantifier": "all level counts and positive step ranges", "why_tests_cant": "Universal over level counts and ranges.", "anchors": ["mlmc/estimator.py:determine_level_parameters", "mlmc/estimator.py:calc_level_params"]}
{"id": "C54", "title": "The estimated domain covers the samples of every level", "statement": "Estimate.estimate_domain returns bounds that enclose the requested quantile range of the fine samples of each level.", "quantifier": "all data sets and numbers of levels", "why_tests_cant": "Universal over data.", "anchors": ["mlmc/estimator.py:Estimate.estimate_domain"]}
{"id": "C55", "title": "Moment transform maps the domain onto the reference domain and is invertible", "statement": "For moment functions on a domain (a,b) the linear transform maps a to the lower and b to the upper reference bound, is strictly increasing, and inv_transform(transform(x)) = x; with safe_eval exactly the points outside the domain become NaN.", "quantifier": "all domains with a<b, all reference domains, all x", "why_tests_cant": "Real algebra over all inputs.", "anchors": ["mlmc/moments.py:Moments.linear", "mlmc/moments.py:Moments.inv_linear", "mlmc/moments.py:Moments.clip"]}
{"id": "C56", "title": "Moment families are nested and zeroth moment is one", "statement": "Evaluating with a larger size only appends columns (the first columns are unchanged), the zeroth moment is 1 at every valid point, and eval(i, x) and eval_single_moment agree with column i of eval_all.", "quantifier": "all sizes and points, Monomial, Legendre and Fourier", "why_tests_cant": "Universal over sizes.", "anchors": ["mlmc/moments.py:Moments.eval", "mlmc/moments.py:Monomial._eval_all", "mlmc/moments.py:Legendre._eval_all", "mlmc/moments.py:Fourier._eval_all", "mlmc/moments.py:Fourier.eval"]}
{"id": "C57", "title": "Legendre derivative matrix differentiates", "statement": "eval_diff returns the derivatives of the Legendre moments with respect to the transformed variable and eval_diff2 the second derivatives, at every point and for every size.", "quantifier": "all sizes, all points", "why_tests_cant": "Polynomial identity for all degrees.", "anchors": ["mlmc/moments.py:Legendre.__init__", "mlmc/moments.py:Legendre._eval_diff", "mlmc/moments.py:Legendre._eval_diff2"]}
{"id": "C58", "title": "Transformed moments are the given linear combinations", "statement": "TransformedMoments(base, A) evaluates to A applied to the base moments (values and derivatives), for any size at most the number of rows; composing two transforms is the transform by the product matrix, and if the first row of A is (1,0,...) the zeroth moment stays 1.", "quantifier": "all base moments, all matrices", "why_tests_cant": "Linear algebra over all matrices.", "anchors": ["mlmc/moments.py:TransformedMoments"]}
{"id": "C59", "title": "Equal moment objects evaluate equally", "statement": "If two moment objects compare equal they return the same values at all points; change_size returns an object of the new size with the same domain and transform.", "quantifier": "all pairs of moment objects", "why_tests_cant": "Universal over constructor arguments.", "anchors": ["mlmc/moments.py:Moments.__eq__", "mlmc/moments.py:Moments.change_size"]}
{"id": "C60", "title": "Field value maps stay in their ranges", "statement": "positive_to_range maps [0,inf) strictly increasingly into [a,b) with 0 mapped to a; kozeny_carman never returns less than 1e-15 and is monotone in porosity on the clipped range.", "quantifier": "all real arguments", "why_tests_cant": "Real inequalities.", "anchors": ["mlmc/random/correlated_field.py:positive_to_range", "mlmc/random/correlated_field.py:kozeny_carman"]}
{"id": "C61", "title": "Fields place region samples at the right mesh points", "statement": "Fields.sample() returns for every outer field a vector over all mesh points that contains the field's sampled value at each point of the field's regions and 0 elsewhere; a dependent field is evaluated from the values its parameter fields have in the same sample.", "quantifier": "all meshes, region assignments and field sets", "why_tests_cant": "Universal over meshes and region maps.", "anchors": ["mlmc/random/correlated_field.py:Fields.set_points", "mlmc/random/correlated_field.py:Fields.sample", "mlmc/random/correlated_field.py:Fields._get_field_obj"]}
{"id": "C62", "title": "A random field is sampled at the points set last", "statement": "sample() of a spatially correlated field returns one value for each of the points passed to the latest set_points call.", "quantifier": "all sequences of set_points and sample", "why_tests_cant": "History dependent.", "anchors": ["mlmc/random/correlated_field.py:RandomFieldBase.set_points", "mlmc/random/correlated_field.py:SpatialCorrelatedField._sample"]}
{"id": "C63", "title": "Fine and coarse simulations see the same random field", "statement": "FlowSim splits one joint field sample: the fine run gets the values at the fine mesh points and the coarse run the values at the coarse mesh points, in mesh order, from the same realization; with coarse step 0 there is no coarse run and the coarse result is 0.", "quantifier": "all meshes and samples", "why_tests_cant": "Universal over meshes.", "anchors": ["mlmc/tool/flow_mc.py:FlowSim.make_fields", "mlmc/tool/flow_mc.py:FlowSim.generate_random_sample", "mlmc/tool/flow_mc.py:FlowSim.calculate"]}
{"id": "C64", "title": "Placeholder substitution replaces all and only the given names", "statement": "substitute_placeholders replaces every occurrence of '<name>' for each parameter by its value and reports exactly the names that occurred; text without placeholders is unchanged.", "quantifier": "all templates and parameter dictionaries", "why_tests_cant": "Universal over strings.", "anchors": ["mlmc/tool/flow_mc.py:substitute_placeholders"]}
{"id": "C65", "title": "Field files written for Flow123d are read back identically", "statement": "Reading a file written by write_fields gives for each field name the written values for each element id.", "quantifier": "all element id lists, field names, value tables", "why_tests_cant": "Parser/printer round trip over all inputs.", "anchors": ["mlmc/tool/gmsh_io.py:GmshIO.write_fields", "mlmc/tool/gmsh_io.py:GmshIO.write_element_data", "mlmc/tool/gmsh_io.py:GmshIO.read"]}
{"id": "C66", "title": "Meshes written by write_ascii are read back identically", "statement": "Reading a file written by write_ascii gives the same nodes, elements and physical names.", "quantifier": "all meshes", "why_tests_cant": "Parser/printer round trip over all inputs.", "anchors": ["mlmc/tool/gmsh_io.py:GmshIO.write_ascii", "mlmc/tool/gmsh_io.py:GmshIO.read"]}
{"id": "C67", "title": "Extracted flux is the initial-time outflow", "statement": "_extract_result returns minus the sum of the fluxes through '.bc_outflow' over the leading records with time <= 0, and raises if there is none or if an inflow above the tolerance 1e-10 is recorded there.", "quantifier": "all balance files", "why_tests_cant": "Universal over record sequences.", "anchors": ["mlmc/tool/flow_mc.py:FlowSim._extract_result"]}
{"id": "C68", "title": "Boundary elements are excluded from the computational mesh", "statement": "extract_mesh returns exactly the elements whose region name does not start with '.', in mesh order, each with its region id and the average of its nodes.", "quantifier": "all meshes", "why_tests_cant": "Universal over meshes.", "anchors": ["mlmc/tool/flow_mc.py:FlowSim.extract_mesh"]}
{"id": "C69", "title": "Synthetic simulation couples fine and coarse through one random draw", "statement": "SynthSimulation uses the same random numbers for fine and coarse; the coarse result of level l is the same function of the random numbers as the fine result of level l-1 (so the telescoping sum is valid); results have the declared length, and differ from the random numbers by an error proportional to the step.", "quantifier": "all seeds, steps, result formats", "why_tests_cant": "Functional equality over all seeds.", "anchors": ["mlmc/sim/synth_simulation.py:SynthSimulation.calculate", "mlmc/sim/synth_simulation.py:SynthSimulation.level_instance"]}
{"id": "C70", "title": "Approximated distribution function is a distribution function", "statement": "The cdf of an approximated distribution is 0 at and below the lower domain bound, 1 at and above the upper bound, and monotone for a non-negative density.", "quantifier": "all densities, all argument lists", "why_tests_cant": "Universal over arguments.", "anchors": ["mlmc/tool/simple_distribution.py:SimpleDistribution.cdf", "mlmc/tool/distribution.py:Distribution.cdf"]}
{"id": "C71", "title": "A second sampler on the same storage object keeps the stored data", "statement": "Calling save_global_data again on a live storage object with the same level parameters and result format (as the Sampler constructor does) keeps every stored sample accessible.", "quantifier": "all stored contents, formats, level parameter lists", "why_tests_cant": "Must hold for every history of stored samples before the second call.", "anchors": ["mlmc/sample_storage_hdf.py:SampleStorageHDF.save_global_data", "mlmc/tool/hdf5.py:HDF5.create_file_structure", "mlmc/tool/hdf5.py:HDF5.clear_groups"]}
{"id": "C72", "title": "A stored result format is loaded back identically", "statement": "load_result_format returns the list of quantity specifications that was saved (names, units, shapes, times, locations of every quantity), and saving the same format again is accepted.", "quantifier": "all result formats", "why_tests_cant": "Round trip over all formats; tests use one format.", "anchors": ["mlmc/sample_storage_hdf.py:SampleStorageHDF._hdf_result_format", "mlmc/sample_storage_hdf.py:SampleStorageHDF.load_result_format", "mlmc/tool/hdf5.py:HDF5.save_result_format", "mlmc/tool/hdf5.py:HDF5.load_result_format"]}
{"id": "C73", "title": "Numbers of samples are interpolated geometrically between the first and last level", "statement": "determine_n_samples returns one number for each level, starting with the first given number and ending with the last one, not increasing and between the two; the defaults are 100 and 3; three and more numbers are returned unchanged. determine_sample_vec uses the given vector, otherwise the numbers of collected samples, and keeps at most one entry for each level.", "quantifier": "all level counts, all positive first and last numbers", "why_tests_cant": "Universal over level counts and numbers, with rounding.", "anchors": ["mlmc/estimator.py:determine_n_samples", "mlmc/estimator.py:determine_sample_vec"]}
{"id": "C74", "title": "Summing Fourier modes does not depend on the memory available", "statement": "The field value computed by FourierSpatialCorrelatedField is the (scaled) sum of the contributions of all modes, each taken exactly once, whether or not the summation had to be split into chunks because memory ran out.", "quantifier": "all numbers of modes, all patterns of memory failures", "why_tests_cant": "Depends on when memory runs out, which tests do not control.", "anchors": ["mlmc/random/correlated_field.py:FourierSpatialCorrelatedField.random_field"]}
{"id": "C75", "title": "Sample results come from the sample's own runs", "statement": "The fine and the coarse result FlowSim returns for a sample are the outflows written by the runs of the flow solver for that sample; a run that writes no balance file makes the sample fail instead of returning a number.", "quantifier": "all solvers, all contents of the sample directory", "why_tests_cant": "Depends on what an external program writes or leaves unwritten.", "anchors": ["mlmc/tool/flow_mc.py:FlowSim.calculate", "mlmc/tool/flow_mc.py:FlowSim._run_sample", "mlmc/sampling_pool.py:SamplingPool.change_to_sample_directory"]}
{"id": "C76", "title": "Common files are prepared before samples and may be reused", "statement": "After level_instance the common files of every level hold the meshes and substituted inputs its samples read; a FlowSim created with clean=False reuses existing common files and computes the same samples as with clean=True.", "quantifier": "all steps, all configurations", "why_tests_cant": "Quantifies over configurations and earlier contents of the work directory.", "anchors": ["mlmc/tool/flow_mc.py:FlowSim.level_instance", "mlmc/tool/flow_mc.py:FlowSim._make_mesh", "mlmc/tool/flow_mc.py:FlowSim.calculate"]}
{"id": "C77", "title": "Artificial failures of the synthetic simulation match the requested fraction", "statement": "Among the first n samples calculated by SynthSimulation with nan_fraction p the number of failing ones is p*n rounded up (so the first one fails if p is positive, none if it is zero).", "quantifier": "all fractions, all numbers of samples", "why_tests_cant": "Needs an invariant over all call sequences.", "anchors": ["mlmc/sim/synth_simulation.py:SynthSimulation.sample_fn", "mlmc/sim/synth_simulation.py:SynthSimulation.calculate"]}
{"id": "C78", "title": "The estimated density integrates to one", "statement": "After estimate_density_minimize the density of the approximated distribution integrates to one over its domain, whatever multipliers the optimizer returned.", "quantifier": "all multipliers returned by the optimizer, all moment functions", "why_tests_cant": "Universal over optimizer outcomes.", "anchors": ["mlmc/tool/simple_distribution.py:SimpleDistribution.estimate_density_minimize", "mlmc/tool/distribution.py:Distribution.estimate_density_minimize"]}
{"id": "C79", "title": "Bootstrap estimates are statistics of resampled estimates", "statement": "est_bootstrap(n_subsamples, sample_vector) evaluates n_subsamples estimates, each on random subsamples of the requested sizes, and returns without raising for every quantity, moment functions and stored samples.", "quantifier": "all quantities, moment functions, stored samples and random draws", "why_tests_cant": "Universal over random draws and stored data.", "anchors": ["mlmc/estimator.py:Estimate.est_bootstrap", "mlmc/quantity/quantity.py:Quantity.subsample", "mlmc/quantity/quantity.py:Quantity.select"]}
{"id": "C80", "title": "Regression of level variances", "statement": "estimate_diff_vars_regression keeps the variances of the first level and of the zeroth moment, changes nothing for fewer than three levels, returns positive variances on the other levels which are the least squares fit of log variance by a quadratic polynomial of log step (so exact data and up to four levels are not changed), for every table of non-negative variances.", "quantifier": "all numbers of levels and moments, all variances and steps", "why_tests_cant": "Universal over real-valued tables; least squares solutions are not unique.", "anchors": ["mlmc/estimator.py:Estimate.estimate_diff_vars_regression", "mlmc/estimator.py:Estimate._moment_variance_regression"]}
{"id": "C81", "title": "Adding samples waits for half of the new samples and no longer", "statement": "The wait in process_adding_samples ends only when at least half of the scheduled samples have finished on every level below its estimate, stores everything it collected on the way, and always ends once the pool has finished all its samples.", "quantifier": "all sequences of pool answers, all clocks, timeouts and storages", "why_tests_cant": "Termination over all schedules of the pool.", "anchors": ["mlmc/sampler.py:Sampler.set_scheduled_and_wait", "mlmc/sampler.py:Sampler.process_adding_samples"]}
{"id": "C82", "title": "The density fit hands the optimizer consistent derivatives", "statement": "For every quadrature, every prescribed moments and every multipliers, the gradient returned to the optimizer is the derivative of the minimized functional in every direction, the returned matrix of second derivatives is the derivative of that gradient, and it is symmetric and positive semidefinite.", "quantifier": "all numbers of moments and quadrature points, all multipliers, all directions", "why_tests_cant": "Derivatives at all points; finite differences test a few points to a few digits.", "anchors": ["mlmc/tool/simple_distribution.py:SimpleDistribution._calculate_functional", "mlmc/tool/simple_distribution.py:SimpleDistribution._calculate_gradient", "mlmc/tool/simple_distribution.py:SimpleDistribution._calculate_jacobian_matrix", "mlmc/tool/distribution.py:Distribution._calculate_gradient"]}
{"id": "C83", "title": "A successful density fit is the maximum entropy density with the prescribed moments", "statement": "When the optimizer stops at a point with zero gradient, the fitted density has exactly the prescribed moments (within tol times the moment error when the gradient is bounded by tol), it minimizes the functional, no other multipliers do, and no other density with these moments has larger entropy. The fit starts from the uniform density on the domain.", "quantifier": "all moment data, quadratures with positive weights, all competing densities", "why_tests_cant": "Optimality against all competitors.", "anchors": ["mlmc/tool/simple_distribution.py:SimpleDistribution.estimate_density_minimize", "mlmc/tool/simple_distribution.py:SimpleDistribution._initialize_params", "mlmc/estimator.py:Estimate.construct_density"]}
{"id": "C84", "title": "Constructed orthogonal moments are orthonormal, start with 1 and have mean 0", "statement": "For every estimated covariance matrix of moments starting with the constant 1 and every tolerance, the moments returned by construct_ortogonal_moments have the identity as matrix of mean products, the first of them is the constant 1 and all others have mean 0.", "quantifier": "all numbers of moments, all symmetric covariance matrices, all results the eigenvalue and RQ routines may return, all thresholds", "why_tests_cant": "All matrices and all admissible factorizations; a test sees one factorization of one matrix to a few digits.", "anchors": ["mlmc/tool/simple_distribution.py:construct_ortogonal_moments", "mlmc/moments.py:TransformedMoments", "mlmc/estimator.py:Estimate.construct_density"]}
{"id": "C85", "title": "A whole program stores exactly the results of the samples it asked for", "statement": "A program that creates a sampler on a new HDF storage with a OneProcessPool and makes any sequence of calls (setting initial and target numbers, scheduling, asking with any timeouts, renewing failed samples) runs without exception, and every call returns. After a final ask without timeout the storage lists on every level exactly the requested samples as scheduled, holds identifiers and results of exactly those whose simulation returned a well formed result, each once and in order, lists all others as failed, each once, and none as unfinished; n_finished equals the requested numbers.", "quantifier": "all programs, numbers of levels, simulations (any mixture of results, exceptions, wrong formats), durations and timeouts", "why_tests_cant": "All sequences of calls combined with all behaviours of the simulations; the parts are tested alone, their composition in a few scripts.", "anchors": ["mlmc/sampler.py:Sampler.schedule_samples", "mlmc/sampler.py:Sampler.ask_sampling_pool_for_samples", "mlmc/sampler.py:Sampler.renew_failed_samples", "mlmc/sampler.py:Sampler._store_samples", "mlmc/sampling_pool.py:OneProcessPool.schedule_sample", "mlmc/sampling_pool.py:OneProcessPool.get_finished", "mlmc/sample_storage_hdf.py:SampleStorageHDF.save_samples"]}
{"id": "C86", "title": "What a whole program estimates are the textbook estimators over the requested samples", "statement": "After such a program, estimate_mean of any quantity built on its storage gives, if it returns, on every level the number of used and dropped samples, the arithmetic mean and the unbiased variance of the differences over exactly the well formed results of the requested samples, whatever the order of calls, timeouts, failures and HDF chunk lengths. It returns if the quantity can be evaluated and some sample gives a value without NaN; it raises if some level has no well formed result.", "quantifier": "all programs, simulations returning arrays, quantities built with the API, chunk lengths", "why_tests_cant": "Composition of sampler, pool, storage, chunking and estimation for all inputs.", "anchors": ["mlmc/quantity/quantity_estimate.py:estimate_mean", "mlmc/sample_storage_hdf.py:SampleStorageHDF.sample_pairs_level", "mlmc/sample_storage.py:SampleStorage.chunks", "mlmc/tool/hdf5.py:LevelGroup.chunks", "mlmc/sampler.py:Sampler"]}
{"id": "C87", "title": "Estimates from random samples are unbiased", "statement": "If on every level samples are drawn independently from the distribution of that level, then the expectation of the mean reported by estimate_mean is the sum of the expected level differences, hence the expectation of the finest level when the coarse values of each level are distributed like the fine values of the level below; the expectation of each reported level variance is the variance of the level difference; the expectation of the reported variance is the variance of the reported mean; and the mean is off by c or more with probability at most that variance over c squared.", "quantifier": "all probability distributions of the samples with finite variance, all numbers of levels and samples, all quantities built with the API", "why_tests_cant": "A statement about expectations over all distributions; a test can only compare one simulated average with a tolerance.", "anchors": ["mlmc/quantity/quantity_estimate.py:estimate_mean", "mlmc/quantity/quantity.py:QuantityMean", "mlmc/estimator.py:estimate_n_samples_for_target_variance"]}
{"id": "C88", "title": "Correlation matrices are covariance matrices", "statement": "For every accepted correlation length or tensor, every correlation exponent and any set of points in any dimension, the matrix of a SpatialCorrelatedField is symmetric and positive semidefinite with ones on the diagonal and entries in (0, 1], so that a random field with this covariance exists.", "quantifier": "all dimensions, numbers and positions of points, positive semidefinite tensors, exponents", "why_tests_cant": "Positive definiteness for all configurations of points and all exponents is a theorem of analysis; a test checks some point sets.", "anchors": ["mlmc/random/correlated_field.py:SpatialCorrelatedField.cov_matrix", "mlmc/random/correlated_field.py:RandomFieldBase.__init__"]}
{"id": "C89", "title": "A sampled random field has the prescribed mean and covariance", "statement": "After set_points, the values returned by SpatialCorrelatedField.sample have in every point the prescribed mean, and the covariance of any two points is the product of their deviations and their correlation, up to the precision requested from svd_dcmp relative to the largest singular value (default 0.01); the variance never exceeds the prescribed one.", "quantifier": "all dimensions, points, tensors, exponents, means, deviations, precisions, ranges of terms, decompositions the library may return, distributions of uncorrelated noise", "why_tests_cant": "A statement about expectations for all point sets; a test compares averages over samples with loose tolerances.", "anchors": ["mlmc/random/correlated_field.py:SpatialCorrelatedField.svd_dcmp", "mlmc/random/correlated_field.py:SpatialCorrelatedField._sample", "mlmc/random/correlated_field.py:RandomFieldBase.sample"]}
{"id": "C90", "title": "A field made of Fourier modes has the prescribed mean and covariance", "statement": "For every dimension, correlation model, correlation length, number of modes, mean, deviation and set of points, the values returned by FourierSpatialCorrelatedField.sample have the prescribed mean in every point, and the covariance of two points is the product of their deviations and the prescribed correlation.", "quantifier": "all points, lengths, exponents, numbers of modes, means and deviations; all outcomes of the random numbers", "why_tests_cant": "An expectation over all random numbers for all parameters; a test compares averages with loose tolerances.", "anchors": ["mlmc/random/correlated_field.py:FourierSpatialCorrelatedField.random_field", "mlmc/random/correlated_field.py:FourierSpatialCorrelatedField.gau", "mlmc/random/correlated_field.py:FourierSpatialCorrelatedField.exp", "mlmc/random/correlated_field.py:FourierSpatialCorrelatedField._sample_sphere"]}
{"id": "C91", "title": "A program that runs its samples in PBS jobs stores what it asked for, whatever the jobs do", "statement": "After any sequence of set_initial_n_samples, set_level_target_n_samples, schedule_samples and ask_sampling_pool_for_samples with a SamplingPoolPBS on a new storage, every level lists exactly the requested samples as scheduled; stored results are those the level's simulation computes for them from their own seeds; stored, failed and unfinished samples are together the requested ones, each once, and the unfinished ones are those waiting in jobs. When asking without a timeout has returned, none is waiting, and all estimates equal those of a OneProcessPool program asking for the same numbers.", "quantifier": "all programs of such calls, all answers of qsub and qstat, all orders in which jobs run, die and are reported, all simulations, all quantities", "why_tests_cant": "Needs all interleavings of jobs and polls and all failures of qsub, qstat and jobs; a test runs one and has no PBS.", "anchors": ["mlmc/sampler.py:Sampler.schedule_samples", "mlmc/sampler.py:Sampler.ask_sampling_pool_for_samples", "mlmc/sampling_pool_pbs.py:SamplingPoolPBS.get_finished", "mlmc/sampling_pool_pbs.py:SamplingPoolPBS.schedule_sample", "mlmc/tool/pbs_job.py:PbsJob.calculate_samples"]}
{"id": "C92", "title": "A program that runs its samples in a thread or process pool stores what it asked for, whatever the order in which workers finish", "statement": "After any sequence of set_initial_n_samples, set_level_target_n_samples, schedule_samples, renew_failed_samples and ask_sampling_pool_for_samples with a ThreadPool or ProcessPool on a new storage, every level lists exactly the requested samples as scheduled; stored results are those the level's simulation computes for them from their own seeds, each at most once, and samples listed as failed are requested ones without a well formed result, each at most once. When asking without a timeout has returned, every requested sample is stored or listed as failed, and all estimates equal those of a OneProcessPool program asking for the same numbers.", "quantifier": "all programs of such calls, all moments at which workers finish or raise, also between the steps of get_finished, all simulations, all quantities", "why_tests_cant": "Needs all interleavings of the workers, the result handler and the main thread; a test runs one per run.", "anchors": ["mlmc/sampler.py:Sampler.schedule_samples", "mlmc/sampler.py:Sampler.ask_sampling_pool_for_samples", "mlmc/sampler.py:Sampler.renew_failed_samples", "mlmc/sampling_pool.py:ProcessPool", "mlmc/sampling_pool.py:ThreadPool", "mlmc/sampling_pool.py:OneProcessPool.get_finished"]}
{"id": "C93", "title": "Programs can be run one after another on the same HDF file", "statement": "After any number of programs, each opening the file the previous one left with a new Sampler and a OneProcessPool, making any calls and ending or being killed while it schedules, the file lists on every level the requested samples with consecutive numbers, each once; every stored result is the one its own sample's simulation returns; no sample is stored or listed as failed twice, and those neither stored nor failed are the unfinished ones. If the programs wait for their samples, the file and all estimates are those of a single program asking for the same numbers. A program that asks for samples an earlier one has scheduled, and waits, finishes them.", "quantifier": "all sequences of programs, calls and kill points between the elementary steps of scheduling, all simulations, all quantities", "why_tests_cant": "Needs all histories of runs, calls and kills; tests run one program on a fresh file.", "anchors": ["mlmc/sampler.py:Sampler.__init__", "mlmc/sampler.py:Sampler.schedule_samples", "mlmc/sampler.py:Sampler._check_failed_samples", "mlmc/sample_storage_hdf.py:SampleStorageHDF", "mlmc/sampling_pool.py:OneProcessPool"]}
{"id": "C94", "title": "Estimated moments and covariance matrices are those of a probability law", "statement": "Estimate.estimate_moments() of moment functions starting with the constant 1 gives 1 with variance 0 as the zeroth moment of every component of the quantity. Estimate.estimate_covariance() gives a positive semidefinite matrix for every component. Called without moment functions, the methods of Estimate use those given to its constructor.", "quantifier": "every quantity tree, moment functions, number of levels, chunking and samples with NaNs", "why_tests_cant": "tests compare estimates of one distribution with quadrature values within tolerances; they cannot show that a matrix is semidefinite for all samples, and on several levels it is not", "anchors": ["mlmc/estimator.py: Estimate.estimate_moments, estimate_covariance, estimate_diff_vars", "mlmc/quantity/quantity_estimate.py: estimate_mean, moments, covariance"]}
{"id": "C95", "title": "Mesh files of format 1.0 are read as written", "statement": "GmshIO.read of a file of Gmsh format 1.0 ($NOD and $ELM sections) gives every node with its coordinates and every element with its type, its two regions as tags and its nodes, as the documentation of read promises.", "quantifier": "every list of nodes and elements", "why_tests_cant": "the repository has no test with such a file; a test would show one file, the theorem shows that all fail", "anchors": ["mlmc/tool/gmsh_io.py: GmshIO.read"]}
{"id": "C96", "title": "Distances between densities", "statement": "KL_divergence(prior, posterior, a, b) of two densities on (a, b) is never negative, equals the integral of P log(P/Q) up to the floor 1e-10, and says the densities are equal only if they are. L2_distance(P, Q, a, b) is a metric on continuous densities: symmetric, 0 only for equal ones, and obeys the triangle inequality.", "quantifier": "every pair of densities on every interval, given exact integration", "why_tests_cant": "tests evaluate the divergence for a few pairs of distributions; a density with a zero at a quadrature point, where the result is no number, is met by none", "anchors": ["mlmc/tool/simple_distribution.py: KL_divergence, L2_distance", "mlmc/tool/distribution.py: KL_divergence, L2_distance"]}
{"id": "C97", "title": "Moments and covariances of a given density", "statement": "compute_exact_moments and compute_exact_cov return the integrals of the moment functions and of their pairwise products with the density. The matrix is symmetric and positive semidefinite, definite for independent moments and a positive density, and its first row is the vector of moments. compute_semiexact_moments and compute_semiexact_cov give a symmetric semidefinite matrix whatever intervals the adaptive integration chose, and are exact for polynomials within the degree of the Gauss rule.", "quantifier": "every size, moment functions, density, domain and subdivision of the domain", "why_tests_cant": "tests compare values of a few distributions within a tolerance; semidefiniteness for every density and subdivision is beyond them", "anchors": ["mlmc/tool/simple_distribution.py: compute_exact_moments, compute_semiexact_moments, compute_exact_cov, compute_semiexact_cov", "mlmc/tool/distribution.py: compute_exact_moments"]}
{"id": "C98", "title": "Constants in expressions with quantities", "statement": "In q + c, c * q, q > c and the other operations of a quantity with a constant, a number is combined with every value of the quantity and an array of the shape of the quantity entry by entry, in every sample and for the fine and the coarse part alike. Constants that do not fit are refused.", "quantifier": "every operation, constant (number, NumPy number, array with any number of axes) and chunk of samples", "why_tests_cant": "tests use a few numbers and vectors; that a matrix is silently matched with the fine and coarse parts instead of the entries appears only for some shapes", "anchors": ["mlmc/quantity/quantity.py: Quantity.wrap, Quantity.create_quantity, Quantity._process_mask, QuantityConst"]}
{"id": "C99", "title": "The automatic cut of eigenvalues leaves valid orthogonal moments", "statement": "construct_ortogonal_moments(moments, cov) with the default tolerance detects where the logarithms of the eigenvalues leave a common slope: detect_treshold_slope_change returns a position from which the values are unchanged and before which they are extrapolated by the least squares line of the best window. Every kept eigenvalue is positive and larger than the cut ones, so that the constructed moments are orthonormal, and nothing is cut when all eigenvalues have the same slope.", "quantifier": "all eigenvalue sequences, covariance matrices and least squares fits", "why_tests_cant": "Universal over real sequences of any length; the failures need few or equal eigenvalues.", "anchors": ["mlmc/tool/simple_distribution.py:detect_treshold_slope_change", "mlmc/tool/simple_distribution.py:best_p1_fit", "mlmc/tool/simple_distribution.py:best_fit_all", "mlmc/tool/simple_distribution.py:construct_ortogonal_moments"]}
{"id": "C100", "title": "Only jobs reported as finished are taken as finished", "statement": "The pool recognises from the text of qstat exactly the jobs with state F, whatever names, users and times the rows show, stores for a submitted job the number that qstat shows, and finds the files of a job again by this number.", "quantifier": "all tables of jobs, answers of qsub and sets of files of jobs", "why_tests_cant": "Universal over texts; tests call no batch system.", "anchors": ["mlmc/sampling_pool_pbs.py:SamplingPoolPBS._qstat_pbs_job", "mlmc/sampling_pool_pbs.py:SamplingPoolPBS.execute", "mlmc/sampling_pool_pbs.py:SamplingPoolPBS._get_result_files", "mlmc/tool/pbs_job.py:PbsJob.write_pbs_id"]}
{"id": "C101", "title": "A job started by the batch system gets the parameters of its pool", "statement": "The script of a job contains the requests and lines of the user as given, and the process it starts gets the output directory and the directory of jobs of the pool, its own job identifier, the file names of simulations and the debug flag of the pool.", "quantifier": "all working directories, settings, job numbers and earlier pools on the directory", "why_tests_cant": "Universal over names, lines and earlier pools; the process runs only inside a batch system.", "anchors": ["mlmc/sampling_pool_pbs.py:SamplingPoolPBS.pbs_common_setting", "mlmc/sampling_pool_pbs.py:SamplingPoolPBS._create_script", "mlmc/tool/pbs_job.py:PbsJob.create_process", "mlmc/tool/pbs_job.py:PbsJob._serialize_pbs_process", "mlmc/tool/pbs_job.py:PbsJob._deserialize_pbs_process", "mlmc/tool/pbs_job.py:PbsJob.command_params"]}
{"id": "C102", "title": "Samples that need a workspace run in their own directories", "statement": "A simulation that needs a workspace runs, in every pool, in the directory of its sample, which at its start contains the common files of the level and nothing else: it ends as if it were the only one running, whatever the order in which workers act and finished samples are collected.", "quantifier": "all samples, simulations, common files, workers and orders of actions", "why_tests_cant": "Universal over interleavings of workers; the current directory is a property of the process, so that tests with one worker or without files see nothing.", "anchors": ["mlmc/sampling_pool.py:SamplingPool.handle_sim_files", "mlmc/sampling_pool.py:SamplingPool.calculate_sample", "mlmc/sampling_pool.py:SamplingPool.remove_sample_dir", "mlmc/sampling_pool.py:ProcessPool", "mlmc/sampling_pool.py:ThreadPool", "mlmc/level_simulation.py:LevelSimulation"]}
{"id": "C103", "title": "The density constructed from stored samples has mass one and the estimated moments", "statement": "When the optimizer of Estimate.construct_density ends in a stationary point, the density it leaves has mass one, and its moments for the moment functions of the Estimate object are the ones Estimate.estimate_moments returns for the same storage; a gradient that is not zero bounds the errors of the moments.", "quantifier": "all stored samples on any number of levels, scalar quantities, moment functions of the three families, tolerances in [0, 1), decompositions the libraries may return, quadratures, multipliers", "why_tests_cant": "Composes estimates over all storages with an eigenvalue decomposition, an orthogonalization and an optimizer; a test fits a few known distributions with loose tolerances.", "anchors": ["mlmc/estimator.py:Estimate.construct_density", "mlmc/estimator.py:Estimate.estimate_moments", "mlmc/tool/simple_distribution.py:construct_ortogonal_moments", "mlmc/tool/simple_distribution.py:SimpleDistribution.estimate_density_minimize"]}
{"id": "C104", "title": "A program with PBS that is killed and started again recovers its samples", "statement": "When a program with PBS is killed at any point outside the writing of the file, its jobs go on, and a new program is started on the same file and directory, the first question for samples stores every result the jobs have written for unfinished samples, exactly once, on its level, with the value of the simulation for the seed of the sample, and loses nothing that was in the file; when all jobs have ended, the file then holds every scheduled sample as finished or failed.", "quantifier": "all programs, points of the kill, schedules of jobs before and after it, answers of the batch system, listings of directories, orders of the unfinished identifiers", "why_tests_cant": "Universal over crash points and histories of jobs; tests have no batch system and never restart.", "anchors": ["mlmc/sampler.py:Sampler.__init__", "mlmc/sampler.py:Sampler.ask_sampling_pool_for_samples", "mlmc/sampler.py:Sampler.schedule_samples", "mlmc/sampling_pool_pbs.py:SamplingPoolPBS._collect_unfinished", "mlmc/sampling_pool_pbs.py:SamplingPoolPBS.have_permanent_samples", "mlmc/sampling_pool_pbs.py:SamplingPoolPBS.get_finished"]}
{"id": "C105", "title": "Estimates in floating-point arithmetic are close to the exact ones and variances are not negative", "statement": "The level means, level variances, mean and variance estimate_mean returns in floating-point arithmetic differ from the exact estimators of the same samples by at most the number of samples times the machine precision, relative to the mean absolute value and the second moment of the samples, for every order of summation and division into chunks; estimated variances are not negative.", "quantifier": "all samples, numbers of levels and samples, divisions into chunks, orders of summation and roundings with bounded relative error", "why_tests_cant": "Universal over samples and rounding errors; tests compare with tolerances on samples of moderate size.", "anchors": ["mlmc/quantity/quantity_estimate.py:estimate_mean", "mlmc/quantity/quantity.py:QuantityMean"]}
{"id": "C106", "title": "Kills and restarts of programs with PBS never put a wrong value into the file", "statement": "When programs with PBS are killed, die of exceptions and are started again any number of times on the same file and directory, while jobs of all of them run, every stored value is the value the level's simulation computes for the seed of the stored identifier, scheduled lists are the samples 0 to k-1, nothing in the file is lost or changed, and each sample is stored once.", "quantifier": "all sequences of calls, kills, exceptions and restarts; schedules, repeated runs and deaths of jobs; answers of the batch system, listings of directories, unfinished identifiers", "why_tests_cant": "Universal over histories of several programs with crashes; tests have no batch system and never restart.", "anchors": ["mlmc/sampler.py:Sampler.__init__", "mlmc/sampler.py:Sampler.schedule_samples", "mlmc/sampler.py:Sampler.ask_sampling_pool_for_samples", "mlmc/sampling_pool_pbs.py:SamplingPoolPBS", "mlmc/tool/pbs_job.py:PbsJob"]}
{"id": "C107", "title": "Level samples read during sampling are the values on the first saved samples", "statement": "Estimate.get_level_samples(level_id, n_samples) returns the values of the quantity on the first n_samples samples saved for the level (on the first HDF chunk without n_samples), whatever was saved, estimated and read before in the same program, for the HDF storage and the storage in memory.", "quantifier": "all programs that save results, estimate means and read level samples; quantities; chunk lengths; data", "why_tests_cant": "Values are cached between calls under keys that do not contain the stored data; only histories that mix saving and reading show what is returned.", "anchors": ["mlmc/estimator.py:Estimate.get_level_samples", "mlmc/quantity/quantity.py:Quantity.samples", "mlmc/quantity/quantity.py:Quantity.get_cache_key", "mlmc/sample_storage.py:SampleStorage.chunks", "mlmc/sample_storage.py:Memory._level_chunks", "mlmc/tool/hdf5.py:LevelGroup.chunks"]}
{"id": "C108", "title": "A density fit in stages reaches the requested moments and tolerance", "statement": "Distribution.estimate_density_minimize with n moments goes through strictly growing numbers of moments (three or five at the start, odd before the last, steps of little more than a fifth) that end with n, and through tolerances that do not grow and end with the tolerance of the user. The first stage starts from the uniform density on the domain, every later one from exactly the density found before it, the penalties are finite, and the result has n multipliers. On a domain of length one the first penalty is not finite, and Distribution.estimate_density raises for all arguments.", "quantifier": "all numbers of moments, tolerances, domains, moment errors and minimization routines", "why_tests_cant": "the list of sizes depends on repeated division and rounding of halves for every n, and a test sees a handful of n and one minimizer", "anchors": ["mlmc/tool/distribution.py:Distribution.estimate_density_minimize", "mlmc/tool/distribution.py:Distribution.estimate_density", "mlmc/tool/distribution.py:Distribution.extend_size", "mlmc/tool/distribution.py:Distribution._initialize_params"]}
{"id": "C109", "title": "Statistical tests fail correct samples with the given probability", "statement": "mlmc.tool.stats_tests: chi2_test raises AssertionError on samples of the tested variance with probability exactly max_p_val, and t_test on samples of the tested mean likewise. False for t_test: it raises with probability 1 - max_p_val, and always when the mean of the samples is exactly the expected one.", "quantifier": "all distributions of samples for which the distribution functions of scipy are those of the statistics, numbers of samples, levels", "why_tests_cant": "a statement about probabilities over all samples; a single run of a test with a fixed seed cannot show it", "anchors": ["mlmc/tool/stats_tests.py:t_test", "mlmc/tool/stats_tests.py:chi2_test"]}
{"id": "C110", "title": "The documented loop of adding samples ends with enough finished samples", "statement": "The loop `while not sampler.process_adding_samples(n_estimated): n_estimated = ...` of the documentation, on a OneProcessPool with a positive timeout, ends after at most one call more than samples are missing to a bound of the estimates, whatever the simulations do, and with add_coeff at most 1 schedules no more than that bound; with estimate_n_samples_for_target_variance bounded variances suffice. At the end every level has at least the last estimated number of samples, and after waiting all of them are finished. Estimates that keep growing, or timeout 0, make it run forever.", "quantifier": "all programs before the loop, simulations, estimators computed from the state, coefficients, clocks", "why_tests_cant": "termination of a loop whose estimates change with the samples; tests run one seed on one simulation", "anchors": ["mlmc/sampler.py:Sampler.process_adding_samples", "mlmc/sampler.py:Sampler.set_scheduled_and_wait", "mlmc/estimator.py:estimate_n_samples_for_target_variance", "docs/source/examples_samples_scheduling.rst"]}
{"id": "C111", "title": "The documented program with the moments of the library ends", "statement": "The program of the documentation (sampler with HDF storage and OneProcessPool; moments of a scalar quantity; numbers of samples from estimate_diff_vars_regression and estimate_n_samples_for_target_variance, recomputed from the storage after every process_adding_samples) ends for every simulation, whatever samples fail: moments on their default reference domain are at most one, so level variances are at most eight and the numbers of samples have a common bound. With more than four levels the regression destroys the bound.", "quantifier": "all simulations returning arrays, moment families, sizes and domains, targets, earlier programs, least squares routines", "why_tests_cant": "termination depends on the values of all samples of all runs", "anchors": ["mlmc/estimator.py:Estimate.estimate_diff_vars_regression", "mlmc/estimator.py:estimate_n_samples_for_target_variance", "mlmc/sampler.py:Sampler.process_adding_samples", "mlmc/moments.py", "docs/source/examples_samples_scheduling.rst"]}
{"id": "C112", "title": "The directory of every sample is where the documentation says, after any program", "statement": "After any sequence of calls on a OneProcessPool (including renewals), every sample asked for has its directory where it has to be and nowhere else: failed samples under `failed`; successful samples in the output directory in debug mode, otherwise under `several_successful` if the number (modulo ten million) is below five and nowhere if it is not; and no other directories exist.", "quantifier": "all programs, simulations, targets, failures, renewals", "why_tests_cant": "depends on the whole history of which samples failed and were renewed", "anchors": ["mlmc/sampling_pool.py:OneProcessPool.schedule_sample", "mlmc/sampling_pool.py:SamplingPool.move_successful_rm", "mlmc/sampling_pool.py:SamplingPool.move_failed_rm", "mlmc/sampler.py:Sampler"]}
{"id": "C113", "title": "An exception while a sample is prepared leaves the sampler usable", "statement": "If files needed by samples of a level disappear, schedule_samples raises exactly when samples of that level are to be scheduled; after the files are restored the program can go on: waiting for samples ends and all of them are scheduled.", "quantifier": "all earlier programs, levels with missing files, clocks", "why_tests_cant": "the failure is a state left behind by an exception at any point of any history", "anchors": ["mlmc/sampling_pool.py:SamplingPool.change_to_sample_directory", "mlmc/sampling_pool.py:SamplingPool.copy_sim_files", "mlmc/sampling_pool.py:OneProcessPool.schedule_sample", "mlmc/sampler.py:Sampler.schedule_samples"]}
{"id": "C114", "title": "Coarse flow simulations of a level are the fine ones of the level below", "statement": "A Sampler with a FlowSim object creates one level per step. For every realization of the random field, the fine result of a level and the coarse result of the next level are the same function of the realization: same mesh, same input file with the mesh and time steps of that step. Level 0 has zeros as coarse results, and other directories of the work directory are not touched.", "quantifier": "all step sequences, templates, mesh generators, solvers, realizations, earlier contents of the work directory", "why_tests_cant": "needs the external programs; the identity is about all realizations and all levels", "anchors": ["mlmc/tool/flow_mc.py:FlowSim.level_instance", "mlmc/tool/flow_mc.py:FlowSim.calculate", "mlmc/tool/flow_mc.py:force_mkdir", "mlmc/sampler.py:Sampler._create_level_sim_objects"]}
{"id": "C115", "title": "Levels of the tutorial's shooting simulations telescope", "statement": "A Sampler with the shooting simulation of the tutorial creates one level per step. For every realization of the field the coarse result of level l+1 is the fine result of level l for the same realization, level 0 has coarse result 0, and the fine results converge to the exact shot as the number of elements grows.", "quantifier": "all configurations, step sequences, realizations of the field", "why_tests_cant": "a test sees a few realizations of one sequence of steps; the identity concerns all of them", "anchors": ["examples/shooting/simulation_shooting_1D.py:ShootingSimulation1D", "examples/shooting/simulation_shooting_2D.py:ShootingSimulation2D"]}
{"id": "C116", "title": "Moment functions act on arrays value by value", "statement": "Evaluating moment functions on an array of numbers of any shape returns an array with one more axis whose entries are the values of the functions at each number taken alone; NaN gives NaN. The same holds for one function, for derivatives and for the moments of a quantity on every chunk of samples.", "quantifier": "all moment objects and linear combinations of them, all shapes, all numbers and NaN", "why_tests_cant": "tests evaluate one-dimensional arrays of a few points; layout errors show up only for other shapes", "anchors": ["mlmc/moments.py:Moments.eval_all", "mlmc/moments.py:Moments.eval", "mlmc/moments.py:Moments.eval_single_moment", "mlmc/moments.py:Moments.eval_all_der", "mlmc/moments.py:Fourier._eval_all", "mlmc/quantity/quantity_estimate.py:moments"]}
{"id": "C117", "title": "Failed samples are recorded whatever their error message", "statement": "Saving failed samples in an HDF storage records exactly these samples as failed, for every error message; identifiers of samples are read back as they were written.", "quantifier": "all storages, all dictionaries of samples, all messages, all levels and numbers of samples", "why_tests_cant": "tests use a few short messages in English", "anchors": ["mlmc/sample_storage_hdf.py:SampleStorageHDF.save_samples", "mlmc/tool/hdf5.py:LevelGroup.append_failed", "mlmc/tool/hdf5.py:LevelGroup._append_dataset"]}
{"id": "C118", "title": "All data of a program go to the file its storage was given", "statement": "Whatever a program and its sampling pool do with the current directory, every call of an HDF storage reads and writes the file it was created on, and no other file is created or changed.", "quantifier": "all sequences of storage calls and changes (or removals) of the current directory, absolute and relative paths", "why_tests_cant": "the effect depends on the pool, on the path given and on the order of calls; tests use absolute paths", "anchors": ["mlmc/tool/hdf5.py:HDF5", "mlmc/tool/hdf5.py:LevelGroup", "mlmc/sampling_pool_pbs.py:SamplingPoolPBS._get_result_files", "mlmc/sampling_pool.py:SamplingPool.handle_sim_files"]}
{"id": "C119", "title": "The random numbers of a synthetic sample are those of its seed, whatever is computed at the same time", "statement": "Every sample of a synthetic simulation that does not fail is made from the first random numbers of a generator started with the seed of the sample, for every pool and every way the workers of the pool are interleaved.", "quantifier": "all generators, nan fractions, assignments of samples to workers and schedules of the workers", "why_tests_cant": "a wrong value appears only in some interleavings of threads, which a test cannot choose", "anchors": ["mlmc/sim/synth_simulation.py:SynthSimulation.generate_random_samples", "mlmc/sampling_pool.py:ProcessPool", "mlmc/sampling_pool.py:ThreadPool"]}
{"id": "C120", "title": "The result of a flow sample is determined by its configuration and its seed", "statement": "FlowSim.calculate called twice with the same configuration and seed in directories with the same content returns the same result, whatever the process has computed before and whatever random numbers the operating system provides.", "quantifier": "all field models, meshes, solvers, seeds, states of the global random generator and values given by the operating system", "why_tests_cant": "two runs of a test in fresh processes start from the same generator state and differ only by small random amounts", "anchors": ["mlmc/tool/flow_mc.py:FlowSim.calculate", "mlmc/tool/flow_mc.py:create_corr_field", "mlmc/random/correlated_field.py:Field.set_points", "mlmc/random/correlated_field.py:SpatialCorrelatedField.svd_dcmp", "mlmc/random/correlated_field.py:FourierSpatialCorrelatedField._get_random_stream", "mlmc/random/correlated_field.py:GSToolsSpatialCorrelatedField"]}
{"id": "C121", "title": "While a density is fitted, its functional is evaluated with a quadrature made for nearly the same multipliers", "statement": "At every evaluation of the functional, gradient or Hessian during a fit, the quadrature in use was made for multipliers near the given ones: the integral changes by less than the quadrature tolerance between the two, and the value does not depend on earlier evaluations.", "quantifier": "all sequences of multipliers chosen by the minimizer, all adaptive quadratures, moments, errors and tolerances", "why_tests_cant": "the quadrature in use depends on the whole history of evaluations inside one optimization", "anchors": ["mlmc/tool/simple_distribution.py:SimpleDistribution._update_quadrature", "mlmc/tool/distribution.py:Distribution._update_quadrature"]}
{"id": "C122", "title": "Logarithmic random fields are lognormal", "statement": "A random field made with log=True returns the exponential, value by value, of what the same object without log would return for the same normal numbers. If all terms of the decomposition are used, its values are positive, the mean in a point is exp(mu + sigma^2/2) and the covariance of two points is the product of their means times exp(sigma_i*sigma_j*corr_ij) - 1; with fewer terms the mean lies between exp(mu) and exp(mu + sigma^2/2). As documented by set_points, mu is the mean of the value in the point.", "quantifier": "all dimensions, tensors, exponents in (0,2], point sets, means and deviations, decompositions and numbers of terms; expectations over independent standard normal numbers", "why_tests_cant": "A test compares averages over some thousand samples on one set of points within a tolerance; moments of exponentials converge slowly and the statement ranges over all fields.", "anchors": ["mlmc/random/correlated_field.py: RandomFieldBase.sample, RandomFieldBase.set_points, SpatialCorrelatedField._sample"]}
{"id": "C123", "title": "Programs on the storage in memory", "statement": "A program with the storage in memory (Memory) instead of an HDF file runs through the same calls without an exception, stores exactly the results of the requested samples whose simulation returned a well formed result, each once and in the order of their numbers, lists the others as failed, and estimate_mean gives the estimates over exactly these results, the same as from the HDF file; failed samples can be scheduled again with renew_failed_samples.", "quantifier": "all simulations, outcomes, durations, sequences of calls, timeouts, numbers of levels, quantities built on the storage", "why_tests_cant": "Tests run one or two programs with a fixed simulation, none of them with a level whose samples all failed.", "anchors": ["mlmc/sample_storage.py: Memory", "mlmc/sampler.py: Sampler", "mlmc/sampling_pool.py: OneProcessPool", "mlmc/quantity/quantity_estimate.py: estimate_mean"]}
{"id": "C124", "title": "Estimates converge", "statement": "If the level differences are independent draws with finite variance, then with probability one the means reported by estimate_mean converge to the sum of the expected level differences (with matching coarse expectations: to the expectation on the finest level) as the numbers of samples of all levels grow, the reported level variances converge to the variances of the levels, and the reported variance of the mean to zero. This holds for any numbers of samples, also numbers that were computed from the samples by the adaptive loop.", "quantifier": "all distributions with finite variance, quantities, components, numbers of levels, sequences of sample numbers that grow on every level (also depending on the samples), divisions into chunks", "why_tests_cant": "A limit statement about random samples; a test sees finitely many samples with one seed and a tolerance.", "anchors": ["mlmc/quantity/quantity_estimate.py: estimate_mean", "mlmc/quantity/quantity.py: QuantityMean", "mlmc/estimator.py: Estimate.estimate_moments"]}
{"id": "C125", "title": "Confidence intervals", "statement": "The variance reported by estimate_mean can be used for confidence intervals: if the numbers of samples grow on every level, at whatever rates, and do not depend on the samples, the probability that the error of the reported mean lies between a and b times the square root of the reported variance converges to the probability of [a, b] under the standard normal distribution; in particular the interval mean \u00b1 z sqrt(var) contains the expectation on the finest level with the normal probability in the limit.", "quantifier": "all distributions with finite variance (at least one level with positive variance; levels with zero variance allowed), quantities, components, numbers of levels, sequences of sample numbers growing on every level, intervals", "why_tests_cant": "A statement about probabilities in a limit (the docstring of estimate_mean refers to the central limit theorem); a test can only repeat one experiment a few times.", "anchors": ["mlmc/quantity/quantity_estimate.py: estimate_mean", "mlmc/quantity/quantity.py: QuantityMean"]}
{"id": "C126", "title": "What the allocated samples cost", "statement": "The numbers of samples from estimate_n_samples_for_target_variance are optimal: up to rounding, no numbers of samples that meet the target variance for all given moments cost less in total (samples times n_ops over all levels).", "quantifier": "all targets, numbers of levels and moments, variances, costs, and all alternative numbers of samples", "why_tests_cant": "A comparison with every other allocation; tests compute the numbers for one problem.", "anchors": ["mlmc/estimator.py: estimate_n_samples_for_target_variance"]}
{"id": "C127", "title": "Artificial failures in batch jobs", "statement": "With SynthSimulationWorkspace in PBS jobs the fraction of failed samples is the nan_fraction of the configuration file, up to rounding, however the samples are divided into jobs.", "quantifier": "all fractions, samples, levels, seeds, divisions into jobs", "why_tests_cant": "Tests look at one run in one process.", "anchors": ["mlmc/sim/synth_simulation.py: SynthSimulationWorkspace", "mlmc/tool/pbs_job.py: PbsJob.calculate_samples"]}
{"id": "C128", "title": "How the cost grows with levels and target", "statement": "If the variances of the moments on level l are at most v q^l and a sample costs at most c r^l, the samples allocated for a target variance cost, for each varying moment and besides two samples per level, at most v c / (1 - sqrt(q r))^2 / target if q r < 1 (for any number of levels L), v c L^2 / target if q r = 1, and v c (q r)^L / (sqrt(q r) - 1)^2 / target if q r > 1. On one level they cost the variance times the cost of a sample divided by the target.", "quantifier": "all numbers of levels and moments, variances, costs, rates, targets", "why_tests_cant": "A bound for every number of levels and every target.", "anchors": ["mlmc/estimator.py: estimate_n_samples_for_target_variance"]}
{"id": "C129", "title": "Variances of the logarithms of estimated variances", "statement": "For each level with at least two samples, the weights of the variance regression are computed from the variance of the logarithm of the estimated variance of that many independent normal samples (outcomes with a logarithm beyond 100 approximate standard deviations count as zero); it does not depend on the mean and the variance of the samples and is not negative. Asking again gives the values of the numbers of samples that are passed.", "quantifier": "all numbers of levels and samples, all normal distributions, all histories of calls", "why_tests_cant": "The value is a number got by quadrature; that it is the variance of a statistic of random samples is a statement about a distribution, and the saved value depends on the history of calls.", "anchors": ["mlmc/estimator.py: Estimate._variance_of_variance"]}
{"id": "C130", "title": "Regions of a box with fractures", "statement": "In the geometry handed to the mesh generator every segment of fracture i is in the region frac_i (dimension 1, mesh step of the fractures), the inner polygons are in bulk_0 (mesh step of the box), the parts of the bottom and top side of the box in .bc_inflow and .bc_outflow, everything else in NONE. The number of a region is its position and names are different.", "quantifier": "all numbers of fractures, mesh steps and decompositions of the plane", "why_tests_cant": "Which regions meet depends on how the fractures cross each other and the box; tests draw one picture.", "anchors": ["mlmc/random/frac_geom.py: make_frac_mesh, make_regions, make_decomposition, fill_lg"]}
{"id": "C131", "title": "Realizations of GSTools fields", "statement": "Every call of sample of a GSTools field returns a new realization at the points set last, with mean and deviation set last; after change_srf(seed) the realization is determined by the seed, the covariance model, the number of modes and the points.", "quantifier": "all histories of set_points, change_srf and sample, all covariance models, all numbers of modes", "why_tests_cant": "Depends on the history of calls; one sample shows nothing.", "anchors": ["mlmc/random/correlated_field.py: GSToolsSpatialCorrelatedField"]}
{"id": "C132", "title": "What programs report about random simulations", "statement": "For a program whose simulations succeed and are functions of the seed, with independent uniformly distributed seeds: the mean it reports after its calls has, as expectation, the mean over all seeds of the sum of the level differences \u2014 the mean of the fine values of the last level if the levels telescope \u2014, the reported variance has the variance of that mean as expectation; with more and more samples (also if their numbers are chosen from the results) the reported mean converges to it with probability one, and with fixed calls the intervals of z reported standard deviations have asymptotically normal coverage.", "quantifier": "all programs of sampler calls, timeouts and durations, all simulations, quantities, chunk lengths and outcomes", "why_tests_cant": "Statements about distributions over all outcomes and limits, for all programs; a test sees one outcome of one program.", "anchors": ["mlmc/sampler.py: Sampler", "mlmc/sampling_pool.py: OneProcessPool, SamplingPool.compute_seed", "mlmc/sample_storage_hdf.py: SampleStorageHDF", "mlmc/quantity/quantity_estimate.py: estimate_mean"]}
{"id": "C133", "title": "What programs with failing simulations estimate", "statement": "Failed simulations and samples with NaN are left out of the estimate and do not bias it: with more and more samples the mean a program reports converges to the mean of the values of the finest level.", "quantifier": "all programs of sampler calls, simulations failing for any seeds, quantities, chunk lengths and outcomes", "why_tests_cant": "A statement about limits over all outcomes; the effect of failures that depend on the input shows only in distribution.", "anchors": ["mlmc/sampler.py: Sampler", "mlmc/sampling_pool.py: OneProcessPool", "mlmc/quantity/quantity_estimate.py: estimate_mean, mask_nan_samples"]}
{"id": "C134", "title": "Statistics of programs with worker pools", "statement": "Whatever pool runs the simulations and in whatever order the samples finish - also if durations depend on the results - the mean a program reports is unbiased, its reported variance is unbiased, it converges to the mean of the differences over all seeds, and the normal confidence interval has its nominal coverage in the limit.", "quantifier": "all programs with one-process, thread, process and PBS pools, schedules of workers and jobs that may depend on the outcome, simulations, quantities, chunk lengths and outcomes", "why_tests_cant": "Statements about expectations and limits over all outcomes and all schedules; the effect of schedules that depend on results shows only in distribution.", "anchors": ["mlmc/sampling_pool.py: OneProcessPool, ThreadPool, ProcessPool", "mlmc/sampling_pool_pbs.py: SamplingPoolPBS", "mlmc/sampler.py: Sampler.ask_sampling_pool_for_samples", "mlmc/quantity/quantity_estimate.py: estimate_mean"]}
{"id": "C135", "title": "Renewing failed samples recovers the samples of dead PBS jobs", "statement": "A program with the PBS pool may call renew_failed_samples at any moments and any number of times: every requested sample is always stored, failed or waiting, exactly one of these and once. After jobs have died (also several at once, with any part of their samples computed), renew_failed_samples followed by jobs that do not die leaves exactly what a program without any death stores, and gives the same estimates.", "quantifier": "all programs of schedule, ask, target and renew calls, all answers of qsub and qstat, all orders of jobs, all points where jobs die before the renewal, all level simulations", "why_tests_cant": "Deaths of jobs at every possible point of their output, combined with every order of reporting and renewing, cannot be enumerated by tests.", "anchors": ["mlmc/sampler.py: Sampler.renew_failed_samples, Sampler.schedule_samples, Sampler.ask_sampling_pool_for_samples", "mlmc/sampling_pool_pbs.py: SamplingPoolPBS", "mlmc/tool/pbs_job.py: PbsJob", "mlmc/sample_storage_hdf.py: failed_samples, clear_failed"]}
{"id": "C136", "title": "One damaged result file of a PBS job costs no other results", "statement": "A job may be killed (walltime, full disk) while it appends a record to one of its result files, so that the file cannot be parsed. This affects only the samples of that job: results of all other jobs are still returned by the pool, in the running program and after a restart.", "quantifier": "all states and histories of the pool, all jobs killed while writing, all answers of qsub and qstat, all later calls of the program", "why_tests_cant": "The moment at which a batch system kills a job, relative to its writes and to the polls of the main program, cannot be chosen in a test.", "anchors": ["mlmc/sampling_pool_pbs.py: SamplingPoolPBS.get_finished, _get_result_files, _collect_unfinished", "mlmc/tool/pbs_job.py: PbsJob.read_results, _append_file"]}
{"id": "C137", "title": "Every new program recovers what jobs have recorded, whatever happened before", "statement": "However often programs with PBS on one file and one directory were killed or died and were started again, the first question for samples of the next program returns, stores the right value of every unfinished sample whose job has recorded a success, stores nothing else, and changes no scheduled or failed sample; if all jobs succeeded nothing is unfinished afterwards. Each sample is stored once.", "quantifier": "all programs and sequences of programs, all points of their deaths, all restarts with new or old directories, all answers of qsub and qstat, all appends of jobs at any time", "why_tests_cant": "Sequences of kills and restarts with jobs that go on in between have unboundedly many interleavings; a test with a real batch system can show only a few.", "anchors": ["mlmc/sampling_pool_pbs.py: SamplingPoolPBS.__init__, get_finished, _get_result_files, _collect_unfinished, have_permanent_samples", "mlmc/sampler.py: Sampler.__init__, ask_sampling_pool_for_samples", "mlmc/sample_storage_hdf.py: SampleStorageHDF.unfinished_ids"]}
{"id": "C138", "title": "Each sample is stored once over any number of programs with PBS", "statement": "However often programs with PBS on one file and one directory are killed or die and are started again on the old directory, and however they renew failed samples, no sample of any level is stored twice, be it with results or as failed, so that no level has more results than samples listed as scheduled.", "quantifier": "all programs and sequences of programs, all points of their deaths, all restarts with the old directory, all answers of qsub and qstat, all appends of jobs at any time", "why_tests_cant": "A duplicate needs a particular interleaving of kills, job progress and questions; unboundedly many of them exist, and a real batch system shows only a few.", "anchors": ["mlmc/sampling_pool_pbs.py: SamplingPoolPBS.get_finished, _get_result_files, _collect_unfinished, have_permanent_samples", "mlmc/sampler.py: Sampler.ask_sampling_pool_for_samples, schedule_samples", "mlmc/sample_storage_hdf.py: SampleStorageHDF.save_samples, unfinished_ids"]}
{"id": "C139", "title": "Interrupted computations with PBS give the estimates of uninterrupted ones", "statement": "However often programs with PBS on one file and one directory are killed or die, renew failed samples and are started again on the old directory, once every scheduled sample whose simulation succeeds is stored, all estimates are those of one uninterrupted program with a OneProcessPool that asks for as many samples.", "quantifier": "all programs and sequences of programs, all points of their deaths, all restarts with the old directory, all answers of qsub and qstat, all appends of jobs at any time, all simulations, all quantities", "why_tests_cant": "Tests run one program without interruptions; the histories of kills, job progress and questions are unbounded.", "anchors": ["mlmc/sampling_pool_pbs.py: SamplingPoolPBS.get_finished, _collect_unfinished, have_permanent_samples", "mlmc/sampler.py: Sampler.ask_sampling_pool_for_samples, schedule_samples, renew_failed_samples", "mlmc/quantity/quantity_estimate.py: estimate_mean"]}
{"id": "C140", "title": "The target numbers of a sampler are its own", "statement": "The numbers of samples a sampler schedules depend only on the calls made on that sampler and on the values of their arguments at the time of the call, not on what the program does later with the arrays it passed or with other samplers, and arrays passed by the user keep their content. That the numbers are kept in an array of integers, which drops fractions, has no effect.", "quantifier": "all programs with any number of samplers and arrays: all sequences of creating arrays, assigning to their entries, set_initial_n_samples with numbers, lists or arrays, and all other calls on the samplers, restarts and kills in schedule_samples", "why_tests_cant": "Tests use one sampler and literal lists; effects through a shared array depend on the whole history of two objects.", "anchors": ["mlmc/sampler.py: Sampler.set_initial_n_samples, set_level_target_n_samples, schedule_samples, sample_range"]}
{"id": "C141", "title": "Results of an unexpected shape are not stored as something else", "statement": "save_samples either stores every result of a poll as it is, or raises and leaves the storage without the samples it could not store, so that they count as unfinished.", "quantifier": "all sequences of save_samples calls on all levels, all shapes of results, all batches, both storages", "why_tests_cant": "The effect depends on the shape of the first result ever stored on a level and on how results are grouped into polls.", "anchors": ["mlmc/tool/hdf5.py: LevelGroup.append_successful, _append_dataset", "mlmc/sample_storage_hdf.py: SampleStorageHDF.save_samples", "mlmc/sample_storage.py: Memory.save_samples", "mlmc/sampling_pool.py: SamplingPool.calculate_sample"]}
{"id": "C142", "title": "What an Estimate object answers does not depend on what it was asked before", "statement": "Every method of an Estimate object answers as a new object with the same quantity and moment functions would, whatever methods were called on it before, whether they returned or raised, and whatever samples were added meanwhile.", "quantifier": "all sequences of calls of estimate_moments, estimate_covariance, estimate_diff_vars, estimate_diff_vars_regression, est_bootstrap and assignments of the quantity, all arguments, all contents of the storage at each call", "why_tests_cant": "It is about every history of calls on one object; tests make one call or a few in one order.", "anchors": ["mlmc/estimator.py: Estimate, est_bootstrap, estimate_diff_vars_regression, _variance_of_variance, estimate_moments, estimate_covariance, estimate_diff_vars"]}
{"id": "C143", "title": "A subset of moments for a plot names different existing moments", "statement": "moments_subset(n_moments, k), for 1 \u2264 k < n_moments, gives k different existing moments, none of them the zeroth, in increasing order from the first to the last, roughly geometrically spaced; with None it gives all but the zeroth.", "quantifier": "all numbers of moments n and all requested numbers k, every spacing routine whose values agree with the geometric ones up to rounding", "why_tests_cant": "It depends on roundings and on pushing equal values apart for every pair n, k; tests try a few.", "anchors": ["mlmc/plot/plots.py: moments_subset"]}
{"id": "C144", "title": "The bars of a variance breakdown are the contributions of the levels", "statement": "After any calls of VarianceBreakdown.add_variances, every level of every call has bars whose heights are variance over number of samples, stacked so that the top is the variance of the whole estimate, with error bars at the contributions of the reference variances, and no bars overlap.", "quantifier": "all sequences of calls, all numbers of levels, all tables of variances and references, all numbers of samples, all subsets of moments", "why_tests_cant": "It is an accumulation over all calls and levels, with positions depending on earlier calls.", "anchors": ["mlmc/plot/plots.py: VarianceBreakdown.__init__, add_variances"]}
{"id": "C145", "title": "A plot of eigenvalues shows the values in decreasing order, their errors and the threshold", "statement": "Eigenvalues.add_values draws the positive values in decreasing order with their errors, and the line of the threshold at the value it means.", "quantifier": "all lists of values and errors, linear and logarithmic axis, all thresholds", "why_tests_cant": "It must hold for all orders and signs of values.", "anchors": ["mlmc/plot/plots.py: Eigenvalues.add_values"]}
{"id": "C146", "title": "A plot of distributions shows every added distribution, the exact one over all of them, and samples as a density", "statement": "The exact curves are drawn over the smallest interval with all samples and domains added in any order; the curve of a distribution is not changed by later calls; error curves are the errors at its grid; a histogram has total area one with bars of the fractions of the samples.", "quantifier": "all sequences of added samples and distributions, all domains, all samples", "why_tests_cant": "It is about every order of calls and every set of samples.", "anchors": ["mlmc/plot/plots.py: Distribution.add_raw_samples, add_distribution, _plot_exact_distr, adjust_domain, _grid, show"]}
{"id": "C147", "title": "A plot of level variances shows all variances with curves fitted to them", "statement": "Variance.add_level_variances and show draw for every shown moment all variances that were added, at the steps of their levels, and a curve fitted to them over the range of all steps.", "quantifier": "all sequences of calls, all steps, all tables of variances", "why_tests_cant": "The data are merged over all calls before one fit.", "anchors": ["mlmc/plot/plots.py: Variance.add_level_variances, show, make_monotone"]}
{"id": "C148", "title": "Plots of bootstrap variances and means put every value at the tick of its level", "statement": "The plot of the variances of the variance estimates shows every value of every level and moment beside the tick labelled with its level and its numbers of samples; curves go through the places of the points they belong to; the plot of means shows every mean with its variance.", "quantifier": "all tables, all numbers of levels and moments, all lists of numbers of samples", "why_tests_cant": "Positions are computed from indices for every table.", "anchors": ["mlmc/plot/plots.py: BSplots.plot_bs_variances, _scatter_moment_data, plot_var_regression, plot_means_and_vars", "mlmc/estimator.py: plot_bs_var_log"]}
{"id": "C149", "title": "Figures are saved under the given name as PDF", "statement": "A figure shown with a file name is saved to that name with the extension .pdf, under its title if the name is empty, and not saved with None.", "quantifier": "all names and titles", "why_tests_cant": "All texts.", "anchors": ["mlmc/plot/plots.py: _show_and_save"]}
{"id": "C150", "title": "Brackets with steps of either sign and an ellipsis select the named entries of an array quantity", "statement": "For an array quantity, q[items] with integers, slices of any step other than 0 and at most one `...` selects, on every chunk and for the same samples, the entries NumPy selects from an array of the declared shape; the declared type has the axes that remain; indices outside and steps of 0 raise.", "quantifier": "all shapes, all indices made of integers, slices with positive and negative steps and an ellipsis, all chunks of samples with any number of parts", "why_tests_cant": "The number of axes, indices, steps and samples is unbounded, and the declared type and the evaluated samples are indexed by different expressions; tests use one documented index.", "anchors": ["mlmc/quantity/quantity_types.py: ArrayType.get_key, ArrayType._make_getitem_op, QType.keep_dims", "mlmc/quantity/quantity.py: Quantity.__getitem__"]}
{"id": "C151", "title": "Subtracting the estimated mean gives a quantity with mean 0, the same variances, and central second moments", "statement": "For a quantity q with estimate e, the quantity c = q - e.mean has the estimated mean 0 in every component, with the same samples, removed samples, level variances, variance of the mean and means of the corrections as q; the estimated mean of c * c is the one of q * q minus the square of the mean; and the documented recipe for central moments (moments of c) estimates these central moments.", "quantifier": "all quantities built from a storage, all numbers of levels, all chunkings, all stored samples incl. NaN ones, all moment functions with a domain", "why_tests_cant": "The mean of the telescoped corrections must vanish exactly for any number of levels, samples and chunks, with NaN samples removed consistently; the test compares one recipe with tolerance 1e-2.", "anchors": ["mlmc/quantity/quantity.py: Quantity.__sub__, Quantity.sub_op, QuantityMean.mean", "mlmc/quantity/quantity_estimate.py: estimate_mean, moments", "mlmc/moments.py: Moments.transform, Moments.clip", "docs/source/examples_quantity.rst"]}
{"id": "C152", "title": "Expressions of quantities act on every sample separately, component by component", "statement": "For quantities q and r the values of q + r, q * r, ... and of NumPy functions f(q), f(q, r) on a sample are the function applied to the values of q and r on that sample: fine with fine, coarse with coarse, component i with component i, a single number with every component. A reduction such as np.max(q) or np.sum(q, axis=0) gives the reduced value of the components of each sample.", "quantifier": "all quantities built from a storage by the documented operations, all functions, all samples with fine and coarse part, all axes and values of keepdims", "why_tests_cant": "A test evaluates a few expressions on one chunk; that no sample, part or component influences another must hold for all nested expressions, shapes and chunkings.", "anchors": ["mlmc/quantity/quantity.py: Quantity.__array_ufunc__, Quantity._method, Quantity._result_qtype, Quantity._process_mask, Quantity.add_op, Quantity.mult_op", "mlmc/quantity/quantity_estimate.py: mask_nan_samples, estimate_mean", "docs/source/examples_quantity.rst"]}
{"id": "C153", "title": "Estimates of moments of a part can be read from the estimate of the moments of the whole", "statement": "As in the tutorial, the moments of the whole result can be estimated at once and a part selected afterwards: moments_mean['target'][10]['0'][0] has the same means, variances and numbers of samples, level by level, as the estimate of the moments of the quantity root['target'][10]['0'][0]. With moments on the surface, moments_mean[k] is the estimate of moment(q, moments_fn, k). An estimate of the covariances of moments of the whole, indexed by a part, is the estimate of the covariances of that part.", "quantifier": "all quantities built from a storage by the documented operations, all sequences of keys, indices and slices, all moment functions, all data in all chunkings, all levels", "why_tests_cant": "A test selects one part of one result format and compares one number; the positions of the parts must be right for every nesting of types, number of moments and selected part, and the numbers of used samples must agree for every pattern of NaN.", "anchors": ["examples/shooting/shooting_1D.py: ShootingSimulation1D process_results", "mlmc/quantity/quantity_estimate.py: moment, moments, estimate_mean", "mlmc/quantity/quantity.py: QuantityMean.__getitem__", "mlmc/quantity/quantity_types.py: replace_scalar, get_key"]}
{"id": "C154", "title": "Scripts wait for all samples, keep existing results and recognise their machine", "statement": "A script derived from ProcessBase: all_collect returns if the pools of all samplers finish, and then everything that any pool returned was stored and no pool has running samples. Only the command run starts anew (and removes results only with the flag); the other commands append; only renew asks for failed samples. The settings for Metacentrum are used exactly if the work directory is under /storage, however the path is written.", "quantifier": "all numbers of samplers, all sequences of answers of their pools and clock readings, all commands and flags, all texts of paths and current directories", "why_tests_cant": "A test waits for one sampler in one directory; which pool finishes first and how a path is spelled are not under its control, and that a loop never ends cannot be observed by a test.", "anchors": ["mlmc/tool/process_base.py: ProcessBase.__init__, ProcessBase.all_collect, ProcessBase.set_environment_variables", "examples/shooting/shooting_1D.py: all_collect", "test/01_cond_field/process.py: CondField", "mlmc/sampler.py: Sampler.ask_sampling_pool_for_samples"]}
{"id": "C155", "title": "Estimates of an interpolated time series lie between the estimates at the neighbouring times", "statement": "For a time series, the estimated level means and mean of q.time_interpolation(v) at a time between two neighbouring stored times are the points on the straight line between the estimates of q[t0] and q[t1], from the same samples; at a stored time the estimate is that of q[t], with its means, variances and counts.", "quantifier": "all quantities of time series type (times in any order), all times in the range, all stored data and chunkings, all numbers of levels, all fields of numbers", "why_tests_cant": "A test interpolates one series at one time in data without NaN; the claim is about every series, time and data set, and fails only when NaN appear at a neighbouring time.", "anchors": ["mlmc/quantity/quantity_types.py: TimeSeriesType.time_interpolation", "mlmc/quantity/quantity_estimate.py: estimate_mean, mask_nan_samples", "mlmc/quantity/quantity.py: QuantityMean"]}
{"id": "C156", "title": "Results do not depend on the unit of the measured quantity", "statement": "Let s = a * q + c be a quantity in another unit (a, c constants). Its estimate exists with that of q, uses and drops the same samples, its mean is a * mean + c and its variances are a^2 times those of q. The estimated domain of s is the converted domain of q (a > 0). Moment functions made for the converted domain give the same estimates of moments and of covariances for s as the old ones for q. Planning with variances and target variance in the new unit asks for the same numbers of samples.", "quantifier": "all quantities, data (with NaN), chunkings, levels, units a, c, families and sizes of moment functions, domains, reference domains, planned variances and costs", "why_tests_cant": "A test compares one quantity in two units on one data set; the claim is about all data and units, and it fails for units in which the domain gets narrower than 1e-15.", "anchors": ["mlmc/quantity/quantity.py: Quantity arithmetic, QuantityMean", "mlmc/quantity/quantity_estimate.py: estimate_mean, moments, covariance", "mlmc/moments.py: Moments.__init__, linear, transform, clip", "mlmc/estimator.py: estimate_n_samples_for_target_variance, estimate_domain"]}
{"id": "C157", "title": "Estimated moments in one polynomial basis determine those in another", "statement": "For moment functions that are powers or Legendre polynomials there is a lower triangular matrix, depending only on the two moment objects, that turns the estimated moments of every component of every quantity with one of them into the estimated moments with the other (no more functions, same log and safe_eval, with safe_eval the same domain). So nothing is lost by the choice of the basis. With safe_eval and different domains this fails: samples outside of one domain are dropped from one estimate only.", "quantifier": "all sizes, domains, reference domains, log and safe_eval flags, quantities, data (with NaN), chunkings, levels, components and orders", "why_tests_cant": "A test compares two bases on one data set and size; the claim is about all data and sizes, and about one matrix for all of them.", "anchors": ["mlmc/moments.py: Monomial, Legendre, Moments.transform, linear, clip", "mlmc/quantity/quantity_estimate.py: moments, estimate_mean"]}
{"id": "C158", "title": "Rounding moves no sample out of the domain of moment functions", "statement": "In double arithmetic, moment functions with safe_eval whose reference domain has a power of two as width (Legendre: (-1, 1), Monomial: (0, 1)) never turn a value of their domain into NaN by rounding, whatever the domain, also with log; the order of values is kept, the positions differ from the exact ones by a few units of 2^-53, and values outside of the domain by more than 8 * 2^-53 of its width become NaN. So the estimate of moments drops no sample whose value is in the domain. For Fourier (reference domain (0, 2 pi)) this fails at the upper bound: on the domain (0, 25) the sample 25 is dropped; all values farther than 8 * 2^-53 of the width from the bound are kept.", "quantifier": "all domains, values, reference domains, monotone logarithms, quantities, data, chunkings, levels", "why_tests_cant": "Whether the rounded position of the largest sample exceeds the reference domain depends on the last bits of the domain; a test tries a few domains, and most of them work.", "anchors": ["mlmc/moments.py: Moments.__init__, linear, clip, transform, Monomial, Fourier, Legendre", "mlmc/quantity/quantity_estimate.py: moments, estimate_mean"]}
{"id": "C159", "title": "Moments on the estimated domain use the samples of the coarsest level", "statement": "Estimate.estimate_domain without a quantile returns, as documented, the whole range of samples, so that moments on that domain drop no sample of level 0. This holds with the quantile 0: the bounds are then the least and the greatest fine value of level 0. Without a quantile the bounds are the percentiles 1 and 99: whenever the values differ, at least the least and the greatest sample of level 0 are outside and are dropped from the estimate of moments, whatever the number of samples; at most 2 ceil(t (n-1)) of n samples are dropped.", "quantifier": "all scalar quantities (for the bounds: all quantities), data, numbers of levels and samples, quantiles, families of moments", "why_tests_cant": "A test sees that the domain looks reasonable; which samples the moments leave out depends on all values of the level.", "anchors": ["mlmc/estimator.py: Estimate.estimate_domain", "mlmc/moments.py: Moments.clip, transform", "mlmc/quantity/quantity_estimate.py: moments, estimate_mean, mask_nan_samples"]}
{"id": "C160", "title": "Large errors of estimates of bounded quantities are exponentially unlikely", "statement": "If the level differences are drawn independently and lie between bounds a and b on each level, the mean reported by estimate_mean is off by c or more with probability at most 2 exp(-2 c^2 / sum (b-a)^2/N), where N are the numbers of samples of the levels; so N >= L (b-a)^2 log(2/delta) / (2 c^2) samples on each of L levels keep the error below c with probability 1 - delta. For the moments of the library the differences are bounded without any knowledge of the distribution, so that an estimated moment is off by c or more with probability at most 2 exp(-c^2 / (8 sum 1/N)). The same holds for the mean reported by whole programs, whatever pool runs the simulations; if a program chooses the numbers of samples from the results, between lo and hi on each level, the mean is off by more than the sum of d over the levels with probability at most the sum over levels and k from lo to hi of 2 exp(-2 k d^2 / (b-a)^2).", "quantifier": "all distributions of the samples, quantities, components, numbers of levels and samples (fixed in advance or chosen from the results), error sizes, divisions into chunks, programs, pools and orders of finishing", "why_tests_cant": "A probability over all draws, which is far below what repeated runs of a test can observe.", "anchors": ["mlmc/quantity/quantity_estimate.py: estimate_mean, moments", "mlmc/moments.py: Moments.transform, Monomial, Fourier, Legendre", "mlmc/estimator.py: Estimate.estimate_moments"]}
{"id": "C161", "title": "Sample allocation in floating-point arithmetic", "statement": "Computed in floating-point arithmetic, estimate_n_samples_for_target_variance still gives every level at least 2 samples, within rounding of the limited optimum up to a relative error of about (L+6) u, L being the number of levels and u the relative error of one operation, so that with one more sample on each level the predicted variance is at most about twice the target - for variances that are not negative and optima within 64-bit integers. Otherwise the claims fail: a moment with a negative variance on one level (which rounding can produce) counts as variance 0 on all levels, a NaN variance gives the number -2^63, and an optimum beyond 64-bit integers gives 2 samples.", "quantifier": "all variances, costs, targets, numbers of levels and moments, all roundings with bounded relative error, all orders of summation", "why_tests_cant": "Rounding errors, NaN and integer overflow depend on all bits of the inputs.", "anchors": ["mlmc/estimator.py: estimate_n_samples_for_target_variance"]}
{"id": "C162", "title": "Adding samples in floating-point arithmetic moves toward the estimate and terminates", "statement": "Computed in doubles, process_adding_samples with a coefficient from 2^-26 to 1 (the default is 0.1) and estimates below 2^53 - 1 keeps what C05 says in exact arithmetic: one call never reduces the number of scheduled samples, never goes beyond the rounded-up estimate or an earlier target, strictly increases every level below its estimate, leaves the others alone, and repeated calls, also with estimates computed anew before every call that stay below a bound, return True after at most one call more than samples are missing. For smaller positive coefficients it fails: rounding can take back every step, so that no number of calls schedules another sample.", "quantifier": "all states of the sampler, estimates, coefficients and numbers of calls", "why_tests_cant": "Rounding depends on all bits of the numbers, and termination is about unboundedly many calls.", "anchors": ["mlmc/sampler.py: Sampler.process_adding_samples"]}
{"id": "C163", "title": "Initial numbers of samples in floating-point arithmetic", "statement": "Computed in floating-point arithmetic with log2, exp2 and every operation accurate to 2^-50, set_initial_n_samples and determine_n_samples with two numbers up to 2^32 give one number of samples for each level: exactly the given ones on the first and the last level, all others between them and within 0.51 of the geometric interpolation; a level gets no more samples than the one before wherever the interpolation falls by more than the error.", "quantifier": "all numbers of levels, all pairs of positive numbers up to 2^32, all roundings with bounded relative error", "why_tests_cant": "Rounding errors of logarithms and powers depend on all bits of the inputs and on the mathematical library.", "anchors": ["mlmc/sampler.py: Sampler.sample_range, Sampler.set_initial_n_samples", "mlmc/estimator.py: determine_n_samples"]}
{"id": "C164", "title": "Level parameters in floating-point arithmetic", "statement": "Computed in floating-point arithmetic, determine_level_parameters gives one step for each level, exactly the coarsest step on the first and exactly the finest on the last level, all others within a relative error of e^(3uL)(1+u)^3-1 of the geometric sequence (u bounds the relative error of one operation, L the logarithms of the steps; below 2^-45 for doubles and steps between e^-10 and e^10); the steps decrease strictly wherever the ratio of neighbours is below (1-error)/(1+error); one level has exactly the finest step; a step range that does not decrease is refused.", "quantifier": "all numbers of levels, all decreasing ranges of positive steps, all roundings and powers with bounded relative error that are exact for the exponents 0 and 1", "why_tests_cant": "Rounding errors of powers depend on all bits of the steps and on the mathematical library.", "anchors": ["mlmc/estimator.py: determine_level_parameters, calc_level_params"]}
{"id": "C165", "title": "Values of moment functions in floating-point arithmetic", "statement": "Computed in doubles, eval_all of Legendre moments for a value in the domain gives, for every degree n, the Legendre polynomial at the exact position of the value in the domain up to 21 n (5/2)^n / 2^53 (below 10^-9 for degree 10), and exactly 1 for degree 0; eval_all of monomials gives the powers of the position up to 8 n / 2^53; a value outside of the domain gives NaN in all columns, and size 0 is refused.", "quantifier": "all domains wider than 1e-15 with doubles or other rational bounds, with or without logarithm, all values in the domain, all numbers of moments up to 2^51", "why_tests_cant": "Rounding errors depend on all bits of the value and of the bounds, and grow along the recurrence.", "anchors": ["mlmc/moments.py: Moments.transform, Monomial._eval_all, Legendre._eval_all"]}
{"id": "C166", "title": "Estimated moments in floating-point arithmetic", "statement": "When all stored values (fine ones, and coarse ones above level 0) are in the domain of the moment functions and the mean of the moments is estimated with everything computed in doubles, no sample is dropped, every level counts all its samples, and the level mean of the Legendre polynomial of degree n is the average of the exact differences of this polynomial over the samples, up to twice the error of the polynomials 21 n (5/2)^n / 2^53 and the relative error (1 + 2^-53)^(N+2) - 1 of adding N numbers; for monomials the same with 8 n / 2^53. The estimated mean is the sum of these averages over the levels with the errors added, and the level variance of a level with at least two samples is the sample variance of the exact differences up to a similar absolute error. For any stored values, exactly the samples with a value that the transformation makes NaN are dropped, and all others are counted.", "quantifier": "all domains wider than 1e-15, with or without logarithm, all numbers of moments, levels and chunks, all samples in the domain", "why_tests_cant": "Rounding errors of the moment functions, of differences, sums over chunks and the division depend on all samples and on the division into chunks.", "anchors": ["mlmc/moments.py: Monomial._eval_all, Legendre._eval_all", "mlmc/quantity/quantity_estimate.py: moments, estimate_mean"]}
