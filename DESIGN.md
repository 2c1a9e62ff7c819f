# Formal model of GeoMop/MLMC in Lean 4

## Trusted base

* Lean 4.33.0's kernel (and the elaborator only as far as it produces terms the kernel accepts).
* Axioms: only `propext`, `Classical.choice`, `Quot.sound`; AXIOMS.txt has the list for every theorem (from `#print axioms`, for every
  theorem in MANIFEST.json). No own axioms, no `sorry`, no `native_decide`, no `bv_decide`.
* The transcription of Python into Lean definitions. Each definition cites the file and lines it models and
  states its simplifications.
* The specification files under `Verif/Spec` and the statements in `Verif/Props`: these are what a reader
  has to compare with the English text in `properties.jsonl`.

## Layout

* `lean/Verif/Model/*.lean`  – the model: total functions and state machines transcribed from /repo.
* `lean/Verif/Spec/*.lean`   – small, independent notions used in the statements.
* `lean/Verif/Proofs/*.lean` – helper lemmas.
* `lean/Verif/Props/*.lean`  – the property theorems, each with a non-vacuity `example`.
* `MANIFEST.json` maps properties to theorem names; `seeded/LOG.jsonl` records the wrong-program tests.

## General modelling choices

* Python exceptions are values (`Except`), NaN is `none` in `Option K`, `inf` is an explicit constructor.
* Floating point numbers are elements of an arbitrary linearly ordered field, or of ℝ when the code uses
  square roots, exponentials or trigonometric functions. Rounding errors are not modelled.
* NumPy arrays are lists (or functions on `Fin n`); dictionaries are association lists or functions.
* The simulation, the random generator and md5 are arbitrary functions; theorems quantify over them.
* Files and HDF datasets are lists of records; a crash can happen between two file operations.
* Threads: interleaving of atomic queue/counter operations.
* The PBS system (qsub, qstat, job processes) is an arbitrary environment; theorems quantify over its answers.

## Plan per property

Legend: R = round-trip, I = invariant by induction over operations, F = refinement, D = decision logic/algebra,
W = the code violates the property as stated: the negation is proved with a concrete witness and a `_partial`
theorem covers the part that does hold.

| id | model | proof |
|----|-------|-------|
| C01 | `_get_sample_tag` as list of characters, zero-padded decimal | D: decimal rendering injective, separator argument |
| C02 | sampler+storage state machine with ops and restarts; crash inside `schedule_samples` | I + W for the crash window |
| C03 | `schedule_samples` loop over levels | I over levels |
| C04 | `set_level_target_n_samples` | D |
| C05 | `process_adding_samples` over ordered field with ceiling | D + well-founded measure |
| C06 | polling loop over a stream of pool answers and clock readings | I over the stream |
| C07 | `_create_level_sim_objects` | D on lists |
| C08 | `set_initial_n_samples`, `sample_range` over ℝ with `round` half-even | D |
| C09 | `OneProcessPool` queues | I |
| C10 | async pool with callback thread and poller, atomic steps | I + W (lost update) |
| C11 | `calculate_sample` | D |
| C12 | seed as function of id; in-process vs PBS executions | F |
| C13 | workspace as set of directories | D + W (running numbers ≥ 10^7) |
| C14 | running time bookkeeping | I + W (wrong-size results are timed but fail) |
| C15 | `Memory` and `HDF` storages | R, I |
| C16 | same | I + W for Memory |
| C17 | chunks | R |
| C18 | `get_unfinished_ids` | D |
| C19 | file content vs in-memory object | F |
| C20 | append ids / append values as separate file writes with crash | I + W |
| C21 | `renew_failed_samples` | I + W for crash and for Memory |
| C22 | n_ops accumulation, pool cumulative times | I + W (double counting) |
| C23 | `QuantitySpec.__eq__`, `save_result_format` | D + W (one-sided location test) |
| C24 | `save_global_data` | D + W |
| C25 | both storages | F + W |
| C26–C29, C34 | PBS pool state machine with qsub outcomes | I (+ W for job count) |
| C30, C35 | job process as list of file appends; all prefixes | I over prefixes |
| C31–C33 | qstat/result collection | I + W (list mutated while iterated; failed loop variable) |
| C36–C44 | quantity types, expressions, evaluation on chunks | structural induction, index arithmetic, W where noted |
| C45–C50 | `estimate_mean`, moments, covariance | algebra over fields |
| C51–C54 | allocation, level parameters, domain | real inequalities, W for C52/C54 |
| C55–C59 | moments | algebra, polynomials, W for equality/size |
| C60–C63 | random fields | D, I, W |
| C64–C68 | template substitution, gmsh I/O, result extraction | R, D, W |
| C69 | synthetic simulation | D, W |
| C70 | cdf | D |
| C71, C72 | second sampler on one storage object, result format as stored bytes | R, W |
| C73 | initial numbers of samples | D |
| C74 | chunked sums of Fourier modes | I |
| C75, C76 | directories and files of a Flow123d sample as a file tree | D, I |
| C77 | counter of artificial failures | I, W |
| C78 | normalisation of the density | analysis over ℝ |
| C79 | bootstrap as statistics of resampled estimates | D |
| C80 | regression of level variances | linear algebra over ℝ, W |
| C81 | wait for added samples | I, W |
| C82, C83 | functional of the density fit | analysis over ℝ, W |
| C84 | construction of orthogonal moments | linear algebra over ℝ |
| C85–C86 | sampler, pool, HDF storage and estimation connected to whole programs | I over calls, R |
| C87 | a probability space of outcomes, each with the chunks the estimation reads (Spec/Statistics) | expectation and variance of the estimators of C46 by linearity and independence; the bias of adaptively chosen numbers by enumeration of 27 outcomes |
| C88 | entries of the matrix filled by `cov_matrix` (Model/KarhunenLoeve), positive semidefinite matrices (Spec/Covariance) | Schur products and power series of the exponential; conditionally negative definite functions and the integral representation of powers (Schoenberg); negation by three points |
| C89 | `svd_dcmp` with its loop over numbers of terms, any singular value decomposition, `sample` with random noise (Model/KarhunenLoeve, Spec/Covariance) | a positive semidefinite matrix is determined by its square, so the left factor suffices; covariances of linear images; Cauchy-Schwarz for the dropped terms; negation for four distant points |
| C90 | `FourierSpatialCorrelatedField`: spectra, sum over modes, random numbers as arguments (Model/FourierField, Spec/FourierField) | conditional covariances by independence; expectation of the cosines by polar coordinates, the Fourier transform of Gaussians, and subordination for the exponential model; negations by comparing exponents |
| C91 | `Sampler` + HDF storage + `SamplingPoolPBS` + job processes as one program; what PBS and the jobs do between and inside calls is an argument (Model/ProgramPbs, Spec/ProgramPbs) | invariant connecting storage, ghost history of pool calls and handed samples; C31 conservation; permutation invariance of estimates (C45); negation by a two job program |
| C92 | `Sampler` + HDF storage + `ProcessPool`/`ThreadPool` as one program; which tasks finish before each step of the main thread is an argument (Model/ProgramPar, Spec/ProgramPar) | invariant: delivered items are a sub-multiset of the items of the samples handed over, stored items plus those of renewed samples are the delivered ones; the counter of running samples is their difference, so at 0 everything was delivered; permutation invariance of estimates (C45) |
| C93 | several programs on one file (Model/ProgramRestart): reopening loads the scheduled lists, a kill is a prefix of the elementary actions of `schedule_samples` | the program invariant (C85) relative to a set of lost samples; I over programs; the lost ones are exactly `unfinished_ids()` |
| C94 | Model/Estimator: estimate_moments, estimate_covariance, estimate_diff_vars on top of the model of estimate_mean | used samples of the moments are lists of ones at row 0 (C46); covariance of one level is an average of outer products; counterexamples on two levels and for the default argument |
| C95 | Model/Gmsh (elements1 mode), Spec/Gmsh1: the lines of a format 1.0 file | the first line of `$NOD` meets an unbound `ftype`: negation for every file; with a format section in front, fold over the lines as in C66 |
| C96 | Model/Divergence: integrands with NaN, `quad` an argument, exact on continuous integrands | pointwise inequality `q - p ≤ …` integrated (Gibbs), equality case by continuity; Minkowski for the L2 distance; witnesses with a zero of the density |
| C97 | Model/ExactMoments: the double loop filling the matrix, quadrature points of a list of intervals | entries by I over the loops; quadratic form = integral (or weighted sum) of a square; I over the cuts of the domain for exactness on polynomials |
| C98 | Model/Constant: arrays with any number of axes, broadcasting from the last axis, `wrap` and `_process_value` | index computation for three axes; length of the broadcast shape by I over the axes; the three-axis operations of Model/Quantity are shown to be this broadcasting |
| C99 | Model/Slope: `best_fit_all`, `best_p1_fit`, `detect_treshold_slope_change` over ℝ with `np.polyfit` as an argument (least squares line, Spec/Slope), and the default branch of `construct_ortogonal_moments`. | Invariant of the search over windows, induction on the halving of the values, normal equations (the line fitted to increasing values increases), C84 for the constructed moments; counterexamples for few or equal eigenvalues. |
| C100 | Model/Qstat: the regular expression of `_qstat_pbs_job` as a matcher on characters, the identifier from `qsub`, the file name search of jobs. | Induction on the rows of the table (Proofs/Qstat); counterexample with confusing columns. |
| C101 | Model/PbsScript: `str.format` as a state machine, `pbs_common_setting`, `_create_script`, the class file, the command line as words separated by blanks. | Formatting of a text made of pieces by induction, explicit lines, reading back of the class file; counterexamples by evaluation in the kernel. |
| C102 | Model/Workspace: file system with numbered directories, current directory of each process, `handle_sim_files`, simulations as trees of actions on the current directory, removal of sample directories; interleavings of workers as lists of events. | Invariant over all possible lists of events (Proofs/Workspace); for threads the wrong order is constructed for any two samples. |
| C103 | Model/ConstructDensity: `construct_density` from the estimated covariances through `construct_ortogonal_moments` to the data of the fit (Fit.Data of C82/C83) and the fix of the normalization; `eigh`, `rq`, optimizer, quadrature are arguments. | Estimated means are linear in the moment functions (Proofs/MomentsLinear), the constant lies in the span of the kept combinations for every cut, without a cut `cov Lᵀ` inverts `L`; Cauchy-Schwarz for the error. |
| C104 | Model/PbsRestart: points of a kill of a program with PBS (Model/ProgramPbs), the jobs that go on, the new Sampler and pool on the file and directory. | What every killed program leaves (`PbsLeft`, Proofs/PbsRestart) as an invariant of calls and elementary actions; the answer of the first question from C33; two counterexamples by evaluation in the kernel. |
| C105 | Model/FloatEstimate: `estimate_mean` with an arbitrary rounding of every operation and trees of summation; rounding to 53 binary digits on rationals. | Invariant of the loop: number of roundings so far (Proofs/FloatEstimate); the 53 digits satisfy the standard model; counterexamples by evaluation in the kernel. |
| C106 | Model/PbsSessions: sequences of programs on one file and directory, renew_failed_samples included, each ending by a kill or an exception; on Model/ProgramPbs, Model/PbsRestart and Model/PbsRenew. | Invariant of the directory along the history of pool and job steps (every record right), and of the file as a run of storage operations (Proofs/PbsSessions); counterexample by evaluation in the kernel. |
| C107 | Model/LevelSamples: programs that save, estimate and read, over both storages and the cache of Model/Cache. | All evaluations of a program that fit into the saved samples are compatible (same key, same slice of the final list of samples), so the cache is invisible (Proofs/LevelSamples, from C42); witness for larger requests in the kernel. |
| C108 | Model/StagedFit: sizes, tolerances and stages of `estimate_density_minimize`; the minimization of one stage is an argument. | Invariant of the loop over sizes (Proofs/StagedFit) with monotonicity of Python's rounding; induction over the stages; the penalty on a domain of length one. |
| C109 | Model/StatsTests: the tests of `stats_tests.py`; distribution functions of scipy are arguments. | Probability integral transform for continuous distribution functions (Proofs/StatsTests); uniform p-values for the negative results. For normal samples Cochran's theorem is proved with moment generating functions (Proofs/ChiSquare, Proofs/Cochran). |
| C110 | Model/Adaptive: `process_adding_samples` on a whole program and the loop of the documentation; the estimator is any function of the program. | Every call is a sequence of proper calls of C85 and raises some level by at least one (Proofs/Adaptive); induction on the samples missing to the bound. |
| C111 | Model/AdaptiveStats: `estimate_diff_vars_regression` on the storage of a program and the new estimate of the loop. | Legendre polynomials are at most one on [-1, 1] by an explicit cosine sum (Proofs/LegendreBound); variances of bounded samples are bounded; stored widths by the invariant of C85; then C46, C80 and C110. |
| C112 | Model/Program with Model/Pool: `Dirs` of the pool during a program; Spec/ProgramDirs: where each directory has to be. | Invariant `DirInv` (Proofs/ProgramDirs) over all calls, with the invariant of C85 for the numbers of samples. |
| C113 | Model/Program: exceptions of `Pool.schedule` (missing files) leave `n_running` counted. | Which action raises by induction over the actions of a call; `Pool.Stuck` is kept by every collection, so waiting never ends. |
| C114 | Model/FlowLevels: `FlowSim.level_instance`, `force_mkdir`, common file directories, the loop of the Sampler over levels, `calculate` with the files found there. | Induction over the steps for the contents of the directories; then C63 and C76. |
| C115 | Model/Shooting: `level_instance`, `calculate`, `create_points`, `_run_sample` in one and two dimensions; the field generator is any function of the points. | Closed form of the loop by induction; the error bound cell by cell with integrals. |
| C116 | Model/MomentArrays: arrays as shape and entries; `_eval_all` of each family, `np.matmul` of transformed moments, `[:, -1]`, `[..., i]`, assignments with broadcasting, `transpose` and `reshape` of `moments`. | Structural induction over chains of transformations; entries compared index by index with the evaluation of one number. |
| C117 | Model/StoreText: fixed-width fields, appends as resize and fill, loops over levels that stop at the first exception. | Refinement of Model/Storage for ASCII texts; the failing case computed for every storage. |
| C118 | Model/StorePath: files by directory and name, the current directory (possibly removed), `h5py.File(name, 'a')`, writes to level groups; events of the storage and of the pools. | Induction over events with the invariant that the path means one file; the failing cases computed for every state. |
| C119 | Model/SeedRace: interleaving of the accesses of the workers to the distribution object and the class attributes; a map from workers to memories separates processes from threads. | Invariant over schedules: a worker that has seeded its generator finds it unchanged; counterexamples are two schedules of two threads. |
| C120 | Model/FlowSeed: the kinds of fields of create_corr_field, where each takes its random numbers from (global generator before and after seeding, operating system), on top of Flow.calculate. | Congruence of Flow.calculate in the values of the field at the joint points; counting of these points; concrete counterexamples on meshes. |
| C121 | Model/QuadCache: last multipliers, last gradient and quadrature as a state, the two tests and the renewal, histories of evaluations. | Cauchy-Schwarz for the redundant test; induction over the evaluations; convexity of the exponential for the lower bound; explicit rules for the counterexamples. |
| C122 | `klLog`: the numerics of the field with the flag log; sampling as in C89 | moment generating function of independent normal numbers, the identity of the decomposition from C89 |
| C123 | `MemProg`: sampler, memory storage and pool; `estimateFromMemory` | the program runs in step with the HDF program of C85; C25, C45, C46 |
| C124 | the estimate of C25 applied to the first n draws of every level | strong law of large numbers for the draws and their squares |
| C125 | the estimate of C25 applied to the first n draws of every level | central limit theorem for a weighted sum over levels by characteristic functions; Slutsky's theorem replaces the variance by the reported one |
| C126 | the model of C51 | Cauchy-Schwarz inequality |
| C127 | `wsJob`: samples of a process one after another, counters from zero | invariant of the counters over the samples of a job; induction over the jobs |
| C128 | `nSamples` of Model/Allocation | work of the optimum is (sum of sqrt(V C))^2 / target, summed over the moments; geometric sums |
| C129 | integrals of the density over the reals; lists are objects whose contents may differ at each call | substitution in the integral, chi-square law of the residuals (Proofs/ChiSquare); induction over calls with the invariant that the saved values fit the saved list |
| C130 | dictionaries from identifiers to regions, written by the loops of the code | what a dictionary holds after a loop of assignments; induction over the fractures |
| C131 | attributes of the object; the library is a function argument | induction over the calls |
| C132 | composition of the program of C85 with the estimators of C87, C124, C125 | the differences used by the estimate of a program are those of its simulations; pushforward of independent uniform seeds |
| C133 | the program of C85, seeds as in C132, simulations that may raise or return NaN | strong law for sums of values and numbers of successes, quotient of the limits |
| C134 | the programs of C85, C91, C92, C93, C123 and C135, seeds as in C132 | reduction to a one-process program by equality of estimates (C91, C92, C93, C123, C135), then C132 and C133 |
| C135 | the programs of C91 with renew_failed_samples as a further call | invariant over the history of the pool: stored + failed + waiting = requested as multisets, also in the middle of the loop of renew_failed_samples; hence no job contains a sample twice |
| C136 | the pool of C26-C33 with a set of jobs whose result files cannot be read | invariants over all later histories: a job without marker file is not read again; a sample to be recovered from a damaged job stays in the set that is read first |
| C137 | the sessions of C106; nothing new | the directory is a function of the steps since it was last emptied (map of samples to jobs, scheduled files, recorded successes), joined with the invariant of C106 and the loop of C33 |
| C138 | the sessions of C106; nothing new | identifiers a pool may still answer (in its jobs, its queue, its list of unfinished samples) are distinct and neither stored nor failed in the file; kept by every step of pool, jobs, sampler, restarts and renewing (the renewed leave the failed ones), because samples are numbered by the file |
| C139 | the sessions of C106 and the estimates of C86; nothing new | C138 and C106: stored results are a permutation of those of the samples 0 to k-1, so C45 (estimates do not depend on the order) applies |
| C140 | arrays on a heap, by reference, with truncation in arrays of integers (Model.TargetArrays); everything else is the sampler of C01-C06 | a simulation between a sampler on the heap and the sampler of Model.Sampler, equal up to fractions of targets, with the invariant that its array is its own |
| C141 | batches with shapes, datasets with the shape of their first item, enlarging before writing, exceptions that end the loops (Model.ShapedStore) | induction over the batches and calls; refinement to Model.Storage; general negative theorems |
| C142 | the attributes of an Estimate object over sequences of calls, exceptions included (Model.EstimateCalls, on Model.Estimator, Model.Subsample and Model.VarOfVar) | invariant of the saved values over the history; induction over calls and over the columns of a regression; general negative theorems |
| C143 | moments_subset with its rounding to even and its loop over equal indices (Model.Plots); geomspace is an argument close to the geometric numbers | least increasing sequence above the rounded values; bounds of geometric numbers |
| C144 | the object with the bars, labels and places it hands to matplotlib (Model.Plots) | invariant over the calls, induction over levels |
| C145 | what add_values hands to matplotlib (Model.PlotFigures) | case analysis over orders of values; general negative theorems |
| C146 | the object, np.linspace, np.histogram and the curves (Model.PlotFigures) | invariants over calls; counting over bins; convexity of the logarithm for kl |
| C147 | the object, merging of steps and the call of the fit (Model.PlotFigures) | invariant over calls; general negative theorems |
| C148 | points, labels and limits handed to matplotlib (Model.PlotFigures) | membership in the lists of points; general negative theorem for the caller |
| C149 | the computation of the name (Model.Plots) | suffixes of texts |
| C150 | NumPy basic indexing on the full array of shape (*shape, N, P), keep_dims and get_key (Model.IndexEllipsis) | row-major positions by induction over axes; ranges with steps characterised by membership and order |
| C151 | estimate_mean on q - mean and on products (Model.Estimate, Model.Quantity), moment functions with clipping (Model.Moments) | values of the centred quantity sample by sample; only level 0 shifts, corrections do not; sums over levels telescope |
| C152 | operations on chunks (Model.Quantity), reductions with axis and keepdims (Model.Reduce), estimate_mean (Model.Estimate) | evaluation of a one-sample chunk by the per-sample semantics of C41; broadcasting of rows is elementwise or by a single number; witnesses for the other axes |
| C153 | types, quantities and moments (Model.Quantity), estimate_mean and indexing of estimates (Model.Estimate) | positions of a part in a type stay in proportion when scalars are replaced by arrays; induction over the sequence of brackets, with existence of the intermediate estimates from the data of the last one |
| C154 | ProcessBase.__init__, all_collect, os.path.abspath, os.path.split, set_environment_variables (Model.Process), ask_sampling_pool_for_samples (Model.Polling) | induction over turns and samplers with C06; os.path.split removes the last name of a resolved path; invariant that two slashes stay |
| C155 | time_interpolation (Model.Quantity), the interpolation formula on NaN (Model.TimeNan), estimate_mean (Model.Estimate) | value of the interpolation on a single sample; linearity of means over the used samples; equal values on equal used samples give equal estimates |
| C156 | arithmetic of quantities (Model.Quantity), estimate_mean (Model.Estimate), moment functions (Model.Moments), estimate_domain (Model.Domain), planned samples (Model.Allocation) | component functions of the evaluated samples; affine maps commute with means, percentiles (sorting), minima and maxima; sample variances and square roots scale |
| C157 | moment functions (Model.Moments), moments of quantities and estimate_mean (Model.Quantity, Model.Estimate) | families of polynomials with rising degree span; transformations of two objects differ by an affine map; linearity of estimates in the moment functions |
| C158 | constructor, linear, clip and transform with every operation rounded (Model.FloatMoments, double of Model.FloatEstimate) | rounding is monotone, exact on powers of two, and numbers up to half a unit above a power of two are rounded to it; relative errors of the four operations |
| C159 | estimate_domain with NumPy's percentiles (Model.Domain), moments (Model.Quantity, Model.Moments), the estimate (Model.Estimate) | the bounds come from passes over prefixes of level 0; percentiles of sorted different values lie strictly between the extremes; counting of dropped samples |
| C160 | as C46, C50 and C111 (Model.Estimate, Model.Quantity, Model.Moments); samples are random variables | Hoeffding's lemma for each sample, sub-Gaussian sums of independent variables, the textbook formula of the estimate (C46) |
| C161 | estimate_n_samples_for_target_variance with the rounding of every operation, NaN and the conversions to 64-bit integers (Model.FloatAllocation) | relative errors of the operations one after another (as C105), then as C51 and C52 |
| C162 | process_adding_samples with every operation rounded to doubles (Model.FloatAdding) | relative errors of the operations for progress; doubles never round beyond integers below 2^53, for the upper bound; the number of missing samples decreases, as C05 |
| C163 | np.linspace, np.log2 and np.exp2 with the rounding of every operation (Model.FloatInitial) | relative errors of the operations one after another; an error of an exponent is a relative error of the power (Bernoulli's inequality) |
| C164 | the division, subtraction, powers and product of determine_level_parameters with their rounding (Model.FloatLevels) | the error of an exponent is a factor exp(error * logarithm) of the power; products of relative errors |
| C165 | the recurrences of legvander and polyvander with the rounding of every operation, after the rounded transformation of C158 (Model.FloatVander) | the coefficients of the recurrence are at most 2 and 1, so errors grow at most like (5/2)^n; the same for the change of the position |
| C166 | the moment functions of C165 applied to every sample, then the rounded estimate of C105 (Model.FloatVander, Model.FloatEstimate) | the rows have no NaN, so all samples are used; the errors of C165 and C105 are added, with absolute values of the exact functions at most 1 |

Every property is expressible in an executable model, none is declared not applicable in advance.

## Properties: what is proved

One line per property; the theorems are in the named files of `lean/Verif/Props`. The model files are those imported there.

| id | title | status | file | theorems | remark |
|----|-------|--------|------|----------|--------|
| C01 | Sample identifiers are unique | proved | Sampler | `C01_sample_ids_unique` |  |
| C02 | No identifier is ever scheduled twice by schedule_samples | proved | Sampler | `C02_no_id_scheduled_twice`, `C02_crash_reuses_ids` | Both parts: distinct identifiers in histories with restarts, and reuse of the identifiers after a crash between handing samples to the pool and recording them (for every state and crash point). |
| C03 | schedule_samples schedules exactly up to the target | proved | Sampler | `C03_schedule_exactly_to_target`, `C03_scheduled_list_is_prefix` |  |
| C04 | Raising targets never lowers a target | proved | Sampler | `C04_targets_only_raised` |  |
| C05 | process_adding_samples moves toward the estimate and terminates | proved | Adding | `C05_adding_one_call`, `C05_adding_terminates` |  |
| C06 | Polling stores everything it collects and reports completion truthfully | proved | Polling | `C06_polling`, `C06_polling_returns` |  |
| C07 | Levels are chained: coarse of level l is fine of level l-1 | proved | Sampler | `C07_levels_chained` |  |
| C08 | Default and geometric sample numbers | proved | Initial | `C08_initial_numbers`, `C08_geometric_sequence` |  |
| C09 | In-process pool delivers every scheduled sample exactly once | proved | Pool | `C09_delivered_exactly_once`, `C09_missing_file_counterexample` | All call sequences whose common files can be copied; a missing common file makes schedule_sample raise after the running count was raised (witness). |
| C10 | Parallel pool loses no result | partial | Parallel | `C10_nothing_returned_twice`, `C10_no_result_lost_partial`, `C10_counterexample`, `C10_worker_error_counterexample` | Nothing is returned twice in any interleaving; nothing is lost if no callback falls inside the draining of a get_finished call; otherwise a result can stay unreturned while the running count is wrong (witnesses). |
| C11 | A sample counts as successful only if the simulation returned a well-formed result | proved | Pool | `C11_success_iff_well_formed`, `C11_declared_size`, `C11_list_counterexample` |  |
| C12 | A sample's result depends only on its identifier and its level | proved | PbsSim, Pool | `C12_result_function_of_id_and_level`, `C12_seed_bytes`, `C12_pbs_result_function_of_id_and_level` |  |
| C13 | Which sample directories survive | partial | Pool | `C13_directories_by_last_digits`, `C13_directories_partial`, `C13_counterexample`, `C13_new_pool_wipes` | The rule looks at the last seven digits only: running numbers from ten million on are treated as small ones (witness). |
| C14 | Accounted running time is the total over successful samples | partial | Pool | `C14_times_of_returned`, `C14_times_partial`, `C14_counterexample` | Totals are proved over all samples whose simulation returned; failed samples with a result of wrong size are counted too (witness). |
| C15 | Stored sample pairs are read back exactly | proved | Storage | `C15_hdf_pairs_read_back`, `C15_memory_pairs_read_back`, `C15_hdf_sample_pairs`, `C15_memory_sample_pairs` |  |
| C16 | Finished counts equal successful plus failed | partial | Storage | `C16_hdf_finished_counts`, `C16_memory_finished_counts_partial`, `C16_memory_counterexample` | HDF storage in full; the memory storage drops a first batch that is all failures (witness). |
| C17 | Chunks cover the collected samples exactly once | proved | Storage | `C17_chunks_cover`, `C17_memory_chunks`, `C17_chunk_positions` |  |
| C18 | Unfinished identifiers are exactly scheduled minus finished | proved | Storage | `C18_unfinished_ids` |  |
| C19 | HDF storage survives closing and reopening | partial | StorageFile | `C19_reopen_partial`, `C19_counterexample` | For formats the file can represent; otherwise the reopened storage refuses its own format (witness). |
| C20 | HDF storage never pairs an identifier with another sample's values | partial | StorageFile | `C20_ids_and_values_aligned_partial`, `C20_crash_keeps_values_partial`, `C20_counterexample` | A crash between the writes of one batch shifts identifiers against values (witness). |
| C21 | Failed samples can be renewed without losing or duplicating samples | partial | StorageFile | `C21_renew_failed`, `C21_crash_duplicates_counterexample`, `C21_crash_breaks_storage_counterexample`, `C21_missing_dataset_stays`, `crashInRenew_full` | Proved for uninterrupted calls; two crash witnesses; a dataset lost in a crash is never repaired, by any later history of calls. |
| C22 | Cost per sample is total time over number of samples | partial | Pool, StorageFile | `C22_storage_cost_ratio`, `C22_cost_between_partial`, `C22_constant_cost_partial`, `C22_memory_cost_partial`, `C22_memory_single_report_partial`, `C22_counterexample`, `C22_memory_counterexample` | The storage adds up all reports although a pool reports totals since its start: the stored cost lies between the smallest and the largest running time of the level and is exact for constant times, but it is not the average (witness). The memory storage adds averages (witness). |
| C23 | A storage refuses a different result format | partial | StorageFile | `C23_format_guard_partial`, `C23_counterexample`, `C23_points_counterexample` | Reordered locations and point locations pass the guard (witnesses); a different number of locations of the first quantity is refused by the type of the dataset. |
| C24 | Level list is consistent after opening with any number of levels | partial | StorageFile | `C24_level_ids_partial`, `C24_counterexample` | Fails when a file is reopened with another number of levels (witness). |
| C25 | Memory and HDF storages are interchangeable | partial | Storage | `C25_storages_agree_partial`, `C25_counterexample` | Stored pairs and collected numbers agree; finished counts and unfinished ids do not (witness). |
| C26 | Every sample given to the PBS pool is in exactly one submitted job or still pending | partial | Pbs | `C26_nothing_lost`, `C26_in_exactly_one_job`, `C26_marker_file_counterexample` | Proved for histories in which qsub either fails or succeeds entirely; if the marker file cannot be written after qsub accepted the job the package is submitted twice (witness). |
| C27 | PBS packages respect the weight and count limits | proved | Pbs | `C27_package_limits` |  |
| C28 | qsub failures are tolerated up to ten in a row | proved | Pbs | `C28_eleventh_failure_raises`, `C28_retry_same_number` |  |
| C29 | PBS job numbers are never reused | partial | Pbs | `C29_job_numbers_not_reused_partial`, `C29_listing_order_counterexample`, `C29_sorted_names_counterexample` | Holds if the directory listing read at a restart ends with the largest number; glob promises no order, and then numbers are reused (witness). |
| C30 | Reading a finished job's results accounts for every sample of the job exactly once | proved | PbsJob | `C30_read_results_exact` |  |
| C31 | PBS results are collected at most once and finally all | partial | PbsCollect | `C31_collected_when_first_reported_partial`, `C31_conservation_partial`, `C31_collected_again_partial`, `C31_conservation_again_partial`, `C31_marker_file_counterexample`, `C31_restart_counterexample` | Proved for histories of one pool object without restart, qsub answers that are a failure or a full success and distinct PBS identifiers (a rule of PBS). False across restarts (witness; recovery: C33) and if the marker file of an accepted job cannot be written (witness); samples may be handed over again (renewal) as long as no job contains a sample twice. |
| C32 | PBS running count covers every unfinished job | partial | PbsCollect | `C32_running_count_partial`, `C32_counterexample`, `C32_pending_counterexample` | Exact only while no collected job is followed by another one in the list of jobs (the list is changed while iterated); samples waiting in the package are not counted (witnesses). |
| C33 | Samples unfinished at a crash are recovered from PBS job files | partial | PbsRecovery | `C33_successes_recovered_partial`, `C33_failed_and_duplicate_counterexample`, `C33_running_lost_counterexample`, `C33_pending_counterexample`, `C33_not_debug_counterexample`, `C33_new_job_counterexample`, `C33_hang_counterexample` | Written successful results are recovered; failed samples are reported wrongly, running and pending ones lost (witnesses). |
| C34 | The sample to job map points to the latest job | proved | Pbs | `C34_map_points_to_last_job`, `C34_after_emptying` | A restart with debug=False empties the directory and the map with it; C34_after_emptying counts the packages written since. |
| C35 | A PBS job computes each scheduled sample with its own level's simulation and seed | proved | PbsJob, PbsSim | `C35_job_computes_each_sample`, `C35_level_simulation_is_first`, `C35_stale_simulation_counterexample` | The level simulation read by jobs is the first one handed over (a restart with another configuration keeps using the old one, witness). |
| C36 | Named access addresses the right entries of the result vector | proved | AccessOnly, QuantityAccess | `C36_named_access`, `C36_addresses_distinct`, `C36_nothing_else`, `C36_location_before_time` | Formats with distinct names, times and locations (FormatOK); the addresses are distinct, as many as the root quantity has components, and each is the entry at its position in the documented order. |
| C37 | A quantity's size is the number of values it evaluates to | partial | QuantityIndex, QuantityParts, QuantitySize | `C37_size_partial`, `C37_broadcast_counterexample`, `C37_repeated_key_counterexample`, `C37_field_entries` | All expressions without broadcasting between components and with distinct keys (predicate Plain); otherwise the size is wrong (witnesses). |
| C38 | Chunked evaluation equals whole evaluation | proved | Quantity | `C38_samplewise`, `C38_chunked_evaluation`, `C38_hdf_chunks` | All quantities built with the API (inductive predicate Built), any partition; ids of live selection objects are assumed unique (IdsIdentify). C38_hdf_chunks uses the chunks the HDF storage really makes. |
| C39 | Selection keeps exactly the samples satisfying the conditions | proved | Quantity | `C39_select_keeps_exactly`, `C39_comparison`, `C39_comparison_with_number` | Any number of conditions, logical combinations included; comparisons of quantities of equal size and with numbers. |
| C40 | Quantities from different selections or storages cannot be mixed | proved | QuantityMix | `C40_mixing_raises`, `C40_single_source`, `C40_same_source_and_constants_combine`, `C40_function_of_constant_refused` | Every combining operation of the API. Additionally: a NumPy function of a constant is not treated as a constant and cannot be combined. |
| C41 | Composed quantities give back their parts | partial | DictTypes, QuantityIndex, QuantityParts | `C41_dict_part`, `C41_time_part`, `C41_field_part`, `C41_array_part_partial`, `C41_array_index`, `C41_array_counterexample`, `C41_dict_types`, `C41_dict_types_counterexample` | Dictionaries, time series and fields with distinct keys; arrays of parts of size one. Arrays of larger parts cannot be indexed at all (general negative theorem). A dictionary of conditions and numbers is refused only if a condition comes first. |
| C42 | Evaluation caching is invisible | partial | Cache | `C42_history_partial`, `C42_estimates`, `C42_hdf_chunks_distinct`, `C42_counterexample_identity`, `C42_counterexample_growth` | Histories without reuse of object identities and with unchanged chunk contents between clearings; estimate_mean always (it clears first). Otherwise stale values (witnesses). |
| C43 | Subsampling returns the requested number of samples | partial | Subsample | `C43_refused`, `C43_stored_samples`, `C43_number_partial`, `C43_chunk_numbers_partial`, `C43_counterexample_number`, `C43_counterexample_repeated` | Exact number for levels stored in one chunk; with several chunks the number is wrong and samples may repeat (witnesses). |
| C44 | Time interpolation is exact at the nodes and linear between | proved | QuantityTime | `C44_exact_at_times`, `C44_linear_between`, `C44_outside_raises` |  |
| C45 | Mean estimate does not depend on chunking or sample order | proved | Estimate | `C45_chunking_and_order` |  |
| C46 | Level mean and variance are the textbook estimators | proved | Estimate | `C46_textbook_estimators`, `C46_totals`, `C46_variance_nonneg` |  |
| C47 | NaN samples are dropped completely and counted | proved | Estimate | `C47_counts`, `C47_all_evaluated`, `C47_nan_samples_do_not_matter`, `C47_all_dropped_raises` |  |
| C48 | Mean estimation is linear and commutes with indexing | partial | EstimateCombine, EstimateIndex, EstimateLinear, MomentParts | `C48_linear`, `C48_linear_nan_partial`, `ExCombine.C48_linear_nan_counterexample`, `C48_indexing_partial`, `C48_indexing_nan_partial`, `C48_nan_counterexample`, `C48_tuple_counterexample` | Linearity for data without NaN, or with NaN in the same samples of both quantities (otherwise false, witness); indexing with keys and single indices for data without NaN, or with NaN that drop the same samples from both. With NaN in another component, or with a tuple of indices, indexing does not commute (witnesses). |
| C49 | Telescoping: consistent levels give the finest-level mean | proved | Estimate | `C49_telescoping`, `C49_identical_levels` |  |
| C50 | Moment and covariance quantities have the documented layout | proved | EstimateCov, QuantityMoments | `C50_moment_layout`, `C50_moments_bottom_layout`, `C50_moments_surface_layout`, `C50_covariance_bottom_layout`, `C50_covariance_surface_layout`, `C50_covariance_estimate`, `C50_nested_index_counterexample` | Layout for all shapes and the consequences for estimates (both layouts). Additionally: moments of a nested array type cannot be indexed per scalar. |
| C51 | Sample allocation follows the optimal formula within its bounds | proved | Allocation | `Alloc.C51_formula`, `Alloc.C51_at_least_two`, `Alloc.C51_near_limited_optimum`, `Alloc.C51_monotone`, `Alloc.npRound_rounded` |  |
| C52 | The allocated sample numbers meet the variance target | partial | Allocation | `Alloc.C52_within_factor_two_partial`, `Alloc.C52_balanced_partial`, `Alloc.C52_counterexample` | The limit V_l*L/target cuts levels with a small share of the work, so the target is missed by 40 percent in the witness; it is never exceeded by more than a factor of two (up to rounding) and met when all levels share the work equally. |
| C53 | Level parameters interpolate geometrically between the step bounds | proved | Allocation | `Alloc.C53_refused`, `Alloc.C53_geometric`, `Alloc.C53_one_level`, `Alloc.C53_level_parameters` |  |
| C54 | The estimated domain covers the samples of every level | partial | Domain | `C54_level_zero_partial`, `C54_counterexample` | Level 0 is covered for any number of levels; other levels are never read (witness with all fine samples of level 1 outside). |
| C55 | Moment transform maps the domain onto the reference domain and is invertible | partial | Moments | `Mom.C55_bounds`, `Mom.C55_strictly_increasing`, `Mom.C55_inverse`, `Mom.C55_safe_eval`, `Mom.C55_unsafe_eval`, `Mom.C55_onto`, `Mom.C55_tiny_domain_counterexample` | Linear and logarithmic domains of (logarithmic) width at least 1e-15; below that width the bounds are not mapped to each other (witness). |
| C56 | Moment families are nested and zeroth moment is one | partial | FourierEval, Moments | `Mom.C56_nested`, `Mom.C56_zeroth_is_one`, `Mom.C56_single_is_column`, `Mom.C56_eval_is_column_partial`, `Mom.C56_columns`, `Mom.C56_fourier_counterexample`, `Mom.C56_fourier_eval_shifted` | All but eval of the Fourier functions, which returns other functions than the columns of eval_all (witness; in general it returns the column before). |
| C57 | Legendre derivative matrix differentiates | proved | MomentsDer, MomentsDiff | `Mom.C57_any_degree`, `Mom.C57_degree_one_two`, `Mom.C57_derivatives`, `Mom.C57_other_size`, `Mom.C57_original_variable` |  |
| C58 | Transformed moments are the given linear combinations | proved | MomentsDer, MomentsDiff | `Mom.C58_any_degree`, `Mom.C58_values`, `Mom.C58_derivatives`, `Mom.C58_nan`, `Mom.C58_shape`, `Mom.C58_composition`, `Mom.C58_zeroth` | Where a base moment is NaN all transformed ones are NaN (C58_nan). |
| C59 | Equal moment objects evaluate equally | partial | MomentsDiff | `Mom.C59_equal_objects_partial`, `Mom.C59_ref_domain_counterexample`, `Mom.C59_change_size_counterexample` | Holds for objects with the same reference domain; the comparison ignores it (witness). change_size always raises (general negative theorem). |
| C60 | Field value maps stay in their ranges | partial | RandomField | `RF.C60_positive_to_range_partial`, `RF.C60_counterexample`, `RF.C60_kozeny_carman_bound`, `RF.C60_kozeny_carman_monotone` | positive_to_range for a positive upper bound; for every other upper bound it leaves the range (general negative theorem). |
| C61 | Fields place region samples at the right mesh points | partial | Fields | `Fld.C61_values_at_own_points_partial`, `Fld.C61_sampling_succeeds`, `Fld.C61_counterexample_shared_random_field`, `Fld.C61_counterexample_other_region`, `Fld.C61_counterexample_constant_names` | Fields with distinct names and random field objects, parameters on the same regions; otherwise the placement is wrong (witnesses). |
| C62 | A random field is sampled at the points set last | partial | RandomField | `RF.C62_samples_latest_points_partial`, `RF.C62_first_sample_partial`, `RF.C62_counterexample_stale_factor`, `RF.C62_counterexample_stale_matrix`, `RF.C62_counterexample_array_sigma`, `RF.C62_no_points`, `RF.C62_counterexample_no_points` | Holds when each set_points is followed by the decomposition (as Fields does) and for the first sample; setting points again after a sample keeps the old factor (witness); an empty set of points raises, and a caught exception leaves the old factor (witness). |
| C63 | Fine and coarse simulations see the same random field | partial | FlowSim | `Flow.C63_same_realization_partial`, `Flow.C63_one_level_partial`, `Flow.C63_different_regions_raise`, `Flow.C63_counterexample_axes`, `Flow.C63_counterexample_unused` | Meshes with at least two bulk elements whose templates use the field; a one-element coarse mesh drops the wrong axis and a template not using the fields gets no coarse run (witnesses). |
| C64 | Placeholder substitution replaces all and only the given names | partial | Substitute | `Sub.C64_substitution_partial`, `Sub.C64_every_template_has_pieces`, `Sub.C64_text_without_placeholders`, `Sub.C64_reported_names_partial`, `Sub.C64_counterexample_value`, `Sub.C64_counterexample_nested` | Templates whose substituted values create no further placeholders; otherwise values are substituted again (witnesses). |
| C65 | Field files written for Flow123d are read back identically | partial | Gmsh | `Gm.C65_fields_roundtrip_partial`, `Gm.C65_counterexample_five_components`, `Gm.C65_counterexample_repeated_element`, `Gm.C65_counterexample_carriage_return` | Fields with 1 to 4 components on distinct elements; with five or more components the file cannot be read (general negative theorem), repeated elements lose values (witness), names with a carriage return cannot be read (witness). |
| C66 | Meshes written by write_ascii are read back identically | partial | Gmsh | `Gm.C66_mesh_roundtrip_partial`, `Gm.C66_same_text`, `Gm.C66_listed_in_order`, `Gm.C66_line_ends`, `Gm.C66_counterexample_quotes`, `Gm.C66_counterexample_space`, `Gm.C66_counterexample_short_element` | Meshes with unquoted names without spaces and elements with tags; quoted names gain quotes, names with spaces and elements with few entries are not read back (witnesses). |
| C67 | Extracted flux is the initial-time outflow | proved | FlowSim | `Flow.C67_initial_outflow` |  |
| C68 | Boundary elements are excluded from the computational mesh | partial | FlowSim | `Flow.C68_bulk_elements_partial`, `Flow.C68_unnamed_region`, `Flow.C68_counterexample` | Region ids distinct across dimensions; shared ids across dimensions misclassify elements (witness). |
| C69 | Synthetic simulation couples fine and coarse through one random draw | partial | Synth | `Syn.C69_declared_length`, `Syn.C69_coarse_zero`, `Syn.C69_error_of_step`, `Syn.C69_telescoping_partial`, `Syn.C69_one_location_partial`, `Syn.C69_counterexample` | Levels above the first, or one location; the coarse result of level 1 differs from the fine result of level 0 at further locations (witness). |
| C70 | Approximated distribution function is a distribution function | partial | Distribution | `Dist.C70_bounds`, `Dist.C70_sorted_partial`, `Dist.C70_monotone_partial`, `Dist.C70_interior_monotone_partial`, `Dist.C70_counterexample_order`, `Dist.C70_counterexample_normalization` | Arguments given in increasing order and a normalized density; the sorted arguments are discarded (witness). |
| C71 | A second sampler on the same storage object keeps the stored data | partial | StorageFile | `C71_second_sampler_wipes_counterexample`, `C71_second_sampler_keeps_partial` | Data are lost for objects made on a new file. |
| C72 | A stored result format is loaded back identically | partial | FailedFormat, StorageFile | `C72_plain_format_roundtrip`, `C72_times_counterexample`, `C72_three_letter_location_counterexample`, `C72_shape_counterexample`, `C72_points_counterexample`, `C72_failed_first_save`, `C72_unicode_counterexample`, `C72_failed_save_counterexample` | Round trip for formats that fit the stored type; witnesses for the others. |
| C73 | Numbers of samples are interpolated geometrically between the first and last level | proved | Allocation | `Alloc.C73_n_samples`, `Alloc.C73_other`, `Alloc.C73_sample_vec` |  |
| C74 | Summing Fourier modes does not depend on the memory available | partial | RandomField | `RF.C74_sum_of_modes_partial`, `RF.C74_sum_of_modes_first_attempt`, `RF.C74_counterexample` | Holds if failing attempts fail at their first chunk; otherwise chunks are added twice (witness). |
| C75 | Sample results come from the sample's own runs | partial | FlowSim, SeededClaims | `Flow.C75_coarse_result_own_run`, `Flow.C75_fine_result_own_run_partial`, `Flow.C75_counterexample_stale`, `Flow.C75_files_of_run` | Fine result for a fresh sample directory; a reused directory gives a stale result (witness). |
| C76 | Common files are prepared before samples and may be reused | partial | FlowSim | `Flow.C76_prepared_partial`, `Flow.C76_counterexample` | With clean=True; with clean=False every sample fails (general negative theorem). |
| C77 | Artificial failures of the synthetic simulation match the requested fraction | proved | Synth | `Syn.C77_failed_fraction`, `Syn.C77_first_fails`, `Syn.C77_no_failures` |  |
| C78 | The estimated density integrates to one | partial | Distribution | `Dist.C78_integral_after`, `Dist.C78_counterexample`, `Dist.C78_counterexample_concrete`, `Dist.C78_counterexample_distribution` | The exact integral after the correction of the multipliers, and that it is one only in special cases. |
| C79 | Bootstrap estimates are statistics of resampled estimates | partial | Subsample | `C79_counterexample` | General negative theorem: every round of the bootstrap raises. |
| C80 | Regression of level variances | partial | Regression | `Reg.C80_unchanged`, `Reg.C80_nearly_zero`, `Reg.C80_positive`, `Reg.C80_least_squares`, `Reg.C80_exact_data`, `Reg.C80_up_to_four_levels`, `Reg.C80_succeeds_partial`, `Reg.C80_counterexample_zero`, `Reg.C80_counterexample_single` | All results are as stated; the regression fails for a variance that is zero on one level only, or a level with one created sample (general negative theorems). |
| C81 | Adding samples waits for half of the new samples and no longer | partial | Waiting | `C81_enough_finished`, `C81_returns`, `C81_hdf_returns`, `C81_counterexample_timeout`, `C81_counterexample_memory` | HDF storage with a positive timeout or none; a timeout of zero or less never ends (general negative theorem), the memory storage does not count failed samples and the wait never ends (witness). |
| C82 | The density fit hands the optimizer consistent derivatives | partial | DensityFit | `Fit.C82_gradient_partial`, `Fit.C82_gradient_distribution_partial`, `Fit.C82_hessian_partial`, `Fit.C82_symmetric`, `Fit.C82_positive_semidefinite`, `Fit.C82_counterexample_clipped`, `Fit.C82_counterexample_penalty`, `Fit.C82_counterexample_grown` | Symmetry and semidefiniteness always. Derivatives where no exponent is clipped at 200, no end point penalty is active and no stabilized stage added moments; each restriction has a witness. |
| C83 | A successful density fit is the maximum entropy density with the prescribed moments | partial | DensityFit | `Fit.C83_stationary_iff_moments`, `Fit.C83_moment_error`, `Fit.C83_stabilized_moments`, `Fit.C83_convex_partial`, `Fit.C83_moments_minimize_partial`, `Fit.C83_counterexample_no_minimum`, `Fit.C83_unique_partial`, `Fit.C83_maximal_entropy_partial`, `Fit.C83_start_uniform`, `Fit.C83_start_uniform_simple_partial`, `Fit.C83_counterexample_start` | For the quadrature in use; comparisons among multipliers whose exponents are not clipped; over all multipliers the functional with its clipped exponents is unbounded below, so nothing minimizes it (general negative theorem). Distribution's stabilization shifts the moments (C83_stabilized_moments). |
| C84 | Constructed orthogonal moments are orthonormal, start with 1 and have mean 0 | partial | Orthogonal | `Ortho.C84_orthonormal`, `Ortho.C84_orthonormal_threshold`, `Ortho.C84_first_moment_partial`, `Ortho.C84_means`, `Ortho.C84_counterexample_cut` | Orthonormality always (tolerance in [0,1)). The first moment is the constant 1 when no eigenvalue is cut off; with a cut it need not be (witness), and the means are (1,0,..,0) whenever it is. |
| C85 | A whole program stores exactly the results of the samples it asked for | proved | Program | `C85_program_stores_all_results`, `C85_renew_all_or_nothing` | Composition of the models of sampler, OneProcessPool and HDF storage; simulations are functions of configuration and seed. process_adding_samples is a sequence of the modelled calls; restarts are in C02, C19, C20. |
| C86 | What a whole program estimates are the textbook estimators over the requested samples | proved | Program | `C86_program_estimate`, `C86_estimate_returns`, `C86_empty_level` | On the storage of the program of C85, read back in chunks of any length. |
| C87 | Estimates from random samples are unbiased | partial | Unbiased | `C87_unbiased_partial`, `C87_finest_level_partial`, `C87_confidence_partial`, `C87_adaptive_counterexample` | For numbers of samples that do not depend on the drawn values, at least two on each level, no dropped samples. Numbers chosen by the allocation from the samples themselves give a biased mean (witness). |
| C88 | Correlation matrices are covariance matrices | partial | Correlation | `RF.C88_correlation_matrix_partial`, `RF.C88_correlation_length`, `RF.C88_counterexample_exponent` | Exponents in (0,2], including the named models gauss and exp. Every exponent above 2, accepted by the constructor, has three points with a matrix that is not positive semidefinite. |
| C89 | A sampled random field has the prescribed mean and covariance | partial | KarhunenLoeve | `RF.C89_terms`, `RF.C89_all_terms`, `RF.C89_returns_exactly`, `RF.C89_mean_covariance_partial`, `RF.C89_precision`, `RF.C89_counterexample_precision` | Mean and upper bound of the variance always; covariances exact with all terms, error bounded by the first dropped singular value otherwise, hence by the precision when the loop is ended by it. The loop also ends when 1.5 times the number of terms exceeds the number of points; then a variance of 4/5 instead of 1 occurs with default arguments (witness). Exponents in (0,2]; singular value decompositions exact (randomized_svd is not); logarithmic fields in C122. |
| C90 | A field made of Fourier modes has the prescribed mean and covariance | partial | FourierField | `RF.Fourier.C90_plane_partial`, `RF.Fourier.C90_line_law`, `RF.Fourier.C90_counterexample_line`, `RF.Fourier.C90_counterexample_line_exp`, `RF.Fourier.C90_counterexample_exponent` | Exact in the plane for the models gauss and exp. On a line gauss gives exp(-h^2/(2 pi^2 L^4)) instead of exp(-h^2/L^2), every other exponent raises AttributeError; in the plane exponents other than 1 and 2 give the field of exponent 1; in space the code raises NotImplementedError. Scalar correlation length; the streams of random numbers are taken as independent; enough memory (C74). |
| C91 | A program that runs its samples in PBS jobs stores what it asked for, whatever the jobs do | partial | ProgramPbs | `C91_pbs_program_partial`, `C91_pbs_program_complete_partial`, `C91_same_estimates_partial`, `C91_asking_ends`, `C91_waits_for_all_counterexample` | Asking without a timeout can return while a job is running (witness, two jobs). Everything else for programs without restarts whose calls return (with renew_failed_samples: C135), with qsub failing or succeeding entirely, different PBS identifiers; jobs may die anywhere, except for the equality of estimates. |
| C92 | A program that runs its samples in a thread or process pool stores what it asked for, whatever the order in which workers finish | proved | ProgramPar | `C92_parallel_program`, `C92_parallel_program_complete`, `C92_same_estimates`, `C92_waiting_ends_counterexample` | For all programs whose calls return. That asking without a timeout returns is not part of the property: C92_waiting_ends_counterexample is a program whose workers have all finished and whose wait never ends, because a result put into a queue between reading and clearing it is dropped (see C10). |
| C93 | Programs can be run one after another on the same HDF file | partial | ProgramRestart | `C93_programs_one_after_another`, `C93_waiting_programs`, `C93_same_estimates`, `C93_unfinished_stays`, `C93_restart_recovers_counterexample` | The last sentence fails: samples unfinished at the end of one program are never run again or finished by any later one with a OneProcessPool (C93_unfinished_stays, for all histories; witness C93_restart_recovers_counterexample). The rest is proved. A kill in the middle of writing collected samples is C20. |
| C94 | Estimated moments and covariance matrices are those of a probability law | partial | Estimator | `C94_zeroth_moment`, `C94_covariance_psd_partial`, `C94_covariance_psd_counterexample`, `C94_default_moments`, `C94_diff_vars`, `C94_diff_vars_counterexample` | Zeroth moment 1 with variance 0 for any number of levels (two used samples per level). The covariance estimate is positive semidefinite for storages with one level; with two levels the telescoping sum can make a diagonal entry negative (witness). estimate_moments and estimate_covariance fall back to the object's moment functions, estimate_diff_vars() does not and raises. |
| C95 | Mesh files of format 1.0 are read as written | partial | Gmsh1 | `Gm.C95_format1_counterexample`, `Gm.C95_format1_partial` | read never reads a file of format 1.0: for every content it raises UnboundLocalError (general negative theorem). With a $MeshFormat section in front, sections of format 1.0 are read as written. |
| C96 | Distances between densities | partial | Divergence | `Dist.C96_kl_nonnegative`, `Dist.C96_kl_value_partial`, `Dist.C96_kl_zero_counterexample`, `Dist.C96_kl_unnormalized_counterexample`, `Dist.C96_l2_metric` | Over the reals with exact integration. The value is that of the integral for positive continuous densities; a density with a zero inside the interval gives NaN (witness), and the older module does not compensate densities that do not integrate to the same value (witness). The L2 distance is proved to be a metric. |
| C97 | Moments and covariances of a given density | proved | ExactMoments | `Dist.C97_exact_covariance`, `Dist.C97_exact_symmetric`, `Dist.C97_semiexact_semidefinite`, `Dist.C97_semiexact_polynomial` | Over the reals; exact integration is an assumption of the first theorem only, that leggauss gives a Gauss rule (positive weights, exact up to a degree) and that quad returns a subdivision of the domain are assumptions of the last two. |
| C98 | Constants in expressions with quantities | partial | Constant | `Const.C98_number`, `Const.C98_vector`, `Const.C98_wrong_length_raises`, `Const.C98_chunks_broadcast`, `Const.C98_matrix_counterexample`, `Const.C98_matrix_comparison_counterexample`, `Const.C98_matrix_selection_counterexample`, `Const.C98_numpy_number_counterexample`, `Const.C98_two_constants_counterexample` | Numbers and arrays with one axis as stated, for all operations. Every array with two or more axes fails (general negative theorem: an error or a result with four or more axes; comparisons with two columns silently match the columns with the fine and coarse part). NumPy integers are refused, two constants combined first give five axes. A vector added to a quantity of size one is C37_broadcast_counterexample. C98_chunks_broadcast also shows that the array operations of the quantity model are NumPy's broadcasting. |
| C99 | The automatic cut of eigenvalues leaves valid orthogonal moments | partial | Slope | `Slope.C99_few_raise`, `Slope.C99_three_moments_raise`, `Slope.C99_detected`, `Slope.C99_coarse_window_partial`, `Slope.C99_best_window_partial`, `Slope.C99_last_value_counterexample`, `Slope.C99_kept_positive_partial`, `Slope.C99_orthonormal_partial`, `Slope.C99_nothing_detected_counterexample`, `Slope.C99_equal_counterexample` | Proved for at least four distinct positive eigenvalues. False otherwise: with three or fewer positive eigenvalues TypeError is raised; equal eigenvalues keep an eigenvalue 0; when all eigenvalues have the same slope the smallest one is cut nevertheless; the window never contains the last value. |
| C100 | Only jobs reported as finished are taken as finished | partial | Qstat | `Qstat.C100_taken_as_finished`, `Qstat.C100_finished_found`, `Qstat.C100_exactly_finished_partial`, `Qstat.C100_running_counterexample`, `Qstat.C100_submitted_id`, `Qstat.C100_job_of_identifier` | Exact characterisation for every table. False for rows in which a column ending with a digit is followed after one blank by a column beginning with F (16 characters long names of jobs of users with F): such running jobs are taken as finished. |
| C101 | A job started by the batch system gets the parameters of its pool | partial | PbsScript | `Script.C101_script`, `Script.C101_doubled_braces`, `Script.C101_job_parameters_partial`, `Script.C101_undocumented_parameter`, `Script.C101_missing_value_raises`, `Script.C101_shell_variable_raises`, `Script.C101_debug_counterexample`, `Script.C101_blank_counterexample`, `Script.C101_semicolon_counterexample` | Proved for directories without blanks, semicolons and braces. False otherwise; a pool with debug on the directory of a pool without it runs jobs without debug; lines with shell variables in braces raise; parameters the documentation does not list are required. The shell is a split at blanks. |
| C102 | Samples that need a workspace run in their own directories | partial | Workspace | `Work.C102_own_directory_partial`, `Work.C102_all_finish`, `Work.C102_threads_wrong_directory`, `Work.C102_threads_counterexample`, `Work.C102_relative_path_fails`, `Work.C102_no_current_directory`, `Work.C102_relative_debug_counterexample` | Proved for OneProcessPool and ProcessPool with absolute paths of common files, for every interleaving. False for ThreadPool (general negative theorem: any two samples have an order in which one runs in the directory of the other; witness with a wrong result) and for relative paths of common files (general negative theorem). |
| C103 | The density constructed from stored samples has mass one and the estimated moments | partial | ConstructDensity, ConstructDensityCut | `Dens.C103_mass`, `Dens.C103_kept_combinations`, `Dens.C103_error_partial`, `Dens.C103_all_moments_partial`, `Dens.C103_counterexample_cut`, `Dens.C103_refuses` | From stored samples to the fit, over the reals, with eigh, rq, the optimizer and the quadrature as arguments. Mass one for every cut; all moments, an error bound, and that the fix of the normalization changes nothing, when no eigenvalue is cut off. False after a cut: with samples 2 and -2 and monomials 1, t, t^2 the fitted second moment is 3, the estimated one 4, and the normalization takes the logarithm of 0. |
| C104 | A program with PBS that is killed and started again recovers its samples | partial | PbsRestart | `C104_restart_recovers_partial`, `C104_restart_completes_partial`, `C104_failed_sample_counterexample`, `C104_running_job_counterexample` | For every program, point of the kill (between calls, inside schedule_samples, inside the asking, between collecting and storing) and history of jobs, the first question for samples of a new program with debug=True stores exactly the recorded successes of unfinished samples. Assumed: every unfinished sample is in an accepted job (samples that were packed but not submitted raise or stay unfinished), different PBS identifiers, successes only for completion. False for failed samples (they stay unfinished and the successes of their job are stored twice) and for jobs still running at the first question (never collected). Second and later restarts: C137. |
| C105 | Estimates in floating-point arithmetic are close to the exact ones and variances are not negative | partial | FloatEstimate | `Fl.C105_accuracy`, `Fl.C105_factor`, `Fl.C105_exact`, `Fl.C105_mean_accuracy`, `Fl.C105_var_accuracy`, `Fl.C105_nonneg_partial`, `Fl.C105_negative_variance_counterexample`, `Fl.C105_cancellation_counterexample` | Error bounds in the standard model of rounding (no overflow or underflow, given values of the quantity), which is proved for np.float64. The sign of variances holds only above the error bound: three samples of the value 0.1 get a negative variance, and 2^27, 2^27+1, 2^27+2 the variance 0 instead of 1 (witnesses, in the arithmetic of np.float64). |
| C106 | Kills and restarts of programs with PBS never put a wrong value into the file | partial | PbsSessions | `C106_values_right`, `C106_nothing_lost`, `C106_sample_twice_counterexample` | Values and prefixes for every history of programs, renew_failed_samples and kills in it included (only a call of it clears failures); of the jobs only the honesty of each record is assumed. False that each sample is stored once: a sample of a job that is half recorded when the next program first asks is stored twice (witness, in which qstat reports only jobs it was asked for). Kills during the writing of one file operation (also clear_failed) are in C20 and C21. |
| C107 | Level samples read during sampling are the values on the first saved samples | partial | LevelSamples, SeededClaims | `Read.C107_level_samples_partial`, `Read.C107_memory_level_samples`, `Read.C107_counterexample_more`, `Read.C107_memory_chunks` | Proved for the storage in memory, and for the HDF storage when no more samples are requested than are saved at that time; quantities stay alive (see C42 for reused identities). False for larger requests on the HDF storage: the same request repeated after more samples are saved returns the old ones (witness). |
| C108 | A density fit in stages reaches the requested moments and tolerance | partial | StagedFit | `Staged.C108_sizes`, `Staged.C108_sizes_few`, `Staged.C108_tolerances`, `Staged.C108_stages_partial`, `Staged.C108_counterexample_unit_domain`, `Staged.C108_counterexample_newton` | Sizes and tolerances for every n; stages for every minimization that keeps the number of multipliers. Partial: the first penalty is finite only if the domain has not the length one; estimate_density always raises. |
| C109 | Statistical tests fail correct samples with the given probability | partial | StatsNormal, StatsTests | `Stat.C109_chi2_level`, `Stat.C109_chi2_normal`, `Stat.C109_anova_normal`, `Stat.C109_counterexample_t_normal`, `Stat.C109_anova_level`, `Stat.C109_anova_same_means`, `Stat.C109_counterexample_t_level`, `Stat.C109_counterexample_t_exact` | Proved for chi2_test and anova (whose statistic is computed from the groups), for any continuous distribution function that is the one of the statistic; in particular for independent normal samples with the χ² and Fisher distributions (Cochran's theorem is proved in Proofs/Cochran.lean). False for t_test: the comparison is the wrong way round (general: normal samples with the right mean fail with probability 1 - max_p_val; two more witnesses). |
| C110 | The documented loop of adding samples ends with enough finished samples | proved | Adaptive | `C110_call_returns`, `C110_adaptive_ends`, `C110_no_more_than_needed`, `C110_estimates_bounded`, `C110_documented_loop_ends`, `C110_counterexample_growing_estimates`, `C110_counterexample_zero_timeout`, `C110_wrong_targets_raise` | Variances and times come from any function of the program; boundedness of the estimates (or variances) is a hypothesis, shown necessary by the first witness, and so is a positive timeout by the second. |
| C111 | The documented program with the moments of the library ends | partial | AdaptiveStats | `C111_moments_bounded`, `C111_documented_program_ends_partial`, `C111_no_exception_partial`, `C111_counterexample_regression` | Proved for up to four levels with different positive steps (the loop may end with an exception of an estimate; excluded for one or two levels by the third theorem). For five levels the regression can turn variances of at most one into arbitrarily large ones (witness); whether the program then runs forever is not shown. |
| C112 | The directory of every sample is where the documentation says, after any program | proved | ProgramDirs | `C112_directories`, `C112_failed_directories` | The pool is new, or its work directory is wiped (work_dir given, debug off); simulations are functions of configuration and seed (C09). |
| C113 | An exception while a sample is prepared leaves the sampler usable | partial | ProgramDirs | `C113_missing_files_raise`, `C113_files_there_partial`, `C113_counterexample_waiting_forever` | Exactly when schedule_samples raises for missing files, and that without missing files it schedules everything. False otherwise: the sample that raised is counted as running for ever, so every later waiting call without a timeout never returns, also after the files are restored. |
| C114 | Coarse flow simulations of a level are the fine ones of the level below | partial | FlowFiles, FlowLevels | `Flow.C114_levels_share_runs_partial`, `Flow.C114_counterexample_default`, `Flow.C114_common_files` | Proved for objects that prepare the common files, non-zero steps with different texts, complete planar meshes with the same groups, and templates using the field (see C63 for what happens otherwise). With the default clean=None no level can be created in an empty work directory (witness). |
| C115 | Levels of the tutorial's shooting simulations telescope | partial | Shooting | `Shoot.C115_levels_share_shots_partial`, `Shoot.C115_counterexample_equal_elements`, `Shoot.C115_counterexample_2d`, `Shoot.C115_shot_converges` | Proved in one dimension for numbers of elements growing with the level, with error at most T²(B+TL)/n for forces bounded by B with Lipschitz constant L along the way. With equal numbers of elements all samples of the level raise. In two dimensions all levels share one configuration and the coarse run gets the fine values, so every level computes the finest shot and all differences are zero. |
| C116 | Moment functions act on arrays value by value | partial | MomentArrays | `Mom.C116_value_by_value_partial`, `Mom.C116_number`, `Mom.C116_single_partial`, `Mom.C116_moments_operation_partial`, `Mom.C116_derivative_partial`, `Mom.C116_counterexample_fourier`, `Mom.C116_eval_vector`, `Mom.C116_eval_matrix`, `Mom.C116_counterexample_eval`, `Mom.C116_counterexample_derivative` | Holds for monomials, Legendre polynomials and their combinations on every shape, for Fourier functions on one-dimensional arrays only: the moments of a quantity always raise with Fourier functions. `eval` is right on arrays with one axis; on one with two axes its entry (k, s) is moment s of the last value of row k; and `eval_all_der` of one returns values of other functions at other numbers. |
| C117 | Failed samples are recorded whatever their error message | partial | StoreText | `C117_tags`, `C117_scheduled`, `C117_ascii_partial`, `C117_recorded_partial`, `C117_counterexample_unicode`, `C117_counterexample_identifier` | Proved for ASCII messages (cut to 1000 characters). A message with any other character (a file name with accents) makes save_samples raise after the dataset was made longer: the level counts failed samples with empty identifiers, the samples themselves stay unfinished, and failed samples of later levels are lost. |
| C118 | All data of a program go to the file its storage was given | partial | StorePath | `Place.C118_absolute`, `Place.C118_relative_partial`, `Place.C118_counterexample_pbs`, `Place.C118_counterexample_workspace` | Proved for absolute paths (the documented use). With a relative path the first schedule_samples with a PBS pool, or with a simulation that needs a workspace, raises after the samples were handed out; nothing of them is recorded. |
| C119 | The random numbers of a synthetic sample are those of its seed, whatever is computed at the same time | partial | SeedRace | `Race.C119_undisturbed_partial`, `Race.C119_separate_partial`, `Race.C119_process_pool_partial`, `Race.C119_process_pool_fraction`, `Race.C119_one_worker_partial`, `Race.C119_counterexample_threads`, `Race.C119_counterexample_fraction`, `Race.C119_counterexample_counts` | Proved for a ProcessPool (where every worker keeps its own counters, so that the failed fraction is bounded with one more sample for each worker), for a pool with one worker, and for every schedule that does not let a worker step between the seeding and the drawing of another one with the same memory. It fails for a ThreadPool: the distribution object, its generator and the counters are shared, so a sample can be made from the numbers of another seed, and the number of failing samples can exceed nan_fraction. |
| C120 | The result of a flow sample is determined by its configuration and its seed | partial | FlowSeed | `Flow.C120_few_elements_partial`, `Flow.C120_exact_decomposition_partial`, `Flow.C120_counterexample_seed_unused`, `Flow.C120_counterexample_other_fields`, `Flow.C120_counterexample_svd` | Proved for the SVD field if the meshes have at most ten elements together, or if the decomposition does not depend on random numbers. It fails otherwise: the Fourier and GSTools fields never use the seed, and the SVD field is decomposed by randomized_svd before np.random.seed is called. |
| C121 | While a density is fitted, its functional is evaluated with a quadrature made for nearly the same multipliers | partial | QuadCache | `Fit.C121_renewed_iff`, `Fit.C121_quadrature_partial`, `Fit.C121_lower_bound_partial`, `Fit.C121_counterexample_far`, `Fit.C121_counterexample_history` | Proved: the quadrature is renewed exactly if the first order change of the integral reaches the tolerance (the first of the two tests of the code is redundant); the integral is at most the tolerance below the one at the multipliers the quadrature was made for. It fails in general: at the uniform start the gradient of the integral vanishes in all components but the first, so the quadrature of the uniform density is kept for multipliers arbitrarily far away, and values depend on earlier evaluations. |
| C122 | Logarithmic random fields are lognormal | partial | LogField | `RF.C122_exponential`, `RF.C122_lognormal`, `RF.C122_mean_bounds_partial`, `RF.C122_counterexample_mu` | Proved except for the last sentence, which is false for every field: mu is the mean of the logarithm, the mean of the value is larger than mu by at least one. Exact singular value decomposition; exponents in (0,2]. The Fourier field is not covered (its values are not normal). |
| C123 | Programs on the storage in memory | partial | ProgramMem | `C123_memory_stores_all_results`, `C123_memory_estimate`, `C123_estimate_returns`, `C123_same_as_hdf`, `C123_no_results`, `C123_renew_raises`, `C123_counterexample_lost_level` | Proved for all programs without renew_failed_samples, which always raises AttributeError on this storage. The estimates cover the levels up to the last one with a result: if all samples of the finest levels failed, these levels are silently missing from the estimate, where the HDF storage raises (witness). Result vectors of one length; a OneProcessPool. |
| C124 | Estimates converge | proved | Consistency | `C124_consistent`, `C124_finest_level` | Exact arithmetic over the reals. Complements C87, where adaptively chosen numbers are shown to bias the mean. |
| C125 | Confidence intervals | proved | Confidence | `C125_error_normal`, `C125_confidence_interval` | Exact arithmetic over the reals; numbers of samples fixed in advance. |
| C126 | What the allocated samples cost | partial | AllocationCost | `Alloc.C126_one_moment_partial`, `Alloc.C126_several_moments_partial`, `Alloc.C126_counterexample_several_moments` | True for one moment, up to two samples per level. For several moments the cost is within the factor given by the number of moments with nonzero variance; the exact claim fails (witness: 1200 samples allocated where 1000 suffice), because the maximum over the moments is taken level by level. |
| C127 | Artificial failures in batch jobs | partial | SynthWorkspace | `Syn.C127_fraction_of_jobs_partial`, `Syn.C127_counterexample_small_jobs`, `Syn.C127_first_of_job_fails`, `Syn.C127_no_failures`, `Syn.C127_other_distributions_fail` | The counters of the class start at zero in every process, so rounding up happens in every job: at least the fraction fails, and at most one sample per job more. In jobs of one sample all samples fail, however small the fraction (counterexample). Only the distribution 'norm' works; with any other, or without configuration file, every sample fails. Random values are an argument of the model. |
| C128 | How the cost grows with levels and target | proved | Complexity | `Alloc.C128_decreasing`, `Alloc.C128_balanced`, `Alloc.C128_growing`, `Alloc.C128_single_level` | The cost theorem of the multilevel method for the numbers the code allocates, over the reals; rounding, the limit V L / target and the least number of two are those of the code. That the samples reach the target up to a factor of two is C52. |
| C129 | Variances of the logarithms of estimated variances | partial | VarOfVar | `VarVar.C129_moments`, `VarVar.C129_variance`, `VarVar.C129_nonneg`, `VarVar.C129_one_sample`, `VarVar.C129_saved_partial`, `VarVar.C129_counterexample_stale`, `VarVar.C129_counterexample_broadcast`, `VarVar.C129_counterexample_broadcast_back` | The last sentence is false: the numbers are kept as a reference to the list of the caller, so a list that is changed in place gives the old values; a saved list of one level matches longer lists, and a longer saved list a list of one level (broadcasting). It holds for lists that are not changed and for which this does not happen. A level with one sample raises an exception. Quadrature is the integral. |
| C130 | Regions of a box with fractures | partial | FracGeom | `Frac.C130_regions`, `Frac.C130_geometry_partial`, `Frac.C130_counterexample_overlap`, `Frac.C130_counterexample_side` | The library geomop is not modelled: its decomposition is an argument (dictionaries with different keys, one map per fracture). True for segments of one fracture off the inflow and outflow sides. A segment shared by fractures is only in the region of the last one (a covered fracture has no segment), one on the inflow or outflow side only in the region of the side. |
| C131 | Realizations of GSTools fields | partial | GsField | `Gs.C131_sample_partial`, `Gs.C131_counterexample_repeated`, `Gs.C131_counterexample_dimension` | The first part is false for every field: the object evaluates one SRF whose seed does not change, so all samples between calls of change_srf are equal (FlowSim makes a new object for each sample, C120). Fields of four or more dimensions accept points and raise at each sample. The library is an argument: the values of an SRF are a function of model, number of modes, seed and points. |
| C132 | What programs report about random simulations | partial | ProgramStats | `C132_program_unbiased`, `C132_seeds_unbiased`, `C132_seeds_converge`, `C132_seeds_interval`, `C132_counterexample_many_samples` | MD5 is idealized as a random function with values uniform on the 2^32 seeds. With the actual fixed function and random simulations the finite-sample statement holds as long as the results are uncorrelated; beyond 2^32 samples of a level this is impossible unless their variance is zero (counterexample). Simulations that fail are excluded (their results are left out, which changes the mean that is estimated). |
| C133 | What programs with failing simulations estimate | partial | FailingStats | `C133_failing_converge`, `C133_counterexample_bias` | Proved: the reported mean converges with probability one to the sum over the levels of the means over the seeds that succeed on that level. This is not the mean of the finest level if failures depend on the seed: an example whose levels telescope for every seed reports 1/2, while the finest level has the mean 1 over all seeds and 0 over the successful ones. MD5 idealized as in C132. |
| C134 | Statistics of programs with worker pools | partial | PoolStats | `C134_any_pool_unbiased`, `C134_any_pool_converge`, `C134_any_pool_interval`, `C134_any_pool_failing`, `C134_counterexample_timeout` | Proved for programs that wait for all their samples (PBS: jobs that do not die, or whose samples are renewed, and nothing waiting at the end, as in C91 and C135, or programs killed and restarted as in C139; several programs on one file as in C93; the storage in memory as in C123). Not true with a timeout: samples that need longer are missing and the estimate is biased (witness: mean 1/2, the program always reports 0). MD5 idealized as in C132. |
| C135 | Renewing failed samples recovers the samples of dead PBS jobs | partial | Pbs, PbsCollect, PbsRenew, PbsSessions | `C135_pbs_program_partial`, `C135_renewal_recovers_partial`, `C135_pbs_program_complete_partial`, `C135_same_estimates_partial`, `C31_collected_again_partial`, `C31_conservation_again_partial`, `C106_sample_twice_counterexample`, `C26_marker_file_counterexample` | Proved for programs without restarts and plain answers of qsub. Otherwise a sample can be stored twice (C106_sample_twice_counterexample) or be in two accepted jobs (C26_marker_file_counterexample). The recovery needs that nothing is waiting at the end (asking without a timeout can return earlier, C91). |
| C136 | One damaged result file of a PBS job costs no other results | partial | PbsTorn | `C136_no_damage`, `C136_undamaged_poll_partial`, `C136_damaged_poll_raises`, `C136_results_lost`, `C136_recovery_blocked` | True only for polls that do not come to the damaged file. False otherwise (general negative theorems): the poll that reports the damaged job raises, results of complete jobs read before it in the same poll are never returned by a later poll, and after a restart every poll raises while a sample of the damaged job is unfinished, so no result of any job is recovered. A truncated file that still parses is read as a file whose last record has another result (None, or a part of it): these are histories in which a job records an arbitrary result, covered by C26 to C33, and C141 says what storing such a result does. |
| C137 | Every new program recovers what jobs have recorded, whatever happened before | partial | PbsRecover | `C137_first_question_recovers_partial`, `C137_all_recovered`, `C137_unpacked_raises`, `C137_new_directory_raises` | Proved for all sequences of sessions if every unfinished sample was written into a job since the directory was last emptied and jobs record only what simulations compute. False otherwise: one unfinished sample in no job makes the first question raise (so does every start without debug on a file with unfinished samples, the default). That each recovered sample is stored once is false: C106_sample_twice_counterexample. Failures recorded by old jobs are not recovered (C33, C104). |
| C138 | Each sample is stored once over any number of programs with PBS | partial | PbsOnce | `C138_stored_once_partial`, `C138_failed_neighbour_counterexample`, `C138_copies` | Proved for all sequences of sessions, with renewing, for results and failures together, if PBS gives no identifier twice, job numbers are not used again (C29), no job records a sample twice, and whenever a pool looks for samples of earlier programs, the jobs it reads have recorded successes of all of them or of none. False without the last condition, even for jobs that have ended: a failed sample in a job makes the next program store the job's successes again (witness), and in general a recorded success is stored at least once for each unrecorded or failed sample of its job. |
| C139 | Interrupted computations with PBS give the estimates of uninterrupted ones | partial | PbsSame | `C139_file_partial`, `C139_same_estimates_partial`, `C139_half_recorded_counterexample` | Proved under the conditions of C138. False without the condition that no job is half recorded or has failures when a new program looks for its samples: then a sample is counted twice, and with all samples computed, right and finished, the reported mean of the values 96 and 98 is 290/3 (witness). |
| C140 | The target numbers of a sampler are its own | partial | SeededClaims, TargetArrays | `C140_own_numbers_partial`, `C140_array_kept_partial`, `C140_shared_counterexample`, `ExTargetArrays.C140_counterexample`, `C140_initial_numbers` | False: np.atleast_1d does not copy an array, so an array with three or more entries becomes the target of the sampler itself, and set_level_target_n_samples changes it in place; with two samplers the second schedules what the first was told to reach (general theorem and witness). Proved when arrays of three or more entries are not shared between samplers and not assigned to while in use; arrays with one or two entries and lists are always safe. The proof also shows that the exact rational targets of the other models schedule the same samples as arrays of integers. |
| C141 | Results of an unexpected shape are not stored as something else | partial | ShapedStore | `C141_one_shape_partial`, `C141_zeros_counterexample`, `C141_save_zeros_counterexample`, `C141_not_unfinished`, `C141_failed_lost_counterexample`, `C141_memory_counterexample`, `C141_memory_partial` | False: _append_dataset enlarges the dataset before it writes, and the identifiers are written before the results, so a result of another shape (a list of another length, which calculate_sample does not check, or an array with other axes) raises and leaves the whole batch recorded as collected with zeros as results; these samples are never computed again, and the failed samples of the same poll are lost. A Memory storage counts the samples as finished without results. Proved: with one shape per level nothing raises and the file is the one of the other storage models. |
| C142 | What an Estimate object answers does not depend on what it was asked before | partial | EstimateCalls, SeededClaims | `C142_history`, `C142_independent_partial`, `C142_regression_functions`, `C142_bootstrap_replaces`, `C142_lengths_counterexample`, `C142_counterexample`, `C142_surface_moments` | False: est_bootstrap(moments_fn=g) makes g the moment functions of the object for good, although the call itself always raises (C79); and a regression raises ValueError if the object was asked for one with another number of levels before. Proved: in every history in which the lists of numbers of samples have one length, a call is answered as by a new object with the quantity assigned last and the functions given last, in the constructor or to est_bootstrap. Lists changed in place between the calls are in C129, get_level_samples in C107; the attributes est_bootstrap sets when it succeeds (it never does) are left out. |
| C143 | A subset of moments for a plot names different existing moments | proved | PlotSubset | `C143_all`, `C143_subset`, `C143_too_many` | Proved for 1 ≤ k < n; for k ≥ n it is proved that a moment that does not exist is named (ValueError for one moment). |
| C144 | The bars of a variance breakdown are the contributions of the levels | proved | PlotBreakdown | `C144_breakdown`, `C144_total`, `C144_places`, `C144_too_many` | For tables with the same number of moments; a subset with as many moments as there are or more raises IndexError (C144_too_many). |
| C145 | A plot of eigenvalues shows the values in decreasing order, their errors and the threshold | partial | PlotEigen | `C145_decreasing_partial`, `C145_increasing_partial`, `C145_increasing_counterexample`, `C145_threshold_counterexample`, `C145_positive_counterexample`, `C145_errors_counterexample` | False for increasing values: without a threshold they raise TypeError, with one the line is drawn at len - 1 - threshold of the values turned round although the threshold is not turned unless it is half. On a logarithmic axis one value that is not positive is drawn too; numpy errors of two or more entries raise ValueError. |
| C146 | A plot of distributions shows every added distribution, the exact one over all of them, and samples as a density | partial | PlotDistribution | `C146_exact`, `C146_curves`, `C146_errors`, `C146_kl`, `C146_histogram`, `C146_few_counterexample` | The histogram is false for few samples: 4 to 15 samples give no bars and fewer raise. Proved for 16 or more, on linear and (for positive samples and domains) logarithmic axes; np.histogram is modelled exactly, geomspace is an argument. |
| C147 | A plot of level variances shows all variances with curves fitted to them | partial | PlotVariance | `C147_variances_partial`, `C147_range`, `C147_few_counterexample`, `C147_later_counterexample` | False: with fewer than five different steps show raises, and of several variances with one step only the first is used for the curve, and the smallest step is left out. The least squares fit itself is an argument. |
| C148 | Plots of bootstrap variances and means put every value at the tick of its level | partial | PlotBootstrap | `C148_bs_variances`, `C148_caller_counterexample`, `C148_regression_places`, `C148_regression_counterexample`, `C148_means_partial`, `C148_means_counterexample` | The method is right for a table with a row of totals; its only caller passes the table of the levels alone, so every level is drawn at the tick of the level before and the first at the total. Curves are at other places than their points for a part of the moments. With exact moments the mean in the middle is missing. |
| C149 | Figures are saved under the given name as PDF | partial | PlotBootstrap | `C149_file_partial`, `C149_counterexample` | False for names that end with pdf but not with .pdf: they get no extension; and figures without a title and name all go to the file `.pdf`. Proved: which file is written for every name and title. |
| C150 | Brackets with steps of either sign and an ellipsis select the named entries of an array quantity | partial | IndexEllipsis | `C150_index_partial`, `C150_ellipsis_counterexample`, `C150_ellipsis_mean_counterexample` | Proved without an ellipsis and with an ellipsis at the end (the documented length_result[:2, ...]). False for an ellipsis followed by items: the chunk has two more axes than the declared shape, so q[..., i] takes part i (fine or coarse) and passes array entries as samples and samples as parts; the estimated mean is then that of other numbers, or evaluation raises IndexError (proved for every shape and i). |
| C151 | Subtracting the estimated mean gives a quantity with mean 0, the same variances, and central second moments | partial | Central, CentralMoments | `C151_centred`, `C151_second_moment`, `C151_central_moments`, `C151_domain_counterexample`, `C151_recipe_counterexample` | Proved for arithmetic on quantities when every level has a used sample, and for moments of any order with functions that are powers on all numbers (binomial formula; the monomials without safe_eval whose reference domain is the domain). False for the documented recipe: it uses the moment functions of the domain of the original samples, so whenever the mean is not 0 the centred value of a sample at one bound of the domain is outside of it and the sample is dropped (proved for every domain, family, moment and mean); with samples 1, 2, 6 the first central moment is 3 instead of 0. |
| C152 | Expressions of quantities act on every sample separately, component by component | partial | Elementwise, Reduce | `C152_arithmetic`, `C152_function`, `C152_function_of_two`, `C152_reduction`, `C152_reduction_axis`, `C152_no_axis_counterexample`, `C152_keepdims_counterexample`, `C152_samples_axis_counterexample` | Proved for arithmetic and NumPy functions and for reductions along axis 0 (or -3) with keepdims=True. False for other reductions: np.max(q) without axis raises always; without keepdims the quantity can be made for a given axis but no estimate of it can; along axis 1 with keepdims the samples of each chunk are reduced to one, so the mean of the samples 1, 2, 3, 4 reduced with maximum is 4 in one chunk and 3 in two. |
| C153 | Estimates of moments of a part can be read from the estimate of the moments of the whole | partial | CovarianceParts, MomentParts | `C153_part_of_moments`, `C153_part_of_covariance`, `C153_selected_covariance`, `C153_selected_part`, `C153_single_moment`, `C153_nan_counterexample`, `C153_tuple_counterexample` | Proved for sequences of keys and single indices or slices if no sample is dropped from one of the two estimates only. False otherwise: with a NaN in another component the sample is missing in the estimate of the whole, and a tuple of indices selects the moments of all entries (witnesses). |
| C154 | Scripts wait for all samples, keep existing results and recognise their machine | partial | Process | `Process.C154_commands`, `Process.C154_renew_counterexample`, `Process.C154_all_collected`, `Process.C154_returns`, `Process.C154_environment_partial`, `Process.C154_relative`, `Process.C154_paths`, `Process.C154_root_counterexample`, `Process.C154_two_slashes_counterexample` | Waiting is proved for every number of samplers. Commands: with the default of ProcessBase.run every command renews (witness); a run with the default False does not. Machine: proved for all paths but two kinds: for the root directory UnboundLocalError is raised, and for a path with exactly two slashes at the beginning the search for the first directory never ends (both for every such path). |
| C155 | Estimates of an interpolated time series lie between the estimates at the neighbouring times | partial | TimeEstimate | `C155_interpolated_mean_partial`, `C155_at_times_partial`, `ExTime.C155_nan_counterexample` | Proved if the same samples are dropped because of NaN. Otherwise false: interp1d computes the value at a stored time from it and the time before, so a NaN at the time before drops samples that q[t] uses (witness). |
| C156 | Results do not depend on the unit of the measured quantity | partial | Units | `C156_affine_estimate`, `C156_moments`, `C156_covariances`, `C156_allocation`, `C156_domain`, `C156_moment_functions_partial`, `C156_log_moment_functions`, `C156_narrow_counterexample` | Moment functions: the width of the domain has to be at least 1e-15 in both units; below it the constructor replaces the width and the values change (witness). All other parts hold in general. |
| C157 | Estimated moments in one polynomial basis determine those in another | partial | BasisChange | `C157_change_of_basis_partial`, `C157_domain_counterexample` | With safe_eval both objects must have the same domain of width at least 1e-15; for different domains the claim is false (witness). |
| C158 | Rounding moves no sample out of the domain of moment functions | partial | FloatMoments | `Fl.C158_inside_partial`, `Fl.C158_error`, `Fl.C158_outside`, `Fl.C158_interior`, `Fl.C158_constants`, `Fl.C158_no_sample_dropped_partial`, `Fl.C158_fourier_counterexample` | Numbers with 53 binary digits and unlimited exponents (no overflow or underflow). True for reference domains with a power of two as width, in particular the defaults of Legendre and Monomial; false for Fourier (witness). |
| C159 | Moments on the estimated domain use the samples of the coarsest level | partial | DomainMoments | `C159_whole_range`, `C159_default_counterexample`, `C159_dropped_samples`, `C159_library`, `C159_counterexample` | True for the quantile 0; false without a quantile (general negative theorem and witness with samples 1, 2, 3, of which one is used). The bound on the number of dropped samples holds for every quantile. Exact arithmetic. |
| C160 | Large errors of estimates of bounded quantities are exponentially unlikely | proved | Concentration, PoolConcentration | `C160_error_unlikely`, `C160_enough_samples`, `C160_moments`, `C160_any_pool`, `C160_adaptive` | Non-asymptotic, in contrast to C125, and exponential, in contrast to C87. Exact arithmetic; at least two samples on each level, no dropped samples. C160_any_pool is about whole programs with any pool, C160_adaptive about programs that choose the numbers of samples from the results, within fixed limits (MD5 idealized as in C132). That the moment functions of the library are bounded by 1 is C111_moments_bounded. |
| C161 | Sample allocation in floating-point arithmetic | proved | FloatAllocation | `Alloc.C161_near_limited_optimum`, `Alloc.C161_within_factor_two`, `Alloc.C161_negative_moment`, `Alloc.C161_negative_variance`, `Alloc.C161_nan_variance`, `Alloc.C161_counterexample_monotone` | Overflow and underflow of floats are not modelled. What NaN and too large numbers become as 64-bit integers is that of x86-64. The exact counterparts are C51 and C52. |
| C162 | Adding samples in floating-point arithmetic moves toward the estimate and terminates | proved | FloatAdding | `C162_adding_one_call`, `C162_adding_terminates`, `C162_changing_estimates`, `C162_counterexample_small_coefficient` | Doubles have unlimited exponents in the model. The exact counterpart is C05. |
| C163 | Initial numbers of samples in floating-point arithmetic | proved | FloatInitial | `Alloc.C163_numbers`, `Alloc.C163_order`, `Alloc.C163_doubles`, `Alloc.C163_other` | The exact counterparts are C08 and C73. That NumPy's log2 and exp2 are accurate to 2^-50 is an assumption (a hypothesis of the theorems). |
| C164 | Level parameters in floating-point arithmetic | proved | FloatLevels | `Alloc.C164_refused_one_level`, `Alloc.C164_steps`, `Alloc.C164_decreasing`, `Alloc.C164_doubles` | The exact counterpart is C53. The accuracy of the power and its exactness for the exponents 0 and 1 are assumptions (hypotheses of the theorems). |
| C165 | Values of moment functions in floating-point arithmetic | proved | FloatVander | `Fl.C165_legendre`, `Fl.C165_monomial`, `Fl.C165_outside` | Positions are between the logarithms the machine gives, if a logarithm is used. The bound for Legendre polynomials uses only the triangle inequality along the recurrence and is pessimistic for large degrees. Fourier functions need the accuracy of the library's sin and cos and are not treated. Overflow and underflow are not modelled. |
| C166 | Estimated moments in floating-point arithmetic | proved | FloatDropped, FloatMomentMeans | `Fl.C166_legendre`, `Fl.C166_monomial`, `Fl.C166_legendre_mean`, `Fl.C166_monomial_mean`, `Fl.C166_legendre_var`, `Fl.C166_monomial_var`, `Fl.C166_dropped` | The bound for variances is absolute: a variance far below 2^-53 is not resolved (C105 has witnesses). Fourier functions are not treated. Overflow and underflow are not modelled. |

## Where the code does not have the property

Each entry is a theorem: a concrete run of the model, or a general negative statement, that contradicts the English property. The text is the comment of the theorem.

* **C02** `C02_crash_reuses_ids`: C02, second part: after a crash inside `schedule_samples`, every identifier that was handed over but not recorded by the storage (its running number is at least the recorded count) is handed over again by the next `schedule_samples` whose target covers it.
* **C09** `C09_missing_file_counterexample`: If a common file is missing the scheduling call raises, and a caller that goes on sees one running sample for ever: the sample is in none of the answers.
* **C10** `C10_counterexample`: The code violates C10: a result put into a queue after `get_finished` has read this queue and before it clears it is lost. However often the pool is polled afterwards, the sample `b` is never returned and the pool reports one running sample for ever.
* **C10** `C10_worker_error_counterexample`: Second violation: when a worker function itself raises (for instance a common file is missing), the handler thread dies: whatever happens later, only samples that had finished before are ever returned.
* **C11** `C11_list_counterexample`: Results that are not arrays are not checked: a list of wrong length counts as successful.
* **C13** `C13_counterexample`: The code violates C13 for large numbers: the directory of sample number 10000000 is kept although it is not one of the first five.
* **C13** `C13_new_pool_wipes`: A new pool on the same working directory deletes all kept directories, unless in debug mode.
* **C14** `C14_counterexample`: The code violates C14: a sample that fails the format check is counted.
* **C16** `C16_memory_counterexample`: The memory storage violates C16: a level whose first saved batch contains only failed samples is counted as 0.
* **C19** `C19_counterexample`: C19 fails for formats that the file cannot represent: with a one-dimensional shape the reopened storage refuses its own format.
* **C20** `C20_counterexample`: The code violates C20: a crash after the identifiers of a batch were appended, followed by saving another sample, leaves identifier `a` in front of the values of sample `b`.
* **C21** `C21_crash_duplicates_counterexample`: C21 under crashes, first witness: killed after the samples were handed to the pool but before the failed records were cleared, the restarted program renews the same sample again, and when both runs deliver, the sample is finished twice.
* **C21** `C21_crash_breaks_storage_counterexample`: C21 under crashes, second witness: killed between deleting and re-creating the failed dataset, the reopened storage raises `KeyError` for the finished counts, the unfinished identifiers and any further renewal.
* **C22** `C22_counterexample`: The code violates C22: `get_finished` reports the totals since the start and the storage adds up all reports. Two samples that took 1 and 3 time units, collected in two polls, have the stored cost (1 + 4) / (1 + 2) instead of 2.
* **C22** `C22_memory_counterexample`: The memory storage adds averages: one sample that took 1 time unit, polled twice, has the cost 2.
* **C23** `C23_counterexample`: The code violates C23: a format in which the locations are permuted is accepted, and replaces the stored one, so stored results are read with the wrong locations.
* **C23** `C23_points_counterexample`: A second violation: with points as locations the stored format cannot be read, the comparison is skipped and every format (here: a different name, unit and shape) is accepted.
* **C24** `C24_counterexample`: The code violates C24: a file made with two levels, opened again with three level parameters, reports the level ids `0, 1, 0, 1, 2`, and level 2 has no datasets.
* **C25** `C25_counterexample`: C25 does not hold in full: with a level that has no successful sample yet, `sample_pairs()` of the HDF storage raises while the memory storage returns the other levels; and the finished counts differ.
* **C26** `C26_marker_file_counterexample`: If the marker file cannot be written after `qsub` accepted the job, the package is submitted again: the sample is in two accepted jobs.
* **C29** `C29_listing_order_counterexample`: If the directory listing is in another order, a job number is used again: the new package overwrites the scheduled file of job 1, and the first job's sample is not in its file any more.
* **C29** `C29_sorted_names_counterexample`: Sorting the listing by file name would not be enough: the name of job 10000 comes before the name of job 9999.
* **C31** `C31_marker_file_counterexample`: C31 fails if the marker file of an accepted job could not be written: no call returns the results of that job, not even the one in which it is first reported as finished.
* **C31** `C31_restart_counterexample`: C31 fails across restarts: a new pool does not ask for the jobs of the old one, so the call in which such a job is first reported does not return its results (they are recovered through `have_permanent_samples`, C33).
* **C32** `C32_counterexample`: The full claim fails: the job after a finished one is overlooked, so 0 running samples are reported while a job with one sample is unfinished (and the sampler stops waiting).
* **C32** `C32_pending_counterexample`: A sample whose package could not be submitted is not counted either.
* **C33** `C33_failed_and_duplicate_counterexample`: Failed samples are not recovered, and a successful sample of the same job is returned twice.
* **C33** `C33_running_lost_counterexample`: A sample whose job finishes after the first `get_finished` of the new program is never returned.
* **C33** `C33_pending_counterexample`: A sample that was handed over but not packed before the crash makes every later `get_finished` raise.
* **C33** `C33_not_debug_counterexample`: Without `debug` the new pool deletes the job files: nothing can be recovered.
* **C33** `C33_new_job_counterexample`: A new job that finishes before the first `get_finished`: the call raises, and the new result is lost too.
* **C33** `C33_hang_counterexample`: A newly failed sample among the unfinished ones makes the call run for ever.
* **C35** `C35_stale_simulation_counterexample`: Non-vacuity, and a pitfall: a simulation handed over after a restart with another configuration is not used by jobs; the file of the earlier run stays.
* **C37** `C37_broadcast_counterexample`: C37 fails with broadcasting: a scalar quantity plus an array constant has size 1 and evaluates to three rows.
* **C37** `C37_repeated_key_counterexample`: C37 fails with repeated keys: the dictionary keeps one of two entries, the evaluation has both.
* **C41** `C41_array_counterexample`: C41 fails for arrays of larger parts: whatever the index, access to an array composed of parts of another size than one raises at every evaluation.
* **C41** `C41_dict_types_counterexample`: C41: whether a dictionary of a condition and a number is refused depends on the order of the entries: with the number first it is created, and its type claims two values.
* **C42** `C42_counterexample_identity`: **C42** is false when Python gives the identity of a deleted quantity to a new one: after evaluating `q + 10` (value 13 for the sample 3) and deleting it, evaluating `q * 10` on the same chunk returns the cached 13 instead of 30.
* **C42** `C42_counterexample_growth`: **C42** is false when samples are added to a chunk: a request for five samples is evaluated while two are stored, then three more samples are collected; asking again for five samples returns the two old ones.
* **C43** `C43_counterexample_number`: **C43** is false for several chunks: of six samples in two chunks three are requested. Draws are possible that give none, and draws that give six samples.
* **C43** `C43_counterexample_repeated`: **C43** is false about distinct samples: positions are drawn with replacement; of two samples in one chunk two are requested and the first sample is returned twice.
* **C48** `ExCombine.C48_linear_nan_counterexample`: C48: linearity fails if a NaN of one quantity does not come with a NaN of the other: the mean of the sum of the two fields leaves out the sample that the mean of the second field uses.
* **C48** `C48_nan_counterexample`: Witness against C48: one sample has a NaN in the first value, another does not. The estimate of the pair, indexed at the second value, drops the sample; the estimate of the second value alone uses it.
* **C48** `C48_tuple_counterexample`: Witness against C48: `mean[0, 1]` of a 2x2 array takes the rows 0 and 1 (the whole array) instead of the entry in row 0, column 1; the type still says that it is a scalar.
* **C50** `C50_nested_index_counterexample`: Moments and covariances of array quantities cannot be indexed: a quantity whose type is an array of items of another size than one raises at every evaluation of an indexed form, e.g. `moments(q)[0]` for an array quantity `q`, or `moments(q, mom_at_bottom=False)[i]` for `q` of another size than one.
* **C52** `Alloc.C52_counterexample`: C52 fails: the limit `V_l L / target` cuts the optimum on levels with a small share of the work, so the predicted variance exceeds the target by 40 percent, far beyond rounding.
* **C54** `C54_counterexample`: C54 fails for the other levels: only samples of level 0 are read, whatever the level, so all fine samples of level 1 can lie outside.
* **C55** `Mom.C55_tiny_domain_counterexample`: C55 needs domains that are not too small: below a width of 1e-15 the upper bound is not mapped to the upper reference bound.
* **C56** `Mom.C56_fourier_counterexample`: C56 fails for Fourier functions: `eval(1, 0)` is `sin(0) = 0`, column 1 of `eval_all` is `cos(0) = 1`.
* **C59** `Mom.C59_ref_domain_counterexample`: C59 fails: two Legendre objects that differ only in the reference domain are equal but evaluate differently.
* **C59** `Mom.C59_change_size_counterexample`: C59 fails: `change_size` never returns an object.
* **C60** `RF.C60_counterexample`: **C60** fails for every upper bound that is not positive: some non-negative parameter is mapped out of `[a, b)`.
* **C61** `Fld.C61_counterexample_shared_random_field`: **C61** fails when two fields use one random field object (as in the example in the documentation of `Fields`): the first field gets the values drawn for the points of the second.
* **C61** `Fld.C61_counterexample_other_region`: **C61** fails when a parameter lives on another region with the same number of points: the function is evaluated at values from other points.
* **C61** `Fld.C61_counterexample_constant_names`: Constants given as parameters are returned under a name made of their value: with two of the same value in different regions one array is lost.
* **C62** `RF.C62_counterexample_stale_factor`: **C62** fails when points are set again after a sample: the next sample still has one value for each of the old points.
* **C62** `RF.C62_counterexample_stale_matrix`: The same after an explicit `cov_matrix()` before the points are set again: even the decomposition uses the old points.
* **C62** `RF.C62_counterexample_array_sigma`: Points cannot be set again without `sigma` once `sigma` is an array: the call raises although the array fits.
* **C62** `RF.C62_counterexample_no_points`: See `C62_no_points`.
* **C63** `Flow.C63_counterexample_axes`: C63 fails for a coarse mesh of one element (or with all centers on a line `x = const`): the coordinate `x` is left out instead of `z`. Here the realization is `φ (x, y) = y`; the center of the coarse element is (1/3, 1/3, 0), its value should be 1/3, the coarse run gets 0.
* **C63** `Flow.C63_counterexample_unused`: C63 fails for a template that does not use the field: on every level the coarse solver is not run and the coarse result is 0.
* **C64** `Sub.C64_counterexample_value`: **C64** fails when a value contains the placeholder of a later name: it is replaced too, and a name that does not occur in the template is reported.
* **C64** `Sub.C64_counterexample_nested`: **C64** also fails when a value completes a placeholder in the surrounding text.
* **C65** `Gm.C65_counterexample_five_components`: **C65** fails for five and more components: a written file with such a field cannot be read, whatever the values, ids and name (reading stops with an error: a data row with more than five columns is also read as an element).
* **C65** `Gm.C65_counterexample_repeated_element`: **C65** fails when an element is listed twice: only its last row is read back.
* **C65** `Gm.C65_counterexample_carriage_return`: **C65** fails for names with a carriage return: the file is written, and reading it raises (text mode reads a carriage return as the end of a line).
* **C66** `Gm.C66_counterexample_quotes`: **C66** fails for the physical names: they come back with their quotes, so no name of the written mesh is found.
* **C66** `Gm.C66_counterexample_space`: **C66** A physical name with a space is lost.
* **C66** `Gm.C66_counterexample_short_element`: **C66** A point element with one tag is lost, and so is a line without tags.
* **C68** `Flow.C68_counterexample`: C68 fails if a boundary line and a surface have the same id: the line element 10 of the group `.left` is returned if `plane` comes later, the surface element 11 of the group `plane` is missing if `.left` comes later.
* **C69** `Syn.C69_counterexample`: C69 fails between the levels 0 and 1 for the simulation's own format (two locations): for every random draw the coarse result of level 1 differs from the fine result of level 0.
* **C70** `Dist.C70_counterexample_order`: C70 fails for arguments that are not sorted (the method throws away the sorted array): with the uniform density on the unit interval an argument after one above the upper bound gets a value above 1, an argument after one below the lower bound a value that is too small.
* **C70** `Dist.C70_counterexample_normalization`: C70 fails for a density with an integral above 1: the function decreases at the upper bound.
* **C71** `C71_second_sampler_wipes_counterexample`: C71: on a storage object made on a new file, a second `save_global_data` (a second `Sampler` on the same object) with the same arguments wipes all levels, and every level access then raises `KeyError`, whatever was stored.
* **C72** `C72_times_counterexample`: C72 fails in general, witness 1: two quantities with different numbers of times: the single time of the second one is stored as two equal times.
* **C72** `C72_three_letter_location_counterexample`: Witness 2: a format with a location name of three characters cannot be saved at all.
* **C72** `C72_shape_counterexample`: Witness 3: a one-dimensional shape `(3,)` is stored as `(3, 3)`, so the same format is refused when the program is run again on the stored file.
* **C72** `C72_points_counterexample`: Witness 4: a format with points as locations is saved but cannot be loaded.
* **C72** `C72_unicode_counterexample`: Witness 5: a format with a character beyond ASCII in a name or unit, like `m²`, cannot be saved at all.
* **C72** `C72_failed_save_counterexample`: Witness 6: saving a format that cannot be encoded leaves a dataset of empty texts and zeros; the corrected format is refused afterwards. Here a unit is corrected.
* **C74** `RF.C74_counterexample`: **C74** fails when an attempt runs out of memory after it has added a chunk: what it added is added again. Here the attempt with two chunks fails at the second one.
* **C75** `Flow.C75_counterexample_stale`: C75 fails for a directory with the output of an earlier attempt (directories are reused, see /repo/mlmc/sampling_pool.py:129-138): the fine run writes nothing, the sample is successful with the old result 5.
* **C76** `Flow.C76_counterexample`: C76 fails: a `FlowSim` object that does not prepare the common files itself (`clean` false, to reuse existing files) has no list of used fields: every sample of every level fails.
* **C78** `Dist.C78_counterexample`: C78 fails: after "fix normalization" the density integrates to 1 only if it did so before.
* **C78** `Dist.C78_counterexample_concrete`: A concrete case: the density 2 on the unit interval becomes the density 4.
* **C78** `Dist.C78_counterexample_distribution`: The class `Distribution` divides the multipliers by the integral instead: the density 2 on the unit interval becomes the density √2.
* **C79** `C79_counterexample`: **C79** is false: every round of the bootstrap raises an exception, for every quantity, all moment functions, all requested numbers, all draws and all stored samples (the subsampled values, not a condition, are used as the mask of `select`).
* **C80** `Reg.C80_counterexample_zero`: **C80** is false if the variance of a moment is zero on one level above the first but not on all levels: the regression fails.
* **C80** `Reg.C80_counterexample_single`: **C80** is false if a level was created with a single sample, although the weights computed from the numbers of samples are not used.
* **C81** `C81_counterexample_timeout`: **C81** is false for a timeout of zero or less: whatever the pool does, the wait never ends when samples are missing at its start (the pool is not asked).
* **C81** `C81_counterexample_memory`: **C81** is false for the memory storage: all four scheduled samples of level 0 have finished (they failed), the pool has nothing left to run, yet the storage counts none of them as finished and the wait never ends.
* **C82** `Fit.C82_counterexample_clipped`: C82 fails where an exponent is clipped: the functional there grows with slope 1 while the returned gradient is `1 - exp 200`.
* **C82** `Fit.C82_counterexample_penalty`: C82 fails with an active end point penalty: the gradient of `|F| c P` leaves out the derivative of `|F|`.
* **C82** `Fit.C82_counterexample_grown`: C82 fails for the second derivatives when a stage added moments: the diagonal of the added ones is stabilized, their gradient is not.
* **C83** `Fit.C83_counterexample_no_minimum`: C83 is false for the functional of the code as a whole: because exponents are clipped at 200 the integral is bounded, the linear term is not, so whatever the data, no multipliers minimize it. (The comparison of `C83_moments_minimize_partial` with multipliers that reach ±200 is missing for this reason.)
* **C83** `Fit.C83_counterexample_start`: With another error of moment 0 the starting density of `SimpleDistribution` has a different mass.
* **C84** `Ortho.C84_counterexample_cut`: C84 fails when an eigenvalue is cut off: the first constructed moment is `φ₁ / 2`, not the constant 1. The density fit normalizes through the first moment.
* **C87** `C87_adaptive_counterexample`: C87 fails for numbers of samples chosen from the samples themselves: three samples are available, each 1 with probability 1/3 and 0 otherwise (27 equally likely outcomes). The program stores two, computes from their reported variance the number of samples for the target variance 1/6 with `estimate_n_samples_for_target_variance` (it is two or three), stores that many, and estimates the mean. The expectation of a sample is 1/3, the expectation of the reported mean 25/81.
* **C88** `RF.C88_counterexample_exponent`: C88 fails for every correlation exponent above 2, although the constructor accepts "a float (should be >= 1)": some three points on a line have a matrix that is not positive semidefinite.
* **C89** `RF.C89_counterexample_precision`: C89 without the restriction fails: for the points 0, 10, 20, 30, correlation length 1, the model `gauss`, and the default arguments of `svd_dcmp`, the loop goes through 1, 2 and 3 terms and stops because the next number, 5, exceeds the number of points. Whatever decomposition and noise, one of the four values has a variance of at most 4/5 instead of 1, although the precision is 1/100 and the largest singular value is at most 1.1.
* **C90** `RF.Fourier.C90_counterexample_line`: C90 on a line: with exponent 2, any correlation length except `1 / (√2 π)` gives a covariance different from the prescribed one between any two different points.
* **C90** `RF.Fourier.C90_counterexample_line_exp`: C90 on a line: with any exponent but 2, `sample` raises `AttributeError`.
* **C90** `RF.Fourier.C90_counterexample_exponent`: C90 in the plane fails for every exponent other than 1 and 2, which the constructor accepts: the field is the one of the exponent 1, and two points at the distance of twice the correlation length have the covariance `exp(-2)` instead of `exp(-2 ^ alpha)`.
* **C91** `C91_waits_for_all_counterexample`: `C91`: without a timeout `ask_sampling_pool_for_samples` can return while a job is running, although `qsub` and `qstat` never fail and no job dies: `qstat` looks only at every other job after a finished one, so one poll counts no running sample.
* **C92** `C92_waiting_ends_counterexample`: `C92`: a waiting call need not return, although all workers have finished without raising: there is a program after which no task is left with the workers and waiting without timeout runs for ever, whatever happens, with a sample requested, computed and neither stored nor failed.
* **C93** `C93_restart_recovers_counterexample`: `C93`, the full claim "a program on an existing file, asking for the samples and waiting for them, finishes all of them" fails: with the results of an interrupted program lost, it plans nothing, and the file keeps five scheduled samples without a single result.
* **C94** `C94_covariance_psd_counterexample`: `C94` fails on two levels: samples 1 and 0 on level 0, pairs (0, 1) and (1, 2) on level 1 give the estimate -3/2 of the mean of x²: a diagonal entry of the matrix of `estimate_covariance` is negative.
* **C94** `C94_diff_vars_counterexample`: `C94`: `estimate_diff_vars` does not, whatever the constructor got: called without an argument it raises.
* **C95** `Gm.C95_format1_counterexample`: `C95` fails: `read` raises for every mesh file of format 1.0, whatever it contains (the name `ftype` is only bound by a `$MeshFormat` section).
* **C96** `Dist.C96_kl_zero_counterexample`: `C96` fails for densities with zeros: `3x²/2` on (-1, 1) vanishes only at 0, its divergence from the uniform density is finite, yet `KL_divergence` is NaN.
* **C96** `Dist.C96_kl_unnormalized_counterexample`: `C96` fails in the older module for functions that are not normalized: with `P = 1/2` and `Q = 1` on (0, 1) the result is the one of equal densities; the newer one returns a positive value.
* **C98** `Const.C98_matrix_counterexample`: `C98` fails for every array with two or more axes, also for those of exactly the shape of the quantity: the operation with any chunk of samples is an error or gives an array with four or more axes, never one of the form `[M, N, 2]`.
* **C98** `Const.C98_matrix_comparison_counterexample`: `C98` fails silently for comparisons with a matrix of two columns: on levels with two parts the fine values are compared with the first column and the coarse values with the second, each value of the quantity with all rows of the matrix.
* **C98** `Const.C98_matrix_selection_counterexample`: C98: a condition that holds entry by entry for a matrix constant may drop the sample.
* **C98** `Const.C98_numpy_number_counterexample`: `C98` fails for NumPy numbers other than `np.float64`: they are refused.
* **C98** `Const.C98_two_constants_counterexample`: `C98` fails for two constants combined first: the result has five axes, and so has its combination with any chunk.
* **C99** `Slope.C99_last_value_counterexample`: **C99** is false for all windows: the last value is never used. Of 0, 5, 6, 7 the last three are on a line, the window 0:3 with a positive residual is returned.
* **C99** `Slope.C99_nothing_detected_counterexample`: **C99** is false when nothing is to be cut: if all eigenvalues are positive and distinct and the detected position is 0 (all of them have the same slope), the first eigenvalue is cut off nevertheless.
* **C99** `Slope.C99_equal_counterexample`: **C99** is false for equal eigenvalues: with eigenvalues 0, 1, 1, 1, 1 nothing is cut off, the eigenvalue 0 is kept and its inverse square root is used.
* **C100** `Qstat.C100_running_counterexample`: **C100** is false with confusing columns: the running job is taken as finished.
* **C101** `Script.C101_debug_counterexample`: C101 fails (debug). The pool is created with `debug` on the directory of a pool without it: the file of the earlier pool is kept, and the job runs without `debug`, so it deletes directories of samples.
* **C101** `Script.C101_blank_counterexample`: C101 fails (blanks). In a working directory with a blank in its name the process of the job looks for its parameters in another directory and fails.
* **C101** `Script.C101_semicolon_counterexample`: C101 fails (semicolons). With a semicolon in the name of the directory (and a shell that keeps it) the process gets a wrong directory of jobs and a wrong file of simulations.
* **C102** `Work.C102_threads_counterexample`: C102 fails for `ThreadPool`, a wrong result: sample 1 returns the value of sample 2, when the second thread enters its directory and writes between two actions of the first one.
* **C102** `Work.C102_relative_debug_counterexample`: C102 fails with relative paths also when directories are kept: the second sample looks for the file in the directory of the first one.
* **C103** `Dens.C103_counterexample_cut`: C103 fails after a cut. Samples 2 and -2 and the monomials 1, t, t²: the gradient vanishes for the uniform density, whose second moment is 3 (by the quadrature and exactly), the estimated one is 4. The normalization, made through the first constructed moment, here t/2, takes the logarithm of 0.
* **C104** `C104_failed_sample_counterexample`: `C104` does not hold for jobs with a failed sample: the job of three samples ran to its end, two have results and one failed; after the restart each of the two results is stored twice, and the failed sample stays unfinished.
* **C104** `C104_running_job_counterexample`: `C104` does not hold for jobs that are still running when the new program first asks: it returns at once, and when the job has ended and `qstat` reports it, nothing is collected any more: all its samples stay unfinished although their results are in the job's files.
* **C105** `Fl.C105_negative_variance_counterexample`: `C105` is false for the sign of variances: with `np.float64`, three samples of the value `0.1` have the estimated variance `-2^-59`.
* **C105** `Fl.C105_cancellation_counterexample`: `C105`: the relative error of variances is not small: with `np.float64` the three whole numbers from `2^27` have the estimated variance 0 instead of 1.
* **C106** `C106_sample_twice_counterexample`: Each value is right, but a sample can be counted twice: a program is killed while a job of two samples runs; the job has recorded the first one when the next program asks for samples, and looking for the second one reads the job's file again. Two samples are scheduled, one has run, two results are stored.
* **C107** `Read.C107_counterexample_more`: **C107** fails for requests beyond the saved samples: five samples are requested while two are saved, then three more are saved; the same request returns the two old samples again from the HDF storage, and all five from the storage in memory.
* **C108** `Staged.C108_counterexample_unit_domain`: `C108`: on a domain of length one every fit begins with a penalty that is no number: the multipliers of the uniform density are zero, and the parameter is divided by their norm.
* **C108** `Staged.C108_counterexample_newton`: `C108`: the solver by Newton's method, `estimate_density`, never returns: whatever the tolerance, domain and errors, it raises `AssertionError`.
* **C109** `Stat.C109_counterexample_t_normal`: `C109`: `t_test` fails independent normal samples whose mean is `mu_0` with probability `1 - max_p_val` instead of `max_p_val`: with the default 0.01, 99 of 100 correct samples.
* **C109** `Stat.C109_counterexample_t_level`: `C109`, `t_test`: it should fail correct samples with probability `max_p_val`; it does so with the complementary probability. If the p-value of correct samples is uniform (as p-values are), `AssertionError` is raised with probability `1 - max_p_val`.
* **C109** `Stat.C109_counterexample_t_exact`: `C109`: `t_test` raises for all samples whose mean is exactly the expected one, whatever the level.
* **C110** `C110_counterexample_growing_estimates`: Estimates that grow with the numbers of samples: the loop never ends.
* **C110** `C110_counterexample_zero_timeout`: With `timeout = 0` the first call of `process_adding_samples` on a new program never returns, for all readings of the clock.
* **C111** `C111_counterexample_regression`: Why `C111` needs at most four levels: with five levels the regression can turn variances of at most one into variances above any bound `V`, for any least squares routine, and with them the estimated numbers of samples have no common bound.
* **C113** `C113_counterexample_waiting_forever`: `C113` is false: after this exception waiting for all samples (`ask_sampling_pool_for_samples()`, or the wait of `schedule_samples()`) never returns, for all simulations `env''` (repaired or not): the sample that raised is counted as running forever.
* **C114** `Flow.C114_counterexample_default`: `C114` is false for an object that does not prepare the files (the default of `clean`) in an empty work directory: no level can be created.
* **C115** `Shoot.C115_counterexample_equal_elements`: `C115` is false if the number of elements does not grow: every sample of such a level raises.
* **C115** `Shoot.C115_counterexample_2d`: `C115` is false in two dimensions, for all configurations, steps and realizations: a sample of any level computes the finest simulation, and its coarse result is its fine result (also on level 0): with realizations `φ`, `ψ` of the fields it is the shot with the elements of the last step. So all differences of levels are zero, and the levels above the first add nothing to the estimates.
* **C116** `Mom.C116_counterexample_fourier`: **C116** is false for Fourier functions: on no chunk of any quantity can their moments be evaluated, with the moments at either place, however many functions there are and whatever they are combined to.
* **C116** `Mom.C116_counterexample_eval`: **C116** is false for `eval` of Legendre polynomials: for the array `[[0, 1/2]]` of shape `(1, 2)`, `eval(1, ·)` returns an array of the same shape whose first entry is 1, although polynomial number 1 has the value 0 at 0.
* **C116** `Mom.C116_counterexample_derivative`: **C116** is false for derivatives of arrays with two axes: for the array of shape `(2, 2)` filled with zeros, `eval_all_der` returns an array of shape `(2, 2, 2)` in which the entry for function 0 at the number `[0, 1]` is 1, although the derivative of function 0 is 0 everywhere.
* **C117** `C117_counterexample_unicode`: **C117** is false: if the message of one failed sample of a level has a character beyond ASCII, saving the failed samples raises `ValueError`; the level gets as many failed samples with the empty identifier, so they count as finished; no sample of a level that follows in the dictionary is recorded; and each of the samples stays unfinished.
* **C117** `C117_counterexample_identifier`: `C117` fails for identifiers of a user's own that are not ASCII: the results of the level are lost, while its list of collected identifiers grows by empty ones.
* **C118** `Place.C118_counterexample_pbs`: **C118** is false for relative paths with `SamplingPoolPBS`: `schedule_samples` that schedules anything raises after the samples were handed to the pool; the file of the storage is as before, none of the samples is recorded, and an empty file is left in the directory of the jobs, on which no storage can be opened.
* **C118** `Place.C118_counterexample_workspace`: **C118** is false for relative paths with a simulation that needs a workspace: `schedule_samples` raises after the samples of the level were computed, none of them is recorded, and no file changes.
* **C119** `Race.C119_counterexample_threads`: **C119** fails for a `ThreadPool`: the second thread sets the generator before the first one draws. Both samples are made from the numbers of the second seed, and the sample with seed 1 has other values than in any pool with one worker.
* **C119** `Race.C119_counterexample_fraction`: Also the counter of failed samples is shared: with `nan_fraction` 1/3 the threads lose an update of `n_nans`, and both samples fail where one process lets only the first one fail.
* **C119** `Race.C119_counterexample_counts`: Two threads that read the number of samples at the same time count one sample: the counter is one less than the number of samples, while the workers of a `ProcessPool` have the right numbers.
* **C120** `Flow.C120_counterexample_seed_unused`: **C120** fails for every other field: the seed has no effect at all. Samples with different seeds have the same result if the operating system gives the same, so the difference between two samples, and between two computations of one sample, comes from the operating system alone.
* **C120** `Flow.C120_counterexample_other_fields`: **C120** fails for a Fourier field and for a field of GSTools: the same configuration and seed, two results.
* **C120** `Flow.C120_counterexample_svd`: **C120** fails for the SVD field and more than ten elements: the decomposition is made before the generator is set, by a method that draws from it. The same configuration and seed have two results in two processes that have computed other samples before.
* **C121** `Fit.C121_counterexample_far`: **C121** fails at the start of every fit with moments whose integrals vanish (Legendre polynomials): the quadrature made for the uniform density is kept for all multipliers with the same first component, however far they are.
* **C121** `Fit.C121_counterexample_history`: **C121** fails: the value of the functional for given multipliers depends on what was evaluated before. For the multipliers (0, 4) the integral is that of two points, `e² + e⁻²`, after an evaluation at the start only, and that of four points, `(e³ + e + e⁻¹ + e⁻³) / 2`, if (1, 4) was evaluated between.
* **C122** `RF.C122_counterexample_mu`: C122, last sentence fails: the mean of a value is never the `mu` given for the point (documented as "Mean value of uncorrelated field: E( F(X_i))"): it is larger by at least one.
* **C123** `C123_counterexample_lost_level`: `C123`: a silent loss. On two levels the only sample of the finest level failed; the estimate from memory returns, for one level, as if the finest level did not exist, while the estimate from the HDF storage of the same program raises.
* **C126** `Alloc.C126_counterexample_several_moments`: `C126` fails for several moments: 600 samples are allocated to each of two levels, although 500 on each meet the target for both moments.
* **C127** `Syn.C127_counterexample_small_jobs`: `C127` fails: with one sample in each job every sample fails, however small the requested (positive) fraction is.
* **C129** `VarVar.C129_counterexample_stale`: `C129` is false: the numbers of samples are kept as a reference, so a caller that passes the same list after new samples have been created gets the values of the old numbers.
* **C129** `VarVar.C129_counterexample_broadcast`: `C129` is false: a saved list with one level is compared with every level of another list, so one value is returned for three levels.
* **C129** `VarVar.C129_counterexample_broadcast_back`: `C129` is false also the other way round: three values are returned for one level.
* **C130** `Frac.C130_counterexample_overlap`: **C130** is false for overlapping fractures: segment 4 is a part of both fractures and is only in the region of the second one; the first fracture is left with no segment at all.
* **C130** `Frac.C130_counterexample_side`: **C130** is false for a fracture along the inflow side of the box: its segment 3 is only in the region of the side.
* **C131** `Gs.C131_counterexample_repeated`: **C131** is false for every field: all samples drawn between two calls of `change_srf` are the same realization.
* **C131** `Gs.C131_counterexample_dimension`: **C131**, dimensions: a field of four or more dimensions can be created and accepts points, but every sample raises ValueError.
* **C132** `C132_counterexample_many_samples`: `C132`, what is not true: with the seeds the code computes — a fixed function of the identifier — the samples cannot be independent for long. If a program asks for more samples of a level than there are seeds, whatever is random in the simulations, independent differences with the same variance have the variance zero.
* **C133** `C133_counterexample_bias`: `C133`, what is not true: the mean of the finest level. Two levels, the coarse values of level 1 are the fine values of level 0 for every seed; the simulation of level 1 raises for odd seeds. With probability one there are programs asking for more and more samples, and the means they report converge to 1/2. The mean of the fine values of level 1 is 1 over all seeds and 0 over the seeds for which level 1 succeeds.
* **C134** `C134_counterexample_timeout`: `C134`, what is not true: with a timeout the estimates are biased. A program asks a parallel pool for two samples and polls with a timeout of one second, after which it estimates from what has been stored. The simulation returns 0 for even seeds, 1 for odd ones, and the workers need longer than the timeout for odd seeds. For independent uniformly distributed seeds: the mean over all seeds is 1/2, but the program reports 0 whenever it reports something, and it does if one of the two seeds is even.
* **C135** `C106_sample_twice_counterexample`: Each value is right, but a sample can be counted twice: a program is killed while a job of two samples runs; the job has recorded the first one when the next program asks for samples, and looking for the second one reads the job's file again. Two samples are scheduled, one has run, two results are stored.
* **C135** `C26_marker_file_counterexample`: If the marker file cannot be written after `qsub` accepted the job, the package is submitted again: the sample is in two accepted jobs.
* **C138** `C138_failed_neighbour_counterexample`: Against C138 without `WholeJobs`: a program is killed while a job of two samples runs; the job ends with one success and one failure, all recorded, and the next program gets both samples as unfinished. It stores the success twice: looking for the failed sample reads the job's results again.
* **C139** `C139_half_recorded_counterexample`: Against C139 without `WholeJobs`: every sample is computed once, with the right value, none fails, none is unfinished in the end, but the mean that is reported counts one of two samples twice, because its job was half recorded when a new program asked.
* **C140** `C140_shared_counterexample`: `C140` is false: if an array with three or more entries is passed to two samplers, the numbers one of them is told to reach later (`set_level_target_n_samples(v)`) are from then on the target numbers of the other one as well, and the content of the array of the user.
* **C140** `ExTargetArrays.C140_counterexample`: The second sampler schedules 9 samples on level 0 although it was asked for 4, and `n[0]` is 9.
* **C141** `C141_zeros_counterexample`: `C141` is false: if a batch has a result of another shape than the results on the level (`sh`), or two results of different shapes, `append_successful` raises, but all samples of the batch are in the file as collected, with zeros as their results.
* **C141** `C141_save_zeros_counterexample`: The same for a call of `save_samples`: batches of the levels before the one with the unexpected shape are stored (`st1`), that level gets zeros, the levels after it and the failed samples get nothing.
* **C141** `C141_failed_lost_counterexample`: When storing the results raises, the failed samples of the same poll are not stored at all; the pool has already given them away.
* **C141** `C141_memory_counterexample`: A `Memory` storage raises as well; it counts the samples as finished, and stores nothing of them.
* **C142** `C142_lengths_counterexample`: `C142` is false also for questions: a regression with the numbers of samples of three levels is answered by a new object (if the fit is), and raises `ValueError` on an object that was asked before with the numbers of four levels.
* **C142** `C142_counterexample`: `C142` is false, with numbers: the object was made with the moments 1, x, x² of two values; `estimate_moments()` returns six means, and four means after `est_bootstrap` was called with the moments 1, x (and raised).
* **C145** `C145_increasing_counterexample`: **C145, negative.** Increasing values without a threshold (the default) always raise TypeError.
* **C145** `C145_threshold_counterexample`: **C145, negative.** The line for increasing values is at the threshold only if that is half of `len(values) - 1`.
* **C145** `C145_positive_counterexample`: **C145, negative.** On a logarithmic axis one value that is not positive is drawn with the positive ones, if there is any.
* **C145** `C145_errors_counterexample`: **C145, negative.** A numpy array of two or more errors raises ValueError, whatever the values.
* **C146** `C146_few_counterexample`: **C146, negative.** With 4 to 15 samples the histogram has no bars; with fewer it raises.
* **C147** `C147_few_counterexample`: **C147, negative.** With fewer than five different steps (for example one computation with four levels) `show` raises.
* **C147** `C147_later_counterexample`: **C147, negative.** Variances added for steps that are already in the plot have no influence on the curve.
* **C148** `C148_caller_counterexample`: **C148, negative.** `Estimate.plot_bs_var_log` gives the method the table of the level variances alone (/repo/mlmc/estimator.py:244): the variances of level 0 (the first) are drawn at the tick labelled as the total, and those of the following levels at the tick of the level before.
* **C148** `C148_regression_counterexample`: **C148, negative.** For a part of the moments it does not: moments 2 and 3 of four, row 0.
* **C148** `C148_means_counterexample`: **C148, negative.** With exact moments one mean, that in the middle, is missing.
* **C149** `C149_counterexample`: **C149, negative.** A name that ends with `pdf` but not with `.pdf` gets no suffix, and figures with the default empty title are all saved to the same file `.pdf`.
* **C150** `C150_ellipsis_counterexample`: `C150`, where it is false: `q[..., i]` of an array quantity with the last axis of length `d`. The declared type is that of the entries `i` of the last axis, but the chunk is indexed on its axis of fine and coarse parts: with `i` outside the parts the evaluation raises `IndexError`; otherwise the result has `d` "samples", as many "parts" as there are samples, and contains all entries of the last axis.
* **C150** `C150_ellipsis_mean_counterexample`: `C150`: the estimated mean of `q[..., 0]` is the average of the two entries of the first sample, 3/2, not the mean of the first entry, 3, which `q[0]` gives; `q[..., 1]` raises.
* **C151** `C151_domain_counterexample`: C151: the documented recipe for central moments, /repo/docs/source/examples_quantity.rst:110-117, evaluates the moment functions of the samples at the centred values. If these functions were made for a domain `(a, b)` and the mean `μ` is not 0, the centred value of a sample at a bound of the domain is outside of the domain: every moment of this sample (but the constant Fourier one) is NaN, so the sample is dropped.
* **C151** `C151_recipe_counterexample`: C151: the recipe on the samples 1, 2, 6 with the first three powers on the domain (1, 6): all samples are used for the mean 3, but two of three are dropped from the central moments, whose estimates are 1, 3, 9 instead of 1, 0, 14 / 3.
* **C152** `C152_no_axis_counterexample`: C152: a reduction without `axis` (`np.max(q)`) raises.
* **C152** `C152_keepdims_counterexample`: C152: without `keepdims` the result can be made (for a given axis), but no estimate of it can.
* **C152** `C152_samples_axis_counterexample`: C152: a reduction along the axis of samples is accepted. It reduces the samples of each chunk to one, so that the estimate depends on how the samples are divided into chunks: the samples 1, 2, 3, 4 give the mean 4 in one chunk and 3 in two.
* **C153** `C153_nan_counterexample`: Witness against C153: a sample has a NaN in the first value. `moments_mean[1]` drops it, the moments of the second value use it.
* **C153** `C153_tuple_counterexample`: Witness against C153: `moments_mean[0, 1]` of a 2x2 array has the type of the moments of one entry and the moments of all four.
* **C154** `Process.C154_renew_counterexample`: Witness against C154: with the default of the base class every command renews failed samples.
* **C154** `Process.C154_root_counterexample`: Witness against C154: for a path that leads to the root directory the settings raise.
* **C154** `Process.C154_two_slashes_counterexample`: Witness against C154: for a path with two slashes at the beginning the settings are never found.
* **C155** `ExTime.C155_nan_counterexample`: C155: interpolating at a stored time is not the same as selecting it if the time before has a NaN: `interp1d` computes the value from both times, so the sample is dropped although its value at the stored time is there.
* **C156** `C156_narrow_counterexample`: C156: with a domain narrower than `1e-15` the moments depend on the unit: Legendre functions on (0, 1) map the upper bound to 1, on (0, 1e-16) to -4/5.
* **C157** `C157_domain_counterexample`: C157: with `safe_eval` and different domains the estimated moments do not determine each other: the samples 1/2 and 1/2, 3/2 have the same estimated moments with `Monomial(2, (0, 1))`, which drops 3/2, but different ones with `Monomial(2, (0, 2))`.
* **C158** `Fl.C158_fourier_counterexample`: C158: Fourier functions (reference domain from 0 to the double nearest to 2π) on the domain (0, 25) drop the sample 25 at the bound of their domain: its rounded position is above the upper bound of the reference domain.
* **C159** `C159_default_counterexample`: C159 fails without a quantile, for which the documentation promises the whole range: whenever the values are different and each pass reads two of them, some fine samples of level 0 are below the domain and some above it (the same holds for any positive quantile).
* **C159** `C159_counterexample`: C159 fails on three samples 1, 2, 3: without a quantile the domain is (1.02, 2.98), so that the moments are estimated from the sample 2 alone.
* **C161** `Alloc.C161_counterexample_monotone`: C161, what is not true: a smaller target variance does not always ask for more samples. If the optimum exceeds 64-bit integers, the result is 2 samples. One level with variance and cost 1: the target `1 / 10^18` asks for `10^18` samples (at least `10^18 - 1`), the target `1 / 10^19` for 2.
* **C162** `C162_counterexample_small_coefficient`: C162, what is not true: for a positive coefficient that is too small, rounding takes every step back. One sample scheduled, two wanted, coefficient 2^-54: no number of calls schedules another sample or returns `True`, whereas in exact arithmetic the first call reaches the estimate.

## Model files

| file | models | lines |
|------|--------|-------|
| Adaptive.lean | examples/shooting/shooting_1D.py, mlmc/sampler.py | 63 |
| AdaptiveStats.lean | mlmc/estimator.py | 33 |
| Allocation.lean | mlmc/estimator.py | 61 |
| Cache.lean | mlmc/quantity/quantity.py, mlmc/quantity/quantity_estimate.py | 101 |
| Constant.lean | mlmc/quantity/quantity.py | 73 |
| ConstructDensity.lean | mlmc/estimator.py, mlmc/moments.py, mlmc/quantity/quantity_estimate.py, mlmc/tool/simple_distribution.py | 96 |
| DensityFit.lean | mlmc/tool/distribution.py, mlmc/tool/simple_distribution.py | 73 |
| Dict.lean | mlmc/random/correlated_field.py, mlmc/sample_storage.py, mlmc/sampling_pool.py | 32 |
| Distribution.lean | mlmc/tool/distribution.py, mlmc/tool/simple_distribution.py | 48 |
| Divergence.lean | mlmc/tool/distribution.py, mlmc/tool/simple_distribution.py | 43 |
| Domain.lean | mlmc/estimator.py | 45 |
| Estimate.lean | mlmc/quantity/quantity.py, mlmc/quantity/quantity_estimate.py, mlmc/quantity/quantity_types.py | 136 |
| EstimateCalls.lean | mlmc/estimator.py, mlmc/quantity/quantity_estimate.py | 128 |
| Estimator.lean | mlmc/estimator.py | 48 |
| ExactMoments.lean | mlmc/tool/distribution.py, mlmc/tool/simple_distribution.py | 39 |
| Fields.lean | mlmc/random/correlated_field.py | 190 |
| FloatAdding.lean | mlmc/sampler.py | 27 |
| FloatAllocation.lean | mlmc/estimator.py | 42 |
| FloatEstimate.lean | mlmc/quantity/quantity.py, mlmc/quantity/quantity_estimate.py | 115 |
| FloatInitial.lean | mlmc/estimator.py, mlmc/sampler.py | 30 |
| FloatLevels.lean | mlmc/estimator.py | 23 |
| FloatMoments.lean | mlmc/moments.py | 51 |
| FloatVander.lean | mlmc/moments.py | 25 |
| FlowLevels.lean | mlmc/sampler.py, mlmc/tool/flow_mc.py | 89 |
| FlowSeed.lean | mlmc/random/correlated_field.py, mlmc/tool/flow_mc.py | 63 |
| FlowSim.lean | mlmc/tool/flow_mc.py, mlmc/tool/gmsh_io.py | 216 |
| FourierField.lean | mlmc/random/correlated_field.py | 57 |
| FracGeom.lean | mlmc/random/frac_geom.py | 104 |
| Gmsh.lean | mlmc/tool/gmsh_io.py | 269 |
| GsField.lean | mlmc/random/correlated_field.py | 53 |
| HdfObject.lean | mlmc/sample_storage_hdf.py, mlmc/tool/hdf5.py | 86 |
| IndexEllipsis.lean | mlmc/quantity/quantity.py, mlmc/quantity/quantity_types.py | 106 |
| Initial.lean | mlmc/sampler.py | 30 |
| KarhunenLoeve.lean | mlmc/random/correlated_field.py | 74 |
| LevelSamples.lean | mlmc/estimator.py, mlmc/quantity/quantity.py, mlmc/quantity/quantity_estimate.py, mlmc/sample_storage.py, mlmc/sample_storage_hdf.py, mlmc/sampler.py, mlmc/tool/hdf5.py | 99 |
| LogField.lean | mlmc/random/correlated_field.py | 12 |
| Memory.lean | mlmc/sample_storage.py, mlmc/sample_storage_hdf.py, mlmc/tool/hdf5.py | 143 |
| MomentArrays.lean | mlmc/moments.py, mlmc/quantity/quantity_estimate.py | 94 |
| Moments.lean | mlmc/moments.py | 204 |
| MomentsDer.lean | mlmc/moments.py | 35 |
| Orthogonal.lean | mlmc/tool/simple_distribution.py | 56 |
| Parallel.lean | mlmc/sampling_pool.py | 68 |
| Pbs.lean | mlmc/sampling_pool.py, mlmc/sampling_pool_pbs.py, mlmc/tool/pbs_job.py | 259 |
| PbsJob.lean | mlmc/sampling_pool_pbs.py, mlmc/tool/pbs_job.py | 136 |
| PbsRenew.lean | mlmc/sampler.py | 46 |
| PbsRestart.lean | mlmc/sampler.py, mlmc/sampling_pool_pbs.py | 45 |
| PbsScript.lean | mlmc/sampling_pool.py, mlmc/sampling_pool_pbs.py, mlmc/tool/pbs_job.py | 156 |
| PbsSessions.lean | mlmc/sampler.py, mlmc/sampling_pool_pbs.py | 76 |
| PbsSim.lean | mlmc/tool/pbs_job.py | 18 |
| PbsTorn.lean | mlmc/sampling_pool_pbs.py, mlmc/tool/pbs_job.py | 97 |
| PlotFigures.lean | mlmc/plot/plots.py | 283 |
| Plots.lean | mlmc/plot/plots.py | 147 |
| Polling.lean | mlmc/sampler.py | 39 |
| Pool.lean | mlmc/level_simulation.py, mlmc/sampling_pool.py | 183 |
| Process.lean | examples/shooting/shooting_1D.py, examples/shooting/shooting_2D.py, mlmc/tool/process_base.py, test/01_cond_field/process.py | 107 |
| Program.lean | mlmc/quantity/quantity.py, mlmc/quantity/quantity_estimate.py, mlmc/sample_storage.py, mlmc/sample_storage_hdf.py, mlmc/sampler.py, mlmc/sampling_pool.py, mlmc/tool/hdf5.py | 154 |
| ProgramMem.lean | mlmc/quantity/quantity.py, mlmc/quantity/quantity_estimate.py, mlmc/sample_storage.py, mlmc/sampler.py | 103 |
| ProgramPar.lean | mlmc/sampler.py, mlmc/sampling_pool.py | 174 |
| ProgramPbs.lean | mlmc/sampler.py, mlmc/sampling_pool.py, mlmc/sampling_pool_pbs.py, mlmc/tool/pbs_job.py | 122 |
| ProgramRestart.lean | mlmc/sampler.py, mlmc/sampling_pool.py | 39 |
| Qstat.lean | mlmc/sampling_pool_pbs.py, mlmc/tool/pbs_job.py | 69 |
| QuadCache.lean | mlmc/tool/distribution.py, mlmc/tool/simple_distribution.py | 55 |
| Quantity.lean | mlmc/moments.py, mlmc/quantity/quantity.py, mlmc/quantity/quantity_estimate.py, mlmc/quantity/quantity_types.py | 533 |
| RandomField.lean | mlmc/random/correlated_field.py | 153 |
| Reduce.lean | mlmc/quantity/quantity.py, mlmc/quantity/quantity_estimate.py | 59 |
| Regression.lean | mlmc/estimator.py | 43 |
| Renew.lean | mlmc/sampler.py | 32 |
| ResultFormat.lean | mlmc/quantity/quantity_spec.py, mlmc/sample_storage_hdf.py, mlmc/sampling_pool.py, mlmc/tool/hdf5.py | 136 |
| Sampler.lean | mlmc/level_simulation.py, mlmc/sampler.py | 180 |
| SeedRace.lean | mlmc/sampling_pool.py, mlmc/sim/synth_simulation.py | 82 |
| ShapedStore.lean | mlmc/sample_storage.py, mlmc/sample_storage_hdf.py, mlmc/sampling_pool.py, mlmc/tool/hdf5.py | 105 |
| Shooting.lean | examples/shooting/shooting_1D.py, examples/shooting/simulation_shooting_1D.py, examples/shooting/simulation_shooting_2D.py, mlmc/sampler.py | 97 |
| Slope.lean | mlmc/tool/simple_distribution.py | 109 |
| StagedFit.lean | mlmc/tool/distribution.py | 91 |
| StatsTests.lean | mlmc/tool/stats_tests.py | 49 |
| Storage.lean | mlmc/quantity/quantity.py, mlmc/quantity/quantity_spec.py, mlmc/sample_storage.py, mlmc/sample_storage_hdf.py, mlmc/sampling_pool.py, mlmc/tool/hdf5.py | 189 |
| StoreHistory.lean | mlmc/sample_storage.py, mlmc/sample_storage_hdf.py | 44 |
| StorePath.lean | mlmc/sample_storage_hdf.py, mlmc/sampler.py, mlmc/sampling_pool.py, mlmc/sampling_pool_pbs.py, mlmc/tool/hdf5.py | 115 |
| StoreText.lean | mlmc/sample_storage_hdf.py, mlmc/tool/hdf5.py | 82 |
| Subsample.lean | mlmc/estimator.py, mlmc/quantity/quantity.py | 70 |
| Substitute.lean | mlmc/tool/flow_mc.py | 52 |
| Synth.lean | mlmc/sim/synth_simulation.py | 67 |
| SynthWorkspace.lean | mlmc/sampling_pool.py, mlmc/sim/synth_simulation.py, mlmc/tool/pbs_job.py | 46 |
| Tag.lean | mlmc/sampler.py | 19 |
| TargetArrays.lean | mlmc/sampler.py | 115 |
| TimeNan.lean | mlmc/quantity/quantity_types.py | 10 |
| VarOfVar.lean | mlmc/estimator.py | 48 |
| Waiting.lean | mlmc/sample_storage.py, mlmc/sample_storage_hdf.py, mlmc/sampler.py | 39 |
| Workspace.lean | mlmc/level_simulation.py, mlmc/sampling_pool.py, mlmc/sim/synth_simulation.py, mlmc/tool/flow_mc.py | 151 |

## How the statements are tested

`seeded/LOG.jsonl` has one line per wrong program: a definition of the model is edited the way a bug would change the
code, everything depending on it is rebuilt, and the theorems that no longer prove are listed. A theorem may fail
because its own claim became false or because a helper lemma no longer proves; both are listed. Edits that no theorem noticed led to
new or stronger theorems (`theorems_tightened`), or carry a note why the claim is not affected.

## Not modelled

* Floating point rounding, overflow and the behaviour of NumPy on non-numeric data.
* The iterations of scipy's optimizers and the linear algebra routines (`eigh`, `rq`, `svd`, `lstsq`, quadrature): they are
  arguments of the model, constrained by the equations that define their results.
* The h5py/HDF5 binary format, YAML parsing, pickling, the operating system, the PBS server itself.
* Plotting: of `mlmc/plot/plots.py` the data handed to matplotlib are modelled (C143–C149), not the drawing, colours,
  the class `Aux` and the functions from line 810 on (figures of test runs), nor `violinplot.py`. The plotting methods of
  `Estimate` always raise: `plot_variances` because `est_bootstrap` does (C79), `plot_bs_var_log` because it reads attributes
  only a finished `est_bootstrap` would set, `fine_coarse_violinplot` because it gives `samples` an argument it does not have;
  `BSplots.plot_var_regression` passes moment functions as numbers of samples.
* `mlmc/tool/process_base.py` (uses an interface that no longer exists), the inside of GSTools (its results are arguments).
* Functions that always raise: `GmshIO.write_binary` (opens the file with mode `wr`), `GmshIO.read_element_data` (undefined
  names), the module-level `estimate_domain` of `estimator.py:344-363` (wrong arguments), `bs_target_var_n_estimated`.
* Functions no other code calls: `lsq_reconstruct`, `Distribution._calculate_exact_hessian`.
