{
 "claims": [
  {
   "property": "C01",
   "status": "proved",
   "theorems": [
    "GPry.Mpi.C01_split_number_balanced"
   ],
   "note": "All n, all p>=1."
  },
  {
   "property": "C02",
   "status": "proved",
   "theorems": [
    "GPry.Mpi.C02_step_split_merge"
   ],
   "note": "All lengths and process counts."
  },
  {
   "property": "C03",
   "status": "proved",
   "theorems": [
    "GPry.Mpi.C03_parallel_truth_eq_serial",
    "GPry.Spmd.C03_eval_truth_mpi"
   ],
   "note": "All point lists, functions and process counts; also as a program with its collective calls."
  },
  {
   "property": "C04",
   "status": "partial",
   "theorems": [
    "GPry.Mpi.C04_compute_y_parallel_eq_serial",
    "GPry.Mpi.C04_given_y_kept_partial",
    "GPry.Mpi.C04_no_mpi_crash",
    "GPry.Mpi.C04_one_process"
   ],
   "note": "Equality with serial evaluation proved; handing back given y is proved with MPI only, and proved to crash when mpi4py is missing."
  },
  {
   "property": "C05",
   "status": "proved",
   "theorems": [
    "GPry.Pre.C05_round_trip",
    "GPry.Pre.C05_inverse_round_trip",
    "GPry.Pre.C05_monotone",
    "GPry.Pre.C05_bounds",
    "GPry.Pre.C05_refused",
    "GPry.Pre.C05_zero_width_accepted",
    "GPry.Pre.C05_refused_but_stored",
    "GPry.Pre.C05_scale",
    "GPry.Pre.C05_refused_type"
   ],
   "note": "For lower < upper as stated; zero-width and refused bounds covered by extra theorems."
  },
  {
   "property": "C06",
   "status": "proved",
   "theorems": [
    "GPry.Pre.C06_fit_on_transformed",
    "GPry.Pre.C06_fit_stages",
    "GPry.Pre.C06_inv_tr",
    "GPry.Pre.C06_tr_inv",
    "GPry.Pre.C06_scale_round_trip",
    "GPry.Pre.C06_scale_law",
    "GPry.Pre.C06_scale_factors"
   ],
   "note": ""
  },
  {
   "property": "C07",
   "status": "partial",
   "theorems": [
    "GPry.Pre.C07_strictMono",
    "GPry.Pre.C07_round_trip",
    "GPry.Pre.C07_scale",
    "GPry.Pre.C07_normalize_moments",
    "GPry.Pre.C07_chi2",
    "GPry.Pre.C07_median",
    "GPry.Pre.C07_median_counterexample",
    "GPry.Pre.C07_unfitted"
   ],
   "note": "Proved in standard mode and chi2 mode. In median mode centre and scale are median and inter-quartile range (C07_median), but the scale can be zero for data with positive spread, and then nothing is invertible (C07_median_counterexample)."
  },
  {
   "property": "C08",
   "status": "proved",
   "theorems": [
    "GPry.Pre.C08_round_trip",
    "GPry.Pre.C08_identity_covariance"
   ],
   "note": ""
  },
  {
   "property": "C09",
   "status": "partial",
   "theorems": [
    "GPry.Gpr.C09_raw_invariant",
    "GPry.Gpr.C09_max_is_finite",
    "GPry.Gpr.C09_fit_agrees",
    "GPry.Gpr.C09_assertion_never_fires",
    "GPry.Gpr.C09_nan_counterexample"
   ],
   "note": "Proved for targets that are real or -inf. With NaN targets, which the quantifier allows, the assertion does fire: C09_nan_counterexample."
  },
  {
   "property": "C10",
   "status": "partial",
   "theorems": [
    "GPry.Gpr.C10_training_partition",
    "GPry.Gpr.C10_infinite_complement",
    "GPry.Gpr.C10_infinite_stale_counterexample",
    "GPry.Gpr.C10_untrained_infinite",
    "GPry.Gpr.C10_no_classifier"
   ],
   "note": "Data and training set: full, for every successful history. The statement about the infinite set holds when the last call fitted the classifier and is false otherwise (C10_infinite_stale_counterexample)."
  },
  {
   "property": "C100",
   "status": "partial",
   "theorems": [
    "GPry.GprFit.C100_fit_partial",
    "GPry.GprFit.C100_not_worse",
    "GPry.GprFit.C100_infinite_bounds",
    "GPry.GprFit.C100_no_restarts_counterexample",
    "GPry.GprFit.C100_initial_counterexample",
    "GPry.GprFit.C100_nan_counterexample"
   ],
   "note": "Full specification for runs without NaN. Counterexamples: the default n_restarts_optimizer=0 does no run (and raises for a new regressor), the initial parameters of the kernel are never used, a NaN run wins."
  },
  {
   "property": "C101",
   "status": "partial",
   "theorems": [
    "GPry.GprFit.C101_init_iff",
    "GPry.GprFit.C101_init_values",
    "GPry.GprFit.C101_bounds_counterexample",
    "GPry.GprFit.C101_clip_counterexample",
    "GPry.GprFit.C101_no_threshold",
    "GPry.GprFit.C101_kernel_refused"
   ],
   "note": "Exact characterisation of the accepted arguments and the values set. Counterexamples: bounds and clip_factor=None are not optional; the default number of points to keep is at least 2."
  },
  {
   "property": "C102",
   "status": "partial",
   "theorems": [
    "GPry.GprFit.C102_is_finite_partial",
    "GPry.GprFit.C102_all_infinite_counterexample",
    "GPry.GprFit.C102_abs_threshold_counterexample",
    "GPry.GprFit.C102_abs_threshold_partial",
    "GPry.GprFit.C102_predict_counterexample",
    "GPry.GprFit.C102_predict_partial",
    "GPry.GprFit.C102_no_classifier",
    "GPry.GprFit.C102_abs_threshold_infinite"
   ],
   "note": "Classification agrees after refits with at least one finite target. Counterexamples: only -inf targets, absolute threshold with non-zero mean, predictions without classifier."
  },
  {
   "property": "C103",
   "status": "partial",
   "theorems": [
    "GPry.GprFit.C103_scales_partial",
    "GPry.GprFit.C103_scales_dummy_partial",
    "GPry.GprFit.C103_scales_counterexample"
   ],
   "note": "RBF and Matern with Normalize_bounds or no preprocessing. Fails for one dimension without preprocessing and for Whitening."
  },
  {
   "property": "C104",
   "status": "partial",
   "theorems": [
    "GPry.Cov.C104_ok_iff",
    "GPry.Cov.C104_mean_bounds",
    "GPry.Cov.C104_mean_bounds_unweighted",
    "GPry.Cov.C104_cov_partial",
    "GPry.Cov.C104_cov_unweighted_partial",
    "GPry.Cov.C104_single_counterexample",
    "GPry.Cov.C104_scale",
    "GPry.Cov.C104_zero_weights",
    "GPry.Cov.C104_equal_weights",
    "GPry.Cov.C104_perm",
    "GPry.Cov.C104_repeated",
    "GPry.Cov.C104_repeated_counterexample",
    "GPry.Cov.C104_units",
    "GPry.Cov.C104_evals",
    "GPry.Cov.C104_evals_shift",
    "GPry.Cov.C104_evals_neginf",
    "GPry.Cov.C104_evals_all_infinite_counterexample"
   ],
   "note": "The covariance is not finite if a single point has weight (every entry NaN, C104_single_counterexample), and mean and covariance are NaN if all log-posteriors are -inf; hence C104_cov_partial asks for two points with weight. Integer weights of a chain are not treated as repetitions (C104_repeated). Exact arithmetic; the exponential is any non-negative function, positive at 0."
  },
  {
   "property": "C105",
   "status": "partial",
   "theorems": [
    "GPry.Cov.C105_diagnosis",
    "GPry.Cov.C105_acquisition_failure",
    "GPry.Cov.C105_one_dimension_counterexample",
    "GPry.Cov.C105_train_counterexample",
    "GPry.Cov.C105_mpi",
    "GPry.Cov.C105_mpi_deadlock_counterexample"
   ],
   "note": "Proved for two or more parameters. With one parameter np.cov returns an array without dimensions: the diagnosis always raises (and hangs with several processes), and GaussianKLTrain never converges. The values of divergence and credibility are parameters."
  },
  {
   "property": "C106",
   "status": "proved",
   "theorems": [
    "GPry.Kernels.C106_kernel",
    "GPry.Kernels.C106_factor",
    "GPry.Kernels.C106_periodic_counterexample",
    "GPry.Kernels.C106_power_counterexample",
    "GPry.Kernels.C106_constant_counterexample"
   ],
   "note": "Exact real arithmetic; WhiteKernel is zero outside the diagonal of kernel(X), its diagonal only adds. Matern with other values of nu (Bessel functions) is not modelled. Three counterexamples outside of the class."
  },
  {
   "property": "C107",
   "status": "proved",
   "theorems": [
    "GPry.ConvMc.C107_reuse",
    "GPry.ConvMc.C107_reuse_bound",
    "GPry.ConvMc.C107_recorded",
    "GPry.ConvMc.C107_one_parameter",
    "GPry.ConvMc.C107_one_parameter_deadlock",
    "GPry.ConvMc.C107_all_rejected",
    "GPry.ConvMc.C107_reweighted_mean",
    "GPry.ConvMc.C107_per_sample_counterexample",
    "GPry.ConvMc.C107_proposal",
    "GPry.ConvMc.C107_cut",
    "GPry.ConvMc.C107_reuse_divergences",
    "GPry.ConvMc.C107_acquisition"
   ],
   "note": "The decision, the bound over the run, what is recorded and the weights are proved; the claims of the documentation that fail are shown false (counterexample, C107_one_parameter, C107_one_parameter_deadlock, C107_all_rejected). MCMC and predictions are inputs."
  },
  {
   "property": "C108",
   "status": "proved",
   "theorems": [
    "GPry.ConvInit.C108_policy",
    "GPry.ConvInit.C108_round",
    "GPry.ConvInit.C108_default_times_counterexample",
    "GPry.ConvInit.C108_both_draws",
    "GPry.ConvInit.C108_options_changed_counterexample",
    "GPry.ConvInit.C108_options_kept",
    "GPry.ConvInit.C108_tolerance",
    "GPry.ConvInit.C108_training_part",
    "GPry.ConvInit.C108_small_fraction_counterexample",
    "GPry.ConvInit.C108_history",
    "GPry.ConvInit.C108_zero_times",
    "GPry.ConvInit.C108_dont_converge",
    "GPry.ConvInit.C108_zero_draws"
   ],
   "note": "The claims of the documentation that fail are shown false (counterexamples, C108_zero_times). int() of strings, float() and the number of standard deviations are inputs."
  },
  {
   "property": "C109",
   "status": "partial",
   "theorems": [
    "GPry.GprAttr.C109_trust_current",
    "GPry.GprAttr.C109_refit",
    "GPry.GprAttr.C109_failed_counterexample"
   ],
   "note": "Proved for all successful histories. False for a call that raises while updating the model: the training set is already changed, the bounds are not (counterexample)."
  },
  {
   "property": "C11",
   "status": "proved",
   "theorems": [
    "GPry.Gpr.C11_keep_min_finite"
   ],
   "note": "Every successful history with targets that are real or -inf."
  },
  {
   "property": "C110",
   "status": "partial",
   "theorems": [
    "GPry.GprAttr.C110_y_max",
    "GPry.GprAttr.C110_n",
    "GPry.GprAttr.C110_table_partial",
    "GPry.GprAttr.C110_empty_counterexample",
    "GPry.GprAttr.C110_stale_counterexample",
    "GPry.Gpr.C110_fitted"
   ],
   "note": "n in general; y_max with at least one finite target (raises otherwise, although documented to fall back to minus infinity); the table after calls that refit the classifier (stale otherwise): counterexamples."
  },
  {
   "property": "C111",
   "status": "partial",
   "theorems": [
    "GPry.AcqObj.C111_equivalence",
    "GPry.AcqObj.C111_nan_counterexample",
    "GPry.AcqObj.C111_equal_value",
    "GPry.AcqObj.C111_operators",
    "GPry.AcqObj.C111_set_params",
    "GPry.AcqObj.C111_unknown",
    "GPry.AcqObj.C111_several",
    "GPry.AcqObj.C111_replaced_counterexample",
    "GPry.AcqObj.C111_booleans",
    "GPry.AcqObj.C111_number_operand"
   ],
   "note": "Trees without shared sub-objects; names of leaf parameters without double underscores. The part on giving an operand and its parameter together is false of the code (C111_replaced_counterexample); equality is not reflexive for NaN parameters (C111_nan_counterexample)."
  },
  {
   "property": "C112",
   "status": "partial",
   "theorems": [
    "GPry.AcqInit.C112_outcome",
    "GPry.AcqInit.C112_logExp",
    "GPry.AcqInit.C112_dimension",
    "GPry.AcqInit.C112_unknown",
    "GPry.AcqInit.C112_zeta",
    "GPry.AcqInit.C112_mutates_counterexample",
    "GPry.AcqInit.C112_names",
    "GPry.AcqInit.C112_names_counterexample",
    "GPry.AcqInit.C112_gradient",
    "GPry.AcqInit.C112_optimizer",
    "GPry.AcqInit.C112_optimizer_counterexample",
    "GPry.AcqInit.C112_xi",
    "GPry.AcqInit.C112_refused"
   ],
   "note": "Arguments are None, booleans or numbers. Four parts are false of the code: C112_mutates_counterexample, C112_names_counterexample, C112_optimizer_counterexample (two)."
  },
  {
   "property": "C113",
   "status": "proved",
   "theorems": [
    "GPry.KernelOps.C113_values",
    "GPry.KernelOps.C113_gradient",
    "GPry.KernelOps.C113_pow_gradient_counterexample",
    "GPry.KernelOps.C113_pow_order_counterexample"
   ],
   "note": "Proved for + and *; exact condition on the order of the operands under which ** gives the right values; negation for the gradient of every power and for the other orders"
  },
  {
   "property": "C114",
   "status": "proved",
   "theorems": [
    "GPry.Prior.C114_law",
    "GPry.Prior.C114_normalised",
    "GPry.Prior.C114_inside",
    "GPry.Prior.C114_reference",
    "GPry.Prior.C114_reference_counterexample",
    "GPry.Prior.C114_reference_accepted",
    "GPry.Prior.C114_infinite_counterexample"
   ],
   "note": "Law, normalisation and support proved; negation for reference bounds and for infinite bounds"
  },
  {
   "property": "C115",
   "status": "partial",
   "theorems": [
    "GPry.Slices.C115_slices",
    "GPry.Slices.C115_default",
    "GPry.Slices.C115_grid",
    "GPry.Slices.C115_dict_counterexample",
    "GPry.Slices.C115_negative_counterexample",
    "GPry.Slices.C115_reference",
    "GPry.Slices.C115_reference_list",
    "GPry.Slices.C115_reference_again",
    "GPry.Slices.C115_mutates_counterexample",
    "GPry.Slices.C115_getdist_counterexample",
    "GPry.Slices.C115_sci",
    "GPry.Slices.C115_sci_plain",
    "GPry.Slices.C115_sci_zero_counterexample",
    "GPry.Slices.C115_refused",
    "GPry.Slices.C115_empty_dict"
   ],
   "note": "Proved for the list form with non-negative indices, for dictionaries and lists as reference and for numerals with sign in the exponent; the dictionary form, negative indices, the dictionary of the caller, GetDist missing and exponent zero are false, with witnesses."
  },
  {
   "property": "C116",
   "status": "partial",
   "theorems": [
    "GPry.Gather.C116_gather",
    "GPry.Gather.C116_gather_counterexample",
    "GPry.Gather.C116_share",
    "GPry.Gather.C116_mean_cov_partial",
    "GPry.Gather.C116_convergence_counterexample"
   ],
   "note": "Gathering and sharing proved for any number of processes. The fallback to the convergence criteria of update_mean_cov is false, with witness."
  },
  {
   "property": "C117",
   "status": "partial",
   "theorems": [
    "GPry.Chain.C117_chain_partial",
    "GPry.Chain.C117_within",
    "GPry.Chain.C117_once",
    "GPry.Chain.C117_update",
    "GPry.Chain.C117_fallback",
    "GPry.Chain.C117_raises",
    "GPry.Chain.C117_last_counterexample"
   ],
   "note": "All parts but one proved; the proposals of a chain are every nsteps-th point, not the nsteps last ones (C117_last_counterexample, C117_chain_partial says which ones)."
  },
  {
   "property": "C118",
   "status": "partial",
   "theorems": [
    "GPry.McCobaya.C118_level",
    "GPry.McCobaya.C118_level_ok",
    "GPry.McCobaya.C118_input",
    "GPry.McCobaya.C118_case_counterexample",
    "GPry.McCobaya.C118_case_partial",
    "GPry.McCobaya.C118_cov_partial",
    "GPry.McCobaya.C118_conv_counterexample",
    "GPry.McCobaya.C118_cov_params",
    "GPry.McCobaya.C118_info_counterexample",
    "GPry.McCobaya.C118_output",
    "GPry.McCobaya.C118_refused",
    "GPry.McCobaya.C118_none_counterexample",
    "GPry.McCobaya.C118_level_strict"
   ],
   "note": "False in four points: case of the name (C118_case_counterexample), matrix of the convergence criteria (C118_conv_counterexample), key of the returned input (C118_info_counterexample), verbose=None (C118_none_counterexample); the rest is proved."
  },
  {
   "property": "C119",
   "status": "partial",
   "theorems": [
    "GPry.Cost.C119_timer",
    "GPry.Cost.C119_batch_one",
    "GPry.Cost.C119_copies_counterexample",
    "GPry.Cost.C119_acquire_partial",
    "GPry.Cost.C119_acquire_counterexample",
    "GPry.Cost.C119_fit_partial"
   ],
   "note": "TimerCounter and one process proved; false with several processes (C119_acquire_counterexample, C119_acquire_partial gives what is reported; C119_fit_partial) and for copies whose counter is not passed back (C119_copies_counterexample)."
  },
  {
   "property": "C12",
   "status": "partial",
   "theorems": [
    "GPry.Gpr.C12_last_appended_partial",
    "GPry.Gpr.C12_last_appended_finite_partial",
    "GPry.Gpr.C12_empty_batch_counterexample"
   ],
   "note": "True for non-empty batches (with at least one finite point, for the finite variant); false otherwise, witness given."
  },
  {
   "property": "C120",
   "status": "partial",
   "theorems": [
    "GPry.RunnerOut.C120_logL_partial",
    "GPry.RunnerOut.C120_cobaya",
    "GPry.RunnerOut.C120_outside_counterexample",
    "GPry.RunnerOut.C120_many_counterexample",
    "GPry.RunnerOut.C120_log",
    "GPry.RunnerOut.C120_banner_text",
    "GPry.RunnerOut.C120_banner_box",
    "GPry.RunnerOut.C120_paths",
    "GPry.RunnerOut.C120_paths_again",
    "GPry.RunnerOut.C120_parents",
    "GPry.RunnerOut.C120_plots_inside"
   ],
   "note": "logL is false of lists of points (raises ValueError) and of points outside of the bounds (+inf or NaN): C120_many_counterexample, C120_outside_counterexample; the rest holds."
  },
  {
   "property": "C121",
   "status": "partial",
   "theorems": [
    "GPry.NoraSpmd.C121_multi_add_partial",
    "GPry.NoraSpmd.C121_bounds_counterexample",
    "GPry.NoraSpmd.C121_refused"
   ],
   "note": "Holds except when the sample reused has no point within new bounds: then the main process raises (max of an empty array) and the others wait forever (C121_bounds_counterexample). NaN and +inf acquisition values are excluded."
  },
  {
   "property": "C122",
   "status": "partial",
   "theorems": [
    "GPry.NsRun.C122_draw",
    "GPry.NsRun.C122_polychord",
    "GPry.NsRun.C122_ultranest",
    "GPry.NsRun.C122_keep_all_partial",
    "GPry.NsRun.C122_keep_all_counterexample",
    "GPry.NsRun.C122_unknown",
    "GPry.NsRun.C122_argument_counterexample",
    "GPry.NsRun.C122_verbosity",
    "GPry.NsRun.parse_rows",
    "GPry.NsRun.parse_bad",
    "GPry.NsRun.nessai_rows"
   ],
   "note": "Proved for the sampler chosen at initialisation. False of the sampler argument of do_MC_sample, which does not select the interface (wrong sampler, AttributeError, or deadlock: C122_argument_counterexample), and of keep_all when some process has evaluated nothing (C122_keep_all_counterexample). A PolyChord table of one row is read as arrays of lower dimension (parse_bad)."
  },
  {
   "property": "C123",
   "status": "proved",
   "theorems": [
    "GPry.Cred.C123_radius",
    "GPry.Cred.C123_one_dim",
    "GPry.Cred.C123_mono",
    "GPry.Cred.C123_dim",
    "GPry.Cred.C123_nan",
    "GPry.Cred.C123_delta_logp",
    "GPry.Cred.C123_volume",
    "GPry.Cred.nstd_zero"
   ],
   "note": "Exact arithmetic. SciPy's erfc and chi2 are taken by their mathematical definitions; the warning for infinite results is not modelled."
  },
  {
   "property": "C124",
   "status": "partial",
   "theorems": [
    "GPry.Align.C124_mass",
    "GPry.Align.C124_range",
    "GPry.Align.C124_mono",
    "GPry.Align.C124_affine",
    "GPry.Align.C124_stored",
    "GPry.Align.C124_failure",
    "GPry.Align.C124_window_partial",
    "GPry.Align.C124_window_counterexample"
   ],
   "note": "Everything but the fraction of the training set is proved without restriction; the slice [-int(n*frac):] is the documented one only if int(n*frac) is at least 1 (C124_window_partial); for smaller fractions all points are used (C124_window_counterexample)."
  },
  {
   "property": "C125",
   "status": "proved",
   "theorems": [
    "GPry.Gp.C125_conditional"
   ],
   "note": "The Cholesky factorisation is assumed to return a factor of the kernel matrix (it raises otherwise). The prediction is the one of the surrogate without the classifier of infinities and without the floor at zero noise variance."
  },
  {
   "property": "C126",
   "status": "partial",
   "theorems": [
    "GPry.Acq.C126_expectation",
    "GPry.Acq.C126_zero_std",
    "GPry.Acq.C126_bounds",
    "GPry.Acq.C126_order",
    "GPry.Acq.C126_gradient_wrong"
   ],
   "note": "The value is proved to be the expectation for positive standard deviations. At zero standard deviation it is so only for means of at most y_max + xi (exact characterisation proved), and the gradient is wrong wherever the mean has a slope (exact characterisation proved)."
  },
  {
   "property": "C127",
   "status": "partial",
   "theorems": [
    "GPry.Input.C127_rows",
    "GPry.Input.C127_one",
    "GPry.Input.C127_three_counterexample",
    "GPry.Input.C127_reference_float",
    "GPry.Input.C127_reference_partial",
    "GPry.Input.C127_reference_counterexample",
    "GPry.Input.C127_covmat",
    "GPry.Input.C127_covmat_partial",
    "GPry.Input.C127_covmat_counterexample"
   ],
   "note": "Bounds: proved for lists of rows; arrays with three dimensions are accepted (C127_three_counterexample). Reference bounds: proved if some prior bound is a floating point number; if all are integers the fractional parts of the reference bounds are lost (C127_reference_partial, C127_reference_counterexample). Covariance matrices: proved for symmetric matrices; asymmetry within the tolerance is accepted (C127_covmat_counterexample)."
  },
  {
   "property": "C128",
   "status": "partial",
   "theorems": [
    "GPry.Corner.C128_all",
    "GPry.Corner.C128_exact",
    "GPry.Corner.C128_missing",
    "GPry.Corner.C128_range_counterexample",
    "GPry.Corner.C128_inverted_counterexample",
    "GPry.Corner.C128_filled",
    "GPry.Corner.C128_params",
    "GPry.Corner.C128_bounds_partial",
    "GPry.Corner.C128_bounds_counterexample",
    "GPry.Corner.C128_bounds_no_params",
    "GPry.Corner.C128_training",
    "GPry.Corner.C128_training_label",
    "GPry.Corner.C128_surrogate",
    "GPry.Corner.C128_no_samples",
    "GPry.Corner.C128_additional",
    "GPry.Corner.C128_logpost_counterexample"
   ],
   "note": "Options, parameters, samples and training points proved for all inputs. Three documented claims are false and refuted by witnesses; C128_bounds_partial holds when all parameters are in the last sample."
  },
  {
   "property": "C129",
   "status": "partial",
   "theorems": [
    "GPry.DistHist.C129_number",
    "GPry.DistHist.C129_density_partial",
    "GPry.DistHist.C129_density_error",
    "GPry.DistHist.C129_density_counterexample",
    "GPry.DistHist.C129_empty",
    "GPry.DistHist.C129_stacked",
    "GPry.DistHist.C129_stacked_number"
   ],
   "note": "Number of points and stacks proved for all inputs; density proved unless the largest distance is an integer, where the code raises IndexError (C129_density_error)."
  },
  {
   "property": "C13",
   "status": "partial",
   "theorems": [
    "GPry.Gpr.C13_aligned_partial",
    "GPry.Gpr.C13_pointwise_noise_never_works",
    "GPry.Gpr.C13_validation_atomic_partial",
    "GPry.Gpr.C13_pointwise_noise_counterexample",
    "GPry.Gpr.C13_not_atomic_counterexample",
    "GPry.Gpr.C13_scalar_noise",
    "GPry.Gpr.C13_noise_finite",
    "GPry.Gpr.C13_wrong_length"
   ],
   "note": "Aligned if the noise was an array from the start; false for scalar start (proved in general). Refused calls change nothing; calls failing later do."
  },
  {
   "property": "C130",
   "status": "partial",
   "theorems": [
    "GPry.Fig.C130_labels",
    "GPry.Fig.C130_func_partial",
    "GPry.Fig.C130_func_counterexample",
    "GPry.Fig.C130_slices_partial",
    "GPry.Fig.C130_slices_counterexample",
    "GPry.Fig.C130_alpha_partial",
    "GPry.Fig.C130_alpha_zero",
    "GPry.Fig.C130_reference_partial",
    "GPry.Fig.C130_reference_counterexample",
    "GPry.Fig.C130_convergence",
    "GPry.Fig.C130_convergence_counterexample",
    "GPry.Fig.C130_no_points",
    "GPry.Fig.C130_no_points_counterexample"
   ],
   "note": "Labels and convergence history proved in general; slices proved for one slice of a function, for two or more parameters, and for reference points without zero coordinates; all other cases are shown to raise."
  },
  {
   "property": "C131",
   "status": "partial",
   "theorems": [
    "GPry.Fig.C131_bars",
    "GPry.Fig.C131_nan",
    "GPry.Fig.C131_resample_counterexample",
    "GPry.Fig.C131_ticks"
   ],
   "note": "Proved if all times are numbers except perhaps the last of convergence (C131_bars); otherwise the total is NaN (C131_nan), which happens after each repeated acquisition (C131_resample_counterexample). Ticks proved in general."
  },
  {
   "property": "C132",
   "status": "partial",
   "theorems": [
    "GPry.Fig.C132_grid",
    "GPry.Fig.C132_levels_partial",
    "GPry.Fig.C132_levels_counterexample",
    "GPry.Fig.C132_finite",
    "GPry.Fig.C132_std",
    "GPry.Fig.C132_flat_counterexample",
    "GPry.Fig.C132_std_range"
   ],
   "note": "Grid and the version for finite values proved in general; levels proved for values that are not negative, and shown to miss the extremes otherwise."
  },
  {
   "property": "C133",
   "status": "proved",
   "theorems": [
    "GPry.Spmd.C133_data_of_a_run",
    "GPry.Spmd.run_returns",
    "GPry.Spmd.initial_returns",
    "GPry.Spmd.C133_restarts"
   ],
   "note": "Partial correctness (runs that return); components that are not modelled (acquisition, callback, criteria, sampler) are assumed to end without exception."
  },
  {
   "property": "C134",
   "status": "partial",
   "theorems": [
    "GPry.Trace.C134_points",
    "GPry.Trace.C134_iterations",
    "GPry.Trace.C134_crosses",
    "GPry.Trace.C134_labels",
    "GPry.Trace.C134_sigmas",
    "GPry.Trace.C134_sigmas_nested",
    "GPry.Trace.C134_too_early",
    "GPry.Trace.C134_classifier_stale",
    "GPry.Trace.C134_classifier_untrained"
   ],
   "note": "Content of the panels, given gpr.scales, axis limits, the prepared reference and the convergence panel (C131) from outside; matplotlib rendering not modelled."
  },
  {
   "property": "C135",
   "status": "partial",
   "theorems": [
    "GPry.PlotProg.C135_names",
    "GPry.PlotProg.C135_files",
    "GPry.PlotProg.C135_raises",
    "GPry.PlotProg.C135_backend",
    "GPry.PlotProg.C135_samples",
    "GPry.PlotProg.C135_run",
    "GPry.PlotProg.C135_no_values_counterexample",
    "GPry.PlotProg.C135_label",
    "GPry.PlotProg.C135_markers"
   ],
   "note": "Drawing functions given from outside (their contents: C128, C130-C134); one negation: without values of the criterion the default call fails before the trace, which could be drawn (C135_no_values_counterexample)."
  },
  {
   "property": "C136",
   "status": "partial",
   "theorems": [
    "GPry.CobayaRun.C136_run_counterexample",
    "GPry.CobayaRun.C136_plots_counterexample",
    "GPry.CobayaRun.C136_run_partial",
    "GPry.CobayaRun.C136_format_counterexample",
    "GPry.CobayaRun.C136_products"
   ],
   "note": "False of the code: run never returns (last_mc_surr_info, last_mc_sampler are no attributes of Runner), do_plots always raises, the documented option format disables the plots. C136_run_partial: holds if the names existed."
  },
  {
   "property": "C137",
   "status": "partial",
   "theorems": [
    "GPry.Rng.C137_share",
    "GPry.Rng.C137_no_reuse",
    "GPry.Rng.C137_run",
    "GPry.Rng.C137_seed_counterexample",
    "GPry.Rng.C137_resume_counterexample",
    "GPry.Rng.C137_resume_partial",
    "GPry.Rng.C137_serial_counterexample",
    "GPry.Rng.C137_same_seed_counterexample",
    "GPry.Rng.C137_resume_global"
   ],
   "note": "Proved for runs with the default random state from their start and after the first exchange of a resumed one; negations proved for integer random_state, for the first fits of a resumed parallel run, for serial resuming and for resuming with the same seed. Generators passed as seed: C162. Missing: number of raw draws per call."
  },
  {
   "property": "C138",
   "status": "partial",
   "theorems": [
    "GPry.Diag.C138_others",
    "GPry.Diag.C138_classifier_counterexample",
    "GPry.Diag.C138_backend_counterexample",
    "GPry.Diag.C138_never_returns_counterexample",
    "GPry.Diag.C138_model_counterexample",
    "GPry.Diag.C138_backend_partial",
    "GPry.Diag.C138_member",
    "GPry.Diag.C138_member_counterexample",
    "GPry.Diag.C138_member_partial",
    "GPry.Diag.C138_sets_partial",
    "GPry.Diag.C138_sets_sound_partial",
    "GPry.Diag.C138_sets_counterexample",
    "GPry.Diag.C138_missing_counterexample",
    "GPry.Diag.C138_is_finite_counterexample",
    "GPry.Diag.C138_verdict",
    "GPry.Diag.C138_samples",
    "GPry.Diag.C138_trace_partial",
    "GPry.Diag.C138_mc_partial",
    "GPry.Diag.C138_bad_points",
    "GPry.Diag.C138_explained",
    "GPry.Diag.C138_flags",
    "GPry.Diag.C138_set_lines",
    "GPry.Diag.C138_question_counterexample",
    "GPry.Diag.C138_lines",
    "GPry.Diag.C138_lines_verdict"
   ],
   "note": "False of the code, negations proved. What remains: the backend is restored if the callback returns; verdicts are right for points that share no coordinates; the points listed in failed subtests are exactly those at which the classifications differ. False: the two questions about the training sets are answered with the opposite."
  },
  {
   "property": "C139",
   "status": "partial",
   "theorems": [
    "GPry.TruthCob.C139_names",
    "GPry.TruthCob.C139_outside_partial",
    "GPry.TruthCob.C139_outside_counterexample",
    "GPry.TruthCob.C139_volume_partial",
    "GPry.TruthCob.C139_volume_counterexample",
    "GPry.TruthCob.C139_logp",
    "GPry.TruthCob.C139_reload"
   ],
   "note": "Proved for bounded (respectively uniform) priors; negations with unbounded and with non-uniform priors. Cobaya's priors are given by what is assumed of them; external priors and the reference distribution are not modelled."
  },
  {
   "property": "C14",
   "status": "proved",
   "theorems": [
    "GPry.Predict.C14_predict",
    "GPry.Predict.C14_ceiling",
    "GPry.Predict.C14_returns",
    "GPry.Predict.C14_batch"
   ],
   "note": "For each point of any query list, with minus_inf_value = -inf (its value except inside one acquisition call). The SVM decision is any function of the transformed point."
  },
  {
   "property": "C140",
   "status": "partial",
   "theorems": [
    "GPry.BatchPre.C140_gradient",
    "GPry.BatchPre.C140_gradient_counterexample",
    "GPry.BatchPre.C140_gradient_mu",
    "GPry.BatchPre.C140_start",
    "GPry.BatchPre.C140_inside_partial",
    "GPry.BatchPre.C140_values",
    "GPry.BatchPre.C140_finite_partial",
    "GPry.BatchPre.C140_trust_counterexample",
    "GPry.BatchPre.C140_trust_region",
    "GPry.BatchPre.C140_infinite_counterexample",
    "GPry.BatchPre.C140_whiten_counterexample",
    "GPry.BatchPre.faithful_norm"
   ],
   "note": "Start, values and gradient (with the preprocessors of the surrogate) proved. Within the bounds only if the box of the optimiser transformed back is within them: with Normalize_bounds iff the bounds contain the prior, so false for the trust region that Runner passes; false with Whitening. Points with a finite value are within if the acquisition function is minus infinity out of them. The gradient is wrong by the width if only the surrogate normalises."
  },
  {
   "property": "C141",
   "status": "partial",
   "theorems": [
    "GPry.AcqPts.C141_pointwise",
    "GPry.AcqPts.C141_returns_iff",
    "GPry.AcqPts.C141_count",
    "GPry.AcqPts.C141_ei_partial",
    "GPry.AcqPts.C141_exponential",
    "GPry.AcqPts.C141_ei_counterexample",
    "GPry.AcqPts.C141_ei_sign",
    "GPry.AcqPts.C141_first_error",
    "GPry.AcqPts.C141_nonlinear",
    "GPry.AcqPts.C141_exponential_negative"
   ],
   "note": "Pointwise values, evaluation counts and the exact condition for returning are proved. False: ExponentialMu and ExponentialStd raise for more than one point; the expected improvement is NaN out of the trust region."
  },
  {
   "property": "C142",
   "status": "proved",
   "theorems": [
    "GPry.Gp.C142_mean",
    "GPry.Gp.C142_variance",
    "GPry.Gp.C142_lie_iff",
    "GPry.Gp.C142_at_point",
    "GPry.Gp.C142_order",
    "GPry.Gp.C142_batches"
   ],
   "note": "For the prediction without classifier, clipping and trust region; the Cholesky factorisation is assumed to return a factor. C16_clip_counterexample with C142_mean gives the change due to a clipped lie."
  },
  {
   "property": "C143",
   "status": "partial",
   "theorems": [
    "GPry.Shift.C143_append",
    "GPry.Shift.C143_history",
    "GPry.Shift.C143_observers",
    "GPry.Shift.C143_preprocessors",
    "GPry.Shift.C143_initial",
    "GPry.Shift.C143_loop_partial",
    "GPry.Shift.C143_counter",
    "GPry.Shift.C143_evals",
    "GPry.Shift.C143_trust",
    "GPry.Shift.C143_predict",
    "GPry.Shift.C143_std",
    "GPry.Shift.C143_gradient",
    "GPry.Shift.C143_acquisition",
    "GPry.Shift.C143_reweight",
    "GPry.Shift.C143_mu_counterexample",
    "GPry.Shift.C143_dummy_counterexample",
    "GPry.Shift.C143_ultranest_counterexample",
    "GPry.Spmd.C143_run_partial",
    "GPry.Batch.C143_batch",
    "GPry.PoolGp.C143_nora"
   ],
   "note": "Proved for the preprocessors of targets of the package, with a preprocessor of points that does not look at the targets, and an engine and criteria whose result the constant does not change (C143_loop_partial: one process; C143_run_partial: any number of processes that return, the initial points, the shared evaluations and the fits of the restarts included). Missing because false (counterexamples proved): without preprocessor of the targets the predictions far from the training points do not follow the constant; Mu (and ExponentialMu) take it up; with UltraNest the constant decides whether excluded points look better than the others. C143_batch: BatchOptimizer is such an engine, for acquisition functions that the constant does not change (C143_acquisition). C143_nora: so is NORA with the Gaussian process (predictions, acquisition function and the one conditioned to the points of the pool), if the sampler draws the same sample."
  },
  {
   "property": "C144",
   "status": "partial",
   "theorems": [
    "GPry.Units.C144_append",
    "GPry.Units.C144_history",
    "GPry.Units.C144_bounds",
    "GPry.Units.C144_preprocessors",
    "GPry.Units.C144_trust",
    "GPry.Units.C144_evals",
    "GPry.Units.C144_initial",
    "GPry.Units.C144_loop_partial",
    "GPry.Units.C144_predict",
    "GPry.Units.C144_std",
    "GPry.Units.C144_acquisition",
    "GPry.Units.C144_gradient_same",
    "GPry.Units.C144_gradient_counterexample",
    "GPry.Units.C144_proposal",
    "GPry.Units.C144_none_counterexample",
    "GPry.Round.C144_candidates_counterexample",
    "GPry.Input.C144_covmat_partial",
    "GPry.Input.C144_covmat_counterexample",
    "GPry.Spmd.C144_run_partial",
    "GPry.Batch.C144_batch",
    "GPry.PoolGp.C144_nora_partial",
    "GPry.PoolGp.C144_nora_counterexample"
   ],
   "note": "False of two parts: the gradients that predict returns are the same numbers in all units, so they are right in at most one of them (C144_gradient_counterexample), and with preprocessing_X=None predictions with the same hyperparameters depend on the units (C144_none_counterexample; also its hyperparameter bounds do not follow). C144_loop_partial (one process) and C144_run_partial (any number of processes that return, with the initial points, the shared evaluations and the fits of the restarts): the acquisition engine and the convergence criteria are assumed to follow the units. C144_proposal: raw draws that are checked against the bounds are assumed to come in the new units (numpy's multivariate_normal does so in distribution, not for the same random numbers). C144_batch: BatchOptimizer is such an engine, with any local optimiser, if the acquisition function follows the units (C144_acquisition). C144_nora_partial: so is NORA with the Gaussian process, if the sampler draws the same sample in the new units, and no point of a sample that is used again has all its coordinates among those of another one that has been proposed; without the latter it is false (C144_nora_counterexample)."
  },
  {
   "property": "C145",
   "status": "partial",
   "theorems": [
    "GPry.Round.C145_unit",
    "GPry.Round.C145_inverse",
    "GPry.Round.C145_roundtrip",
    "GPry.Round.C145_shrink",
    "GPry.Round.C145_uniform",
    "GPry.Round.C145_upper_counterexample"
   ],
   "note": "False at the upper bound: inverse_transform(1) can exceed it by one unit in the last place (C145_upper_counterexample). True of everything below: the transformation, the lower bound, uniform draws below 1 - 2^-p, and shrink_bounds."
  },
  {
   "property": "C146",
   "status": "partial",
   "theorems": [
    "GPry.Round.C146_margin",
    "GPry.Round.C146_keep",
    "GPry.Round.C146_keep64",
    "GPry.Round.C146_counterexample",
    "GPry.Round.C146_keep_counterexample",
    "GPry.Round.C146_exact"
   ],
   "note": "False for kept values that differ by 2.4e10 (C146_counterexample: the assertion of append_to_data fails with the default preprocessor). True without rounding (C146_exact), for values that are not too close to the threshold (C146_margin), and for the number of values kept in double precision if they differ by less than 2^33 (C146_keep64)."
  },
  {
   "property": "C147",
   "status": "partial",
   "theorems": [
    "GPry.Round.C147_ceil",
    "GPry.Round.C147_floor",
    "GPry.Round.C147_whole",
    "GPry.Round.C147_decimal_partial",
    "GPry.Round.C147_decimal_whole",
    "GPry.Round.C147_counterexample",
    "GPry.Round.C147_ceil_counterexample"
   ],
   "note": "Divisions are right below 2^53 (C147_ceil, C147_floor), and whole multiples of the dimension. False of decimal multiples whose product is a whole number (C147_counterexample: 8.2d in 15 dimensions is 122); the result is then the number or one less (C147_decimal_whole)."
  },
  {
   "property": "C148",
   "status": "partial",
   "theorems": [
    "GPry.Round.C148_roundtrip",
    "GPry.Round.C148_order",
    "GPry.Round.C148_ties_counterexample",
    "GPry.Round.C148_equal_counterexample",
    "GPry.Round.C148_two",
    "GPry.Round.C148_candidates",
    "GPry.Round.C148_tolerance_counterexample"
   ],
   "note": "Order, round trip and the first flag of check_candidates for distances of 0 or at least 1.1e-8 are proved. False: equal targets get a spread by rounding (C148_equal_counterexample), different targets can become equal (C148_ties_counterexample), points closer than the tolerance can be missed (C148_tolerance_counterexample)."
  },
  {
   "property": "C149",
   "status": "partial",
   "theorems": [
    "GPry.InitProp.C149_names",
    "GPry.InitProp.C149_other_names",
    "GPry.InitProp.C149_string_partial",
    "GPry.InitProp.C149_bounds",
    "GPry.InitProp.C149_meancov",
    "GPry.InitProp.C149_unknown_option",
    "GPry.InitProp.C149_none_counterexample",
    "GPry.InitProp.C149_meancov_counterexample",
    "GPry.InitProp.C149_lists_counterexample",
    "GPry.InitProp.C149_inside",
    "GPry.InitProp.C149_first",
    "GPry.InitProp.C149_disjoint_counterexample",
    "GPry.InitProp.C149_mean",
    "GPry.InitProp.C149_one_dimension_counterexample",
    "GPry.InitProp.C149_shapes",
    "GPry.InitProp.C149_no_bounds",
    "GPry.InitProp.C149_limits",
    "GPry.InitProp.C149_meancov_refused"
   ],
   "note": "False for: None as arguments of a name; the name 'meancov' alone; bounds as lists for the uniform proposer; bounds apart from those of the prior (the loop does not end); one dimension with the normal distribution (a proposal is a number, which the wrapped likelihood cannot unpack). Otherwise proved."
  },
  {
   "property": "C15",
   "status": "proved",
   "theorems": [
    "GPry.Predict.C15_predict_std",
    "GPry.Predict.C15_untrained"
   ],
   "note": "Same standard deviations for every state (fitted or not, classifier or not) and query list; same exception with an untrained classifier."
  },
  {
   "property": "C150",
   "status": "partial",
   "theorems": [
    "GPry.Order.C150_append",
    "GPry.Order.C150_history",
    "GPry.Order.C150_initial",
    "GPry.Order.C150_loop_partial",
    "GPry.Order.C150_bounds",
    "GPry.Order.C150_trust",
    "GPry.Order.C150_samples",
    "GPry.Order.C150_evals",
    "GPry.Order.C150_kernel",
    "GPry.Order.C150_kernel_gradient",
    "GPry.Order.C150_parts",
    "GPry.Order.C150_predict",
    "GPry.Order.C150_std",
    "GPry.Order.C150_gradient",
    "GPry.Order.C150_acquisition",
    "GPry.Order.C150_matrix",
    "GPry.Order.C150_preprocessors",
    "GPry.Order.C150_kl",
    "GPry.Order.C150_alignment",
    "GPry.Order.C150_distance_counterexample",
    "GPry.Spmd.C150_run_partial",
    "GPry.Batch.C150_batch",
    "GPry.PoolGp.C150_nora"
   ],
   "note": "False of gaussian_distance, whose value depends on the order of correlated parameters (C150_distance_counterexample). The optimiser of the hyperparameters is assumed to find the same maximum in the other order (C150_preprocessors: it sees the same objective), the decision function of the SVM is taken in the other order, and C150_loop_partial (one process) and C150_run_partial (any number of processes that return) take an engine and criteria that follow the order. C150_batch: BatchOptimizer is such an engine if the local optimiser follows the order. C150_nora: so is NORA with the Gaussian process, if the sampler draws the same sample in the other order."
  },
  {
   "property": "C151",
   "status": "partial",
   "theorems": [
    "GPry.Round.C151_determinants_counterexample",
    "GPry.Round.C151_units_counterexample",
    "GPry.Round.C151_never_counterexample",
    "GPry.Round.C151_range_partial",
    "GPry.Round.C151_one_sided_counterexample",
    "GPry.Round.C151_equal",
    "GPry.Round.C151_equal_counterexample",
    "GPry.Round.C151_constant_counterexample",
    "GPry.Round.C151_exact",
    "GPry.Round.C151_overflow"
   ],
   "note": "False: if both determinants underflow or overflow (20 parameters with standard deviation 1e-9) the divergence is NaN and GaussianKL never converges; this happens to any two distributions in small or large enough units; equal distributions can have a negative divergence, which raises at each call. True if the determinants are within range (C151_range_partial), up to the errors of LAPACK, which are given from outside."
  },
  {
   "property": "C152",
   "status": "partial",
   "theorems": [
    "GPry.Round.C152_infinite_counterexample",
    "GPry.Round.C152_all_finite_counterexample",
    "GPry.Round.C152_finite_partial"
   ],
   "note": "False from 39 standard deviations on: erfc underflows, radius and threshold are infinite and every number is classified as finite. True up to 38."
  },
  {
   "property": "C153",
   "status": "proved",
   "theorems": [
    "GPry.Gp.C153_repeated",
    "GPry.Gp.C153_same_noise",
    "GPry.Gp.C153_no_noise"
   ],
   "note": "Exact arithmetic; hyperparameters and preprocessors fixed, affine preprocessing_y."
  },
  {
   "property": "C154",
   "status": "proved",
   "theorems": [
    "GPry.Gp.C154_order",
    "GPry.Gp.C154_chain",
    "GPry.Gp.C154_repeated",
    "GPry.Gp.C154_fit",
    "GPry.Gp.C154_many",
    "GPry.Gp.C154_many_fit",
    "GPry.Gp.C154_sum"
   ],
   "note": "The formula of log_marginal_likelihood is scikit-learn's documented one, an assumption; exact arithmetic."
  },
  {
   "property": "C155",
   "status": "partial",
   "theorems": [
    "GPry.Round.C155_mask",
    "GPry.Round.C155_monotone",
    "GPry.Round.C155_exact",
    "GPry.Round.C155_underflow_counterexample",
    "GPry.Round.C155_ties_counterexample"
   ],
   "note": "True of the mask if the square of the noise level does not underflow (also for neighbouring numbers), and of the weak order in general. False: both squares underflow below 2^-538 (C155_underflow_counterexample); different standard deviations get equal values far below the largest target (C155_ties_counterexample). C155_exact ties it to the exact model. Squares are taken to be correctly rounded; no overflow."
  },
  {
   "property": "C156",
   "status": "partial",
   "theorems": [
    "GPry.ProgRun.C156_table",
    "GPry.ProgRun.C156_whole_run",
    "GPry.ProgRun.C156_same",
    "GPry.ProgRun.C156_skipped",
    "GPry.ProgRun.C156_skipped_counterexample",
    "GPry.ProgRun.C156_pretrained_counterexample",
    "GPry.ProgRun.C156_failed_fit"
   ],
   "note": "Proved for new surrogates, apart from the equality of the tables, which is proved for runs without retried acquisitions; negations for the rest (C156_skipped_counterexample, C156_pretrained_counterexample). C156_whole_run is for the modelled regressor, C156_table for any surrogate whose n_total grows by the number of points appended."
  },
  {
   "property": "C157",
   "status": "partial",
   "theorems": [
    "GPry.DataOrder.C157_append",
    "GPry.DataOrder.C157_history_partial",
    "GPry.DataOrder.C157_observed",
    "GPry.DataOrder.C157_training_set",
    "GPry.DataOrder.C157_regroup_partial",
    "GPry.DataOrder.C157_fit_y",
    "GPry.DataOrder.C157_linear_algebra",
    "GPry.DataOrder.C157_predict",
    "GPry.DataOrder.C157_trust",
    "GPry.DataOrder.C157_samples",
    "GPry.DataOrder.C157_evals",
    "GPry.DataOrder.C157_nan_counterexample",
    "GPry.DataOrder.C157_regroup_counterexample",
    "GPry.DataOrder.C157_counter_counterexample",
    "GPry.PoolGp.C157_surrogate",
    "GPry.PoolGp.C157_cond",
    "GPry.PoolGp.C157_nora",
    "GPry.Batch.C157_batch_partial",
    "GPry.Batch.C157_batch_counterexample",
    "GPry.PoolGp.C157_batch_gp_partial"
   ],
   "note": "False with NaN values, for calls that do not refit the preprocessors (division into calls), and for CorrectCounter; exact arithmetic; the optimiser of the hyperparameters is assumed not to depend on the order. NORA proposes the same batch (C157_nora). BatchOptimizer does not: its first optimisation starts from the last training point within the bounds (counterexample); with the same last point it does (C157_batch_partial; C157_batch_gp_partial with the Gaussian process, for optimisers that see the values of the acquisition function only)."
  },
  {
   "property": "C158",
   "status": "partial",
   "theorems": [
    "GPry.AcqPts.C158_given",
    "GPry.AcqPts.C158_between",
    "GPry.AcqPts.C158_documented_partial",
    "GPry.AcqPts.C158_documented_counterexample",
    "GPry.AcqPts.C158_blocked_counterexample",
    "GPry.Gpr.C158_infinite"
   ],
   "note": "False of the documented value: the code takes the mean of the levels, which is the documented root mean square only if all levels are equal (exact characterisation; otherwise smaller). False of the points: the levels of points classified as infinite count, and one with a large level makes the acquisition function minus infinity everywhere. The rest is proved. The array of levels is not empty."
  },
  {
   "property": "C159",
   "status": "partial",
   "theorems": [
    "GPry.Run.C159_during",
    "GPry.Run.C159_final_banner",
    "GPry.Run.C159_left_partial",
    "GPry.Run.C159_left_at_least",
    "GPry.Run.C159_left_counterexample",
    "GPry.Run.C159_giving_up_counterexample",
    "GPry.Run.C159_negative_counterexample",
    "GPry.Run.C159_evaluation",
    "GPry.Run.C159_fit_partial",
    "GPry.Run.C159_fit_counterexample",
    "GPry.Run.C159_initial_fit",
    "GPry.Run.C159_initial_partial",
    "GPry.Run.C159_initial_counterexample"
   ],
   "note": "Proved: what banners, evaluations, re-samplings and giving-up messages say about the messages before them, the final banner, the evaluation message, the announced number of iterations for full acquisitions and as a lower bound, the fit message iff all points are kept, the initial one without classifier. False of the code otherwise: counterexamples."
  },
  {
   "property": "C16",
   "status": "partial",
   "theorems": [
    "GPry.Gp.C16_kriging_believer_partial",
    "GPry.Gp.C16_clip_counterexample",
    "GPry.PoolGp.C16_predict_partial"
   ],
   "note": "Proved for the mean without clipping, trust region and classifier, with the lie equal to the mean. The lie of the code is the clipped prediction; C16_clip_counterexample shows the mean then changes. C16_predict_partial is about what predict returns after any number of lies, each predicted with the ones before it, where none has been clipped, without classifier and without the refit of the trust region: means are not lower, the same wherever they were not clipped, and standard deviations not larger."
  },
  {
   "property": "C160",
   "status": "partial",
   "theorems": [
    "GPry.GprLml.C160_fit_partial",
    "GPry.GprLml.C160_history_partial",
    "GPry.GprLml.C160_keep_iff",
    "GPry.GprLml.C160_counterexample"
   ],
   "note": "Right after every fit and, for any sequence of calls, equal to the value at the last fit; false after points are added without a fit (the difference is the log-density of the new values, see C154)."
  },
  {
   "property": "C161",
   "status": "partial",
   "theorems": [
    "GPry.Run.C161_continue_partial",
    "GPry.Run.C161_saved",
    "GPry.Run.C161_converged_counterexample",
    "GPry.Run.C161_fits_partial",
    "GPry.Run.C161_fits_only_if",
    "GPry.Run.C161_fits_default_iff",
    "GPry.Run.C161_never_full_counterexample",
    "GPry.Run.C161_number_of_fits"
   ],
   "note": "The loop itself continues (simulation, any number of iterations), given that the components answer as before. False of the schedule of the fits, since the counter of iterations restarts at 0: runs in short sessions never make a full fit; with the default period of simple fits it is right if and only if the interruption was after a multiple of the period. False of runs saved as converged. The end of a resumed run is C76, its random numbers C137."
  },
  {
   "property": "C162",
   "status": "partial",
   "theorems": [
    "GPry.Rng.C162_generator_counterexample",
    "GPry.Run.C162_warning_counterexample",
    "GPry.Run.C162_distinct_partial",
    "GPry.Run.C162_repeated_counterexample",
    "GPry.Run.C162_cannot_start_counterexample",
    "GPry.Rng.C162_generator_classifier"
   ],
   "note": "Points are different if different random numbers give different points and seeds are not generators (C162_distinct_partial with C137). False with a Generator as seed in several processes: all take the same numbers, p-1 in p evaluations are repetitions, and with at least as many processes as initial points the run cannot start. False of the warning, which is issued whenever there are two points."
  },
  {
   "property": "C163",
   "status": "partial",
   "theorems": [
    "GPry.Gpr.C163_kept_partial",
    "GPry.Gpr.C163_refit",
    "GPry.Gpr.C163_counterexample",
    "GPry.Gpr.C163_return_partial",
    "GPry.Gpr.C163_return_counterexample"
   ],
   "note": "False of the code by default; proved for fit_classifier=False, for calls with a fit, and for the value returned in the case without finite points."
  },
  {
   "property": "C164",
   "status": "partial",
   "theorems": [
    "GPry.Proposed.C164_nora",
    "GPry.Proposed.C164_batch_partial",
    "GPry.Proposed.C164_batch_counterexample",
    "GPry.Proposed.C164_other_counterexample"
   ],
   "note": "Proved for NORA. False of BatchOptimizer when no restart finds a finite acquisition value (it returns the last proposal), and with acquisition functions that are finite where the prediction is infinite."
  },
  {
   "property": "C165",
   "status": "partial",
   "theorems": [
    "GPry.Proposed.C165_values_partial",
    "GPry.Proposed.C165_sigma_n_counterexample",
    "GPry.Proposed.C165_array_counterexample",
    "GPry.Proposed.C165_zeta_counterexample",
    "GPry.Proposed.C165_one_noise_level",
    "GPry.Proposed.C165_comparisons"
   ],
   "note": "Proved for a single noise level, no sigma_n, positive zeta. False otherwise: sigma_n is ignored, arrays of noise levels raise, zeta = 0 gives NaN."
  },
  {
   "property": "C166",
   "status": "partial",
   "theorems": [
    "GPry.Again.C166_acquisition",
    "GPry.Again.C166_nora",
    "GPry.Again.C166_batch_partial",
    "GPry.Again.C166_lie_counterexample",
    "GPry.Again.C166_individual_counterexample",
    "GPry.Again.C166_sigma_n_counterexample",
    "GPry.Again.C166_where",
    "GPry.Again.C166_infinite_partial",
    "GPry.Again.C166_infinite_counterexample",
    "GPry.Again.C166_nora_infinite_counterexample"
   ],
   "note": "Proved for a single noise level and no sigma_n; false with one noise level per training point, with a sigma_n below the noise level and, for points of the same batch, if the lie is classified as infinite (counterexamples). For BatchOptimizer: unless the acquisition function is a number nowhere where it was evaluated. Points evaluated to minus infinity, or dropped from the training set: not proposed if the classifier takes them as infinite; false, with NORA as witness, if it takes them as finite. C166_where says where exactly the acquisition function is minus infinity."
  },
  {
   "property": "C167",
   "status": "partial",
   "theorems": [
    "GPry.PoolGp.C167_shrinks",
    "GPry.PoolGp.C167_lie",
    "GPry.PoolGp.C167_nora",
    "GPry.PoolGp.C167_classifier_counterexample",
    "GPry.PoolGp.C167_shrinks_classifier_partial",
    "GPry.PoolGp.C167_lie_classifier_partial",
    "GPry.PoolGp.C167_nora_classifier_partial",
    "GPry.PoolGp.C167_clip_one",
    "GPry.PoolGp.C167_nora_clip_one"
   ],
   "note": "for a single noise level, keep_min_finite at most 1, exact arithmetic; proved if the points of the training set stay in it when lies are appended, as without a classifier, and with a classifier if the lies are not above the best value of the training set (C167_shrinks_classifier_partial, C167_lie_classifier_partial; for NORA if no candidate is predicted above it, C167_nora_classifier_partial; clip_factor=1 ensures that, C167_clip_one, C167_nora_clip_one). False otherwise: a lie above the best value takes points out of the training set and the acquisition function grows at them; a lie further than the threshold below the best value does not enter and its point can be taken again"
  },
  {
   "property": "C168",
   "status": "partial",
   "theorems": [
    "GPry.Ranked.C168_greedy_partial",
    "GPry.Ranked.C168_same_partial",
    "GPry.Ranked.C168_counterexample",
    "GPry.NoraSpmd.C168_first",
    "GPry.Batch.C58_parallel"
   ],
   "note": "Missing because false (C168_counterexample): NORA with more candidates per process than points in the batch, beyond the first point. Acquisition values that are NaN or infinite are excluded; the random numbers of the processes are taken to be the same."
  },
  {
   "property": "C169",
   "status": "partial",
   "theorems": [
    "GPry.ConvSave.C169_saved",
    "GPry.ConvSave.C169_gaussian",
    "GPry.ConvSave.C169_original_counterexample",
    "GPry.ConvSave.mcmcOf_done"
   ],
   "note": "Proved but for the last clause, which is false: the likelihood stored in cobaya_input is replaced by True in the original (C169_original_counterexample: after every call that ran MCMC). That model.info() keeps the name of the likelihood, and that nothing else stored is a function, is assumed."
  },
  {
   "property": "C17",
   "status": "proved",
   "theorems": [
    "GPry.Gp.C17_variance_antitone",
    "GPry.Gp.C17_variance_nonneg",
    "GPry.Acq.C17_logexp"
   ],
   "note": "For every positive semidefinite kernel and every noise; the consequence is stated for any acquisition that is monotone in the standard deviation, and for LogExp itself (same mean, same noise level and baseline)."
  },
  {
   "property": "C170",
   "status": "partial",
   "theorems": [
    "GPry.Ranked.C170_copy",
    "GPry.Ranked.C170_length_counterexample",
    "GPry.Ranked.C170_full",
    "GPry.Ranked.C170_twice",
    "GPry.Ranked.C170_reset"
   ],
   "note": "Rows of the copy and copying again proved. False: a full pool keeps its buffer row in the copy (harmless in NORA, which takes the first n_points); of a pool that is not full, length and printed content of the copy leave out the last point, and the length of the copy of a pool without points raises ValueError (C170_length_counterexample). After reset_cache, points that go between others raise AttributeError; exactly these (C170_reset)."
  },
  {
   "property": "C171",
   "status": "partial",
   "theorems": [
    "GPry.PoolGp.C171_predictions_partial",
    "GPry.PoolGp.C171_counterexample",
    "GPry.PoolGp.C171_classifier_partial",
    "GPry.PoolGp.C171_first_partial",
    "GPry.PoolGp.C171_outside_counterexample"
   ],
   "note": "Proved without a classifier and trust region, for a single noise level and exact arithmetic, if nothing is clipped at the points of the batch; with a classifier, if the points are predicted infinite or below the best value; of the first point with the default clip_factor, clipped or not, if it is within the trust region. False otherwise (C171_counterexample): a clipped prediction changes the following ones; the copy has neither the clip_factor nor the trust region of the surrogate."
  },
  {
   "property": "C172",
   "status": "partial",
   "theorems": [
    "GPry.PoolGp.C172_counted_partial",
    "GPry.PoolGp.C172_counted_classifier_partial",
    "GPry.PoolGp.C172_clip_counterexample",
    "GPry.PoolGp.C172_outside_counterexample"
   ],
   "note": "Proved where nothing is clipped at the points of the batch, without a trust region, without (C172_counted_partial) or with (C172_counted_classifier_partial) a classifier. False in general: with another clip_factor a value predicted exactly resets the counter and a wrong prediction increases it (C172_clip_counterexample); a point outside of the trust region predicted to be minus infinity counts as predicted (C172_outside_counterexample, which in Runner needs an optimiser that leaves its bounds)."
  },
  {
   "property": "C173",
   "status": "proved",
   "theorems": [
    "GPry.Tools.C173_product",
    "GPry.Tools.C173_read",
    "GPry.Tools.C173_letter",
    "GPry.Tools.C173_int_counterexample"
   ],
   "note": "For dtype=float, the only use of get_Xnumber without the value of the unit. The same would be false of dtype=int, because the number is converted before it is multiplied (C173_int_counterexample)."
  },
  {
   "property": "C18",
   "status": "proved",
   "theorems": [
    "GPry.Gp.C18_residual",
    "GPry.Gp.C18_std"
   ],
   "note": "Residual identity and zero standard deviation, for every training set with an invertible kernel matrix."
  },
  {
   "property": "C19",
   "status": "partial",
   "theorems": [
    "GPry.Gpr.C19_factors_fresh_partial",
    "GPry.Gpr.C19_option_B_stale",
    "GPry.Gpr.C19_option_B_counterexample",
    "GPry.Gpr.C19_option_C_stale_counterexample"
   ],
   "note": "append_to_data keeps the factors fresh except the calls proved stale."
  },
  {
   "property": "C20",
   "status": "partial",
   "theorems": [
    "GPry.Copy.C20_independent_partial",
    "GPry.Copy.C20_faithful_partial",
    "GPry.Copy.C20_sharing_counterexample",
    "GPry.Predict.C20_std",
    "GPry.Predict.C20_trust_counterexample",
    "GPry.Predict.C20_clip_counterexample",
    "GPry.Copy.C20_faithful_iff"
   ],
   "note": "False: clip_factor and trust_bounds are not copied, preprocessors are shared (counterexamples). Proved: the standard deviations agree always, everything agrees with the default clip factor and no trust bounds, and histories are independent if nothing fits the preprocessors."
  },
  {
   "property": "C21",
   "status": "proved",
   "theorems": [
    "GPry.Trust.C21_trust",
    "GPry.Trust.C21_empty",
    "GPry.Trust.C21_no_factor"
   ],
   "note": "For every non-empty training set, every factor >= 1 and every threshold function that is monotone and unbounded (delta_logp_of_1d_nstd; chi2 and erfc of scipy are not modelled). Points outside the prior bounds, which cannot be in a training set of finite log-posteriors, are not covered by the bounds (C45)."
  },
  {
   "property": "C22",
   "status": "partial",
   "theorems": [
    "GPry.Ranked.C22_single_sorted",
    "GPry.Ranked.C22_bulk_sorted",
    "GPry.Ranked.C22_bulk_twice_counterexample",
    "GPry.Ranked.C22_bulk_increase_counterexample"
   ],
   "note": "Proved for one-by-one insertion for any conditioning (no NaN), and for bulk insertion into an empty pool when conditioning does not increase values. False for a bulk call on a non-empty pool (counterexample) and for bulk with increasing values (counterexample)."
  },
  {
   "property": "C23",
   "status": "proved",
   "theorems": [
    "GPry.Ranked.C23_any_history",
    "GPry.Ranked.C23_single_content",
    "GPry.Ranked.C23_bulk_content"
   ],
   "note": "Any history of successful additions, one by one or in bulk, to a pool with any content, for any conditioned acquisition function (C23_any_history; only that argsort returns a permutation is assumed). The state of the arrays after an exception in the middle of an addition is not modelled."
  },
  {
   "property": "C24",
   "status": "partial",
   "theorems": [
    "GPry.Ranked.C24_single_top",
    "GPry.Ranked.C24_bulk_top",
    "GPry.Ranked.C22_bulk_twice_counterexample",
    "GPry.Ranked.C24_bulk_infinite_counterexample"
   ],
   "note": "Proved for one-by-one insertion and for a bulk call on a new pool without infinite values; false for a second bulk call and for +inf values with bulk (counterexamples)."
  },
  {
   "property": "C25",
   "status": "partial",
   "theorems": [
    "GPry.Ranked.C25_add_succeeds",
    "GPry.Ranked.C25_single_shape",
    "GPry.Ranked.C25_bulk_shape",
    "GPry.Ranked.C24_bulk_infinite_counterexample"
   ],
   "note": "Proved for one-by-one insertion and for a bulk call on a new pool without infinite values; bulk with a +inf value leaves the pool empty (counterexample)."
  },
  {
   "property": "C26",
   "status": "partial",
   "theorems": [
    "GPry.Ranked.C26_bulk_greedy",
    "GPry.Ranked.C26_single_greedy_partial",
    "GPry.Ranked.C26_single_eq_bulk_partial",
    "GPry.Ranked.C26_single_not_greedy_counterexample",
    "GPry.Ranked.C168_counterexample"
   ],
   "note": "Bulk part proved in full; one-by-one = bulk proved when the candidates fit in the pool; false otherwise (counterexample; also in descending order of the values, the order that NORA uses: C168_counterexample)."
  },
  {
   "property": "C27",
   "status": "proved",
   "theorems": [
    "GPry.Ranked.C27_add_one_terminates"
   ],
   "note": "Any pool, any conditioned acquisition function including NaN."
  },
  {
   "property": "C28",
   "status": "proved",
   "theorems": [
    "GPry.Ranked.C28_merge",
    "GPry.Ranked.step_split_perm"
   ],
   "note": "Any number of processes and any distribution of the sample; acquisition values not NaN and not +inf. step_split_perm: the distribution made by step_split loses and repeats nothing."
  },
  {
   "property": "C29",
   "status": "partial",
   "theorems": [
    "GPry.Nora.C29_candidates_partial",
    "GPry.Nora.C29_one_dim",
    "GPry.Nora.C29_swapped_counterexample",
    "GPry.Nora.C29_history_partial",
    "GPry.Nora.C29_twice_counterexample"
   ],
   "note": "False in two or more dimensions when a sample row is made of coordinates of another proposed point (np.isin works coordinate by coordinate): counterexamples for one call and for a history. Proved without that coincidence and without repeated rows, for single calls and along histories; in one dimension only repeated rows are excluded."
  },
  {
   "property": "C30",
   "status": "partial",
   "theorems": [
    "GPry.Nora.C30_reweight_partial",
    "GPry.Nora.C30_last",
    "GPry.Nora.C30_shown",
    "GPry.Nora.C30_old_infinite_counterexample",
    "GPry.Nora.C30_new_infinite_counterexample",
    "GPry.Nora.C30_no_points"
   ],
   "note": "Proved for finite old values, new values finite or minus infinity, at least one point kept; repeated reweighting equals the last one. False (NaN weights) if an old value is minus infinity or if all new values are; if no point is within bounds it raises. Exact arithmetic."
  },
  {
   "property": "C31",
   "status": "proved",
   "theorems": [
    "GPry.Nora.C31_schedule",
    "GPry.Nora.C31_window",
    "GPry.Nora.C31_zero"
   ],
   "note": "For every m >= 1 and every history; m = 0 raises."
  },
  {
   "property": "C32",
   "status": "proved",
   "theorems": [
    "GPry.Run.C32_terminates_within_budget",
    "GPry.Run.C32_whole_run",
    "GPry.Spmd.C54_loop_mpi"
   ],
   "note": "Loop in general (any surrogate whose n_total grows by the number of accepted candidates) and, in C32_whole_run, a whole run (initial training plus loop) with the modelled regressor. C54_loop_mpi: the loop of p processes is this one."
  },
  {
   "property": "C33",
   "status": "proved",
   "theorems": [
    "GPry.Run.C33_exit_reasons"
   ],
   "note": ""
  },
  {
   "property": "C34",
   "status": "proved",
   "theorems": [
    "GPry.Run.C34_policies",
    "GPry.Run.C34_order_irrelevant",
    "GPry.Run.C34_monitors_irrelevant",
    "GPry.Run.C34_dont_converge"
   ],
   "note": "Includes a criterion that raises counting as not fulfilled."
  },
  {
   "property": "C35",
   "status": "proved",
   "theorems": [
    "GPry.Conv.C35_correct_counter",
    "GPry.Conv.C35_exceptions"
   ],
   "note": "for every history of batches on which the call does not fail; which calls fail is C35_exceptions"
  },
  {
   "property": "C36",
   "status": "partial",
   "theorems": [
    "GPry.Conv.C36_gaussian_kl",
    "GPry.Conv.C36_train_partial",
    "GPry.Conv.C36_train_counterexample"
   ],
   "note": "proved for GaussianKL (limit_times >= 1); GaussianKLTrain and TrainAlignment accept fewer than limit_times calls: the first call can return true (counterexample), the _partial theorem says exactly which values are required"
  },
  {
   "property": "C37",
   "status": "partial",
   "theorems": [
    "GPry.Spmd.C37_aware",
    "GPry.Spmd.C37_not_aware",
    "GPry.Spmd.C37_check_convergence",
    "GPry.Spmd.C37_mean_cov_from_acquisition",
    "GPry.Spmd.C37_mean_cov_from_mc_partial",
    "GPry.Spmd.C37_other_exception_deadlocks",
    "GPry.Spmd.C37_main_exception_deadlocks",
    "GPry.Spmd.C37_mc_comparison_deadlocks"
   ],
   "note": "Programs of all processes with their collective calls. Holds for ConvergenceCheckError (aware criteria, criteria of the main process, combination of all criteria). False for any other exception in one process, and for the comparison in _get_new_mean_and_cov_from_mc (deadlocks proved)."
  },
  {
   "property": "C38",
   "status": "partial",
   "theorems": [
    "GPry.Run.C38_schedule_partial",
    "GPry.Run.C38_skipped_counterexample"
   ],
   "note": "Scheduled kind of fit: once per block (full), once per block unless replaced by a full one (simple), restarts of a full fit add up. False that it always takes place: the fit is skipped if the acquisition was insufficient (counterexample)."
  },
  {
   "property": "C39",
   "status": "proved",
   "theorems": [
    "GPry.Run.C39_best_process",
    "GPry.Spmd.C39_fit_mpi"
   ],
   "note": "Choice of the rank that broadcasts its surrogate; also as a program with its collective calls."
  },
  {
   "property": "C40",
   "status": "partial",
   "theorems": [
    "GPry.Truth.C40_bounds_partial",
    "GPry.Truth.C40_infinite_counterexample",
    "GPry.Truth.C40_unbounded_counterexample",
    "GPry.Truth.C40_width_counterexample",
    "GPry.Truth.C40_exchanged"
   ],
   "note": "finite bounds with lower < upper; with an infinite bound nothing is ever evaluated (C40_infinite_counterexample); function likelihoods; for Cobaya models see C139"
  },
  {
   "property": "C41",
   "status": "partial",
   "theorems": [
    "GPry.Truth.C41_values_partial",
    "GPry.Truth.C41_refused",
    "GPry.Truth.C41_reload_partial",
    "GPry.Truth.C41_truth_partial",
    "GPry.Truth.C41_reload_counterexample",
    "GPry.Truth.C41_vector_counterexample",
    "GPry.Truth.C41_option_counterexample",
    "GPry.Truth.C41_keyword_counterexample",
    "GPry.Truth.C41_defaults",
    "GPry.Truth.C41_varargs_counterexample"
   ],
   "note": "true in two or more dimensions for functions of exactly d positional parameters or of exactly one vector; false in one dimension (vector functions get a number, a reloaded truth raises TypeError at every point), for a vector function with an optional parameter in two dimensions, and for keyword-only parameters (counterexamples)"
  },
  {
   "property": "C42",
   "status": "partial",
   "theorems": [
    "GPry.Io.C42_crash_partial",
    "GPry.Io.C42_first",
    "GPry.Io.C42_mixed_counterexample"
   ],
   "note": "files are written one after the other, in place: a crash can leave a mixture that is loaded without complaint (counterexample for any two checkpoints); partial: a mixture is always a new beginning and an old rest, or resuming fails; the first save into an empty directory is crash consistent"
  },
  {
   "property": "C43",
   "status": "partial",
   "theorems": [
    "GPry.Io.C43_read_back",
    "GPry.Io.C43_never_none",
    "GPry.Io.C43_runner",
    "GPry.Io.C43_ensure_partial",
    "GPry.Io.C43_empty_options_counterexample",
    "GPry.Io.C43_no_truth"
   ],
   "note": "proved for save_checkpoint / read_checkpoint / Runner.save_checkpoint; ensure_gpr ignores an empty dictionary of options passed by the caller (counterexample)"
  },
  {
   "property": "C44",
   "status": "partial",
   "theorems": [
    "GPry.Proposal.C44_inside_partial",
    "GPry.Proposal.C44_first_inside",
    "GPry.Proposal.C44_partial_counterexample",
    "GPry.Proposal.C44_centroids_order",
    "GPry.Proposal.C44_centroids"
   ],
   "note": "true once update_bounds was called; a new PartialProposer does not pass its bounds on to the true proposer (counterexample). Exact arithmetic for the uniform proposer"
  },
  {
   "property": "C45",
   "status": "partial",
   "theorems": [
    "GPry.Tools.C45_shrink_partial",
    "GPry.Tools.C45_inverted_counterexample",
    "GPry.Tools.C45_empty"
   ],
   "note": "Holds when some sample is within the bounds (factor at least 1): nested, contains the samples, monotone in the factor, lower <= upper. False when all samples are outside: lower > upper. Without samples: ValueError instead of the documented TypeError."
  },
  {
   "property": "C46",
   "status": "proved",
   "theorems": [
    "GPry.Tools.C46_closed_box",
    "GPry.Tools.C46_coordinates"
   ],
   "note": ""
  },
  {
   "property": "C47",
   "status": "partial",
   "theorems": [
    "GPry.Tools.C47_in_training",
    "GPry.Tools.C47_filter_partial",
    "GPry.Tools.C47_one_dimension",
    "GPry.Tools.C47_fresh_dropped_counterexample",
    "GPry.Tools.C47_infinite_counterexample"
   ],
   "note": "Proved: no training point and no duplicate survives the filter, a repeated candidate is kept once, exact in one dimension. False: points already found infinite are proposed again; a fresh point whose coordinates appear in repeated candidates is dropped."
  },
  {
   "property": "C48",
   "status": "partial",
   "theorems": [
    "GPry.Tools.C48_value",
    "GPry.Tools.C48_plain",
    "GPry.Tools.C48_errors",
    "GPry.Tools.C48_overflow_counterexample",
    "GPry.Tools.C48_not_finite",
    "GPry.Tools.C48_finite",
    "GPry.Tools.C48_plain_finite"
   ],
   "note": "Everything except the last clause: an infinite value with integer type raises OverflowError, not ValueError."
  },
  {
   "property": "C49",
   "status": "proved",
   "theorems": [
    "GPry.Tools.C49_remove",
    "GPry.Tools.C49_length_mismatch",
    "GPry.Tools.C49_weighted_sum"
   ],
   "note": "For weights that are not negative, non-zero is the same as positive."
  },
  {
   "property": "C50",
   "status": "proved",
   "theorems": [
    "GPry.Acq.C50_values",
    "GPry.Acq.C50_increasing",
    "GPry.Acq.C50_baseline"
   ],
   "note": "Exact real arithmetic; the noise is a number (for an array the code uses its mean)."
  },
  {
   "property": "C51",
   "status": "partial",
   "theorems": [
    "GPry.Acq.C51_gradient_partial",
    "GPry.Acq.C51_noise_counterexample",
    "GPry.Acq.C51_exceptions_counterexample",
    "GPry.Acq.C51_one_noise",
    "GPry.Acq.C51_below_noise",
    "GPry.Acq.C51_array_counterexample"
   ],
   "note": "False of the code with noise (wrong denominator), with sigma_n given (UnboundLocalError) and with an array of noise levels (ValueError): counterexamples. The gradient is right if and only if the noise is zero or the derivative of the standard deviation is."
  },
  {
   "property": "C52",
   "status": "partial",
   "theorems": [
    "GPry.Acq.C52_composition_partial",
    "GPry.AcqExt.C52_nonfinite_partial",
    "GPry.AcqExt.C52_finite_partial",
    "GPry.AcqExt.C52_zero_base_counterexample",
    "GPry.AcqExt.C52_power_zero",
    "GPry.AcqExt.C52_power_infinite",
    "GPry.AcqExt.C52_power_of_zero",
    "GPry.AcqExt.C52_sum_infinite",
    "GPry.AcqExt.C52_product_infinite"
   ],
   "note": "For every expression and every point, with NaN and infinities: a gradient component that is a number is the derivative of the value. False where the base of a power is zero and the exponent below one: the gradient is NaN or infinite, also where the value is differentiable."
  },
  {
   "property": "C53",
   "status": "partial",
   "theorems": [
    "GPry.Kernels.C53_gradient_partial",
    "GPry.Kernels.C53_returns_partial",
    "GPry.Kernels.C53_nested_product_counterexample",
    "GPry.Kernels.C53_matern12_counterexample",
    "GPry.Kernels.C53_returns_iff"
   ],
   "note": "Whenever gradient_x returns an array it is the gradient, by induction on kernel expressions. It raises for nested products and Matern(nu=0.5) has no gradient where the points agree: counterexamples."
  },
  {
   "property": "C54",
   "status": "partial",
   "theorems": [
    "GPry.Run.C54_initial_training_partial",
    "GPry.Run.C54_budget_partial",
    "GPry.Run.C54_budget_counterexample",
    "GPry.Run.C54_pretrained_counterexample",
    "GPry.Run.C54_zero_division_counterexample",
    "GPry.Run.C54_counted",
    "GPry.Spmd.loop_serial"
   ],
   "note": "Fresh surrogate: either error or at least n_initial points classified finite and kept. The budget holds with one process if n_initial divides max_initial; counterexamples otherwise, and for pretrained surrogates."
  },
  {
   "property": "C55",
   "status": "proved",
   "theorems": [
    "GPry.Progress.C55_mpi_sync",
    "GPry.Progress.C55_one_process",
    "GPry.Progress.C55_empty",
    "GPry.Progress.C55_fill"
   ],
   "note": "All numbers of processes and all tables; one number per cell."
  },
  {
   "property": "C56",
   "status": "partial",
   "theorems": [
    "GPry.Tools.C56_with",
    "GPry.Tools.C56_nested",
    "GPry.Tools.C56_early_handler_counterexample"
   ],
   "note": "Holds for with-blocks that construct the handler in the with statement, nested in any way and with exceptions. False if the state changes between constructing the handler and entering the block."
  },
  {
   "property": "C57",
   "status": "partial",
   "theorems": [
    "GPry.Tools.C57_split_partial",
    "GPry.Tools.C57_injective_partial",
    "GPry.Tools.C57_collision_counterexample"
   ],
   "note": "Splitting proved; injective for paths with an explicit prefix. False in general: a folder, the folder with a final slash, and the folder with the default prefix collide."
  },
  {
   "property": "C58",
   "status": "partial",
   "theorems": [
    "GPry.Batch.C58_parallel",
    "GPry.Batch.C58_refused",
    "GPry.Batch.C58_zero_restarts_counterexample",
    "GPry.Batch.C58_batch_partial",
    "GPry.Batch.C58_inside",
    "GPry.Batch.C58_nan_counterexample",
    "GPry.Batch.C58_surrogate",
    "GPry.Batch.C58_lie_noise",
    "GPry.Batch.C58_last"
   ],
   "note": "Parallel result equals the serial one for every number of processes; batch properties need that no restart ends in NaN or plus infinity (counterexample with NaN); n_restarts_optimizer = 0 raises in one process and deadlocks in several. Staying within bounds assumes that the local optimiser (including the transformation of the bounds) and the proposer do; see C140 for when the preprocessors break that."
  },
  {
   "property": "C59",
   "status": "partial",
   "theorems": [
    "GPry.Acq.C59_roundtrip_partial",
    "GPry.Acq.C59_alias_counterexample",
    "GPry.Acq.C59_logexp_counterexample",
    "GPry.Acq.C59_too_long"
   ],
   "note": "Holds for expressions of distinct objects whose free hyperparameters are numbers. False if an object is used twice and for the default LogExp (sigma_n is None): counterexamples."
  },
  {
   "property": "C60",
   "status": "proved",
   "theorems": [
    "GPry.Stat.C60_divergence",
    "GPry.Stat.C60_affine_invariant",
    "GPry.Stat.C60_is_divergence"
   ],
   "note": "Any dimension, positive definite covariance matrices, exact arithmetic; also invariance under affine maps."
  },
  {
   "property": "C61",
   "status": "partial",
   "theorems": [
    "GPry.Stat.C61_diagonal_partial",
    "GPry.Stat.C61_correlated_counterexample"
   ],
   "note": "True for diagonal covariance matrices only; false for correlated ones (the Cholesky factor is used instead of its inverse)."
  },
  {
   "property": "C62",
   "status": "partial",
   "theorems": [
    "GPry.Nora.C62_ultranest_partial",
    "GPry.Nora.C62_ultranest_counterexample"
   ],
   "note": "False: the replacement value is -1e-300, larger than every negative log-posterior. Proved only against points with mean above that value."
  },
  {
   "property": "C63",
   "status": "partial",
   "theorems": [
    "GPry.Gpr.C63_n_total_partial",
    "GPry.Gpr.C63_stale_counterexample"
   ],
   "note": "Holds when the classifier was fitted in the last call; false otherwise, witness given."
  },
  {
   "property": "C64",
   "status": "partial",
   "theorems": [
    "GPry.Cobaya.C64_files_partial",
    "GPry.Cobaya.C64_truth_counterexample",
    "GPry.Cobaya.C64_no_output_counterexample",
    "GPry.Cobaya.C64_prefix"
   ],
   "note": "False for every output prefix: tru.pkl is matched by no pattern (mod.pkl, the legacy name, is listed instead), and without output the listing raises. The other five files are matched exactly. How Cobaya applies the patterns is assumed (full match; the counterexample also covers matching at the beginning)."
  },
  {
   "property": "C65",
   "status": "partial",
   "theorems": [
    "GPry.Cobaya.C65_model_partial",
    "GPry.Cobaya.C65_refused",
    "GPry.Cobaya.C65_list_counterexample",
    "GPry.Cobaya.C65_repeated_counterexample",
    "GPry.Cobaya.C65_no_bounds"
   ],
   "note": "Proved for bounds of the regressor or passed as an array, and different names. False for bounds passed as a list, as documented (TypeError), and for repeated names. Exact arithmetic; uniform priors of Cobaya as defined in the model."
  },
  {
   "property": "C66",
   "status": "partial",
   "theorems": [
    "GPry.Gpr.C66_consistent_after_finite_partial",
    "GPry.Gpr.C66_consistent_partial",
    "GPry.Gpr.C66_stale_counterexample",
    "GPry.Gpr.C66_noise_stale_counterexample"
   ],
   "note": "Holds after calls adding a finite point; false otherwise, witnesses given."
  },
  {
   "property": "C67",
   "status": "partial",
   "theorems": [
    "GPry.Predict.C67_mean_partial",
    "GPry.Predict.C67_std_partial",
    "GPry.Predict.C67_std_counterexample",
    "GPry.Predict.C67_clip_counterexample"
   ],
   "note": "Mean: proved below the ceiling of the clipping, false above it (counterexample). Standard deviation: the code returns the derivative times the target scale once too often; right without normalisation, counterexample with scale 2."
  },
  {
   "property": "C68",
   "status": "proved",
   "theorems": [
    "GPry.Run.C68_options_consistent",
    "GPry.Run.C68_defaults_accepted",
    "GPry.Run.C68_small_total_refused",
    "GPry.Run.C68_rounding"
   ],
   "note": ""
  },
  {
   "property": "C69",
   "status": "partial",
   "theorems": [
    "GPry.Cobaya.C69_acquisition_partial",
    "GPry.Cobaya.C69_gpr_partial",
    "GPry.Cobaya.C69_runner_counterexample",
    "GPry.Cobaya.C69_string_refused"
   ],
   "note": "False: the wrapper passes the argument 'model', which Runner does not have, so that no input ever creates a Runner; and a null is dropped though documented to disable clip_factor. Proved for the dictionaries prepared before the call. Merging of defaults is done by Cobaya and not modelled."
  },
  {
   "property": "C70",
   "status": "partial",
   "theorems": [
    "GPry.Gpr.C70_poisoned",
    "GPry.Gpr.C70_never_recovers"
   ],
   "note": "The property is false of the code: the negation is proved for every later history (C70_never_recovers)."
  },
  {
   "property": "C71",
   "status": "partial",
   "theorems": [
    "GPry.Pre.C71_learn_never_works"
   ],
   "note": "False of the code; the negation is proved for all inputs."
  },
  {
   "property": "C72",
   "status": "partial",
   "theorems": [
    "GPry.Pre.C72_equal_targets_raise",
    "GPry.Pre.C72_counterexamples"
   ],
   "note": "False of the code with Normalize_y; the negation is proved for all states."
  },
  {
   "property": "C73",
   "status": "proved",
   "theorems": [
    "GPry.Pre.C73_bounds_enclose",
    "GPry.Pre.C73_bounds_tight"
   ],
   "note": ""
  },
  {
   "property": "C74",
   "status": "proved",
   "theorems": [
    "GPry.Ranked.C74_single_is_ranking"
   ],
   "note": ""
  },
  {
   "property": "C75",
   "status": "partial",
   "theorems": [
    "GPry.Spmd.C54_loop_mpi",
    "GPry.Spmd.C75_run_partial",
    "GPry.Spmd.C75_unconverged_deadlocks",
    "GPry.Spmd.run_serial"
   ],
   "note": "Holds if the run converged or gave up, or with one process; otherwise the negation is proved: with two or more processes, a run that ends without convergence deadlocks."
  },
  {
   "property": "C76",
   "status": "partial",
   "theorems": [
    "GPry.Run.C76_resumed_never_finishes",
    "GPry.Run.C76_counterexample"
   ],
   "note": "The property is false: a resumed run never ends normally. Proved: it can only give up or raise."
  },
  {
   "property": "C77",
   "status": "partial",
   "theorems": [
    "GPry.Spmd.C77_initial_training_partial",
    "GPry.Spmd.C77_failure_deadlocks"
   ],
   "note": "Success, and the ZeroDivisionError, are seen by all processes. The failure proper (RuntimeError, or an exception when appending) makes the processes deadlock if there are two or more."
  },
  {
   "property": "C78",
   "status": "partial",
   "theorems": [
    "GPry.Spmd.C03_eval_truth_mpi",
    "GPry.Spmd.C78_truth_exception_deadlocks"
   ],
   "note": "Negation: deadlock whenever the posterior raises in one process and not in another one. Positive part: C03_eval_truth_mpi."
  },
  {
   "property": "C79",
   "status": "partial",
   "theorems": [
    "GPry.Spmd.C39_fit_mpi",
    "GPry.Spmd.C79_fit_exception_deadlocks"
   ],
   "note": "Negation: deadlock whenever appending raises in one process and not in another one. Positive part: C39_fit_mpi."
  },
  {
   "property": "C80",
   "status": "proved",
   "theorems": [
    "GPry.Stat.C80_kl_mc"
   ],
   "note": ""
  },
  {
   "property": "C81",
   "status": "partial",
   "theorems": [
    "GPry.Acq.C81_nonlinear",
    "GPry.Acq.C81_scale_counterexample",
    "GPry.Acq.C81_exponential_counterexample"
   ],
   "note": "NonlinearLogExp proved. False of Mu and Std (they ignore a) and of ExponentialMu with several points: counterexamples."
  },
  {
   "property": "C82",
   "status": "partial",
   "theorems": [
    "GPry.Acq.C82_ei_gradient_partial",
    "GPry.Acq.C82_zero_std"
   ],
   "note": "False: the contribution of the mean has the wrong sign. The theorem gives the derivative, the returned gradient, and that they agree only if that contribution is zero."
  },
  {
   "property": "C83",
   "status": "partial",
   "theorems": [
    "GPry.Io.C83_resume_counterexample",
    "GPry.Io.C83_resume_partial"
   ],
   "note": "false: without likelihood the Runner always raises (get_truth(None) is called before the checkpoint is read); the second half is proved"
  },
  {
   "property": "C84",
   "status": "partial",
   "theorems": [
    "GPry.Truth.C84_names_partial",
    "GPry.Truth.C84_ref_bounds",
    "GPry.Truth.C84_repeated_counterexample",
    "GPry.Truth.C84_dict",
    "GPry.Truth.C84_number",
    "GPry.Truth.C84_reference"
   ],
   "note": "true for distinct names; a sequence with repeated names is accepted and cannot be reloaded (counterexample)"
  },
  {
   "property": "C85",
   "status": "partial",
   "theorems": [
    "GPry.Batch.C85_optimise_partial",
    "GPry.Batch.C85_no_bounds_counterexample",
    "GPry.Batch.C85_stale_counterexample"
   ],
   "note": "False without bounds (TypeError) and when called with another surrogate without resetting obj_func; proved with bounds and a fresh or matching objective."
  },
  {
   "property": "C86",
   "status": "partial",
   "theorems": [
    "GPry.Cobaya.C86_partial",
    "GPry.Cobaya.C86_counterexample"
   ],
   "note": "False for the documented layout (engine as a value): never recognised. True for the layout that Runner takes."
  },
  {
   "property": "C87",
   "status": "partial",
   "theorems": [
    "GPry.Setup.C87_restarts",
    "GPry.Setup.C87_gpr_partial",
    "GPry.Setup.C87_gpr_none_counterexample",
    "GPry.Setup.C87_acquisition_partial",
    "GPry.Setup.C87_function_args_counterexample",
    "GPry.Setup.C87_refused"
   ],
   "note": "False for gpr=None (TypeError) and for acquisition functions given with arguments (dropped); both proved as counterexamples. The other specifications are covered in general."
  },
  {
   "property": "C88",
   "status": "partial",
   "theorems": [
    "GPry.Setup.C88_criteria_partial",
    "GPry.Setup.C88_default",
    "GPry.Setup.C88_counterexample",
    "GPry.Setup.C88_shared",
    "GPry.Setup.C88_deadlock_counterexample"
   ],
   "note": "False for instances as values of a mapping, mappings in a sequence (counterexamples), and for a wrong specification with two or more processes, which deadlocks (proved for every number of processes). The remaining cases are covered in general."
  },
  {
   "property": "C89",
   "status": "partial",
   "theorems": [
    "GPry.Setup.C89_default_counterexample",
    "GPry.Setup.C89_sampler_partial",
    "GPry.Setup.C89_changes_argument_counterexample",
    "GPry.Setup.C89_refused",
    "GPry.Setup.C89_mc_options"
   ],
   "note": "False when no sampler is given at all (IndexError) and regarding the caller's dictionary (changed in place): counterexamples. Selection, options and refusals are covered when some sampler is named."
  },
  {
   "property": "C90",
   "status": "partial",
   "theorems": [
    "GPry.Setup.C90_kept_partial",
    "GPry.Setup.C90_table_partial",
    "GPry.Setup.C90_counterexample",
    "GPry.Setup.C90_no_density",
    "GPry.McRead.C90_reads_partial",
    "GPry.McRead.C90_both",
    "GPry.McRead.C90_forms_partial",
    "GPry.McRead.C90_getdist_counterexample",
    "GPry.McRead.C90_nothing"
   ],
   "note": "False for copy=False, as_pandas=True, which removes the points from the stored sample (counterexample). The rest in general; the table needs parameter names that are all different and not those of other columns. With as_getdist: McRead.lean (the object that GetDist makes of its arguments is not modelled)."
  },
  {
   "property": "C91",
   "status": "partial",
   "theorems": [
    "GPry.Setup.C91_point_partial",
    "GPry.Setup.C91_stale_counterexample",
    "GPry.Setup.C91_sample_partial",
    "GPry.Setup.C91_sample_counterexample",
    "GPry.Setup.C91_refused",
    "GPry.Setup.C91_sample_refused"
   ],
   "note": "False after a later call without densities or weights (stale values) and for calls that raise (point replaced): counterexamples. Proved in general for calls with a density (and weights, or none before)."
  },
  {
   "property": "C92",
   "status": "partial",
   "theorems": [
    "GPry.McSamp.C92_polychord_partial",
    "GPry.McSamp.C92_polychord_counterexample",
    "GPry.McSamp.C92_last",
    "GPry.McSamp.C92_nessai",
    "GPry.McSamp.C92_ultranest_counterexample",
    "GPry.McSamp.C92_numbered",
    "GPry.McSamp.C92_glob_partial",
    "GPry.McSamp.C92_glob_counterexample",
    "GPry.McSamp.C92_folders",
    "GPry.McSamp.C92_folders_partial",
    "GPry.McSamp.C92_folders_counterexample",
    "GPry.McSamp.C92_twice_counterexample",
    "GPry.McSamp.C92_twice_polychord",
    "GPry.McSamp.C92_disk_partial",
    "GPry.McSamp.C92_before_counterexample"
   ],
   "note": "False for PolyChord (prefix a deletes files of prefix a_b; prefixes with glob characters: own files stay, others are deleted; empty folder stays without a folder clusters) and UltraNest (out_dir ignored, last run deleted), and a second call raises for nessai and UltraNest: counterexamples. The rest proved for all sets of files and folders; ranges within brackets of glob patterns not modelled."
  },
  {
   "property": "C93",
   "status": "partial",
   "theorems": [
    "GPry.McSamp.C93_start",
    "GPry.McSamp.C93_covmat_partial",
    "GPry.McSamp.C93_covmat_counterexample"
   ],
   "note": "The starting points in general. The covariance part is false for verbose < 2 (counterexample), proved from 2."
  },
  {
   "property": "C94",
   "status": "partial",
   "theorems": [
    "GPry.McSamp.C94_getdist_partial",
    "GPry.McSamp.C94_counterexample",
    "GPry.McSamp.C94_labels",
    "GPry.McSamp.C94_sources"
   ],
   "note": "False with the default bounds=None (TypeError), and for Cobaya samples in process_gdsamples: counterexample. Otherwise in general for non-empty finite samples."
  },
  {
   "property": "C95",
   "status": "partial",
   "theorems": [
    "GPry.McSamp.C95_seeds_partial",
    "GPry.McSamp.C95_generator_counterexample"
   ],
   "note": "Proved for seeds and None, all numbers of processes. False if a Generator is passed: all processes use it (counterexample)."
  },
  {
   "property": "C96",
   "status": "partial",
   "theorems": [
    "GPry.McSamp.C96_file_partial",
    "GPry.McSamp.C96_names_counterexample",
    "GPry.McSamp.C96_path"
   ],
   "note": "Rows and path in general. False without parameter names, which are optional: NameError (counterexample)."
  },
  {
   "property": "C97",
   "status": "partial",
   "theorems": [
    "GPry.McSamp.C97_precision",
    "GPry.McSamp.C97_known",
    "GPry.McSamp.C97_transform",
    "GPry.McSamp.C97_transform_box",
    "GPry.McSamp.C97_nessai_partial",
    "GPry.McSamp.C97_nessai_counterexample",
    "GPry.McSamp.C97_units"
   ],
   "note": "Settings and UltraNest's transform in general. False for nessai's log_prior of several points at once (counterexample), proved one by one; PolyChord's own prior is not modelled."
  },
  {
   "property": "C98",
   "status": "proved",
   "theorems": [
    "GPry.McSamp.C98_default",
    "GPry.McSamp.C98_named",
    "GPry.McSamp.C98_unknown",
    "GPry.McSamp.C98_nlive",
    "GPry.McSamp.C98_folders"
   ],
   "note": "In general (names as strings; folders for a given tmpdir whose absolute path is injective and without a final slash)."
  },
  {
   "property": "C99",
   "status": "partial",
   "theorems": [
    "GPry.KernelHyp.C99_theta_bounds_partial",
    "GPry.KernelHyp.C99_set_theta_partial",
    "GPry.KernelHyp.C99_isotropic_counterexample",
    "GPry.KernelHyp.C99_constant_counterexample",
    "GPry.KernelHyp.C99_other_counterexample",
    "GPry.KernelHyp.C99_default_kernel",
    "GPry.KernelHyp.C99_dynamic_refused",
    "GPry.KernelHyp.C99_too_long",
    "GPry.KernelHyp.C99_other_error",
    "GPry.KernelHyp.C99_eq_partial",
    "GPry.KernelHyp.C99_eq_counterexample",
    "GPry.KernelHyp.C99_eq_dynamic"
   ],
   "note": "Sizes, order and round trip of theta for all kernel expressions whose hyperparameters can be built. Dynamic bounds fail for isotropic, constant and other kernels (counterexamples)."
  }
 ]
}