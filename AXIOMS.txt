Output of `#print axioms` for every theorem in MANIFEST.json.

'GPry.Mpi.C01_split_number_balanced' depends on axioms: [propext, Classical.choice, Quot.sound]
'GPry.Mpi.C02_step_split_merge' depends on axioms: [propext, Classical.choice, Quot.sound]
'GPry.Mpi.C03_parallel_truth_eq_serial' depends on axioms: [propext, Classical.choice, Quot.sound]
'GPry.Spmd.C03_eval_truth_mpi' depends on axioms: [propext, Classical.choice, Quot.sound]
'GPry.Mpi.C04_compute_y_parallel_eq_serial' depends on axioms: [propext, Classical.choice, Quot.sound]
'GPry.Mpi.C04_given_y_kept_partial' depends on axioms: [propext, Classical.choice, Quot.sound]
'GPry.Mpi.C04_no_mpi_crash' depends on axioms: [propext]
'GPry.Mpi.C04_one_process' depends on axioms: [propext]
'GPry.Pre.C05_round_trip' depends on axioms: [propext, Classical.choice, Quot.sound]
'GPry.Pre.C05_inverse_round_trip' depends on axioms: [propext, Classical.choice, Quot.sound]
'GPry.Pre.C05_monotone' depends on axioms: [propext, Classical.choice, Quot.sound]
'GPry.Pre.C05_bounds' depends on axioms: [propext, Classical.choice, Quot.sound]
'GPry.Pre.C05_refused' depends on axioms: [propext, Quot.sound]
'GPry.Pre.C05_zero_width_accepted' depends on axioms: [propext, Quot.sound]
'GPry.Pre.C05_refused_but_stored' depends on axioms: [propext, Classical.choice, Quot.sound]
'GPry.Pre.C05_scale' depends on axioms: [propext, Quot.sound]
'GPry.Pre.C05_refused_type' depends on axioms: [propext, Quot.sound]
'GPry.Pre.C06_fit_on_transformed' depends on axioms: [propext, Classical.choice, Quot.sound]
'GPry.Pre.C06_fit_stages' depends on axioms: [propext]
'GPry.Pre.C06_inv_tr' depends on axioms: [propext, Quot.sound]
'GPry.Pre.C06_tr_inv' depends on axioms: [propext, Quot.sound]
'GPry.Pre.C06_scale_round_trip' depends on axioms: [propext, Quot.sound]
'GPry.Pre.C06_scale_law' depends on axioms: [propext, Quot.sound]
'GPry.Pre.C06_scale_factors' depends on axioms: [propext, Quot.sound]
'GPry.Pre.C07_strictMono' depends on axioms: [propext, Classical.choice, Quot.sound]
'GPry.Pre.C07_round_trip' depends on axioms: [propext, Classical.choice, Quot.sound]
'GPry.Pre.C07_scale' depends on axioms: [propext, Classical.choice, Quot.sound]
'GPry.Pre.C07_normalize_moments' depends on axioms: [propext, Classical.choice, Quot.sound]
'GPry.Pre.C07_chi2' depends on axioms: [propext, Classical.choice, Quot.sound]
'GPry.Pre.C07_median' depends on axioms: [propext, Classical.choice, Quot.sound]
'GPry.Pre.C07_median_counterexample' depends on axioms: [propext, Classical.choice, Quot.sound]
'GPry.Pre.C07_unfitted' depends on axioms: [propext, Quot.sound]
'GPry.Pre.C08_round_trip' depends on axioms: [propext, Classical.choice, Quot.sound]
'GPry.Pre.C08_identity_covariance' depends on axioms: [propext, Classical.choice, Quot.sound]
'GPry.Gpr.C09_raw_invariant' depends on axioms: [propext, Classical.choice, Quot.sound]
'GPry.Gpr.C09_max_is_finite' depends on axioms: [propext, Classical.choice, Quot.sound]
'GPry.Gpr.C09_fit_agrees' depends on axioms: [propext, Classical.choice, Quot.sound]
'GPry.Gpr.C09_assertion_never_fires' depends on axioms: [propext, Classical.choice, Quot.sound]
'GPry.Gpr.C09_nan_counterexample' depends on axioms: [propext, Classical.choice, Quot.sound]
'GPry.Gpr.C10_training_partition' depends on axioms: [propext, Classical.choice, Quot.sound]
'GPry.Gpr.C10_infinite_complement' depends on axioms: [propext, Classical.choice, Quot.sound]
'GPry.Gpr.C10_infinite_stale_counterexample' depends on axioms: [propext, Classical.choice, Quot.sound]
'GPry.Gpr.C10_untrained_infinite' depends on axioms: [propext, Classical.choice, Quot.sound]
'GPry.Gpr.C10_no_classifier' depends on axioms: [propext, Classical.choice, Quot.sound]
'GPry.GprFit.C100_fit_partial' depends on axioms: [propext, Classical.choice, Quot.sound]
'GPry.GprFit.C100_not_worse' depends on axioms: [propext, Classical.choice, Quot.sound]
'GPry.GprFit.C100_infinite_bounds' depends on axioms: [propext, Classical.choice, Quot.sound]
'GPry.GprFit.C100_no_restarts_counterexample' depends on axioms: [propext, Quot.sound]
'GPry.GprFit.C100_initial_counterexample' depends on axioms: [propext, Quot.sound]
'GPry.GprFit.C100_nan_counterexample' depends on axioms: [propext, Classical.choice, Quot.sound]
'GPry.GprFit.C101_init_iff' depends on axioms: [propext, Quot.sound]
'GPry.GprFit.C101_init_values' depends on axioms: [propext, Quot.sound]
'GPry.GprFit.C101_bounds_counterexample' depends on axioms: [propext, Quot.sound]
'GPry.GprFit.C101_clip_counterexample' depends on axioms: [propext, Quot.sound]
'GPry.GprFit.C101_no_threshold' depends on axioms: [propext, Quot.sound]
'GPry.GprFit.C101_kernel_refused' depends on axioms: [propext, Quot.sound]
'GPry.GprFit.C102_is_finite_partial' depends on axioms: [propext, Classical.choice, Quot.sound]
'GPry.GprFit.C102_all_infinite_counterexample' depends on axioms: [propext, Quot.sound]
'GPry.GprFit.C102_abs_threshold_counterexample' depends on axioms: [propext, Classical.choice, Quot.sound]
'GPry.GprFit.C102_abs_threshold_partial' depends on axioms: [propext, Classical.choice, Quot.sound]
'GPry.GprFit.C102_predict_counterexample' depends on axioms: [propext, Quot.sound]
'GPry.GprFit.C102_predict_partial' depends on axioms: [propext, Quot.sound]
'GPry.GprFit.C102_no_classifier' depends on axioms: [propext, Quot.sound]
'GPry.GprFit.C102_abs_threshold_infinite' depends on axioms: [propext, Quot.sound]
'GPry.GprFit.C103_scales_partial' depends on axioms: [propext, Classical.choice, Quot.sound]
'GPry.GprFit.C103_scales_dummy_partial' depends on axioms: [propext, Classical.choice, Quot.sound]
'GPry.GprFit.C103_scales_counterexample' depends on axioms: [propext, Classical.choice, Quot.sound]
'GPry.Cov.C104_ok_iff' depends on axioms: [propext, Classical.choice, Quot.sound]
'GPry.Cov.C104_mean_bounds' depends on axioms: [propext, Classical.choice, Quot.sound]
'GPry.Cov.C104_mean_bounds_unweighted' depends on axioms: [propext, Classical.choice, Quot.sound]
'GPry.Cov.C104_cov_partial' depends on axioms: [propext, Classical.choice, Quot.sound]
'GPry.Cov.C104_cov_unweighted_partial' depends on axioms: [propext, Classical.choice, Quot.sound]
'GPry.Cov.C104_single_counterexample' depends on axioms: [propext, Classical.choice, Quot.sound]
'GPry.Cov.C104_scale' depends on axioms: [propext, Classical.choice, Quot.sound]
'GPry.Cov.C104_zero_weights' depends on axioms: [propext, Quot.sound]
'GPry.Cov.C104_equal_weights' depends on axioms: [propext, Classical.choice, Quot.sound]
'GPry.Cov.C104_perm' depends on axioms: [propext, Quot.sound]
'GPry.Cov.C104_repeated' depends on axioms: [propext, Classical.choice, Quot.sound]
'GPry.Cov.C104_repeated_counterexample' depends on axioms: [propext, Classical.choice, Quot.sound]
'GPry.Cov.C104_units' depends on axioms: [propext, Classical.choice, Quot.sound]
'GPry.Cov.C104_evals' depends on axioms: [propext, Classical.choice, Quot.sound]
'GPry.Cov.C104_evals_shift' depends on axioms: [propext, Classical.choice, Quot.sound]
'GPry.Cov.C104_evals_neginf' depends on axioms: [propext, Classical.choice, Quot.sound]
'GPry.Cov.C104_evals_all_infinite_counterexample' depends on axioms: [propext, Classical.choice, Quot.sound]
'GPry.Cov.C105_diagnosis' depends on axioms: [propext, Quot.sound]
'GPry.Cov.C105_acquisition_failure' depends on axioms: [propext, Quot.sound]
'GPry.Cov.C105_one_dimension_counterexample' depends on axioms: [propext, Classical.choice, Quot.sound]
'GPry.Cov.C105_train_counterexample' depends on axioms: [propext, Classical.choice, Quot.sound]
'GPry.Cov.C105_mpi' depends on axioms: [propext, Quot.sound]
'GPry.Cov.C105_mpi_deadlock_counterexample' depends on axioms: [propext, Classical.choice, Quot.sound]
'GPry.Kernels.C106_kernel' depends on axioms: [propext, Classical.choice, Quot.sound]
'GPry.Kernels.C106_factor' depends on axioms: [propext, Classical.choice, Quot.sound]
'GPry.Kernels.C106_periodic_counterexample' depends on axioms: [propext, Classical.choice, Quot.sound]
'GPry.Kernels.C106_power_counterexample' depends on axioms: [propext, Classical.choice, Quot.sound]
'GPry.Kernels.C106_constant_counterexample' depends on axioms: [propext, Classical.choice, Quot.sound]
'GPry.ConvMc.C107_reuse' depends on axioms: [propext, Quot.sound]
'GPry.ConvMc.C107_reuse_bound' depends on axioms: [propext, Quot.sound]
'GPry.ConvMc.C107_recorded' depends on axioms: [propext, Quot.sound]
'GPry.ConvMc.C107_one_parameter' depends on axioms: [propext, Classical.choice, Quot.sound]
'GPry.ConvMc.C107_one_parameter_deadlock' depends on axioms: [propext, Classical.choice, Quot.sound]
'GPry.ConvMc.C107_all_rejected' depends on axioms: [propext, Quot.sound]
'GPry.ConvMc.C107_reweighted_mean' depends on axioms: [propext, Classical.choice, Quot.sound]
'GPry.ConvMc.C107_per_sample_counterexample' depends on axioms: [propext, Classical.choice, Quot.sound]
'GPry.ConvMc.C107_proposal' depends on axioms: [propext, Quot.sound]
'GPry.ConvMc.C107_cut' depends on axioms: [propext, Classical.choice, Quot.sound]
'GPry.ConvMc.C107_reuse_divergences' depends on axioms: [propext, Quot.sound]
'GPry.ConvMc.C107_acquisition' depends on axioms: [propext, Classical.choice, Quot.sound]
'GPry.ConvInit.C108_policy' depends on axioms: [propext, Classical.choice, Quot.sound]
'GPry.ConvInit.C108_round' depends on axioms: [propext, Classical.choice, Quot.sound]
'GPry.ConvInit.C108_default_times_counterexample' depends on axioms: [propext, Classical.choice, Quot.sound]
'GPry.ConvInit.C108_both_draws' depends on axioms: [propext, Classical.choice, Quot.sound]
'GPry.ConvInit.C108_options_changed_counterexample' depends on axioms: [propext, Classical.choice, Quot.sound]
'GPry.ConvInit.C108_options_kept' depends on axioms: [propext, Classical.choice, Quot.sound]
'GPry.ConvInit.C108_tolerance' depends on axioms: [propext, Quot.sound]
'GPry.ConvInit.C108_training_part' depends on axioms: [propext, Classical.choice, Quot.sound]
'GPry.ConvInit.C108_small_fraction_counterexample' depends on axioms: [propext, Classical.choice, Quot.sound]
'GPry.ConvInit.C108_history' depends on axioms: [propext, Classical.choice, Quot.sound]
'GPry.ConvInit.C108_zero_times' depends on axioms: [propext, Quot.sound]
'GPry.ConvInit.C108_dont_converge' depends on axioms: [propext, Quot.sound]
'GPry.ConvInit.C108_zero_draws' depends on axioms: [propext, Quot.sound]
'GPry.GprAttr.C109_trust_current' depends on axioms: [propext, Classical.choice, Quot.sound]
'GPry.GprAttr.C109_refit' depends on axioms: [propext, Quot.sound]
'GPry.GprAttr.C109_failed_counterexample' depends on axioms: [propext, Classical.choice, Quot.sound]
'GPry.Gpr.C11_keep_min_finite' depends on axioms: [propext, Classical.choice, Quot.sound]
'GPry.GprAttr.C110_y_max' depends on axioms: [propext, Classical.choice, Quot.sound]
'GPry.GprAttr.C110_n' depends on axioms: [propext, Classical.choice, Quot.sound]
'GPry.GprAttr.C110_table_partial' depends on axioms: [propext, Classical.choice, Quot.sound]
'GPry.GprAttr.C110_empty_counterexample' depends on axioms: [propext, Quot.sound]
'GPry.GprAttr.C110_stale_counterexample' depends on axioms: [propext, Classical.choice, Quot.sound]
'GPry.Gpr.C110_fitted' depends on axioms: [propext, Quot.sound]
'GPry.AcqObj.C111_equivalence' depends on axioms: [propext, Quot.sound]
'GPry.AcqObj.C111_nan_counterexample' depends on axioms: [propext, Classical.choice, Quot.sound]
'GPry.AcqObj.C111_equal_value' depends on axioms: [propext, Quot.sound]
'GPry.AcqObj.C111_operators' depends on axioms: [propext, Classical.choice, Quot.sound]
'GPry.AcqObj.C111_set_params' depends on axioms: [propext, Classical.choice, Quot.sound]
'GPry.AcqObj.C111_unknown' depends on axioms: [propext, Classical.choice, Quot.sound]
'GPry.AcqObj.C111_several' depends on axioms: [propext, Classical.choice, Quot.sound]
'GPry.AcqObj.C111_replaced_counterexample' depends on axioms: [propext, Classical.choice, Quot.sound]
'GPry.AcqObj.C111_booleans' depends on axioms: [propext, Quot.sound]
'GPry.AcqObj.C111_number_operand' depends on axioms: [propext, Classical.choice, Quot.sound]
'GPry.AcqInit.C112_outcome' depends on axioms: [propext, Classical.choice, Quot.sound]
'GPry.AcqInit.C112_logExp' depends on axioms: [propext, Classical.choice, Quot.sound]
'GPry.AcqInit.C112_dimension' depends on axioms: [propext, Classical.choice, Quot.sound]
'GPry.AcqInit.C112_unknown' depends on axioms: [propext, Classical.choice, Quot.sound]
'GPry.AcqInit.C112_zeta' depends on axioms: [propext, Classical.choice, Quot.sound]
'GPry.AcqInit.C112_mutates_counterexample' depends on axioms: [propext, Classical.choice, Quot.sound]
'GPry.AcqInit.C112_names' depends on axioms: [propext]
'GPry.AcqInit.C112_names_counterexample' depends on axioms: [propext, Classical.choice, Quot.sound]
'GPry.AcqInit.C112_gradient' does not depend on any axioms
'GPry.AcqInit.C112_optimizer' depends on axioms: [propext, Classical.choice, Quot.sound]
'GPry.AcqInit.C112_optimizer_counterexample' depends on axioms: [propext]
'GPry.AcqInit.C112_xi' depends on axioms: [propext, Classical.choice, Quot.sound]
'GPry.AcqInit.C112_refused' does not depend on any axioms
'GPry.KernelOps.C113_values' depends on axioms: [propext, Classical.choice, Quot.sound]
'GPry.KernelOps.C113_gradient' depends on axioms: [propext, Classical.choice, Quot.sound]
'GPry.KernelOps.C113_pow_gradient_counterexample' depends on axioms: [propext, Classical.choice, Quot.sound]
'GPry.KernelOps.C113_pow_order_counterexample' depends on axioms: [propext, Classical.choice, Quot.sound]
'GPry.Prior.C114_law' depends on axioms: [propext, Classical.choice, Quot.sound]
'GPry.Prior.C114_normalised' depends on axioms: [propext, Classical.choice, Quot.sound]
'GPry.Prior.C114_inside' depends on axioms: [propext, Classical.choice, Quot.sound]
'GPry.Prior.C114_reference' depends on axioms: [propext, Classical.choice, Quot.sound]
'GPry.Prior.C114_reference_counterexample' depends on axioms: [propext, Classical.choice, Quot.sound]
'GPry.Prior.C114_reference_accepted' depends on axioms: [propext, Classical.choice, Quot.sound]
'GPry.Prior.C114_infinite_counterexample' depends on axioms: [propext, Classical.choice, Quot.sound]
'GPry.Slices.C115_slices' depends on axioms: [propext, Classical.choice, Quot.sound]
'GPry.Slices.C115_default' depends on axioms: [propext, Quot.sound]
'GPry.Slices.C115_grid' depends on axioms: [propext, Classical.choice, Quot.sound]
'GPry.Slices.C115_dict_counterexample' depends on axioms: [propext, Quot.sound]
'GPry.Slices.C115_negative_counterexample' depends on axioms: [propext, Classical.choice, Quot.sound]
'GPry.Slices.C115_reference' depends on axioms: [propext, Classical.choice, Quot.sound]
'GPry.Slices.C115_reference_list' depends on axioms: [propext, Quot.sound]
'GPry.Slices.C115_reference_again' depends on axioms: [propext, Classical.choice, Quot.sound]
'GPry.Slices.C115_mutates_counterexample' depends on axioms: [propext, Classical.choice, Quot.sound]
'GPry.Slices.C115_getdist_counterexample' depends on axioms: [propext]
'GPry.Slices.C115_sci' depends on axioms: [propext, Classical.choice, Quot.sound]
'GPry.Slices.C115_sci_plain' depends on axioms: [propext, Classical.choice, Quot.sound]
'GPry.Slices.C115_sci_zero_counterexample' depends on axioms: [propext, Classical.choice, Quot.sound]
'GPry.Slices.C115_refused' depends on axioms: [propext, Quot.sound]
'GPry.Slices.C115_empty_dict' depends on axioms: [propext, Quot.sound]
'GPry.Gather.C116_gather' depends on axioms: [propext, Classical.choice, Quot.sound]
'GPry.Gather.C116_gather_counterexample' depends on axioms: [propext, Quot.sound]
'GPry.Gather.C116_share' depends on axioms: [propext, Quot.sound]
'GPry.Gather.C116_mean_cov_partial' depends on axioms: [propext, Classical.choice, Quot.sound]
'GPry.Gather.C116_convergence_counterexample' depends on axioms: [propext, Classical.choice, Quot.sound]
'GPry.Chain.C117_chain_partial' depends on axioms: [propext, Classical.choice, Quot.sound]
'GPry.Chain.C117_within' depends on axioms: [propext, Quot.sound]
'GPry.Chain.C117_once' depends on axioms: [propext, Classical.choice, Quot.sound]
'GPry.Chain.C117_update' depends on axioms: [propext, Quot.sound]
'GPry.Chain.C117_fallback' depends on axioms: [propext, Classical.choice, Quot.sound]
'GPry.Chain.C117_raises' depends on axioms: [propext, Quot.sound]
'GPry.Chain.C117_last_counterexample' depends on axioms: [propext, Quot.sound]
'GPry.McCobaya.C118_level' depends on axioms: [propext, Classical.choice, Quot.sound]
'GPry.McCobaya.C118_level_ok' depends on axioms: [propext, Classical.choice, Quot.sound]
'GPry.McCobaya.C118_input' depends on axioms: [propext, Classical.choice, Quot.sound]
'GPry.McCobaya.C118_case_counterexample' depends on axioms: [propext, Classical.choice, Quot.sound]
'GPry.McCobaya.C118_case_partial' depends on axioms: [propext, Classical.choice, Quot.sound]
'GPry.McCobaya.C118_cov_partial' depends on axioms: [propext, Classical.choice, Quot.sound]
'GPry.McCobaya.C118_conv_counterexample' depends on axioms: [propext, Classical.choice, Quot.sound]
'GPry.McCobaya.C118_cov_params' depends on axioms: [propext, Classical.choice, Quot.sound]
'GPry.McCobaya.C118_info_counterexample' depends on axioms: [propext, Classical.choice, Quot.sound]
'GPry.McCobaya.C118_output' depends on axioms: [propext, Classical.choice, Quot.sound]
'GPry.McCobaya.C118_refused' depends on axioms: [propext, Classical.choice, Quot.sound]
'GPry.McCobaya.C118_none_counterexample' depends on axioms: [propext, Classical.choice, Quot.sound]
'GPry.McCobaya.C118_level_strict' depends on axioms: [propext, Classical.choice, Quot.sound]
'GPry.Cost.C119_timer' depends on axioms: [propext, Quot.sound]
'GPry.Cost.C119_batch_one' depends on axioms: [propext, Quot.sound]
'GPry.Cost.C119_copies_counterexample' depends on axioms: [propext, Quot.sound]
'GPry.Cost.C119_acquire_partial' depends on axioms: [propext, Classical.choice, Quot.sound]
'GPry.Cost.C119_acquire_counterexample' depends on axioms: [propext, Classical.choice, Quot.sound]
'GPry.Cost.C119_fit_partial' depends on axioms: [propext, Classical.choice, Quot.sound]
'GPry.Gpr.C12_last_appended_partial' depends on axioms: [propext, Classical.choice, Quot.sound]
'GPry.Gpr.C12_last_appended_finite_partial' depends on axioms: [propext, Classical.choice, Quot.sound]
'GPry.Gpr.C12_empty_batch_counterexample' depends on axioms: [propext, Classical.choice, Quot.sound]
'GPry.RunnerOut.C120_logL_partial' depends on axioms: [propext, Classical.choice, Quot.sound]
'GPry.RunnerOut.C120_cobaya' depends on axioms: [propext, Classical.choice, Quot.sound]
'GPry.RunnerOut.C120_outside_counterexample' depends on axioms: [propext, Classical.choice, Quot.sound]
'GPry.RunnerOut.C120_many_counterexample' depends on axioms: [propext, Classical.choice, Quot.sound]
'GPry.RunnerOut.C120_log' depends on axioms: [propext, Quot.sound]
'GPry.RunnerOut.C120_banner_text' depends on axioms: [propext, Quot.sound]
'GPry.RunnerOut.C120_banner_box' depends on axioms: [propext, Quot.sound]
'GPry.RunnerOut.C120_paths' depends on axioms: [propext, Classical.choice, Quot.sound]
'GPry.RunnerOut.C120_paths_again' depends on axioms: [propext, Classical.choice, Quot.sound]
'GPry.RunnerOut.C120_parents' depends on axioms: [propext, Classical.choice, Quot.sound]
'GPry.RunnerOut.C120_plots_inside' depends on axioms: [propext, Classical.choice, Quot.sound]
'GPry.NoraSpmd.C121_multi_add_partial' depends on axioms: [propext, Classical.choice, Quot.sound]
'GPry.NoraSpmd.C121_bounds_counterexample' depends on axioms: [propext, Classical.choice, Quot.sound]
'GPry.NoraSpmd.C121_refused' depends on axioms: [propext, Classical.choice, Quot.sound]
'GPry.NsRun.C122_draw' depends on axioms: [propext, Classical.choice, Quot.sound]
'GPry.NsRun.C122_polychord' depends on axioms: [propext, Classical.choice, Quot.sound]
'GPry.NsRun.C122_ultranest' depends on axioms: [propext, Classical.choice, Quot.sound]
'GPry.NsRun.C122_keep_all_partial' depends on axioms: [propext, Classical.choice, Quot.sound]
'GPry.NsRun.C122_keep_all_counterexample' depends on axioms: [propext, Classical.choice, Quot.sound]
'GPry.NsRun.C122_unknown' depends on axioms: [propext, Classical.choice, Quot.sound]
'GPry.NsRun.C122_argument_counterexample' depends on axioms: [propext, Classical.choice, Quot.sound]
'GPry.NsRun.C122_verbosity' depends on axioms: [propext, Classical.choice, Quot.sound]
'GPry.NsRun.parse_rows' depends on axioms: [propext, Classical.choice, Quot.sound]
'GPry.NsRun.parse_bad' depends on axioms: [propext, Classical.choice, Quot.sound]
'GPry.NsRun.nessai_rows' depends on axioms: [propext, Classical.choice, Quot.sound]
'GPry.Cred.C123_radius' depends on axioms: [propext, Classical.choice, Quot.sound]
'GPry.Cred.C123_one_dim' depends on axioms: [propext, Classical.choice, Quot.sound]
'GPry.Cred.C123_mono' depends on axioms: [propext, Classical.choice, Quot.sound]
'GPry.Cred.C123_dim' depends on axioms: [propext, Classical.choice, Quot.sound]
'GPry.Cred.C123_nan' depends on axioms: [propext, Classical.choice, Quot.sound]
'GPry.Cred.C123_delta_logp' depends on axioms: [propext, Classical.choice, Quot.sound]
'GPry.Cred.C123_volume' depends on axioms: [propext, Classical.choice, Quot.sound]
'GPry.Cred.nstd_zero' depends on axioms: [propext, Classical.choice, Quot.sound]
'GPry.Align.C124_mass' depends on axioms: [propext, Classical.choice, Quot.sound]
'GPry.Align.C124_range' depends on axioms: [propext, Classical.choice, Quot.sound]
'GPry.Align.C124_mono' depends on axioms: [propext, Classical.choice, Quot.sound]
'GPry.Align.C124_affine' depends on axioms: [propext, Classical.choice, Quot.sound]
'GPry.Align.C124_stored' depends on axioms: [propext, Classical.choice, Quot.sound]
'GPry.Align.C124_failure' depends on axioms: [propext, Classical.choice, Quot.sound]
'GPry.Align.C124_window_partial' depends on axioms: [propext, Classical.choice, Quot.sound]
'GPry.Align.C124_window_counterexample' depends on axioms: [propext, Classical.choice, Quot.sound]
'GPry.Gp.C125_conditional' depends on axioms: [propext, Classical.choice, Quot.sound]
'GPry.Acq.C126_expectation' depends on axioms: [propext, Classical.choice, Quot.sound]
'GPry.Acq.C126_zero_std' depends on axioms: [propext, Classical.choice, Quot.sound]
'GPry.Acq.C126_bounds' depends on axioms: [propext, Classical.choice, Quot.sound]
'GPry.Acq.C126_order' depends on axioms: [propext, Classical.choice, Quot.sound]
'GPry.Acq.C126_gradient_wrong' depends on axioms: [propext, Classical.choice, Quot.sound]
'GPry.Input.C127_rows' depends on axioms: [propext, Classical.choice, Quot.sound]
'GPry.Input.C127_one' depends on axioms: [propext, Classical.choice, Quot.sound]
'GPry.Input.C127_three_counterexample' depends on axioms: [propext, Classical.choice, Quot.sound]
'GPry.Input.C127_reference_float' depends on axioms: [propext, Classical.choice, Quot.sound]
'GPry.Input.C127_reference_partial' depends on axioms: [propext, Classical.choice, Quot.sound]
'GPry.Input.C127_reference_counterexample' depends on axioms: [propext, Classical.choice, Quot.sound]
'GPry.Input.C127_covmat' depends on axioms: [propext, Classical.choice, Quot.sound]
'GPry.Input.C127_covmat_partial' depends on axioms: [propext, Classical.choice, Quot.sound]
'GPry.Input.C127_covmat_counterexample' depends on axioms: [propext, Classical.choice, Quot.sound]
'GPry.Corner.C128_all' depends on axioms: [propext, Classical.choice, Quot.sound]
'GPry.Corner.C128_exact' depends on axioms: [propext, Classical.choice, Quot.sound]
'GPry.Corner.C128_missing' depends on axioms: [propext, Quot.sound]
'GPry.Corner.C128_range_counterexample' depends on axioms: [propext, Classical.choice, Quot.sound]
'GPry.Corner.C128_inverted_counterexample' depends on axioms: [propext, Classical.choice, Quot.sound]
'GPry.Corner.C128_filled' depends on axioms: [propext, Quot.sound]
'GPry.Corner.C128_params' depends on axioms: [propext]
'GPry.Corner.C128_bounds_partial' depends on axioms: [propext, Quot.sound]
'GPry.Corner.C128_bounds_counterexample' depends on axioms: [propext, Classical.choice, Quot.sound]
'GPry.Corner.C128_bounds_no_params' depends on axioms: [propext]
'GPry.Corner.C128_training' depends on axioms: [propext]
'GPry.Corner.C128_training_label' depends on axioms: [propext, Quot.sound]
'GPry.Corner.C128_surrogate' depends on axioms: [propext, Classical.choice, Quot.sound]
'GPry.Corner.C128_no_samples' depends on axioms: [propext, Classical.choice, Quot.sound]
'GPry.Corner.C128_additional' depends on axioms: [propext, Classical.choice, Quot.sound]
'GPry.Corner.C128_logpost_counterexample' depends on axioms: [propext, Classical.choice, Quot.sound]
'GPry.DistHist.C129_number' depends on axioms: [propext, Classical.choice, Quot.sound]
'GPry.DistHist.C129_density_partial' depends on axioms: [propext, Classical.choice, Quot.sound]
'GPry.DistHist.C129_density_error' depends on axioms: [propext, Classical.choice, Quot.sound]
'GPry.DistHist.C129_density_counterexample' depends on axioms: [propext, Classical.choice, Quot.sound]
'GPry.DistHist.C129_empty' depends on axioms: [propext, Classical.choice, Quot.sound]
'GPry.DistHist.C129_stacked' depends on axioms: [propext, Classical.choice, Quot.sound]
'GPry.DistHist.C129_stacked_number' depends on axioms: [propext, Classical.choice, Quot.sound]
'GPry.Gpr.C13_aligned_partial' depends on axioms: [propext, Classical.choice, Quot.sound]
'GPry.Gpr.C13_pointwise_noise_never_works' depends on axioms: [propext, Classical.choice, Quot.sound]
'GPry.Gpr.C13_validation_atomic_partial' depends on axioms: [propext, Quot.sound]
'GPry.Gpr.C13_pointwise_noise_counterexample' depends on axioms: [propext, Classical.choice, Quot.sound]
'GPry.Gpr.C13_not_atomic_counterexample' depends on axioms: [propext, Classical.choice, Quot.sound]
'GPry.Gpr.C13_scalar_noise' depends on axioms: [propext, Classical.choice, Quot.sound]
'GPry.Gpr.C13_noise_finite' depends on axioms: [propext, Classical.choice, Quot.sound]
'GPry.Gpr.C13_wrong_length' depends on axioms: [propext, Quot.sound]
'GPry.Fig.C130_labels' depends on axioms: [propext, Quot.sound]
'GPry.Fig.C130_func_partial' depends on axioms: [propext]
'GPry.Fig.C130_func_counterexample' depends on axioms: [propext, Classical.choice, Quot.sound]
'GPry.Fig.C130_slices_partial' depends on axioms: [propext, Classical.choice, Quot.sound]
'GPry.Fig.C130_slices_counterexample' depends on axioms: [propext, Quot.sound]
'GPry.Fig.C130_alpha_partial' depends on axioms: [propext, Classical.choice, Quot.sound]
'GPry.Fig.C130_alpha_zero' depends on axioms: [propext, Classical.choice, Quot.sound]
'GPry.Fig.C130_reference_partial' depends on axioms: [propext, Classical.choice, Quot.sound]
'GPry.Fig.C130_reference_counterexample' depends on axioms: [propext, Classical.choice, Quot.sound]
'GPry.Fig.C130_convergence' does not depend on any axioms
'GPry.Fig.C130_convergence_counterexample' does not depend on any axioms
'GPry.Fig.C130_no_points' depends on axioms: [propext, Classical.choice, Quot.sound]
'GPry.Fig.C130_no_points_counterexample' depends on axioms: [propext, Classical.choice, Quot.sound]
'GPry.Fig.C131_bars' depends on axioms: [propext, Classical.choice, Quot.sound]
'GPry.Fig.C131_nan' depends on axioms: [propext, Quot.sound]
'GPry.Fig.C131_resample_counterexample' depends on axioms: [propext, Quot.sound]
'GPry.Fig.C131_ticks' depends on axioms: [propext, Classical.choice, Quot.sound]
'GPry.Fig.C132_grid' depends on axioms: [propext]
'GPry.Fig.C132_levels_partial' depends on axioms: [propext, Classical.choice, Quot.sound]
'GPry.Fig.C132_levels_counterexample' depends on axioms: [propext, Classical.choice, Quot.sound]
'GPry.Fig.C132_finite' depends on axioms: [propext, Classical.choice, Quot.sound]
'GPry.Fig.C132_std' depends on axioms: [propext, Classical.choice, Quot.sound]
'GPry.Fig.C132_flat_counterexample' depends on axioms: [propext, Quot.sound]
'GPry.Fig.C132_std_range' depends on axioms: [propext, Classical.choice, Quot.sound]
'GPry.Spmd.C133_data_of_a_run' depends on axioms: [propext, Classical.choice, Quot.sound]
'GPry.Spmd.run_returns' depends on axioms: [propext, Classical.choice, Quot.sound]
'GPry.Spmd.initial_returns' depends on axioms: [propext, Classical.choice, Quot.sound]
'GPry.Spmd.C133_restarts' depends on axioms: [propext, Classical.choice, Quot.sound]
'GPry.Trace.C134_points' depends on axioms: [propext, Classical.choice, Quot.sound]
'GPry.Trace.C134_iterations' depends on axioms: [propext, Classical.choice, Quot.sound]
'GPry.Trace.C134_crosses' depends on axioms: [propext, Quot.sound]
'GPry.Trace.C134_labels' depends on axioms: [propext, Quot.sound]
'GPry.Trace.C134_sigmas' depends on axioms: [propext, Quot.sound]
'GPry.Trace.C134_sigmas_nested' depends on axioms: [propext, Classical.choice, Quot.sound]
'GPry.Trace.C134_too_early' depends on axioms: [propext, Classical.choice, Quot.sound]
'GPry.Trace.C134_classifier_stale' depends on axioms: [propext, Quot.sound]
'GPry.Trace.C134_classifier_untrained' depends on axioms: [propext, Quot.sound]
'GPry.PlotProg.C135_names' depends on axioms: [propext, Classical.choice, Quot.sound]
'GPry.PlotProg.C135_files' depends on axioms: [propext, Classical.choice, Quot.sound]
'GPry.PlotProg.C135_raises' depends on axioms: [propext, Classical.choice, Quot.sound]
'GPry.PlotProg.C135_backend' depends on axioms: [propext, Classical.choice, Quot.sound]
'GPry.PlotProg.C135_samples' depends on axioms: [propext, Classical.choice, Quot.sound]
'GPry.PlotProg.C135_run' depends on axioms: [propext, Classical.choice, Quot.sound]
'GPry.PlotProg.C135_no_values_counterexample' depends on axioms: [propext, Classical.choice, Quot.sound]
'GPry.PlotProg.C135_label' depends on axioms: [propext, Classical.choice, Quot.sound]
'GPry.PlotProg.C135_markers' depends on axioms: [propext, Classical.choice, Quot.sound]
'GPry.CobayaRun.C136_run_counterexample' depends on axioms: [propext]
'GPry.CobayaRun.C136_plots_counterexample' depends on axioms: [propext]
'GPry.CobayaRun.C136_run_partial' depends on axioms: [propext, Quot.sound]
'GPry.CobayaRun.C136_format_counterexample' depends on axioms: [propext, Classical.choice, Quot.sound]
'GPry.CobayaRun.C136_products' depends on axioms: [propext, Quot.sound]
'GPry.Rng.C137_share' depends on axioms: [propext, Classical.choice, Quot.sound]
'GPry.Rng.C137_no_reuse' depends on axioms: [propext, Classical.choice, Quot.sound]
'GPry.Rng.C137_run' depends on axioms: [propext, Classical.choice, Quot.sound]
'GPry.Rng.C137_seed_counterexample' depends on axioms: [propext]
'GPry.Rng.C137_resume_counterexample' depends on axioms: [propext, Classical.choice, Quot.sound]
'GPry.Rng.C137_resume_partial' depends on axioms: [propext, Classical.choice, Quot.sound]
'GPry.Rng.C137_serial_counterexample' depends on axioms: [propext, Classical.choice, Quot.sound]
'GPry.Rng.C137_same_seed_counterexample' depends on axioms: [propext, Classical.choice, Quot.sound]
'GPry.Rng.C137_resume_global' depends on axioms: [propext]
'GPry.Diag.C138_others' depends on axioms: [propext]
'GPry.Diag.C138_classifier_counterexample' depends on axioms: [propext]
'GPry.Diag.C138_backend_counterexample' depends on axioms: [propext, Quot.sound]
'GPry.Diag.C138_never_returns_counterexample' depends on axioms: [propext, Quot.sound]
'GPry.Diag.C138_model_counterexample' depends on axioms: [propext]
'GPry.Diag.C138_backend_partial' depends on axioms: [propext]
'GPry.Diag.C138_member' depends on axioms: [propext, Quot.sound]
'GPry.Diag.C138_member_counterexample' depends on axioms: [propext, Quot.sound]
'GPry.Diag.C138_member_partial' depends on axioms: [propext, Quot.sound]
'GPry.Diag.C138_sets_partial' depends on axioms: [propext, Classical.choice, Quot.sound]
'GPry.Diag.C138_sets_sound_partial' depends on axioms: [propext, Quot.sound]
'GPry.Diag.C138_sets_counterexample' depends on axioms: [propext, Quot.sound]
'GPry.Diag.C138_missing_counterexample' depends on axioms: [propext, Quot.sound]
'GPry.Diag.C138_is_finite_counterexample' depends on axioms: [propext]
'GPry.Diag.C138_verdict' depends on axioms: [propext, Classical.choice, Quot.sound]
'GPry.Diag.C138_samples' depends on axioms: [propext]
'GPry.Diag.C138_trace_partial' depends on axioms: [propext, Quot.sound]
'GPry.Diag.C138_mc_partial' depends on axioms: [propext, Quot.sound]
'GPry.Diag.C138_bad_points' depends on axioms: [propext, Classical.choice, Quot.sound]
'GPry.Diag.C138_explained' depends on axioms: [propext, Classical.choice, Quot.sound]
'GPry.Diag.C138_flags' depends on axioms: [propext, Classical.choice, Quot.sound]
'GPry.Diag.C138_set_lines' depends on axioms: [propext, Quot.sound]
'GPry.Diag.C138_question_counterexample' depends on axioms: [propext, Classical.choice, Quot.sound]
'GPry.Diag.C138_lines' depends on axioms: [propext, Classical.choice, Quot.sound]
'GPry.Diag.C138_lines_verdict' depends on axioms: [propext, Classical.choice, Quot.sound]
'GPry.TruthCob.C139_names' depends on axioms: [propext, Classical.choice, Quot.sound]
'GPry.TruthCob.C139_outside_partial' depends on axioms: [propext, Classical.choice, Quot.sound]
'GPry.TruthCob.C139_outside_counterexample' depends on axioms: [propext, Classical.choice, Quot.sound]
'GPry.TruthCob.C139_volume_partial' depends on axioms: [propext, Classical.choice, Quot.sound]
'GPry.TruthCob.C139_volume_counterexample' depends on axioms: [propext, Classical.choice, Quot.sound]
'GPry.TruthCob.C139_logp' depends on axioms: [propext, Classical.choice, Quot.sound]
'GPry.TruthCob.C139_reload' depends on axioms: [propext, Classical.choice, Quot.sound]
'GPry.Predict.C14_predict' depends on axioms: [propext, Classical.choice, Quot.sound]
'GPry.Predict.C14_ceiling' depends on axioms: [propext, Classical.choice, Quot.sound]
'GPry.Predict.C14_returns' depends on axioms: [propext, Classical.choice, Quot.sound]
'GPry.Predict.C14_batch' depends on axioms: [propext, Classical.choice, Quot.sound]
'GPry.BatchPre.C140_gradient' depends on axioms: [propext, Classical.choice, Quot.sound]
'GPry.BatchPre.C140_gradient_counterexample' depends on axioms: [propext, Classical.choice, Quot.sound]
'GPry.BatchPre.C140_gradient_mu' depends on axioms: [propext, Classical.choice, Quot.sound]
'GPry.BatchPre.C140_start' depends on axioms: [propext, Classical.choice, Quot.sound]
'GPry.BatchPre.C140_inside_partial' depends on axioms: [propext, Classical.choice, Quot.sound]
'GPry.BatchPre.C140_values' depends on axioms: [propext, Classical.choice, Quot.sound]
'GPry.BatchPre.C140_finite_partial' depends on axioms: [propext, Classical.choice, Quot.sound]
'GPry.BatchPre.C140_trust_counterexample' depends on axioms: [propext, Classical.choice, Quot.sound]
'GPry.BatchPre.C140_trust_region' depends on axioms: [propext, Classical.choice, Quot.sound]
'GPry.BatchPre.C140_infinite_counterexample' depends on axioms: [propext, Classical.choice, Quot.sound]
'GPry.BatchPre.C140_whiten_counterexample' depends on axioms: [propext, Classical.choice, Quot.sound]
'GPry.BatchPre.faithful_norm' depends on axioms: [propext, Classical.choice, Quot.sound]
'GPry.AcqPts.C141_pointwise' depends on axioms: [propext, Classical.choice, Quot.sound]
'GPry.AcqPts.C141_returns_iff' depends on axioms: [propext, Classical.choice, Quot.sound]
'GPry.AcqPts.C141_count' depends on axioms: [propext, Classical.choice, Quot.sound]
'GPry.AcqPts.C141_ei_partial' depends on axioms: [propext, Classical.choice, Quot.sound]
'GPry.AcqPts.C141_exponential' depends on axioms: [propext, Classical.choice, Quot.sound]
'GPry.AcqPts.C141_ei_counterexample' depends on axioms: [propext, Classical.choice, Quot.sound]
'GPry.AcqPts.C141_ei_sign' depends on axioms: [propext, Classical.choice, Quot.sound]
'GPry.AcqPts.C141_first_error' depends on axioms: [propext, Classical.choice, Quot.sound]
'GPry.AcqPts.C141_nonlinear' depends on axioms: [propext, Classical.choice, Quot.sound]
'GPry.AcqPts.C141_exponential_negative' depends on axioms: [propext, Classical.choice, Quot.sound]
'GPry.Gp.C142_mean' depends on axioms: [propext, Classical.choice, Quot.sound]
'GPry.Gp.C142_variance' depends on axioms: [propext, Classical.choice, Quot.sound]
'GPry.Gp.C142_lie_iff' depends on axioms: [propext, Classical.choice, Quot.sound]
'GPry.Gp.C142_at_point' depends on axioms: [propext, Classical.choice, Quot.sound]
'GPry.Gp.C142_order' depends on axioms: [propext, Classical.choice, Quot.sound]
'GPry.Gp.C142_batches' depends on axioms: [propext, Classical.choice, Quot.sound]
'GPry.Shift.C143_append' depends on axioms: [propext, Classical.choice, Quot.sound]
'GPry.Shift.C143_history' depends on axioms: [propext, Classical.choice, Quot.sound]
'GPry.Shift.C143_observers' depends on axioms: [propext, Classical.choice, Quot.sound]
'GPry.Shift.C143_preprocessors' depends on axioms: [propext, Classical.choice, Quot.sound]
'GPry.Shift.C143_initial' depends on axioms: [propext, Classical.choice, Quot.sound]
'GPry.Shift.C143_loop_partial' depends on axioms: [propext, Classical.choice, Quot.sound]
'GPry.Shift.C143_counter' depends on axioms: [propext, Quot.sound]
'GPry.Shift.C143_evals' depends on axioms: [propext, Classical.choice, Quot.sound]
'GPry.Shift.C143_trust' depends on axioms: [propext, Classical.choice, Quot.sound]
'GPry.Shift.C143_predict' depends on axioms: [propext, Classical.choice, Quot.sound]
'GPry.Shift.C143_std' depends on axioms: [propext, Classical.choice, Quot.sound]
'GPry.Shift.C143_gradient' depends on axioms: [propext, Classical.choice, Quot.sound]
'GPry.Shift.C143_acquisition' depends on axioms: [propext, Classical.choice, Quot.sound]
'GPry.Shift.C143_reweight' depends on axioms: [propext, Classical.choice, Quot.sound]
'GPry.Shift.C143_mu_counterexample' depends on axioms: [propext, Classical.choice, Quot.sound]
'GPry.Shift.C143_dummy_counterexample' depends on axioms: [propext, Classical.choice, Quot.sound]
'GPry.Shift.C143_ultranest_counterexample' depends on axioms: [propext, Classical.choice, Quot.sound]
'GPry.Spmd.C143_run_partial' depends on axioms: [propext, Classical.choice, Quot.sound]
'GPry.Batch.C143_batch' depends on axioms: [propext, Classical.choice, Quot.sound]
'GPry.PoolGp.C143_nora' depends on axioms: [propext, Classical.choice, Quot.sound]
'GPry.Units.C144_append' depends on axioms: [propext, Quot.sound]
'GPry.Units.C144_history' depends on axioms: [propext, Quot.sound]
'GPry.Units.C144_bounds' depends on axioms: [propext, Classical.choice, Quot.sound]
'GPry.Units.C144_preprocessors' depends on axioms: [propext, Classical.choice, Quot.sound]
'GPry.Units.C144_trust' depends on axioms: [propext, Classical.choice, Quot.sound]
'GPry.Units.C144_evals' depends on axioms: [propext, Classical.choice, Quot.sound]
'GPry.Units.C144_initial' depends on axioms: [propext, Quot.sound]
'GPry.Units.C144_loop_partial' depends on axioms: [propext, Quot.sound]
'GPry.Units.C144_predict' depends on axioms: [propext, Classical.choice, Quot.sound]
'GPry.Units.C144_std' depends on axioms: [propext, Classical.choice, Quot.sound]
'GPry.Units.C144_acquisition' depends on axioms: [propext, Classical.choice, Quot.sound]
'GPry.Units.C144_gradient_same' depends on axioms: [propext, Classical.choice, Quot.sound]
'GPry.Units.C144_gradient_counterexample' depends on axioms: [propext, Classical.choice, Quot.sound]
'GPry.Units.C144_proposal' depends on axioms: [propext, Classical.choice, Quot.sound]
'GPry.Units.C144_none_counterexample' depends on axioms: [propext, Classical.choice, Quot.sound]
'GPry.Round.C144_candidates_counterexample' depends on axioms: [propext, Classical.choice, Quot.sound]
'GPry.Input.C144_covmat_partial' depends on axioms: [propext, Classical.choice, Quot.sound]
'GPry.Input.C144_covmat_counterexample' depends on axioms: [propext, Classical.choice, Quot.sound]
'GPry.Spmd.C144_run_partial' depends on axioms: [propext, Classical.choice, Quot.sound]
'GPry.Batch.C144_batch' depends on axioms: [propext, Classical.choice, Quot.sound]
'GPry.PoolGp.C144_nora_partial' depends on axioms: [propext, Classical.choice, Quot.sound]
'GPry.PoolGp.C144_nora_counterexample' depends on axioms: [propext, Classical.choice, Quot.sound]
'GPry.Round.C145_unit' depends on axioms: [propext, Classical.choice, Quot.sound]
'GPry.Round.C145_inverse' depends on axioms: [propext, Classical.choice, Quot.sound]
'GPry.Round.C145_roundtrip' depends on axioms: [propext, Classical.choice, Quot.sound]
'GPry.Round.C145_shrink' depends on axioms: [propext, Classical.choice, Quot.sound]
'GPry.Round.C145_uniform' depends on axioms: [propext, Classical.choice, Quot.sound]
'GPry.Round.C145_upper_counterexample' depends on axioms: [propext, Classical.choice, Quot.sound]
'GPry.Round.C146_margin' depends on axioms: [propext, Classical.choice, Quot.sound]
'GPry.Round.C146_keep' depends on axioms: [propext, Classical.choice, Quot.sound]
'GPry.Round.C146_keep64' depends on axioms: [propext, Classical.choice, Quot.sound]
'GPry.Round.C146_counterexample' depends on axioms: [propext, Classical.choice, Quot.sound]
'GPry.Round.C146_keep_counterexample' depends on axioms: [propext, Classical.choice, Quot.sound]
'GPry.Round.C146_exact' depends on axioms: [propext, Classical.choice, Quot.sound]
'GPry.Round.C147_ceil' depends on axioms: [propext, Classical.choice, Quot.sound]
'GPry.Round.C147_floor' depends on axioms: [propext, Classical.choice, Quot.sound]
'GPry.Round.C147_whole' depends on axioms: [propext, Classical.choice, Quot.sound]
'GPry.Round.C147_decimal_partial' depends on axioms: [propext, Classical.choice, Quot.sound]
'GPry.Round.C147_decimal_whole' depends on axioms: [propext, Classical.choice, Quot.sound]
'GPry.Round.C147_counterexample' depends on axioms: [propext, Classical.choice, Quot.sound]
'GPry.Round.C147_ceil_counterexample' depends on axioms: [propext, Classical.choice, Quot.sound]
'GPry.Round.C148_roundtrip' depends on axioms: [propext, Classical.choice, Quot.sound]
'GPry.Round.C148_order' depends on axioms: [propext, Classical.choice, Quot.sound]
'GPry.Round.C148_ties_counterexample' depends on axioms: [propext, Classical.choice, Quot.sound]
'GPry.Round.C148_equal_counterexample' depends on axioms: [propext, Classical.choice, Quot.sound]
'GPry.Round.C148_two' depends on axioms: [propext, Classical.choice, Quot.sound]
'GPry.Round.C148_candidates' depends on axioms: [propext, Classical.choice, Quot.sound]
'GPry.Round.C148_tolerance_counterexample' depends on axioms: [propext, Classical.choice, Quot.sound]
'GPry.InitProp.C149_names' depends on axioms: [propext, Classical.choice, Quot.sound]
'GPry.InitProp.C149_other_names' depends on axioms: [propext, Classical.choice, Quot.sound]
'GPry.InitProp.C149_string_partial' depends on axioms: [propext, Classical.choice, Quot.sound]
'GPry.InitProp.C149_bounds' depends on axioms: [propext, Classical.choice, Quot.sound]
'GPry.InitProp.C149_meancov' depends on axioms: [propext, Classical.choice, Quot.sound]
'GPry.InitProp.C149_unknown_option' depends on axioms: [propext, Classical.choice, Quot.sound]
'GPry.InitProp.C149_none_counterexample' depends on axioms: [propext, Classical.choice, Quot.sound]
'GPry.InitProp.C149_meancov_counterexample' depends on axioms: [propext, Classical.choice, Quot.sound]
'GPry.InitProp.C149_lists_counterexample' depends on axioms: [propext, Classical.choice, Quot.sound]
'GPry.InitProp.C149_inside' depends on axioms: [propext, Quot.sound]
'GPry.InitProp.C149_first' depends on axioms: [propext, Classical.choice, Quot.sound]
'GPry.InitProp.C149_disjoint_counterexample' depends on axioms: [propext, Classical.choice, Quot.sound]
'GPry.InitProp.C149_mean' depends on axioms: [propext, Quot.sound]
'GPry.InitProp.C149_one_dimension_counterexample' depends on axioms: [propext]
'GPry.InitProp.C149_shapes' depends on axioms: [propext, Quot.sound]
'GPry.InitProp.C149_no_bounds' depends on axioms: [propext, Classical.choice, Quot.sound]
'GPry.InitProp.C149_limits' depends on axioms: [propext, Classical.choice, Quot.sound]
'GPry.InitProp.C149_meancov_refused' depends on axioms: [propext, Classical.choice, Quot.sound]
'GPry.Predict.C15_predict_std' depends on axioms: [propext, Classical.choice, Quot.sound]
'GPry.Predict.C15_untrained' depends on axioms: [propext, Classical.choice, Quot.sound]
'GPry.Order.C150_append' depends on axioms: [propext, Quot.sound]
'GPry.Order.C150_history' depends on axioms: [propext, Quot.sound]
'GPry.Order.C150_initial' depends on axioms: [propext, Quot.sound]
'GPry.Order.C150_loop_partial' depends on axioms: [propext, Quot.sound]
'GPry.Order.C150_bounds' depends on axioms: [propext, Quot.sound]
'GPry.Order.C150_trust' depends on axioms: [propext, Quot.sound]
'GPry.Order.C150_samples' depends on axioms: [propext, Quot.sound]
'GPry.Order.C150_evals' depends on axioms: [propext, Quot.sound]
'GPry.Order.C150_kernel' depends on axioms: [propext, Classical.choice, Quot.sound]
'GPry.Order.C150_kernel_gradient' depends on axioms: [propext, Classical.choice, Quot.sound]
'GPry.Order.C150_parts' depends on axioms: [propext, Classical.choice, Quot.sound]
'GPry.Order.C150_predict' depends on axioms: [propext, Classical.choice, Quot.sound]
'GPry.Order.C150_std' depends on axioms: [propext, Classical.choice, Quot.sound]
'GPry.Order.C150_gradient' depends on axioms: [propext, Classical.choice, Quot.sound]
'GPry.Order.C150_acquisition' depends on axioms: [propext, Classical.choice, Quot.sound]
'GPry.Order.C150_matrix' depends on axioms: [propext, Classical.choice, Quot.sound]
'GPry.Order.C150_preprocessors' depends on axioms: [propext, Classical.choice, Quot.sound]
'GPry.Order.C150_kl' depends on axioms: [propext, Classical.choice, Quot.sound]
'GPry.Order.C150_alignment' depends on axioms: [propext, Classical.choice, Quot.sound]
'GPry.Order.C150_distance_counterexample' depends on axioms: [propext, Classical.choice, Quot.sound]
'GPry.Spmd.C150_run_partial' depends on axioms: [propext, Classical.choice, Quot.sound]
'GPry.Batch.C150_batch' depends on axioms: [propext, Classical.choice, Quot.sound]
'GPry.PoolGp.C150_nora' depends on axioms: [propext, Classical.choice, Quot.sound]
'GPry.Round.C151_determinants_counterexample' depends on axioms: [propext, Classical.choice, Quot.sound]
'GPry.Round.C151_units_counterexample' depends on axioms: [propext, Classical.choice, Quot.sound]
'GPry.Round.C151_never_counterexample' depends on axioms: [propext, Classical.choice, Quot.sound]
'GPry.Round.C151_range_partial' depends on axioms: [propext, Classical.choice, Quot.sound]
'GPry.Round.C151_one_sided_counterexample' depends on axioms: [propext, Classical.choice, Quot.sound]
'GPry.Round.C151_equal' depends on axioms: [propext, Classical.choice, Quot.sound]
'GPry.Round.C151_equal_counterexample' depends on axioms: [propext, Classical.choice, Quot.sound]
'GPry.Round.C151_constant_counterexample' depends on axioms: [propext, Classical.choice, Quot.sound]
'GPry.Round.C151_exact' depends on axioms: [propext, Classical.choice, Quot.sound]
'GPry.Round.C151_overflow' depends on axioms: [propext, Classical.choice, Quot.sound]
'GPry.Round.C152_infinite_counterexample' depends on axioms: [propext, Classical.choice, Quot.sound]
'GPry.Round.C152_all_finite_counterexample' depends on axioms: [propext, Classical.choice, Quot.sound]
'GPry.Round.C152_finite_partial' depends on axioms: [propext, Classical.choice, Quot.sound]
'GPry.Gp.C153_repeated' depends on axioms: [propext, Classical.choice, Quot.sound]
'GPry.Gp.C153_same_noise' depends on axioms: [propext, Classical.choice, Quot.sound]
'GPry.Gp.C153_no_noise' depends on axioms: [propext, Classical.choice, Quot.sound]
'GPry.Gp.C154_order' depends on axioms: [propext, Classical.choice, Quot.sound]
'GPry.Gp.C154_chain' depends on axioms: [propext, Classical.choice, Quot.sound]
'GPry.Gp.C154_repeated' depends on axioms: [propext, Classical.choice, Quot.sound]
'GPry.Gp.C154_fit' depends on axioms: [propext, Classical.choice, Quot.sound]
'GPry.Gp.C154_many' depends on axioms: [propext, Classical.choice, Quot.sound]
'GPry.Gp.C154_many_fit' depends on axioms: [propext, Classical.choice, Quot.sound]
'GPry.Gp.C154_sum' depends on axioms: [propext, Classical.choice, Quot.sound]
'GPry.Round.C155_mask' depends on axioms: [propext, Classical.choice, Quot.sound]
'GPry.Round.C155_monotone' depends on axioms: [propext, Classical.choice, Quot.sound]
'GPry.Round.C155_exact' depends on axioms: [propext, Classical.choice, Quot.sound]
'GPry.Round.C155_underflow_counterexample' depends on axioms: [propext, Classical.choice, Quot.sound]
'GPry.Round.C155_ties_counterexample' depends on axioms: [propext, Classical.choice, Quot.sound]
'GPry.ProgRun.C156_table' depends on axioms: [propext, Classical.choice, Quot.sound]
'GPry.ProgRun.C156_whole_run' depends on axioms: [propext, Classical.choice, Quot.sound]
'GPry.ProgRun.C156_same' depends on axioms: [propext, Classical.choice, Quot.sound]
'GPry.ProgRun.C156_skipped' depends on axioms: [propext, Classical.choice, Quot.sound]
'GPry.ProgRun.C156_skipped_counterexample' depends on axioms: [propext, Classical.choice, Quot.sound]
'GPry.ProgRun.C156_pretrained_counterexample' depends on axioms: [propext, Classical.choice, Quot.sound]
'GPry.ProgRun.C156_failed_fit' depends on axioms: [propext, Quot.sound]
'GPry.DataOrder.C157_append' depends on axioms: [propext, Classical.choice, Quot.sound]
'GPry.DataOrder.C157_history_partial' depends on axioms: [propext, Classical.choice, Quot.sound]
'GPry.DataOrder.C157_observed' depends on axioms: [propext, Quot.sound]
'GPry.DataOrder.C157_training_set' depends on axioms: [propext, Classical.choice, Quot.sound]
'GPry.DataOrder.C157_regroup_partial' depends on axioms: [propext, Classical.choice, Quot.sound]
'GPry.DataOrder.C157_fit_y' depends on axioms: [propext, Classical.choice, Quot.sound]
'GPry.DataOrder.C157_linear_algebra' depends on axioms: [propext, Classical.choice, Quot.sound]
'GPry.DataOrder.C157_predict' depends on axioms: [propext, Classical.choice, Quot.sound]
'GPry.DataOrder.C157_trust' depends on axioms: [propext, Quot.sound]
'GPry.DataOrder.C157_samples' depends on axioms: [propext, Quot.sound]
'GPry.DataOrder.C157_evals' depends on axioms: [propext, Quot.sound]
'GPry.DataOrder.C157_nan_counterexample' depends on axioms: [propext, Classical.choice, Quot.sound]
'GPry.DataOrder.C157_regroup_counterexample' depends on axioms: [propext, Classical.choice, Quot.sound]
'GPry.DataOrder.C157_counter_counterexample' depends on axioms: [propext, Classical.choice, Quot.sound]
'GPry.PoolGp.C157_surrogate' depends on axioms: [propext, Classical.choice, Quot.sound]
'GPry.PoolGp.C157_cond' depends on axioms: [propext, Classical.choice, Quot.sound]
'GPry.PoolGp.C157_nora' depends on axioms: [propext, Classical.choice, Quot.sound]
'GPry.Batch.C157_batch_partial' depends on axioms: [propext, Classical.choice, Quot.sound]
'GPry.Batch.C157_batch_counterexample' depends on axioms: [propext, Quot.sound]
'GPry.PoolGp.C157_batch_gp_partial' depends on axioms: [propext, Classical.choice, Quot.sound]
'GPry.AcqPts.C158_given' depends on axioms: [propext, Classical.choice, Quot.sound]
'GPry.AcqPts.C158_between' depends on axioms: [propext, Classical.choice, Quot.sound]
'GPry.AcqPts.C158_documented_partial' depends on axioms: [propext, Classical.choice, Quot.sound]
'GPry.AcqPts.C158_documented_counterexample' depends on axioms: [propext, Classical.choice, Quot.sound]
'GPry.AcqPts.C158_blocked_counterexample' depends on axioms: [propext, Classical.choice, Quot.sound]
'GPry.Gpr.C158_infinite' depends on axioms: [propext, Classical.choice, Quot.sound]
'GPry.Run.C159_during' depends on axioms: [propext, Classical.choice, Quot.sound]
'GPry.Run.C159_final_banner' depends on axioms: [propext, Classical.choice, Quot.sound]
'GPry.Run.C159_left_partial' depends on axioms: [propext, Classical.choice, Quot.sound]
'GPry.Run.C159_left_at_least' depends on axioms: [propext, Classical.choice, Quot.sound]
'GPry.Run.C159_left_counterexample' depends on axioms: [propext]
'GPry.Run.C159_giving_up_counterexample' depends on axioms: [propext]
'GPry.Run.C159_negative_counterexample' depends on axioms: [propext]
'GPry.Run.C159_evaluation' depends on axioms: [propext, Classical.choice, Quot.sound]
'GPry.Run.C159_fit_partial' depends on axioms: [propext, Classical.choice, Quot.sound]
'GPry.Run.C159_fit_counterexample' depends on axioms: [propext, Classical.choice, Quot.sound]
'GPry.Run.C159_initial_fit' depends on axioms: [propext, Classical.choice, Quot.sound]
'GPry.Run.C159_initial_partial' depends on axioms: [propext, Quot.sound]
'GPry.Run.C159_initial_counterexample' depends on axioms: [propext, Classical.choice, Quot.sound]
'GPry.Gp.C16_kriging_believer_partial' depends on axioms: [propext, Classical.choice, Quot.sound]
'GPry.Gp.C16_clip_counterexample' depends on axioms: [propext, Classical.choice, Quot.sound]
'GPry.PoolGp.C16_predict_partial' depends on axioms: [propext, Classical.choice, Quot.sound]
'GPry.GprLml.C160_fit_partial' depends on axioms: [propext, Quot.sound]
'GPry.GprLml.C160_history_partial' depends on axioms: [propext, Quot.sound]
'GPry.GprLml.C160_keep_iff' depends on axioms: [propext, Quot.sound]
'GPry.GprLml.C160_counterexample' depends on axioms: [propext, Classical.choice, Quot.sound]
'GPry.Run.C161_continue_partial' depends on axioms: [propext]
'GPry.Run.C161_saved' does not depend on any axioms
'GPry.Run.C161_converged_counterexample' depends on axioms: [propext, Quot.sound]
'GPry.Run.C161_fits_partial' depends on axioms: [propext]
'GPry.Run.C161_fits_only_if' depends on axioms: [propext, Quot.sound]
'GPry.Run.C161_fits_default_iff' depends on axioms: [propext, Quot.sound]
'GPry.Run.C161_never_full_counterexample' depends on axioms: [propext, Quot.sound]
'GPry.Run.C161_number_of_fits' depends on axioms: [propext, Classical.choice, Quot.sound]
'GPry.Rng.C162_generator_counterexample' depends on axioms: [propext]
'GPry.Run.C162_warning_counterexample' depends on axioms: [propext, Classical.choice, Quot.sound]
'GPry.Run.C162_distinct_partial' depends on axioms: [propext, Classical.choice, Quot.sound]
'GPry.Run.C162_repeated_counterexample' depends on axioms: [propext, Classical.choice, Quot.sound]
'GPry.Run.C162_cannot_start_counterexample' depends on axioms: [propext, Classical.choice, Quot.sound]
'GPry.Rng.C162_generator_classifier' does not depend on any axioms
'GPry.Gpr.C163_kept_partial' depends on axioms: [propext, Classical.choice, Quot.sound]
'GPry.Gpr.C163_refit' depends on axioms: [propext, Classical.choice, Quot.sound]
'GPry.Gpr.C163_counterexample' depends on axioms: [propext, Classical.choice, Quot.sound]
'GPry.Gpr.C163_return_partial' depends on axioms: [propext, Classical.choice, Quot.sound]
'GPry.Gpr.C163_return_counterexample' depends on axioms: [propext, Quot.sound]
'GPry.Proposed.C164_nora' depends on axioms: [propext, Classical.choice, Quot.sound]
'GPry.Proposed.C164_batch_partial' depends on axioms: [propext, Classical.choice, Quot.sound]
'GPry.Proposed.C164_batch_counterexample' depends on axioms: [propext, Quot.sound]
'GPry.Proposed.C164_other_counterexample' depends on axioms: [propext, Classical.choice, Quot.sound]
'GPry.Proposed.C165_values_partial' depends on axioms: [propext, Classical.choice, Quot.sound]
'GPry.Proposed.C165_sigma_n_counterexample' depends on axioms: [propext, Classical.choice, Quot.sound]
'GPry.Proposed.C165_array_counterexample' depends on axioms: [propext, Classical.choice, Quot.sound]
'GPry.Proposed.C165_zeta_counterexample' depends on axioms: [propext, Classical.choice, Quot.sound]
'GPry.Proposed.C165_one_noise_level' depends on axioms: [propext, Classical.choice, Quot.sound]
'GPry.Proposed.C165_comparisons' depends on axioms: [propext, Classical.choice, Quot.sound]
'GPry.Again.C166_acquisition' depends on axioms: [propext, Classical.choice, Quot.sound]
'GPry.Again.C166_nora' depends on axioms: [propext, Classical.choice, Quot.sound]
'GPry.Again.C166_batch_partial' depends on axioms: [propext, Classical.choice, Quot.sound]
'GPry.Again.C166_lie_counterexample' depends on axioms: [propext, Classical.choice, Quot.sound]
'GPry.Again.C166_individual_counterexample' depends on axioms: [propext, Classical.choice, Quot.sound]
'GPry.Again.C166_sigma_n_counterexample' depends on axioms: [propext, Classical.choice, Quot.sound]
'GPry.Again.C166_where' depends on axioms: [propext, Classical.choice, Quot.sound]
'GPry.Again.C166_infinite_partial' depends on axioms: [propext, Classical.choice, Quot.sound]
'GPry.Again.C166_infinite_counterexample' depends on axioms: [propext, Classical.choice, Quot.sound]
'GPry.Again.C166_nora_infinite_counterexample' depends on axioms: [propext, Classical.choice, Quot.sound]
'GPry.PoolGp.C167_shrinks' depends on axioms: [propext, Classical.choice, Quot.sound]
'GPry.PoolGp.C167_lie' depends on axioms: [propext, Classical.choice, Quot.sound]
'GPry.PoolGp.C167_nora' depends on axioms: [propext, Classical.choice, Quot.sound]
'GPry.PoolGp.C167_classifier_counterexample' depends on axioms: [propext, Classical.choice, Quot.sound]
'GPry.PoolGp.C167_shrinks_classifier_partial' depends on axioms: [propext, Classical.choice, Quot.sound]
'GPry.PoolGp.C167_lie_classifier_partial' depends on axioms: [propext, Classical.choice, Quot.sound]
'GPry.PoolGp.C167_nora_classifier_partial' depends on axioms: [propext, Classical.choice, Quot.sound]
'GPry.PoolGp.C167_clip_one' depends on axioms: [propext, Classical.choice, Quot.sound]
'GPry.PoolGp.C167_nora_clip_one' depends on axioms: [propext, Classical.choice, Quot.sound]
'GPry.Ranked.C168_greedy_partial' depends on axioms: [propext, Classical.choice, Quot.sound]
'GPry.Ranked.C168_same_partial' depends on axioms: [propext, Classical.choice, Quot.sound]
'GPry.Ranked.C168_counterexample' depends on axioms: [propext, Classical.choice, Quot.sound]
'GPry.NoraSpmd.C168_first' depends on axioms: [propext, Classical.choice, Quot.sound]
'GPry.Batch.C58_parallel' depends on axioms: [propext, Classical.choice, Quot.sound]
'GPry.ConvSave.C169_saved' depends on axioms: [propext, Quot.sound]
'GPry.ConvSave.C169_gaussian' depends on axioms: [propext, Quot.sound]
'GPry.ConvSave.C169_original_counterexample' depends on axioms: [propext, Quot.sound]
'GPry.ConvSave.mcmcOf_done' depends on axioms: [propext, Quot.sound]
'GPry.Gp.C17_variance_antitone' depends on axioms: [propext, Classical.choice, Quot.sound]
'GPry.Gp.C17_variance_nonneg' depends on axioms: [propext, Classical.choice, Quot.sound]
'GPry.Acq.C17_logexp' depends on axioms: [propext, Classical.choice, Quot.sound]
'GPry.Ranked.C170_copy' depends on axioms: [propext, Classical.choice, Quot.sound]
'GPry.Ranked.C170_length_counterexample' depends on axioms: [propext, Classical.choice, Quot.sound]
'GPry.Ranked.C170_full' depends on axioms: [propext, Classical.choice, Quot.sound]
'GPry.Ranked.C170_twice' depends on axioms: [propext, Classical.choice, Quot.sound]
'GPry.Ranked.C170_reset' depends on axioms: [propext, Classical.choice, Quot.sound]
'GPry.PoolGp.C171_predictions_partial' depends on axioms: [propext, Classical.choice, Quot.sound]
'GPry.PoolGp.C171_counterexample' depends on axioms: [propext, Classical.choice, Quot.sound]
'GPry.PoolGp.C171_classifier_partial' depends on axioms: [propext, Classical.choice, Quot.sound]
'GPry.PoolGp.C171_first_partial' depends on axioms: [propext, Classical.choice, Quot.sound]
'GPry.PoolGp.C171_outside_counterexample' depends on axioms: [propext, Classical.choice, Quot.sound]
'GPry.PoolGp.C172_counted_partial' depends on axioms: [propext, Classical.choice, Quot.sound]
'GPry.PoolGp.C172_counted_classifier_partial' depends on axioms: [propext, Classical.choice, Quot.sound]
'GPry.PoolGp.C172_clip_counterexample' depends on axioms: [propext, Classical.choice, Quot.sound]
'GPry.PoolGp.C172_outside_counterexample' depends on axioms: [propext, Classical.choice, Quot.sound]
'GPry.Tools.C173_product' depends on axioms: [propext, Classical.choice, Quot.sound]
'GPry.Tools.C173_read' depends on axioms: [propext, Quot.sound]
'GPry.Tools.C173_letter' depends on axioms: [propext, Quot.sound]
'GPry.Tools.C173_int_counterexample' depends on axioms: [propext, Classical.choice, Quot.sound]
'GPry.Gp.C18_residual' depends on axioms: [propext, Classical.choice, Quot.sound]
'GPry.Gp.C18_std' depends on axioms: [propext, Classical.choice, Quot.sound]
'GPry.Gpr.C19_factors_fresh_partial' depends on axioms: [propext, Classical.choice, Quot.sound]
'GPry.Gpr.C19_option_B_stale' depends on axioms: [propext, Quot.sound]
'GPry.Gpr.C19_option_B_counterexample' depends on axioms: [propext, Classical.choice, Quot.sound]
'GPry.Gpr.C19_option_C_stale_counterexample' depends on axioms: [propext, Classical.choice, Quot.sound]
'GPry.Copy.C20_independent_partial' depends on axioms: [propext, Quot.sound]
'GPry.Copy.C20_faithful_partial' depends on axioms: [propext, Quot.sound]
'GPry.Copy.C20_sharing_counterexample' depends on axioms: [propext, Classical.choice, Quot.sound]
'GPry.Predict.C20_std' depends on axioms: [propext, Classical.choice, Quot.sound]
'GPry.Predict.C20_trust_counterexample' depends on axioms: [propext, Classical.choice, Quot.sound]
'GPry.Predict.C20_clip_counterexample' depends on axioms: [propext, Classical.choice, Quot.sound]
'GPry.Copy.C20_faithful_iff' depends on axioms: [propext, Quot.sound]
'GPry.Trust.C21_trust' depends on axioms: [propext, Classical.choice, Quot.sound]
'GPry.Trust.C21_empty' depends on axioms: [propext, Quot.sound]
'GPry.Trust.C21_no_factor' depends on axioms: [propext, Quot.sound]
'GPry.Ranked.C22_single_sorted' depends on axioms: [propext, Classical.choice, Quot.sound]
'GPry.Ranked.C22_bulk_sorted' depends on axioms: [propext, Classical.choice, Quot.sound]
'GPry.Ranked.C22_bulk_twice_counterexample' depends on axioms: [propext, Quot.sound]
'GPry.Ranked.C22_bulk_increase_counterexample' depends on axioms: [propext]
'GPry.Ranked.C23_any_history' depends on axioms: [propext, Classical.choice, Quot.sound]
'GPry.Ranked.C23_single_content' depends on axioms: [propext, Classical.choice, Quot.sound]
'GPry.Ranked.C23_bulk_content' depends on axioms: [propext, Classical.choice, Quot.sound]
'GPry.Ranked.C24_single_top' depends on axioms: [propext, Classical.choice, Quot.sound]
'GPry.Ranked.C24_bulk_top' depends on axioms: [propext, Classical.choice, Quot.sound]
'GPry.Ranked.C22_bulk_twice_counterexample' depends on axioms: [propext, Quot.sound]
'GPry.Ranked.C24_bulk_infinite_counterexample' depends on axioms: [propext, Classical.choice, Quot.sound]
'GPry.Ranked.C25_add_succeeds' depends on axioms: [propext, Classical.choice, Quot.sound]
'GPry.Ranked.C25_single_shape' depends on axioms: [propext, Classical.choice, Quot.sound]
'GPry.Ranked.C25_bulk_shape' depends on axioms: [propext, Classical.choice, Quot.sound]
'GPry.Ranked.C24_bulk_infinite_counterexample' depends on axioms: [propext, Classical.choice, Quot.sound]
'GPry.Ranked.C26_bulk_greedy' depends on axioms: [propext, Classical.choice, Quot.sound]
'GPry.Ranked.C26_single_greedy_partial' depends on axioms: [propext, Classical.choice, Quot.sound]
'GPry.Ranked.C26_single_eq_bulk_partial' depends on axioms: [propext, Classical.choice, Quot.sound]
'GPry.Ranked.C26_single_not_greedy_counterexample' depends on axioms: [propext, Classical.choice, Quot.sound]
'GPry.Ranked.C168_counterexample' depends on axioms: [propext, Classical.choice, Quot.sound]
'GPry.Ranked.C27_add_one_terminates' depends on axioms: [propext, Classical.choice, Quot.sound]
'GPry.Ranked.C28_merge' depends on axioms: [propext, Classical.choice, Quot.sound]
'GPry.Ranked.step_split_perm' depends on axioms: [propext, Classical.choice, Quot.sound]
'GPry.Nora.C29_candidates_partial' depends on axioms: [propext, Classical.choice, Quot.sound]
'GPry.Nora.C29_one_dim' depends on axioms: [propext, Classical.choice, Quot.sound]
'GPry.Nora.C29_swapped_counterexample' depends on axioms: [propext, Quot.sound]
'GPry.Nora.C29_history_partial' depends on axioms: [propext, Classical.choice, Quot.sound]
'GPry.Nora.C29_twice_counterexample' depends on axioms: [propext, Quot.sound]
'GPry.Nora.C30_reweight_partial' depends on axioms: [propext, Classical.choice, Quot.sound]
'GPry.Nora.C30_last' depends on axioms: [propext, Classical.choice, Quot.sound]
'GPry.Nora.C30_shown' depends on axioms: [propext, Classical.choice, Quot.sound]
'GPry.Nora.C30_old_infinite_counterexample' depends on axioms: [propext, Classical.choice, Quot.sound]
'GPry.Nora.C30_new_infinite_counterexample' depends on axioms: [propext, Classical.choice, Quot.sound]
'GPry.Nora.C30_no_points' depends on axioms: [propext, Classical.choice, Quot.sound]
'GPry.Nora.C31_schedule' depends on axioms: [propext, Classical.choice, Quot.sound]
'GPry.Nora.C31_window' depends on axioms: [propext, Classical.choice, Quot.sound]
'GPry.Nora.C31_zero' depends on axioms: [propext, Quot.sound]
'GPry.Run.C32_terminates_within_budget' depends on axioms: [propext, Classical.choice, Quot.sound]
'GPry.Run.C32_whole_run' depends on axioms: [propext, Classical.choice, Quot.sound]
'GPry.Spmd.C54_loop_mpi' depends on axioms: [propext, Classical.choice, Quot.sound]
'GPry.Run.C33_exit_reasons' depends on axioms: [propext, Classical.choice, Quot.sound]
'GPry.Run.C34_policies' depends on axioms: [propext, Classical.choice, Quot.sound]
'GPry.Run.C34_order_irrelevant' depends on axioms: [propext, Classical.choice, Quot.sound]
'GPry.Run.C34_monitors_irrelevant' depends on axioms: [propext, Classical.choice, Quot.sound]
'GPry.Run.C34_dont_converge' depends on axioms: [propext, Classical.choice, Quot.sound]
'GPry.Conv.C35_correct_counter' depends on axioms: [propext, Classical.choice, Quot.sound]
'GPry.Conv.C35_exceptions' depends on axioms: [propext, Classical.choice, Quot.sound]
'GPry.Conv.C36_gaussian_kl' depends on axioms: [propext, Classical.choice, Quot.sound]
'GPry.Conv.C36_train_partial' depends on axioms: [propext, Classical.choice, Quot.sound]
'GPry.Conv.C36_train_counterexample' depends on axioms: [propext, Classical.choice, Quot.sound]
'GPry.Spmd.C37_aware' depends on axioms: [propext, Quot.sound]
'GPry.Spmd.C37_not_aware' depends on axioms: [propext, Quot.sound]
'GPry.Spmd.C37_check_convergence' depends on axioms: [propext, Classical.choice, Quot.sound]
'GPry.Spmd.C37_mean_cov_from_acquisition' depends on axioms: [propext, Quot.sound]
'GPry.Spmd.C37_mean_cov_from_mc_partial' depends on axioms: [propext, Quot.sound]
'GPry.Spmd.C37_other_exception_deadlocks' depends on axioms: [propext, Quot.sound]
'GPry.Spmd.C37_main_exception_deadlocks' depends on axioms: [propext, Quot.sound]
'GPry.Spmd.C37_mc_comparison_deadlocks' depends on axioms: [propext, Quot.sound]
'GPry.Run.C38_schedule_partial' depends on axioms: [propext, Classical.choice, Quot.sound]
'GPry.Run.C38_skipped_counterexample' depends on axioms: [propext]
'GPry.Run.C39_best_process' depends on axioms: [propext, Classical.choice, Quot.sound]
'GPry.Spmd.C39_fit_mpi' depends on axioms: [propext, Classical.choice, Quot.sound]
'GPry.Truth.C40_bounds_partial' depends on axioms: [propext, Classical.choice, Quot.sound]
'GPry.Truth.C40_infinite_counterexample' depends on axioms: [propext, Classical.choice, Quot.sound]
'GPry.Truth.C40_unbounded_counterexample' depends on axioms: [propext, Classical.choice, Quot.sound]
'GPry.Truth.C40_width_counterexample' depends on axioms: [propext, Classical.choice, Quot.sound]
'GPry.Truth.C40_exchanged' depends on axioms: [propext, Classical.choice, Quot.sound]
'GPry.Truth.C41_values_partial' depends on axioms: [propext, Quot.sound]
'GPry.Truth.C41_refused' depends on axioms: [propext, Classical.choice, Quot.sound]
'GPry.Truth.C41_reload_partial' depends on axioms: [propext, Quot.sound]
'GPry.Truth.C41_truth_partial' depends on axioms: [propext, Classical.choice, Quot.sound]
'GPry.Truth.C41_reload_counterexample' depends on axioms: [propext]
'GPry.Truth.C41_vector_counterexample' depends on axioms: [propext]
'GPry.Truth.C41_option_counterexample' depends on axioms: [propext]
'GPry.Truth.C41_keyword_counterexample' depends on axioms: [propext, Classical.choice, Quot.sound]
'GPry.Truth.C41_defaults' depends on axioms: [propext, Classical.choice, Quot.sound]
'GPry.Truth.C41_varargs_counterexample' depends on axioms: [propext, Classical.choice, Quot.sound]
'GPry.Io.C42_crash_partial' depends on axioms: [propext, Classical.choice, Quot.sound]
'GPry.Io.C42_first' depends on axioms: [propext, Classical.choice, Quot.sound]
'GPry.Io.C42_mixed_counterexample' depends on axioms: [propext, Classical.choice, Quot.sound]
'GPry.Io.C43_read_back' depends on axioms: [propext, Classical.choice, Quot.sound]
'GPry.Io.C43_never_none' depends on axioms: [propext, Quot.sound]
'GPry.Io.C43_runner' depends on axioms: [propext, Classical.choice, Quot.sound]
'GPry.Io.C43_ensure_partial' depends on axioms: [propext, Quot.sound]
'GPry.Io.C43_empty_options_counterexample' depends on axioms: [propext]
'GPry.Io.C43_no_truth' depends on axioms: [propext]
'GPry.Proposal.C44_inside_partial' depends on axioms: [propext, Classical.choice, Quot.sound]
'GPry.Proposal.C44_first_inside' depends on axioms: [propext, Classical.choice, Quot.sound]
'GPry.Proposal.C44_partial_counterexample' depends on axioms: [propext, Classical.choice, Quot.sound]
'GPry.Proposal.C44_centroids_order' depends on axioms: [propext, Classical.choice, Quot.sound]
'GPry.Proposal.C44_centroids' depends on axioms: [propext, Classical.choice, Quot.sound]
'GPry.Tools.C45_shrink_partial' depends on axioms: [propext, Classical.choice, Quot.sound]
'GPry.Tools.C45_inverted_counterexample' depends on axioms: [propext, Classical.choice, Quot.sound]
'GPry.Tools.C45_empty' depends on axioms: [propext, Quot.sound]
'GPry.Tools.C46_closed_box' depends on axioms: [propext, Quot.sound]
'GPry.Tools.C46_coordinates' depends on axioms: [propext, Quot.sound]
'GPry.Tools.C47_in_training' depends on axioms: [propext, Quot.sound]
'GPry.Tools.C47_filter_partial' depends on axioms: [propext, Classical.choice, Quot.sound]
'GPry.Tools.C47_one_dimension' depends on axioms: [propext, Classical.choice, Quot.sound]
'GPry.Tools.C47_fresh_dropped_counterexample' depends on axioms: [propext]
'GPry.Tools.C47_infinite_counterexample' depends on axioms: [propext, Classical.choice, Quot.sound]
'GPry.Tools.C48_value' depends on axioms: [propext, Quot.sound]
'GPry.Tools.C48_plain' depends on axioms: [propext, Classical.choice, Quot.sound]
'GPry.Tools.C48_errors' depends on axioms: [propext, Classical.choice, Quot.sound]
'GPry.Tools.C48_overflow_counterexample' depends on axioms: [propext, Classical.choice, Quot.sound]
'GPry.Tools.C48_not_finite' depends on axioms: [propext, Classical.choice, Quot.sound]
'GPry.Tools.C48_finite' depends on axioms: [propext, Quot.sound]
'GPry.Tools.C48_plain_finite' depends on axioms: [propext, Classical.choice, Quot.sound]
'GPry.Tools.C49_remove' depends on axioms: [propext, Classical.choice, Quot.sound]
'GPry.Tools.C49_length_mismatch' depends on axioms: [propext, Quot.sound]
'GPry.Tools.C49_weighted_sum' depends on axioms: [propext, Classical.choice, Quot.sound]
'GPry.Acq.C50_values' depends on axioms: [propext, Classical.choice, Quot.sound]
'GPry.Acq.C50_increasing' depends on axioms: [propext, Classical.choice, Quot.sound]
'GPry.Acq.C50_baseline' depends on axioms: [propext, Classical.choice, Quot.sound]
'GPry.Acq.C51_gradient_partial' depends on axioms: [propext, Classical.choice, Quot.sound]
'GPry.Acq.C51_noise_counterexample' depends on axioms: [propext, Classical.choice, Quot.sound]
'GPry.Acq.C51_exceptions_counterexample' depends on axioms: [propext, Classical.choice, Quot.sound]
'GPry.Acq.C51_one_noise' depends on axioms: [propext, Classical.choice, Quot.sound]
'GPry.Acq.C51_below_noise' depends on axioms: [propext, Classical.choice, Quot.sound]
'GPry.Acq.C51_array_counterexample' depends on axioms: [propext, Classical.choice, Quot.sound]
'GPry.Acq.C52_composition_partial' depends on axioms: [propext, Classical.choice, Quot.sound]
'GPry.AcqExt.C52_nonfinite_partial' depends on axioms: [propext, Classical.choice, Quot.sound]
'GPry.AcqExt.C52_finite_partial' depends on axioms: [propext, Classical.choice, Quot.sound]
'GPry.AcqExt.C52_zero_base_counterexample' depends on axioms: [propext, Classical.choice, Quot.sound]
'GPry.AcqExt.C52_power_zero' depends on axioms: [propext, Classical.choice, Quot.sound]
'GPry.AcqExt.C52_power_infinite' depends on axioms: [propext, Classical.choice, Quot.sound]
'GPry.AcqExt.C52_power_of_zero' depends on axioms: [propext, Classical.choice, Quot.sound]
'GPry.AcqExt.C52_sum_infinite' depends on axioms: [propext, Classical.choice, Quot.sound]
'GPry.AcqExt.C52_product_infinite' depends on axioms: [propext, Classical.choice, Quot.sound]
'GPry.Kernels.C53_gradient_partial' depends on axioms: [propext, Classical.choice, Quot.sound]
'GPry.Kernels.C53_returns_partial' depends on axioms: [propext, Classical.choice, Quot.sound]
'GPry.Kernels.C53_nested_product_counterexample' depends on axioms: [propext, Classical.choice, Quot.sound]
'GPry.Kernels.C53_matern12_counterexample' depends on axioms: [propext, Classical.choice, Quot.sound]
'GPry.Kernels.C53_returns_iff' depends on axioms: [propext, Classical.choice, Quot.sound]
'GPry.Run.C54_initial_training_partial' depends on axioms: [propext, Classical.choice, Quot.sound]
'GPry.Run.C54_budget_partial' depends on axioms: [propext, Quot.sound]
'GPry.Run.C54_budget_counterexample' depends on axioms: [propext, Classical.choice, Quot.sound]
'GPry.Run.C54_pretrained_counterexample' depends on axioms: [propext, Classical.choice, Quot.sound]
'GPry.Run.C54_zero_division_counterexample' depends on axioms: [propext, Classical.choice, Quot.sound]
'GPry.Run.C54_counted' depends on axioms: [propext, Classical.choice, Quot.sound]
'GPry.Spmd.loop_serial' depends on axioms: [propext, Classical.choice, Quot.sound]
'GPry.Progress.C55_mpi_sync' depends on axioms: [propext, Classical.choice, Quot.sound]
'GPry.Progress.C55_one_process' depends on axioms: [propext, Quot.sound]
'GPry.Progress.C55_empty' depends on axioms: [propext, Quot.sound]
'GPry.Progress.C55_fill' depends on axioms: [propext, Quot.sound]
'GPry.Tools.C56_with' does not depend on any axioms
'GPry.Tools.C56_nested' depends on axioms: [propext]
'GPry.Tools.C56_early_handler_counterexample' does not depend on any axioms
'GPry.Tools.C57_split_partial' depends on axioms: [propext, Quot.sound]
'GPry.Tools.C57_injective_partial' depends on axioms: [propext, Quot.sound]
'GPry.Tools.C57_collision_counterexample' depends on axioms: [propext, Quot.sound]
'GPry.Batch.C58_parallel' depends on axioms: [propext, Classical.choice, Quot.sound]
'GPry.Batch.C58_refused' depends on axioms: [propext, Quot.sound]
'GPry.Batch.C58_zero_restarts_counterexample' depends on axioms: [propext, Classical.choice, Quot.sound]
'GPry.Batch.C58_batch_partial' depends on axioms: [propext, Classical.choice, Quot.sound]
'GPry.Batch.C58_inside' depends on axioms: [propext, Classical.choice, Quot.sound]
'GPry.Batch.C58_nan_counterexample' depends on axioms: [propext]
'GPry.Batch.C58_surrogate' depends on axioms: [propext, Classical.choice, Quot.sound]
'GPry.Batch.C58_lie_noise' depends on axioms: [propext, Classical.choice, Quot.sound]
'GPry.Batch.C58_last' depends on axioms: [propext, Classical.choice, Quot.sound]
'GPry.Acq.C59_roundtrip_partial' depends on axioms: [propext, Classical.choice, Quot.sound]
'GPry.Acq.C59_alias_counterexample' depends on axioms: [propext, Classical.choice, Quot.sound]
'GPry.Acq.C59_logexp_counterexample' depends on axioms: [propext, Classical.choice, Quot.sound]
'GPry.Acq.C59_too_long' depends on axioms: [propext, Classical.choice, Quot.sound]
'GPry.Stat.C60_divergence' depends on axioms: [propext, Classical.choice, Quot.sound]
'GPry.Stat.C60_affine_invariant' depends on axioms: [propext, Classical.choice, Quot.sound]
'GPry.Stat.C60_is_divergence' depends on axioms: [propext, Classical.choice, Quot.sound]
'GPry.Stat.C61_diagonal_partial' depends on axioms: [propext, Classical.choice, Quot.sound]
'GPry.Stat.C61_correlated_counterexample' depends on axioms: [propext, Classical.choice, Quot.sound]
'GPry.Nora.C62_ultranest_partial' depends on axioms: [propext, Classical.choice, Quot.sound]
'GPry.Nora.C62_ultranest_counterexample' depends on axioms: [propext, Classical.choice, Quot.sound]
'GPry.Gpr.C63_n_total_partial' depends on axioms: [propext, Classical.choice, Quot.sound]
'GPry.Gpr.C63_stale_counterexample' depends on axioms: [propext, Classical.choice, Quot.sound]
'GPry.Cobaya.C64_files_partial' depends on axioms: [propext, Classical.choice, Quot.sound]
'GPry.Cobaya.C64_truth_counterexample' depends on axioms: [propext, Classical.choice, Quot.sound]
'GPry.Cobaya.C64_no_output_counterexample' depends on axioms: [propext, Classical.choice, Quot.sound]
'GPry.Cobaya.C64_prefix' depends on axioms: [propext, Classical.choice, Quot.sound]
'GPry.Cobaya.C65_model_partial' depends on axioms: [propext, Classical.choice, Quot.sound]
'GPry.Cobaya.C65_refused' depends on axioms: [propext, Classical.choice, Quot.sound]
'GPry.Cobaya.C65_list_counterexample' depends on axioms: [propext, Classical.choice, Quot.sound]
'GPry.Cobaya.C65_repeated_counterexample' depends on axioms: [propext, Classical.choice, Quot.sound]
'GPry.Cobaya.C65_no_bounds' depends on axioms: [propext, Classical.choice, Quot.sound]
'GPry.Gpr.C66_consistent_after_finite_partial' depends on axioms: [propext, Classical.choice, Quot.sound]
'GPry.Gpr.C66_consistent_partial' depends on axioms: [propext, Classical.choice, Quot.sound]
'GPry.Gpr.C66_stale_counterexample' depends on axioms: [propext, Classical.choice, Quot.sound]
'GPry.Gpr.C66_noise_stale_counterexample' depends on axioms: [propext, Classical.choice, Quot.sound]
'GPry.Predict.C67_mean_partial' depends on axioms: [propext, Classical.choice, Quot.sound]
'GPry.Predict.C67_std_partial' depends on axioms: [propext, Classical.choice, Quot.sound]
'GPry.Predict.C67_std_counterexample' depends on axioms: [propext, Classical.choice, Quot.sound]
'GPry.Predict.C67_clip_counterexample' depends on axioms: [propext, Classical.choice, Quot.sound]
'GPry.Run.C68_options_consistent' depends on axioms: [propext, Quot.sound]
'GPry.Run.C68_defaults_accepted' depends on axioms: [propext, Classical.choice, Quot.sound]
'GPry.Run.C68_small_total_refused' depends on axioms: [propext, Quot.sound]
'GPry.Run.C68_rounding' depends on axioms: [propext, Quot.sound]
'GPry.Cobaya.C69_acquisition_partial' depends on axioms: [propext, Classical.choice, Quot.sound]
'GPry.Cobaya.C69_gpr_partial' depends on axioms: [propext, Quot.sound]
'GPry.Cobaya.C69_runner_counterexample' depends on axioms: [propext, Classical.choice, Quot.sound]
'GPry.Cobaya.C69_string_refused' depends on axioms: [propext, Classical.choice, Quot.sound]
'GPry.Gpr.C70_poisoned' depends on axioms: [propext, Classical.choice, Quot.sound]
'GPry.Gpr.C70_never_recovers' depends on axioms: [propext, Classical.choice, Quot.sound]
'GPry.Pre.C71_learn_never_works' depends on axioms: [propext, Classical.choice, Quot.sound]
'GPry.Pre.C72_equal_targets_raise' depends on axioms: [propext, Classical.choice, Quot.sound]
'GPry.Pre.C72_counterexamples' depends on axioms: [propext, Classical.choice, Quot.sound]
'GPry.Pre.C73_bounds_enclose' depends on axioms: [propext, Classical.choice, Quot.sound]
'GPry.Pre.C73_bounds_tight' depends on axioms: [propext, Classical.choice, Quot.sound]
'GPry.Ranked.C74_single_is_ranking' depends on axioms: [propext, Classical.choice, Quot.sound]
'GPry.Spmd.C54_loop_mpi' depends on axioms: [propext, Classical.choice, Quot.sound]
'GPry.Spmd.C75_run_partial' depends on axioms: [propext, Classical.choice, Quot.sound]
'GPry.Spmd.C75_unconverged_deadlocks' depends on axioms: [propext, Classical.choice, Quot.sound]
'GPry.Spmd.run_serial' depends on axioms: [propext, Classical.choice, Quot.sound]
'GPry.Run.C76_resumed_never_finishes' depends on axioms: [propext, Quot.sound]
'GPry.Run.C76_counterexample' depends on axioms: [propext]
'GPry.Spmd.C77_initial_training_partial' depends on axioms: [propext, Quot.sound]
'GPry.Spmd.C77_failure_deadlocks' depends on axioms: [propext, Quot.sound]
'GPry.Spmd.C03_eval_truth_mpi' depends on axioms: [propext, Classical.choice, Quot.sound]
'GPry.Spmd.C78_truth_exception_deadlocks' depends on axioms: [propext, Quot.sound]
'GPry.Spmd.C39_fit_mpi' depends on axioms: [propext, Classical.choice, Quot.sound]
'GPry.Spmd.C79_fit_exception_deadlocks' depends on axioms: [propext, Quot.sound]
'GPry.Stat.C80_kl_mc' depends on axioms: [propext, Classical.choice, Quot.sound]
'GPry.Acq.C81_nonlinear' depends on axioms: [propext, Classical.choice, Quot.sound]
'GPry.Acq.C81_scale_counterexample' depends on axioms: [propext, Classical.choice, Quot.sound]
'GPry.Acq.C81_exponential_counterexample' depends on axioms: [propext, Classical.choice, Quot.sound]
'GPry.Acq.C82_ei_gradient_partial' depends on axioms: [propext, Classical.choice, Quot.sound]
'GPry.Acq.C82_zero_std' depends on axioms: [propext, Classical.choice, Quot.sound]
'GPry.Io.C83_resume_counterexample' depends on axioms: [propext]
'GPry.Io.C83_resume_partial' depends on axioms: [propext, Quot.sound]
'GPry.Truth.C84_names_partial' depends on axioms: [propext, Classical.choice, Quot.sound]
'GPry.Truth.C84_ref_bounds' depends on axioms: [propext, Quot.sound]
'GPry.Truth.C84_repeated_counterexample' depends on axioms: [propext]
'GPry.Truth.C84_dict' depends on axioms: [propext, Quot.sound]
'GPry.Truth.C84_number' depends on axioms: [propext, Quot.sound]
'GPry.Truth.C84_reference' depends on axioms: [propext, Classical.choice, Quot.sound]
'GPry.Batch.C85_optimise_partial' depends on axioms: [propext, Classical.choice, Quot.sound]
'GPry.Batch.C85_no_bounds_counterexample' depends on axioms: [propext]
'GPry.Batch.C85_stale_counterexample' depends on axioms: [propext]
'GPry.Cobaya.C86_partial' depends on axioms: [propext, Classical.choice, Quot.sound]
'GPry.Cobaya.C86_counterexample' depends on axioms: [propext, Classical.choice, Quot.sound]
'GPry.Setup.C87_restarts' depends on axioms: [propext, Quot.sound]
'GPry.Setup.C87_gpr_partial' depends on axioms: [propext, Quot.sound]
'GPry.Setup.C87_gpr_none_counterexample' depends on axioms: [propext]
'GPry.Setup.C87_acquisition_partial' depends on axioms: [propext, Quot.sound]
'GPry.Setup.C87_function_args_counterexample' depends on axioms: [propext]
'GPry.Setup.C87_refused' depends on axioms: [propext]
'GPry.Setup.C88_criteria_partial' depends on axioms: [propext, Quot.sound]
'GPry.Setup.C88_default' depends on axioms: [propext, Classical.choice, Quot.sound]
'GPry.Setup.C88_counterexample' depends on axioms: [propext, Quot.sound]
'GPry.Setup.C88_shared' depends on axioms: [propext, Classical.choice, Quot.sound]
'GPry.Setup.C88_deadlock_counterexample' depends on axioms: [propext, Quot.sound]
'GPry.Setup.C89_default_counterexample' depends on axioms: [propext, Classical.choice, Quot.sound]
'GPry.Setup.C89_sampler_partial' depends on axioms: [propext, Classical.choice, Quot.sound]
'GPry.Setup.C89_changes_argument_counterexample' depends on axioms: [propext, Classical.choice, Quot.sound]
'GPry.Setup.C89_refused' depends on axioms: [propext, Classical.choice, Quot.sound]
'GPry.Setup.C89_mc_options' depends on axioms: [propext, Classical.choice, Quot.sound]
'GPry.Setup.C90_kept_partial' depends on axioms: [propext]
'GPry.Setup.C90_table_partial' depends on axioms: [propext, Classical.choice, Quot.sound]
'GPry.Setup.C90_counterexample' depends on axioms: [propext, Classical.choice, Quot.sound]
'GPry.Setup.C90_no_density' depends on axioms: [propext]
'GPry.McRead.C90_reads_partial' depends on axioms: [propext]
'GPry.McRead.C90_both' depends on axioms: [propext]
'GPry.McRead.C90_forms_partial' depends on axioms: [propext, Classical.choice, Quot.sound]
'GPry.McRead.C90_getdist_counterexample' depends on axioms: [propext, Classical.choice, Quot.sound]
'GPry.McRead.C90_nothing' depends on axioms: [propext]
'GPry.Setup.C91_point_partial' depends on axioms: [propext, Classical.choice, Quot.sound]
'GPry.Setup.C91_stale_counterexample' depends on axioms: [propext, Classical.choice, Quot.sound]
'GPry.Setup.C91_sample_partial' depends on axioms: [propext, Classical.choice, Quot.sound]
'GPry.Setup.C91_sample_counterexample' depends on axioms: [propext, Classical.choice, Quot.sound]
'GPry.Setup.C91_refused' depends on axioms: [propext, Classical.choice, Quot.sound]
'GPry.Setup.C91_sample_refused' depends on axioms: [propext, Classical.choice, Quot.sound]
'GPry.McSamp.C92_polychord_partial' depends on axioms: [propext, Classical.choice, Quot.sound]
'GPry.McSamp.C92_polychord_counterexample' depends on axioms: [propext, Classical.choice, Quot.sound]
'GPry.McSamp.C92_last' depends on axioms: [propext, Classical.choice, Quot.sound]
'GPry.McSamp.C92_nessai' depends on axioms: [propext, Classical.choice, Quot.sound]
'GPry.McSamp.C92_ultranest_counterexample' depends on axioms: [propext, Classical.choice, Quot.sound]
'GPry.McSamp.C92_numbered' depends on axioms: [propext, Classical.choice, Quot.sound]
'GPry.McSamp.C92_glob_partial' depends on axioms: [propext, Classical.choice, Quot.sound]
'GPry.McSamp.C92_glob_counterexample' depends on axioms: [propext, Classical.choice, Quot.sound]
'GPry.McSamp.C92_folders' depends on axioms: [propext, Classical.choice, Quot.sound]
'GPry.McSamp.C92_folders_partial' depends on axioms: [propext, Classical.choice, Quot.sound]
'GPry.McSamp.C92_folders_counterexample' depends on axioms: [propext, Classical.choice, Quot.sound]
'GPry.McSamp.C92_twice_counterexample' depends on axioms: [propext, Classical.choice, Quot.sound]
'GPry.McSamp.C92_twice_polychord' depends on axioms: [propext, Classical.choice, Quot.sound]
'GPry.McSamp.C92_disk_partial' depends on axioms: [propext, Classical.choice, Quot.sound]
'GPry.McSamp.C92_before_counterexample' depends on axioms: [propext, Classical.choice, Quot.sound]
'GPry.McSamp.C93_start' depends on axioms: [propext, Classical.choice, Quot.sound]
'GPry.McSamp.C93_covmat_partial' depends on axioms: [propext]
'GPry.McSamp.C93_covmat_counterexample' depends on axioms: [propext, Classical.choice, Quot.sound]
'GPry.McSamp.C94_getdist_partial' depends on axioms: [propext, Classical.choice, Quot.sound]
'GPry.McSamp.C94_counterexample' depends on axioms: [propext]
'GPry.McSamp.C94_labels' depends on axioms: [propext]
'GPry.McSamp.C94_sources' depends on axioms: [propext]
'GPry.McSamp.C95_seeds_partial' depends on axioms: [propext, Quot.sound]
'GPry.McSamp.C95_generator_counterexample' depends on axioms: [propext]
'GPry.McSamp.C96_file_partial' depends on axioms: [propext, Quot.sound]
'GPry.McSamp.C96_names_counterexample' does not depend on any axioms
'GPry.McSamp.C96_path' depends on axioms: [propext, Classical.choice, Quot.sound]
'GPry.McSamp.C97_precision' depends on axioms: [propext, Quot.sound]
'GPry.McSamp.C97_known' depends on axioms: [propext]
'GPry.McSamp.C97_transform' depends on axioms: [propext, Classical.choice, Quot.sound]
'GPry.McSamp.C97_transform_box' depends on axioms: [propext, Classical.choice, Quot.sound]
'GPry.McSamp.C97_nessai_partial' depends on axioms: [propext, Quot.sound]
'GPry.McSamp.C97_nessai_counterexample' depends on axioms: [propext, Quot.sound]
'GPry.McSamp.C97_units' depends on axioms: [propext]
'GPry.McSamp.C98_default' depends on axioms: [propext, Classical.choice, Quot.sound]
'GPry.McSamp.C98_named' depends on axioms: [propext, Classical.choice, Quot.sound]
'GPry.McSamp.C98_unknown' depends on axioms: [propext, Classical.choice, Quot.sound]
'GPry.McSamp.C98_nlive' depends on axioms: [propext]
'GPry.McSamp.C98_folders' depends on axioms: [propext, Classical.choice, Quot.sound]
'GPry.KernelHyp.C99_theta_bounds_partial' depends on axioms: [propext, Classical.choice, Quot.sound]
'GPry.KernelHyp.C99_set_theta_partial' depends on axioms: [propext, Classical.choice, Quot.sound]
'GPry.KernelHyp.C99_isotropic_counterexample' depends on axioms: [propext, Classical.choice, Quot.sound]
'GPry.KernelHyp.C99_constant_counterexample' depends on axioms: [propext, Classical.choice, Quot.sound]
'GPry.KernelHyp.C99_other_counterexample' depends on axioms: [propext, Classical.choice, Quot.sound]
'GPry.KernelHyp.C99_default_kernel' depends on axioms: [propext, Classical.choice, Quot.sound]
'GPry.KernelHyp.C99_dynamic_refused' depends on axioms: [propext, Quot.sound]
'GPry.KernelHyp.C99_too_long' depends on axioms: [propext, Classical.choice, Quot.sound]
'GPry.KernelHyp.C99_other_error' depends on axioms: [propext, Classical.choice, Quot.sound]
'GPry.KernelHyp.C99_eq_partial' depends on axioms: [propext, Quot.sound]
'GPry.KernelHyp.C99_eq_counterexample' depends on axioms: [propext, Quot.sound]
'GPry.KernelHyp.C99_eq_dynamic' depends on axioms: [propext, Classical.choice, Quot.sound]
