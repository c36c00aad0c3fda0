Functions of gpry/*.py and the modules of lean/Verif whose definitions cite lines of them (- : not modelled, see DESIGN.md section 5).
450 of 492 functions are cited.

__init__.py
  3-9 check_cobaya_installed: -

acquisition_functions.py
  67-75 _safe_log_expm1: Acq, AcqPts
  78-85 builtin_names: AcqInit
  150-196 AcquisitionFunction.get_params: AcqObj
  198-239 AcquisitionFunction.set_params: AcqObj
  241-251 AcquisitionFunction.clone_with_theta: AcqObj
  253-280 AcquisitionFunction.check_X: AcqObj
  283-285 AcquisitionFunction.n_dims: Acq, AcqObj
  288-292 AcquisitionFunction.hyperparameters: Acq, AcqObj
  295-317 AcquisitionFunction.theta: Acq, AcqObj
  320-347 AcquisitionFunction.theta: Acq, AcqObj
  350-354 AcquisitionFunction.hasgradient: AcqObj
  357-362 AcquisitionFunction.hasgradient: AcqObj
  365-366 AcquisitionFunction.__call__: AcqObj
  368-371 AcquisitionFunction.__add__: AcqObj
  373-376 AcquisitionFunction.__radd__: AcqObj
  378-381 AcquisitionFunction.__mul__: AcqObj
  383-386 AcquisitionFunction.__rmul__: AcqObj
  388-389 AcquisitionFunction.__pow__: AcqObj
  391-399 AcquisitionFunction.__eq__: AcqObj
  401-403 AcquisitionFunction.__repr__: AcqObj
  425-428 ConstantAcqFunc.__init__: Acq, AcqInit, AcqObj, AcqPts
  431-433 ConstantAcqFunc.hyperparameter_constant_value: Acq, AcqPts
  435-468 ConstantAcqFunc.__call__: Acq, AcqPts
  470-471 ConstantAcqFunc.__repr__: AcqPts
  490-493 Mu.__init__: AcqInit, AcqPts
  496-498 Mu.hyperparameter_a: AcqPts
  500-541 Mu.__call__: Acq, AcqPts
  543-544 Mu.__repr__: AcqPts
  563-566 ExponentialMu.__init__: AcqInit, AcqPts
  569-571 ExponentialMu.hyperparameter_a: AcqPts
  573-611 ExponentialMu.__call__: Acq, AcqPts
  613-614 ExponentialMu.__repr__: AcqPts
  634-637 Std.__init__: AcqInit, AcqPts
  640-642 Std.hyperparameter_a: AcqPts
  644-684 Std.__call__: Acq, AcqPts
  686-687 Std.__repr__: AcqPts
  707-710 ExponentialStd.__init__: AcqInit, AcqPts
  713-715 ExponentialStd.hyperparameter_a: AcqPts
  717-756 ExponentialStd.__call__: AcqPts
  758-759 ExponentialStd.__repr__: AcqPts
  787-790 ExpectedImprovement.__init__: AcqInit, AcqPts
  793-795 ExpectedImprovement.hyperparameter_xi: AcqPts
  797-862 ExpectedImprovement.__call__: Acq, AcqPts, EiLaw
  864-865 ExpectedImprovement.__repr__: AcqPts
  906-917 BaseLogExp.__init__: AcqInit, AcqPts
  920-921 BaseLogExp.f: AcqInit, AcqPts
  924-926 BaseLogExp.hyperparameter_zeta: AcqInit, AcqPts
  929-931 BaseLogExp.hyperparameter_sigma_n: AcqInit, AcqPts
  933-934 BaseLogExp.auto_zeta: AcqInit, AcqPts
  936-1009 BaseLogExp.__call__: Acq, AcqNoise, AcqPts, Proposed, RoundAcq
  1011-1012 BaseLogExp.__repr__: AcqPts
  1069-1074 LogExp.f: Acq, AcqPts, Proposed, RoundAcq
  1126-1128 NonlinearLogExp.f: Acq, AcqPts, Proposed
  1132-1147 is_acquisition_function: -
  1191-1194 Hyperparameter.__new__: -
  1198-1202 Hyperparameter.__eq__: -
  1208-1211 AcquisitionFunctionOperator.__init__: Acq, AcqObj
  1213-1234 AcquisitionFunctionOperator.get_params: Acq, AcqObj
  1237-1248 AcquisitionFunctionOperator.hyperparameters: Acq, AcqObj
  1251-1264 AcquisitionFunctionOperator.theta: Acq, AcqObj
  1267-1278 AcquisitionFunctionOperator.theta: Acq, AcqObj
  1280-1284 AcquisitionFunctionOperator.__eq__: Acq, AcqObj
  1296-1302 Sum.__call__: Acq, AcqExt, AcqObj, AcqPts
  1304-1305 Sum.__repr__: Acq, AcqExt, AcqObj, AcqPts
  1317-1323 Product.__call__: Acq, AcqExt, AcqObj, AcqPts
  1325-1326 Product.__repr__: Acq, AcqExt, AcqObj, AcqPts
  1342-1345 Exponentiation.__init__: Acq, AcqExt, AcqObj, AcqPts
  1347-1367 Exponentiation.get_params: Acq, AcqExt, AcqObj, AcqPts
  1370-1378 Exponentiation.hyperparameters: Acq, AcqExt, AcqObj, AcqPts
  1381-1394 Exponentiation.theta: Acq, AcqExt, AcqObj, AcqPts
  1397-1406 Exponentiation.theta: Acq, AcqExt, AcqObj, AcqPts
  1408-1412 Exponentiation.__eq__: Acq, AcqExt, AcqObj, AcqPts
  1414-1446 Exponentiation.__call__: Acq, AcqExt, AcqObj, AcqPts
  1448-1449 Exponentiation.__repr__: AcqObj

cobaya.py
  44-106 CobayaWrapper.initialize: Cobaya
  108-144 CobayaWrapper.run: CobayaRun
  146-191 CobayaWrapper.do_surrogate_sample: CobayaRun
  194-198 CobayaWrapper.is_mc_sampled: CobayaRun
  200-207 CobayaWrapper.do_plots: CobayaRun
  209-222 CobayaWrapper.samples: CobayaRun
  224-240 CobayaWrapper.products: CobayaRun
  243-281 CobayaWrapper.get_checkpoint_dir_and_surr_prefix: Cobaya
  284-316 CobayaWrapper.output_files_regexps: Cobaya
  319-325 CobayaWrapper.is_nora: Cobaya
  328-340 CobayaWrapper.get_desc: -
  343-363 CobayaWrapper.get_bibtex: -

convergence.py
  36-48 builtin_names: -
  90-95 ConvergenceCriterion.__init__: -
  97-115 ConvergenceCriterion.get_history: ConvInit
  118-125 ConvergenceCriterion.is_converged: -
  128-132 ConvergenceCriterion.criterion_value: Run
  135-137 ConvergenceCriterion.last_value: Run
  140-145 ConvergenceCriterion.is_MPI_aware: Run
  147-160 ConvergenceCriterion._set_convergence_policy: ConvInit
  163-167 ConvergenceCriterion.convergence_policy: -
  170-178 ConvergenceCriterion.convergence_policy_MPI: SpmdRun
  180-202 ConvergenceCriterion.is_converged_MPIwrapped: SpmdRun
  211-212 DummyMPIConvergeCriterion.__init__: Setup
  214-215 DummyMPIConvergeCriterion.criterion_value: Setup
  217-218 DummyMPIConvergeCriterion.is_converged: Setup
  221-223 DummyMPIConvergeCriterion.last_value: Setup
  234-242 DontConverge.__init__: ConvInit
  244-249 DontConverge.criterion_value: ConvInit
  251-255 DontConverge.is_converged: ConvInit
  292-293 GaussianKL.is_MPI_aware: -
  295-328 GaussianKL.__init__: ConvInit, ConvMc, ConvSave
  330-338 GaussianKL._get_new_mean_and_cov: ConvMc
  340-367 GaussianKL._get_new_mean_and_cov_from_acquisition: ConvMc, Cov, SpmdRun
  369-427 GaussianKL._get_new_mean_and_cov_from_mc: ConvMc, ConvSave, SpmdRun
  430-472 GaussianKL._sample_mcmc: Conv, ConvMc, ConvSave
  474-514 GaussianKL.criterion_value: Conv, ConvMc
  516-525 GaussianKL.is_converged: Conv, ConvMc
  528-529 GaussianKL.__getstate__: ConvMc, ConvSave
  531-540 GaussianKL.__deepcopy__: ConvMc, ConvSave
  586-592 GaussianKLTrain.__init__: ConvInit
  594-595 GaussianKLTrain._get_mean_and_cov_from_training: -
  597-637 GaussianKLTrain.criterion_value: Conv
  690-697 TrainAlignment.__init__: ConvInit
  699-701 TrainAlignment._get_mean_from_training: Align, ConvInit, RoundCount
  704-707 TrainAlignment.criterion_value_from_means_cov: Align, Conv, Cov
  709-752 TrainAlignment.criterion_value: Align, Conv
  796-837 CorrectCounter.__init__: Conv, ConvBatch, ConvInit
  839-843 CorrectCounter.is_converged: Conv
  845-874 CorrectCounter.criterion_value: Conv, DataOrderEx
  877-879 CorrectCounter.limit: -

diag.py
  26-222 diagnosis: Diag, DiagDetails

gp_acquisition.py
  28-35 builtin_names: AcqInit, BatchMap
  41-78 GenericGPAcquisition.__init__: AcqInit
  80-82 GenericGPAcquisition.__call__: -
  84-118 GenericGPAcquisition.multi_add: -
  208-268 BatchOptimizer.__init__: AcqInit
  270-389 BatchOptimizer.optimize_acquisition_function: Batch, BatchMap, BatchPre, DataOrderBatch, DataOrderGp, RoundBounds
  391-500 BatchOptimizer.multi_add: Batch, BatchLies, BatchMap, BatchPre, Cost, DataOrderBatch, DataOrderGp, GpUpdate
  502-522 BatchOptimizer._constrained_optimization: Batch, BatchPre
  584-641 NORA.__init__: Nora
  644-648 NORA.pool_size: -
  650-682 NORA._init_nested_sampler: McSamp
  684-699 NORA.update_NS_precision: McSamp
  701-707 NORA.log: McSamp
  709-726 NORA._get_output_folder: McSamp
  728-746 NORA.do_MC_sample: NsRun
  750-758 NORA._do_MC_sample_uniform: NsRun
  760-779 NORA._do_MC_sample_polychord: NsRun
  781-817 NORA._do_MC_sample_ultranest: Nora, NsRun, Predict
  820-856 NORA._do_MC_sample_nessai: NsRun
  858-873 NORA._set_MC_sample: Nora, NoraSpmd
  875-919 NORA._reweight_last_MC_sample: Nora, NoraSpmd
  921-944 NORA.last_MC_sample: Nora
  947-949 NORA.mean: Nora
  952-954 NORA.cov: Nora
  956-969 NORA.last_MC_sample_getdist: Nora, NoraSpmd
  971-1108 NORA.multi_add: DataOrderNora, Nora, NoraSpmd, Pool, PoolGp, Proposed
  1110-1125 NORA._split_and_compute_acq: DataOrderNora, NoraSpmd, Proposed
  1128-1146 NORA._parallel_rank_and_merge: DataOrderNora, NoraSpmd, Pool
  1148-1171 NORA._gather_pools: NoraSpmd, Pool
  1173-1191 NORA._merge_pools: NoraSpmd, Pool
  1217-1232 RankedPool.__init__: Pool
  1234-1235 RankedPool.__len__: Pool, PoolCopy
  1238-1247 RankedPool.min_acq: Pool, PoolCopy
  1250-1256 RankedPool.log: Pool, PoolCopy
  1258-1262 RankedPool.str_point: Pool, PoolCopy
  1264-1276 RankedPool.str_pool: Pool, PoolCopy
  1278-1285 RankedPool.log_pool: Pool, PoolCopy
  1287-1288 RankedPool.__str__: Pool, PoolCopy
  1290-1335 RankedPool.add: Pool, PoolProps2
  1337-1390 RankedPool.add_bulk: AcqInit, Pool, PoolGp
  1392-1520 RankedPool.add_one: DataOrderNora, Pool, PoolGp
  1522-1555 RankedPool.cache_model: GpUpdate, Pool, PoolGp
  1557-1562 RankedPool.reset_cache: GpUpdate, Pool, PoolCopy
  1564-1565 RankedPool.__getstate__: Pool, PoolCopy
  1568-1573 RankedPool.__deepcopy__: Pool, PoolCopy
  1575-1596 RankedPool.copy: Pool, PoolCopy
  1598-1670 RankedPool.sort: Pool, PoolGp

gpr.py
  265-389 GaussianProcessRegressor.__init__: Copy, Cost, Gpr, GprAttr, GprFit, KernelHyp, KernelPos2, PoolGpClip, Predict, Rng, RoundCred, XParts
  392-397 GaussianProcessRegressor.d: GprFit
  400-402 GaussianProcessRegressor.y_max: GprAttr
  405-414 GaussianProcessRegressor.n: GprAttr
  417-421 GaussianProcessRegressor.n_finite: GprAttr
  424-435 GaussianProcessRegressor.n_total: Gpr
  438-444 GaussianProcessRegressor.X_train_infinite: Gpr
  447-453 GaussianProcessRegressor.y_train_infinite: Gpr
  456-458 GaussianProcessRegressor.fitted: -
  461-469 GaussianProcessRegressor.last_appended: Gpr
  472-475 GaussianProcessRegressor.last_appended_finite: Gpr
  478-488 GaussianProcessRegressor.scales: GprFit
  490-497 GaussianProcessRegressor.training_set_as_df: GprAttr
  500-507 GaussianProcessRegressor.abs_finite_threshold: GprFit
  509-524 GaussianProcessRegressor.is_finite: Diag, DiagDetails, GprFit
  526-540 GaussianProcessRegressor.predict_is_finite: GprFit
  542-552 GaussianProcessRegressor.set_random_state: Rng
  554-575 GaussianProcessRegressor.update_trust_region: DataOrder2, Trust
  577-753 GaussianProcessRegressor.append_to_data: AcqNoise, AgainInf, Copy, DataOrder, DataOrderGp, DataOrderNora, Gp, Gpr, GprAttr, GprInv, GprLml, PoolGp, PreFit, Preproc, RoundClassify
  755-785 GaussianProcessRegressor._validate_noise_level: Gpr
  787-817 GaussianProcessRegressor._update_noise_level: AcqNoise, Gpr
  819-873 GaussianProcessRegressor.remove_from_data: -
  876-881 GaussianProcessRegressor.log_marginal_likelihood: Cost, GpLml, GpLmlMany
  883-994 GaussianProcessRegressor.fit_gpr_hyperparameters: GpLml, GpLmlMany, Gpr, GprFit, Rng
  996-1020 GaussianProcessRegressor._update_model: DataOrderGp, Gp, GpRepeat, GpUpdate, Gpr
  1022-1273 GaussianProcessRegressor.predict: Acq, AcqPts, Copy, Cost, DataOrder2, DataOrderGp, DataOrderNora, Gp, GpRepeat, GpUpdate, Predict
  1275-1352 GaussianProcessRegressor.predict_std: AgainInf, Cost, DataOrder2, DataOrderGp, DataOrderNora, Gp, Predict
  1354-1433 GaussianProcessRegressor.__deepcopy__: BatchLies, Copy, Cost
  1435-1451 GaussianProcessRegressor._constrained_optimization: GprFit
  1453-1465 GaussianProcessRegressor._kernel_inverse: Gp, Gpr
  1468-1473 GaussianProcessRegressor.compute_threshold_given_sigma: Cred, RoundCred
  1476-1488 GaussianProcessRegressor._diff_threshold_if_keep_n_finite: Gpr, RoundClassify

io.py
  25-38 create_path: RunnerOut
  41-59 check_checkpoint: Io
  62-107 read_checkpoint: Io
  110-156 save_checkpoint: ConvSave, Io
  159-202 ensure_gpr: Io

kernels.py
  85-104 Hyperparameter.__new__: KernelHyp
  108-115 Hyperparameter.__eq__: KernelHypEq
  127-130 Kernel.__add__: KernelOps
  132-135 Kernel.__radd__: KernelOps
  137-140 Kernel.__mul__: KernelOps
  142-145 Kernel.__rmul__: KernelOps
  147-148 Kernel.__pow__: KernelHyp
  151-155 Kernel.hyperparameters: KernelHyp
  158-191 Kernel.bounds: KernelHyp
  193-210 Kernel.gradient_x: KernelHyp
  215-244 RBF.__init__: KernelHyp
  247-255 RBF.hyperparameter_length_scale: KernelHyp
  257-278 RBF.gradient_x: Kernels
  283-313 Matern.__init__: KernelHyp
  316-324 Matern.hyperparameter_length_scale: KernelHyp
  326-432 Matern.gradient_x: Kernels
  437-470 RationalQuadratic.__init__: -
  473-474 RationalQuadratic.anisotropic: -
  477-485 RationalQuadratic.hyperparameter_length_scale: -
  488-489 RationalQuadratic.hyperparameter_alpha: KernelHyp
  491-512 RationalQuadratic.gradient_x: Kernels
  517-550 ExpSineSquared.__init__: -
  553-554 ExpSineSquared.anisotropic: -
  557-565 ExpSineSquared.hyperparameter_length_scale: -
  568-570 ExpSineSquared.hyperparameter_periodicity: KernelHyp
  572-598 ExpSineSquared.gradient_x: Kernels
  604-606 ConstantKernel.hyperparameter_constant_value: KernelHyp
  608-609 ConstantKernel.gradient_x: Kernels
  615-617 WhiteKernel.hyperparameter_noise_level: KernelHyp
  619-620 WhiteKernel.gradient_x: Kernels
  629-643 KernelOperator.hyperparameters: KernelHyp
  649-658 Exponentiation.hyperparameters: KernelHyp
  660-668 Exponentiation.gradient_x: Kernels
  674-675 Sum.hyperparameters: -
  677-678 Sum.gradient_x: Kernels
  684-685 Product.hyperparameters: -
  687-699 Product.gradient_x: Kernels
  705-706 DotProduct.hyperparameter_sigma_0: KernelHyp
  708-709 DotProduct.gradient_x: -

mc.py
  27-40 get_cobaya_log_level: McCobaya
  43-103 cobaya_generate_gp_model_input: Cobaya, ConvSave
  106-156 mcmc_info_from_run: ConvSave, McCobaya, McSamp
  159-170 polychord_info_from_run: McCobaya
  173-325 mc_sample_from_gp_cobaya: McCobaya
  328-456 mc_sample_from_gp_ns: McSamp
  459-481 process_gdsamples: McSamp
  484-530 samples_dict_to_getdist: McRead, McSamp

mpi.py
  31-50 get_random_generator: InitDup, McSamp, Rng
  53-59 bcast: Spmd
  62-68 gather: Spmd
  71-77 allgather: Spmd
  80-102 split_number_for_parallel_processes: Mpi, RoundCount
  105-115 step_split: Mpi, NoraSpmd
  118-131 merge_step_split: Mpi, NoraSpmd
  134-161 multi_gather_array: Gather
  164-170 sync_processes: Spmd
  173-179 share_attr: Gather, Spmd
  182-218 compute_y_parallel: Mpi, NoraSpmd

ns_interfaces.py
  42-43 NSInterface.__init__: -
  46-47 NSInterface.set_verbosity: -
  50-51 NSInterface.set_prior: -
  54-55 NSInterface.set_precision: -
  58-65 NSInterface.run: -
  68-73 NSInterface.delete_output: -
  76-99 NSInterface.process_out_dir: Tools
  109-144 InterfacePolyChord.__init__: NsRun
  146-151 InterfacePolyChord.set_verbosity: NsRun
  153-158 InterfacePolyChord.set_prior: NsRun
  160-170 InterfacePolyChord.set_precision: McSamp, NsRun
  172-239 InterfacePolyChord.run: NsRun
  241-269 InterfacePolyChord.delete_output: DelFolders, McSamp
  280-314 InterfaceNessai.__init__: NsRun
  316-318 InterfaceNessai.set_verbosity: NsRun
  320-322 InterfaceNessai.set_prior: NsRun
  324-333 InterfaceNessai.set_precision: McSamp, NsRun
  335-405 InterfaceNessai.run: McSamp, NsRun
  407-419 InterfaceNessai.delete_output: DelFolders, McSamp
  429-459 InterfaceUltraNest.__init__: -
  461-464 InterfaceUltraNest.set_verbosity: -
  466-471 InterfaceUltraNest.set_prior: McSamp
  473-488 InterfaceUltraNest.set_precision: McSamp, NsRun
  490-521 InterfaceUltraNest.run: NsRun
  523-535 InterfaceUltraNest.delete_output: DelFolders, McSamp

plots.py
  33-46 simple_latex_sci_notation: Slices
  49-61 param_samples_for_slices: Slices
  64-161 prepare_slices_func: Slices
  165-243 plot_slices_func: Figures
  246-306 plot_slices: Figures
  309-409 plot_slices_reference: Diag, Figures
  412-553 plot_corner_getdist: Corner
  556-676 getdist_add_training: Corner
  679-744 plot_convergence: Figures
  747-812 _prepare_reference: Slices
  815-954 plot_trace: Trace
  958-1036 plot_distance_distribution: DistHist
  1039-1095 _plot_2d_model_acquisition: Figures
  1098-1164 _plot_2d_model_acquisition_finite: Figures
  1167-1255 _plot_2d_model_acquisition_std: Figures

preprocessing.py
  34-35 DummyPreprocessor.fit: BatchPre, Gpr
  38-39 DummyPreprocessor.transform_bounds: BatchPre, Gpr
  42-43 DummyPreprocessor.transform: BatchPre, Gpr
  46-47 DummyPreprocessor.inverse_transform: BatchPre, Gpr
  50-51 DummyPreprocessor.transform_scale: BatchPre, Gpr
  54-55 DummyPreprocessor.inverse_transform_scale: BatchPre, Gpr, GprFit
  121-123 Pipeline_X.__init__: BatchPre, Preproc
  125-129 Pipeline_X.transform_bounds: BatchPre, Preproc
  131-141 Pipeline_X.fit: BatchPre, Preproc
  143-150 Pipeline_X.transform: BatchPre, Preproc
  152-160 Pipeline_X.inverse_transform: BatchPre, Preproc
  162-166 Pipeline_X.transform_scale: BatchPre, Preproc
  168-176 Pipeline_X.inverse_transform_scale: BatchPre, Preproc
  206-229 Whitening.__init__: BatchPre, Preproc
  232-246 Whitening.prepare_transform: BatchPre, Preproc
  249-267 Whitening.compute_mean_cov: BatchPre, Preproc
  269-284 Whitening.fit: BatchPre, Preproc
  286-289 Whitening.transform: BatchPre, Preproc
  291-294 Whitening.inverse_transform: BatchPre, Preproc
  296-308 Whitening.transform_bounds: BatchPre, Preproc
  345-347 Normalize_bounds.__init__: BatchPre, Preproc
  349-357 Normalize_bounds.update_bounds: BatchPre, Preproc
  359-362 Normalize_bounds.transform_bounds: BatchPre, Preproc
  364-365 Normalize_bounds.fit: BatchPre, Preproc
  367-380 Normalize_bounds.transform: BatchPre, Preproc, RoundBounds
  382-395 Normalize_bounds.inverse_transform: BatchPre, Preproc, RoundBounds
  397-411 Normalize_bounds.inverse_transform_scale: BatchPre, GprFit, Preproc
  474-476 Pipeline_y.__init__: Preproc
  478-488 Pipeline_y.fit: Preproc
  490-497 Pipeline_y.transform: Preproc
  499-507 Pipeline_y.inverse_transform: Preproc
  509-516 Pipeline_y.transform_scale: Preproc
  518-525 Pipeline_y.inverse_transform_scale: Preproc
  552-561 Normalize_y.__init__: DataOrder3, Gpr, Preproc, RoundClassify, RoundPre
  564-565 Normalize_y.is_linear: DataOrder3, Gpr, Preproc
  568-569 Normalize_y.fitted: DataOrder3, Gpr, Preproc
  571-586 Normalize_y.fit: DataOrder3, Gpr, Preproc, RoundClassify
  588-603 Normalize_y.transform: Gpr, Preproc, RoundClassify
  605-620 Normalize_y.inverse_transform: Gpr, Preproc, RoundPre
  622-625 Normalize_y.transform_scale: Gpr, Preproc
  627-630 Normalize_y.inverse_transform_scale: Gpr, GprFit, Preproc
  656-665 NormalizeChi2_y.__init__: Gpr, Preproc
  667-684 NormalizeChi2_y.fit: DataOrder3, Gpr, Preproc

progress.py
  47-49 Progress.__init__: Progress
  51-52 Progress.__repr__: Progress
  54-56 Progress.help_column_names: Progress
  58-66 Progress.add_iteration: Progress
  68-74 Progress.add_current_n_truth: Progress
  76-79 Progress.add_acquisition: Progress
  81-84 Progress.add_truth: Progress
  86-89 Progress.add_fit: Progress
  91-100 Progress.add_convergence: Progress
  102-126 Progress.mpi_sync: Progress, SpmdInit, SpmdRun
  128-132 Progress.bcast_root: Progress
  134-140 Progress.bcast_last_max: Progress
  142-148 Progress.bcast_sum: Progress
  150-164 Progress._bcast_operation: Progress
  166-173 Progress._x_ticks_for_bar_plot: Figures, RoundCount
  176-239 Progress.plot_timing: Figures
  246-249 Timer.__enter__: Cost
  251-254 Timer.__exit__: Cost
  263-265 TimerCounter.__init__: Cost
  267-274 TimerCounter.__enter__: Cost
  276-284 TimerCounter.__exit__: Cost

proposal.py
  19-42 check_in_bounds: Chain, InitProp, Proposal
  52-65 Proposer.get: -
  68-78 Proposer.update_bounds: Proposal
  80-88 Proposer.update: Proposal
  108-110 ReferenceProposer.__init__: InitProp, Proposal
  113-114 ReferenceProposer.get: InitProp, Proposal
  127-129 PriorProposer.__init__: InitProp, Proposal
  132-133 PriorProposer.get: InitProp, Proposal
  147-148 UniformProposer.__init__: InitProp, Proposal
  150-156 UniformProposer.update_bounds: InitProp, Proposal, RoundBounds
  159-160 UniformProposer.get: InitProp, Proposal
  187-200 PartialProposer.__init__: InitProp, Proposal
  204-208 PartialProposer.get: InitProp, Proposal
  210-211 PartialProposer.update: InitProp, Proposal
  213-215 PartialProposer.update_bounds: InitProp, Proposal
  241-247 MeanCovProposer.__init__: InitProp, Proposal
  250-255 MeanCovProposer.get: InitProp, Proposal
  272-278 CentroidsProposer.__init__: Proposal
  281-283 CentroidsProposer.d: Proposal
  286-308 CentroidsProposer.get: Proposal
  310-312 CentroidsProposer.update: Proposal
  314-319 CentroidsProposer.update_bounds: Proposal
  339-352 MeanAutoCovProposer.__init__: -
  355-356 MeanAutoCovProposer.get: -
  384-389 SmallChainProposer.__init__: Chain
  391-393 SmallChainProposer.update_bounds: Chain
  396-403 SmallChainProposer.get: Chain
  405-428 SmallChainProposer.resample: Chain
  430-443 SmallChainProposer.update: Chain

run.py
  197-304 Runner.__init__: Cobaya, Io, Resume, Run, Setup, SpmdInit
  306-355 Runner._construct_gpr: BatchMap, Rng, RoundClassify, Setup
  357-404 Runner._construct_gp_acquisition: BatchMap, Setup
  406-444 Runner._construct_initial_proposer: InitProp, Setup
  446-503 Runner._construct_convergence_criterion: Gather, Setup
  506-519 Runner._construct_mc_options: Setup
  521-592 Runner._construct_options: Run
  595-597 Runner.d: -
  600-601 Runner.prior_bounds: -
  604-606 Runner.params: -
  609-613 Runner.labels: -
  615-624 Runner.logp: RunnerOut
  626-632 Runner.logL: RunnerOut
  635-644 Runner.logp_truth: RunnerOut
  646-652 Runner.logL_truth: RunnerOut
  654-662 Runner.logpost_eval_and_report: RunnerOut
  664-668 Runner.logprior: RunnerOut
  670-676 Runner.log: RunnerOut
  678-690 Runner.ensure_paths: RunnerOut
  693-695 Runner.n_total_left: RunnerOut
  698-700 Runner.n_finite_left: RunnerOut
  702-721 Runner.banner: RunnerOut
  723-734 Runner.read_checkpoint: Rng
  736-747 Runner.save_checkpoint: Io
  749-756 Runner._share_gpr: Rng
  758-774 Runner._share_convergence_from_main: Run, Setup
  776-1061 Runner.run: CobayaRun, ConvBatch, Cost, InitDup, PlotProg, ProgRun, Resume, Rng, RoundCount, Run, RunMap, RunMsg, SpmdRun, Tools, WholeRun
  1063-1198 Runner.do_initial_training: InitProp, ProgRun, Rng, RoundCount, Run, RunMap, RunMsg, SpmdInit
  1200-1236 Runner._eval_truth_parallel: Mpi, RunMsg, SpmdRun
  1238-1301 Runner._fit_gpr_parallel: GprLml, Resume, Run, RunMsg, SpmdRun, WholeRun
  1303-1333 Runner._check_convergence_parallel: Run, SpmdRun
  1335-1352 Runner.update_mean_cov: Gather, SpmdRun
  1354-1398 Runner.set_fiducial_point: Setup
  1400-1457 Runner.set_fiducial_MC: Setup
  1459-1468 Runner._fiducial_MC_as_getdist: PlotProg
  1470-1592 Runner.plot_progress: CobayaRun, PlotProg
  1594-1714 Runner.generate_mc_sample: Setup, SpmdRun
  1716-1745 Runner.last_mc_samples: McRead, Setup
  1747-1784 Runner.diagnose_last_mc_sample: Cov, SpmdRun
  1786-1864 Runner.plot_mc: CobayaRun, Corner
  1866-1935 Runner.plot_distance_distribution: CobayaRun, DistHist

svm.py
  157-202 SVM.__init__: Gpr, Rng
  205-211 SVM.d: Gpr
  214-218 SVM.abs_threshold: Gpr
  221-225 SVM.n: Gpr
  227-271 SVM.fit: DataOrder, Gpr
  274-295 SVM._is_finite_raw: Gpr, RoundClassify
  297-306 SVM.is_finite: Gpr, GprFit
  308-347 SVM.predict: GprFit, Predict

tools.py
  20-36 kl_norm: Cov, RoundKl, Stat
  39-62 kl_mc: Stat
  65-73 is_valid_covmat: Input
  76-97 gaussian_distance: Stat
  100-109 nstd_of_1d_nstd: Cred, RoundCred
  112-118 delta_logp_of_1d_nstd: Cred, RoundCred, Trust
  121-126 credibility_of_nstd: Cred
  129-131 volume_sphere: Cred
  134-144 check_random_state: Rng
  147-161 generic_params_names: Truth
  172-174 NumpyErrorHandling.__init__: Tools
  176-177 NumpyErrorHandling.__enter__: Tools
  179-182 NumpyErrorHandling.__exit__: Tools
  185-234 get_Xnumber: RoundCount, Run, Tools, XParts
  237-260 check_candidates: RoundPre, Tools
  263-289 is_in_bounds: InitProp, Tools
  292-305 check_and_return_bounds: Input
  308-361 shrink_bounds: RoundBounds, Tools, Trust
  363-397 wrap_likelihood: BatchPre, Truth
  400-418 remove_0_weight_samples: Cov, Nora, Tools
  421-428 mean_covmat_from_samples: Cov, DataOrder3
  431-440 mean_covmat_from_evals: Cov, DataOrder3

truth.py
  20-48 get_truth: Io, Truth, TruthCob
  59-110 Truth.__init__: Input, Prior, Truth
  113-115 Truth.d: Truth
  118-120 Truth.prior_bounds: Truth
  123-125 Truth.params: Truth
  128-132 Truth.labels: Truth
  134-140 Truth.logprior: RunnerOut, Truth
  142-146 Truth.loglike: Truth
  148-155 Truth.logp: Truth
  157-159 Truth.prior_sample: Prior, RoundBounds
  161-163 Truth.ref_sample: Input, Prior, RoundBounds
  165-179 Truth.as_dict: Truth
  188-198 TruthCobaya.__init__: TruthCob
  200-204 TruthCobaya.logprior: TruthCob
  206-210 TruthCobaya.loglike: TruthCob
  212-216 TruthCobaya.logp: TruthCob
  218-220 TruthCobaya.prior_sample: TruthCob
  222-230 TruthCobaya.ref_sample: TruthCob
  232-237 TruthCobaya.as_dict: TruthCob
