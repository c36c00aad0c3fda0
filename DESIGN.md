# GPry: machine-checked model and proofs — design

Subject: `/repo` (jonaselgammal/GPry), read as text only; it was never built or run.
Proof tool: Lean 4.33.0 with Mathlib.  Everything is in `lean/Verif/`.

## 1. Conventions of the model

* Every definition cites the file and lines of the code it models and says where it simplifies.
* Python exceptions are values (`Except`/`Option`); loops are structural recursion or explicit fuel
  whose sufficiency is proved; stochastic or numerical components (random generators, optimisers,
  samplers, the user's likelihood, the SVM's decision function) are *arbitrary* functions/streams that
  the theorems quantify over.
* Numbers: exact arithmetic over an arbitrary linearly ordered field `K` (examples use `ℚ`), or over
  `ℝ` where analysis is needed.  **Floating point rounding is not modelled, except in `Round*.lean`** (C145-C148, C151, C152), where every
  operation is rounded to the nearest representable number of an arbitrary format, or of IEEE binary formats with ties to even.  Infinities and NaN are
  modelled, where the code's behaviour depends on them, with an explicit type
  `Ext K = negInf | fin k | posInf | nan` and IEEE comparison rules.
* MPI: a collective call is modelled as a function from the list of per-rank inputs to the list of
  per-rank outputs (`bcast`, `gather`, `allgather` according to the MPI standard). Where it matters who calls what
  (exceptions in one process, deadlocks), each process is a program (`Spmd.lean`, `Prog`): a tree of collective calls; `Runs` and
  `Deadlocks` say how a family of programs, one per process, runs together.
* Properties are stated with small specification functions (`*Spec` definitions or plain Mathlib
  vocabulary) that do not mention model helpers.

File layout: `Verif/<Area>.lean` holds the model, `Verif/<Area>Props.lean` the property theorems
(one section per property, with `example`s showing hypotheses are satisfiable in non-trivial cases).

## 2. Trusted base

* The Lean 4.33.0 kernel.
* Axioms: at most `propext`, `Classical.choice`, `Quot.sound` (those of Mathlib).  No own axioms, no
  `sorry`, no `native_decide`, no `bv_decide`.  A per-theorem listing is in section 6.
* The transcription of Python into Lean (by hand, with line citations).
* Third-party behaviour assumed: numpy slicing/argmax/argsort/unique/isin, MPI collectives, pickle
  round trip, scipy Cholesky/triangular solves return the mathematically exact factors, the SVM's
  `predict` is some function of the query point.

## 3. Plan per property

| id | modelled | proof idea |
|----|----------|------------|
| C01 | `split_number_for_parallel_processes` (slots, reshape, column sums) | column sum = `n/p` + [r < n%p]; sums by counting |
| C02 | `step_split`, `merge_step_split` with numpy strided slices | index arithmetic `i ↦ (i%p, i/p)` |
| C03 | `_eval_truth_parallel` (contiguous chunks by prefix sums, gather, concatenate) | induction over ranks, uses C01 |
| C04 | `compute_y_parallel` | uses C02; negative theorem for MPI-less `bcast` branch |
| C05 | `Normalize_bounds` | field algebra; error branch lower>upper; degenerate width treated separately |
| C06 | `Pipeline_X`, `Pipeline_y` | induction over the list of stages |
| C07 | `Normalize_y`, `NormalizeChi2_y` | algebra over finite sums |
| C08 | `Whitening` | matrix algebra |
| C09 | `SVM._is_finite_raw`, `SVM.fit` on extended values | case analysis, affine monotonicity |
| C10 | `append_to_data` state machine | invariant by induction over histories |
| C11 | `_diff_threshold_if_keep_n_finite` | sorted list argument |
| C12 | `last_appended*` with Python negative slices | negation with witness (`[-0:]`), positive part for non-empty batch |
| C13 | `_validate_noise_level`, `_update_noise_level` | negation with witness, alignment invariant for histories starting with arrays |
| C14 | `predict` masks/clipping | decision logic |
| C15 | `predict`, `predict_std` | equality of the two modelled code paths |
| C16 | GP mean update | block matrix (bordering) identities |
| C17 | GP variance | Schur complement / positive semidefinite |
| C18 | GP interpolation | matrix algebra |
| C19 | `append_to_data`/`fit_gpr_hyperparameters`/`_update_model` freshness | negation with witness + invariant for the non-empty calls |
| C20 | `__deepcopy__` | negation with witness (clip factor, trust region, aliasing) + partial |
| C21 | `update_trust_region`, `shrink_bounds` | loop exit condition |
| C22–C25,C27 | `RankedPool.add_one/sort/add_bulk` | pool invariant by induction on insertions |
| C26 | `add_bulk` vs `add_one` | bulk = greedy; negation of equality with witness |
| C28 | `_gather_pools/_merge_pools` | from C22–C25 |
| C29 | removal of proposed points with `np.isin` | negation with witness; partial for 1-d |
| C30 | `_reweight_last_MC_sample` | algebra of exp, list filter |
| C31 | MC schedule counter | induction on calls |
| C32, C33 | main loop as fuelled state machine with oracle | well-founded measure, invariant |
| C34 | `_check_convergence_parallel` | fold invariant, permutation invariance |
| C35 | `CorrectCounter` | fold over history |
| C36 | KL criteria `is_converged` | list slices; negation for the Train variants |
| C37 | `is_converged_MPIwrapped` | per-rank programs of collectives |
| C38 | `_fit_gpr_parallel` schedule | modular arithmetic |
| C39 | argmax of gathered likelihoods | list argmax |
| C40 | `Truth.logp` with call log | decision logic |
| C41 | `wrap_likelihood`, `as_dict` | decision logic; negation for d=1 |
| C42, C43 | file system model of `save_checkpoint` with crash at any primitive write | induction over write sequence; negation with witness |
| C44 | proposers over arbitrary random streams | loop exit condition |
| C45, C46 | `shrink_bounds`, `is_in_bounds` | order algebra |
| C47 | `check_candidates` | negations with witness, one-sided theorems |
| C48 | `get_Xnumber` on character lists (values of finite numbers in XNumberProps.lean) | split/concat lemmas |
| C49 | `remove_0_weight_samples` | filter lemmas |
| C50, C51 | LogExp | real analysis |
| C52 | acquisition expression trees | structural induction, `HasDerivAt` |
| C53 | kernels | `HasDerivAt`, structural induction |
| C54 | `do_initial_training` | loop invariant; negation for the budget |
| C55 | `Progress` | list model |
| C56 | `NumpyErrorHandling` | structural induction over nested programs |
| C57 | `process_out_dir` | string split |
| C58 | `BatchOptimizer.multi_add` | fold invariant |
| C59 | theta of expression trees | structural induction |
| C60 | `kl_norm` | `x - 1 - log x ≥ 0`, eigenvalues |
| C61 | `gaussian_distance` | algebra for diagonal; negation with 2x2 witness |
| C62 | UltraNest `minus_inf_value` | negation with witness |
| C63 | `n_total` | negation with witness + invariant |
| C64 | file names | finite table, negation |
| C65 | surrogate Cobaya model | real algebra |
| C66 | preprocessor freshness after append | negation with witness + partial |
| C67 | gradients of predict | `HasDerivAt`; negation for std gradient with scale ≠ 1 |
| C68 | `_construct_options` | decision logic |
| C69 | option merging | finite map lemmas |
| C70 | `append_to_data` with NaN/+inf targets | negation: every later refit raises |
| C71 | `np.cov` call of `compute_mean_cov` | negation for all inputs: shape error or singular matrix (kernel vector) |
| C72 | `append_to_data` with `Normalize_y` | negation for all such states |
| C73 | bounding box of the transformed vertices | sign argument per component |
| C74 | RankedPool with cached models as lists of lies | invariant: sorted, caches fresh, ranking; induction over insertions |
| C75 | end of run as an SPMD program over collectives (Spmd.lean) | lockstep execution; negation with witness for 2 processes; positive for 1 process |
| C76 | loop with a flag telling whether the sampler options exist (Run.lean) | negation for every history: a resumed run never ends normally unless it gives up |
| C77 | SPMD program (Spmd.lean) | lockstep execution; negation with witness |
| C78 | Program of each process with collective calls (Spmd) | Negation: deadlock if it raises in one process and not in another |
| C79 | Program of each process with collective calls (Spmd) | Negation: deadlock |
| C80 | kl_mc | list lemmas |
| C81 | Acq.lean | Algebra of log and exp; direct evaluation for the counterexamples |
| C82 | Acq.lean | Chain rule with an abstract distribution function and density |
| C83 | Io.runnerInit | case analysis; counterexample for every directory |
| C84 | Truth.setNames, setRef, pyDict, namesDict | dict(zip) of distinct keys is the list itself; generic names are distinct |
| C85 | `optimize_acquisition_function` (Batch) | case analysis; counterexamples without bounds and with a stale objective |
| C86 | `is_nora` (Cobaya) | counterexample with the documented layout; case analysis for the other one |
| C87 | run.py `_construct_gpr`, `_construct_gp_acquisition` (values opaque, constructors not run) | lookup in a dictionary completed with defaults; arithmetic of the rounding |
| C88 | run.py `_construct_convergence_criterion`, `_share_convergence_from_main` as an SPMD program | induction over the list for the program of all processes |
| C89 | run.py `_construct_mc_options`, `generate_mc_sample` up to the call of the sampler | case analysis, lookup in dictionaries |
| C90 | run.py `last_mc_samples` | induction over the calls; lookup in dictionaries |
| C91 | run.py `set_fiducial_point`, `set_fiducial_MC` | case analysis on the arguments; lists of equal length |
| C92 | ns_interfaces.py `delete_output` on a set of files (folder, name), with folders and glob patterns | prefix order of names; patterns of literal characters and a star by induction; invariant: files and folders are in existing folders |
| C93 | mc.py `mcmc_info_from_run`; argsort as any sorting permutation | counting over a permutation |
| C94 | mc.py `samples_dict_to_getdist`, `process_gdsamples` (GetDist not modelled) | induction over the added columns |
| C95 | mpi.py `get_random_generator` as an SPMD program; child seeds as (entropy, number) | lockstep execution |
| C96 | mc.py `mc_sample_from_gp_ns`, after the sampler | lists; splitting of paths |
| C97 | ns_interfaces.py `set_precision`, UltraNest's prior transform, nessai's `log_prior` | induction over the parameters; ordered field |
| C98 | gp_acquisition.py `_init_nested_sampler`, `update_NS_precision`, `_get_output_folder`; mc.py choice of the interface | case analysis; decimal numerals are injective; induction over calls |
| C99 | KernelHyp: hyperparameters, theta, bounds, dynamic bounds, standard kernel | induction on kernel expressions |
| C100 | GprFit.fit | specification of argmin; induction on runs |
| C101 | GprFit.init | case analysis |
| C102 | GprFit.isFinite, absThreshold, predictIsFinite | inversion of append (C09) |
| C103 | GprFit.scales with Kernels | algebra of scaled distances |
| C104 | Cov.fromSamples, Cov.fromEvals, Cov.removeZero | sums over lists; quadratic form of the scatter matrix is a sum of squares |
| C105 | Cov.diagnose, Cov.diagnoseMPI, Cov.klNorm | dimension of the array returned by np.cov; lockstep programs |
| C106 | KExpr.eval (Kernels), Data.kmat (Gp) | products by Schur, exponential as a limit of power series; RationalQuadratic and Matern as mixtures (integrals) of Gaussians: gamma integral, integral of Glasser type for exp(-r), then integrals over shifts |
| C107 | ConvMc: reweights, tryReuse, sampleMc, fromMc, getNew, step | invariant over histories: the first value is NaN, a sample implies a mean; counting; covariance of one parameter has no dimensions |
| C108 | ConvInit | case analysis over dictionaries; floor and fractional part; invariant of C107 for limit_times=0 |
| C109 | Obj.append, runObj | induction over the calls with the invariant that the bounds are those of the stored training set; counterexample for calls that raise |
| C110 | n, yMax, rows | from the partition invariant C10 and the classification agreement C102; counterexamples for the empty training set and for calls that do not refit the classifier |
| C111 | AcqObj: trees, operators, ==, get_params, set_params | induction on trees; lemmas on splitting names at the first double underscore |
| C112 | AcqInit: constructors, specification, names, hasgradient, optimizer | case analysis; induction on trees; real powers |
| C113 | KernelOps: objects with the library of each class, reflected operators | induction on expressions; characterisation of the right orders of operands |
| C114 | Prior.uniform, priorSample, refSample; Truth.logprior | push-forward of the uniform measure on the unit cube, product measures |
| C115 | Slices | induction over the indices, the parameters, and the digits |
| C116 | Gather (programs of Spmd) | lockstep runs of the processes, induction over the arrays and attributes |
| C117 | proposal.py `check_in_bounds`, `SmallChainProposer` with the sampler as an arbitrary function of the number of the run | invariant of the store over histories of calls; index arithmetic of strided slices |
| C118 | mc.py `mc_sample_from_gp_cobaya`, `get_cobaya_log_level` on dictionaries of options; the model is an argument | lookup lemmas of dictionaries, case analysis |
| C119 | counters of the surrogates as a heap; the loop of `BatchOptimizer.multi_add` and `mpi_sync` as programs of the processes (Spmd) | induction over blocks and over points; uses C55 |
| C120 | RunnerOut.lean: logp, logL, log, banner, ensurePaths, createPath | case analysis of the prior; induction on the text for strip/split; membership in the list of directories |
| C121 | NoraSpmd.lean: multi_add as a lockstep program | composition of runs of its parts, refinement to the sequential pool of C09/C10 |
| C122 | NsRun.lean: the runs as lockstep programs, external samplers arbitrary | composition of runs; reading of tables by lists |
| C123 | Cred.lean: erfc by its integral, chi2 as the law of a sum of squares, inverse survival function as an infimum, ball volume; exact arithmetic | Distribution function of the sum of squares continuous and strictly increasing (spheres are null sets by Fubini; open shells have mass), intermediate value theorem; symmetry of the Gaussian for erfc; whitening with the square root of the covariance matrix |
| C124 | convergence.py:699-752 | whitening of the normal distribution and strict monotonicity of the chi-squared distribution function (C123); algebra of inverse matrices |
| C125 | Gp.lean (predict, predict_std, _update_model), Gaussian process as Mathlib's IsGaussianProcess | residual is uncorrelated with the data, hence independent of them; disintegration of the sum |
| C126 | Acq.lean (eiValue, eiGrad) with the distribution function and the density of Mathlib's standard normal distribution | change of variables, integration by the antiderivative -pdf, sign of the derivatives |
| C127 | Input.lean: nested lists with integer and floating point numbers, arrays with their type, assignment with conversion, eigenvalues of the lower triangle | shape of nested lists by recursion; conversion is the identity iff whole; eigenvalue criterion for positive definiteness |
| C128 | arguments of the triangle plot, points drawn | invariant of the loop over panels; filter composition; dictionary lemmas |
| C129 | bins, weights, heights and stacks | floor and ceiling arithmetic; volume of balls (C123); induction over stacks |
| C130 | panels, labels, colours and transparencies | case analysis of the squeezed array of axes; arithmetic with infinities |
| C131 | bars, totals, ticks | induction over columns; NaN absorbs; counting of multiples |
| C132 | grid, levels, clipping | reshaping of nested lists; Archimedean search for the last level |
| C133 | initial training, loop, evaluation and fit as SPMD programs with the modelled regressor; acquisition, callback, criteria and sampler as programs that end without exception in all processes | invariant relating data and list of evaluations, by induction on iterations; in each, either a process raises (then not all return) or all agree |
| C134 | Trace: `plotTrace`, `panel`, `colours`, `sigmaLines` | inversion of the program into its drawn lists; pointwise by index; half-integer arithmetic for the lines |
| C135 | PlotProg: `plotProgress`, `cornerStep`, `loopPlots` | normal form as a sequence of calls; induction over the calls and over the iterations; injectivity of padded decimals |
| C136 | CobayaRun: `run`, `doSample`, `doPlots`, `products` | case analysis; negation for the real tables of attributes and parameters; partial for tables with the names used |
| C137 | Bit generators as cells of a heap per process; references by Generator/RandomState; pickling copies cells; set_random_state; restarts, classifier and acquisition draw | Invariant: all references of process i are to its cell, stream child i; used = interval of positions; induction over actions |
| C138 | The callback as a program over runner, classifier data and outcomes of drawing functions; numpy membership | Case analysis of the program; membership by coordinates; induction for flags |
| C139 | Independent priors with support, log-density and central interval; TruthCobaya methods | Induction over parameters |
| C140 | BatchPre | invariant of the restarts lifted to the batch; counterexamples for smaller bounds, whitening, other coordinates |
| C141 | AcqPts | structural induction over expressions, C14_batch |
| C142 | Gp.lean, GpUpdate.lean | inverse of a bordered matrix; submatrices along a bijection |
| C143 | `Gpr.lean`, `Preproc.lean`, `Run.lean`, `Predict.lean`, `AcqPts.lean`, `Trust.lean`, `Cov.lean`, `Conv.lean`, `Nora.lean`, `Batch.lean`, `Pool.lean`, `NoraSpmd.lean`, `PoolGp.lean` (through `BatchMap`, `PoolMap`, `NoraMap`) | the shift commutes with every function (simulation of the two runs); induction over the history and the iterations |
| C144 | Gpr, Preproc, Trust, Cov, Run, Predict, AcqPts, Proposal, Batch, Pool, NoraSpmd, PoolGp (through BatchMap, PoolMap, NoraMap) | Each function commutes with the change of units (relation between two runs); sign cases of the division where bounds have zero width; chain rule for the gradients |
| C145 | Normalize_bounds.transform, inverse_transform; shrink_bounds; uniform draws, with every operation rounded to the nearest representable number (binary formats with ties to even; overflow is left out) | monotonicity of rounding; multiples of the last digit for uniform draws below 1 |
| C146 | _is_finite_raw, _diff_threshold_if_keep_n_finite, Normalize_y.transform and transform_scale, with every operation rounded | relative error of each operation; distance to the threshold larger than the sum of the errors; counting in the sorted list |
| C147 | int(np.ceil(n / q)), int(n / q), int(float(value) * X) of get_Xnumber, with rounding of every operation | relative error below the distance 1/q to the next integer; integers are representable |
| C148 | np.mean and np.std of few values, Normalize_y.transform and inverse_transform, np.round(x, decimals=8), with every operation rounded; check_candidates | relative errors; distance of integers larger than the errors |
| C149 | construction of the proposer, the constructors of four classes, their proposals, the loop of the initial training around them | case analysis of names through the suffix; induction on the number of draws, with the loop of the decorator inside the loop of the run; simulation of two proposers that differ in the option |
| C150 | Gpr, Run, Trust, Cov, Kernels, Predict, AcqPts, Stat, Align, Batch, Pool, NoraSpmd, PoolGp (through BatchMap, PoolMap, NoraMap) | equivariance of each function under a permutation; counterexample for gaussian_distance |
| C151 | kl_norm with IEEE rounding, underflow and overflow (logarithms of determinants, trace and quadratic form given; complete for diagonal matrices) | Roundings bounded one by one; monotone rounding for the inverse and the trace; units through the invariance of the divergence |
| C152 | nstd_of_1d_nstd and delta_logp_of_1d_nstd with the result of erfc rounded to a double (the inverse of the survival function is exact) | Bounds of the tail of the normal distribution on both sides; the survival function is continuous and strictly decreasing |
| C153 | Gp.lean | solution of the large system from that of the small one (GpRepeat.lean) |
| C154 | Gp.lean, GpLml.lean; formula of scikit-learn as documented | Schur complement of determinant and inverse (GpLml.lean), induction on the number of evaluations (GpLmlMany.lean) |
| C155 | RoundAcq.lean on Round.lean | gap between neighbouring numbers against the error of their squares; monotone rounding |
| C156 | runTable: initial training and loop with the table of each process; synchronisation as an SPMD program | induction over the loop of Run.lean together with C55 for each synchronisation; rows matched with the events of the loop |
| C157 | append_to_data, predict, predict_std, update_trust_region, mean_covmat_from_samples, mean_covmat_from_evals, preprocessors of targets, BatchOptimizer.multi_add, NORA.multi_add with its ranked pool | relation between two states kept by each step of the call; permutation invariance of maxima, order statistics, sums and matrices |
| C158 | AcqNoise.lean, Acq.lean (noiseVar), AcqPts.lean, Gpr.lean | Mean of squares minus square of the mean is a sum of squares; case analysis of append_to_data for a call without finite points |
| C159 | `RunMsg.lean`: messages of the loop as a list, same recursion as `loop`; messages of evaluation, fit, initial training | induction on the loop for any position in the list of messages; `append_data` for the points kept |
| C160 | GprLml (Reg, Op, step, steps, Reg.reported), GprFit (fit) | case analysis of the fit; induction over the calls from the end; two points with an RBF kernel for the counterexample |
| C161 | Resume (iterN, St.after, sessionFits), Run (iterate, loop, fitKind) | simulation between the state of the resumed loop and that of the loop without interruption, by induction on the number of iterations; counting residues |
| C162 | InitDup (constructGiven, warnsClose), Run (initRounds, initialTraining), Rng (own, fit) | form of the rounds by induction; copies counted; C72 for targets that are all equal |
| C163 | append (Gpr.lean) with the value returned (PreFit.lean) | frame lemmas through each stage of the call |
| C164 | `f` of LogExp and NonlinearLogExp for any mean (`Proposed.lean`), with the models of `predict`, of NORA's `multi_add` in several processes and of BatchOptimizer | the acquisition value is minus infinity exactly at the excluded points; only entries above minus infinity enter the pool and survive the merge (C121); BatchOptimizer picks minus infinity only if no restart found a number |
| C165 | `noraValues`: `f` with the noise level of the surrogate (a number, or an array with broadcasting), against `__call__` | both are the same function of mean and standard deviation entry by entry for finite or minus infinite means; witnesses for sigma_n, arrays and zeta = 0 |
| C166 | models of C14 (predict), C18 (posterior at training points), C31 (acquisition functions), C121 (NORA with processes), C74 (BatchOptimizer), C10 (training set) | posterior variance at training point i is v_i - v_i^2 (K^-1)_ii with v_i the noise variance, so at most v_i; then the difference of variances of the acquisition function is not positive; for NORA with C164; for BatchOptimizer by induction on the batch with the invariant of append_to_data |
| C167 | PoolGp.lean (Surr.train, Surr.st, Surr.cond) with Gp, Predict, Proposed, Pool, NoraSpmd | variance decreases with the training set (C17), the acquisition function increases with it; the ranking of the pool (C25, C121) with that; standard deviation at a training point at most the noise (C18) |
| C168 | Pool.lean, NoraSpmd.lean, Batch.lean, Mpi.lean | The merged pool is a greedy selection of a permutation of the sample, and greedy selections are unique; a sample of five points for the counterexample |
| C169 | ConvSave (on ConvMc) | Invariant: each stored dictionary holds one likelihood named gp; induction on the history. The last clause is false: the original is changed |
| C170 | PoolCopy.lean: arrays of a copy, len, str, reset_cache | shape of the pool after insertions (C25); sort does not read the cached models |
| C171 | BatchLies.lean, BatchLiesClf.lean (Surr.deepcopy, Surr.value, lieCfg) with Batch, PoolGp, Predict, Gp | lies equal to the mean leave the mean unchanged (C16), by induction over the batch; ceilings do not decrease |
| C172 | ConvBatch.lean (no new definitions) with BatchLies, BatchLiesClf, Conv | C171 for the kept points; counter of a one-point batch for the counterexamples |
| C173 | XParts.lean (getXparts) with Tools (getXnumber) | case analysis of both functions over the split string |

## 4. Where the code and the property disagree

Each item names the theorem that proves the negation.  For each such property the true part is proved in
a theorem with suffix `_partial`.

* **C09** NaN target: `_is_finite_raw` uses numpy's maximum, `SVM.fit` Python's `max`; the assertion in
  `append_to_data` fires (`C09_nan_counterexample`).
* **C10, C63** after `append_to_data(..., fit_gpr=False, fit_classifier=False)` the classifier's arrays are
  stale: `X_train_infinite` raises `IndexError` and `n_total` is too small
  (`C10_infinite_stale_counterexample`, `C63_stale_counterexample`).
* **C12** the slice `[-0:]` is the whole array: with an empty batch, or a batch without finite points,
  `last_appended(_finite)` returns everything (`C12_empty_batch_counterexample`).
* **C13** `_update_noise_level` expands a scalar noise level to the number of points *including* the new
  ones, so per-point noise never works after a scalar one (`C13_pointwise_noise_never_works`,
  `C13_pointwise_noise_counterexample`); and the failed call has already stored its points
  (`C13_not_atomic_counterexample`).
* **C19** the documented options B (append without fit, then `fit_gpr_hyperparameters`) and C (without
  classifier) leave the kernel factors computed with the old hyperparameters
  (`C19_option_B_stale`, `C19_option_B_counterexample`, `C19_option_C_stale_counterexample`).
* **C66** a batch without finite points refits the preprocessors but leaves the transformed training set
  and the noise variances as they were (`C66_stale_counterexample`, `C66_noise_stale_counterexample`).
* **C70** once a NaN or `+inf` is stored, every later append that refits the classifier raises
  (`C70_poisoned`, `C70_never_recovers`).
* **C05** `Normalize_bounds` accepts zero-width bounds, for which nothing has a finite transform, and stores refused bounds before raising (a `TypeError`, not the intended `ValueError`) (`C05_zero_width_accepted`, `C05_refused_but_stored`).
* **C07** with `use_median=True` the scale may be zero for data with spread (`C07_median_counterexample`).
* **C71** `np.cov` is called with variables in rows, so learning a whitening transform raises `RuntimeError` (not caught) unless n = d, and then the matrix is singular (`C71_learn_never_works`).
* **C72** with `Normalize_y`, any append after which the kept targets are none, one or all equal raises (`C72_equal_targets_raise`, `C72_counterexamples`).
* C22, C24 (pools): `add(method="bulk")` always starts writing at the first slot, so calling it on a non-empty pool overwrites better points and leaves the values unsorted (`C22_bulk_twice_counterexample`). NORA always merges into a new pool.
* C24, C25 (pools): if any candidate has acquisition +inf, `add_bulk` returns immediately and the pool is left empty (`C24_bulk_infinite_counterexample`); the test seems to have been meant for -inf.
* C26: with more candidates than slots, one-by-one insertion is not greedy selection (`C26_single_not_greedy_counterexample`): a candidate pushed out earlier may be the best one later. Both agree when everything fits.
* **C38** the fit of an iteration is skipped when the acquisition was insufficient, but the iteration number advances, so a block of `fit_full_every` iterations may contain no full fit (`C38_skipped_counterexample`).
* **C54** the number of initial evaluations is rounded up both per process and per round, so it may exceed `max_initial` (`C54_budget_counterexample`); points of a pretrained surrogate are appended again and counted as new (`C54_pretrained_counterexample`); with enough points and low verbosity there is a ZeroDivisionError (`C54_zero_division_counterexample`).
* **C76** on resume `_construct_mc_options` is never called, so a run that converges or exhausts its budget ends in AttributeError (`C76_resumed_never_finishes`, `C76_counterexample`).
* **C37**: `is_converged_MPIwrapped` only catches `ConvergenceCheckError`: any other exception raised in one process and not in another leaves the others waiting in `allgather` (`C37_other_exception_deadlocks`, `C37_main_exception_deadlocks`). In `_get_new_mean_and_cov_from_mc` (convergence.py:383-404) a failing comparison raises in the main process only, before the broadcast for which the others wait (`C37_mc_comparison_deadlocks`).
* **C75**: run.py:1039-1061 calls `generate_mc_sample` and `diagnose_last_mc_sample`, which broadcast, inside `if mpi.is_main_process`: a run with several processes that ends without convergence hangs (`C75_unconverged_deadlocks`).
* **C77**: run.py:1178-1190 raises (or fails in `append_to_data`) in the main process only; the others wait in `_share_gpr` (`C77_failure_deadlocks`).
* **C78, C79**: exceptions of the true posterior or of the fit in one process are not communicated; the others wait in `gather`/`allgather` (`C78_truth_exception_deadlocks`, `C79_fit_exception_deadlocks`). Whether the MPI library aborts the other processes when one of them dies is outside of the model (mpi4py does not, by default).
* **C45**: `shrink_bounds` returns lower > upper when all the samples are outside of the bounds on the same side (tools.py:308-346); for an empty sample the exception is a `ValueError` of numpy, not the documented `TypeError`.
* **C47**: `check_candidates` compares with `X_train`, which has only the finite points: a point found to be infinite is not flagged and can be evaluated again. The duplicate test is element-wise (`np.isin`), so in two or more dimensions a new candidate can be flagged and dropped (`C47_fresh_dropped_counterexample`).
* **C48**: `get_Xnumber` lets an `OverflowError` through for infinite values with `dtype=int`. **C56**: a `NumpyErrorHandling` object made before the error state is changed restores the older state. **C57**: different output options may name the same folder and prefix.
* **C61**: `gaussian_distance` multiplies by `inv(std_diag) @ Lscalefree` where the Mahalanobis distance needs `inv(Lscalefree) @ inv(std_diag)` (tools.py:94). Right only for uncorrelated parameters; used for plots.
* C16 (kriging believer): the lie is `gpr.predict`, which is clipped from above at `clip_factor*max(y) - (clip_factor-1)*min(y)` (gpr.py:1187-1195). Where the mean exceeds that ceiling the lie is not the mean, so adding it changes the mean (`C16_clip_counterexample`). Without clipping the property holds (`C16_kriging_believer_partial`).
* C53 (kernel gradients): `Product.gradient_x` (kernels.py:687-699) adds a dimension to `x` and passes the result on to `gradient_x` of its factors, so a product inside a product, e.g. `(C*RBF)*RBF`, calls kernels with a three-dimensional array: `ValueError` of scipy's `cdist` (`C53_nested_product_counterexample`). `Matern(nu=0.5).gradient_x` returns `-1/length_scale` where both points agree though the kernel has no derivative there (`C53_matern12_counterexample`), and raises inside a product in more than one dimension. For other values of `nu` than 1/2, 3/2, 5/2 `gradient_x` returns `None`. Read, not modelled: `Hyperparameter(...)` is called without its required argument `max_length` in `RationalQuadratic.hyperparameter_alpha`, `ExpSineSquared.hyperparameter_periodicity` and `DotProduct.hyperparameter_sigma_0`.
* C67 (gradients of predictions): the gradient of the standard deviation is multiplied by the scale of the targets twice (gpr.py:1250-1257, "Apply inverse transformation twice") though the standard deviation it is divided by is not scaled, so that it is wrong by the factor `std_` whenever targets are normalised (`C67_std_counterexample`). The gradient of the mean ignores the clipping (`C67_clip_counterexample`) and the trust region. For a `DotProduct` kernel the gradient of the standard deviation leaves out the derivative of the prior variance (not modelled: `C67_std_partial` asks for kernels without it).
* **C51** `LogExp` (acquisition_functions.py:993-1007): the gradient divides by `std - noise`, the derivative has `(std² - noise²)/std`; they agree only without noise. With `sigma_n` given, the local variable `sigma_n` of lines 974-981 is never assigned and the gradient raises `UnboundLocalError`; with an array of noise levels the comparison raises `ValueError`.
* **C59** hyperparameter vectors (acquisition_functions.py:1251-1278): an object used twice in an expression (`af + af`) reads back its last component twice; the default `LogExp` has the free hyperparameter `sigma_n = None`, so `theta` raises `TypeError`.
* **C81** `Mu` and `Std` ignore their parameter `a` (acquisition_functions.py:529-541, 671-684); `ExponentialMu` always asks for the gradient of the mean, which `predict` refuses for more than one point.
* **C82** `ExpectedImprovement` (acquisition_functions.py:847-861): the contribution of the mean to the gradient has the wrong sign.
* **C20** `__deepcopy__` (gpr.py:1354-1433) does not copy `clip_factor` (the copy has 1.1) nor `trust_bounds` (the copy has none until its next append), and passes the preprocessors by reference: an append with fit to the copy changes all the predictions of the original (and the other way round). The acquisition code only appends without fit, so it is not affected by the sharing.
* C36: `GaussianKLTrain` (default `limit_times` 2) and `TrainAlignment` never require that `limit_times` values exist: `values[-limit_times:]` of a shorter list is the whole list, so the first call may already return true (`C36_train_counterexample`). `GaussianKL` is protected only because its first value is always nan.
* C40: with an infinite bound the prior volume is infinite, the log-prior `-inf` everywhere, and the likelihood is never called (`C40_infinite_counterexample`).
* C41: `wrap_likelihood` counts parameters. In one dimension a function of a vector gets a number; `as_dict` stores the wrapped function, which is wrapped again when loading, so that in one dimension every evaluation of the reloaded truth raises TypeError (`C41_reload_counterexample`). A vector function with one optional parameter is called with two numbers in two dimensions; keyword-only parameters are counted but cannot be passed.
* C42: `save_checkpoint` overwrites the six files one by one: a crash between two files leaves a mixture of two checkpoints that `read_checkpoint` loads without complaint (`C42_mixed_counterexample`).
* C43: `ensure_gpr` uses `options or opt_`: an empty dictionary passed by the caller is replaced by the loaded one. The exchanged indices in `read_checkpoint` (io.py:106-109) and its documented `None` for missing files have no effect: `open` raises first (`C43_never_none`).
* C44: `PartialProposer.__init__` does not pass its bounds to the true proposer (`C44_partial_counterexample`). `CentroidsProposer.get` raises TypeError between the first `update` and the next `update_bounds`.
* C83: `Runner.__init__` calls `get_truth(loglike)` also when resuming without likelihood, which raises TypeError for `None`: such a run can never be resumed (`C83_resume_counterexample`).
* C84: repeated parameter names are accepted, but `as_dict` builds a dictionary from them and the reload fails (`C84_repeated_counterexample`).
* **C29**: `np.isin(X, x)` in `NORA.multi_add` compares coordinates, not rows: with `(1, 2)` proposed, the row `(2, 1)` is discarded and, as `argmax` takes the first match, `(1, 2)` may be proposed again (`C29_swapped_counterexample`, `C29_twice_counterexample`).
* **C30**: reweighting gives NaN weights if the old value of a point is minus infinity, or if all the new ones are (`C30_old_infinite_counterexample`, `C30_new_infinite_counterexample`).
* **C62**: the UltraNest interface uses `-1e-300` (not `-1e300`) for excluded points, which ranks them above every negative log-posterior (`C62_ultranest_counterexample`).
* **C58**: `n_restarts_optimizer=0` (documented as one run) raises `IndexError` with one process and never ends with more; a restart ending in NaN is preferred to all the others (`C58_zero_restarts_counterexample`, `C58_nan_counterexample`).
* **C85**: `optimize_acquisition_function` without bounds uses `self.bounds_`, then indexes the argument `bounds`, which is `None`; and it keeps the objective function of the first surrogate if called again with another one outside of `multi_add` (`C85_no_bounds_counterexample`, `C85_stale_counterexample`).
* **C64**: `output_files_regexps` lists `mod.pkl` instead of `tru.pkl`; without output it raises `TypeError` (`C64_truth_counterexample`, `C64_no_output_counterexample`).
* **C65**: `cobaya_generate_gp_model_input` raises `TypeError` for bounds passed as a list (as documented); repeated names collapse (`C65_list_counterexample`, `C65_repeated_counterexample`).
* **C69**: `CobayaWrapper.initialize` calls `Runner(model=…)`, but `Runner.__init__` has no such parameter: it always ends with `LoggedError` (`C69_runner_counterexample`).
* **C86**: `is_nora` looks at the first key of `gp_acquisition`, not at `engine` (`C86_counterexample`).
* C87: `Runner(gpr=None)` is documented but `_construct_gpr` raises TypeError; `gp_acquisition={"LogExp": {...}}` drops the arguments of the acquisition function (run.py:386-390) (`C87_gpr_none_counterexample`, `C87_function_args_counterexample`).
* C88: instances as values of the mapping of convergence criteria raise ValueError though the code means to keep them; a mapping in a sequence raises TypeError; a wrong specification under MPI raises in the main process only and the others wait in a broadcast (`C88_counterexample`, `C88_deadlock_counterexample`).
* C89: `generate_mc_sample()` without any sampler given raises IndexError instead of using nested sampling; the options dictionary of the caller gets `nlive` added in place (`C89_default_counterexample`, `C89_changes_argument_counterexample`).
* C90: `last_mc_samples(copy=False, as_pandas=True)` pops the points from the stored sample; the next call as a table raises KeyError (`C90_counterexample`).
* C91: `set_fiducial_point`/`set_fiducial_MC` without densities keep those of the previous point(s), and a refused call has already replaced the point(s) (`C91_stale_counterexample`, `C91_sample_counterexample`).
* C92: `InterfaceUltraNest.delete_output(out_dir)` deletes `self.output` instead of `out_dir`; PolyChord's patterns `root_*` also delete files of a run with prefix `root_x` (`C92_ultranest_counterexample`, `C92_polychord_counterexample`). Prefixes are used as glob patterns without escaping (ns_interfaces.py:258-260): with prefix `a[1]` the output stays and files of the prefix `a1` are deleted (`C92_glob_counterexample`). The folder of the run is only removed if the folder `clusters` could be (ns_interfaces.py:265-269, `C92_folders_counterexample`). For nessai and UltraNest a second call raises FileNotFoundError, and before the first run (`output` is None) TypeError (`C92_twice_counterexample`); PolyChord then deletes files with the initial folder and prefix of its settings (`C92_before_counterexample`).
* C93: `mcmc_info_from_run` with `verbose < 2` passes an invalid covariance matrix, or None, as `covmat` (mc.py:148-155) (`C93_covmat_counterexample`).
* C94: `samples_dict_to_getdist` with its default `bounds=None` raises TypeError; `process_gdsamples` refers to `SampleCollection`, which is not imported, and raises anyway after the conversion (`C94_counterexample`).
* C95: `get_random_generator(Generator)` returns the same generator in all processes, so that they draw the same numbers (`C95_generator_counterexample`).
* C96: `mc_sample_from_gp_ns(output=...)` without `params` raises NameError (`X_mc`, mc.py:447) (`C96_names_counterexample`).
* C97: nessai's `log_prior` uses `any()`: for an array of points it is 0 for all of them as soon as one is within the bounds (`C97_nessai_counterexample`).
* C99: bounds 'dynamic' use 1e-3 to 100 times the width of the prior (not the range documented); for an isotropic kernel the width of the first dimension is used, not the largest one as the warning says; ConstantKernel and WhiteKernel with 'dynamic', and RationalQuadratic, ExpSineSquared and DotProduct with any bounds raise TypeError. `Hyperparameter.__eq__` (kernels.py:108-115) ends with a comparison of arrays: with 'dynamic' bounds and two or more parameters even `h == h` has no truth value (`C99_eq_counterexample`).
* C100: n_restarts_optimizer=0 (the default, documented as one run) does no run, and the first fit of a regressor raises AttributeError (kernel_ is None). The first run of a new regressor starts from a random point, not from the initial parameters of the kernel as documented. If any run ends with NaN it is selected.
* C101: bounds=None (the default) always raises; clip_factor=None raises TypeError although the message says it is allowed; keep_min_finite defaults to max(2, d), documented as d.
* C102: is_finite and training_set_as_df raise TypeError if only -inf targets were added; abs_finite_threshold misses the mean of the y-preprocessor; predict_is_finite without classifier has the length of the training set.
* C103: scales raises TypeError in one dimension without X-preprocessor, and AttributeError with Whitening (no inverse_transform_scale).
* C104: `mean_covmat_from_samples` with a single point with weight returns a covariance full of NaN (`ddof=1`: 0/0, only a warning); `mean_covmat_from_evals` with all log-posteriors `-inf` returns NaN everywhere without an exception. The weights of a chain (numbers of repetitions) are passed as `aweights`: the covariance is normalised by `W - Σw²/W` and not by `W - 1`, so variances are overestimated with respect to the repeated points (1/2 instead of 1/3 in `C104_repeated_counterexample`).
* C105: with one parameter `np.cov(X.T)` returns a 0-dimensional array (tools.py:427, 439), and `np.linalg.inv` raises `LinAlgError`. So `diagnose_last_mc_sample` always raises with one parameter (not caught in `Runner.run`; with several processes the others wait forever), and `GaussianKLTrain` never signals convergence. The acquisition path uses `np.atleast_2d` and is not affected.
* C106: `ExpSineSquared` uses the Euclidean distance between points, so with two or more parameters its matrices need not be positive semidefinite (three points are enough); the same for `Exponentiation` with an exponent that is not whole. Nothing in the code warns about this; the Cholesky decomposition may then fail with `LinAlgError`.
* C107: in `GaussianKL` without samples of the acquisition (`BatchOptimizer`), `n_reused` is never set back to 0, so `max_reused` counts for the whole run; `max(self.values)` is always NaN (the first value is), so `min_kl` is always 0; with one parameter `np.cov` gives an array without dimensions, and `kl_norm` raises `LinAlgError` in every call after the first (`C107_one_parameter`), with several processes a deadlock; if the surrogate is minus infinity in all the points of the last sample, `ZeroDivisionError` ends the run; `thres` gets no entry when the sample comes from the acquisition.
* C108: `GaussianKL` takes the dimension as default of `limit_times` (documented: 2); `limit_times` of 1/2 or less is rounded to 0, and `values[-0:]` is the whole list with its initial NaN, so the criterion never converges; `TrainAlignment` with `int(n * frac_training) = 0` uses the whole training set; `GaussianKLTrain` and `TrainAlignment` write their defaults into the (non-empty) dictionary they are given.
* C109: `append_to_data` that raises in the update of the model has already stored the new training set, while `trust_bounds` are still those of the old one.
* C110: `y_max` of a regressor without training points raises `ValueError` (the fallback of gpr.py:402 is never used, as `y_train` always exists). `training_set_as_df` after a call without refit of the classifier uses the old threshold.
* C111: `set_params(k1=new, k1__a=v)` on a sum looks up the operands before setting anything (acquisition_functions.py:219), so `a` is set in the operand that is being replaced and the new one keeps its own `a` (`C111_replaced_counterexample`). An acquisition function with a NaN parameter is not equal to itself (`C111_nan_counterexample`).
* C112: `acq_func={"LogExp": {"zeta": 1}}` gets an entry `dimension` in the dictionary of the user (gp_acquisition.py:53, `C112_mutates_counterexample`). `builtin_names` lists abstract classes, operators that cannot be built by name and even `Iterable`; that of gp_acquisition lists every class in the module, e.g. `partial` (`C112_names_counterexample`). The error message for `acq_optimizer` proposes `lbfgs`, which is refused; `set_params(k1=...)` leaves `hasgradient` of a sum as it was (`C112_optimizer_counterexample`).
* C41: likelihoods with a variable number of arguments (`f(*x)`, `f(x, *rest)`) are refused in two or more dimensions although they could be called with the coordinates (`C41_varargs_counterexample`).
* C113: `gpry.kernels.Kernel` does not override `__pow__`, so `RBF()**2` is scikit-learn's `Exponentiation`, without `gradient_x`; and `RBF() + RBF()**2` (kernels.py:128) wraps the power in a `ConstantKernel` because it is not an instance of GPry's `Kernel`: the result evaluates to an array of objects. `RBF()**2 + RBF()` has the right values.
* C114: `ref_bounds` are not compared with the prior bounds (truth.py:70-87): reference bounds outside the prior are accepted, and then `logp` is `-inf` at every reference sample without calling the likelihood. `prior_sample` raises `OverflowError` for infinite bounds.
* **C115** `prepare_slices_func` (plots.py:97-117) with a dictionary as `X_fiducial` always raises if there is at least one parameter: line 100 replaces `X_fiducial` by the array of its values before line 101 takes the names from it. `C115_dict_counterexample`.
* **C115** negative indices pass the check `i < dim` (plots.py:126); with more bounds than parameters, `bounds[-1]` is not that of the last parameter. `C115_negative_counterexample`.
* **C115** `_prepare_reference` (plots.py:797-811) fills in the dictionary of the caller, and returns nothing if GetDist is not installed, whatever the reference. `C115_mutates_counterexample`, `C115_getdist_counterexample`.
* **C115** `simple_latex_sci_notation` (plots.py:33-46) strips all the digits of the exponent of `1.5e+00`: what is drawn is `1.5·10^{}`. `C115_sci_zero_counterexample`.
* **C116** `Runner.update_mean_cov` (run.py:1350) asks the *list* `self.convergence` for `mean` and `cov`: the documented fallback to the convergence criteria never happens, and with `BatchOptimizer` (which has `mean_`, not `mean`, gp_acquisition.py:267) both are set to `None` at the end of each iteration. `C116_convergence_counterexample`.
* C117: `SmallChainProposer` keeps `points[::-nsteps]`, every `nsteps`-th point of the whole chain and not the `nsteps` last points of its documentation: with the default 100 points and 20 steps, five points (`C117_last_counterexample`). An empty chain, or `nsteps=0`, ends in IndexError, and a call before `update` in AttributeError, outside the `try` (`C117_raises`); the uniform points given after failures ignore the random state (`C117_fallback`).
* C118: `mc_sample_from_gp_cobaya` compares `sampler.lower()` but then uses the name as given, so that `MCMC` or `PolyChord` raise KeyError (`C118_case_counterexample`); the attribute `cov` is looked up in the list of convergence criteria, which has none (`C118_conv_counterexample`); `surr_info["sampler"]` has the sampler object as key because the variable `sampler` was reassigned (`C118_info_counterexample`); `verbose=None` passes the log level and then fails in `verbose >= 2` (`C118_none_counterexample`).
* C119: in `BatchOptimizer.multi_add` the surrogate of the main process is broadcast after each point, overwriting the counters of the others, and `mpi_sync` then sums the same number over all processes: the number of evaluations reported is that of the main process times the number of processes (`C119_acquire_counterexample`). `add_fit` is only called in the main process, so that the evaluations of the likelihood by the others are not reported (`C119_fit_partial`). The evaluations of the conditioned surrogates of `RankedPool` are made on copies and never reported (`C119_copies_counterexample`).
* C120: `Runner.logL` is documented for a point or a list of them; with two or more points it raises ValueError (the truth value of an array, truth.py:138); outside of the prior bounds it returns +inf (or NaN where the surrogate is -inf) instead of a likelihood. The attribute `Runner.log_prior_volume` mentioned in its documentation does not exist.
* C121: if `NORA.multi_add` reuses its last sample and no point of it lies within the bounds passed, the maximum of an empty array is taken (gp_acquisition.py:914) in the main process only. With one process that is a ValueError; with several, the main process raises and the others wait forever at the next collective call.
* C122: the argument `sampler` of `NORA.do_MC_sample` selects a method but not the interface, which is that made at initialisation (gp_acquisition.py:728-748): asked for nessai, an object made for PolyChord hangs with several processes; one made for the uniform sampler has no interface (AttributeError). No caller in GPry passes it.
* C122: with `keep_all=True` PolyChord's interface concatenates the lists of points of all the processes in the main one (ns_interfaces.py:223-230); if some but not all of them are empty, numpy raises ValueError there, and the other processes return.
* C124: `frac_training` of `TrainAlignment` (convergence.py:699-701): if the fraction amounts to less than one point, the slice is `[-0:]` and *all* training points are used instead of none or one; a negative fraction drops the oldest points. `diagnose_last_mc_sample` asks for a credibility strictly larger than 0, so means that are exactly equal count as a failure (C105, C124_range).
* C126: ExpectedImprovement returns 0 where the standard deviation is zero, also if the mean exceeds y_max + xi, where the expected improvement is positive (acquisition_functions.py:837-838); the documentation calls the value the negative expected improvement and y_opt the value below which one improves, while the code rewards values above gp.y_max.
* C127: if all the prior bounds are Python integers, the array of default reference bounds (truth.py:70) has integer type and assigning the reference bounds drops their fractional parts: with bounds [[0, 1]] and ref_bounds [[0.2, 0.8]] every reference sample is 0 (`C127_reference_counterexample`). check_and_return_bounds accepts arrays of shape (n, 2, m). is_valid_covmat compares with an absolute tolerance of 1e-8 and only uses the lower triangle: for parameters of small scale, matrices that are not symmetric are valid.
* C128: the documentation of `plot_corner_getdist` says that training points outside the ranges of the axes are not plotted; the condition (plots.py:613-627) is `mini < x or x < maxi`, which every point meets unless the axis is inverted (C128_all, C128_range_counterexample, C128_inverted_counterexample). Limits given as a list are compared with the parameters left after removing those that the last sample lacks (C128_bounds_counterexample). The log-posterior is asked for in `plot_mc` and never shown (C128_logpost_counterexample).
* C129: `plot_distance_distribution(density=True)` raises IndexError if the largest distance is an integer: there are then as many shells as that integer, and the weight of the point is looked up one position beyond (plots.py:987-994; C129_density_error).
* C130: `plot_slices_func` works for exactly one slice, as an array of axes is not a Sequence (plots.py:232-233; C130_func_counterexample); `plot_slices` and `plot_slices_reference` fail with one parameter, as the axes are squeezed (C130_slices_counterexample, C130_reference_counterexample); the latter also fails around points with a zero coordinate, by which it divides (plots.py:343; C130_alpha_zero); `plot_convergence` raises KeyError for a wrong `evaluations` (C130_convergence_counterexample).
* C131: rows of iterations that repeat the acquisition have no times of truth, fit and convergence (run.py:911 `continue`), and `plot_timing` replaces only the last NaN of convergence: totals and percentages of the legend are NaN afterwards (C131_resample_counterexample).
* C132: the levels of `_plot_2d_model_acquisition` go from 0.99 times the smallest to 1.01 times the largest value, which for negative values is a smaller range, not a larger one (plots.py:1068; C132_levels_counterexample).
* **C135**: `plot_progress` with its default arguments fails at the convergence plot as long as the criterion has no values, and does not get to the trace plot, which tolerates exactly this (plots.py:850-861); figures then stay open (`C135_no_values_counterexample`).
* **C136**: `CobayaWrapper.do_surrogate_sample` reads `last_mc_surr_info` and `last_mc_sampler`, which no `Runner` has (they are `_last_mc_cobaya_info` and `_last_mc_cobaya_sampler`): `run` ends in LoggedError even if everything went well, and `products` raises (`C136_run_counterexample`). `do_plots` passes `format=format` to `plot_distance_distribution`, which has no such parameter: always TypeError (`C136_plots_counterexample`). The option `format` for plots documented in CobayaWrapper.yaml is no parameter of `plot_progress`: no figure is made (`C136_format_counterexample`).
* C137: (a) with an integer `random_state` for the regressor, `check_random_state` makes a new RandomState with the same seed in every fit (gpr.py:969), so all fits restart from the same positions. (b) After resuming with several processes, every process holds the generator of the process that wrote the checkpoint until the first `_share_gpr`, which comes after the first parallel fit: in that fit all processes optimise from the same positions. (c) After resuming without MPI, `_share_gpr` returns at once and the regressor keeps the old generator: the new seed has no effect on it. (d) Resuming with the same integer seed makes the acquisition take again the numbers of the first iterations.
* C138: `diag.diagnosis` always raises in the main process: `runner.model` is no attribute of Runner (diag.py:36, 118, 133, 161); without it `gpr.is_finite()` lacks its argument (diag.py:83) and `plot_slices_reference(..., truth=True)` gives `truth` twice (diag.py:142). The backend of matplotlib stays "Agg" after the exception. `point in X_train` (diag.py:39, 82) is numpy's elementwise test: true for every point sharing one coordinate with a training point, so the verdict on the sets can be wrong both ways. The subtests after a negative verdict on the sets (diag.py:90-91) ask whether finite points are missing and whether there are more points, and print `True` if not.
* C139: with a Cobaya model that has unbounded priors, `prior_bounds` is cut at a confidence of 0.99995, but log-prior and log-posterior are finite outside, and the likelihood is evaluated there; for function likelihoods the log-posterior is minus infinity outside. `log_prior_volume` is computed from the bounds also if the priors are not uniform.
* C132: in the contour figures for finite values (`_finite`, `_std`) first and last level coincide if the upper half of the finite values are equal (e.g. a flat acquisition function), and with fewer than two finite values `max` of an empty list raises.
* C140: `Normalize_bounds.transform_bounds` ignores its argument (preprocessing.py:359-362). With the default of `Runner` (run.py:318, 377) the local optimisation therefore searches the whole prior even when the bounds of the trust region are passed (run.py:841), and the copy used for the first point of a batch has no trust bounds either (C20): `C140_trust_counterexample`. With `Whitening` proposals may be out of the prior (`C140_whiten_counterexample`; the comment in gp_acquisition.py:471 announces clipping that is not done). The gradient of the objective function is that in the coordinates of the surrogate; with `preprocessing_X=None` in the optimiser and `Normalize_bounds` in the surrogate it is wrong by the width of the prior (`C140_gradient_counterexample`). C58's statement about bounds holds under the hypothesis that the local optimiser stays within them in the original coordinates, which these two preprocessors break.
* C141: `ExponentialMu` and `ExponentialStd` ask `predict` for gradients in any case and raise ValueError for more than one point (acquisition_functions.py:600, 746). With a trust region `predict` returns the mean minus infinity but the standard deviation unchanged out of it, so that `ExpectedImprovement` computes minus infinity times zero: NaN (`C141_ei_counterexample`).
* **C52**: the gradient of a power is `K_grad * p * K ** (p - 1)` (acquisition_functions.py:1442-1443). Where the base `K` is zero and `p < 1` this is NaN or infinite, also where the value is differentiable: the power 0 (the value is 1 everywhere), the square root of a fourth power. A finite gradient component is always the derivative, for every base and exponent.
* **The normalisation of the posterior matters without preprocessor of the targets** (C143): with `preprocessing_y=None` the prediction far from the training points is 0 whatever the constant in the log-posterior, so that adding a constant changes more than the values. The acquisition functions `Mu` and `ExponentialMu` look at the absolute value. With UltraNest the value `-1e-300` for excluded points is not shifted, so that whether they look better than the others depends on the constant (see C62).
* **C144, units of the parameters**: with `Normalize_bounds` the gradients returned by `predict(return_mean_grad=True)` do not follow a change of units: they are gradients with respect to the coordinates in the unit cube, while the points are given in the units of the parameters (`C144_gradient_same`, `C144_gradient_counterexample`; see C140). With `preprocessing_X=None` the predictions themselves depend on the units (`C144_none_counterexample`).
* **C145**: with the bounds (-1, 0.3) `Normalize_bounds.inverse_transform(1)` is 0.30000000000000004, outside the prior: the point gets the log-posterior -inf without the likelihood being called (`C145_upper_counterexample`). About 15% of the pairs of one-decimal bounds are affected. Points of the unit interval up to 1 - 2^-53 are safe.
* **C146**: the margin `eps=1e-6` of `_diff_threshold_if_keep_n_finite` (gpr.py:1475) is absolute. For log-posteriors -1, -2, -2.4e10 that are all to be kept, the last one is finite before the transformation of the targets, but not after it, and `append_to_data` stops with an AssertionError (gpr.py:733-734, `C146_counterexample`).
* **C147**: `get_Xnumber` truncates the rounded product: `"8.2d"` in 15 dimensions is 122 instead of 123, `"1.16d"` in 25 dimensions is 28 instead of 29 (`C147_counterexample`).
* **C148**: three equal log-posteriors of 0.1 get the mean 0.10000000000000002 and the standard deviation 1.4e-17 by rounding, so that the normalised targets are all -1 and a noise level of 0.01 becomes 7e14 (`C148_equal_counterexample`); with three values of 0.3 the standard deviation is zero (C72). `check_candidates` rounds to a grid: points that differ by 2e-17 can be on both sides of a boundary, and the repeated point is not found (`C148_tolerance_counterexample`).
* **C149** `_construct_initial_proposer`: a name with `None` as arguments raises TypeError (`C149_none_counterexample`), unlike for the acquisition and convergence criteria; the name 'meancov' alone is recognised and always fails (`C149_meancov_counterexample`); lists as bounds are refused only by the uniform proposer (`C149_lists_counterexample`); bounds apart from the prior make the initial training loop for ever (`C149_disjoint_counterexample`); in one dimension the draws of `MeanCovProposer` are numbers (scipy squeezes them), and the wrapped likelihood raises TypeError on each (`C149_one_dimension_counterexample`, `C149_shapes`).
* C150: `gaussian_distance` (tools.py:76-97) multiplies with the Cholesky factor instead of its inverse (C61), so that the distance also depends on the order of the parameters: for correlation 3/5 the point (1, 0) has squared distance 34/25, and 16/25 with the parameters swapped.
* **C151**: `kl_norm` takes the logarithm of `np.linalg.det` instead of using `slogdet`: if both determinants are out of the range of double precision (20 parameters with standard deviation 1e-9, for instance), the divergence is NaN and GaussianKL never converges (C151_determinants_counterexample, C151_never_counterexample). Any problem gets there in small enough units (C151_units_counterexample).
* **C151**: Samples that do not change at all need not count as converged: rounding can make the divergence of equal distributions negative (two independent parameters of variance 49), and a negative divergence raises ConvergenceCheckError (C151_constant_counterexample).
* **C152**: `nstd_of_1d_nstd` goes through the tail probability, which underflows from 39 standard deviations on: the threshold is then infinite (a warning is given) and no number is below it (`C152_infinite_counterexample`, `C152_all_finite_counterexample`).
* **C144**: with `preprocessing_X=None` the candidates are compared after rounding to eight decimals in the units of the parameters (tools.py:246-252): with parameters of order 1e-9 every candidate is taken for a training point and dropped (`C144_candidates_counterexample`).
* **C155**: far below the largest target the logarithm of the standard deviation is absorbed by rounding, so that LogExp no longer tells apart points of different standard deviations (`C155_ties_counterexample`: 2^60 below); and standard deviations and noise levels below 2^-538 are all taken for too small (`C155_underflow_counterexample`). Not inverted, however: `C155_monotone`.
* **C156**: the row of the progress table of an iteration with too few candidates is not synchronised (run.py:910 `continue` skips `mpi_sync`, which treats the last row only), so that the processes keep different tables (`C156_skipped`, `C156_skipped_counterexample`) and the checkpoint has the evaluations of the main process only. Points of a pretrained surrogate are reported as evaluations of the truth (`C156_pretrained_counterexample`).
* **C157**: which exception append_to_data raises for a value that is NaN depends on the position of the NaN in the batch (the assertion of gpr.py that the classifier agrees with the data, or ValueError); CorrectCounter counts the correct predictions after the last wrong one, so whether it is satisfied depends on the order of the points in a batch; if a call does not refit the preprocessors the transformed values depend on how the points were divided into calls. The optimiser of the hyperparameters (L-BFGS with starting points drawn at random) is taken to be independent of the order of the rows; with rounding the sums differ in the last digits. BatchOptimizer starts its first optimisation at the last training point within the bounds (gp_acquisition.py:343-349), so that the batch depends on the order of the training points (C157_batch_counterexample).
* **C158** `sigma_n=None` with individual noise levels: the documentation says square root of the mean of alpha, the code takes the mean of the levels (acquisition_functions.py:976-978); it takes those of all points, also of the ones that were classified as infinite and are not in the training set, so that one such point with a large level makes `LogExp` minus infinity everywhere.
* **C159** The iteration banner announces "(at most) n left", n = ceil(evaluations left / points per acquisition), but an acquisition may propose as few as half of the points, or too few: n is a lower bound for a run that uses up its budget (run.py:817). The fit message shows `n_last_appended` twice, so it says that all new points were added to the GPR (run.py:1297-1298). The messages of the initial training count the points that the surrogate had before and report finite values below the classifier threshold as not finite (run.py:1174-1175). The line about giving up in the final banner is unreachable, since giving up leaves the loop with `break`, past its `else` (run.py:905, 1020), except with a negative n_resamples_before_giveup, where it is wrong; and "returning no values" is also said if some were returned (run.py:897).
* **C160** The attribute `log_marginal_likelihood_value_` is not updated when points are added without a fit of the hyperparameters (gpr.py:751-752), although it is documented as the value at `kernel_.theta` and printed after every call (run.py:1277-1278). `C160_counterexample`: one point, a fit, and a second point without a fit.
* **C144** (covariance matrices) `is_valid_covmat` (tools.py:65-73) compares with an absolute tolerance: an asymmetric matrix refused in one system of units is accepted in another (`C144_covmat_counterexample`). For symmetric matrices the answer does not depend on units.
* **C161** The counter of iterations is not saved (run.py:282), so the schedule of the fits of the hyperparameters restarts with every session: a run that is interrupted always after fewer than `fit_full_every - 1` iterations never makes a full fit (`C161_never_full_counterexample`). A run that was saved as converged starts to acquire and evaluate again when resumed (run.py:805, `C161_converged_counterexample`).
* **C162** A numpy Generator passed as `seed` is the same in all MPI processes (mpi.py:42-43), so that they draw the same initial points (`C162_repeated_counterexample`), and with as many processes as initial points the run fails at the first fit, since all targets are equal (`C162_cannot_start_counterexample`). The warning about initial points that are very close to each other (run.py:791-800) compares also the distance of each point from itself, and is issued for any two or more points (`C162_warning_counterexample`).
* **C163** the documentation says that the preprocessors are fitted only when the hyperparameters are; by default (`fit_classifier=True`) every call of `append_to_data` fits them, also with `fit_gpr=False`, so that hyperparameters in units of the old preprocessors are used with the new ones (`C163_counterexample`). `append_to_data` returns `self`, as documented, only if no finite point was added; otherwise `None` (`C163_return_counterexample`).
* **C164** (`C164_batch_counterexample`, `C164_other_counterexample`) doc/source/gpr.rst says that points in the minus infinity region are discarded during the acquisition phase before their true posterior evaluation. BatchOptimizer takes the last proposal if no restart found a finite acquisition value (gp_acquisition.py:374-386, 463-464), also if the classifier says that it is infinite. And `Std` and `ExpectedImprovement` are 0, not minus infinity, in that region.
* **C165** (`C165_sigma_n_counterexample`, `C165_array_counterexample`, `C165_zeta_counterexample`) NORA calls `acq_func.f` with `noise_level=gpr.noise_level` (gp_acquisition.py:1048-1050): the `sigma_n` given to LogExp is ignored, and with one noise level per training point the subtraction of arrays of different lengths raises, so NORA cannot be used with individual noise levels. With `zeta=0` points predicted to be infinite get NaN, which the pool refuses with an exception.
* **C166** (`C166_individual_counterexample`, `C166_sigma_n_counterexample`, `C166_lie_counterexample`) With one noise level per training point LogExp subtracts their mean (acquisition_functions.py:974-981), so that a noisy training point can have a finite value and be proposed again by BatchOptimizer; the same with a `sigma_n` below the noise level. In a batch, a lie below the threshold of infinities is not added to the training set of the copy, and the next point of the batch can be the same. Points evaluated to minus infinity are only excluded where the classifier predicts so (C164, `C166_where`); a support vector machine may take such a point as finite, and NORA then proposes it again (`C166_nora_infinite_counterexample`).
* **C167** With a classifier, the surrogate to which the pool conditions may lose training points (a predicted value above the best one moves the threshold) or not take the lie at all (a predicted value further than the threshold below the best one). In the first case the acquisition function grows with a lie, which RankedPool assumes never to happen; in the second the same point can be taken twice (`C167_classifier_counterexample`). The first case needs a prediction above the best value: there are none with `clip_factor=1` (`C167_clip_one`), but there are with the default of 1.1.
* **C144** (units): `NORA` removes the points that it has already proposed from a sample that it uses again by `np.isin` of their coordinates, whatever the parameter that these belong to, and takes the first of the matches (gp_acquisition.py:1035-1046). With the sample (1, 2), (2, 1), of which (2, 1) has been proposed, (1, 2) is removed and (2, 1) proposed again; with the first parameter in half the unit the right one is removed (C144_nora_counterexample).
* **C168** (and C26): the batch that NORA proposes depends on the number of processes, and with a single process it is not the greedy selection even though the candidates are inserted in descending order of the acquisition function (`C168_counterexample`: five candidates, three places; one process proposes 0, 4, 1, two processes propose 0, 4, 3, which is what `method="bulk"` gives).
* **C169** (copies of criteria): `GaussianKL.__deepcopy__` (convergence.py:531-540), which is also what `pickle` uses, replaces the function stored in `cobaya_input` (and `_last_info`) by `True` in the *original* before copying: after a checkpoint the main process has a different `cobaya_input` than the other processes. Decisions are not affected (`C169_saved`).
* **C170** copies of ranked pools that are not full have a length that is one too small (ValueError without points) and print all points but the last (`C170_length_counterexample`); copies of full ones have a row too many (`C170_copy`). After `reset_cache` a point that goes between others raises AttributeError (`C170_reset`).
* **C171** `y_lies` of `BatchOptimizer.multi_add` is documented as the predictions of the GP at the proposed points, and is used as `y_pred` for convergence. It is predicted by a copy with lies: once a lie was clipped, the following values are not those of `gpr.predict`; and the copy has clip factor 1.1 and no trust region, so that even the first value may differ from `gpr.predict` (`C171_counterexample`).
* **C172** `CorrectCounter` counts the values predicted by the copy used by `BatchOptimizer`, not those of the surrogate: with a clip factor other than 1.1, a point at which `gpr.predict` is exact resets the counter, and one at which it is wrong by 9/10 increases it, for every tolerance below that (`C172_clip_counterexample`). Also outside of the trust region (`C172_outside_counterexample`; `Runner` passes the trust region as bounds, so that this needs an optimiser which leaves them).

## 5. What is and what is not modelled

`COVERAGE.txt` lists every function of `gpry/*.py` with its lines and the modules of `lean/Verif` whose definitions cite
them (generated from the citations). A citation may be partial; what a definition leaves out is said in its comment or in
the head of its module. Only `gpry/*.py` is modelled, not `doc/`, `examples/`, `tests/`.

Not modelled anywhere:

* Floating point rounding and underflow outside of `Round*.lean` (exact arithmetic; infinities and NaN are explicit values). Overflow outside of `RoundKl.lean`.
* The numerical content of third-party code: PolyChord, UltraNest, nessai, Cobaya's MCMC and Cobaya's parsing of an input,
  L-BFGS-B and CMA optimisers, the fit of scikit-learn's SVC, matplotlib's and getdist's drawing, numpy's random generators.
  These are arbitrary functions or streams that the theorems quantify over, with the hypotheses stated in the theorems.
  Exception: scikit-learn's `log_marginal_likelihood` is the formula of its documentation in `GpLml.lean` (C154); elsewhere it is arbitrary.
* Real time (durations are inputs), warnings, the text of log messages (the numbers of the main ones are modelled: C159), `__repr__`, docstrings.
* Types other than those of the model (for instance strings passed as numbers) except where a definition mentions them.

Functions without a definition of their own, and why:

* `remove_from_data` (gpr.py:819-873) raises NotImplementedError always.
* Abstract methods: `NSInterface` (ns_interfaces.py:42-73), `GenericGPAcquisition.multi_add` (gp_acquisition.py:80-118),
  `ConvergenceCriterion` (convergence.py:90-167), `Proposer.get` (proposal.py:52-65), `GaussianKLTrain` helper (convergence.py:594-595).
* Attributes passed on: `Runner.d`, `prior_bounds`, `params`, `labels` (run.py:595-613), `NORA.pool_size`, `fitted` (gpr.py:456-458),
  `CorrectCounter.limit`, `is_MPI_aware`, `anisotropic` and `hyperparameter_*` of kernels whose counterparts are modelled.
* `MeanAutoCovProposer` (proposal.py:339-356): marked as unused and outdated in the source; it does not set `bounds`, which `get` needs, and its test of the matrix (`np.any` of a generator) is always true.
* Constructors of `RationalQuadratic` and `ExpSineSquared` (kernels.py:437-485, 517-565): reading the hyperparameters of these kernels always raises (`C99_other_counterexample`).
* Constructors that only store settings of samplers (ns_interfaces.py:429-464), `check_cobaya_installed`, `builtin_names` of the
  convergence criteria, `is_acquisition_function`, equality of `Hyperparameter` tuples, `get_desc`, `get_bibtex` (cobaya.py:328-363).

## 6. Axioms per theorem

See `AXIOMS.txt` (generated from `#print axioms`), to be kept current.
