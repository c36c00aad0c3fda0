{"id": "C01", "title": "Splitting work over MPI processes is exact and balanced", "statement": "split_number_for_parallel_processes(n, p) returns p non-negative integers that add up to n, differ by at most one from each other, and are non-increasing in the rank (low ranks get the extra work).", "quantifier": "every n >= 0 and every number of processes p >= 1", "why_tests_cant": "Infinite family of (n, p); off-by-one errors typically hide at n<p, n=kp, n=kp+1. A finite test suite samples a few inputs; the claim is about all of them.", "anchors": ["gpry/mpi.py:split_number_for_parallel_processes"]}
{"id": "C02", "title": "step_split / merge_step_split round trip", "statement": "If every rank r keeps values[r::SIZE] and the main rank merges what it gathers, it recovers the original array exactly: nothing lost, duplicated or permuted.", "quantifier": "every array length and every number of processes (lengths not divisible by SIZE and shorter than SIZE included)", "why_tests_cant": "Depends on arbitrary length/process-number combinations that single-process unit tests never run.", "anchors": ["gpry/mpi.py:step_split", "gpry/mpi.py:merge_step_split"]}
{"id": "C03", "title": "Parallel evaluation of the true posterior equals serial evaluation", "statement": "Whatever the number of MPI processes, _eval_truth_parallel returns the value of the true log-posterior at exactly the proposed points and in the proposed order; each proposed point is evaluated exactly once and by exactly one process.", "quantifier": "every list of proposed points, every log-posterior function, every number of processes", "why_tests_cant": "Tests run with one process; the claim ranges over every process count and list length.", "anchors": ["gpry/run.py:Runner._eval_truth_parallel", "gpry/mpi.py:split_number_for_parallel_processes"]}
{"id": "C04", "title": "Parallel surrogate evaluation equals serial evaluation", "statement": "compute_y_parallel(gpr, X, y=None, sigma_y=None) gives on the main process the same array as a single predict call on X, for point-wise predictors; and passing y and sigma_y hands them back unchanged whether or not MPI is available.", "quantifier": "every X, every point-wise predictor, every number of processes including 'MPI not installed'", "why_tests_cant": "Ranges over process counts and over the MPI-less environment at the same time; a given CI host is only one of them.", "anchors": ["gpry/mpi.py:compute_y_parallel", "gpry/mpi.py:multi_gather_array"]}
{"id": "C05", "title": "Normalising by the prior bounds is invertible and order preserving", "statement": "For bounds with lower < upper, Normalize_bounds maps a point into the unit cube iff the point is inside the bounds, preserves the order of each coordinate, and inverse_transform undoes transform (and vice versa) for every point.", "quantifier": "every dimension, all non-degenerate bounds, all points inside or outside the bounds", "why_tests_cant": "Real-valued inputs in any dimension. A finite test suite samples a few inputs; the claim is about all of them.", "anchors": ["gpry/preprocessing.py:Normalize_bounds.transform", "gpry/preprocessing.py:Normalize_bounds.inverse_transform", "gpry/preprocessing.py:Normalize_bounds.transform_bounds", "gpry/preprocessing.py:Normalize_bounds.update_bounds"]}
{"id": "C06", "title": "Pipelines of preprocessors compose and invert in the right order", "statement": "If every stage is invertible after being fitted then Pipeline_X (resp. Pipeline_y) inverse_transform(transform(x)) = x and transform(inverse_transform(z)) = z; stage k is fitted on data transformed by the freshly fitted stages before it; scales transform multiplicatively.", "quantifier": "every number and order of stages, every data set", "why_tests_cant": "Any number of stages of any kind: needs induction over the pipeline.", "anchors": ["gpry/preprocessing.py:Pipeline_X", "gpry/preprocessing.py:Pipeline_y"]}
{"id": "C07", "title": "Target normalisation is invertible, order preserving and has the documented moments", "statement": "After fitting on data with positive spread, Normalize_y.transform is strictly increasing and inverted by inverse_transform; the transformed finite training targets have mean 0 and variance 1 (standard mode); NormalizeChi2_y maps the largest target to 1 and its threshold is finite; scales are mapped with the slope of the affine map so that transform(y)-transform(y') = transform_scale(y-y').", "quantifier": "every training vector with non-zero spread, every query value", "why_tests_cant": "Statement about all real vectors of all lengths. A finite test suite samples a few inputs; the claim is about all of them.", "anchors": ["gpry/preprocessing.py:Normalize_y", "gpry/preprocessing.py:NormalizeChi2_y"]}
{"id": "C08", "title": "Whitening really whitens and is invertible", "statement": "If the covariance C has eigen-decomposition C = V diag(l) V^T with V orthogonal and l>0, the whitening transform is inverted by inverse_transform and the transformed covariance T C T^T is the identity.", "quantifier": "every dimension, every mean, every symmetric positive definite covariance", "why_tests_cant": "All matrices of all sizes. A finite test suite samples a few inputs; the claim is about all of them.", "anchors": ["gpry/preprocessing.py:Whitening.prepare_transform", "gpry/preprocessing.py:Whitening.transform", "gpry/preprocessing.py:Whitening.inverse_transform"]}
{"id": "C09", "title": "Finite/infinite classification does not depend on the target preprocessing", "statement": "Classifying targets against (max - threshold) gives the same booleans in original space with the original threshold and in transformed space with the transformed threshold, so the consistency assertion inside append_to_data can never fire (exact arithmetic), and the maximum is always classified as finite when the threshold is >= 0.", "quantifier": "every vector of targets (values may be -inf or NaN), every threshold >= 0 including +inf, every increasing affine target preprocessing", "why_tests_cant": "Ranges over all vectors with special floating point values and all affine maps.", "anchors": ["gpry/svm.py:SVM._is_finite_raw", "gpry/svm.py:SVM.fit", "gpry/gpr.py:GaussianProcessRegressor.append_to_data"]}
{"id": "C10", "title": "Training data partition is an invariant of every append history", "statement": "After any sequence of append_to_data calls: (X_train_all, y_train_all) is the concatenation of everything appended in order; (X_train, y_train) is exactly the sub-sequence of it classified as finite with the current maximum and threshold; (X_train_infinite, y_train_infinite) is exactly the complementary sub-sequence; so n + n_infinite = n_total.", "quantifier": "every history of appended batches (targets finite or -inf), every threshold, with and without classifier, including batches where no new point is finite (early return)", "why_tests_cant": "Quantifies over unbounded call histories; the early return and the moving threshold interact across calls.", "anchors": ["gpry/gpr.py:GaussianProcessRegressor.append_to_data", "gpry/gpr.py:GaussianProcessRegressor.X_train_infinite", "gpry/gpr.py:GaussianProcessRegressor.n_total", "gpry/svm.py:SVM"]}
{"id": "C11", "title": "A minimum number of points is always kept finite", "statement": "With keep_min_finite = m, after each append at least min(m, number of appended points with a finite target) points are in the finite training set, and those are the ones with the largest targets; otherwise the threshold used is the user's one.", "quantifier": "every m >= 1, every vector of targets with -inf allowed, every threshold", "why_tests_cant": "All vectors; ties and -inf values at the cut are exactly what sampled tests miss.", "anchors": ["gpry/gpr.py:GaussianProcessRegressor._diff_threshold_if_keep_n_finite", "gpry/gpr.py:GaussianProcessRegressor.append_to_data"]}
{"id": "C12", "title": "last_appended and last_appended_finite return exactly the last batch", "statement": "After append_to_data(X, y), last_appended returns exactly (X, y), and last_appended_finite returns exactly the finite ones among them.", "quantifier": "every history and every batch, including empty batches and batches without finite points", "why_tests_cant": "Corner case only visible for batches in which zero points are (finite); slice [-0:].", "anchors": ["gpry/gpr.py:GaussianProcessRegressor.last_appended", "gpry/gpr.py:GaussianProcessRegressor.last_appended_finite"]}
{"id": "C13", "title": "Noise bookkeeping stays aligned with the data and a failed append changes nothing", "statement": "If noise levels are given per point, the noise vector has one entry per point in y_train_all and the entry of each point is the one passed with it; if append_to_data raises, the data set is unchanged.", "quantifier": "every history of appends mixing scalar, per-point and omitted noise levels", "why_tests_cant": "Histories of mixed argument kinds are unbounded, and atomicity is about every failure point.", "anchors": ["gpry/gpr.py:GaussianProcessRegressor._validate_noise_level", "gpry/gpr.py:GaussianProcessRegressor._update_noise_level", "gpry/gpr.py:GaussianProcessRegressor.append_to_data"]}
{"id": "C14", "title": "Predictions respect classifier, trust region and clipping", "statement": "predict returns minus_inf_value exactly where the classifier predicts 'infinite' or (unless ignored) the point is out of the trust region; elsewhere the mean is at most clip_factor*ymax + (1-clip_factor)*ymin-style ceiling; returned standard deviations are >= 0 and are 0 where the classifier says infinite.", "quantifier": "every query set, every training set, every clip factor >= 1", "why_tests_cant": "All real-valued query points and training sets.", "anchors": ["gpry/gpr.py:GaussianProcessRegressor.predict"]}
{"id": "C15", "title": "predict_std agrees with predict(return_std=True)", "statement": "predict_std(X) returns the same standard deviations as the second output of predict(X, return_std=True).", "quantifier": "every query set (points classified infinite or outside the trust region included), every state of the surrogate", "why_tests_cant": "Equivalence of two separately written code paths for all inputs.", "anchors": ["gpry/gpr.py:GaussianProcessRegressor.predict", "gpry/gpr.py:GaussianProcessRegressor.predict_std"]}
{"id": "C16", "title": "Kriging believer: adding a lie equal to the prediction does not change the mean", "statement": "Adding to a Gaussian process the point (x, predicted mean at x) with any noise, hyperparameters fixed, leaves the predictive mean unchanged everywhere.", "quantifier": "every training set, every positive definite kernel matrix, every query point", "why_tests_cant": "Identity between matrix expressions of every size.", "anchors": ["gpry/gp_acquisition.py:BatchOptimizer.multi_add", "gpry/gp_acquisition.py:RankedPool.cache_model", "gpry/gpr.py:GaussianProcessRegressor._update_model"]}
{"id": "C17", "title": "Conditioning on more points never increases the predictive variance", "statement": "With fixed hyperparameters, the predictive variance after adding a point is at most the one before at every query point, it is non-negative, and so the conditioned acquisition value (increasing in the standard deviation, same mean) is at most the unconditioned one.", "quantifier": "every training set, every kernel with positive semidefinite Gram matrices, every query point", "why_tests_cant": "Matrix inequality in every dimension.", "anchors": ["gpry/gpr.py:GaussianProcessRegressor.predict", "gpry/gp_acquisition.py:RankedPool.add_one", "gpry/acquisition_functions.py:LogExp.f"]}
{"id": "C18", "title": "The surrogate interpolates noiseless training data", "statement": "If the noise variance of training point i is zero, the predictive mean at it equals its target and the predictive standard deviation is zero; with noise n_i the residual equals n_i^2 times the i-th component of alpha.", "quantifier": "every training set with invertible kernel matrix", "why_tests_cant": "Matrix identity in every dimension; floating point tests can only check approximate equality on samples.", "anchors": ["gpry/gpr.py:GaussianProcessRegressor.predict", "gpry/gpr.py:GaussianProcessRegressor._update_model"]}
{"id": "C19", "title": "Documented equivalence of ways of appending and fitting", "statement": "Appending (X,y) with fitting in one call, and appending without fitting followed by a separate fit call, leave the surrogate with kernel matrix factors (V_, alpha_) that correspond to the stored training data and current hyperparameters; no call returns leaving the factors stale.", "quantifier": "every state of the surrogate and every sequence of append/fit calls with and without classifier", "why_tests_cant": "A statement about all call sequences; staleness appears only in particular orders.", "anchors": ["gpry/gpr.py:GaussianProcessRegressor.append_to_data", "gpry/gpr.py:GaussianProcessRegressor.fit_gpr_hyperparameters", "gpry/gpr.py:GaussianProcessRegressor._update_model"]}
{"id": "C20", "title": "A deep copy of the surrogate is faithful and independent", "statement": "copy.deepcopy(gpr) predicts the same as the original at every point, and later appends to either do not change the other's predictions.", "quantifier": "every configuration (clip factor, trust region, preprocessors, noise) and every later history of appends to copy or original", "why_tests_cant": "Needs all configurations and aliasing through shared mutable preprocessors across histories.", "anchors": ["gpry/gpr.py:GaussianProcessRegressor.__deepcopy__"]}
{"id": "C21", "title": "Trust region encloses enough training points and stays inside the prior", "statement": "The trust bounds computed from training points lie inside the prior bounds and contain all the points used to define them, and at least min(d, n) training points are used.", "quantifier": "every training set, every trust-region threshold and factor >= 1", "why_tests_cant": "Loop with data dependent number of iterations over real data.", "anchors": ["gpry/gpr.py:GaussianProcessRegressor.update_trust_region", "gpry/tools.py:shrink_bounds"]}
{"id": "C22", "title": "Ranked pool stays sorted", "statement": "After any sequence of add calls (single or bulk) the conditioned acquisition values of the pool are non-increasing.", "quantifier": "every sequence of offered points, every pool size, every conditioning function (assuming nothing or only that conditioning never increases acquisition, see DESIGN)", "why_tests_cant": "Unbounded histories of insertions; correctness relies on an inductive invariant of a nested sort.", "anchors": ["gpry/gp_acquisition.py:RankedPool.add_one", "gpry/gp_acquisition.py:RankedPool.sort", "gpry/gp_acquisition.py:RankedPool.add_bulk"]}
{"id": "C23", "title": "Ranked pool only contains offered points, each with its own y, sigma and acquisition value", "statement": "Every occupied entry of the pool is one of the offered (X, y, sigma, acq) tuples, kept together, and no offered point occupies more entries than the number of times it was offered.", "quantifier": "every history of additions by any method and every conditioning function", "why_tests_cant": "Unbounded histories of in-place swaps/shifts of five parallel arrays.", "anchors": ["gpry/gp_acquisition.py:RankedPool"]}
{"id": "C24", "title": "The best point always tops the pool", "statement": "After any sequence of additions in which at least one point with acquisition > -inf was offered, the first element of the pool has the maximum unconditioned acquisition value among all offered points.", "quantifier": "every order of insertion, every method, every pool size >= 1", "why_tests_cant": "All permutations and lengths of the insertion sequence.", "anchors": ["gpry/gp_acquisition.py:RankedPool.add", "gpry/gp_acquisition.py:RankedPool.add_one"]}
{"id": "C25", "title": "Pool capacity and prefix shape", "statement": "The pool never returns more than 'size' points; occupied entries form a prefix; after offering at least one point with acquisition > -inf it is non-empty, and empty slots hold -inf.", "quantifier": "every insertion history and pool size", "why_tests_cant": "Unbounded histories.", "anchors": ["gpry/gp_acquisition.py:RankedPool.__len__", "gpry/gp_acquisition.py:RankedPool.add_one", "gpry/gp_acquisition.py:RankedPool.copy"]}
{"id": "C26", "title": "Bulk ranking is greedy selection", "statement": "add_bulk picks at each step a candidate with the maximum acquisition value conditioned on those already picked, and never picks the same candidate twice; in serial, single-point insertion in any order picks the same points when acquisition values conditioned on any subset are distinct and conditioning is monotone.", "quantifier": "every list of candidates, every pool size, every monotone conditioning", "why_tests_cant": "Refinement between two algorithms on all inputs.", "anchors": ["gpry/gp_acquisition.py:RankedPool.add_bulk", "gpry/gp_acquisition.py:RankedPool.add_one"]}
{"id": "C27", "title": "Insertion into the pool terminates", "statement": "add_one/sort terminate for every input: the nested re-sorting loops perform a bounded number of iterations for any behaviour of the conditioned acquisition function (even NaN).", "quantifier": "every pool state, every sequence of values returned by the model", "why_tests_cant": "Termination for all behaviours of a numerical oracle cannot be observed by running.", "anchors": ["gpry/gp_acquisition.py:RankedPool.add_one", "gpry/gp_acquisition.py:RankedPool.sort"]}
{"id": "C28", "title": "Merging per-process pools loses no top candidate", "statement": "When each of the p processes ranks its share of the MC sample and the main process merges the pools, the top of the merged pool has the maximum acquisition over the whole sample, and the merged pool contains only sample points, at most n_points.", "quantifier": "every number of processes, every distribution of the sample, every pool size >= 1", "why_tests_cant": "All numbers of processes and partitions.", "anchors": ["gpry/gp_acquisition.py:NORA._gather_pools", "gpry/gp_acquisition.py:NORA._merge_pools", "gpry/gp_acquisition.py:NORA.multi_add"]}
{"id": "C29", "title": "NORA never re-proposes an already proposed point nor discards a fresh one", "statement": "When an MC sample is reused, exactly the sample points proposed since it was drawn are removed from the pool of candidates and all the others are kept.", "quantifier": "every sample and every list of previously proposed points", "why_tests_cant": "Depends on coincidences between coordinates of different points.", "anchors": ["gpry/gp_acquisition.py:NORA.multi_add"]}
{"id": "C30", "title": "Reweighting of the reused MC sample", "statement": "Reweighting the reused MC sample gives weights proportional to w*exp(y_new - y_old), normalised to maximum 1, strictly positive; reweighting twice is the same as reweighting once with the last surrogate; and X, y, sigma_y, w stay aligned.", "quantifier": "every sample, every sequence of surrogates", "why_tests_cant": "All sequences of surrogates; invariance along histories.", "anchors": ["gpry/gp_acquisition.py:NORA._reweight_last_MC_sample", "gpry/tools.py:remove_0_weight_samples"]}
{"id": "C31", "title": "MC sampling schedule", "statement": "With mc_every = m, a new MC sample is drawn at calls 0, m, 2m, ... of multi_add and, in addition, whenever re-sampling is forced; in any m consecutive calls at least one draws a new sample.", "quantifier": "every m >= 1, every history of calls with or without forced re-sampling", "why_tests_cant": "Unbounded histories of calls.", "anchors": ["gpry/gp_acquisition.py:NORA.multi_add"]}
{"id": "C32", "title": "The active learning loop terminates and respects the evaluation budget", "statement": "If each acquisition returns at most n_points_per_acq points, the main loop stops after finitely many iterations, with at most max_total + n_points_per_acq - 1 true-posterior evaluations in total, starting from fewer than max_total.", "quantifier": "every acquisition engine behaviour, convergence behaviour, and diagnosis outcome", "why_tests_cant": "Termination and budget for every behaviour of the (stochastic) components.", "anchors": ["gpry/run.py:Runner.run", "gpry/run.py:Runner.n_total_left", "gpry/run.py:Runner.n_finite_left"]}
{"id": "C33", "title": "Loop exit reasons are exhaustive and honest", "statement": "The run stops for exactly one of: convergence (has_converged True: criterion fulfilled in the last iteration and diagnosis passed), evaluation budget exhausted, or giving up after more than n_resamples_before_giveup consecutive insufficient acquisitions; has_converged is True afterwards iff the first.", "quantifier": "every behaviour of acquisition, criterion and diagnosis", "why_tests_cant": "All interleavings of outcomes.", "anchors": ["gpry/run.py:Runner.run", "gpry/run.py:Runner.has_converged"]}
{"id": "C34", "title": "Convergence policies combine as documented", "statement": "The run is declared converged iff all necessary criteria hold and, if any sufficient criterion is present, at least one of them holds; monitors never influence the result; with only monitors it never converges; a failing check counts as not converged; order of criteria is irrelevant.", "quantifier": "every list of criteria, policies (n, s, ns, m) and outcomes", "why_tests_cant": "Lists of criteria of every length.", "anchors": ["gpry/run.py:Runner._check_convergence_parallel", "gpry/convergence.py:ConvergenceCriterion._set_convergence_policy"]}
{"id": "C35", "title": "CorrectCounter needs an unbroken streak of good predictions", "statement": "CorrectCounter signals convergence exactly when strictly more than the required number of evaluated finite points in a row, counting back from the latest one, were predicted within tolerance.", "quantifier": "every history of batches of (true, predicted) values including -inf", "why_tests_cant": "Unbounded histories.", "anchors": ["gpry/convergence.py:CorrectCounter"]}
{"id": "C36", "title": "KL-type criteria need the documented number of consecutive small values", "statement": "GaussianKL, GaussianKLTrain and TrainAlignment signal convergence only if at least limit_times checks have been performed and the last limit_times values are all below the limit.", "quantifier": "every history of criterion values, every limit and limit_times >= 1", "why_tests_cant": "Histories shorter than limit_times are the corner case; unbounded otherwise.", "anchors": ["gpry/convergence.py:GaussianKL.is_converged", "gpry/convergence.py:GaussianKLTrain.is_converged", "gpry/convergence.py:TrainAlignment.is_converged"]}
{"id": "C37", "title": "All MPI processes agree on convergence and errors", "statement": "is_converged_MPIwrapped returns the same value in all processes (that of the main one) or raises in all of them; no process is left waiting in a collective call because another took a different branch.", "quantifier": "every number of processes, every pattern of per-process outcomes/failures", "why_tests_cant": "All failure patterns over all process counts (exponentially many schedules).", "anchors": ["gpry/convergence.py:ConvergenceCriterion.is_converged_MPIwrapped"]}
{"id": "C38", "title": "Hyperparameter refit schedule", "statement": "A full hyperparameter fit happens exactly once in each block of fit_full_every consecutive iterations, a simple fit once in each block of fit_simple_every unless replaced by a full one; and the restarts assigned to the processes add up to n_restarts_optimizer.", "quantifier": "every pair of periods >= 1, every iteration number, every number of processes", "why_tests_cant": "All periods and iteration numbers.", "anchors": ["gpry/run.py:Runner._fit_gpr_parallel", "gpry/mpi.py:split_number_for_parallel_processes"]}
{"id": "C39", "title": "The shared surrogate has the best likelihood and contains the new points", "statement": "After the parallel fit all the processes hold the surrogate of a process with the largest log-marginal-likelihood, and (NaN aside) it is one of a process that has appended the new points, even if some processes had no restarts assigned.", "quantifier": "every number of processes, every assignment of restarts and every value of the likelihoods (ties and -inf included)", "why_tests_cant": "All patterns of ties/-inf over all process counts.", "anchors": ["gpry/run.py:Runner._fit_gpr_parallel"]}
{"id": "C40", "title": "The likelihood is never evaluated outside of the prior bounds", "statement": "Truth.logp(x) calls the user's likelihood iff x is within bounds, returns logprior + loglike there, -inf otherwise, and counts no evaluation outside.", "quantifier": "every likelihood, bounds and point", "why_tests_cant": "All points and functions.", "anchors": ["gpry/truth.py:Truth.logp", "gpry/truth.py:Truth.logprior", "gpry/truth.py:Truth.loglike"]}
{"id": "C41", "title": "Likelihood wrapping passes coordinates faithfully and is stable under save/reload", "statement": "wrap_likelihood makes f(*args) and f(X) style likelihoods give the same values as the user's function at every point of the right dimension; re-instantiating a Truth from as_dict gives the same likelihood.", "quantifier": "every dimension d >= 1, every likelihood of either signature", "why_tests_cant": "All dimensions and functions; the bad case is d=1.", "anchors": ["gpry/tools.py:wrap_likelihood", "gpry/truth.py:Truth.as_dict", "gpry/truth.py:get_truth"]}
{"id": "C42", "title": "Checkpoints are crash consistent", "statement": "If the process dies at any instant while a checkpoint is being written over a previous one, what is read back at resume is either the complete previous checkpoint or the complete new one (or is reported as not usable); without a crash, it is the new one.", "quantifier": "every crash point (between and inside file writes), every previous checkpoint", "why_tests_cant": "All crash points; unit tests never kill the process at each instruction.", "anchors": ["gpry/io.py:save_checkpoint", "gpry/io.py:check_checkpoint", "gpry/io.py:read_checkpoint"]}
{"id": "C43", "title": "Checkpoint read-back", "statement": "read_checkpoint after an uninterrupted save_checkpoint returns the saved objects, each in its place; objects passed by the caller take precedence over loaded ones; saving with no truth keeps the truth on disk.", "quantifier": "every set of objects and every previous directory content", "why_tests_cant": "All previous directory contents and combinations of arguments.", "anchors": ["gpry/io.py:save_checkpoint", "gpry/io.py:read_checkpoint", "gpry/run.py:Runner.save_checkpoint"]}
{"id": "C44", "title": "Proposers only return points within their bounds", "statement": "Any point returned by the built-in proposers' get lies inside the bounds most recently set, whatever the generator returns.", "quantifier": "every random stream, every bounds, every nesting of PartialProposer", "why_tests_cant": "All random streams.", "anchors": ["gpry/proposal.py:check_in_bounds", "gpry/proposal.py:UniformProposer", "gpry/proposal.py:PartialProposer", "gpry/proposal.py:CentroidsProposer"]}
{"id": "C45", "title": "shrink_bounds gives nested bounds that contain the samples", "statement": "shrink_bounds(bounds, samples, factor) returns lower <= upper bounds contained in the original ones that contain all samples that are within the original bounds, for factor >= 1, monotone in factor.", "quantifier": "every dimension, bounds, non-empty sample set and factor", "why_tests_cant": "All real data sets.", "anchors": ["gpry/tools.py:shrink_bounds"]}
{"id": "C46", "title": "is_in_bounds is the closed box", "statement": "is_in_bounds(points, bounds) is True exactly for the points all of whose coordinates are >= lower and <= upper (False as soon as one is NaN).", "quantifier": "every number of points, dimension and bounds", "why_tests_cant": "All inputs with NaN.", "anchors": ["gpry/tools.py:is_in_bounds"]}
{"id": "C47", "title": "Candidate check flags exactly repeated points", "statement": "check_candidates flags a candidate as already present iff it is one of the points evaluated so far (finite or not), and as duplicate iff it repeats an earlier candidate; so that after filtering no point is evaluated twice and no fresh point is dropped.", "quantifier": "every training set and every candidate list", "why_tests_cant": "Coincidences between coordinates of different points; points in the infinite set.", "anchors": ["gpry/tools.py:check_candidates", "gpry/run.py:Runner.run"]}
{"id": "C48", "title": "Numbers with units of dimension parse as documented", "statement": "get_Xnumber('aXp') = a*X^p with a and p defaulting to 1, plain numbers pass through (scaled by nothing), X alone gives the value of X, and anything else raises ValueError.", "quantifier": "every string and every value of the unit", "why_tests_cant": "All strings.", "anchors": ["gpry/tools.py:get_Xnumber"]}
{"id": "C49", "title": "Removing zero-weight samples keeps rows aligned", "statement": "remove_0_weight_samples keeps, in order and aligned across all arrays, exactly the samples with weight > 0 (absolute threshold zero), hence all weighted sums are unchanged.", "quantifier": "every sample", "why_tests_cant": "All samples.", "anchors": ["gpry/tools.py:remove_0_weight_samples"]}
{"id": "C50", "title": "LogExp acquisition: ordering facts", "statement": "LogExp is strictly increasing in the mean and in the standard deviation above noise, -inf exactly where the standard deviation does not exceed the noise or the mean is not finite, and changing the baseline shifts it by a constant so the ranking of candidates is unaffected.", "quantifier": "every mean, std, noise, zeta > 0 and baseline", "why_tests_cant": "All reals.", "anchors": ["gpry/acquisition_functions.py:BaseLogExp", "gpry/acquisition_functions.py:LogExp.f"]}
{"id": "C51", "title": "LogExp gradient is the derivative of LogExp", "statement": "The gradient returned by LogExp with eval_gradient=True equals the derivative of the value it returns.", "quantifier": "every differentiable mean/std, every noise level", "why_tests_cant": "Identity between functions at all points and noise levels.", "anchors": ["gpry/acquisition_functions.py:BaseLogExp.__call__"]}
{"id": "C52", "title": "Gradients of composed acquisition functions are derivatives", "statement": "For sums, products and powers of acquisition functions, the gradient returned with eval_gradient=True is the derivative of the value if that holds for the operands.", "quantifier": "every expression tree of acquisition functions, every point", "why_tests_cant": "All expression trees: needs structural induction.", "anchors": ["gpry/acquisition_functions.py:Sum", "gpry/acquisition_functions.py:Product", "gpry/acquisition_functions.py:Exponentiation"]}
{"id": "C53", "title": "Kernel position gradients are derivatives", "statement": "gradient_x of RBF, Matern (nu=1.5, 2.5), RationalQuadratic, Constant and of their sums, products and powers is the gradient of k(x, y) with respect to x.", "quantifier": "every x, training points, positive hyperparameters, every kernel expression", "why_tests_cant": "Identity at all points and for all expression trees.", "anchors": ["gpry/kernels.py:RBF.gradient_x", "gpry/kernels.py:Matern.gradient_x", "gpry/kernels.py:Sum.gradient_x", "gpry/kernels.py:Product.gradient_x", "gpry/kernels.py:Exponentiation.gradient_x"]}
{"id": "C54", "title": "Initial training collects enough finite points within budget", "statement": "For a fresh surrogate, do_initial_training either raises, or ends with at least n_initial points classified as finite; the number of true-posterior evaluations made is at most max_initial.", "quantifier": "every proposer and posterior, every number of processes, every n_initial <= max_initial", "why_tests_cant": "All posteriors and process counts.", "anchors": ["gpry/run.py:Runner.do_initial_training"]}
{"id": "C55", "title": "Progress table is consistent across processes", "statement": "After mpi_sync every process holds, for each column, the documented combination (main value, max, or sum over processes) of the values recorded in the last row, rows being added only by add_iteration.", "quantifier": "every number of processes, every history of records", "why_tests_cant": "All histories and process counts.", "anchors": ["gpry/progress.py:Progress.mpi_sync", "gpry/progress.py:Progress.add_iteration"]}
{"id": "C56", "title": "Numerical error handling is always restored", "statement": "Using NumpyErrorHandling as a context manager restores the previous numpy error state on normal and exceptional exit, including nested use.", "quantifier": "every nesting, every body that may raise at any point", "why_tests_cant": "All nestings and exception points.", "anchors": ["gpry/tools.py:NumpyErrorHandling"]}
{"id": "C57", "title": "Sampler output directories", "statement": "process_out_dir splits a path into directory and prefix so that joining them gives back the path, a path ending in the separator has no prefix, and no two different paths are mapped to the same output location.", "quantifier": "every path string", "why_tests_cant": "All strings.", "anchors": ["gpry/ns_interfaces.py:process_out_dir"]}
{"id": "C58", "title": "BatchOptimizer returns well-formed batches and leaves the surrogate untouched", "statement": "multi_add returns exactly n_points candidates inside the bounds, each the best over all the restarts of all the processes, and the surrogate passed in is not changed by the lies appended to the copy.", "quantifier": "every acquisition function, optimiser behaviour, n_points, number of processes", "why_tests_cant": "All optimiser behaviours and process counts.", "anchors": ["gpry/gp_acquisition.py:BatchOptimizer.multi_add", "gpry/gp_acquisition.py:BatchOptimizer.optimize_acquisition_function"]}
{"id": "C59", "title": "Acquisition hyperparameter vector round trip", "statement": "For every acquisition expression, setting theta and reading it back returns the same vector, and each leaf receives its own components in order.", "quantifier": "every expression tree with fixed and free hyperparameters", "why_tests_cant": "All expression trees.", "anchors": ["gpry/acquisition_functions.py:AcquisitionFunctionOperator.theta", "gpry/acquisition_functions.py:AcquisitionFunction.theta"]}
{"id": "C60", "title": "Gaussian KL divergence is a divergence", "statement": "kl_norm(m0,S0,m1,S1) >= 0 and equals 0 iff the Gaussians coincide (one-dimensional and diagonal covariances; general in DESIGN).", "quantifier": "all means and positive definite covariances", "why_tests_cant": "Real inequality over all matrices.", "anchors": ["gpry/tools.py:kl_norm"]}
{"id": "C61", "title": "gaussian_distance is the Mahalanobis distance", "statement": "gaussian_distance(points, mean, covmat)^2 = (x-mean)^T covmat^-1 (x-mean).", "quantifier": "every dimension, mean, positive definite covmat (correlated or not)", "why_tests_cant": "All covariance matrices.", "anchors": ["gpry/tools.py:gaussian_distance"]}
{"id": "C62", "title": "Excluded regions rank below every real point in UltraNest runs", "statement": "The value the UltraNest interface gives to points predicted to be infinite is smaller than the log-posterior of every point not excluded.", "quantifier": "every surrogate", "why_tests_cant": "All real values of the surrogate mean.", "anchors": ["gpry/gp_acquisition.py:NORA._do_MC_sample_ultranest", "gpry/gpr.py:GaussianProcessRegressor.predict"]}
{"id": "C63", "title": "n_total counts all points evaluated so far", "statement": "gpr.n_total equals the number of points appended since construction at every moment, so that budget counting is right.", "quantifier": "every history of appends including fit_classifier=False ones", "why_tests_cant": "Unbounded histories.", "anchors": ["gpry/gpr.py:GaussianProcessRegressor.n_total"]}
{"id": "C64", "title": "Cobaya wrapper's file patterns cover exactly the checkpoint files", "statement": "The regular expressions used by the Cobaya wrapper to list/delete the products of a run match each file written by save_checkpoint.", "quantifier": "every output prefix", "why_tests_cant": "All prefixes; names are defined in two places.", "anchors": ["gpry/cobaya.py:CobayaWrapper.output_files_regexps", "gpry/io.py:_checkpoint_filenames"]}
{"id": "C65", "title": "The surrogate Cobaya model has log-posterior equal to the surrogate mean", "statement": "In the Cobaya model generated from the surrogate, log-prior + log-likelihood equals the surrogate mean at every point within bounds, and -inf outside.", "quantifier": "every bounds and surrogate", "why_tests_cant": "All points.", "anchors": ["gpry/mc.py:cobaya_generate_gp_model_input"]}
{"id": "C66", "title": "Predictions are consistent with stored data after every append", "statement": "After any append_to_data call, the stored transformed training set is the current preprocessors' transform of the stored training set, so that predictions interpolate the stored targets.", "quantifier": "every history of append calls with every combination of fit_gpr/fit_classifier and batches without finite points", "why_tests_cant": "Only fails for particular sequences (deferred classifier fit followed by a batch of infinite points).", "anchors": ["gpry/gpr.py:GaussianProcessRegressor.append_to_data"]}
{"id": "C67", "title": "Gradient of the prediction is the derivative of the prediction", "statement": "predict(return_mean_grad, return_std_grad) returns the derivatives of the predictive mean and standard deviation with respect to the (transformed) position, in the units of the untransformed target.", "quantifier": "every training set, kernel hyperparameters, target normalisation", "why_tests_cant": "Identity at all points and scalings.", "anchors": ["gpry/gpr.py:GaussianProcessRegressor.predict"]}
{"id": "C68", "title": "Runner options are validated into a consistent budget", "statement": "If option parsing succeeds then 2 <= n_initial <= max_initial <= max_total, n_initial <= max_finite <= max_total, all periods >= 1, and n_points_per_acq >= 1 even after rounding to the number of processes; rounding never decreases it by more than 20 per cent.", "quantifier": "every combination of user options, dimension and number of processes", "why_tests_cant": "All combinations.", "anchors": ["gpry/run.py:Runner._construct_options"]}
{"id": "C69", "title": "Cobaya option merging does not lose user options", "statement": "Every option set by the user in the Cobaya input reaches the Runner, user values take precedence over defaults.", "quantifier": "every input dictionary", "why_tests_cant": "All dictionaries.", "anchors": ["gpry/cobaya.py:CobayaWrapper.initialize"]}
{"id": "C70", "title": "A single NaN or +inf target does not disable the regressor", "statement": "If one of the appended log-posterior values is NaN or +inf, append_to_data either refuses the batch and leaves the regressor usable, or ignores that value; later appends of good values succeed.", "quantifier": "for all histories of append_to_data calls with one bad value anywhere, and all later calls", "why_tests_cant": "the failure depends on the whole history; a test can only try a few later calls and cannot show that none of them recovers", "anchors": ["gpry/gpr.py:GaussianProcessRegressor.append_to_data", "gpry/svm.py:SVM.fit", "gpry/svm.py:SVM._is_finite_raw"]}
{"id": "C71", "title": "Whitening with learn=True learns the covariance of the parameters", "statement": "Fitting Whitening(learn=True) on n weighted samples in d dimensions never raises and ends with a transform that whitens their covariance (when it is not singular).", "quantifier": "for all numbers of samples, dimensions, samples and weights", "why_tests_cant": "a test fixes n, d and the samples; the failure is for all of them", "anchors": ["gpry/preprocessing.py:Whitening.compute_mean_cov", "gpry/preprocessing.py:Whitening.fit"]}
{"id": "C72", "title": "Appending data without spread works", "statement": "append_to_data succeeds (or leaves the regressor untouched) also when the finite targets so far are none, one, or all equal; there is an explicit branch for no finite target at all.", "quantifier": "for all regressor states, batches and fit options", "why_tests_cant": "needs all data sets whose kept targets coincide, whatever came before", "anchors": ["gpry/gpr.py:GaussianProcessRegressor.append_to_data", "gpry/preprocessing.py:Normalize_y.fit", "gpry/svm.py:SVM.fit"]}
{"id": "C73", "title": "Whitened bounds enclose the whitened prior", "statement": "Whitening.transform_bounds returns the smallest box containing the transform of every point inside the bounds.", "quantifier": "for all orthogonal bases, eigenvalues, means, bounds and points, in any dimension", "why_tests_cant": "a statement about all points of a box in all dimensions", "anchors": ["gpry/preprocessing.py:Whitening.transform_bounds"]}
{"id": "C74", "title": "The ranked pool is a Kriging-believer ranking of its own content", "statement": "After any sequence of one-by-one insertions (with acquisition values that do not grow under conditioning), each stored conditioned acquisition value equals the acquisition value of that point conditioned on exactly the points above it, and no point further down has a larger one: caching of conditioned models and partial re-sorting never leave stale values.", "quantifier": "every sequence of offered points, every pool size >= 1, every conditioning function that does not increase with lies and returns no NaN", "why_tests_cant": "depends on the interplay of cached models, early-stopping search and recursive re-sorting over whole insertion histories", "anchors": ["gpry/gp_acquisition.py:RankedPool.add_one", "gpry/gp_acquisition.py:RankedPool.sort", "gpry/gp_acquisition.py:RankedPool.cache_model"]}
{"id": "C75", "title": "The end of a run that did not converge does not hang", "statement": "With any number of MPI processes, after the main loop ends without convergence, all the processes get past the final sample and diagnosis and return from run().", "quantifier": "all numbers of processes and all final states", "why_tests_cant": "Needs several MPI processes and a run that fails to converge; a hang is not a failed assertion.", "anchors": ["gpry/run.py:Runner.run"]}
{"id": "C76", "title": "A resumed run can be finished", "statement": "A run that is resumed from a checkpoint (load_checkpoint=resume) and then converges or exhausts its budget ends without error.", "quantifier": "all checkpoints and all later histories", "why_tests_cant": "A test needs to interrupt and resume a complete run.", "anchors": ["gpry/run.py:Runner.__init__", "gpry/run.py:Runner.run", "gpry/run.py:_construct_mc_options"]}
{"id": "C77", "title": "Failure of the initial training is seen by all processes", "statement": "If no valid initial training set is found within max_initial, all the MPI processes raise; none is left waiting.", "quantifier": "all numbers of processes", "why_tests_cant": "Needs several MPI processes and an initial training that fails.", "anchors": ["gpry/run.py:Runner.do_initial_training"]}
{"id": "C78", "title": "An exception of the true posterior stops all processes", "statement": "If the user's log-posterior raises at one of the points evaluated in parallel, no MPI process is left waiting: all of them raise.", "quantifier": "all numbers of processes, point lists and posteriors raising anywhere", "why_tests_cant": "Needs an exception in one of several processes; the tests run with a single process", "anchors": ["gpry/run.py:Runner._eval_truth_parallel"]}
{"id": "C79", "title": "An exception in the fit of one process stops all processes", "statement": "If append_to_data (or the fit in it) raises in one MPI process during the parallel fit, no process is left waiting.", "quantifier": "all numbers of processes, assignments of restarts, and processes in which the exception occurs", "why_tests_cant": "Needs a numerical failure in one of several processes", "anchors": ["gpry/run.py:Runner._fit_gpr_parallel"]}
{"id": "C80", "title": "Monte Carlo KL divergence is invariant under normalisation", "statement": "kl_mc(X, logq, logp, weight) is unchanged if all weights are multiplied by the same non-zero number, if the same constant is added to log p and log q, and if points with log p not finite are added or removed; it is 0 if log p = log q on the points used.", "quantifier": "all samples, weights and constants", "why_tests_cant": "for all samples", "anchors": ["gpry/tools.py:kl_mc"]}
{"id": "C81", "title": "Acquisition building blocks have their documented values", "statement": "Mu is a times the mean, Std is a times the standard deviation, ExponentialMu is exp(a mean), NonlinearLogExp is 2 zeta (mean - baseline) + log(exp(sqrt(std^2 - noise^2)) - 1), at every point of a batch.", "quantifier": "every a, mean, standard deviation, noise, baseline and batch size", "why_tests_cant": "The classes are rarely used with a != 1 or several points; the two branches of the stable log-expm1 have to agree with the formula on the whole real line.", "anchors": ["gpry/acquisition_functions.py:Mu.__call__", "gpry/acquisition_functions.py:Std.__call__", "gpry/acquisition_functions.py:ExponentialMu.__call__", "gpry/acquisition_functions.py:_safe_log_expm1"]}
{"id": "C82", "title": "ExpectedImprovement gradient is the derivative of its value", "statement": "The gradient returned by ExpectedImprovement with eval_gradient=True equals the derivative of the value it returns.", "quantifier": "every differentiable mean and standard deviation > 0, every incumbent and xi", "why_tests_cant": "A sign error in one term is seen only with a finite-difference check of this class, which the suite lacks.", "anchors": ["gpry/acquisition_functions.py:ExpectedImprovement.__call__"]}
{"id": "C83", "title": "Resuming without a likelihood uses the saved truth", "statement": "If a complete checkpoint exists and no likelihood is passed, the Runner resumes with the truth loaded from the checkpoint; if a likelihood is passed, it is used instead.", "quantifier": "every checkpoint, every likelihood", "why_tests_cant": "the existing tests always pass the likelihood when resuming", "anchors": ["gpry/run.py:Runner.__init__", "gpry/truth.py:get_truth", "gpry/io.py:read_checkpoint"]}
{"id": "C84", "title": "Parameter names, labels and reference bounds survive save and reload", "statement": "A Truth re-created from as_dict has the same parameter names, labels and reference bounds.", "quantifier": "every dimension, every form of the arguments params and ref_bounds", "why_tests_cant": "the property quantifies over all name lists, including repeated names", "anchors": ["gpry/truth.py:Truth.__init__", "gpry/truth.py:Truth.as_dict", "gpry/tools.py:generic_params_names"]}
{"id": "C85", "title": "One optimisation of the acquisition function", "statement": "optimize_acquisition_function optimises the acquisition function of the surrogate it is given, starting from its last training point within the bounds (first run) or from the best valid proposal, inside the bounds passed or, without them, inside the prior.", "quantifier": "every surrogate, history of calls, bounds or none, proposer and local optimiser", "why_tests_cant": "Depends on the history of calls of the object and on the behaviour of the optimiser.", "anchors": ["gpry/gp_acquisition.py:BatchOptimizer.optimize_acquisition_function", "gpry/gp_acquisition.py:BatchOptimizer.propose"]}
{"id": "C86", "title": "The Cobaya wrapper recognises the NORA engine", "statement": "CobayaWrapper.is_nora returns True exactly for the inputs whose acquisition engine is NORA.", "quantifier": "every input dictionary", "why_tests_cant": "All dictionaries; two layouts of the same option.", "anchors": ["gpry/cobaya.py:CobayaWrapper.is_nora", "gpry/cobaya.py:CobayaWrapper.initialize"]}
{"id": "C87", "title": "Building a Runner keeps the options of the user", "statement": "Runner(gpr=..., gp_acquisition=...) builds the regressor and the acquisition with exactly the arguments given by the user, completed with the documented defaults; the number of restarts is only rounded down to a multiple of the number of processes; None means the default.", "quantifier": "every specification (instance, string, mapping, None), every number of processes", "why_tests_cant": "All combinations of options and numbers of processes; tests construct a few.", "anchors": ["gpry/run.py:Runner._construct_gpr", "gpry/run.py:Runner._construct_gp_acquisition"]}
{"id": "C88", "title": "Convergence criteria are built as specified and shared between the processes", "statement": "Runner(convergence_criterion=...) makes one criterion per entry, in order and with its arguments (instances are used as they are); with MPI all processes have lists of the same length, where the MPI-aware criteria are the same and the rest are dummies outside of the main process; wrong specifications raise in all processes.", "quantifier": "every specification, every number of processes", "why_tests_cant": "All specifications and numbers of processes; interleavings of processes.", "anchors": ["gpry/run.py:Runner._construct_convergence_criterion", "gpry/run.py:Runner._share_convergence_from_main"]}
{"id": "C89", "title": "The sampler of the final MC sample is the requested one", "statement": "Runner.generate_mc_sample uses the sampler and options of the call, else those given at initialisation, else the best nested sampler installed; the options are passed as given, with a default number of live points for nested samplers, and the dictionaries of the caller are not changed.", "quantifier": "every specification in the call and at initialisation", "why_tests_cant": "All dictionaries of options.", "anchors": ["gpry/run.py:Runner.generate_mc_sample", "gpry/run.py:Runner._construct_mc_options"]}
{"id": "C90", "title": "Reading the last MC sample does not change it", "statement": "Runner.last_mc_samples returns the stored sample, as a dictionary or as a table with one column per parameter, and can be called any number of times with any arguments with the same result.", "quantifier": "every sample, every sequence of calls", "why_tests_cant": "Sequences of calls; aliasing of the stored dictionary.", "anchors": ["gpry/run.py:Runner.last_mc_samples"]}
{"id": "C91", "title": "Fiducial data is consistent", "statement": "After set_fiducial_point/set_fiducial_MC the stored densities and weights belong to the stored points: lengths agree and logpost = loglike + logprior; a call that raises changes nothing.", "quantifier": "every sequence of calls, every prior", "why_tests_cant": "Sequences of calls and arguments.", "anchors": ["gpry/run.py:Runner.set_fiducial_point", "gpry/run.py:Runner.set_fiducial_MC"]}
{"id": "C92", "title": "Deleting sampler output deletes exactly that output", "statement": "delete_output() of a nested-sampler interface deletes the files of the last run, and delete_output(out_dir) those of the run stored there, and no other files; only the main process does it. Empty folders of the run are removed, folders with other files are not; it can be called again.", "quantifier": "every set of files and folders, every folder and prefix (with and without glob characters), all three interfaces", "why_tests_cant": "All layouts of files; destructive operation.", "anchors": ["gpry/ns_interfaces.py:InterfacePolyChord.delete_output", "gpry/ns_interfaces.py:InterfaceNessai.delete_output", "gpry/ns_interfaces.py:InterfaceUltraNest.delete_output"]}
{"id": "C93", "title": "MCMC on the surrogate starts at the best training points", "statement": "mcmc_info_from_run makes process r start at the r-th best training point (different processes at different points, sampling the prior if there are not enough), and passes a covariance matrix exactly if there is a valid one.", "quantifier": "every training set (ties included), every number of processes", "why_tests_cant": "All training sets, ties, ranks.", "anchors": ["gpry/mc.py:mcmc_info_from_run"]}
{"id": "C94", "title": "Samples for GetDist are aligned", "statement": "samples_dict_to_getdist keeps rows, weights, names, labels and ranges aligned: each row has the coordinates and then the non-constant log-densities, loglikes is minus the log-posterior; process_gdsamples accepts all documented sources.", "quantifier": "every sample", "why_tests_cant": "All samples and combinations of columns.", "anchors": ["gpry/mc.py:samples_dict_to_getdist", "gpry/mc.py:process_gdsamples"]}
{"id": "C95", "title": "Each process has its own random generator", "statement": "mpi.get_random_generator gives each process a different generator, which only depends on the seed and the rank.", "quantifier": "every seed, every number of processes", "why_tests_cant": "Number of processes; interleavings.", "anchors": ["gpry/mpi.py:get_random_generator"]}
{"id": "C96", "title": "The file with the final sample", "statement": "mc_sample_from_gp_ns with an output path writes one row per sample with weight, minus log-posterior and coordinates, under the documented name.", "quantifier": "every sample, every path", "why_tests_cant": "All samples and paths.", "anchors": ["gpry/mc.py:mc_sample_from_gp_ns"]}
{"id": "C97", "title": "Settings and priors of the nested samplers", "statement": "set_precision sets exactly the given known parameters and leaves the rest; the prior of each interface is uniform within the bounds and zero outside.", "quantifier": "all dictionaries of parameters, all bounds, all points", "why_tests_cant": "All combinations; infinitely many points.", "anchors": ["gpry/ns_interfaces.py:InterfacePolyChord.set_precision", "gpry/ns_interfaces.py:InterfaceNessai.set_precision", "gpry/ns_interfaces.py:InterfaceUltraNest.set_precision", "gpry/ns_interfaces.py:InterfaceUltraNest.set_prior", "gpry/ns_interfaces.py:InterfaceNessai.run"]}
{"id": "C98", "title": "Choice and schedule of the nested sampler", "statement": "NORA and mc_sample_from_gp_ns use the named sampler, or PolyChord if installed and else UltraNest; unknown names raise; the number of live points grows with the training set up to its maximum; each MC sample has an output folder of its own.", "quantifier": "every set of installed samplers, every name, all sizes of training sets, every number of calls", "why_tests_cant": "All combinations; unbounded number of calls.", "anchors": ["gpry/gp_acquisition.py:NORA._init_nested_sampler", "gpry/gp_acquisition.py:NORA.update_NS_precision", "gpry/gp_acquisition.py:NORA._get_output_folder", "gpry/mc.py:mc_sample_from_gp_ns"]}
{"id": "C99", "title": "Hyperparameters of kernels", "statement": "For kernels built from sums, products and powers, theta, bounds and the list of free hyperparameters have consistent sizes and order; assigning theta and reading it back gives the same values; fixed hyperparameters are unaffected; dynamic bounds follow the prior bounds. Hyperparameters compare as equal iff all of their attributes are.", "quantifier": "all kernel expressions, all values and bounds", "why_tests_cant": "Unbounded nesting of kernels.", "anchors": ["gpry/kernels.py:Hyperparameter", "gpry/kernels.py:Kernel.theta", "gpry/kernels.py:Kernel.bounds", "gpry/gpr.py:GaussianProcessRegressor.__init__", "gpry/kernels.py:108-115"]}
{"id": "C100", "title": "Fit of the hyperparameters", "statement": "fit_gpr_hyperparameters does exactly the requested number of runs, the first from the current hyperparameters if already fitted (and asked), the others from points within the bounds; keeps the best optimum; never decreases the log-marginal likelihood when starting from the current values; refuses infinite bounds exactly when a random start is needed.", "quantifier": "all optimisers, all numbers of runs, all bounds and states", "why_tests_cant": "Arbitrary optimiser and unbounded number of runs.", "anchors": ["gpry/gpr.py:GaussianProcessRegressor.fit_gpr_hyperparameters", "gpry/gpr.py:GaussianProcessRegressor._constrained_optimization"]}
{"id": "C101", "title": "Construction of the regressor", "statement": "The constructor succeeds exactly for clip_factor >= 1, a threshold without power if there is a classifier, a kernel object or the name of one standard kernel; bounds and clip_factor=None are optional as documented; the number of points to keep defaults to the dimension.", "quantifier": "all arguments", "why_tests_cant": "All combinations of arguments.", "anchors": ["gpry/gpr.py:GaussianProcessRegressor.__init__", "gpry/gpr.py:GaussianProcessRegressor.d"]}
{"id": "C102", "title": "Questions about the classification of values", "statement": "is_finite of all targets is the classification used for the training set; abs_finite_threshold separates finite from not finite targets; predict_is_finite gives one answer per query.", "quantifier": "all histories, all targets, all affine preprocessors, all queries", "why_tests_cant": "Unbounded data.", "anchors": ["gpry/gpr.py:GaussianProcessRegressor.is_finite", "gpry/gpr.py:GaussianProcessRegressor.abs_finite_threshold", "gpry/gpr.py:GaussianProcessRegressor.predict_is_finite", "gpry/svm.py:SVM.is_finite", "gpry/svm.py:SVM.predict"]}
{"id": "C103", "title": "Scales of the kernel in original coordinates", "statement": "scales returns the output scale and length scales with which the kernel, as function of the original coordinates, is the covariance of the original targets.", "quantifier": "all dimensions, bounds, scales and points", "why_tests_cant": "Real-valued identity in all dimensions.", "anchors": ["gpry/gpr.py:GaussianProcessRegressor.scales", "gpry/preprocessing.py:Normalize_bounds.inverse_transform_scale"]}
{"id": "C104", "title": "Mean and covariance of weighted samples and of the training set", "statement": "mean_covmat_from_samples(X, w) returns exactly if there are as many weights as points, none negative and not all zero. Every component of the mean lies within the bounds of the points with non-zero weight. The covariance is finite, symmetric and positive semidefinite. Neither changes if all weights are multiplied by a positive factor, if points without weight are removed (remove_0_weight_samples), or if the points are reordered; equal weights give the unweighted result; a change of units of the parameters changes them accordingly. mean_covmat_from_evals(X, logp) does not change if a constant is added to all log-posteriors or if points with log-posterior -inf are removed.", "quantifier": "all numbers of points and dimensions, all weights and log-posteriors", "why_tests_cant": "Needs all sample sizes, weights and dimensions; special cases (single point with weight, all -inf) are seldom tried", "anchors": ["gpry/tools.py:remove_0_weight_samples", "gpry/tools.py:mean_covmat_from_samples", "gpry/tools.py:mean_covmat_from_evals"]}
{"id": "C105", "title": "Diagnosis of the final sample", "statement": "diagnose_last_mc_sample returns True exactly if the mean of the training set is within the 50% credible region of the sample (and not exactly at its mean) and, if the acquisition object has a sample, the divergence with respect to it is smaller than the dimension; with several processes all get the same answer. This and the comparison of GaussianKLTrain work for any number of parameters, including one.", "quantifier": "all samples, training sets, dimensions and numbers of processes", "why_tests_cant": "Needs every dimension and any number of MPI processes", "anchors": ["gpry/run.py:diagnose_last_mc_sample", "gpry/convergence.py:TrainAlignment.criterion_value_from_means_cov", "gpry/convergence.py:GaussianKLTrain.criterion_value", "gpry/tools.py:kl_norm"]}
{"id": "C106", "title": "Kernel matrices are positive semidefinite", "statement": "For a kernel made from RBF, Matern (nu 1/2, 3/2 or 5/2), RationalQuadratic (alpha > 0), DotProduct, WhiteKernel, constants that are not negative, and (with one parameter) ExpSineSquared, by sums, products and whole powers, the matrix kernel(X) is symmetric and positive semidefinite. So with noise levels that are not zero the matrix of the surrogate is positive definite whatever the training points (also repeated): the Cholesky decomposition exists and the predicted variance is between zero and that of the prior. This is false for ExpSineSquared with two parameters, for powers that are not whole, and for negative constants.", "quantifier": "every kernel expression of the class, all length scales, every number of points and dimensions", "why_tests_cant": "A matrix that is not positive semidefinite may need particular points; tests try a few.", "anchors": ["gpry/kernels.py:RBF", "gpry/kernels.py:Matern", "gpry/kernels.py:RationalQuadratic", "gpry/kernels.py:ExpSineSquared", "gpry/kernels.py:Exponentiation", "gpry/kernels.py:Product", "gpry/kernels.py:Sum", "gpry/gpr.py:GaussianProcessRegressor.fit"]}
{"id": "C107", "title": "Reuse of the samples of the GaussianKL criterion", "statement": "GaussianKL.is_converged without samples from the acquisition uses its own last MCMC sample again, reweighted by w*exp(new-old), if and only if the divergence from the last mean and covariance (larger of both directions) is positive and smaller than the last value, and less than max_reused calls did so before; every call adds exactly one value (NaN iff ConvergenceCheckError) and the numbers of evaluations. The following is documented or intended, but false: max_reused bounds the uses of each sample (it bounds those of the whole run); small divergences under limit*1e-2 lead to a new sample (max of a list starting with NaN); and the criterion works with one parameter (it never computes a value, and with several processes it deadlocks).", "quantifier": "every history of calls, any sampler and surrogate, any parameters", "why_tests_cant": "The sequence of decisions depends on the whole history; an MCMC sampler would be run in each call.", "anchors": ["gpry/convergence.py:GaussianKL._get_new_mean_and_cov_from_mc", "gpry/convergence.py:GaussianKL._get_new_mean_and_cov", "gpry/convergence.py:GaussianKL.criterion_value", "gpry/convergence.py:GaussianKL.is_converged"]}
{"id": "C108", "title": "Options and history of the convergence criteria", "statement": "The policy of a criterion is the given string in lower case if it is one of n, s, ns, m (n by default), otherwise ValueError; limit_times is rounded to the nearest whole number (half to even); giving both n_draws and n_draws_per_dimsquared raises ValueError; tolerances of CorrectCounter are numbers, or numbers followed by l, s or r, otherwise ValueError; DontConverge never converges and records every call; get_history returns lists of equal length, or ValueError before the first call; TrainAlignment uses the last int(n*frac_training) training points. False: limit_times is 2 by default (it is the dimension); limit_times=0 asks for nothing (then GaussianKL can never converge); a fraction of less than one point uses (at most) few points (it uses all); building a criterion leaves the given dictionary unchanged.", "quantifier": "every dictionary of options, dimension, history of calls, training set and fraction", "why_tests_cant": "Options interact and wrong ones only show late in a run.", "anchors": ["gpry/convergence.py:ConvergenceCriterion._set_convergence_policy", "gpry/convergence.py:ConvergenceCriterion.get_history", "gpry/convergence.py:DontConverge", "gpry/convergence.py:GaussianKL.__init__", "gpry/convergence.py:GaussianKLTrain.__init__", "gpry/convergence.py:TrainAlignment.__init__", "gpry/convergence.py:TrainAlignment._get_mean_from_training", "gpry/convergence.py:CorrectCounter.__init__"]}
{"id": "C109", "title": "The trust region follows the training set", "statement": "Whatever the sequence of successful append_to_data calls on a new regressor with a trust region (batches without finite points, calls without fit and forced refits included), trust_bounds is what the documented rule gives for the current training set; it is None as long as there is no training point, and always None if no trust region was asked for.", "quantifier": "all configurations, all histories of calls, any rule that maps training sets to bounds", "why_tests_cant": "The stale case only shows in particular sequences of calls (early returns, forced refits); tests check one append.", "anchors": ["gpry/gpr.py:554-575", "gpry/gpr.py:737-753"]}
{"id": "C110", "title": "Attributes that summarise the training set", "statement": "After any successful history: n and n_finite count the targets classified as finite; y_max is the largest target given so far (minus infinity if there is no finite one); training_set_as_df has one row per point given, in order, with its target and whether it is in the training set.", "quantifier": "all configurations, all histories of append_to_data with targets that are finite or -inf", "why_tests_cant": "Depends on the whole history of classifications and on empty or stale states that tests do not build.", "anchors": ["gpry/gpr.py:399-421", "gpry/gpr.py:490-497"]}
{"id": "C111", "title": "Acquisition functions as objects", "statement": "Equality of acquisition functions built with +, * and ** is an equivalence relation (for parameters that are not NaN), functions that compare equal have the same value everywhere, a number on either side of + or * acts as the constant, and the order of the operands does not matter for ==. Every parameter that get_params lists, at any depth, can be set through set_params under the name listed: afterwards get_params lists the new value there and all the others are unchanged; names that are not listed are refused. False: set_params with an operand and a parameter of that operand sets the parameter of the new operand.", "quantifier": "all trees of acquisition functions, parameter values, names", "why_tests_cant": "Nesting is unbounded; tests check one level.", "anchors": ["gpry/acquisition_functions.py:AcquisitionFunction.set_params", "gpry/acquisition_functions.py:AcquisitionFunction.__eq__", "gpry/acquisition_functions.py:AcquisitionFunctionOperator", "gpry/acquisition_functions.py:Exponentiation"]}
{"id": "C112", "title": "Building acquisition objects", "statement": "GenericGPAcquisition takes an acquisition function, a class name or a dictionary with a class name and arguments, and ends with that function or with TypeError (not a specification), IndexError (empty dictionary) or ValueError (anything else). The dimension is always that of the bounds; zeta of LogExp is the one given or dimension**(-zeta_scaling), which lies in (0,1] and decreases with the dimension; unknown classes or arguments are refused. Every class that can be built by name is in builtin_names. A composite function has gradients iff all its parts do; acq_optimizer=auto takes the gradient optimizer iff the function has gradients. False: the given dictionary stays unchanged; builtin_names lists only what can be built; the optimizer name in the error message is accepted; hasgradient is right after set_params.", "quantifier": "all specifications, arguments, dimensions, trees of functions", "why_tests_cant": "Combinations of options; defaults depend on the dimension.", "anchors": ["gpry/gp_acquisition.py:GenericGPAcquisition.__init__", "gpry/gp_acquisition.py:BatchOptimizer.__init__", "gpry/gp_acquisition.py:builtin_names", "gpry/acquisition_functions.py:builtin_names", "gpry/acquisition_functions.py:BaseLogExp.__init__"]}
{"id": "C113", "title": "Kernels built with + , * and **", "statement": "Combining kernels of gpry.kernels and numbers with + and * gives a kernel whose values are the sum or product of the values of the operands, and whose gradient_x is the gradient of that function. The same would be expected of **, but it is false: k ** p is a kernel of scikit-learn without gradient_x, and a kernel of GPry plus (or times) such a power is, without any exception, an object whose values are not numbers.", "quantifier": "all expressions with numbers, kernels, +, *, ** (any depth), all points", "why_tests_cant": "Which class an operation returns depends on the order of the operands and on the classes of both; tests use a few products and sums", "anchors": ["gpry/kernels.py:118-145", "gpry/kernels.py:647-699"]}
{"id": "C114", "title": "The prior is a normalised density, and its samples follow it", "statement": "For a likelihood function with finite bounds, the exponential of Truth.logprior integrates to one, and the points returned by Truth.prior_sample follow the distribution with this density; all of them are points at which Truth.logp calls the likelihood. Points returned by ref_sample are within the reference bounds; these are not compared with the prior bounds, so that it is false that the likelihood is called at reference points. With infinite bounds no point can be drawn.", "quantifier": "all dimensions, all finite bounds, all generators of uniform numbers", "why_tests_cant": "Normalisation and distribution of samples are statements about integrals, tests could only compare histograms", "anchors": ["gpry/truth.py:58-87", "gpry/truth.py:134-163"]}
{"id": "C115", "title": "Slices, reference values and numbers in plots", "statement": "prepare_slices_func with a list and non-negative indices succeeds exactly when the documented conditions hold and then gives, for each index in order, n equally spaced points between the bounds of that parameter with the other ones fixed, and the values of the function there (NaN where it raised). The reference for trace plots has five entries for each parameter with those given by the user and is stable; numbers in scientific notation keep figures, sign and exponent. False (with witness): the dictionary form always raises; negative indices are accepted and may use the bounds of nothing; the dictionary of the caller is modified; the reference is ignored without GetDist; an exponent zero gives an empty exponent.", "quantifier": "all functions, points, bounds, lists of indices and numbers of points; all dictionaries and lists; all numerals", "why_tests_cant": "finitely many inputs cannot cover all lists of indices, dictionaries and numerals", "anchors": ["gpry/plots.py:33-61", "gpry/plots.py:64-161", "gpry/plots.py:747-812"]}
{"id": "C116", "title": "Gathered arrays and shared attributes", "statement": "multi_gather_array ends in all processes; the main one gets each array concatenated in rank order, the others as many Nones. share_attr gives the attribute the value of the root process everywhere and leaves the other attributes alone. update_mean_cov gives all processes the mean and covariance of the MC sample, or those of the acquisition object of the main process. False (with witness): the documented fallback to the convergence criteria never happens, since Runner.convergence is a list; processes passing fewer arrays than the main one do not see its exception.", "quantifier": "any number of processes, any arrays (any number of them), any objects and attributes", "why_tests_cant": "needs every number of processes and every distribution of rows between them", "anchors": ["gpry/mpi.py:134-161", "gpry/mpi.py:173-179", "gpry/run.py:1335-1352"]}
{"id": "C117", "title": "Proposals from short chains", "statement": "SmallChainProposer gives only proposals within the bounds in force when get is called, also from chains stored before a change of bounds; no point of a chain is given twice; after update no proposal comes from a chain run before it; the proposals of a chain are its nsteps last points; and when the sampler fails nretries times, nsteps uniform points are given.", "quantifier": "for all results of the sampler, all numbers of steps and retries, and all histories of calls to get, update and update_bounds", "why_tests_cant": "The histories of calls and the outcomes of the external sampler are unbounded, and the sampler is not installed in a test environment without Cobaya.", "anchors": ["gpry/proposal.py:check_in_bounds", "gpry/proposal.py:SmallChainProposer"]}
{"id": "C118", "title": "Sampling the surrogate with Cobaya", "statement": "mc_sample_from_gp_cobaya passes to Cobaya one sampler block under the name given, where the options given override the standard ones and the rest of the standard ones are kept; names of samplers are recognised whatever their case; for mcmc the covariance matrix is the one given, else the one found in the acquisition object, else in the convergence criterion, and only if valid; the dictionary returned has the sampler input under its name; a higher verbosity never gives a less verbose log.", "quantifier": "for all names, options, matrices, verbosities and contents of the checkpoint", "why_tests_cant": "The inputs are open-ended (any name, any dictionary of options), and Cobaya is an optional dependency.", "anchors": ["gpry/mc.py:mc_sample_from_gp_cobaya", "gpry/mc.py:mcmc_info_from_run", "gpry/mc.py:polychord_info_from_run", "gpry/mc.py:get_cobaya_log_level"]}
{"id": "C119", "title": "Reported numbers of evaluations", "statement": "The numbers of evaluations of the surrogate stored in the progress table are the numbers of points at which it was evaluated: TimerCounter counts exactly the evaluations of the objects given to it, copies made for the acquisition included, and with several processes the number reported for acquisition and for the fit is the sum over the processes.", "quantifier": "for all numbers of processes, points and evaluations, and all blocks of code (lists of evaluations, copies, assignments of the counter)", "why_tests_cant": "The counts depend on copies of objects and on broadcasts among any number of processes; a test with one process cannot see it.", "anchors": ["gpry/progress.py:TimerCounter", "gpry/gp_acquisition.py:BatchOptimizer.multi_add", "gpry/run.py:Runner.run", "gpry/progress.py:Progress.mpi_sync"]}
{"id": "C120", "title": "Wrappers, banners and directories of Runner", "statement": "Runner.logL returns the surrogate log-likelihood of a point or a list of points: the surrogate posterior minus the log-prior, equal to the true log-likelihood where the surrogate is exact, and the value given to Cobaya. Messages are printed if and only if their level does not exceed the verbosity; a banner prints every line of its text in full, in a box of the width requested when the lines fit. ensure_paths leaves the requested directories in place, created by the main process only, and is idempotent.", "quantifier": "for all truths with finite bounds, predictions, points and lists of points; all texts, widths, prefixes, suffixes and rules; all file systems, checkpoints and verbosities", "why_tests_cant": "Depends on the number of points passed and on their position, on arbitrary text, and on the state of the file system in several processes.", "anchors": ["gpry/run.py:Runner.logp", "gpry/run.py:Runner.logL", "gpry/run.py:Runner.log", "gpry/run.py:Runner.banner", "gpry/run.py:Runner.ensure_paths", "gpry/io.py:create_path"]}
{"id": "C121", "title": "NORA's proposals are the same in every process", "statement": "NORA.multi_add, run by any number of MPI processes with the same arguments and call count, ends in all of them together, and all return the same points and predictions. The points are distinct entries of the sample (the new one, or the old one reweighted) that have not been proposed from it before; there are at most n_points; the first has the highest acquisition value; the predictions are those of the present surrogate. Afterwards the points are recorded as proposed. Arguments that are refused are refused in all processes.", "quantifier": "every number of processes, surrogate, acquisition function, sample, history of calls, n_points and mc_every", "why_tests_cant": "The order in which processes reach each MPI call, the split of the sample and the fusion of pools depend on the number of processes, which tests fix to one.", "anchors": ["gpry/gp_acquisition.py:NORA.multi_add", "gpry/gp_acquisition.py:NORA._set_MC_sample", "gpry/gp_acquisition.py:NORA._reweight_last_MC_sample", "gpry/gp_acquisition.py:NORA._split_and_compute_acq", "gpry/gp_acquisition.py:NORA._parallel_rank_and_merge", "gpry/gp_acquisition.py:NORA._gather_pools", "gpry/gp_acquisition.py:NORA._merge_pools", "gpry/mpi.py:step_split", "gpry/mpi.py:merge_step_split", "gpry/mpi.py:compute_y_parallel"]}
{"id": "C122", "title": "Nested samplers run alike in all processes", "statement": "do_MC_sample of an acquisition object initialised with PolyChord, UltraNest, nessai or the uniform sampler ends in all MPI processes, and gives the main process the points and weights found by that sampler, each weight with its point, and None to the others. PolyChord runs in all processes with the settings, folder and seed of the main one; values are read with the right sign and factor; with keep_all the points evaluated in all processes are returned with their values. UltraNest's points without weight are dropped. Unknown names are refused in all processes. The verbosity of PolyChord and nessai changes at the same level.", "quantifier": "every number of processes, settings, seeds and folders in each of them, outputs of the external samplers, and verbosity", "why_tests_cant": "Tests run one process, where nothing is shared; the external samplers are random and often not installed.", "anchors": ["gpry/ns_interfaces.py:InterfacePolyChord.run", "gpry/ns_interfaces.py:InterfaceNessai.run", "gpry/ns_interfaces.py:InterfaceUltraNest.run", "gpry/ns_interfaces.py:InterfacePolyChord.set_verbosity", "gpry/ns_interfaces.py:InterfaceNessai.set_verbosity", "gpry/gp_acquisition.py:NORA.do_MC_sample", "gpry/gp_acquisition.py:NORA._do_MC_sample_uniform", "gpry/gp_acquisition.py:NORA._do_MC_sample_polychord", "gpry/gp_acquisition.py:NORA._do_MC_sample_ultranest", "gpry/gp_acquisition.py:NORA._do_MC_sample_nessai"]}
{"id": "C123", "title": "Numbers of standard deviations in several dimensions mean the same probability", "statement": "For every n1 >= 0 and every number of dimensions d >= 1, nstd_of_1d_nstd(n1, d) is the only radius within which a d-dimensional standard normal variable lies with the probability of the one-dimensional interval of n1 sigmas, and credibility_of_nstd gives this probability back. The radius is n1 for d = 1, increases with n1 and does not decrease with d. For a Gaussian log-posterior with any mean and covariance matrix, the region where it is at most delta_logp_of_1d_nstd(n1, d) (or compute_threshold_given_sigma) below its value at the mean has this probability. A negative n1, or d = 0, gives NaN. volume_sphere is the volume of the ball.", "quantifier": "every real n1, dimension d, mean, positive definite covariance matrix, radius", "why_tests_cant": "Tests compare a few values against tables; the statement is about all reals, all dimensions and all Gaussian posteriors.", "anchors": ["gpry/tools.py:nstd_of_1d_nstd", "gpry/tools.py:delta_logp_of_1d_nstd", "gpry/tools.py:credibility_of_nstd", "gpry/tools.py:volume_sphere", "gpry/gpr.py:GaussianProcessRegressor.compute_threshold_given_sigma"]}
{"id": "C124", "title": "The alignment criterion is the mass of the credible region through the training mean", "statement": "For a positive definite covariance matrix, TrainAlignment.criterion_value_from_means_cov(mean1, mean2, cov) is the probability, under the normal distribution with mean1 and cov, of the points with a density at least the one at mean2. It is at least 0 and less than 1, it is 0 if and only if the means are equal, it grows strictly with the distance of the means in any direction, and it does not change under invertible affine transformations of the parameters. criterion_value stores and returns max(0.001, this number); it raises ConvergenceCheckError and stores NaN if and only if the matrix is singular, and it stores and returns NaN without an error if the squared distance is negative. The training mean is the one of the latest int(n * frac_training) points, if this is at least 1 (if it is 0, all the training points are used, against the documentation).", "quantifier": "all dimensions, means, covariance matrices, training sets and fractions", "why_tests_cant": "The claim is about an integral over a region in any dimension, about all affine changes of parametrisation, and about the edge of singular matrices and empty slices that a run rarely visits.", "anchors": ["gpry/convergence.py:TrainAlignment.criterion_value_from_means_cov", "gpry/convergence.py:TrainAlignment.criterion_value", "gpry/convergence.py:TrainAlignment._get_mean_from_training"]}
{"id": "C125", "title": "The prediction of the surrogate is the conditional distribution of a Gaussian process", "statement": "Let g be a Gaussian process with constant mean mu (the shift of the normalisation of y) and covariance s^2 k(T(x), T(x')), with k the kernel, T the preprocessing of X and s the scale of the normalisation, and let the training values be g(X_i) plus independent normal errors with the given noise levels. Then, for any point x, the conditional distribution of g(x) given the training values is the normal distribution whose mean and standard deviation are those that GaussianProcessRegressor.predict(x, return_std=True) returns.", "quantifier": "all numbers of training points, training points and values, kernels, noise levels, and points at which the surrogate is evaluated, for which the Cholesky factorisation succeeds", "why_tests_cant": "It is a statement about a conditional probability measure, which no finite set of predictions can show.", "anchors": ["gpry/gpr.py:GaussianProcessRegressor.predict", "gpry/gpr.py:GaussianProcessRegressor.predict_std", "gpry/gpr.py:GaussianProcessRegressor._update_model"]}
{"id": "C126", "title": "ExpectedImprovement is the expectation of the improvement", "statement": "Where the surrogate has a positive standard deviation, the value of ExpectedImprovement is the mean of max(f - y_max - xi, 0) for a normal variable f with the mean and standard deviation of the surrogate. It is larger than 0 and than the improvement of the mean, grows strictly with the mean and with the standard deviation, and decreases strictly with y_max and xi. Where the standard deviation is zero the value is 0, which is the mean of the improvement if and only if the mean does not exceed y_max + xi. The gradient that is returned with the value is right in a direction if and only if the mean of the surrogate has no slope in that direction.", "quantifier": "all means, standard deviations, best values, xi, and surrogates with partial derivatives", "why_tests_cant": "The claim equates a closed formula with an integral for all real parameters; a test compares single numbers.", "anchors": ["gpry/acquisition_functions.py:ExpectedImprovement.__call__"]}
{"id": "C127", "title": "Bounds, reference bounds and covariance matrices given by the user", "statement": "check_and_return_bounds accepts a list of rows of numbers if and only if it is not empty and every row has two numbers, accepts two numbers as the bounds of one parameter, and raises TypeError otherwise. Truth(..., bounds, ref_bounds).ref_sample draws from the reference bounds given (from the prior bounds where None is given), whatever the types of the numbers. is_valid_covmat returns True exactly for symmetric positive definite matrices.", "quantifier": "all lists of rows, types of numbers, reference bounds, random numbers and square matrices of any size", "why_tests_cant": "Whether fractional parts are lost depends on the combination of the types of all the bounds with the values of the reference bounds; the tolerance of the symmetry test only matters for matrices of small scale.", "anchors": ["gpry/tools.py:check_and_return_bounds", "gpry/tools.py:is_valid_covmat", "gpry/truth.py:Truth.__init__", "gpry/truth.py:Truth.ref_sample"]}
{"id": "C128", "title": "What a corner plot shows", "statement": "plot_corner_getdist passes to GetDist one label and one 'filled' flag per sample (given by position or by label, True otherwise), the parameters asked for that the last sample has, and the limits given for them; the training points are placed by the names of the sample chosen for it, and drawn with their values. Runner.plot_mc shows the fiducial sample, the surrogate's (the given or the last one) and the additional ones. False: training points outside the axes ranges are not left out (exact condition proved; on an inverted axis exactly those inside are); limits sorted as params are refused if a parameter is missing in the last sample; the log-posterior asked for by plot_mc is never shown", "quantifier": "all samples, parameters, options, training sets and axis ranges", "why_tests_cant": "the defects concern points outside of the ranges and samples with other parameters, and the result is a picture", "anchors": ["gpry/plots.py:412-553", "gpry/plots.py:555-662", "gpry/run.py:1786-1864"]}
{"id": "C129", "title": "Histogram of distances of the training points", "statement": "plot_distance_distribution draws one bar per unit of distance up to the largest one; with density=False the height of a bar is the number of points at these distances (only the last bar includes its upper end) and the heights add up to the number of points; with density=True it is that number divided by the volume of the shell between the two spheres in as many dimensions, and the heights times the volumes add up to the number of points. Stacks follow the order of the points and end at the bars. False for density=True if the largest distance is an integer: IndexError", "quantifier": "all sets of distances and dimensions", "why_tests_cant": "the failing inputs have a largest distance that is exactly an integer; volumes need a proof in all dimensions", "anchors": ["gpry/plots.py:958-1036", "gpry/tools.py:129-131"]}
{"id": "C130", "title": "Figures with slices and with the history of convergence", "statement": "plot_slices_func labels its panels in the documented four ways and refuses other numbers of labels; plot_slices draws, for each parameter and point, a line in the two panels of the parameter, coloured from 0 to 1 by the value; plot_slices_reference draws one panel per parameter with the training points fading from 1 to 0 with their relative distance; plot_convergence draws values against total or accepted evaluations. False: two or more slices of a function (AttributeError); one parameter in plot_slices (IndexError) and plot_slices_reference (TypeError); a reference point with a zero coordinate (ValueError); an unknown 'evaluations' raises KeyError instead of ValueError", "quantifier": "all numbers of parameters, points and labels", "why_tests_cant": "a plot is rarely tested, and never for all numbers of panels", "anchors": ["gpry/plots.py:165-411", "gpry/plots.py:679-744"]}
{"id": "C131", "title": "Plot of the times of a run", "statement": "Progress.plot_timing stacks, for each iteration, the times of acquisition, truth, fit and convergence; totals are sums over iterations and percentages refer to the sum of all. At most nineteen and, if there are that many, at least ten ticks are kept, the first among them. False after an iteration in which the acquisition proposes too few points: its missing times make every percentage NaN for the rest of the run", "quantifier": "all tables of times", "why_tests_cant": "needs a run with a repeated acquisition followed by a look at the legend", "anchors": ["gpry/progress.py:166-239", "gpry/run.py:815-911"]}
{"id": "C132", "title": "Contours of a two-dimensional surrogate", "statement": "The value drawn at a crossing of the grid is that of the surrogate there. For values that are not negative the levels reach from below the smallest to above the largest value; in the version for finite values all clipped values are between the first and last level and the upper half is unchanged. False of the first version for negative values, as log-posteriors usually are: the largest value is above all levels, and the smallest below", "quantifier": "all functions, grids and ranges", "why_tests_cant": "the picture only lacks its extremes", "anchors": ["gpry/plots.py:1039-1157"]}
{"id": "C133", "title": "Data of a finished run are the evaluated points with their true values", "statement": "If Runner.run() with a surrogate without previous training data returns in all MPI processes, all of them hold the same surrogate, whose data (X_train_all, y_train_all) are exactly the points at which the true log-posterior was evaluated, in the order of the evaluations (first those of the initial training, then the candidates of every iteration), each with the value of the true log-posterior at it; X_train, y_train are the sub-sequence accepted by the classification of infinities; and every stored point satisfies whatever the drawn and the proposed points satisfy (e.g. being within the prior bounds).", "quantifier": "All numbers of processes, options, numbers of iterations, true posteriors (which may raise), fit schedules and outcomes of the fits in the individual processes.", "why_tests_cant": "The statement composes initial training, parallel evaluation, choice of the best fit among processes and the loop for every number of processes and every history; tests run a few serial examples.", "anchors": ["gpry/run.py:804-1061", "gpry/run.py:1071-1301", "gpry/gpr.py:577-753", "gpry/mpi.py:52-77"]}
{"id": "C134", "title": "Contents of the trace plot", "statement": "plot_trace draws, for a consistent surrogate with at least two rows of progress, every evaluation at its ordinal number (from 1): its log-posterior, coloured by its value if accepted by the classifier and by +inf otherwise, and each of its coordinates in the panel of that parameter; crosses mark exactly the rejected evaluations; the shaded region contains exactly the evaluations of the initial training (n_total of the second row), and consecutive dashed lines enclose the evaluations of one iteration; the n-sigma lines are exactly those above the lower end of the axis; bands, line and label come from the reference and labels of that parameter. With fewer than two rows of progress, an untrained classifier or a stale mask it raises.", "quantifier": "all data sets, masks, parameters, references, progress tables and axes", "why_tests_cant": "tests look at no content of figures; alignment of points, colours and masks is needed for all sizes", "anchors": ["gpry/plots.py:815-954"]}
{"id": "C135", "title": "Progress plots: files, samples, failures", "statement": "Runner.plot_progress, at the main process only, writes the figures asked for by its switches, in order timing, convergence, trace, slices, corner_it_NNN (and Surrogate_triangle after convergence) inside plots_path; corner plots of different iterations are different files and are never overwritten along a run; the corner plot contains the fiducial sample exactly if set and the acquisition sample exactly if it can be loaded, labelled with the number of evaluations and whether it was reweighted, with markers exactly at the coordinates of the fiducial point and its log-posterior if known; the matplotlib backend is restored in every case; a failure of one of the first figures is raised after writing exactly the previous ones, a failure of the corner plot is a warning, and the loop goes on in every case.", "quantifier": "all switches, outcomes of the drawing functions, samples, numbers of iterations, sequences of calls", "why_tests_cant": "failures of each drawing call in each position, and any number of iterations (names beyond 999)", "anchors": ["gpry/run.py:1470-1592", "gpry/run.py:1011-1020", "gpry/run.py:1459-1468"]}
{"id": "C136", "title": "Running from Cobaya", "statement": "CobayaWrapper.run returns the updated information and the sampler of the MC sample of the surrogate exactly if learning and sampling succeed, and otherwise raises LoggedError naming the stage that failed; do_plots draws the plots; products are those of the sampler plus the runner; the documented options for plots are accepted.", "quantifier": "all outcomes of the calls on the runner, all states", "why_tests_cant": "needs every combination of outcomes; the interface is not covered by tests", "anchors": ["gpry/cobaya.py:108-240", "gpry/CobayaWrapper.yaml"]}
{"id": "C137", "title": "Random numbers are not used twice", "statement": "In a run with the default random state of the regressor, on any number of processes, no number of a random stream is used twice by acquisition, restarts of the fit, and classifier, however often the regressor of some process is sent to the others. False with an integer random_state (all fits restart from the same positions), after resuming in parallel (the first fits of all processes take the same numbers) and after resuming without MPI (the regressor never uses the generator of the new run).", "quantifier": "all numbers of processes, all sequences of draws and exchanges", "why_tests_cant": "A test sees that results are finite or good, not that two processes explore the same starting points; needs several MPI processes and resumed runs.", "anchors": ["gpry/mpi.py:30-51", "gpry/run.py:217", "gpry/run.py:723-756", "gpry/gpr.py:542-552", "gpry/gpr.py:969", "gpry/tools.py:134-144", "gpry/svm.py:182-201"]}
{"id": "C138", "title": "The diagnosis callback returns, restores the backend, and its verdicts are right", "statement": "gpry.diag.diagnosis used as callback returns in every process, leaves the plotting backend as it was, and its verdict on the training sets is positive iff the training set of the regressor is the finite part of the full one. False of the code: in the main process it always raises AttributeError (runner.model), leaving the backend changed if there is no classifier; a point counts as contained in the training set if a single coordinate coincides. If a verdict is negative the subtests printed explain it: points listed are those at which classifications differ; the questions about the training sets are answered (false: with the opposite answers).", "quantifier": "all runners, data, and outcomes of the drawing functions", "why_tests_cant": "No test uses the module; coincidences of single coordinates (e.g. points on the boundary) are rare in samples but common in practice.", "anchors": ["gpry/diag.py:26-222", "gpry/gpr.py:509", "gpry/plots.py:309"]}
{"id": "C139", "title": "A Cobaya model as posterior", "statement": "A posterior given as a Cobaya model has one bound, name and label per sampled parameter, its log-posterior is prior plus likelihood with one evaluation, it is minus infinity without evaluation outside of the prior bounds, minus log_prior_volume is its log-prior within them, and it survives a checkpoint. False for unbounded priors (evaluated outside of prior_bounds) and for priors that are not uniform.", "quantifier": "all models, points", "why_tests_cant": "The tests use uniform priors only.", "anchors": ["gpry/truth.py:182-237"]}
{"id": "C140", "title": "Local optimisation of the acquisition function in transformed coordinates", "statement": "multi_add(gpr, n_points, bounds) proposes points within bounds, for every local optimiser that stays in the box it is given and with every preprocessing_X; the optimiser starts within its box; the acquisition values returned are those of the acquisition function at the points returned; and the gradient of the objective function is its derivative with respect to the coordinates of the optimiser.", "quantifier": "all preprocessors, bounds, acquisition functions, optimisers, surrogates", "why_tests_cant": "The tests run with bounds equal to the prior only; one optimiser.", "anchors": ["gpry/gp_acquisition.py:BatchOptimizer.optimize_acquisition_function", "gpry/gp_acquisition.py:BatchOptimizer.multi_add", "gpry/preprocessing.py:Normalize_bounds.transform_bounds", "gpry/preprocessing.py:Whitening.transform_bounds", "gpry/run.py:841"]}
{"id": "C141", "title": "Acquisition functions at several points", "statement": "Calling an acquisition function (or any sum, product, power of them) with an array of points returns one value per point, the same as calling it with each point alone; it does not raise; every value is a number or infinite, not NaN; and gpr.n_eval increases by the number of points per function that uses the surrogate.", "quantifier": "all expressions, surrogates, numbers of points", "why_tests_cant": "Composition and array length are unbounded; the tests call single points.", "anchors": ["gpry/acquisition_functions.py:404-865", "gpry/acquisition_functions.py:936-1010", "gpry/acquisition_functions.py:1287-1446", "gpry/gpr.py:1087-1096"]}
{"id": "C142", "title": "What one more training point changes", "statement": "With fixed hyperparameters and preprocessors, appending a point with value y and noise level s changes the predicted mean at x by c(x) / (std^2 + s^2) * (y - mean), where mean and std are the predictions at the new point before, and c the covariance of both points conditioned on the training set; the variance decreases by c(x)^2 / (std^2 + s^2). So a lie leaves the mean at x unchanged exactly if it equals the prediction or c(x) is zero; at the point itself the precisions add up. Predictions depend neither on the order of the training points nor on how they are split in batches.", "quantifier": "every training set, every kernel, every point, value and noise level, every order", "why_tests_cant": "Matrix identities of every size.", "anchors": ["gpry/gpr.py:GaussianProcessRegressor.append_to_data", "gpry/gpr.py:GaussianProcessRegressor._update_model", "gpry/gpr.py:GaussianProcessRegressor.predict", "gpry/gp_acquisition.py:RankedPool.cache_model"]}
{"id": "C143", "title": "Adding a constant to the log-posterior changes nothing but the values", "statement": "If a constant is added to the true log-posterior (i.e. it is normalised differently), and targets are normalised (Normalize_y, with mean or median, or NormalizeChi2_y), then every call of append_to_data raises or not as before, classifies the same points as finite, finds the same hyperparameters and stores the same points; initial training draws the same points in the same rounds; the loop proposes and evaluates the same points, converges or gives up in the same iteration; predicted means are shifted by the constant (minus infinity stays), standard deviations and gradients are the same; LogExp, ExpectedImprovement, Std, ExponentialStd and constants, and sums, products and powers of them, have the same values; so do the trust region, the mean and covariance from the training set, CorrectCounter and the weights of NORA.", "quantifier": "for all constants, histories of calls, log-posteriors, surrogates, points, acquisition functions, numbers of iterations", "why_tests_cant": "A relation between two runs for any constant: tests compare single runs with given targets, and none adds a constant.", "anchors": ["gpr.py:577-757", "gpr.py:1030-1352", "gpr.py:554-575", "preprocessing.py:528-683", "run.py:804-1198", "acquisition_functions.py:404-1074", "convergence.py:836-874", "tools.py:431-440", "gp_acquisition.py:875-919", "gpry/gp_acquisition.py:961-1137"]}
{"id": "C144", "title": "The units of the parameters change nothing but the units", "statement": "If every parameter is rescaled by a positive factor and shifted (x_i -> a_i x_i + b_i), with the bounds, and Normalize_bounds is used, then every call of append_to_data raises or not as before, classifies the same points as finite, stores the same transformed points and targets and finds the same hyperparameters; initial training and the loop evaluate the same points in the new units and end in the same iteration; predicted means and standard deviations and all acquisition functions have the same values at the same points; the trust region, the mean and covariance from the training set, and the points that proposers propose from the same random numbers are the same in the new units. The gradients returned by predict should scale with 1/a_i.", "quantifier": "for all factors and shifts, histories of calls, surrogates, points, acquisition functions, proposers and random numbers, numbers of iterations", "why_tests_cant": "A relation between two runs for any change of units: tests compare single runs with given bounds, usually similar in all dimensions.", "anchors": ["gpr.py:577-757", "gpr.py:1030-1352", "gpr.py:554-575", "preprocessing.py:349-411", "tools.py:203-240", "tools.py:431-440", "proposal.py:71-460", "run.py:804-1198", "acquisition_functions.py:404-1074", "gpry/gp_acquisition.py:961-1137"]}
{"id": "C145", "title": "Bounds are respected in floating point arithmetic", "statement": "With finite bounds, the transformation of points to the unit cube and back (Normalize_bounds), and the shrinking of the bounds, never leave the bounds because of rounding: the points that a sampler or optimizer proposes inside the unit cube are, after inverse_transform, inside the prior, so that the true posterior is evaluated at them.", "quantifier": "all IEEE formats (precision and smallest exponent), all finite bounds, all points, no overflow", "why_tests_cant": "rounding produces violations of one unit in the last place, for particular pairs of bounds only (15% of pairs of one-decimal bounds); tests with integer bounds never see them", "anchors": ["gpry/preprocessing.py:367-395", "gpry/tools.py:350-362", "gpry/truth.py:100-135", "gpry/proposal.py:153-155"]}
{"id": "C146", "title": "Rounding and the classification of points as finite", "statement": "When a point is added to the GP, the classification as finite or infinite of the log-posteriors as given agrees with that of the transformed ones (append_to_data asserts this), and at least the requested number of points is kept finite, also when every operation is rounded.", "quantifier": "all lists of finite values, thresholds, means and standard deviations; all IEEE formats; double precision for the explicit bounds", "why_tests_cant": "the margin eps=1e-6 of the threshold is absolute, so that the assertion fails only when log-posteriors of kept points differ by more than about 1e10, as happens at the start of runs in high dimension", "anchors": ["gpry/gpr.py:690-735", "gpry/gpr.py:1475-1488", "gpry/svm.py:290-295", "gpry/preprocessing.py:588-625"]}
{"id": "C147", "title": "Counts computed with floating point numbers", "statement": "Numbers of points, iterations, processes' shares and restarts that the code computes through floating point division or multiplication (np.ceil(n / q), int(n / q), and values such as '2.5d' times the dimension) are the ones of exact arithmetic, rounded up or down.", "quantifier": "all counts below 2^53, all divisors, all binary formats; all decimal numbers for products", "why_tests_cant": "the wrong results are isolated: 8.2 * 15 truncates to 122, and no small set of values shows that divisions are always right", "anchors": ["gpry/run.py:817", "gpry/run.py:1100-1109", "gpry/mpi.py:98-101", "gpry/tools.py:212-230", "gpry/progress.py:171-172"]}
{"id": "C148", "title": "Normalised targets and repeated points in floating point arithmetic", "statement": "With rounding, Normalize_y keeps the order of the targets and is undone by inverse_transform up to a few units in the last place, and targets without spread are recognised as such. check_candidates finds every candidate that is a training point (within its tolerance 1e-8 in the unit cube) and no other.", "quantifier": "all targets, means and standard deviations without underflow; all lists of points in the unit cube", "why_tests_cant": "the failures depend on the last digits of the numbers: three targets of 0.1 have a standard deviation of 1.4e-17, three of 0.3 have none", "anchors": ["gpry/preprocessing.py:561-621", "gpry/tools.py:237-260"]}
{"id": "C149", "title": "The initial points come from the proposer asked for", "statement": "The proposer of the initial points is an instance given, or the class named ('reference', 'prior', 'uniform' or 'meancov', in any case, with or without the suffix 'Proposer') with the options given, on the prior bounds unless others are given; anything else is refused. The initial points are the first ones proposed that are within the prior bounds (and the own bounds of the proposer); the search ends as soon as there is one. include_mean makes the mean the first proposal of the main process, if within bounds, and changes no other proposal. The points are accepted by the likelihood in any dimension.", "quantifier": "For every value of initial_proposer, every name, all bounds and options, all states of the random generator, any number of points and draws, any process.", "why_tests_cant": "Tests build one or two proposers by name; they do not show that no other spelling or option is accepted, that no fitting draw is skipped for any sequence of draws, or that every likelihood of one parameter fails with the normal distribution.", "anchors": ["gpry/run.py:406-444", "gpry/run.py:1122-1140", "gpry/proposal.py:19-160", "gpry/proposal.py:218-255", "gpry/tools.py:363-397"]}
{"id": "C150", "title": "The order of the parameters changes nothing but the order", "statement": "If the parameters are given in another order (with the bounds, the initial hyperparameters and the log-posterior in the same order), then every call of append_to_data raises or not as before, classifies the same points as finite, stores the same points and hyperparameters, in the other order, and the same targets; initial training and the loop evaluate the same points and end in the same iteration; kernels, predicted means and standard deviations and all acquisition functions have the same values, gradients come in the other order; so do the trust region and the mean and covariance of samples and of the training set; the divergence of normal distributions, the alignment and the distance from a normal distribution are the same.", "quantifier": "for all permutations, histories of calls, kernels, surrogates, points, acquisition functions, numbers of iterations", "why_tests_cant": "A relation between two runs for any permutation: tests use one order only, usually with parameters that play the same role.", "anchors": ["gpr.py:577-757", "gpr.py:1030-1352", "gpr.py:554-575", "kernels.py:257-709", "preprocessing.py:349-411", "tools.py:20-97", "tools.py:421-440", "convergence.py:703-707", "run.py:804-1198", "acquisition_functions.py:404-1074", "gpry/gp_acquisition.py:961-1137"]}
{"id": "C151", "title": "The divergence of the convergence criteria in double precision", "statement": "For positive definite covariance matrices, whatever the units of the parameters, the divergence that kl_norm computes in double precision is a number close to the true one, and GaussianKL accepts samples that have stopped changing.", "quantifier": "All dimensions, means, covariance matrices and units; all results of LAPACK within the errors named; all histories of calls of GaussianKL", "why_tests_cant": "Tests use a few parameters of order one, whose determinants are far from the limits of double precision; the failures need many parameters, small units, or equal samples.", "anchors": ["gpry/tools.py:20-36", "gpry/convergence.py:474-525"]}
{"id": "C152", "title": "A threshold of n standard deviations is a number in double precision", "statement": "For every number of standard deviations n >= 0 and every number of dimensions, nstd_of_1d_nstd and delta_logp_of_1d_nstd (the relative threshold of the classifier for inf_threshold='ns') are finite, and the probability out of the radius is the one-dimensional one of n sigmas up to rounding.", "quantifier": "All real n >= 0, all dimensions d >= 1, all lists of log-posteriors", "why_tests_cant": "Tests use a few standard deviations; the failure starts at 39.", "anchors": ["gpry/tools.py:100-118", "gpry/gpr.py:315-327", "gpry/gpr.py:1468-1473"]}
{"id": "C153", "title": "Several evaluations of the same point", "statement": "With fixed hyperparameters and preprocessors, several rows of the training set at the same point (values y_i, noise levels s_i, none zero) give the same means and standard deviations everywhere as one row with the mean of the values weighted with 1/s_i^2, and noise level s with 1/s^2 the sum of the 1/s_i^2. With N rows of noise level s the standard deviation at the point is at most s/sqrt(N). Without noise the same point twice makes the decomposition of the kernel matrix impossible.", "quantifier": "every training set, every kernel, every point, every number of evaluations with any values and noise levels", "why_tests_cant": "Matrix identities of every size.", "anchors": ["gpry/gpr.py:GaussianProcessRegressor.append_to_data", "gpry/gpr.py:GaussianProcessRegressor._update_model", "gpry/gpr.py:GaussianProcessRegressor.predict"]}
{"id": "C154", "title": "What the fit of the hyperparameters sees of the training set", "statement": "The log-marginal likelihood maximised by the fit does not depend on the order of the training points; appending a point adds the logarithm of the normal density that the regressor predicted for its value (mean predicted, variance predicted plus noise), so that the whole is the sum of these over the evaluations in their order; any number of evaluations of one point change it by an amount that depends neither on the kernel nor on the rest of the training set with respect to their weighted mean, so the hyperparameters preferred are the same.", "quantifier": "every training set, every kernel and family of kernels, every point, value and noise level, every order", "why_tests_cant": "Identities of determinants and quadratic forms of every size.", "anchors": ["gpry/gpr.py:GaussianProcessRegressor.log_marginal_likelihood", "gpry/gpr.py:GaussianProcessRegressor.fit_gpr_hyperparameters"]}
{"id": "C155", "title": "LogExp in double precision", "statement": "With every operation rounded to double precision, LogExp is minus infinity exactly where the standard deviation does not exceed the noise level or the mean is not finite; a point with larger mean and standard deviation never gets a smaller value, and gets a larger one.", "quantifier": "every mean, standard deviation, noise level, zeta and baseline, every precision and exponent range, every monotone implementation of the logarithm", "why_tests_cant": "Rounding errors of all numbers; tests compare with tolerances.", "anchors": ["gpry/acquisition_functions.py:BaseLogExp.__call__", "gpry/acquisition_functions.py:LogExp.f"]}
{"id": "C156", "title": "The progress table of a run", "statement": "After a run that does not raise, the progress table of each process has one row for the initial training and one per iteration. n_total of a row is the number of true-posterior evaluations made before it, that is, the sum of the previous entries of evals_truth; all entries of evals_truth (missing ones as 0) add up to the number of evaluations of the true posterior, which is the number of points in the surrogate. The tables of all the processes are equal. False for surrogates that had points before the run (they are reported as evaluations), and the tables differ after an iteration with too few candidates (its row is never synchronised).", "quantifier": "all runs (candidates, outcomes of fits and convergence checks, number of iterations), all numbers of processes, all measured times and numbers", "why_tests_cant": "Tables of all processes over whole runs, including the retried acquisitions, would have to be compared; tests run one process.", "anchors": ["gpry/run.py:815-1009", "gpry/run.py:1071-1198", "gpry/progress.py:58-164"]}
{"id": "C157", "title": "The order of the training points changes nothing but the order", "statement": "If the points given to each call of append_to_data are given in another order (with their values and noise levels), each call succeeds or raises the same exception as before, and afterwards training set, transformed training set, noise levels and excluded points are the same up to the order, with the same preprocessors, hyperparameters, number of points and number of newly added ones; predictions, predicted standard deviations, likelihood of the hyperparameters, trust region, and mean and covariance computed from the training set are equal. The points of the training set do not even depend on how the points are divided into calls, nor do preprocessors and transformed training set if each call refits them. NORA proposes the same batch. False for values that are NaN (the exception depends on the order), for calls that do not refit, and for CorrectCounter, which restarts its count at each wrong prediction, and for BatchOptimizer, whose first optimisation starts from the last training point within the bounds (with the same last point it proposes the same batch).", "quantifier": "every history of calls, every configuration whose preprocessors, optimiser and Cholesky decomposition do not depend on the order; the preprocessors of the targets of gpry are shown to be of this kind", "why_tests_cant": "All permutations of all histories of calls; the order of results of MPI processes and of batches is arbitrary.", "anchors": ["gpry/gpr.py:577-753", "gpry/gpr.py:554-575", "gpry/gpr.py:1030-1352", "gpry/preprocessing.py:546-586", "gpry/preprocessing.py:667-683", "gpry/tools.py:400-440", "gpry/convergence.py:836-874", "gpry/gp_acquisition.py:270-500", "gpry/gp_acquisition.py:961-1137"]}
{"id": "C158", "title": "The noise that LogExp subtracts is that of the training set", "statement": "With sigma_n given, LogExp and NonlinearLogExp subtract it whatever the noise of the surrogate. With sigma_n=None they subtract the noise level of the surrogate or, if the points have levels of their own, the square root of the mean of their squares (alpha) over the training set: a value between the smallest and the largest level, independent of the order of the points, and of points that were classified as infinite.", "quantifier": "all surrogates, noise levels, histories, points", "why_tests_cant": "Needs individual noise levels, which the tests never pass; the statement is about all of them.", "anchors": ["gpry/acquisition_functions.py:893-896", "gpry/acquisition_functions.py:974-982", "gpry/gpr.py:684", "gpry/gpr.py:787-817"]}
{"id": "C159", "title": "Numbers reported while running", "statement": "The messages of a run (verbose >= 3) are right: each iteration banner shows the number of the iteration, the evaluations made so far and at most/exactly how many iterations are left; the messages on evaluations, fits, re-sampling and giving up show the true numbers of points, finite values, points added to the regressor and tries; and the final banner names the reason why the run stopped. False of the code for the announced iterations (a lower bound, not an upper one), for the points added to the regressor (the number of all new points is shown), for the initial training (earlier points are counted, and finite values below the classifier threshold are not), and for runs that give up (no final banner; 'no values' although some were proposed).", "quantifier": "all options, all sequences of acquisitions, evaluations, fits and convergence checks, all numbers of processes", "why_tests_cant": "messages are never checked by tests, and the wrong numbers only differ in runs with short acquisitions or with points classified as infinite", "anchors": ["gpry/run.py:806-825", "gpry/run.py:880-921", "gpry/run.py:1020-1040", "gpry/run.py:1172-1194", "gpry/run.py:1228-1235", "gpry/run.py:1294-1300"]}
{"id": "C160", "title": "Log-marginal likelihood that the regressor reports", "statement": "The attribute log_marginal_likelihood_value_ of the regressor (documented as the log-marginal likelihood of kernel_.theta; also what log_marginal_likelihood() without arguments returns, and what the runner prints after every call of append_to_data) is the log-marginal likelihood of the present training set at the present hyperparameters. It is so after every call that fits the hyperparameters. After calls that keep them (no fit asked for, or no finite point given) it is the value at the last fit, with the training set of that time, so it is right only if the new training set happens to have the same log-marginal likelihood.", "quantifier": "all training sets, kernels, optimisers that return the value at their result, and sequences of calls of append_to_data", "why_tests_cant": "Tests compare the value after a fit only; the error appears after histories of calls with and without fits.", "anchors": ["gpry/gpr.py:250-251", "gpry/gpr.py:740-752", "gpry/gpr.py:935-936", "gpry/gpr.py:988", "gpry/run.py:1272-1278"]}
{"id": "C161", "title": "Resuming a run continues it", "statement": "A run that is interrupted after an iteration whose checkpoint was saved, and resumed from that checkpoint, goes on as the run would have without the interruption: if the components (acquisition, truth, fit, convergence, diagnosis) answer as they would have, it makes the same evaluations and ends in the same way and with the same surrogate. In particular, the hyperparameters are fitted in full every fit_full_every iterations, and a run that was saved as converged evaluates nothing more.", "quantifier": "all options, components, numbers of iterations before the interruption and after, any number of sessions of any lengths", "why_tests_cant": "Tests run at most one short resume and compare the end; schedules across many interruptions cannot be enumerated.", "anchors": ["gpry/run.py:262-264", "gpry/run.py:282", "gpry/run.py:805", "gpry/run.py:812-815", "gpry/run.py:1009-1010", "gpry/run.py:1252-1260"]}
{"id": "C162", "title": "Initial points are different, and a warning says if they are close", "statement": "The points of the initial training are made with different random numbers, so that each process evaluates points of its own, also if a numpy Generator is passed as seed (the documentation of seed allows it); and run warns that initial training points are very close to each other exactly if two of them are closer than 1e-10.", "quantifier": "all numbers of processes, rounds, points per process, proposers, seeds, and training sets", "why_tests_cant": "Tests are run in one process and do not look at the warning; repetitions between processes need several processes with the same generator.", "anchors": ["gpry/mpi.py:42-43", "gpry/run.py:217", "gpry/run.py:791-800", "gpry/run.py:1117-1150"]}
{"id": "C163", "title": "Preprocessors are fitted together with the hyperparameters", "statement": "The fit method of the preprocessors is only called when the hyperparameters of the GP are refit (documentation of GaussianProcessRegressor), and then with the training set of that fit; append_to_data returns the regressor.", "quantifier": "for all states of the regressor, preprocessors, optimisers, and calls of append_to_data", "why_tests_cant": "It depends on combinations of options (fit_gpr, fit_classifier, points or none) and on data; tests look at few of them, and not at which units the hyperparameters are in.", "anchors": ["gpry/gpr.py:GaussianProcessRegressor.append_to_data", "gpry/gpr.py:GaussianProcessRegressor"]}
{"id": "C164", "title": "Points predicted to be infinite are not proposed", "statement": "No point that multi_add of NORA returns is one that the surrogate's classifier says infinite, or one outside of the trust region, or one whose predicted standard deviation is not above the noise level; and something is returned if the sample has any other point. multi_add of BatchOptimizer (with LogExp) returns a point with an infinite prediction only if the acquisition function is a number at none of the proposals of any restart, nor at the training point from which the first one starts.", "quantifier": "every fitted surrogate (any number of training points, kernel, classifier, trust region), every sample, any number of processes, every call (new or reweighted sample); every optimiser, proposals and number of restarts", "why_tests_cant": "Whether an excluded point is proposed depends on the classifier, the trust region, the sample and the ranking at each call; a test sees a few, and the fallback of BatchOptimizer is rare.", "anchors": ["gpry/gp_acquisition.py:388-500", "gpry/gp_acquisition.py:961-1108", "gpry/gp_acquisition.py:1110-1125", "gpry/acquisition_functions.py:1069-1074", "gpry/gpr.py:1104-1229", "doc/source/gpr.rst"]}
{"id": "C165", "title": "NORA ranks with the values of its acquisition function", "statement": "The values with which NORA ranks the points of its sample are those that the acquisition function returns when it is called with the surrogate and the same points.", "quantifier": "every surrogate, every array of points, both acquisition functions that NORA accepts, every zeta, sigma_n and noise level", "why_tests_cant": "NORA does not call the acquisition function but its static method f with its own arguments; on tests with a single noise level and no sigma_n both agree.", "anchors": ["gpry/gp_acquisition.py:1047-1053", "gpry/gp_acquisition.py:1110-1125", "gpry/acquisition_functions.py:936-992", "gpry/acquisition_functions.py:1069-1074", "gpry/acquisition_functions.py:1126-1128"]}
{"id": "C166", "title": "Points of the training set are not proposed again", "statement": "With LogExp or NonlinearLogExp, no point that is already in the training set of the surrogate is proposed again: the acquisition function is minus infinity there, NORA returns none of these points whatever its sample, and BatchOptimizer returns neither one of them nor, in the same batch, a point proposed before.", "quantifier": "every kernel, every training set, every transformation of the targets, every noise level, every sample of NORA, every number of processes, every batch size and every local optimiser", "why_tests_cant": "That the predicted standard deviation at a training point is not above the noise level is a statement on inverses of matrices of any size; tests look at single fits. Which of the points of a batch count depends on the lies.", "anchors": ["gpry/acquisition_functions.py:936-992", "gpry/acquisition_functions.py:1069-1074", "gpry/acquisition_functions.py:1126-1128", "gpry/gp_acquisition.py:1047-1053", "gpry/gp_acquisition.py:270-500", "gpry/gpr.py:577-780"]}
{"id": "C167", "title": "A batch of NORA is a Kriging-believer ranking of the Gaussian process, without repeated points", "statement": "Conditioned to the points that the pool already holds (appended to a copy of the surrogate with the values predicted at them, nothing refitted), the acquisition function LogExp or NonlinearLogExp is never larger anywhere, which RankedPool relies on to discard points and to stop looking; it is minus infinity at the points of the pool and of the training set. Therefore NORA.multi_add returns, for any number of processes, a Kriging-believer ranking: given the points before it each point has a value above minus infinity and none after it has a larger one; and no point is returned twice, even if it is several times in the sample.", "quantifier": "all kernels, training sets, noise levels, zeta, samples, numbers of processes and of points", "why_tests_cant": "that lies never increase the acquisition function is a fact about positive definite matrices for every training set; tests see single batches in which an inversion or a repeated point is not visible", "anchors": ["gpry/gp_acquisition.py:1340-1385", "gpry/gp_acquisition.py:1410-1500", "gpry/gp_acquisition.py:1522-1557", "gpry/gpr.py:683-743", "gpry/gpr.py:1303-1352"]}
{"id": "C168", "title": "The number of processes and the points proposed", "statement": "The points proposed from the same sample or the same starting points do not depend on how many MPI processes run: BatchOptimizer proposes the same batch with any number of processes; NORA proposes the same first point (hence the same batch of one point) with any two numbers of processes if acquisition values are distinct, and, if the share of each process fits in its pool, the greedy Kriging-believer selection among the whole sample, hence the same batch. False for NORA in general: one-by-one insertion in descending order of the acquisition (the method that NORA uses) drops candidates that a point inserted later makes the best ones, so that one process and two processes propose different batches from the same sample, and the batch of a single process is not the greedy selection.", "quantifier": "every number of processes, every distribution of the sample among them, every sample, surrogate and acquisition function without NaN and infinite values", "why_tests_cant": "All numbers of processes and all samples; a test compares a few runs, in which the random generators of the processes differ anyway.", "anchors": ["gpry/gp_acquisition.py:388-500", "gpry/gp_acquisition.py:961-1191", "gpry/gp_acquisition.py:1287-1520", "gpry/mpi.py:108-120"]}
{"id": "C169", "title": "Saving a convergence criterion does not affect its decisions", "statement": "After any sequence of calls of is_converged (with and without MCMC runs, successful or not), copies and continuations with a copy, a GaussianKL-type criterion can be deep-copied and pickled (no function is left in the copy); the original and the copy afterwards return the same as if no copy had been made; and copying leaves the original as it was.", "quantifier": "All histories of calls, saves and resumptions, all criteria that store the input of their MCMC runs", "why_tests_cant": "A test saves once; whether the replacement of the stored likelihood fails (missing key) or changes later decisions depends on the order of successful and failed MCMC runs and of saves.", "anchors": ["gpry/convergence.py:527-540", "gpry/convergence.py:430-472", "gpry/mc.py:99-107", "gpry/io.py:146-147"]}
{"id": "C170", "title": "Copies of the ranked pool, and pools without cached models", "statement": "RankedPool.copy(drop_empty=True) contains just the points of the pool, in order, with their conditioned values; its length and its printed content are those of these points; copying it again changes nothing. Deleting the cached models with reset_cache does not change what adding further points does.", "quantifier": "every history of one-by-one insertions into a new pool, every pool size, every conditioning function; for reset_cache every pool and point", "why_tests_cant": "The error depends on whether the pool is full and on where in the ranking a point falls; tests use full pools.", "anchors": ["gpry/gp_acquisition.py:1234-1288", "gpry/gp_acquisition.py:1557-1596", "gpry/gp_acquisition.py:1097"]}
{"id": "C171", "title": "The predictions returned by BatchOptimizer are those of the surrogate", "statement": "The values that BatchOptimizer.multi_add returns together with the proposed points ('the predicted values of the GP at the proposed sampling locations', which the run compares with the true values to decide on convergence) are equal to gpr.predict at these points, for the surrogate gpr passed to it, with any number of processes.", "quantifier": "every kernel, training set, noise level, clip factor, batch size, local optimiser, number of processes", "why_tests_cant": "the values are predicted by a copy to which the previous points of the batch have been appended; that this changes nothing is a fact about inverses of matrices of any size, and it stops being true only where a previous prediction was clipped or where the copy differs from the original, which tests with well-behaved predictions do not reach", "anchors": ["gpry/gp_acquisition.py:397-500", "gpry/gpr.py:1185-1201", "gpry/gpr.py:1354-1433"]}
{"id": "C172", "title": "CorrectCounter judges the surrogate, not the lies of the batch optimiser", "statement": "If the points of an iteration are proposed by BatchOptimizer, CorrectCounter.is_converged gives the same answer, and leaves the same counter, as if pred_y were gpr.predict at the proposed points (of the surrogate before the new points are added), also after points that are repeated or already in the training set have been removed.", "quantifier": "every surrogate, batch, set of removed points, tolerances, previous state of the counter", "why_tests_cant": "the values passed as pred_y come from a copy of the surrogate with other settings and with lies in its training set; a test of the criterion passes pred_y by hand, and a test of a whole run only sees when it stops", "anchors": ["gpry/run.py:838-878", "gpry/run.py:937-939", "gpry/convergence.py:840-874", "gpry/gp_acquisition.py:397-500"]}
{"id": "C173", "title": "Numbers with a unit whose value is not known", "statement": "get_Xnumber(value, letter, None, dtype=float), as used for inf_threshold, returns (a, True, None) for 'aX', (a, True, p) for 'aXp', (1, True, None) for 'X' and (a, False, None) for a number without the letter; and for every value of X, get_Xnumber(value, letter, X, dtype=float) is a*X^p, a*X or a accordingly, and raises the same exception if one is raised.", "quantifier": "every value (number, string, other), letter and value of the unit", "why_tests_cant": "all strings and all values of the unit", "anchors": ["gpry/tools.py:get_Xnumber", "gpry/gpr.py:319-327"]}
