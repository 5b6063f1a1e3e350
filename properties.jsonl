{"id": "C01", "title": "Response normalisation maps onto [0,10] and keeps the ranking", "statement": "utils_bo.normalize_min_max(Y) returns, for any non-constant Y, a column of the same length whose values lie in [0,10], whose minimum is exactly 0 and maximum exactly 10, and in which y_i < y_j holds exactly when it held before (so every minimiser index is kept); a constant Y is returned unchanged; an empty Y is an error.", "quantifier": "every finite column of real responses, of any length and scale", "why_tests_cant": "A test checks a few arrays; order preservation and the exact endpoints are claims about all arrays and all scales.", "anchors": ["bayeso/utils/utils_bo.py:normalize_min_max", "bayeso/constants.py:MULTIPLIER_RESPONSE"]}
{"id": "C02", "title": "Response normalisation ignores units", "statement": "normalize_min_max(a*Y+b) = normalize_min_max(Y) for every a>0 and b whenever Y is not constant, and normalising twice equals normalising once (what this means for a step of the optimiser is C61).", "quantifier": "every non-constant column, every a>0, every b", "why_tests_cant": "Equality over a continuum of rescalings cannot be sampled.", "anchors": ["bayeso/utils/utils_bo.py:normalize_min_max"]}
{"id": "C03", "title": "The best of the candidate starts is really the best", "statement": "get_best_acquisition_by_evaluation(initials, f) returns a row of initials whose value under f is no larger than the value of every other row that is not NaN, the first such row on ties; it fails (None is indexed) exactly when no row has a value strictly below +inf.", "quantifier": "every list of candidates and every objective, including objectives returning NaN or infinities", "why_tests_cant": "Tests use well-behaved objectives; the claim ranges over all objectives including NaN and +-inf.", "anchors": ["bayeso/utils/utils_bo.py:get_best_acquisition_by_evaluation"]}
{"id": "C04", "title": "The incumbent returned from a history is a true minimum", "statement": "get_best_acquisition_by_history(X, Y) returns (X[i], Y[i]) for the smallest index i that minimises Y; if Y contains NaN it returns the first NaN row instead; it fails exactly when the history is empty or the lengths differ.", "quantifier": "every history of any length", "why_tests_cant": "Tests fix a history; pairing of the row with its value and first-index tie-breaking are claims for all histories.", "anchors": ["bayeso/utils/utils_bo.py:get_best_acquisition_by_history"]}
{"id": "C05", "title": "The next query is the best non-duplicated candidate", "statement": "get_next_best_acquisition(points, acqs, evaluated) returns a candidate farther than or equal to 1e-8 from every evaluated point, with the smallest acquisition value among such candidates (first on ties); when every candidate duplicates an evaluated point it returns the last evaluated point; it returns None exactly when survivors exist but none has a value strictly below +inf.", "quantifier": "every candidate set, acquisition vector (with NaN/inf) and evaluated set", "why_tests_cant": "The deletion loop rewrites two parallel arrays; that they stay aligned for every interleaving of duplicates is not testable by samples.", "anchors": ["bayeso/utils/utils_bo.py:get_next_best_acquisition", "bayeso/constants.py:TOLERANCE_DUPLICATED_ACQ"]}
{"id": "C06", "title": "A run never alters, drops or reorders what was already observed", "statement": "BayesianOptimization.optimize_with_all_initial_information(X, Y, T) that returns normally returns X_final and Y_final of length |X|+T whose first |X| rows are X and Y, and in which every appended Y_final[i] is the target value at X_final[i]; the target is called exactly T times, once per appended row and in that order.", "quantifier": "every surrogate, acquisition optimiser, target function, initial data and iteration count", "why_tests_cant": "The optimiser and target are arbitrary; a test runs one target with one seed for a few iterations.", "anchors": ["bayeso/wrappers/wrappers_bo_class.py:BayesianOptimization.optimize_with_all_initial_information", "bayeso/wrappers/wrappers_bo_class.py:BayesianOptimization.optimize_single_iteration"]}
{"id": "C07", "title": "Every proposed query lies in the search space", "statement": "If every initial row of X is inside range_X, every row the run appends is inside range_X, whatever the surrogate and whatever the acquisition optimiser returns (a candidate outside the bounds aborts the run instead of being evaluated).", "quantifier": "every run of every length, with arbitrary optimiser outputs", "why_tests_cant": "Needs an invariant over all iterations and all optimiser outputs.", "anchors": ["bayeso/bo/bo_w_gp.py:BOwGP.optimize", "bayeso/bo/bo_w_tp.py:BOwTP.optimize", "bayeso/bo/bo_w_trees.py:BOwTrees.optimize", "bayeso/utils/utils_bo.py:check_points_in_bounds", "bayeso/wrappers/wrappers_bo_class.py:BayesianOptimization._get_next_best_sample"]}
{"id": "C08", "title": "A run repeats a query only when every candidate is exhausted", "statement": "In a run, an appended row is at distance at least 1e-8 from every earlier row, unless all candidates proposed in that iteration were within 1e-8 of earlier rows, in which case the last evaluated row is queried again.", "quantifier": "every run of every length, with arbitrary optimiser outputs", "why_tests_cant": "Quantifies over all candidate sets that an optimiser might propose across iterations.", "anchors": ["bayeso/wrappers/wrappers_bo_class.py:BayesianOptimization._get_next_best_sample", "bayeso/utils/utils_bo.py:get_next_best_acquisition"]}
{"id": "C09", "title": "A longer run extends a shorter run", "statement": "With the same surrogate state, target and randomness, running T+S iterations is running T iterations and then S more from the data obtained: the result of the T-iteration run is a prefix of the longer run, and the smallest observed response never increases with the budget.", "quantifier": "every T, S, initial data, surrogate and target", "why_tests_cant": "Tests compare at most two budgets; the claim is for all pairs of budgets.", "anchors": ["bayeso/wrappers/wrappers_bo_class.py:BayesianOptimization.optimize_with_all_initial_information"]}
{"id": "C10", "title": "A failing iteration raises and never fabricates data", "statement": "If the surrogate step or candidate choice fails in iteration k, the run raises that error, the target has been called exactly on the rows chosen in iterations 1..k-1 and on nothing else, and no result is returned.", "quantifier": "every failure point in every run", "why_tests_cant": "Tests inject at most a few failures; the claim covers all points of failure.", "anchors": ["bayeso/wrappers/wrappers_bo_class.py:BayesianOptimization.optimize_with_all_initial_information"]}
{"id": "C11", "title": "Timing vectors line up with the evaluations", "statement": "optimize_with_initial_inputs(X, T) evaluates the target on the rows of X in order and then T more times, and returns X_final, Y_final and time_all_final of the same length |X|+T, and acquisition/surrogate times of length T; optimize_with_all_initial_information returns time vectors of length T.", "quantifier": "every initial set, iteration count and clock", "why_tests_cant": "Shape agreement must hold for every size, including zero iterations.", "anchors": ["bayeso/wrappers/wrappers_bo_class.py:BayesianOptimization.optimize_with_initial_inputs", "bayeso/wrappers/wrappers_bo_class.py:BayesianOptimization.optimize"]}
{"id": "C12", "title": "Function-style and class-style APIs perform the same run", "statement": "wrappers_bo_function.run_single_round_with_all_initial_information on a BOwGP object and BayesianOptimization.optimize_with_all_initial_information with the same surrogate steps, target and clock produce the same X, Y and time vectors.", "quantifier": "every surrogate state, target, initial data and iteration count", "why_tests_cant": "Equivalence of two loops over all inputs.", "anchors": ["bayeso/wrappers/wrappers_bo_function.py:run_single_round_with_all_initial_information", "bayeso/wrappers/wrappers_bo_class.py:BayesianOptimization.optimize_with_all_initial_information"]}
{"id": "C13", "title": "Samples and initial points lie in the search space", "statement": "BaseBO.get_samples with 'uniform', 'gaussian', 'sobol', 'halton' or 'grid' returns only points inside range_X, whatever the random draws (unit draws in [0,1], any normal draws); get_initials accepts all of these but 'grid'.", "quantifier": "every search space with lower <= upper, every draw, every number of samples", "why_tests_cant": "Randomised outputs: a test sees finitely many draws.", "anchors": ["bayeso/bo/base_bo.py:BaseBO.get_samples", "bayeso/bo/base_bo.py:BaseBO.get_initials"]}
{"id": "C14", "title": "The requested number of samples is returned", "statement": "get_samples(method, num_samples=n) returns n points of dimension d for every method. (Violated by 'grid', which returns n**d points; the four random methods satisfy it.)", "quantifier": "every n, every dimension, every method", "why_tests_cant": "The defect is invisible when d = 1, the case that is usually tested.", "anchors": ["bayeso/bo/base_bo.py:BaseBO.get_samples", "bayeso/bo/base_bo.py:BaseBO._get_samples_grid"]}
{"id": "C15", "title": "A grid is exactly the Cartesian product of evenly spaced axes", "statement": "get_grids(ranges, n) lists each combination of the per-axis evenly spaced values exactly once (n**d rows); for n >= 2 both ends of every axis occur, consecutive axis values are equally spaced; for n = 1 only the lower ends occur.", "quantifier": "every number of axes, every n, every range", "why_tests_cant": "meshgrid ordering and completeness need a claim for all dimensions.", "anchors": ["bayeso/utils/utils_common.py:get_grids"]}
{"id": "C16", "title": "The best-so-far curve", "statement": "get_minimum(Y_all, num_init) gives for every repetition a curve with t-num_init+1 entries, entry k being the minimum of the first num_init+k observations of that repetition (NaN observations being ignored), so every curve is non-increasing and ends in the overall minimum; mean and standard deviation are taken over repetitions entry by entry.", "quantifier": "every number of repetitions, rounds and initial observations", "why_tests_cant": "A running-minimum invariant over all sequences.", "anchors": ["bayeso/utils/utils_common.py:get_minimum"]}
{"id": "C17", "title": "The elapsed-time curve", "statement": "get_time(time_all, num_init, include_init) gives a curve that starts at 0, has one entry more than the number of rounds counted, is the running sum of the per-round times averaged over repetitions, and never decreases when times are non-negative; when the initial observations are part of the array their times are left out.", "quantifier": "every shape of the timing array and every num_init", "why_tests_cant": "Shape/prefix-sum claim over all sizes.", "anchors": ["bayeso/utils/utils_common.py:get_time"]}
{"id": "C18", "title": "Plots pair every time stamp with its best-so-far value", "statement": "plot_minimum_vs_time draws curves whose x data (get_time) and y data (get_minimum) have equal lengths whenever its input checks pass and the number of initial points is below the number of rounds; with num_init equal to the number of rounds the checks pass but get_minimum fails.", "quantifier": "every shape of the two arrays admitted by the assertions", "why_tests_cant": "The two helpers are tested separately; their agreement over all shapes is not.", "anchors": ["bayeso/utils/utils_plotting.py:plot_minimum_vs_time", "bayeso/utils/utils_common.py:get_minimum", "bayeso/utils/utils_common.py:get_time"]}
{"id": "C19", "title": "Hyperparameter vectors and dictionaries round-trip", "statement": "restore_hyps(convert_hyps(h)) = h for every valid dictionary h with one lengthscale per dimension (GP and TP, noise free), and with a fixed noise every field but the noise survives while the noise becomes the value handed to restore_hyps; conversely convert_hyps(restore_hyps(v)) = v. Conversion succeeds exactly when every key that is read is present with a float (the lengthscales with a float or an array).", "quantifier": "every dictionary and every vector, every dimension and flag combination", "why_tests_cant": "The vector layout depends on three flags and the dimension; all combinations and all dimensions are claimed.", "anchors": ["bayeso/utils/utils_covariance.py:convert_hyps", "bayeso/utils/utils_covariance.py:restore_hyps"]}
{"id": "C20", "title": "Optimiser bounds line up with the hyperparameter vector", "statement": "get_range_hyps returns exactly one [low, high] row for each entry of convert_hyps(get_hyps(...)), in the same order, low < high, and every default value lies inside its row, for every dimension and flag combination.", "quantifier": "every covariance name, dimension, fix_noise, use_ard and GP/TP flag", "why_tests_cant": "Alignment across two independently written functions for all dimensions.", "anchors": ["bayeso/utils/utils_covariance.py:get_range_hyps", "bayeso/utils/utils_covariance.py:get_hyps", "bayeso/utils/utils_covariance.py:convert_hyps"]}
{"id": "C21", "title": "Dictionary validation accepts exactly well-formed hyperparameters", "statement": "validate_hyps_dict accepts a dictionary exactly when signal is present and a float, lengthscales is present and is an array of length dim or a float, noise is present and a float, and (TP) dof is present and a float; it changes nothing but clamping |noise| >= upper bound and dof <= 2, and is idempotent. validate_hyps_arr accepts no array: it raises NotImplementedError for a known covariance function and fails its assertion otherwise.", "quantifier": "every dictionary with any subset of keys and any kind of values", "why_tests_cant": "The branches interleave flag updates and mutation; acceptance is a claim over all dictionaries.", "anchors": ["bayeso/utils/utils_covariance.py:validate_hyps_dict", "bayeso/utils/utils_covariance.py:validate_hyps_arr"]}
{"id": "C22", "title": "Hyperparameter search stops for good after convergence", "statement": "In 'converged' mode, once a kernel fit is judged converged no later call to optimize on the same object searches hyperparameters again; every later call uses the last stored hyperparameters; the history grows by exactly one entry per call that gets past kernel fitting.", "quantifier": "every sequence of calls with every outcome of the numerical optimiser", "why_tests_cant": "A temporal property over unbounded sequences of calls.", "anchors": ["bayeso/bo/bo_w_gp.py:BOwGP.optimize", "bayeso/utils/utils_bo.py:check_hyps_convergence"]}
{"id": "C23", "title": "'combined' keeps the better of two fits", "statement": "In 'combined' mode the kernel used is the one (BFGS or Nelder-Mead) with the smaller negative log marginal likelihood, BFGS on ties; it never uses hyperparameters worse than either fit; if both likelihoods are NaN or +inf the call fails.", "quantifier": "every pair of optimiser outcomes", "why_tests_cant": "Quantifies over all optimiser outcomes including NaN.", "anchors": ["bayeso/bo/bo_w_gp.py:BOwGP.optimize"]}
{"id": "C24", "title": "Covariance matrices are symmetric, non-negative and bounded by the signal variance", "statement": "cov_main(name, X, X, hyps, same=True) is symmetric, every entry off the diagonal is in [0, signal^2] and positive unless the signal is zero, every diagonal entry is signal^2 + jitter, and cov_main(X, Xp) is the transpose of cov_main(Xp, X).", "quantifier": "all four kernels, all inputs, all non-zero lengthscales, all signals", "why_tests_cant": "Holds for all real inputs and hyperparameters.", "anchors": ["bayeso/covariance.py:cov_main", "bayeso/covariance.py:cov_se", "bayeso/covariance.py:cov_matern32", "bayeso/covariance.py:cov_matern52"]}
{"id": "C25", "title": "Every covariance function is positive semi-definite", "statement": "For 'se'/'eq', 'matern32' and 'matern52' and any finite set of inputs (repeated points allowed) the matrix without jitter has only non-negative quadratic forms, and with positive jitter or noise it is positive definite.", "quantifier": "every number of points, every dimension, all points, all hyperparameters", "why_tests_cant": "Positive definiteness of the Matern kernels is a theorem of analysis; eigenvalues of samples settle nothing.", "anchors": ["bayeso/covariance.py:cov_se", "bayeso/covariance.py:cov_matern32", "bayeso/covariance.py:cov_matern52", "bayeso/covariance.py:cov_main"]}
{"id": "C26", "title": "Covariances depend only on scaled differences", "statement": "Covariances are unchanged when all inputs are translated by the same vector, when inputs and lengthscales are rescaled together, and when an isotropic lengthscale is replaced by the constant vector; scaling the signal by c scales them by c^2; permuting the inputs permutes rows and columns; 'eq' and 'se' are the same kernel.", "quantifier": "all inputs, shifts, scales and permutations", "why_tests_cant": "Equalities over a continuum.", "anchors": ["bayeso/covariance.py:cov_main", "bayeso/covariance.py:choose_fun_cov"]}
{"id": "C27", "title": "Covariances decrease with distance", "statement": "For each kernel, moving a point so that its scaled distance to another grows never increases their covariance, strictly decreases it when the distance strictly grows and signal is non-zero, and the covariance tends to 0.", "quantifier": "all pairs of points and hyperparameters", "why_tests_cant": "Monotonicity over a continuum.", "anchors": ["bayeso/covariance.py:cov_se", "bayeso/covariance.py:cov_matern32", "bayeso/covariance.py:cov_matern52"]}
{"id": "C28", "title": "Set covariance is the average over element pairs", "statement": "For 'set_*' names cov_main gives, for every pair of sets, the average of the base covariance over all pairs of elements: symmetric under same=True, independent of the order of the elements, equal to the base kernel on singletons and positive semi-definite.", "quantifier": "every collection of equally sized non-empty sets", "why_tests_cant": "The double loop with in-place updates and mirrored writes must be right for all index pairs.", "anchors": ["bayeso/covariance.py:cov_set", "bayeso/covariance.py:cov_main"]}
{"id": "C29", "title": "Kernel gradients are the true derivatives", "statement": "grad_cov_main returns, for each hyperparameter in the order of convert_hyps, the partial derivative of the kernel matrix (noise included) with respect to it, for SE, Matern 3/2 and 5/2. (Holds entry by entry except for the diagonal of the signal derivative, which the code computes from the jittered matrix and is off by 2*jitter/signal.)", "quantifier": "all inputs, all positive hyperparameters, isotropic and ARD, fixed and free noise", "why_tests_cant": "Finite differences at sample points cannot establish a derivative identity and miss an error of order 1e-5.", "anchors": ["bayeso/covariance.py:grad_cov_main", "bayeso/covariance.py:grad_cov_se", "bayeso/covariance.py:grad_cov_matern32", "bayeso/covariance.py:grad_cov_matern52"]}
{"id": "C30", "title": "The kernel matrix of any data set can be inverted", "statement": "covariance.get_kernel_inverse never meets a singular matrix: for any inputs (duplicates included) and non-zero lengthscales it succeeds, returns the inverse of kernel + noise^2 I + jitter I, and both matrices are symmetric positive definite.", "quantifier": "every data set, every kernel, all hyperparameters", "why_tests_cant": "Singularity shows up only at special inputs such as duplicates.", "anchors": ["bayeso/covariance.py:get_kernel_inverse"]}
{"id": "C31", "title": "The Cholesky factor is a factor of the kernel matrix", "statement": "covariance.get_kernel_cholesky returns a lower-triangular L with positive diagonal and L L^T equal to the returned symmetric kernel matrix, and succeeds on the first attempt (no extra jitter) for all inputs and all four kernels.", "quantifier": "every data set, every kernel, all hyperparameters", "why_tests_cant": "The retry loop is for failures; that it is never entered in exact arithmetic is a universal claim.", "anchors": ["bayeso/covariance.py:get_kernel_cholesky"]}
{"id": "C32", "title": "Posterior covariance is a covariance", "statement": "gp.predict_with_cov returns a positive semi-definite posterior covariance, so its diagonal is non-negative, the clipping at 0 does nothing and every standard deviation is the square root of the posterior variance.", "quantifier": "every training set, test set, kernel and hyperparameters", "why_tests_cant": "Non-negativity of a Schur complement for all data.", "anchors": ["bayeso/gp/gp.py:predict_with_cov"]}
{"id": "C33", "title": "More data never increases uncertainty", "statement": "The posterior variance at any test point is at most the prior variance signal^2 + jitter, and adding training points with the same hyperparameters never increases it.", "quantifier": "every training set, every extension, every test point", "why_tests_cant": "Universal monotonicity.", "anchors": ["bayeso/gp/gp.py:predict_with_cov", "bayeso/gp/gp.py:predict_with_hyps"]}
{"id": "C34", "title": "Posterior mean follows the data linearly and ignores row order", "statement": "The posterior mean is linear in the responses (zero prior mean), adding a constant prior mean and the same constant to the responses shifts it by that constant, reordering the training rows changes neither mean nor covariance, and each test row's mean and standard deviation do not depend on the other test rows.", "quantifier": "every training set, permutation and test set", "why_tests_cant": "Equalities over all data and permutations.", "anchors": ["bayeso/gp/gp.py:predict_with_cov", "bayeso/utils/utils_gp.py:get_prior_mu"]}
{"id": "C35", "title": "Posterior mean is the best linear predictor", "statement": "Among all linear combinations of the training responses, the weights used for the posterior mean at a test point minimise the mean squared prediction error under the prior with kernel + (noise^2+jitter) I, and the returned variance is that minimal error.", "quantifier": "every training set, test point and all weight vectors", "why_tests_cant": "Optimality over all competitors.", "anchors": ["bayeso/gp/gp.py:predict_with_cov"]}
{"id": "C36", "title": "The reported likelihood is the Gaussian log density", "statement": "gp_likelihood.neg_log_ml (inverse path) equals minus the log of the multivariate normal density of the responses under the fitted kernel and prior mean, divided by the number of responses; the Cholesky path equals the same with log(L_ii) replaced by log(L_ii + 1e-7).", "quantifier": "every data set, hyperparameter vector and kernel", "why_tests_cant": "A closed-form identity over all inputs.", "anchors": ["bayeso/gp/gp_likelihood.py:neg_log_ml"]}
{"id": "C37", "title": "The likelihood gradient is the derivative of the likelihood", "statement": "The gradient returned by neg_log_ml is the gradient of the returned value with respect to each hyperparameter. (Exactly the derivative of the exact Gaussian likelihood for noise and lengthscales; the signal entry differs through the jitter term, and on the Cholesky path the value contains the 1e-7 offset.)", "quantifier": "every data set and hyperparameter vector", "why_tests_cant": "Finite differences cannot prove a derivative identity.", "anchors": ["bayeso/gp/gp_likelihood.py:neg_log_ml", "bayeso/covariance.py:grad_cov_main"]}
{"id": "C38", "title": "Leave-one-out scores come from true leave-one-out predictions", "statement": "neg_log_pseudo_l_loocv scores each response with the mean that the GP without that response would predict and with its predictive variance (precision increased by 1e-5). (The prior mean argument is ignored, so the claim holds for zero prior mean only.)", "quantifier": "every data set", "why_tests_cant": "The shortcut formula through one inverse must equal n refits for every data set.", "anchors": ["bayeso/gp/gp_likelihood.py:neg_log_pseudo_l_loocv"]}
{"id": "C39", "title": "Student-t posterior", "statement": "tp.predict_with_cov returns dof + n degrees of freedom, the same mean as the GP with the same hyperparameters, and a covariance equal to the GP covariance times (dof - 2 + beta)/(dof - 2 + n) >= 0 with beta the Mahalanobis form of the responses, hence positive semi-definite for dof > 2.", "quantifier": "every data set and dof > 2", "why_tests_cant": "Identity over all data.", "anchors": ["bayeso/tp/tp.py:predict_with_cov"]}
{"id": "C40", "title": "Student-t likelihood and its gradient", "statement": "tp_likelihood.neg_log_ml equals minus the log density of the multivariate Student-t process divided by n, and its gradient is its derivative. (Violated for the dof entry: digamma terms lack the factor 1/2.)", "quantifier": "every data set, dof > 2", "why_tests_cant": "The wrong factor gives plausible numbers; only the derivative identity exposes it.", "anchors": ["bayeso/tp/tp_likelihood.py:neg_log_ml"]}
{"id": "C41", "title": "Probability of improvement is a probability of improvement", "statement": "With jitter 0 and positive standard deviation acquisition.pi equals the probability that a normal variable with the predicted mean and deviation falls below the best response; with any jitter it lies in [0,1] and decreases in the mean.", "quantifier": "all means, deviations > 0, responses", "why_tests_cant": "Identity with an integral over all parameters.", "anchors": ["bayeso/acquisition.py:pi"]}
{"id": "C42", "title": "Expected improvement is an expectation of improvement", "statement": "With jitter 0 and positive standard deviation acquisition.ei equals the expectation of max(best - y, 0) for y normal with the predicted mean and deviation, hence it is positive, non-increasing in the mean and non-decreasing in the deviation.", "quantifier": "all means, deviations > 0, responses", "why_tests_cant": "Identity with an integral over all parameters.", "anchors": ["bayeso/acquisition.py:ei"]}
{"id": "C43", "title": "Expected improvement is never negative", "statement": "acquisition.ei returns non-negative values. (Violated with the default jitter; what holds: a value is never below -jitter*phi(0) nor below best - mean - jitter*phi(0), and it is non-negative when the mean does not exceed the best response.)", "quantifier": "all means, deviations >= 0, positive jitter", "why_tests_cant": "The negative values are tiny and appear only far above the incumbent.", "anchors": ["bayeso/acquisition.py:ei", "bayeso/constants.py:JITTER_ACQ"]}
{"id": "C44", "title": "UCB and the pure strategies rank as documented", "statement": "ucb = -mean + kappa*std (log schedule when increase_kappa): larger for smaller mean and for larger deviation; pure_exploit picks the smallest mean, pure_explore the largest deviation; all of them act on each test point separately and in order.", "quantifier": "all prediction vectors", "why_tests_cant": "Monotonicity for all real inputs.", "anchors": ["bayeso/acquisition.py:ucb", "bayeso/acquisition.py:pure_exploit", "bayeso/acquisition.py:pure_explore"]}
{"id": "C45", "title": "Augmented EI discounts EI by a factor in [0,1]", "statement": "aei = ei * (1 - noise/sqrt(std^2+noise^2)): the factor is in [0,1], is below 1 for positive noise, equals 1 when noise is 0 and std > 0, decreases with noise; so |aei| <= |ei|.", "quantifier": "all means, deviations, noise levels", "why_tests_cant": "Bounds for all real inputs.", "anchors": ["bayeso/acquisition.py:aei"]}
{"id": "C46", "title": "Acquisition dispatch accepts exactly the documented names", "statement": "choose_fun_acquisition returns the function of the same name for the six allowed names and raises AssertionError for any other string; 'aei' additionally needs a noise; the NotImplementedError branch is unreachable.", "quantifier": "every string", "why_tests_cant": "All strings.", "anchors": ["bayeso/utils/utils_bo.py:choose_fun_acquisition", "bayeso/constants.py:ALLOWED_BO_ACQ"]}
{"id": "C47", "title": "A regression tree keeps every training pair in exactly one leaf", "statement": "Trees grown by trees_common.split hold every (x, y) pair of the training sample in exactly one leaf, with no empty leaf. (Violated by degenerate splits, which copy the whole sample to both children; it holds for every tree whose splits are all proper.)", "quantifier": "every training sample and every random choice of features and split locations", "why_tests_cant": "Random splits over all data sets.", "anchors": ["bayeso/trees/trees_common.py:split", "bayeso/trees/trees_common._split", "bayeso/trees/trees_common.py:_split_left_right"]}
{"id": "C48", "title": "Tree depth is bounded and every leaf is non-empty", "statement": "A tree grown with depth_max has depth at most max(depth_max, 1), growth always terminates, and no leaf is empty, so no prediction averages an empty list.", "quantifier": "every training sample and random choice", "why_tests_cant": "Termination and depth for all inputs.", "anchors": ["bayeso/trees/trees_common.py:split"]}
{"id": "C49", "title": "Tree predictions route to the leaf containing the point", "statement": "Predicting at a training input of a properly split tree reaches the leaf which holds that training pair; the prediction at any input is the mean of one leaf's responses, so it lies between the smallest and largest training response.", "quantifier": "every tree, every query point", "why_tests_cant": "Routing must agree with splitting for every threshold including ties.", "anchors": ["bayeso/trees/trees_common.py:_predict_by_tree", "bayeso/trees/trees_common.py:_split_left_right"]}
{"id": "C50", "title": "The chosen split is the best of the splits tried", "statement": "_split returns, among the feature/threshold pairs tried, the first one with the smallest sum of the two sides' mean squared errors (an empty side counts 1e8), and the reported left/right groups are the rows below and not below the threshold. Without random locations the thresholds tried are midpoints of neighbouring feature values; when every midpoint of every feature is tried, no separating threshold at all does better. The 1e8 of an empty side is not beyond every error, though: with responses of 20000 a split which separates nothing can cost less than every split which does, and is chosen.", "quantifier": "every sample, every sequence of features and thresholds tried", "why_tests_cant": "Quantifies over all random candidate lists.", "anchors": ["bayeso/trees/trees_common.py:_split", "bayeso/trees/trees_common.py:mse"]}
{"id": "C51", "title": "Forest mean and deviation are those of the mixture of leaves", "statement": "predict_by_trees returns the average of the tree means and the square root of (average leaf variance + variance of the tree means), i.e. the standard deviation of drawing a tree and then one of its leaf responses uniformly (for leaves of arbitrary sizes); it is non-negative and the mean lies in the range of the training responses.", "quantifier": "every forest and every query point", "why_tests_cant": "The law of total variance as an identity for all forests.", "anchors": ["bayeso/trees/trees_common.py:compute_sigma", "bayeso/trees/trees_common.py:unit_predict_by_trees"]}
{"id": "C52", "title": "Batched prediction equals one-by-one prediction", "statement": "predict_by_trees splits the queries into chunks of 100 and concatenates; the result equals predicting every row separately in order, for any number of rows.", "quantifier": "every number of query rows", "why_tests_cant": "Off-by-one at chunk borders.", "anchors": ["bayeso/trees/trees_common.py:predict_by_trees"]}
{"id": "C53", "title": "Bootstrap samples keep inputs and responses paired", "statement": "subsample returns int(n*ratio) rows, each of them a row (x_i, y_i) of the data with the response of the same row; without replacement no row occurs twice.", "quantifier": "every data set, ratio and random index vector", "why_tests_cant": "Pairing for all index vectors.", "anchors": ["bayeso/trees/trees_common.py:subsample", "bayeso/trees/trees_random_forest.py:get_random_forest"]}
{"id": "C54", "title": "Thompson sampling queries the minimiser of the sampled function", "statement": "Each iteration of thompson_sampling_gp queries the test point at which the sampled function is smallest. (Violated: the sample matrix is (1, n) and the code takes the argmin of its first column, so it always queries the first test point.)", "quantifier": "every sampled function over two or more points", "why_tests_cant": "Any run returns a valid-looking result; only relating the query to the sample exposes the defect.", "anchors": ["bayeso/thompson_sampling.py:thompson_sampling_gp", "bayeso/gp/gp.py:sample_functions"]}
{"id": "C55", "title": "Thompson sampling keeps its data", "statement": "thompson_sampling_gp_iteration/loop appends one row per iteration, keeps earlier rows and pairs each with the objective value, all appended rows are test points in the bounds.", "quantifier": "every objective, sample path and iteration count", "why_tests_cant": "Invariant over all iterations.", "anchors": ["bayeso/thompson_sampling.py:thompson_sampling_gp", "bayeso/thompson_sampling.py:thompson_sampling_gp_iteration"]}
{"id": "C56", "title": "A configuration accepted by the wrapper can run", "statement": "Every combination of surrogate, acquisition optimiser and covariance accepted by BayesianOptimization's own checks is accepted by the underlying model. (Violated: surrogate 'rf' with the default optimiser is rejected by BOwTrees, and 'random_search' with GP/TP surrogates passes the wrapper's check and is rejected below; the exact accepted table is proved.)", "quantifier": "every combination of strings", "why_tests_cant": "The product of the option lists is not tested, and default combinations are assumed fine.", "anchors": ["bayeso/wrappers/wrappers_bo_class.py:BayesianOptimization.__init__", "bayeso/bo/bo_w_gp.py:BOwGP.__init__", "bayeso/bo/bo_w_tp.py:BOwTP.__init__", "bayeso/bo/bo_w_trees.py:BOwTrees.__init__"]}
{"id": "C57", "title": "Optimiser fallback is always an available optimiser", "statement": "check_optimizer_method_bo returns the requested method, or 'L-BFGS-B' exactly when DIRECT or CMA-ES is requested but not installed or CMA-ES is requested in one dimension; the result is always allowed and runnable.", "quantifier": "every method name, dimension and set of installed packages", "why_tests_cant": "Depends on the environment (installed packages), which a test suite fixes.", "anchors": ["bayeso/utils/utils_bo.py:check_optimizer_method_bo"]}
{"id": "C58", "title": "Set covariances are usable for optimisation", "statement": "A BOwGP object accepted with a 'set_*' covariance can run optimize. (Violated: optimize insists on two-dimensional inputs and the kernel fit insists on three-dimensional ones, so every call raises.)", "quantifier": "every data set", "why_tests_cant": "Each check is sensible alone; that their conjunction is unsatisfiable is a universal claim.", "anchors": ["bayeso/bo/bo_w_gp.py:BOwGP.__init__", "bayeso/bo/bo_w_gp.py:BOwGP.optimize", "bayeso/utils/utils_covariance.py:check_str_cov"]}
{"id": "C59", "title": "Isotropic lengthscales work with every model-selection method", "statement": "use_ard=False works with 'ml' and 'loocv'. (Violated for 'loocv' in two or more dimensions: the vector is restored with the ARD layout, giving a lengthscale array of length one that validation rejects.)", "quantifier": "every data set with dimension > 1", "why_tests_cant": "The defect needs the interaction of two options.", "anchors": ["bayeso/gp/gp_likelihood.py:neg_log_pseudo_l_loocv", "bayeso/utils/utils_covariance.py:restore_hyps"]}
{"id": "C60", "title": "optimize returns its best candidate and aligned information", "statement": "BOwGP/BOwTP/BOwTrees.optimize returns a next point that is one of the returned candidates, inside the bounds and with the largest acquisition among them; the acquisitions array has one entry per candidate, entry i being minus ten times the acquisition of candidate i.", "quantifier": "every data set, every optimiser outcome", "why_tests_cant": "Alignment and optimality for all candidate lists.", "anchors": ["bayeso/bo/bo_w_gp.py:BOwGP.optimize", "bayeso/bo/bo_w_gp.py:BOwGP._optimize", "bayeso/bo/bo_w_tp.py:BOwTP.optimize", "bayeso/bo/bo_w_trees.py:BOwTrees.optimize"]}
{"id": "C61", "title": "Unit invariance of proposals with normalised responses", "statement": "With normalize_Y the proposal computed from responses Y equals the proposal computed from a*Y+b (a>0, Y not constant): the whole fit and acquisition see identical numbers. (In 'converged' mode the responses are never normalised, so the claim holds for the other modes only.)", "quantifier": "every data set, a>0, b, every optimiser behaviour", "why_tests_cant": "Metamorphic relation over a continuum through the complete pipeline.", "anchors": ["bayeso/bo/bo_w_gp.py:BOwGP.optimize", "bayeso/utils/utils_bo.py:normalize_min_max"]}
{"id": "C62", "title": "Loggers do not repeat messages", "statement": "get_logger(name) may be called many times (every model constructor does) and each message is printed once. (Violated: each call adds another handler to the same named logger, so after k calls a message is emitted k times.) Loggers of other names keep the level WARNING and what they write.", "quantifier": "every sequence of calls", "why_tests_cant": "Depends on process history.", "anchors": ["bayeso/utils/utils_logger.py:get_logger"]}
{"id": "C63", "title": "Array rendering keeps structure", "statement": "get_str_array renders 1-, 2- and 3-dimensional arrays with one bracket pair per axis and every entry exactly once in order; get_str_hyps lists every key of the dictionary once; other ranks are errors.", "quantifier": "every array", "why_tests_cant": "All shapes including empty axes.", "anchors": ["bayeso/utils/utils_logger.py:get_str_array", "bayeso/utils/utils_logger.py:get_str_hyps"]}
{"id": "C64", "title": "Step plots draw every training point exactly once", "statement": "plot_bo_step and plot_bo_step_with_acq split the training data into initial, later and newest points so that every row is drawn exactly once and in order, for every num_init (also negative or None); the only failures are fewer rows than num_init and no row at all.", "quantifier": "every number of training rows and every num_init", "why_tests_cant": "Boundary arithmetic of three slices over all lengths and all num_init.", "anchors": ["bayeso/utils/utils_plotting.py:plot_bo_step", "bayeso/utils/utils_plotting.py:plot_bo_step_with_acq"]}
{"id": "C65", "title": "The bounds check accepts exactly the points inside the box", "statement": "check_points_in_bounds returns its points unchanged exactly when every coordinate of every point lies between its lower and upper bound (ends included); otherwise it raises AssertionError.", "quantifier": "every list of points, every dimension, every bounds array", "why_tests_cant": "Either end and any coordinate of any row can be the offending one.", "anchors": ["bayeso/utils/utils_bo.py:check_points_in_bounds"]}
{"id": "C66", "title": "The covariance name check accepts exactly the right ranks", "statement": "check_str_cov passes exactly when the name is one of the four kernels on points and all shapes have rank 2, or one of the four set kernels and all shapes have rank 3; a wrong rank is an AssertionError, an unknown name a ValueError.", "quantifier": "every name, every rank, second shape given or not", "why_tests_cant": "The set of wrong names and ranks is infinite.", "anchors": ["bayeso/utils/utils_covariance.py:check_str_cov"]}
{"id": "C67", "title": "Prediction is exact Bayesian conditioning", "statement": "Under the Gaussian process prior given by the kernel, the prior mean function and the noise and jitter on the variances, the conditional distribution of the test values given the responses is the multivariate Gaussian whose mean vector and covariance matrix are exactly the ones predict_with_hyps returns; such a prior exists for every kernel, hyperparameters and inputs.", "quantifier": "every number and kind of inputs, every kernel, all hyperparameters, every prior mean function, almost every response vector", "why_tests_cant": "A statement about conditional distributions under a prior on an infinite space; a test compares a few numbers.", "anchors": ["bayeso/gp/gp.py:predict_with_hyps", "bayeso/gp/gp.py:predict_with_cov"]}
{"id": "C68", "title": "Student-t prediction is exact conditioning", "statement": "Under the Student-t process prior (a joint multivariate Student-t law of responses and test values with the kernel's covariances), which exists for every dof > 2, the conditional law of the test values given the responses is the multivariate Student-t with exactly the degrees of freedom, mean and covariance tp.predict_with_hyps returns.", "quantifier": "every data set, kernel, prior mean and dof > 2", "why_tests_cant": "A statement about conditional distributions, not about numbers.", "anchors": ["bayeso/tp/tp.py:predict_with_hyps", "bayeso/tp/tp.py:predict_with_cov"]}
{"id": "C69", "title": "The Cholesky retry loop uses the first jitter that works", "statement": "For any square matrix the loop of get_kernel_cholesky returns the matrix plus the first jitter of its list for which a lower-triangular factor with positive diagonal exists, together with that factor; it raises ValueError exactly when none of the jitters works.", "quantifier": "every matrix (also indefinite ones), every list of jitters", "why_tests_cant": "In exact arithmetic the first attempt never fails on kernel matrices, so the later attempts are only reached through rounding.", "anchors": ["bayeso/covariance.py:get_kernel_cholesky"]}
{"id": "C70", "title": "Unsuitable inputs are refused at the door", "statement": "cov_main raises AssertionError for every name outside the eight documented ones, for collections of different sizes declared to be the same, and for inputs of the wrong rank; get_prior_mu raises AssertionError exactly when the prior mean does not return one value per input. Predicting at sets from plain training inputs raises AssertionError for every documented covariance, predicting at plain inputs from sets raises IndexError, for both processes.", "quantifier": "every string, every pair of collections, every prior mean", "why_tests_cant": "All strings and shapes.", "anchors": ["bayeso/covariance.py:cov_main", "bayeso/utils/utils_gp.py:get_prior_mu", "bayeso/utils/utils_gp.py:validate_common_args", "bayeso/gp/gp.py:predict_with_hyps", "bayeso/tp/tp.py:predict_with_hyps"]}
{"id": "C71", "title": "Correct calls on an accepted object never raise", "statement": "Once the constructor of a GP-, TP- or forest-based optimiser has accepted its arguments (with a covariance function on points, a prior mean that returns one value per input and, for leave-one-out selection, one lengthscale per coordinate), any number of calls of optimize in a row, each with some data, as many responses as inputs, a documented sampling scheme, a positive number of samples and (GP) any of the three fitting modes, all return a point of the search space, provided the numerical minimisers return finite non-degenerate points when the objective they are given has a value everywhere they may evaluate it.", "quantifier": "all accepted constructor arguments, all sequences of calls of any length with data sets of any size, all minimisers and random draws within the stated contract", "why_tests_cant": "The failure would need a particular combination of names, modes and history (for instance 'converged' after 'combined'); the sequences are unbounded.", "anchors": ["bayeso/bo/bo_w_gp.py:optimize", "bayeso/bo/bo_w_tp.py:optimize", "bayeso/bo/bo_w_trees.py:optimize"]}
{"id": "C72", "title": "A whole run of a documented configuration never raises", "statement": "If the constructor of BayesianOptimization accepts its arguments, with a covariance function on points, a prior mean that returns one value per input and (for leave-one-out selection) one lengthscale per coordinate, then optimize(num_init) with num_init > 0 returns normally whenever the target has a finite value everywhere in the search space and the numerical routines keep their contract. It returns num_init + num_iter rows, all in the search space; the first num_init are the initial draws; the target is called exactly once on each row, in order, and the responses are the values it returned.", "quantifier": "every surrogate, every accepted configuration, every target (also noisy), every num_init, num_iter, dimension, every minimiser and random draw within its contract", "why_tests_cant": "A failure needs an unlucky iteration (repeated candidates, a stored hyperparameter vector of the wrong kind, an acquisition value that is never below the initial infinity), and runs are unbounded.", "anchors": ["bayeso/wrappers/wrappers_bo_class.py:BayesianOptimization.optimize", "bayeso/wrappers/wrappers_bo_class.py:BayesianOptimization.optimize_single_iteration"]}
{"id": "C73", "title": "A Thompson sampling run returns", "statement": "With a positive number of initial points, at least two test points per iteration, a documented random sampling scheme and routines that keep their contract, thompson_sampling_gp returns num_init + num_iter rows, all in the search space. With a single test point every iteration raises IndexError (the sample is then a plain number and the code takes the first column of it).", "quantifier": "every target with finite values on the search space, every num_init, num_iter, dimension, every minimiser and random draw within its contract", "why_tests_cant": "Unbounded runs; the single-test-point failure is a boundary value.", "anchors": ["bayeso/thompson_sampling.py:thompson_sampling_gp", "bayeso/thompson_sampling.py:thompson_sampling_gp_iteration"]}
{"id": "C74", "title": "Sampled functions have the documented shape", "statement": "sample_functions of a Gaussian or Student-t process returns an array of shape (num_samples, n): one row per function, one entry per point. (Violated over one point: the Gaussian process returns an array of rank one, the Student-t process raises AssertionError for two or more functions.)", "quantifier": "every number of samples and of points, every draw", "why_tests_cant": "The failures are boundary values; which entry is which draw is not visible in a shape test.", "anchors": ["bayeso/gp/gp.py:sample_functions", "bayeso/tp/tp.py:sample_functions"]}
{"id": "C75", "title": "Student-t samples have the covariance handed over", "statement": "The functions sampled by sample_functions of a Student-t process have the mean vector and the covariance matrix given as arguments, and follow the Student-t distribution that predict and the likelihood of the same module use. (Violated for every finite number of degrees of freedom nu > 2: the matrix is used as a scale matrix, so the covariance is nu/(nu-2) times it.)", "quantifier": "every mean vector, positive definite matrix, number of degrees of freedom and of samples", "why_tests_cant": "A statement about a probability distribution; samples only estimate it, and the factor is near one for many degrees of freedom.", "anchors": ["bayeso/tp/tp.py:sample_functions"]}
{"id": "C76", "title": "A whole run does not depend on the unit of the target", "statement": "With normalize_Y on (and a fitting mode other than 'converged'), replacing the target f by a*f+b with a > 0 changes nothing in a run of an accepted object except the reported responses, which become a*y+b: the same points are proposed and evaluated in the same order, the same model states, times and exceptions result, from given data or from initial points, provided the initial responses are not all equal. Equal responses are handed to the surrogate as they are, in whatever unit.", "quantifier": "every accepted configuration of every surrogate, every target, oracle behaviour, clock, number of iterations, every a > 0 and b", "why_tests_cant": "Equality of two whole executions over a continuum of units; a test compares floating-point runs for one rescaling.", "anchors": ["bayeso/wrappers/wrappers_bo_class.py:optimize", "bayeso/utils/utils_bo.py:normalize_min_max", "bayeso/bo/bo_w_gp.py:optimize", "bayeso/bo/bo_w_tp.py:optimize", "bayeso/bo/bo_w_trees.py:optimize"]}
{"id": "C77", "title": "Options reach the surrogate unchanged", "statement": "An accepted BayesianOptimization object, and the surrogate object in it, hold exactly the options given to the constructor - search space, acquisition function, covariance, ARD, prior mean, normalisation, model selection, optimisers, initialisation and sampling methods, numbers of iterations and samples - except that an acquisition optimiser that cannot run (DIRECT or CMA-ES not installed, CMA-ES in one dimension) is replaced by L-BFGS-B; and every step of a run calls the surrogate's optimize with the object's sampling method, number of samples and, for a Gaussian process, fitting mode.", "quantifier": "every accepted argument record, every installed set of packages, every step", "why_tests_cant": "Twenty options are forwarded through two constructors by position and keyword; a swapped pair shows only for particular values.", "anchors": ["bayeso/wrappers/wrappers_bo_class.py:__init__", "bayeso/wrappers/wrappers_bo_class.py:_get_model_bo_gp", "bayeso/wrappers/wrappers_bo_class.py:optimize_single_iteration", "bayeso/bo/base_bo.py:__init__"]}
{"id": "C78", "title": "What a GP predicts at inputs it was trained on", "statement": "At the training inputs the residuals of the posterior mean are the noise variance plus 1e-5 times the solution of the kernel system, and the prediction never overshoots: the squared shift of the mean and the squared residuals sum to at most the squared distance of the responses from the prior mean. The posterior variance at an input observed r times (prior variance k, c the noise variance plus 1e-5) is at most 1e-5 + k*c/(r*k+c), hence at most 1e-5 + c/r.", "quantifier": "every training set, vectors or sets, every covariance function, every valid hyperparameters, every prior mean, every number of repetitions", "why_tests_cant": "An inequality over all data sets and kernels; repeated inputs make the kernel matrix nearly singular, where a numerical test cannot tell a wrong bound from rounding.", "anchors": ["bayeso/gp/gp.py:predict_with_cov", "bayeso/gp/gp.py:predict_with_hyps", "bayeso/covariance.py:cov_main"]}
{"id": "C79", "title": "Conditioning in two steps", "statement": "Predicting from all the data equals updating the prediction from the first part of the data with the second part: with the gain solving the system of the predictive covariance of the second part (noise included) the mean moves by the gain times the surprise and the covariance shrinks by the gain times the cross covariance; for one new observation in closed form.", "quantifier": "every split of every training set, every test set, covariance function, valid hyperparameters and prior mean", "why_tests_cant": "An identity between two different matrix computations over all sizes and data.", "anchors": ["bayeso/gp/gp.py:predict_with_cov", "bayeso/gp/gp.py:predict_with_hyps"]}
{"id": "C80", "title": "PI and EI with the jitter the code adds to the deviation", "statement": "With jitter j, PI is the probability of improvement for the deviation s+j, and EI is the expectation of the improvement for the deviation s+j minus j times a density; EI differs from the exact expectation by at most j/sqrt(2*pi). EI still ranks a lower mean (same deviation) higher as long as the larger mean is at most the best response or (mean-best)^2*j <= (s+j)^2*s, and a larger deviation (same mean) higher as long as (best-mean)^2*j <= (s+j)^3. For a mean x units of s+j above the best response EI is positive if x^2 <= s/j-2 and negative if x^2 >= s/j, and beyond that the ranking is lost: for every deviation some two means are ranked the wrong way round.", "quantifier": "every prediction, every data set, every jitter", "why_tests_cant": "The sign and the order change in the far tail of the normal distribution, where values are around 1e-20 and tests with tolerances see zero.", "anchors": ["bayeso/acquisition.py:pi", "bayeso/acquisition.py:ei"]}
{"id": "C81", "title": "Thompson sampling retries with growing jitter", "statement": "The function of a Thompson sampling iteration is drawn with the first of the jitters 0, 1e-4, 1e-2, 1, 10, 100, 1000, 10000 on the diagonal of the covariance matrix that does not lead to a ValueError. If all of them do, the iteration raises a ValueError; every other exception is passed on unchanged.", "quantifier": "every behaviour of the sampler, every data set, bounds, sampling method and number of test points", "why_tests_cant": "The retry branch is marked 'no cover' and cannot be reached with a working sampler.", "anchors": ["bayeso/thompson_sampling.py:thompson_sampling_gp_iteration"]}
{"id": "C82", "title": "Fitted hyperparameters are used, and are never worse than the initial ones", "statement": "Predicting with optimised hyperparameters gives exactly what fitting and then predicting with the fitted hyperparameters gives. The kernel matrix and inverse that a fit returns belong to the hyperparameters it returns, and a fixed noise stays 0.01. If the minimiser does not end at a larger value than it starts with, then the data are at least as likely (Student-t: exactly; Gaussian: up to 4e-5 per observation in the log-likelihood) under the fitted hyperparameters as under the initial ones (noise 0.01, signal and lengthscales 1, for Student-t processes five degrees of freedom); with model selection by cross validation the leave-one-out score does not get worse.", "quantifier": "every minimiser (descending, for the last sentence), covariance function, training set (vectors or sets), prior mean, optimiser name, with or without ARD and fixed noise", "why_tests_cant": "The fitted values depend on the minimiser and the data; a test sees a few fits and cannot compare likelihoods for all of them.", "anchors": ["bayeso/gp/gp_kernel.py:get_optimized_kernel", "bayeso/tp/tp_kernel.py:get_optimized_kernel", "bayeso/gp/gp.py:predict_with_optimized_hyps", "bayeso/tp/tp.py:predict_with_optimized_hyps"]}
{"id": "C83", "title": "Predictions depend on the inputs only through scaled distances", "statement": "Predictions of Gaussian and Student-t processes and the marginal likelihood depend on the inputs only through the distances scaled by the lengthscales. So they do not change when the origin is moved, when the unit of a coordinate changes together with its lengthscale, when the coordinates are reordered together with the lengthscales, or, with one lengthscale for all coordinates, when the inputs are rotated.", "quantifier": "every covariance function (base and set), training and test inputs, responses, hyperparameters, and every map of inputs that keeps scaled distances", "why_tests_cant": "A symmetry under infinitely many transformations of real inputs.", "anchors": ["bayeso/gp/gp.py:predict_with_hyps", "bayeso/tp/tp.py:predict_with_hyps", "bayeso/gp/gp_likelihood.py:neg_log_ml"]}
{"id": "C84", "title": "Predicting a batch is predicting its parts", "statement": "The means and deviations predicted for a selection of the test inputs (in any order, with repetitions) are the selected means and deviations of a prediction for all of them; if no input is selected twice, so are the covariances. The same for Student-t processes.", "quantifier": "every covariance function, training and test set, responses, hyperparameters, prior mean, and selection of test inputs", "why_tests_cant": "Quantifies over all selections of all test sets.", "anchors": ["bayeso/gp/gp.py:predict_with_hyps", "bayeso/tp/tp.py:predict_with_hyps"]}
{"id": "C85", "title": "Predictions follow the unit of the responses", "statement": "If responses, signal and noise are all multiplied by a constant, the predicted means are multiplied by it and the covariances by its square.", "quantifier": "every covariance function, training and test set, responses, hyperparameters and non-zero constant", "why_tests_cant": "An equivariance over all real constants; the deviation is of relative size 1e-5 and disappears in the tolerance of a test.", "anchors": ["bayeso/gp/gp.py:predict_with_hyps", "bayeso/covariance.py:get_kernel_inverse"]}
{"id": "C86", "title": "Figures of regression and of optimisation steps show exactly their data", "statement": "Each sampled function is drawn as one curve over all inputs; mean and true values are drawn over all test inputs; the band reaches from range_shade deviations below the mean to as many above it; the training pairs are marked, each exactly once and in order; initial, later and newest evaluations have their own colours; the horizontal range is that of the (test) inputs, the same for the acquisition function; valid arguments never fail, and without matplotlib nothing is drawn.", "quantifier": "all arrays, numbers of initial points, options and lists of colours", "why_tests_cant": "A test of a plotting function checks that it does not raise; the content of the figure for every array is not looked at.", "anchors": ["bayeso/utils/utils_plotting.py:plot_gp_via_sample", "bayeso/utils/utils_plotting.py:plot_gp_via_distribution", "bayeso/utils/utils_plotting.py:plot_bo_step", "bayeso/utils/utils_plotting.py:plot_bo_step_with_acq", "bayeso/utils/utils_plotting.py:_set_ax_config"]}
{"id": "C87", "title": "Every training point can be seen in its figure", "statement": "Every training point that is drawn lies within the horizontal range of the figure.", "quantifier": "all training and test inputs", "why_tests_cant": "Tests draw training inputs from the same range as the test inputs.", "anchors": ["bayeso/utils/utils_plotting.py:plot_gp_via_distribution", "bayeso/utils/utils_plotting.py:plot_bo_step"]}
{"id": "C88", "title": "Figures of best-so-far curves show one well-marked curve per array", "statement": "Each array gives one curve over all its iterations (or times) with its own label, in colour and marker number i modulo the numbers of colours and markers, and a band in the same colour if bands are drawn; two curves look alike exactly when their numbers differ by a multiple of both numbers of styles (15 by default); every point of every curve is in the horizontal range; valid arguments never fail. The default colours are CSS colours and the default markers are ones matplotlib knows. Numbers of labels, arrays, rounds or times that do not fit together are rejected, also when matplotlib is missing.", "quantifier": "all numbers and contents of arrays, labels and styles", "why_tests_cant": "The cycle of styles and the horizontal range depend on numbers of curves and times no test enumerates.", "anchors": ["bayeso/utils/utils_plotting.py:plot_minimum_vs_iter", "bayeso/utils/utils_plotting.py:plot_minimum_vs_time", "bayeso/constants.py:COLORS"]}
{"id": "C89", "title": "The saved legend names every curve by its own label", "statement": "In the legend that is saved next to a figure of curves, every curve appears with the label given for it.", "quantifier": "all arrays and labels", "why_tests_cant": "Only labels that matplotlib hides reveal the shift, and the file with the legend is not read back.", "anchors": ["bayeso/utils/utils_plotting.py:plot_minimum_vs_iter", "bayeso/utils/utils_plotting.py:plot_minimum_vs_time"]}
{"id": "C90", "title": "Figures do not overwrite each other", "statement": "Two figures saved to one directory with different kinds or different postfixes are written to different files; without a directory or a postfix nothing is written.", "quantifier": "all kinds of figures, postfixes and arguments", "why_tests_cant": "A statement about pairs of calls and all strings.", "anchors": ["bayeso/utils/utils_plotting.py:_save_figure", "bayeso/utils/utils_plotting.py:plot_minimum_vs_iter", "bayeso/utils/utils_plotting.py:plot_minimum_vs_time"]}
{"id": "C91", "title": "A seed makes a run reproducible", "statement": "Two calls of BayesianOptimization.optimize with the same seed, on the same target and from the same state, return the same rows and responses, whatever the process and the clock.", "quantifier": "all accepted configurations, libraries, targets, numbers of initial points, seeds, clocks and pairs of processes", "why_tests_cant": "Relates two processes whose unseeded generators are arbitrary; a test in one process cannot vary them.", "anchors": ["bayeso/wrappers/wrappers_bo_class.py:BayesianOptimization.optimize", "bayeso/wrappers/wrappers_bo_class.py:BayesianOptimization.optimize_single_iteration", "bayeso/bo/base_bo.py:BaseBO._get_random_state", "bayeso/bo/base_bo.py:BaseBO.get_samples"]}
{"id": "C92", "title": "A seed given to the optimize of a surrogate fixes its proposal", "statement": "Two calls of optimize of a model with the same seed, on the same data and from the same state, return the same proposal, candidates, acquisition values and fitted model, whatever the process and the clock.", "quantifier": "all models, data, sampling methods, fitting modes, seeds, clocks and pairs of processes", "why_tests_cant": "Relates two processes whose unseeded generators are arbitrary.", "anchors": ["bayeso/bo/bo_w_gp.py:BOwGP.optimize", "bayeso/bo/bo_w_tp.py:BOwTP.optimize", "bayeso/bo/bo_w_trees.py:BOwTrees.optimize", "bayeso/bo/base_bo.py:BaseBO._get_random_state"]}
{"id": "C93", "title": "With many degrees of freedom a Student-t process is a Gaussian process", "statement": "With the same kernel hyperparameters, a Student-t process predicts the same means as a Gaussian process for every number of degrees of freedom; as that number grows its standard deviations, its covariances and its negative log marginal likelihood converge to those of the Gaussian process. It is the less certain of the two exactly if the misfit of the responses is greater than their number.", "quantifier": "all kernels, inputs, responses, prior means, hyperparameters and degrees of freedom above 2", "why_tests_cant": "A limit over the degrees of freedom and an equivalence over all data; a test can compare a few large values only.", "anchors": ["bayeso/tp/tp.py:predict_with_hyps", "bayeso/tp/tp_likelihood.py:neg_log_ml", "bayeso/gp/gp.py:predict_with_hyps", "bayeso/gp/gp_likelihood.py:neg_log_ml"]}
{"id": "C94", "title": "Forest predictions follow the unit of the responses", "statement": "If all responses are given in another unit (multiplied by one positive number) or from another origin (one number added), then, with the same random draws, the means predicted by a forest change in the same way and its standard deviations are multiplied by the same number.", "quantifier": "all data sets, sampling settings, feature and location draws, tree settings, units, origins and queries", "why_tests_cant": "Relates two forests for all data and all random draws; it fails only where the fixed price of an empty side meets large responses.", "anchors": ["bayeso/trees/trees_common.py:_mse", "bayeso/trees/trees_common.py:_split", "bayeso/trees/trees_common.py:split", "bayeso/trees/trees_common.py:compute_sigma", "bayeso/trees/trees_generic_trees.py:get_generic_trees", "bayeso/trees/trees_random_forest.py:get_random_forest"]}
{"id": "C95", "title": "Forest predictions do not depend on the units of the inputs", "statement": "If each coordinate of the inputs is given in another unit and from another origin (a positive factor and a shift per coordinate), then, with the same random draws, a forest predicts the same means and standard deviations at the queries given in the new units.", "quantifier": "all data sets, sampling settings, feature and location draws, tree settings, factors, shifts and queries", "why_tests_cant": "Relates two forests for all data, all random draws and all changes of units.", "anchors": ["bayeso/trees/trees_common.py:_split", "bayeso/trees/trees_common.py:_split_left_right", "bayeso/trees/trees_common.py:_predict_by_tree", "bayeso/trees/trees_generic_trees.py:get_generic_trees", "bayeso/trees/trees_random_forest.py:get_random_forest"]}
{"id": "C96", "title": "Repeated observations at an input count through their average", "statement": "Two sets of responses with the same total at every distinct input give the same Gaussian process prediction (means, deviations, covariances); each response may be replaced by the average at its input; and if every input is observed k times, the prediction is that of a single observation of the average at each input with a k-th of the noise variance (including the 1e-5 on the diagonal).", "quantifier": "all kernels, inputs with repetitions (points or sets), responses, hyperparameters and prior means", "why_tests_cant": "An identity between predictions from data sets of different sizes, for every pattern of repetitions.", "anchors": ["bayeso/gp/gp.py:predict_with_hyps", "bayeso/covariance.py:cov_main"]}
{"id": "C97", "title": "Disagreement between repeated observations widens only what it should", "statement": "Replacing responses by their averages at each input leaves the mean and the degrees of freedom of the Student-t process unchanged and shrinks its covariances by the sum of squared deviations over the noise variance and nu+n-2 (times the Gaussian covariances), strictly as soon as responses at one input differ; the value minimised when fitting a Gaussian process falls by the sum of squared deviations over twice the noise variance per observation, and the one of the Student-t process falls strictly as well.", "quantifier": "all kernels, inputs with repetitions, responses, hyperparameters and nu > 2", "why_tests_cant": "The exact size of the effect of disagreement is an algebraic identity over all data.", "anchors": ["bayeso/tp/tp.py:predict_with_hyps", "bayeso/tp/tp_likelihood.py:neg_log_ml", "bayeso/gp/gp_likelihood.py:neg_log_ml"]}
{"id": "C98", "title": "The search for the next point has a well-defined objective with a best point", "statement": "The acquisition values computed for an array of candidates are the values of one function of the candidate, whatever the array; with a Gaussian or Student-t process this function is continuous (if the prior mean is), with a forest it takes finitely many values; in all cases a best point exists in the box, and the computation never fails.", "quantifier": "all training data, kernels, hyperparameters, acquisition functions, boxes and arrays of candidates", "why_tests_cant": "Continuity and existence of a maximiser speak about all points of the box.", "anchors": ["bayeso/bo/bo_w_gp.py:BOwGP.compute_acquisitions", "bayeso/bo/bo_w_tp.py:BOwTP.compute_acquisitions", "bayeso/bo/bo_w_trees.py:BOwTrees.compute_acquisitions", "bayeso/acquisition.py:aei"]}
{"id": "C99", "title": "Far from the data predictions return to the prior", "statement": "For every tolerance there is a distance (in units of the lengthscales) such that for any test inputs whose elements all lie at least so far from all training elements, predicted means, deviations and covariances differ from those of the prior by less than the tolerance; for the Student-t process the covariances are those of the prior times the factor that the observations give.", "quantifier": "all kernels, training data, hyperparameters, tolerances and numbers of test inputs (points or sets)", "why_tests_cant": "A limit, uniform over all test arrays.", "anchors": ["bayeso/gp/gp.py:predict_with_hyps", "bayeso/tp/tp.py:predict_with_hyps", "bayeso/covariance.py:cov_main"]}
{"id": "C100", "title": "Figures are labelled and shown as asked", "statement": "The axes of every figure carry the labels that were asked for (the upper panel of a step with acquisition function has no horizontal label); a figure is not shown exactly if no pause is asked for, it is shown for the given time if that is finite, and until it is closed if it is infinite.", "quantifier": "all six plotting functions, arguments and options", "why_tests_cant": "Tests run without a display and never with an infinite pause.", "anchors": ["bayeso/utils/utils_plotting.py:_show_figure", "bayeso/utils/utils_plotting.py:_set_ax_config"]}
{"id": "C103", "title": "Sampled points lie in the search space also in double precision", "statement": "With every arithmetic operation rounded to a nearest double, every point returned by any sampling method lies in the search space, so the bounds check accepts it; the unit draws must be doubles of [0, 1), and for grids the sides must be 0 or at least 2^-960. Neither condition can be dropped: a draw equal to 1 can land outside, and so can a grid on a space as small as the smallest doubles.", "quantifier": "all search spaces with double ends, sampling methods, numbers of points (grids: at most 2^50 values per axis), draws and ways of breaking ties in rounding", "why_tests_cant": "Only rare combinations of ends and draws round to the end of the interval or beyond it.", "anchors": ["bayeso/bo/base_bo.py:get_samples", "bayeso/utils/utils_common.py:get_grids", "bayeso/utils/utils_bo.py:check_points_in_bounds"]}
{"id": "C104", "title": "Normalisation in double precision keeps ends, range and order", "statement": "In double precision the least response is mapped to exactly 0 and the greatest to exactly 10, all others lie between and within 6e-15 of the exact value, the order is never reversed, responses that differ by at least 2e-15 of the range stay strictly ordered, and a response stays above the best one unless its distance is below 2^-1000 of the range. Closer responses can become equal.", "quantifier": "all columns of doubles that are not constant, and ways of breaking ties in rounding", "why_tests_cant": "Bounds on rounding errors over all columns of doubles.", "anchors": ["bayeso/utils/utils_bo.py:normalize_min_max"]}
{"id": "C105", "title": "Curves in double precision are monotone and accurate", "statement": "In double precision the running minima are exact and their mean over the rounds never rises, the mean elapsed time starts at 0 and never falls, and both means are within an explicit relative bound of the exact ones, in whatever order the rounds are added.", "quantifier": "all histories and times in doubles, numbers of initial points, orders of summation and ways of breaking ties in rounding", "why_tests_cant": "Rounding could reverse neighbouring values only for rare inputs and summation orders.", "anchors": ["bayeso/utils/utils_common.py:get_minimum", "bayeso/utils/utils_common.py:get_time"]}
{"id": "C101", "title": "Predicted means move at most proportionally to the responses", "statement": "If the responses change, no predicted mean of the Gaussian or Student-t process moves by more than signal/(2 sqrt(noise^2 + 1e-5)) times the Euclidean length of the change, at any input; deviations and covariances of the Gaussian process do not change. The constant is attained, for every kernel and noise.", "quantifier": "all training and test inputs (points or sets), pairs of response vectors, kernels, hyperparameters and prior means", "why_tests_cant": "A Lipschitz bound over all data sets that holds however close to each other the inputs are.", "anchors": ["bayeso/gp/gp.py:predict_with_hyps", "bayeso/tp/tp.py:predict_with_hyps"]}
{"id": "C102", "title": "Predictions tolerate errors in the kernel matrix and its inverse", "statement": "If a symmetric matrix differs from the kernel matrix by at most eta in each entry and n eta < noise^2 + 1e-5, then it is positive definite and its factorisation succeeds without jitter. If moreover its inverse is used with an error of at most theta per entry, then predicted means, deviations and covariances differ from the exact ones by at most explicit multiples of rho = n eta/(tau (tau - n eta)) + n theta, where tau = noise^2 + 1e-5.", "quantifier": "all training and test inputs (points or sets), responses, kernels, hyperparameters, prior means and perturbed matrices", "why_tests_cant": "All perturbations of all kernel matrices, including nearly singular ones.", "anchors": ["bayeso/gp/gp.py:predict_with_cov", "bayeso/covariance.py:get_kernel_inverse", "bayeso/covariance.py:get_kernel_cholesky"]}
{"id": "C106", "title": "The likelihood is the product of one-step-ahead predictive densities", "statement": "The likelihood of two batches of responses is the likelihood of the first times the density that the prediction from the first gives to the second: for Gaussian processes normal with the predicted mean and the predicted covariance plus the noise variance; for Student-t processes Student-t with the predicted degrees of freedom, mean and covariance plus the noise variance scaled by the same factor as the covariance. So for a sequence of observations minus the number of responses times the reported Gaussian value is the sum of the log densities of the responses, each under the prediction (mean, squared deviation plus noise variance) from those before it.", "quantifier": "all inputs (points or sets), responses, splits into batches, sequences of any length, kernels, hyperparameters with more than two degrees of freedom for Student-t, prior means", "why_tests_cant": "All data sets and all orders; likelihood and prediction are computed by separate code paths (determinant and quadratic form against conditioning).", "anchors": ["bayeso/gp/gp_likelihood.py:neg_log_ml", "bayeso/gp/gp.py:predict_with_hyps", "bayeso/tp/tp_likelihood.py:neg_log_ml", "bayeso/tp/tp.py:predict_with_hyps"]}
{"id": "C107", "title": "Moving the origin of the search space moves the whole run", "statement": "Take the problem with the origin of the search space moved: box, prior mean, target and numerical routines as functions of the moved coordinates, same draws. The constructor accepts it exactly when it accepts the original problem. From the moved data a step proposes the moved points with the same acquisition values, and a run calls the target on the moved points in the same order, returns the same responses and times, and raises the same exception if there is one.", "quantifier": "all configurations (GP, Student-t, random forest; all kernels, acquisitions, optimisers), all shifts, data, targets, clocks, draws, numbers of initial points and iterations", "why_tests_cant": "Any absolute coordinate that leaks into a kernel, bound, split, duplicate test or start value would break it for some shift and configuration only.", "anchors": ["bayeso/wrappers/wrappers_bo_class.py:optimize", "bayeso/bo/bo_w_gp.py:optimize", "bayeso/bo/bo_w_tp.py:optimize", "bayeso/bo/bo_w_trees.py:optimize", "bayeso/covariance.py:cov_main", "bayeso/utils/utils_bo.py:get_next_best_acquisition"]}
{"id": "C108", "title": "Forest runs do not depend on the units of the inputs", "statement": "With a random forest as the surrogate, changing the unit and the origin of each coordinate (box and target in the new coordinates, same draws) changes a run only by expressing its points in the new coordinates.", "quantifier": "all positive units and origins per coordinate, configurations with a random forest, targets, clocks, draws, numbers of initial points and iterations", "why_tests_cant": "All units of all coordinates; the deviation shows only when distances cross a fixed absolute tolerance.", "anchors": ["bayeso/wrappers/wrappers_bo_class.py:optimize", "bayeso/bo/bo_w_trees.py:optimize", "bayeso/utils/utils_bo.py:get_next_best_acquisition", "bayeso/constants.py:TOLERANCE_DUPLICATED_ACQ"]}
{"id": "C109", "title": "Parallel prediction gives the same result for every schedule", "statement": "predict_by_trees splits many rows over a pool of processes. Whatever the number of processes and however they interleave, the call ends after at most three actions per part without deadlock, and returns the predictions of the rows in order, the same as computing them one after the other. If an exception is raised, the prediction of one of the rows raises it (which one may depend on the schedule). For a grown forest no exception is raised.", "quantifier": "all numbers of processes, all interleavings of taking, finishing and collecting batches, all numbers of rows, forests and rows", "why_tests_cant": "A test sees only a few schedules on one number of processors; results that arrive out of order or batches that are cut wrongly show only in others.", "anchors": ["bayeso/trees/trees_common.py:predict_by_trees", "bayeso/trees/trees_common.py:unit_predict_by_trees"]}
{"id": "C110", "title": "Sampling, normalisation and curves with numbers that overflow", "statement": "In double precision with overflow, for every search space with finite ends the sampled points are finite and lie in the search space, responses are normalised to finite numbers, and means of finite minima are finite; exactly as with unbounded exponents. (Violated: if a side is wider than the largest double, uniform sampling raises OverflowError, every Sobol or Halton point is infinite or NaN there, grids contain NaN, and normal samples sit at the ends; if the range of the responses overflows, the greatest response is normalised to NaN; two rounds with minima 2^1023 have an infinite mean. As long as widths, ranges and sums do not overflow, the claim holds.)", "quantifier": "all search spaces with finite double ends, all draws, numbers of samples, finite responses, rounds and orders of summation, all ways of rounding to nearest", "why_tests_cant": "Overflow happens only near the largest doubles, which tests do not use; and no test covers all draws and search spaces.", "anchors": ["bayeso/bo/base_bo.py:_get_samples_uniform", "bayeso/bo/base_bo.py:_get_samples_gaussian", "bayeso/bo/base_bo.py:_get_samples_sobol", "bayeso/bo/base_bo.py:_get_samples_halton", "bayeso/bo/base_bo.py:_get_samples_grid", "bayeso/utils/utils_bo.py:normalize_min_max", "bayeso/utils/utils_common.py:get_minimum"]}
{"id": "C111", "title": "Samples are distributed as the names of the methods say", "statement": "If the generator's uniform draws are independent and uniform on [0, 1), the n points of uniform sampling are independent and uniform on the search space, so that a box has the probability of its share of the volume and n points hit a set of probability p with probability 1 - (1 - p)^n, which tends to 1. If its normal draws are independent and standard normal, the points of normal sampling are independent, as are their coordinates, each normal around the middle of the side with a quarter of its width as standard deviation, moved into the side; so each coordinate sits at each end with probability Phi(-2), and a point is in the interior with probability (1 - 2 Phi(-2))^d only. A Sobol or Halton point that is uniform on the unit cube gives a sample that is uniform on the search space.", "quantifier": "all probability spaces and draws with these laws, all search spaces, dimensions, numbers of samples and measurable sets", "why_tests_cant": "A test sees finitely many draws and can compare frequencies only up to noise; independence of all coordinates and exact probabilities for all sets are not testable.", "anchors": ["bayeso/bo/base_bo.py:_get_samples_uniform", "bayeso/bo/base_bo.py:_get_samples_gaussian", "bayeso/bo/base_bo.py:_get_samples_sobol", "bayeso/bo/base_bo.py:_get_samples_halton", "bayeso/bo/base_bo.py:get_samples"]}
{"id": "C112", "title": "Which rows the trees of a forest see", "statement": "If rows are drawn with replacement and all sequences of draws are equally likely, then every place of a subsample is filled by every row with probability 1/n; a given row is missing from a subsample of k rows with probability ((n-1)/n)^k, which for k = n tends to exp(-1) as the data grows; the expected number of different rows is n (1 - ((n-1)/n)^k); and a row is seen by none of m trees with probability ((n-1)/n)^(k m), so that with at least this probability the whole forest does not depend on the response of that row. Without replacement a row is missing with probability 1 - k/n.", "quantifier": "all probability spaces and draws with these laws, all data without repeated rows, all ratios, numbers of trees, depths, leaf sizes and numbers of features", "why_tests_cant": "Probabilities over all draws cannot be observed exactly by running the code, and no test covers all data sizes and ratios.", "anchors": ["bayeso/trees/trees_common.py:subsample", "bayeso/trees/trees_generic_trees.py:get_generic_trees", "bayeso/trees/trees_random_forest.py:get_random_forest"]}
{"id": "C113", "title": "The chances of random splits", "statement": "With a uniform draw, the random threshold of a feature is uniform between the least and greatest value of that feature; two rows are separated by it with probability proportional to their distance in that feature, and no side of the split is empty except for draws of probability zero. Without random thresholds, where at most 20 of the m midpoints of a feature are tried, a split at least as good as the best one is found with probability at least min(20, m)/m, and with exactly this probability if one midpoint is better than all others.", "quantifier": "all probability spaces and draws with these laws, all data, features and pairs of rows", "why_tests_cant": "Probabilities over all draws cannot be observed exactly, and the loss of the best split appears only with more than 20 gaps and then only sometimes.", "anchors": ["bayeso/trees/trees_common.py:_split_random", "bayeso/trees/trees_common.py:_split_deterministic", "bayeso/trees/trees_common.py:_split_left_right"]}
{"id": "C114", "title": "Regret of the upper confidence bound", "statement": "Along a sequence of observations with fixed hyperparameters, the logarithms of one plus the predicted variances (without the jitter, relative to the noise) add up to the log-determinant measuring the information the observations carry. If true values lie within the confidence bounds that ucb uses, a choice scoring at most delta below another point exceeds its value by at most delta plus twice the weighted deviation; so the regrets of successive choices sum to at most the sum of the deltas plus twice the last weight times the square root of T(T 1e-5 + C I_T), the 1e-5 being the jitter the code adds to each predicted variance. With N different inputs the information I_T is at most N log(1 + T s^2/(N(noise^2 + 1e-5))), and with a fixed weight the best chosen value comes within delta plus 2 kappa sqrt(1e-5) plus any eta of the value compared with after finitely many choices.", "quantifier": "all sequences of inputs (plain or sets), kernels, hyperparameters, prior means, responses, weights and horizons", "why_tests_cant": "It is a bound on sums over unboundedly many steps and for every function within the confidence bounds; a run shows one function and one horizon.", "anchors": ["bayeso/acquisition.py:ucb", "bayeso/gp/gp.py:predict_with_hyps", "bayeso/utils/utils_bo.py:choose_fun_acquisition"]}
{"id": "C115", "title": "Coverage of the predicted band", "statement": "Under the Gaussian process prior, the distance of a test value from the predicted mean in units of the predicted deviation is standard normal, given almost every vector of responses and over all. So the band of c deviations contains the value with probability 2 Phi(c) - 1, all m test values together with probability at least 1 - m(2 - 2 Phi(c)), and the best scored test point under ucb exceeds every other by at most twice its weighted deviation with at least that probability for the weight in place of c. The band that plot_gp_via_distribution shades by default contains the true value at each test input with probability between 0.9499 and 0.9501.", "quantifier": "all kernels, hyperparameters, inputs, prior means, numbers of observations and test points, and all choices depending on the responses", "why_tests_cant": "It is a statement about probabilities over all functions of the prior; sampled functions only estimate it.", "anchors": ["bayeso/gp/gp.py:predict_with_hyps", "bayeso/utils/utils_plotting.py:plot_gp_via_distribution", "bayeso/acquisition.py:ucb", "bayeso/constants.py:RANGE_SHADE"]}
{"id": "C116", "title": "What random initial points guarantee for a run", "statement": "With independent uniform draws, every run from n uniform initial points that returns has a response of at most t among its data, with probability at least 1 - (1 - p)^n, where p is the probability of a set of inputs at which the target does not exceed t; so the probability tends to one whenever p is positive. If the target grows at most by L times the distance from a point z of the box, a value within epsilon of that at z is found with p the product of min(1, epsilon / (L times the side)), and n at least log(1/delta)/p initial points give probability 1 - delta. This holds for the class and the function interface, whatever the surrogate, the acquisition function, the optimiser and the number of iterations do.", "quantifier": "all boxes, deterministic targets, draws with this law, surrogate steps, numbers of initial points and iterations", "why_tests_cant": "It bounds a probability for all targets and all behaviours of the surrogate; tests see single runs.", "anchors": ["bayeso/wrappers/wrappers_bo_function.py:run_single_round", "bayeso/wrappers/wrappers_bo_class.py:optimize", "bayeso/bo/base_bo.py:get_initials", "bayeso/bo/base_bo.py:_get_samples_uniform"]}
{"id": "C117", "title": "The log at the start of a run", "statement": "Every BayesianOptimization object that can be constructed can print its information without raising, whatever the surrogate. The log then reports on each setting that concerns the surrogate exactly once and with the value in use (for the acquisition optimiser the one that replaced an unavailable one), on no setting that does not concern it, and on the search space. It leaves nothing open: two objects with the same search space and prior mean that print the same messages are the same object for every later run, with the same number of initial points and seed; and bounds of search spaces with the same messages differ by at most a thousandth. The log of run_single_round should leave nothing open either.", "quantifier": "all arguments of the constructor, installed packages, numbers of initial points, seeds and search spaces", "why_tests_cant": "It speaks of all pairs of configurations; a test prints some of them and compares a few lines.", "anchors": ["bayeso/wrappers/wrappers_bo_class.py:print_info", "bayeso/wrappers/wrappers_bo_class.py:__init__", "bayeso/wrappers/wrappers_bo_function.py:run_single_round", "bayeso/utils/utils_logger.py:get_str_array"]}
{"id": "C118", "title": "What the type validation decorator accepts", "statement": "validate_types accepts a function whose arguments are all positional exactly when every argument and the result has an annotation, and raises AssertionError otherwise; an accepted function does on every call what the original does. With keyword-only arguments the count is no such check: functions with missing annotations are accepted and functions with all annotations refused.", "quantifier": "all functions with any number of arguments and annotations", "why_tests_cant": "Tests decorate a few functions; the equivalence concerns every signature.", "anchors": ["bayeso/utils/utils_common.py:validate_types"]}
{"id": "C119", "title": "Normalisation, trees and forests on infinite or NaN responses", "statement": "Min-max normalisation of responses that are not all finite: one NaN, or minus infinity beside anything else, turns every response into NaN; plus infinity beside finite numbers becomes NaN and the finite ones become zero; infinities of one sign alone stay; a list with a response that is not a number never becomes a list of numbers. A regression tree whose sample holds such a response raises TypeError; a forest or an ensemble of generic trees raises TypeError exactly if one of its trees has drawn such a row and is fitted otherwise. With one such row among n, a forest of m trees is fitted with probability ((n-1)/n)^(n m), at most exp(-m). On finite responses normalisation, trees and likelihood are those of the model with exact numbers.", "quantifier": "all lists of responses (finite, infinite, NaN), data, generator behaviours that keep the promises of the library, numbers of trees and features", "why_tests_cant": "Whether the fit fails depends on the bootstrap draws, and fails only on the combination of draws and the place of the bad response; the probability concerns all draws.", "anchors": ["bayeso/utils/utils_bo.py:normalize_min_max", "bayeso/trees/trees_common.py:_mse", "bayeso/trees/trees_common.py:_split", "bayeso/trees/trees_random_forest.py:get_random_forest", "bayeso/trees/trees_generic_trees.py:get_generic_trees"]}
{"id": "C120", "title": "Runs on targets that return NaN or an infinity", "statement": "A step with a Gaussian process fitted by the marginal likelihood (modes 'regular' and 'combined', and 'converged' while it still fits) raises ValueError in every state as soon as one response so far is infinite or NaN; a run given such a response ends in its first iteration with ValueError and without calling the target; and a run that returns has had only finite responses, except perhaps the last. A random forest step on normalised responses with a NaN, or with minus infinity beside anything else, raises TypeError; otherwise it raises TypeError exactly if one of the hundred trees draws a row with such a response. A returned run with forests and normalisation has met no NaN before its last step.", "quantifier": "all configurations the constructor accepts (with a kernel of the package and a total prior mean), all data, states, targets, initial points and numbers of iterations, all minimisers that evaluate the objective at the start", "why_tests_cant": "The outcome concerns every configuration, history and position of the bad response, and every behaviour of the numerical routines.", "anchors": ["bayeso/wrappers/wrappers_bo_class.py:BayesianOptimization.optimize_single_iteration", "bayeso/bo/bo_w_gp.py:BOwGP.optimize", "bayeso/bo/bo_w_trees.py:BOwTrees.optimize", "bayeso/gp/gp_likelihood.py:neg_log_ml", "bayeso/gp/gp_kernel.py:get_optimized_kernel"]}
{"id": "C121", "title": "Pure exploration explores the whole region", "statement": "When each point is the one of a region with the largest predicted deviation, the information gained after k choices is within the factor 1 - exp(-k/T) of that of any T points of the region. A prediction at a point near which A points have been evaluated has variance at most the jitter, twice the drop of the kernel and the noise divided by the size of A. For every bounded region and every eta > 0 there is a number of choices, not depending on responses or starting points, after which the deviation predicted anywhere in the region is at most the root of the jitter plus the slack of the choices plus eta.", "quantifier": "all kernels of the package, hyperparameters, prior means, bounded regions, sequences of points and responses, numbers of choices", "why_tests_cant": "The number of choices is uniform over all sequences of points in an uncountable region.", "anchors": ["bayeso/acquisition.py:pure_explore", "bayeso/gp/gp.py:predict_with_hyps", "bayeso/gp/gp.py:predict_with_cov"]}
{"id": "C122", "title": "The upper confidence bound on a bounded region", "statement": "For choices by ucb with a fixed weight in a bounded region, while the true values stay within the weight times the predicted deviation of the predicted mean: for every eta > 0 there is a number of choices, depending only on region, kernel, weight and eta, among which one point has a value at most the slack plus twice the weight times the root of the jitter plus eta above the value at every point of the region.", "quantifier": "all kernels of the package, hyperparameters, prior means, bounded regions, weights, functions and sequences of choices", "why_tests_cant": "The guarantee is uniform over all functions within the bands and all sequences of choices.", "anchors": ["bayeso/acquisition.py:ucb", "bayeso/gp/gp.py:predict_with_hyps"]}
{"id": "C123", "title": "Worst-case error of the predicted mean", "statement": "If the function minus the prior mean has norm at most B in the space of the kernel, the error of the predicted mean is at most the root of B squared plus the squared errors of the responses over the noise variance (with jitter), times the predicted deviation without its jitter; for exact responses B times that deviation. The bound is attained at every point and data set for every budget. For sums of kernel functions the norm is the root of the quadratic form of their coefficients.", "quantifier": "all kernels of the package, hyperparameters, prior means, data, query points, functions of bounded norm and errors of the responses", "why_tests_cant": "The functions form an infinite-dimensional ball; the bound holds for each of them.", "anchors": ["bayeso/gp/gp.py:predict_with_cov", "bayeso/gp/gp.py:predict_with_hyps", "bayeso/covariance.py:cov_main"]}
{"id": "C124", "title": "Convergence of pure exploration and of the upper confidence bound", "statement": "For functions of bounded norm and responses whose errors stay within a budget: after a number of choices by pure exploration in a bounded region that depends only on region, kernel, budget and eta, the predicted mean is within eta of the function everywhere in the region; and among a number of choices by ucb with a fixed weight not less than the budget, one has a value at most the slack, the weight times the root of the jitter and eta above the value at every point of the region.", "quantifier": "all kernels of the package, hyperparameters, prior means, bounded regions, functions, errors of the responses, sequences of choices", "why_tests_cant": "The number of choices is uniform over all functions of the ball and all sequences of choices.", "anchors": ["bayeso/acquisition.py:pure_explore", "bayeso/acquisition.py:ucb", "bayeso/gp/gp.py:predict_with_hyps"]}
{"id": "C125", "title": "Convergence of expected improvement and augmented expected improvement", "statement": "For functions of norm at most B and exact responses, for every bounded region and eta > 0 there is a number of choices by ei after which the best response is at most eta plus an explicit constant above the value at every point of the region; the constant consists of the jitters of prediction and acquisition function and the slack of the choices, over the normal distribution function at -B. The same holds for aei, with the discount in the constant.", "quantifier": "all kernels of the package, hyperparameters, continuous prior means, bounded regions, functions of bounded norm, starting points, sequences of choices", "why_tests_cant": "The number of choices is uniform over all functions of the ball and all sequences of choices.", "anchors": ["bayeso/acquisition.py:ei", "bayeso/acquisition.py:aei", "bayeso/gp/gp.py:predict_with_hyps"]}
{"id": "C126", "title": "Acquisition values as posterior expectations, and the best next test point", "statement": "Under the Gaussian process prior, given almost every vector of responses: pi (without jitter) is the conditional probability that the value at a test point lies below the best response, ei is the conditional expectation of the improvement up to the jitter over sqrt(2 pi), pure_exploit is minus the conditional expectation and pure_explore the root of the conditional variance. Hence, on average over function and noise, the test point chosen by ei leaves the smallest expected best value, the one chosen by pi the greatest probability of improvement and the one chosen by pure_exploit the smallest expected value, among all measurable rules for choosing a test point from the responses, up to explicit terms in the jitter and the slack of the choice.", "quantifier": "all kernels of the package, hyperparameters, prior means, training and test inputs, Gaussian process priors, measurable rules of choice, slacks and jitters", "why_tests_cant": "The comparison is with all measurable rules of choice and averages over all functions and noise.", "anchors": ["bayeso/acquisition.py:ei", "bayeso/acquisition.py:pi", "bayeso/acquisition.py:pure_exploit", "bayeso/acquisition.py:pure_explore", "bayeso/gp/gp.py:predict_with_hyps"]}
{"id": "C127", "title": "Covariances in double precision", "statement": "Computed in double precision, with any rounding to nearest, any order of summation and an exponential function of relative error eta, covariances of inputs not longer than R (in lengthscales) are never negative and within s^2 (2 eta + (1 + (d+1) R) / 2^45) of the exact ones, up to underflow. Equal inputs have exactly the rounded signal variance, squared exponential covariances never exceed it, and covariances are exactly symmetric if rounding treats signs alike. The kernel matrix is symmetric, within E = s^2 (2 eta + (1 + (d+1) R) / 2^44) + (noise^2 + 1) / 2^49 of the exact one in each entry and, if n E < noise^2 + 1e-5, positive definite and factorised without jitter; predictions then differ by an explicit multiple of E and of the error of the inverse. For arrays of rank 2 and any name that is none of the covariance functions for vectors the kernel matrix is refused, with an AssertionError for a covariance function for sets and a ValueError for an unknown name.", "quantifier": "all roundings to nearest, orders of summation, exponential functions within eta <= 1/2, kernels of the package for plain inputs, hyperparameters, dimensions up to 2^20, inputs with (d+1) R <= 2^39", "why_tests_cant": "Error bounds hold for all inputs, ways of rounding and orders of summation; tests see one machine and a few matrices.", "anchors": ["bayeso/covariance.py:cov_se", "bayeso/covariance.py:cov_matern32", "bayeso/covariance.py:cov_matern52", "bayeso/covariance.py:cov_main", "bayeso/covariance.py:get_kernel_inverse", "bayeso/covariance.py:get_kernel_cholesky"]}
{"id": "C128", "title": "Figures are drawn and shown as their own call asks", "statement": "In a session of plotting calls every figure is set by LaTeX exactly if its own call asks for it, a figure with an infinite pause is shown until it is closed, one with a finite pause for that time, and calls that pause leave no figure open, whatever calls came before. (The code keeps LaTeX and the interactive mode on after the first call that turns them on; proved are the exact dependence on earlier calls, the part that holds, and sessions that refute the rest.)", "quantifier": "all sessions of calls of the six plotting functions, starting states of pyplot, and options", "why_tests_cant": "The tests of the plotting functions only check that wrong arguments raise; what one call leaves to later ones depends on the whole session.", "anchors": ["bayeso/utils/utils_plotting.py:_set_font_config", "bayeso/utils/utils_plotting.py:_show_figure", "bayeso/utils/utils_plotting.py:plot_gp_via_sample"]}
{"id": "C129", "title": "Predictions in double precision", "statement": "Computed in double precision with any rounding to nearest, any product of matrices that has relative error gamma and loses at most t to underflow (rounded products added in any order have gamma = (4n+1)/2^53), and an inverse whose entries are off by theta, the posterior means, covariances and standard deviations of predict_with_cov differ from the exact ones of the same observations and hyperparameters by explicit multiples of the errors of the covariances, of theta, gamma and t and of the unit roundoff. If the residual of the computed inverse is at most r in each entry, theta is at most sqrt(n) r / (noise^2 + 1e-5 - n E). For at most 20 observations in 10 dimensions within 10 lengthscales, noise at least 0.1, residuals up to 3 and theta = 1e-9 the means are off by less than 2e-4. For arrays of rank 2 and any name that is none of the covariance functions for vectors the prediction is refused, with an AssertionError for a covariance function for sets and a ValueError for an unknown name.", "quantifier": "all roundings to nearest, products of matrices within the given error, exponential functions within eta <= 1/2, kernels of the package for plain inputs, hyperparameters, prior means, observations and test inputs with (d+1) R <= 2^39, and computed inverses", "why_tests_cant": "The bound holds for all data, ways of rounding and libraries for linear algebra; tests compare a few numbers with a tolerance on one machine.", "anchors": ["bayeso/gp/gp.py:predict_with_cov", "bayeso/gp/gp.py:predict_with_hyps", "bayeso/covariance.py:cov_main"]}
{"id": "C130", "title": "Covariances of finite inputs are numbers, however far the inputs are apart", "statement": "In double precision with overflow to infinities, covariances of finite inputs are numbers between zero and (about) the signal variance, those of inputs very far apart are zero, and the kernel matrix passes the check of the Cholesky decomposition for infinities and NaN. (The squared exponential covariance does this for all inputs that are finite in lengthscales. The Matern covariances multiply an infinite polynomial by a zero exponential: inputs more than 2^513 lengthscales apart have the covariance NaN and a fit with them raises ValueError; proved are this, and that nothing overflows, so that C127 applies, as long as scaled inputs are at most 2^200 and signal and noise at most 2^250.)", "quantifier": "all roundings to nearest, orders of summation, exponential functions within eta, hyperparameters and finite inputs of rank 2", "why_tests_cant": "Tests use inputs of ordinary size; whether some input of the whole range of doubles gives NaN is not sampled.", "anchors": ["bayeso/covariance.py:cov_se", "bayeso/covariance.py:cov_matern32", "bayeso/covariance.py:cov_matern52", "bayeso/covariance.py:get_kernel_cholesky"]}
{"id": "C131", "title": "Acquisition values in double precision", "statement": "Computed in double precision with any rounding to nearest, and a distribution function and density of the normal law with absolute error eta: probability of improvement stays in [0, 1], is within eta + 3/2^53 of the probability whatever the predictions are, and never reverses the order of the means; expected improvement is within (eta + 8/2^53)(|best - mean| + std) + 2^-1073 of its exact value, so the test point with the largest computed value has an exact value within twice that error of the largest; errors of the predictions enter at most 3/2 times (mean) and once (deviation); the upper confidence bound is within (eta + 6/2^53)(|mean| + |kappa std|) plus underflow and never reverses the order of means or deviations; augmented expected improvement is within (eta + 32/2^53)(|best - mean| + std) + 2^-1072 for a noise of at least 2^-400.", "quantifier": "all roundings to nearest, library functions within eta, lists of predictions and responses that are doubles, jitters with std + jitter > 0, weights and noises", "why_tests_cant": "The bounds hold for all predictions, jitters and libraries; tests compare a few values with a tolerance on one machine.", "anchors": ["bayeso/acquisition.py:pi", "bayeso/acquisition.py:ei", "bayeso/acquisition.py:ucb", "bayeso/acquisition.py:aei"]}
{"id": "C132", "title": "Acquisition values for infinite, NaN and certain predictions", "statement": "On floats that may be infinite or NaN the acquisition functions agree with those on reals for numbers with std + jitter > 0. Without jitter, a certain prediction (std = 0) has an expected improvement of exactly max(best - mean, 0) and a probability of improvement of 1 below the best response and 0 above it, except that a certain prediction equal to the best response is NaN (violation). Expected improvement is NaN exactly if the mean, the deviation or a response is NaN, the mean is plus infinity, the best response is minus infinity, the deviation is infinite with a mean of minus infinity or a best response of plus infinity, or a certain prediction equals the best without jitter; probability of improvement is NaN exactly in its corresponding cases. NaN predictions make their own value NaN, also of ucb, and a NaN response makes every pi, ei and aei value NaN. Augmented expected improvement of a certain prediction is zero under positive noise and NaN without noise.", "quantifier": "all lists of predictions, deviations and responses on extended floats, all jitters >= 0, noises, weights", "why_tests_cant": "Covers every combination of infinite, NaN and finite values and all real values; tests of the package feed only random finite predictions with a positive deviation.", "anchors": ["bayeso/acquisition.py:pi", "bayeso/acquisition.py:ei", "bayeso/acquisition.py:ucb", "bayeso/acquisition.py:aei"]}
{"id": "C133", "title": "The search for hyperparameters has a well-posed objective", "statement": "The negative log marginal likelihood of a Gaussian process (Cholesky and inverse path, with and without gradient), its leave-one-out likelihood and the negative log likelihood of a Student-t process have a value at every vector of non-zero hyperparameters (for Student-t: with more than two degrees of freedom), whatever the data, repeated inputs included. The value is a continuous function of the vector, so within the bounds of get_range_hyps a best vector exists. For Gaussian processes the value has a lower bound that depends on the noise only: log(2 pi (noise^2 + 1e-5))/2 for the marginal likelihood, log(2 pi / (1/(noise^2+1e-5) + 1e-5))/2 for leave-one-out. The Student-t likelihood has none: if the responses equal the prior mean it decreases without bound as the degrees of freedom approach two, so its lower bound of 2.00001 is needed.", "quantifier": "all data sets with at least one observation, plain and set inputs, all kernels, all vectors of non-zero hyperparameters, ARD or not, noise fixed or not", "why_tests_cant": "Continuity and existence of a minimum are statements about a continuum of hyperparameters; a test sees finitely many values.", "anchors": ["bayeso/gp/gp_likelihood.py:neg_log_ml", "bayeso/gp/gp_likelihood.py:neg_log_pseudo_l_loocv", "bayeso/tp/tp_likelihood.py:neg_log_ml", "bayeso/utils/utils_covariance.py:get_range_hyps", "bayeso/utils/utils_covariance.py:restore_hyps"]}
{"id": "C134", "title": "Signs of hyperparameters and the form of lengthscales do not matter", "statement": "Changing the sign of noise, signal or any lengthscale, or giving equal lengthscales as one float instead of an array, changes no covariance, kernel matrix, inverse or prediction of Gaussian and Student-t processes, nor any value of the three likelihoods; entries of the likelihood gradient change sign with their hyperparameter. So unbounded searches (BFGS, Nelder-Mead), which may return negative values, return usable surrogates.", "quantifier": "all kernels, plain and set inputs, data, prior means, non-zero hyperparameters and sign changes", "why_tests_cant": "An equality over all data sets and all real hyperparameters; tests use positive hyperparameters only.", "anchors": ["bayeso/covariance.py:cov_main", "bayeso/covariance.py:grad_cov_main", "bayeso/covariance.py:get_kernel_inverse", "bayeso/gp/gp_likelihood.py:neg_log_ml", "bayeso/gp/gp_likelihood.py:neg_log_pseudo_l_loocv", "bayeso/gp/gp.py:predict_with_hyps", "bayeso/tp/tp.py:predict_with_hyps", "bayeso/tp/tp_likelihood.py:neg_log_ml"]}
{"id": "C135", "title": "Forests are constant outside the data and change only half way between training values", "statement": "Forest predictions and their deviations do not change if a coordinate of a query beyond all training values of that coordinate is moved to the nearest training value, nor if a coordinate in which all training inputs agree is changed. Without random thresholds they change only half way between two training values of a coordinate. So the acquisition values that BOwTrees computes beyond the training inputs are those at their border, and they do not change within the cells.", "quantifier": "all data sets, dimensions, query lists, numbers of trees, depths, leaf sizes and random draws", "why_tests_cant": "A statement on all queries of a continuum, every data set and every sequence of random draws.", "anchors": ["bayeso/trees/trees_common.py:predict_by_trees", "bayeso/trees/trees_common.py:_split", "bayeso/trees/trees_generic_trees.py:get_generic_trees", "bayeso/trees/trees_random_forest.py:get_random_forest", "bayeso/bo/bo_w_trees.py:compute_acquisitions"]}
{"id": "C136", "title": "Fully grown forests reproduce the responses they have drawn", "statement": "If no two training inputs agree in a coordinate, thresholds are midpoints, leaves may hold one row and the depth suffices for all rows, then at a training input the forest mean misses the response by at most the share of trees that have not drawn the row times the range of the responses, and the variance is at most that share times the squared range. Trees on all rows drawn without replacement reproduce all responses with deviation zero. For random forests with uniform draws the expected error is at most ((n-1)/n)^n < 1/e times the range, for any number of trees.", "quantifier": "all data sets without ties, dimensions, numbers of trees and features, depths of at least n-1, and random draws", "why_tests_cant": "A bound for every data set, every forest size and every sequence of random draws, and an expectation over the draws.", "anchors": ["bayeso/trees/trees_common.py:subsample", "bayeso/trees/trees_common.py:split", "bayeso/trees/trees_common.py:predict_by_trees", "bayeso/trees/trees_generic_trees.py:get_generic_trees", "bayeso/trees/trees_random_forest.py:get_random_forest"]}
{"id": "C137", "title": "Trees and forests grown in double precision", "statement": "In double precision, with any rounding to nearest and any order of summation, growing a tree from a non-empty sample raises nothing and stops at the given depth; no leaf is empty, and together the leaves hold the training rows and nothing else. Thresholds at midpoints lie between neighbouring values, strictly if there is a double strictly between; random ones lie between the smallest and the largest value. If no feature has ties and between any two of its values there is a double, every row is in exactly one leaf, on its side of all thresholds; two neighbouring doubles, however, can end up in both leaves of a split that separates nothing. Samples have as many rows as the exact product says, or one more (5 rows with ratio 0.6 give 3, though the double 0.6 is below 3/5), never more rows than there are for ratios up to 1, and keep inputs and responses paired. Different numbers of inputs and responses, ratios that are not positive or above 1 without replacement, and empty data are an AssertionError, impossible numbers of features a ValueError.", "quantifier": "all roundings to nearest, orders of summation, samples of doubles, random choices of features, locations and rows, depths and sizes of leaves", "why_tests_cant": "Neighbouring doubles and products next to an integer do not come up in random test data, and the order of summation depends on the machine.", "anchors": ["bayeso/trees/trees_common.py:_split", "bayeso/trees/trees_common.py:split", "bayeso/trees/trees_common.py:subsample", "bayeso/trees/trees_generic_trees.py:get_generic_trees", "bayeso/trees/trees_random_forest.py:get_random_forest"]}
{"id": "C138", "title": "The split chosen in double precision is nearly the best", "statement": "With responses of size at most M, M^2 <= 4e7, the split chosen in double precision separates the rows whenever a tried split does, and its exact cost is at most that of any tried separating split plus 20 (n + 8) M^2 / 2^53. If all features are drawn, none has more than 21 distinct values and between any two values of a feature there is a double, the same holds against every threshold whatsoever, tried or not.", "quantifier": "all roundings to nearest, orders of summation, samples of n rows of doubles, random choices of features and locations", "why_tests_cant": "Compares exact costs over all thresholds and all data with the outcome of rounded arithmetic.", "anchors": ["bayeso/trees/trees_common.py:_split", "bayeso/trees/trees_common.py:_mse", "bayeso/trees/trees_common.py:mse"]}
{"id": "C139", "title": "Predictions of forests in double precision", "statement": "A query reaches the same leaf with and without rounding. The computed mean of a leaf with n responses of size at most M is off by (n + 1) M / 2^52 at most and the square of its deviation by 3 (n + 8) M^2 / 2^52; for a forest of T trees the mean is off by (n + T + 8) M / 2^51 at most, the square of the deviation by 10 (n + T + 8) M^2 / 2^52, hence the deviation by the root of that, and it is never negative. Errors of this kind do occur: three equal responses 2^53 - 2 have a computed mean that is not one of them and the deviation 1, and three trees that predict 60000001 with certainty make a forest with a deviation of about 0.7 instead of 0, or of 0 only because a negative variance is cut off. Predicting in chunks is predicting row by row.", "quantifier": "all roundings to nearest, orders of summation, forests over doubles, queries", "why_tests_cant": "The bounds hold for all data and orders of summation; tests compare a few values with a tolerance.", "anchors": ["bayeso/trees/trees_common.py:_predict_by_tree", "bayeso/trees/trees_common.py:_predict_by_trees", "bayeso/trees/trees_common.py:predict_by_trees", "bayeso/trees/trees_common.py:compute_sigma"]}
{"id": "C140", "title": "The upper confidence bound with its default, growing weight", "statement": "For choices by ucb with a weight that grows with the logarithm of the number of responses, as by default, functions of bounded norm and responses whose errors stay within a budget: from any number of points on, and for every eta > 0, there is a number of points, depending only on region, kernel, weight factor, budget and eta, among which one has a value at most the slack plus eta above the value at every point of the bounded region. Nothing is lost to the jitter of the predicted deviations. With exact responses and the default arguments, the best response is within eta of the best value of the region from then on; and choices that good are made infinitely often.", "quantifier": "all kernels of the package, hyperparameters, prior means, bounded regions, positive weight factors, functions, errors of the responses, sequences of choices", "why_tests_cant": "It is a limit statement, uniform over all functions of the ball and all sequences of choices.", "anchors": ["bayeso/acquisition.py:ucb", "bayeso/gp/gp.py:predict_with_hyps"]}
{"id": "C141", "title": "Choices with the Student-t process", "statement": "Pure exploration with predictions of the Student-t process makes exactly the choices it makes with the Gaussian process, so after a number of choices that depends only on region, kernel, budget and eta the predicted mean is within eta of any function of bounded norm. For functions of bounded norm and responses within an error budget R, the squared deviation the Student-t process predicts is at most (nu - 2 + R^2) / (nu - 2 + n) times the prior variance plus jitter at every point, wherever the n inputs are; even the weight kappa log(n + 1) of ucb times the deviation becomes arbitrarily small, so the scores become the negative means. Convergence of ucb as with the Gaussian process is violated: with default arguments there are functions for which the first point is chosen forever though the other point is much better, while with the Gaussian process the better point is chosen infinitely often.", "quantifier": "all kernels of the package, hyperparameters with more than 2 degrees of freedom, prior means, regions, functions, errors of the responses, sequences of choices of any length", "why_tests_cant": "The statements are about limits and about endless sequences of choices.", "anchors": ["bayeso/acquisition.py:ucb", "bayeso/acquisition.py:pure_explore", "bayeso/tp/tp.py:predict_with_cov", "bayeso/tp/tp.py:predict_with_hyps"]}
{"id": "C142", "title": "The upper confidence bound when hyperparameters and normalisation change at every choice", "statement": "As bo_w_gp re-estimates the hyperparameters and normalises the responses anew before every choice, C140 is restated for this: noise, signal, lengthscales, prior mean, the function to be predicted and the responses may all differ at every choice, as long as noise and signal stay below and lengthscales above positive bounds and the norm of what is predicted, with the kernel of that choice, and the errors stay within a budget. For every eta > 0 and from any number of points on, there is a number of points, depending only on region, kernel, weight factor, these bounds and eta, among which one has a value at most the slack plus eta above the value at every point of the bounded region. In particular, with exact responses of one function normalised by normalize_min_max before every choice, one point is within eta of the best value of the region, in the units of the function itself. Vectors within the ranges of get_range_hyps, which the bounded optimisers search, meet the bounds with noise at most 10, signal at most 1000 and lengthscales at least 1/100.", "quantifier": "all kernels of the package, sequences of hyperparameters within bounds, prior means, bounded regions, positive weight factors, functions, responses, sequences of choices", "why_tests_cant": "The claim bounds the number of choices uniformly over all functions, all sequences of hyperparameters and all sequences of choices; runs show finitely many of each.", "anchors": ["bayeso/acquisition.py:ucb", "bayeso/gp/gp.py:predict_with_hyps", "bayeso/utils/utils_bo.py:normalize_min_max", "bayeso/utils/utils_covariance.py:get_range_hyps"]}
{"id": "C143", "title": "Trees and forests when numbers overflow", "statement": "In double precision with overflow to infinities, get_generic_trees and predict_by_trees do on moderate data (at most 2^20 rows, inputs up to 2^1000 and responses up to 2^500 in size, samples below 2^20 rows, at most 2^20 trees) exactly what they do without an upper bound on doubles: the trees of C137 and C138, and the finite predictions of C139. Beyond that they fail: a sample with an infinite or NaN response cannot be split and raises a TypeError; so does a sample of finite responses in which no split keeps apart all responses that differ by 2^513 (2.7e154) or more; with responses between 2^514 and 2^900 every predicted deviation is NaN though the predicted mean is a number; two inputs whose sum overflows get an infinite threshold and both leaves hold both rows; and split_random_location raises an OverflowError as soon as it draws a feature whose range is beyond the doubles. A ratio that asks for more rows than a double can count is an OverflowError; what C137 rejects is rejected here as well.", "quantifier": "all data, samples, random generators that keep numpy's promises, orders of summation, ways to break ties between doubles, depths, leaf sizes, numbers of features, query points", "why_tests_cant": "Overflow depends on magnitudes no ordinary test uses, and the agreement on moderate data is for every order of summation and every tie rule, which a test on one machine cannot vary.", "anchors": ["bayeso/trees/trees_common.py:_mse", "bayeso/trees/trees_common.py:mse", "bayeso/trees/trees_common.py:_split", "bayeso/trees/trees_common.py:_split_random", "bayeso/trees/trees_common.py:split", "bayeso/trees/trees_common.py:compute_sigma", "bayeso/trees/trees_common.py:predict_by_trees", "bayeso/trees/trees_generic_trees.py:get_generic_trees", "bayeso/trees/trees_random_forest.py:get_random_forest"]}
{"id": "C144", "title": "Which training rows a forest prediction reads", "statement": "Every tree predicts with the rows of one leaf; if a row is in that leaf, so are all drawn rows in the box that the query spans with its input, in every dimension, at every depth and with random thresholds. In one dimension with midpoints the leaf holds the drawn row nearest to the query, of two equally near ones the upper. If no two training inputs agree in a coordinate, leaves may hold one row and the depth suffices for all rows, every tree reads one row, no other drawn row lies in the box it spans with the query, and the forest mean and deviation are the average and the spread of the responses of these rows; in one dimension these are the nearest ones, so that the forest is nearest-neighbour regression on the drawn rows, and for responses of a function with Lipschitz constant K the mean misses its value by at most K times the average distance to the nearest drawn inputs. Trees on all rows drawn without replacement predict the response of the nearest training input with deviation zero.", "quantifier": "all data sets, queries, numbers of trees, ratios and random draws; all dimensions, depths and leaf sizes for the first statement", "why_tests_cant": "The statement is about every query and every outcome of the random draws; tests evaluate a forest at a few points and cannot tell which rows a leaf holds.", "anchors": ["bayeso/trees/trees_common.py:_split_deterministic", "bayeso/trees/trees_common.py:split", "bayeso/trees/trees_common.py:_predict_by_tree", "bayeso/trees/trees_common.py:predict_by_trees", "bayeso/trees/trees_generic_trees.py:get_generic_trees"]}
{"id": "C145", "title": "Expected improvement when hyperparameters and normalisation change at every choice", "statement": "C125 is restated for what bo_w_gp does: noise, signal, lengthscales, prior mean and the function to be predicted may all differ at every choice, as long as noise and signal stay below and lengthscales above positive bounds, the prior means share a modulus of continuity and the norm of what is predicted, with the kernel of that choice, stays at most B. For every eta > 0 there is a number of choices by ei, depending only on region, kernel, modulus, these bounds and eta, among which there is one before which some response exceeded the value at every point of the bounded region by at most eta plus an explicit constant: the jitters of prediction and acquisition function and the slack of the choices, over the normal distribution function at -B. The same holds for aei with the noise of the hyperparameters of the choice, with the discount for the largest noise in the constant. With exact responses of one function normalised by normalize_min_max before every choice, the best response stays that close to the best value of the region from then on, in the units of the function itself: the constant is multiplied by the larger of one and a tenth of the spread of its values.", "quantifier": "all kernels of the package, sequences of hyperparameters within bounds, prior means with a common modulus of continuity, bounded regions, functions, starting points, sequences of choices", "why_tests_cant": "The claim bounds the number of choices uniformly over all functions, all sequences of hyperparameters and all sequences of choices; runs show finitely many of each.", "anchors": ["bayeso/acquisition.py:ei", "bayeso/acquisition.py:aei", "bayeso/gp/gp.py:predict_with_hyps", "bayeso/utils/utils_bo.py:normalize_min_max", "bayeso/bo/bo_w_gp.py:optimize"]}
{"id": "C146", "title": "Whole runs by expected improvement come close to the best value of the search space", "statement": "A run of BayesianOptimization with a Gaussian process and ei, from given rows or from initial rows it draws itself, on an exact target f: if fits return hyperparameters from a set H with signals at most smax and lengthscales at least lmin, the optimiser of the acquisition function (one start of L-BFGS-B, DIRECT or CMA-ES) finds its best value in the box up to delta, the prior mean is Lipschitz, and f, in the units of the normalised responses that can occur, differs from the prior mean by a function of norm at most B for every kernel of H, then for every eta > 0 there is a number of iterations, depending on the box, the kernel, B, the Lipschitz constant, smax, lmin and eta only, after which some recorded response exceeds f at every point of the box by at most runError + eta in these units (times the larger of one and a tenth of the spread of f). runError is explicit: the jitters, the noise of the package, the tolerance 1e-8 for duplicates and delta/10, over the normal distribution function at -B. Duplicates count: get_next_best_acquisition replaces a proposed point within 1e-8 of a row, possibly by the last row, and the run then has already come that close. A single step, with any acquisition function, proposes a point of the box whose score is within delta/10 of the best in the box, for the predictions from all rows by hyperparameters in H, which the object appends to its history. This holds for every way of fitting hyperparameters. With 'converged', responses are not normalised, so the units are those of f, and a step that no longer fits takes the last hyperparameters of the history, which are in H if the object is new or its last ones are.", "quantifier": "all boxes, dimensions, point kernels, accepted constructor arguments with gp and ei, prior means, hyperparameter fits within bounds, optimisers within their contract, targets, initial rows, numbers of iterations, clocks and states", "why_tests_cant": "The claim is about all targets of bounded norm and all sequences of fits and proposals; tests run a few targets with one optimiser and cannot tell luck from a guarantee.", "anchors": ["bayeso/wrappers/wrappers_bo_class.py:280-541", "bayeso/bo/bo_w_gp.py:113-192", "bayeso/bo/bo_w_gp.py:253-460", "bayeso/utils/utils_bo.py:50-160", "bayeso/acquisition.py:54-89"]}
{"id": "C147", "title": "Whole runs by the augmented expected improvement come close to the best value; whole runs by pure exploration become certain everywhere", "statement": "Under the assumptions of C146 on routines, prior mean and target, for every eta > 0 there is a number M of iterations that depends only on the box, the kernel, the bounds and eta such that a run of at least M iterations, from given rows or from initial rows it draws itself: (1) with aei, has recorded a response that exceeds f at every point of the box by at most runErrorAugmented + eta in the units of the fits (the error of C146 with the discount at the smallest deviation and the noise 0.01); (2) with pure_explore, has made one of its first M iterations with a fit that is certain everywhere: with the hyperparameters the object recorded in its history for this iteration, and the rows and normalised responses up to it, the deviation predicted at every point of the box is at most the root of the jitter and the squared deviation at a duplicate, plus delta/10 and eta, and the predicted mean differs from f in the units of the fit by at most B times the root of that bound squared minus the jitter.", "quantifier": "all boxes, dimensions, point kernels, accepted constructor arguments with gp and aei or pure_explore, prior means, hyperparameter fits within bounds, optimisers within their contract, targets, initial rows, numbers of iterations, clocks and states", "why_tests_cant": "The number of iterations serves all targets, fits and proposals at once; a test sees one run, and cannot look at the deviation at every point of the box.", "anchors": ["bayeso/wrappers/wrappers_bo_class.py:280-541", "bayeso/bo/bo_w_gp.py:253-460", "bayeso/acquisition.py:140-219", "bayeso/utils/utils_bo.py:50-160"]}
{"id": "C148", "title": "Choices by the probability of improvement", "statement": "If all responses so far were made at one input and equal a value below the constant prior mean (zero by default), this input has strictly the highest score by pi of all points, for every kernel, all hyperparameters and any number of responses, with the Gaussian and with the Student-t process. A search by pi that starts at such an input therefore chooses it forever, in every region, whatever the values elsewhere and even if the hyperparameters change at every choice. Whole runs of BayesianOptimization with gp and pi from one such row evaluate nothing but this row, with or without normalisation of the responses, with L-BFGS-B, DIRECT or CMA-ES, if these find the best point. Convergence to the best value as with ei (C125, C146) is violated: for every norm bound there are functions whose value there exceeds one elsewhere by the bound times signal times one less the correlation. What pi does guarantee for a function of norm at most B and exact responses is that the value at its choice exceeds the best so far by at most B (2 sd + jitter), sd the deviation predicted at the choice.", "quantifier": "all kernels of the package, hyperparameters with non-zero signal (changing at every choice), regions, functions, constant prior means (any prior mean for the last sentence), numbers of responses and iterations, accepted constructor arguments with gp and pi, hyperparameter fits, perfect optimisers, all ways of fitting hyperparameters ('regular', 'combined', 'converged')", "why_tests_cant": "The statements are about endless searches, all regions and all functions; a test sees a search stay for a while on one function.", "anchors": ["bayeso/acquisition.py:pi", "bayeso/gp/gp.py:predict_with_hyps", "bayeso/tp/tp.py:predict_with_hyps", "bayeso/bo/bo_w_gp.py:optimize", "bayeso/wrappers/wrappers_bo_class.py:optimize", "bayeso/wrappers/wrappers_bo_function.py:run_single_round_with_all_initial_information"]}
{"id": "C149", "title": "Zero, infinite and undefined hyperparameters", "statement": "For the four base kernels and any floats as hyperparameters, get_kernel_cholesky (and with it neg_log_ml on its default path) succeeds exactly if noise and signal are finite and no lengthscale is zero or NaN; in all other cases it raises ValueError, whatever the inputs, as soon as there is one. An infinite lengthscale, of either sign, is accepted and means that its coordinate is ignored: the matrix decomposed is that of the covariance over the other coordinates, which is the limit of growing finite lengthscales, and the likelihood is that of this matrix (C36). A zero lengthscale is no limit: the covariance of two inputs is NaN, also of an input with itself, except that the squared exponential gives 0 if the inputs have opposite signs in every coordinate with lengthscale zero. For finite, non-zero hyperparameters all this agrees with the exact model of C24 to C31.", "quantifier": "all base kernels, noises, signals and lengthscales that are any floats (one float or one per dimension), dimensions, numbers of inputs, inputs", "why_tests_cant": "Which combinations of zero, infinite and NaN values pass is a statement about all of them in every dimension and about all inputs; the tests use ordinary hyperparameters.", "anchors": ["bayeso/covariance.py:cov_se", "bayeso/covariance.py:cov_matern32", "bayeso/covariance.py:cov_matern52", "bayeso/covariance.py:cov_main", "bayeso/covariance.py:get_kernel_cholesky", "bayeso/utils/utils_covariance.py:validate_hyps_dict", "bayeso/gp/gp_likelihood.py:neg_log_ml"]}
{"id": "C150", "title": "Runs by pure exploitation and by the upper confidence bound", "statement": "If all responses so far were made at one input and equal a value below the constant prior mean (zero by default), this input has strictly the highest score by pure_exploit of all points, for every kernel, all hyperparameters with a signal and any number of responses, with the Gaussian and with the Student-t process. A search by pure_exploit that starts at such an input chooses it forever, and whole runs of BayesianOptimization with gp and pure_exploit from one such row evaluate nothing but this row if the optimiser finds the best point; so for every norm bound B there are functions whose value there exceeds one elsewhere by B times the signal times one less the correlation. A run by ucb with its default growing weight, from n0 rows with exact responses, has after enough iterations either a response within delta/10 + eta of every value of the search space (in units of normalised responses), or a point proposed after some n responses was a duplicate and the response at the row it duplicates is within an explicit error for the weight 2 log(n + 1).", "quantifier": "all kernels of the package, hyperparameters (changing at every choice), regions and boxes, functions of bounded norm, prior means, numbers of initial rows and iterations, accepted constructor arguments with gp, hyperparameter fits in a set with bounded signals and lengthscales bounded away from zero, optimisers that are exact up to delta, all ways of fitting hyperparameters ('regular', 'combined', 'converged')", "why_tests_cant": "The statements are about endless searches and about all functions, fits and optimisers at once; a test sees a finite search on one function.", "anchors": ["bayeso/acquisition.py:pure_exploit", "bayeso/acquisition.py:ucb", "bayeso/gp/gp.py:predict_with_hyps", "bayeso/tp/tp.py:predict_with_hyps", "bayeso/bo/bo_w_gp.py:optimize", "bayeso/wrappers/wrappers_bo_class.py:optimize", "bayeso/wrappers/wrappers_bo_function.py:run_single_round_with_all_initial_information"]}
{"id": "C151", "title": "Coverage of the band predicted by a Student-t process", "statement": "Under the Student-t process prior, the distance of a test value from the predicted mean in units of the predicted deviation has the Student-t distribution with mean zero, variance one and the predicted degrees of freedom, given almost every vector of responses and over all. So the band of c deviations contains the value with the probability this distribution gives to [-c, c], which is at least 1 - 0.37/c^2 whatever the degrees of freedom, and converges to the 2 Phi(c) - 1 of a Gaussian process as the degrees of freedom or the number of observations grow. All m test values lie in their bands together with probability at least 1 - 0.37 m/c^2, and the best scored test point under ucb exceeds every other by at most twice its weighted deviation with at least that probability for the weight in place of c. The band that plot_gp_via_distribution shades by default contains the true value at each test input with probability more than 0.9.", "quantifier": "all kernels, hyperparameters, degrees of freedom above 2, inputs, prior means, numbers of observations and test points, and all choices depending on the responses", "why_tests_cant": "Coverage is a statement about all response vectors weighted by the prior; a simulation estimates it for one kernel, one set of inputs and one number of degrees of freedom.", "anchors": ["bayeso/tp/tp.py:predict_with_hyps", "bayeso/tp/tp.py:predict_with_cov", "bayeso/acquisition.py:ucb", "bayeso/utils/utils_plotting.py:plot_gp_via_distribution"]}
{"id": "C152", "title": "Whole runs with a Student-t process", "statement": "A step of BayesianOptimization with the surrogate tp proposes a point of the search space whose score under the requested acquisition function, for predictions by the hyperparameters it records, is beaten by no other point by more than a tenth of the error of the optimiser. In a run by pure_explore from initial rows with exact responses, after a number of iterations that depends only on the box, the kernel and the bounds on hyperparameters and norm, some recorded hyperparameters predicted at every point of the search space with a deviation of at most sqrt((nu - 2 + B^2) / (nu - 2 + n)) times the small deviation of C147, and with a mean that is near the normalised target. In a run by pi or pure_exploit from rows that are all equal, with a response below the constant prior mean, every later row equals the first one if the optimiser finds the best point, so the target is never evaluated anywhere else.", "quantifier": "all accepted constructor arguments with tp, kernels of the package, degrees of freedom above 2, signals and lengthscales that fits return in a set with bounds, targets of bounded norm, boxes, prior means, numbers of initial rows and iterations, optimisers that are exact up to delta", "why_tests_cant": "The statements are about all targets, fits and optimisers at once and about runs of any length; a test sees a finite run on one function.", "anchors": ["bayeso/bo/bo_w_tp.py:optimize", "bayeso/tp/tp.py:predict_with_hyps", "bayeso/acquisition.py:pure_explore", "bayeso/acquisition.py:pi", "bayeso/acquisition.py:pure_exploit", "bayeso/wrappers/wrappers_bo_class.py:optimize"]}
{"id": "C153", "title": "The function-style interface on an object of the Gaussian process", "statement": "run_single_round, run_single_round_with_initial_inputs and run_single_round_with_all_initial_information, called with the BOwGP object that BayesianOptimization makes of the same arguments, do exactly what the methods of the class do (rows, responses, times, changes of the object, exceptions), and this object is the one BOwGP's constructor makes of these arguments. So rounds of accepted arguments with working routines return num_init + num_iter rows, the end-to-end guarantee of C146 holds for them, and by pi and pure_exploit they stay at the first row as in C148 and C150. Objects of other surrogates, unknown fitting modes and unknown initial designs are an AssertionError before anything happens; a number of samples below one or an unknown sampling method, which the class rejects in its constructor, is rejected only after the target was called on every initial input; without iterations the initial rows are returned.", "quantifier": "all accepted arguments with gp, objects, targets (also failing ones), numerical routines, clocks, seeds, numbers of initial rows and iterations, states of the object", "why_tests_cant": "Equality of two implementations for every target, routine and clock is beyond samples; so is a guarantee for all functions of bounded norm.", "anchors": ["bayeso/wrappers/wrappers_bo_function.py:run_single_round", "bayeso/wrappers/wrappers_bo_function.py:run_single_round_with_initial_inputs", "bayeso/wrappers/wrappers_bo_function.py:run_single_round_with_all_initial_information", "bayeso/wrappers/wrappers_bo_class.py:BayesianOptimization", "bayeso/bo/bo_w_gp.py:BOwGP"]}
{"id": "C154", "title": "The likelihood of the Student-t process for many responses", "statement": "With the Gamma function of doubles, the negative log likelihood of the Student-t process at every vector of hyperparameters within the bounds of the search is minus the logarithm of the Student-t density of the responses, divided by their number, up to the error of the Gamma function. (It is, as long as the degrees of freedom and the number of responses add up to at most 342, so for at most 142 responses. From 344 on the Gamma function of the numerator is an infinity and the value is minus infinity, whatever the data: with 342 responses or more at every vector within the bounds, so that all such fits end in the same hyperparameters; with fewer, vectors with many degrees of freedom beat all others whatever the data. From 344 degrees of freedom on the value is NaN. The gradient is the exact one throughout.)", "quantifier": "all Gamma functions with relative error at most 1/2 that overflow beyond 2^1024, kernels, inputs (also sets), responses, prior means, numbers of responses, hyperparameters, optimisers that stay within the bounds", "why_tests_cant": "Tests of the Student-t process use a handful of responses; the overflow needs more than 142, and then nothing raises: the fit just ignores the data.", "anchors": ["bayeso/tp/tp_likelihood.py:neg_log_ml", "bayeso/tp/tp_kernel.py:get_optimized_kernel", "bayeso/utils/utils_covariance.py:get_range_hyps"]}
{"id": "C155", "title": "What Thompson sampling amounts to", "statement": "Nothing that thompson_sampling_gp observes has any influence on where it looks, because of the defect of C54: the queries of a run that returns are the initial points and then the first test point of every pass, so two runs with the same draws of points query the same points in the same order, whatever their targets return, their fits and their sampled functions are and whether they normalise. With uniform sampling from independent draws the n + T queries of n initial points and T passes are independent and uniform on the search space, and the best response is at most t with probability exactly 1 - (1 - p)^(n + T), p the probability that the target at a uniform point is at most t: a run is random search.", "quantifier": "all boxes, dimensions, targets, sampling methods (for the first part), draws with this law, fits of the hyperparameters, generators of the sampled functions, numbers of initial points, passes and test points", "why_tests_cant": "A test sees one run, in which random queries look as good as any; that the queries ignore the responses is a statement about pairs of runs, and their law one about all of them.", "anchors": ["bayeso/thompson_sampling.py:thompson_sampling_gp_iteration", "bayeso/thompson_sampling.py:thompson_sampling_gp", "bayeso/gp/gp.py:sample_functions", "bayeso/bo/base_bo.py:BaseBO.get_samples"]}
{"id": "C156", "title": "The likelihood in double precision", "statement": "In double precision the Cholesky path of neg_log_ml returns minus the logarithm of the exact Gaussian density per response up to an explicit bound. The bound is stated for any exponential, logarithm, matrix product, factorisation and triangular solver of given accuracy: a quadratic form with the error of the residuals, of the kernel matrix and of the solution, a determinant with the error of the matrix, of the factor, of the logarithms and of the JITTER_LOG added to the diagonal, and the roundings of the sums. For at most 20 responses in at most 10 dimensions, inputs within 10 lengthscales of the origin, signal 1, noise variance between 0.01 and 1 and residuals up to 3, with routines accurate to 2^-50 and 1e-12, the computed value is within 2e-5 of the exact one. For arrays of rank 2 and any name that is none of the covariance functions for vectors the likelihood is refused, with an AssertionError for a covariance function for sets and a ValueError for an unknown name.", "quantifier": "all inputs of rank 2 within the stated radius, all hyperparameters, responses, prior means, orders of summation, roundings to nearest with any rule for ties, and library routines within the stated accuracies", "why_tests_cant": "Tests compare with values computed in the same precision by the same routines; the error against real arithmetic, for every order of operations a library may choose, is outside their reach.", "anchors": ["bayeso/gp/gp_likelihood.py:neg_log_ml", "bayeso/covariance.py:get_kernel_cholesky"]}
{"id": "C157", "title": "The choice of a candidate in double precision", "statement": "With a kernel matrix and an inverse computed as in C129, BOwGP computes predictions at every candidate with errors that do not depend on the candidate. If the acquisition values of candidates are computed from them in double precision, multiplied by MULTIPLIER_ACQ and compared by get_best_acquisition_by_evaluation, the candidate returned is one of the list, and its value under the exact posterior is at most an explicit amount below the largest value of any candidate. For expected improvement that value is the expectation of max(best - f(x), 0) itself; for the upper confidence bound it is -mean + 2 log(n+1) dev; for pure exploitation and exploration it is -mean and dev. For the probability of improvement it is the exact probability that f(x) lies below the best response, provided that the exact deviations exceed the error of the computed ones by a stated factor; for augmented expected improvement it is the expected improvement times 1 - noise / sqrt(dev^2 + noise^2), provided that the noise is at least 2^-400. For at most 20 responses between -10 and 10 in at most 10 dimensions, inputs within 10 lengthscales of the origin, signal 1 and noise variance between 0.01 and 1, the candidate chosen by expected improvement is within 0.02 of the best one.", "quantifier": "all training inputs of rank 2 and candidates within the stated radius, all responses, hyperparameters, prior mean functions, orders of summation, roundings to nearest with any rule for ties, and library routines within the stated accuracies", "why_tests_cant": "A test sees one chosen point and has only values computed in the same precision to judge it by; that no rounding, order of operations or library routine of the stated accuracy can make the code prefer a much worse candidate is a statement about all of them.", "anchors": ["bayeso/bo/bo_w_gp.py:compute_acquisitions", "bayeso/bo/bo_w_gp.py:optimize", "bayeso/utils/utils_bo.py:get_best_acquisition_by_evaluation", "bayeso/utils/utils_bo.py:choose_fun_acquisition"]}
{"id": "C158", "title": "A whole step of Bayesian optimization in double precision", "statement": "BOwGP.optimize with every number it computes itself rounded to double precision: normalisation of responses, fit of the hyperparameters, kernel matrix and inverse, predictions, acquisition values and choice. Whatever the library computes, a step that returns has a point of its candidates, all in the box, with no smaller computed objective among them, and has appended the fitted hyperparameters to its history, whose noise is 0.01 except in the mode 'converged'. With a library of ordinary accuracy, at most 10 responses that are not all equal, at most 2 dimensions, inputs and box within 2 lengthscales of the origin and a signal of at most 1, and no prior mean, a step with expected improvement proposes a point whose expected improvement under the exact posterior (exactly normalised responses, exact covariances) is at most 0.26 below that of any candidate, on the scale from 0 to 10 of normalised responses; and at most 0.26 plus tol/10 below that of any point of the box if some candidate is within tol of the smallest computed objective. The sum of log likelihoods the optimiser of the hyperparameters minimises is computed with an error of at most 0.22, so that with an optimiser that never gets worse the exact log likelihood under the fitted hyperparameters is at most 0.44 below the one under the initial values. With a library that makes no errors the step is the one of exact arithmetic. A step in the mode 'regular' with likelihood as criterion and L-BFGS-B returns if its optimisers return admissible values whenever their objectives have values. For arrays of rank 2 and any name that is none of the covariance functions for vectors the fit is refused, with an AssertionError for a covariance function for sets and a ValueError for an unknown name.", "quantifier": "all training inputs, responses that are doubles, boxes, clocks, states, samples, optimisers and libraries within the stated sizes and accuracies, all kernels, roundings to nearest with any rule for ties and all orders of summation", "why_tests_cant": "Rounding errors of five stages feed into one another, and a test can only compare the result with one that was computed in the same precision; that no library of the stated accuracy, and no rounding, makes a step propose a much worse point or fit much worse hyperparameters is a statement about all of them.", "anchors": ["bayeso/bo/bo_w_gp.py:optimize", "bayeso/bo/bo_w_gp.py:_optimize", "bayeso/gp/gp_kernel.py:get_optimized_kernel", "bayeso/gp/gp_likelihood.py:neg_log_ml", "bayeso/covariance.py:get_kernel_inverse", "bayeso/utils/utils_bo.py:normalize_min_max", "bayeso/utils/utils_bo.py:get_best_acquisition_by_evaluation"]}
{"id": "C159", "title": "The Student-t process in double precision", "statement": "Predictions of the Student-t process (predict_with_cov of tp.py) with every operation rounded to double precision, from a rounded kernel matrix and an inverse that is off by at most theta in each entry: means have the error bound of the Gaussian process, degrees of freedom are right up to one rounding, and covariances are within an explicit bound of the exact ones, which are those of the Gaussian process times c = (nu + beta - 2) / (nu + n - 2); the computed misfit beta and factor c have explicit error bounds. With numbers: for at most 20 responses between -3 and 3, at most 10 dimensions, inputs within 10 lengthscales of the origin, signal 1, noise variance between 0.01 and 1, 3 to a million degrees of freedom and an inverse off by at most 1e-9, means are within 6e-4 and deviations within 0.045 * sqrt(c) of the exact ones. For each of the six acquisition functions, the candidate that a BOwTP object then chooses has, under the exact predictive mean and deviation, a value that is at most an explicit bound below that of any candidate. For arrays of rank 2 and any name that is none of the covariance functions for vectors the prediction is refused, with an AssertionError for a covariance function for sets and a ValueError for an unknown name.", "quantifier": "all training inputs, candidates, responses that are doubles, prior means whose values are doubles, hyperparameters with more than 2 degrees of freedom, kernels, roundings to nearest with any rule for ties, orders of summation, and library functions of stated accuracy", "why_tests_cant": "The factor multiplies a covariance that is a difference of nearly equal numbers by a quotient whose numerator holds a quadratic form in an inverse matrix; a test sees errors of single data sets and has no exact values to compare with, while the bound holds for all data of the stated sizes.", "anchors": ["bayeso/tp/tp.py:predict_with_cov", "bayeso/bo/bo_w_tp.py:compute_posteriors", "bayeso/bo/bo_w_tp.py:compute_acquisitions", "bayeso/utils/utils_bo.py:get_best_acquisition_by_evaluation"]}
{"id": "C160", "title": "A step with random forests in double precision", "statement": "BOwTrees.optimize with every operation rounded to double precision: the forest has a hundred trees of depth at most five with non-empty leaves that hold pairs of inputs and normalised responses, all sampled candidates lie in the search space, and the one returned has the least of the reported (negated) acquisition values. For each of the six acquisition functions its value under the exact mean and deviation of the forest is at most an explicit bound below that of any candidate; probability of improvement needs deviations bounded away from their error. With numbers: for at most 1000 responses that are normalised and not all equal, the choices by ei, ucb, pure_exploit and pure_explore are within 1e-3 of the best candidate. A step returns for all data of doubles with a random forest, an allowed acquisition function, a box of doubles and sampled (not gridded) candidates. Without rounding the step is the exact one.", "quantifier": "all training inputs, responses that are doubles, random choices of the forest that meet numpy's contracts, draws that are doubles in [0, 1), roundings to nearest with any rule for ties, orders of summation, and library functions of stated accuracy", "why_tests_cant": "The choice depends on an argmin over rounded values of predictions that are themselves sums over a hundred rounded trees; a test sees one data set at a time and has no exact values to compare with, while the bound holds for all data, random choices and summation orders.", "anchors": ["bayeso/bo/bo_w_trees.py:get_trees", "bayeso/bo/bo_w_trees.py:compute_posteriors", "bayeso/bo/bo_w_trees.py:compute_acquisitions", "bayeso/bo/bo_w_trees.py:optimize", "bayeso/trees/trees_random_forest.py:get_random_forest"]}
{"id": "C161", "title": "A step with the Student-t process in double precision", "statement": "BOwTP.optimize with every operation rounded to double precision. Whatever its library computes, a step that returns has fitted hyperparameters with the default noise, appends them to the history, and returns a candidate inside the search space, none of which has a smaller computed objective. With a library of ordinary accuracy, 2 to 10 responses that are doubles, not all equal and normalised, at most 2 dimensions, no prior mean, fitted hyperparameters of ordinary size (signal at most 1, inputs and box within 2 lengthscales of the origin) and between 3 and a million degrees of freedom: computed means are within 0.043 and computed deviations within 0.147 times the root of c of the exact prediction, where c is the factor by which the Student-t process multiplies the covariance of the Gaussian process; with the expected improvement no candidate is better than the proposed point by more than 0.132 + 0.298 times the root of c, and if the optimiser brought one candidate within tol of the smallest computed objective in the box, no point of the box is better by more than that and tol / 10. A step returns with L-BFGS-B for the acquisition function if the likelihood has a value at such hyperparameters and the numerical optimisers return admissible values. Without rounding the step is the exact one. For arrays of rank 2 and any name that is none of the covariance functions for vectors the fit is refused, with an AssertionError for a covariance function for sets and a ValueError for an unknown name.", "quantifier": "all training inputs and responses as described, roundings to nearest with any rule for ties, orders of summation, libraries of stated accuracy, computed likelihoods, numerical optimisers, clocks and earlier histories", "why_tests_cant": "The error of the factor c is relative to a misfit that may be as large as 1e7 or as small as 10, and the choice is an argmin over rounded values; a test sees one data set at a time and has no exact prediction to compare with.", "anchors": ["bayeso/bo/bo_w_tp.py:optimize", "bayeso/bo/bo_w_tp.py:compute_acquisitions", "bayeso/tp/tp_kernel.py:get_optimized_kernel", "bayeso/tp/tp.py:predict_with_cov"]}
{"id": "C162", "title": "The likelihood of the Student-t process in double precision", "statement": "neg_log_ml of the Student-t process, with every operation rounded to double precision, returns minus the logarithm of the multivariate Student-t density of the responses (scale matrix: the covariance matrix with noise, with the factor (nu - 2)) over their number, up to an explicit error made of the errors of the four logarithms. Example: with at most 20 responses in at most 10 dimensions, inputs within 10 lengthscales of the origin, signal 1, noise variance between 0.01 and 1, residuals of size at most 3, between 3 and 200 degrees of freedom, exponentials and logarithms with relative error 2^-50, a Gamma function with relative error 1e-12, and an inverse and a logarithm of the determinant right up to 1e-9, the computed value is within 0.01 of the exact one. For the normalised responses of a step of BOwTP as in C161, with the default noise and between 3 and 200 degrees of freedom, the computed value times the number of responses is within 2.7 (nu + 10) / (nu + 100) of minus the exact log density; if the optimiser of the hyperparameters never ends with a larger computed value than it started with, the exact log likelihood of the fitted hyperparameters is at most 0.39 + 2.7 (nu + 10) / (nu + 100) below the one of the hyperparameters the fit starts from. Such a step returns, with the value of the likelihood computed rather than assumed to exist. Without rounding and with exact routines the computation is the value of neg_log_ml. For arrays of rank 2 and any name that is none of the covariance functions for vectors the likelihood is refused, with an AssertionError for a covariance function for sets and a ValueError for an unknown name.", "quantifier": "all training inputs, responses, prior means and hyperparameters with at least 2 + 2^-20 degrees of freedom (nu + n at most 340, below the overflow of the Gamma function), covariance functions for vectors, roundings to nearest with any rule for ties, orders of summation, and routines for the inverse, the determinant, logarithms and the Gamma function of stated accuracy", "why_tests_cant": "The exact density is not available to compare with, the Gamma function turns a rounding error of its argument into a larger one, and the error of the misfit is multiplied by (nu + n) / 2; a test sees one data set and one order of summation.", "anchors": ["bayeso/tp/tp_likelihood.py:neg_log_ml", "bayeso/tp/tp_kernel.py:get_optimized_kernel"]}
