{"id": "C01", "title": "Constraint bijectors always land in their declared range", "statement": "For every real unconstrained value, Softplus.forward is strictly positive, SoftMin(min).forward is strictly above min, SoftMax(max).forward is strictly below max, and SoftMinMax(min,max).forward with min<max lies strictly between min and max.", "quantifier": "all reals x, all real bounds (min<max)", "why_tests_cant": "a continuum of real inputs; sampling cannot exclude a counterexample", "anchors": ["gpx/bijectors.py: softplus, softmin, softmax, softminmax, Softplus, SoftMin, SoftMax, SoftMinMax"]}
{"id": "C02", "title": "forward(backward(v)) gives v back up to the 1e-300 jitter", "statement": "For every v inside the declared range, forward(backward(v)) differs from v by at most the documented 1e-300 guard (exactly +1e-300 for Softplus and SoftMin, -1e-300 for SoftMax, and a bounded multiple for SoftMinMax).", "quantifier": "all reals v in the range of the bijector, all bounds", "why_tests_cant": "a continuum of real inputs; sampling cannot exclude a counterexample", "anchors": ["gpx/bijectors.py: softplus, inverse_softplus, inverse_softmin, inverse_softmax, inverse_softminmax"]}
{"id": "C03", "title": "backward(forward(u)) gives u back up to an explicit jitter error", "statement": "For every real u, backward(forward(u)) is u plus an error that is zero when the jitter is zero and is bounded by (e^jitter-1)(1+e^-u) for Softplus, with the same bound transported to SoftMin and SoftMax. For SoftMinMax(min,max) the result is a number exactly when (e^jitter-1) e^(min-max) (1+e^(min-u)) < 1, and its error is an explicit function of u that is zero when the jitter is zero.", "quantifier": "all reals u, all bounds", "why_tests_cant": "a continuum of real inputs; sampling cannot exclude a counterexample", "anchors": ["gpx/bijectors.py: softplus, inverse_softplus, SoftMin, SoftMax"]}
{"id": "C04", "title": "Bijectors are strictly increasing", "statement": "Every bijector's forward map is strictly increasing, so optimising in the unconstrained space never folds two constrained values together.", "quantifier": "all pairs of reals, all bounds", "why_tests_cant": "a continuum of real inputs; sampling cannot exclude a counterexample", "anchors": ["gpx/bijectors.py: Softplus, SoftMin, SoftMax, SoftMinMax, Identity"]}
{"id": "C05", "title": "Prior log-densities are normalised log-densities", "statement": "exp(NormalPrior.logpdf(x)) and exp(GammaPrior.logpdf(x)) (x>0) are the normal and gamma probability densities with the given loc/scale and shape/rate, and integrate to one.", "quantifier": "all locations, all positive scales/shapes/rates, all x", "why_tests_cant": "an integral over the whole line for every parameter value", "anchors": ["gpx/priors.py: normal_logpdf, gamma_logpdf, NormalPrior, GammaPrior"]}
{"id": "C06", "title": "NormalPrior.sample has the law of NormalPrior.logpdf", "statement": "If the library's standard normal draw is N(0,1), NormalPrior.sample is distributed as N(loc, scale^2), the distribution whose log-density logpdf evaluates; the gamma sampler divided by the rate has the Gamma(shape, rate) law.", "quantifier": "all loc, scale, shape, rate", "why_tests_cant": "a statement about distributions, not about finitely many draws", "anchors": ["gpx/priors.py: normal_sample, gamma_sample"]}
{"id": "C07", "title": "Dictionary flatten/unflatten is a round trip", "statement": "Flattening a nested parameter dictionary with a separator and unflattening it gives the same nested dictionary back, for every nesting and every key that does not contain the separator.", "quantifier": "all finite nested dictionaries and keys", "why_tests_cant": "unbounded nesting and arbitrary key strings", "anchors": ["gpx/parameters/utils.py: _flatten_dict, _unflatten_dict"]}
{"id": "C08", "title": "save followed by load restores a model", "statement": "Saving a model state and loading the file into a state of the same structure yields the saved parameter values and the saved registered options, leaving everything that is not stored untouched.", "quantifier": "all parameter trees, values and registered options", "why_tests_cant": "unbounded parameter trees, arbitrary option sets", "anchors": ["gpx/parameters/model_state.py: ModelState.save, ModelState.load", "gpx/parameters/utils.py: _flatten_dict, _unflatten_dict"]}
{"id": "C09", "title": "load refuses a file with a different number of parameters", "statement": "If the file holds a different number of parameters than the receiving state, load raises ValueError and the receiving state is not modified.", "quantifier": "all files and states", "why_tests_cant": "arbitrary trees on both sides", "anchors": ["gpx/parameters/model_state.py: ModelState.load"]}
{"id": "C10", "title": "update is a pure overlay", "statement": "state.update(d) returns a state whose kernel, mean function, parameters and options are those of d where given and those of the old state elsewhere; the old state is unchanged; any sequence of updates equals the overlay in order.", "quantifier": "all states, all update dictionaries, all finite sequences of updates", "why_tests_cant": "histories of arbitrary length", "anchors": ["gpx/parameters/model_state.py: ModelState.update, ModelState.copy"]}
{"id": "C11", "title": "update does not change the caller's dictionary", "statement": "Calling ModelState.update or Parameter.update leaves the dictionary passed by the caller as it was.", "quantifier": "all dictionaries", "why_tests_cant": "every subset of keys must be considered", "anchors": ["gpx/parameters/model_state.py: ModelState.update", "gpx/parameters/parameter.py: Parameter.update"]}
{"id": "C12", "title": "Optimiser proposals never touch frozen parameters and respect constraints", "statement": "Whatever vector the optimiser proposes, the rebuilt parameters keep every non-trainable parameter exactly, keep the tree structure, and put each trainable parameter inside the range of its bijector.", "quantifier": "all parameter trees, all real vectors of the right length", "why_tests_cant": "all trees and all real vectors", "anchors": ["gpx/optimizers/utils.py: ravel_backward_trainables, unravel_forward_trainables"]}
{"id": "C13", "title": "Ravel/unravel of the trainables is a round trip", "statement": "Unraveling the vector obtained by raveling a state's trainables returns the original parameters (up to the bijector jitter on trainables), and the vector's length is the total number of trainable scalars.", "quantifier": "all parameter trees whose trainable values lie in the range of their bijector (for SoftMinMax, outside the lowest sliver of C02, where backward returns no number)", "why_tests_cant": "all trees and values", "anchors": ["gpx/optimizers/utils.py: ravel_backward_trainables, unravel_forward_trainables"]}
{"id": "C14", "title": "randomize only redraws trainable parameters", "statement": "randomize returns a state with the same parameter structure in which every non-trainable parameter is unchanged and every trainable one is the forward image of a prior draw, no two trainables consuming the same random key, and options overlaid as requested. sample_prior of a single parameter changes its value alone, to such an image, inside the range of its bijector.", "quantifier": "all parameter trees and random keys", "why_tests_cant": "all trees; key reuse is invisible in a single run", "anchors": ["gpx/parameters/model_state.py: ModelState.randomize", "gpx/parameters/parameter.py: Parameter.sample_prior", "gpx/models/base.py: BaseGP.randomize"]}
{"id": "C15", "title": "Random restarts return the best run", "statement": "randomized_minimization performs num_restarts+1 minimisations, returns the state and optimiser result of the run with the smallest final loss (first one on ties), and the returned history lists all runs in order; the result is never worse than the first run.", "quantifier": "all losses, minimisers, keys and numbers of restarts", "why_tests_cant": "arbitrary minimisers and arbitrary restart counts", "anchors": ["gpx/models/utils.py: randomized_minimization, randomized_minimization_derivs, randomized_minimization_ol"]}
{"id": "C16", "title": "Restarts without a key are refused before any work", "statement": "num_restarts>0 with key=None raises ValueError before the first minimisation; num_restarts=0 never needs a key.", "quantifier": "all arguments", "why_tests_cant": "every combination of arguments and minimisers", "anchors": ["gpx/models/utils.py: _check_random_key, randomized_minimization"]}
{"id": "C17", "title": "Looped and vectorised kernel evaluation agree", "statement": "kernelize(k, with_loops) yields the same matrix whether it scans or vmaps: entry (i,j) is k(x1[i],x2[j]).", "quantifier": "all base kernels, all batch sizes", "why_tests_cant": "all sizes and all kernel functions", "anchors": ["gpx/kernels/kernelizers.py: kernelize"]}
{"id": "C18", "title": "Derivative kernels place every derivative at the documented row/column", "statement": "grad_kernelize for argnums 0, 1 and (0,1) gives matrices whose (sample, feature)-flattened rows/columns hold the partial derivatives of the base kernel with respect to that feature of that sample; any other argnums raises ValueError.", "quantifier": "all differentiable base kernels, all batch sizes, feature counts", "why_tests_cant": "all sizes; index layout errors show up only for particular shapes", "anchors": ["gpx/kernels/kernelizers.py: grad_kernelize, _grad0_kernelize, _grad1_kernelize, _grad01_kernelize"]}
{"id": "C19", "title": "Jacobian-contracted kernels equal the full derivative kernels contracted", "statement": "d0kj, d1kj and d01kj equal d0k, d1k and d01k contracted with the jacobians over the feature axis, sample by sample, whether loops or vmap are used.", "quantifier": "all base kernels, sizes, jacobians", "why_tests_cant": "all sizes and jacobians", "anchors": ["gpx/kernels/kernelizers.py: _grad0jac_kernelize, _grad1jac_kernelize, _grad01jac_kernelize"]}
{"id": "C20", "title": "Coefficient-contracted kernels equal the contraction with the coefficients", "statement": "Summing d0kjc / d01kjc built from the contracted coefficients over training samples equals multiplying d0kj / d01kj with the coefficient vector.", "quantifier": "all base kernels, sizes, jacobians, coefficient vectors", "why_tests_cant": "all sizes and coefficients", "anchors": ["gpx/kernels/kernelizers.py: _grad0jaccoef_kernelize, _grad01jaccoef_kernelize", "gpx/models/_gpr.py: _predict_derivs_dense"]}
{"id": "C21", "title": "Kernels are symmetric", "statement": "k(x1,x2) is the transpose of k(x2,x1) for every kernel built from the library's kernels with sums, products and active_dims; d1k(x1,x2) is the transpose of d0k(x2,x1), and d01k(x1,x2) of d01k(x2,x1).", "quantifier": "all kernel expressions (repeated active features included), parameters, inputs", "why_tests_cant": "unbounded kernel expressions", "anchors": ["gpx/kernels/kernels.py: Kernel, Sum, Prod, Linear, Polynomial, SquaredExponential, Matern12, Matern32, Matern52, ExpSinSquared"]}
{"id": "C22", "title": "Gram matrices are positive semidefinite", "statement": "For admissible hyperparameters, k(x,x) is positive semidefinite for every kernel expression built with sums and products, so K+(sigma^2+1e-10)I is positive definite and the fit is well posed.", "quantifier": "all kernel expressions, admissible hyperparameters, all finite datasets (duplicates allowed)", "why_tests_cant": "all datasets of all sizes", "anchors": ["gpx/kernels/kernels.py", "gpx/kernels/operations.py: sum_kernels, prod_kernels"]}
{"id": "C23", "title": "Stationary kernels are bounded by their diagonal and translation invariant", "statement": "SquaredExponential, Matern and ExpSinSquared kernels take values in (0,1], equal their diagonal value at coincident points, and do not change when both inputs are shifted by the same vector.", "quantifier": "all inputs and positive hyperparameters", "why_tests_cant": "a continuum of real inputs; sampling cannot exclude a counterexample", "anchors": ["gpx/kernels/kernels.py: SquaredExponential, Matern12, Matern32, Matern52, ExpSinSquared", "gpx/utils.py: squared_distances, euclidean_distance"]}
{"id": "C24", "title": "Hand-written derivative kernels are the true derivatives", "statement": "The hand-coded d0k, d1k, d01k of Constant, Linear, Polynomial, SquaredExponential and Matern52 (and the custom_jvp rules of Matern32/Matern52) are the partial derivatives of the kernel they ship with, at every point including coincident points.", "quantifier": "all inputs, hyperparameters and feature pairs; lists of active features that name each feature once (C156 for repeated features)", "why_tests_cant": "a continuum of real inputs; sampling cannot exclude a counterexample; coincident points are measure zero", "anchors": ["gpx/kernels/kernels.py: Linear, Polynomial, SquaredExponential, Matern32, Matern52"]}
{"id": "C25", "title": "Hand-written jacobian contractions equal the contraction of the hand-written derivatives", "statement": "The closed-form d0kj, d1kj, d01kj, d01kjc of Linear, Polynomial, SquaredExponential and Matern52 equal the contraction of their derivative kernels with the jacobians (and coefficients).", "quantifier": "all inputs, jacobians, coefficients, sizes; lists of active features that name each feature once where the claim is about derivative kernels (C156 for repeated features)", "why_tests_cant": "all sizes", "anchors": ["gpx/kernels/kernels.py: *_d0kj, *_d1kj, *_d01kj, *_d01kjc"]}
{"id": "C26", "title": "Product kernels obey the product rule", "statement": "For Prod(k1,k2) the derivative kernels assembled from the factors equal the derivatives of the elementwise product, including the mixed second derivative and jacobian/coefficient variants.", "quantifier": "all pairs of kernels, all sizes", "why_tests_cant": "all kernels and sizes", "anchors": ["gpx/kernels/operations.py: prod_kernels*, Prod"]}
{"id": "C27", "title": "Sum kernels are additive in every derivative", "statement": "For Sum(k1,k2) the kernel and every derivative kernel is the sum of those of the factors.", "quantifier": "all pairs of kernels", "why_tests_cant": "all kernels and sizes", "anchors": ["gpx/kernels/operations.py: sum_kernels*, Sum"]}
{"id": "C28", "title": "active_dims isolates features", "statement": "A kernel restricted to active_dims does not depend on the other features and its derivatives with respect to inactive features are zero, its derivative with respect to an active feature being the corresponding derivative of the restricted kernel.", "quantifier": "all index lists without repetitions, all inputs", "why_tests_cant": "all subsets and inputs", "anchors": ["gpx/kernels/kernels.py: Kernel, active_dims handling"]}
{"id": "C29", "title": "Matrix-free products equal dense products", "statement": "The matrix-vector function built for the iterative solvers multiplies by exactly the matrix the dense solver builds, noise on the diagonal included, for any vector.", "quantifier": "all kernels, sizes, vectors, noise settings", "why_tests_cant": "all sizes and vectors; off-by-one in the diagonal update appears only for some shapes", "anchors": ["gpx/operations.py: rowfun_to_matvec, update_row_diagonal", "gpx/models/_gpr.py: _A_lhs, _Ax_lhs_fun, _A_derivs_lhs, _Ax_derivs_lhs_fun"]}
{"id": "C30", "title": "The preconditioner is the exact inverse of sigma^2 I + F F^T", "statement": "For sigma != 0 the preconditioner applied to z is (sigma^2 I + F F^T)^-1 z where F is the pivoted-Cholesky factor; it is symmetric positive definite.", "quantifier": "all factors F, sigma, vectors", "why_tests_cant": "all sizes and factors", "anchors": ["gpx/models/_gpr.py: _precond_rpcholesky, _precond_rpcholesky_derivs"]}
{"id": "C31", "title": "Dense fit solves the regularised system exactly and uniquely", "statement": "After fit, the stored coefficients satisfy (K+(sigma^2+1e-10)I)c = y - mu, they are the only such coefficients, and predictions at the training points equal y minus the noise term times c.", "quantifier": "all positive semidefinite kernels, datasets, noise levels", "why_tests_cant": "all datasets", "anchors": ["gpx/models/_gpr.py: _fit_dense, _predict_dense", "gpx/models/gpr.py: fit, predict"]}
{"id": "C32", "title": "Iterative and dense predictions agree", "statement": "predict, predict_derivs and predict_y_derivs return the same values with iterative=True and iterative=False, and with or without the contracted coefficients.", "quantifier": "all kernels, datasets, test sets", "why_tests_cant": "all sizes", "anchors": ["gpx/models/_gpr.py: _predict_dense, _predict_iter, _predict_derivs_dense, _predict_derivs_iter, _predict_y_derivs_dense, _predict_y_derivs_iter"]}
{"id": "C33", "title": "Posterior covariance is a covariance and never exceeds the prior", "statement": "The covariance returned by predict(full_covariance=True) is symmetric positive semidefinite and prior minus posterior is positive semidefinite, whatever the data.", "quantifier": "all kernels with positive semidefinite Gram matrices, all datasets", "why_tests_cant": "all datasets, including duplicated points", "anchors": ["gpx/models/_gpr.py: _predict_dense"]}
{"id": "C34", "title": "Log marginal likelihood is the Gaussian log density divided by the number of data", "statement": "For every number of output columns, the number of samples times the dense log marginal likelihood equals the sum over output columns of log N(y - mu; 0, K+(sigma^2+1e-10)I), and the iterative version equals the dense one when the linear solve and the log-determinant are exact.", "quantifier": "all datasets and parameters", "why_tests_cant": "all datasets", "anchors": ["gpx/models/_gpr.py: _lml_dense, _lml_iter, _lml_derivs_dense, _lml_derivs_iter"]}
{"id": "C35", "title": "Predictions do not depend on the order of the training data", "statement": "Permuting the training samples together with their targets leaves every prediction and the log marginal likelihood unchanged.", "quantifier": "all permutations of all datasets", "why_tests_cant": "n! orders for every n", "anchors": ["gpx/models/_gpr.py: _fit_dense, _predict_dense, _lml_dense"]}
{"id": "C36", "title": "Predictions are linear in the targets and equivariant under shifts", "statement": "Predictions are a linear function of the training targets for a fixed mean function that is linear; with data_mean, adding a constant to all targets adds that constant to all predictions. This holds for GPR trained on targets or derivatives, for SGPR (also with RPChol inducing points, and trained on derivatives) and for joint models (linear in targets and derivatives together; a shift concerns targets only).", "quantifier": "all datasets, targets, constants", "why_tests_cant": "all targets", "anchors": ["gpx/mean_functions.py: data_mean, zero_mean", "gpx/models/_gpr.py: _fit_dense, _predict_dense"]}
{"id": "C37", "title": "Pivoted Cholesky never over-subtracts", "statement": "For a positive semidefinite kernel matrix and any sequence of pivots, after every step the factor satisfies F F^T <= K in the Loewner order, the maintained diagonal equals diag(K - F F^T) and is nonnegative, so the pivot sampling weights are a valid distribution whenever their sum is nonzero; columns not yet built are zero.", "quantifier": "all positive semidefinite matrices, all pivot sequences, all numbers of steps", "why_tests_cant": "random pivots: all sequences must be covered", "anchors": ["gpx/kernels/approximations.py: rpcholesky, rpcholesky_derivs"]}
{"id": "C38", "title": "Pivots identify the sampled row", "statement": "Pivot indices decode to the (sample, derivative component) whose kernel row was used, they are always in range, and the rows used are the rows of the full kernel matrix.", "quantifier": "all sizes and pivots", "why_tests_cant": "all sizes", "anchors": ["gpx/kernels/approximations.py: rpcholesky, rpcholesky_derivs"]}
{"id": "C39", "title": "A pivot is never selected twice", "statement": "The landmark points chosen by pivoted Cholesky are distinct.", "quantifier": "all positive semidefinite kernels and all random keys", "why_tests_cant": "random choices", "anchors": ["gpx/kernels/approximations.py: rpcholesky", "gpx/models/_sgpr_rpchol.py: _fit_dense"]}
{"id": "C40", "title": "Lanczos returns a symmetric tridiagonal projection", "statement": "For a symmetric operator the tridiagonal matrix returned by Lanczos is symmetric and tridiagonal, the basis vectors are orthonormal, and the tridiagonal matrix is the projection of the operator on them (exactly while no off-diagonal entry falls below the breakdown threshold 1e-12, otherwise up to 2e-12).", "quantifier": "all symmetric operators, unit start vectors and numbers of steps, as long as the vectors drawn after a breakdown are independent of the previous ones", "why_tests_cant": "all operators and steps", "anchors": ["gpx/lanczos.py: lanczos_tridiagonal, orthogonalize, orthonormalize"]}
{"id": "C41", "title": "Centered kernels have zero mean", "statement": "Centering a Gram matrix gives zero row and column means and equals the Gram matrix of centered features; centering test blocks uses the training mean.", "quantifier": "all kernels and datasets", "why_tests_cant": "all sizes", "anchors": ["gpx/kernels/operations.py: kernel_center, kernel_center_test_test"]}
{"id": "C42", "title": "A model is never both fitted on targets and on derivatives", "statement": "After any sequence of construction, fit, fit_derivs, fit_ol, fit_nlopt, randomize, load and failed calls, at most one of the two fitted flags is set; predict and predict_ol succeed exactly when the last fit was on targets, predict_derivs/predict_y_derivs exactly when it was on derivatives; otherwise RuntimeError. Requesting a full covariance together with the iterative method is always a RuntimeError.", "quantifier": "all histories of API calls", "why_tests_cant": "histories of arbitrary length", "anchors": ["gpx/models/gpr.py: fit, fit_derivs, fit_ol, predict, predict_derivs, predict_y_derivs", "gpx/models/base.py: BaseGP.randomize"]}
{"id": "C43", "title": "Public fit methods accept their documented arguments", "statement": "SGPR.fit / SGPR_RPChol.fit / RBFNet.fit with documented arguments run the fit instead of raising TypeError.", "quantifier": "all inputs", "why_tests_cant": "the call fails for every input, so the claim is universal", "anchors": ["gpx/models/base.py: BaseGP.fit", "gpx/models/sgpr.py: fit", "gpx/models/rbfnet.py: RBFNet.fit", "gpx/models/utils.py: randomized_minimization"]}
{"id": "C44", "title": "Checkpoints never overwrite each other", "statement": "Successive calls of a state checkpointer write to pairwise different files, numbered consecutively, for any number of calls.", "quantifier": "all numbers of calls and file names", "why_tests_cant": "arbitrarily many calls (past 999)", "anchors": ["gpx/optimizers/scipy_optimize.py: StateCheckpointer"]}
{"id": "C45", "title": "Gradient-descent training records one loss per step and checks validation data", "statement": "optax_minimize returns a history of exactly nsteps losses; giving only one of x_val/y_val raises ValueError; the returned parameters are the constrained image of the final unconstrained ones.", "quantifier": "all losses, optimisers and step counts", "why_tests_cant": "arbitrary step counts", "anchors": ["gpx/optimizers/optax_optimize.py"]}
{"id": "C46", "title": "Model constructors reject wrongly typed parameters at any depth", "statement": "kernel_params is accepted iff every leaf at every depth is a Parameter; Parameter construction is refused iff value and prior disagree in shape or dtype.", "quantifier": "all nested dictionaries, all values", "why_tests_cant": "unbounded nesting", "anchors": ["gpx/models/utils.py: _check_recursive_dict_type, _check_object_is_type", "gpx/parameters/parameter.py: Parameter"]}
{"id": "C47", "title": "Sampling returns all requested samples", "statement": "sample returns n_samples draws for each output dimension.", "quantifier": "all means, covariances, sample counts", "why_tests_cant": "all sizes", "anchors": ["gpx/models/utils.py: sample"]}
{"id": "C48", "title": "Sparse fit solves the subset-of-regressors system and its iterative version multiplies by the same matrix", "statement": "SGPR's dense coefficients solve (sigma^2 K_mm + K_mn K_nm + 1e-10 I)c = K_mn (y-mu); the matrix-free operator equals the dense matrix for targets and for derivatives.", "quantifier": "all kernels, inducing points, data, vectors", "why_tests_cant": "all sizes; the derivative case breaks only for more than one derivative component and more than one inducing point", "anchors": ["gpx/models/_sgpr.py: _A_lhs, _Ax_lhs_fun, _A_derivs_lhs, _Ax_derivs_lhs_fun, _Hx_fun, _Hx_derivs_fun, _fit_dense"]}
{"id": "C49", "title": "Sparse predictive covariance depends on the training data", "statement": "The covariance returned by SGPR.predict(full_covariance=True) is the projected-process covariance K_xx - K_xm (K_mm + 1e-10)^-1 K_mx + sigma^2 K_xm (sigma^2 K_mm + K_mt K_tm + 1e-10)^-1 K_mx with t the training inputs and x the prediction points.", "quantifier": "all data", "why_tests_cant": "all data", "anchors": ["gpx/models/_sgpr.py: _predict_dense, _A_lhs"]}
{"id": "C50", "title": "SGPR_RPChol.predict_y_derivs honours full_covariance", "statement": "predict_y_derivs(full_covariance=True) returns a (mean, covariance) pair for all models that accept the flag.", "quantifier": "all inputs", "why_tests_cant": "all inputs", "anchors": ["gpx/models/_sgpr_rpchol.py: _predict_y_derivs_dense", "gpx/models/sgpr_rpchol.py: predict_y_derivs"]}
{"id": "C51", "title": "Prior samples use the same noise model as fit", "statement": "The covariance used by sample_prior is K + (sigma^2+1e-10) I for GPR and SGPR.", "quantifier": "all data and sigma", "why_tests_cant": "all sigma", "anchors": ["gpx/models/gpr.py: sample_prior", "gpx/models/sgpr.py: sample_prior"]}
{"id": "C52", "title": "Joint target/derivative model assembles a symmetric block system and its matrix-free product matches", "statement": "GPR_TD's training matrix is symmetric, positive definite when the base kernel's extended Gram matrix is PSD, and the matrix-free product followed by the reordering step equals the dense product, with one or two derivative blocks.", "quantifier": "all kernels, sizes, jacobians, vectors", "why_tests_cant": "all shapes: the reordering depends on every size", "anchors": ["gpx/models/gpr_td.py: _A_lhs, _Ax_lhs_fun"]}
{"id": "C53", "title": "GPR_TD log marginal likelihood counts all observations", "statement": "The dense GPR_TD log marginal likelihood uses the total number of observations (targets plus all derivative blocks) and agrees with the iterative version under exact solves.", "quantifier": "all data, with and without a second derivative block", "why_tests_cant": "all sizes", "anchors": ["gpx/models/gpr_td.py: _lml_dense, _lml_iter"]}
{"id": "C54", "title": "log_posterior is lml plus the sum of all log priors", "statement": "log_prior is the sum of the log-prior densities of all parameters at any depth, and log_posterior = lml + log_prior; the negated losses are exact negations.", "quantifier": "all parameter trees", "why_tests_cant": "all trees", "anchors": ["gpx/models/gpr.py: log_prior, log_posterior, neg_log_posterior"]}
{"id": "C55", "title": "Distances are the Euclidean distances", "statement": "euclidean_distance is the Euclidean norm of the difference, zero iff points coincide, and squared_distances is its square plus 1e-12.", "quantifier": "all point sets", "why_tests_cant": "a continuum of real inputs; sampling cannot exclude a counterexample", "anchors": ["gpx/utils.py: euclidean_distance, squared_distances"]}
{"id": "C56", "title": "fit with a requested history and no minimisation", "statement": "fit(return_history=True, minimize=False) returns normally.", "quantifier": "all inputs", "why_tests_cant": "universal claim", "anchors": ["gpx/models/base.py: BaseGP.fit"]}
{"id": "C57", "title": "Particle-swarm search keeps the best repetition", "statement": "pso_minimize returns the best of its repetitions and leaves bijectors, priors and trainability as they were.", "quantifier": "all objective functions and repeat counts", "why_tests_cant": "arbitrary repeat counts", "anchors": ["gpx/optimizers/pso_optimize.py: pso_minimize"]}
{"id": "C58", "title": "transform and its inverse", "statement": "transform(\"backward\") followed by transform(\"forward\") gives the parameters back up to jitter, only values change, and any other mode is rejected with ValueError.", "quantifier": "all parameter trees and mode strings", "why_tests_cant": "all trees", "anchors": ["gpx/parameters/model_state.py: ModelState.transform"]}
{"id": "C59", "title": "Random restarts start from fresh draws", "statement": "With num_restarts > 0, no starting value of a trainable parameter in one restart is drawn with the same random key as a starting value in another restart.", "quantifier": "all model states, restart counts, keys and key generators that never revisit a key", "why_tests_cant": "ranges over all parameter trees and restart counts; a collision shows up as correlated starts, not as a failure", "anchors": ["gpx/models/utils.py: randomized_minimization", "gpx/parameters/model_state.py: ModelState.randomize"]}
{"id": "C60", "title": "Scipy and NLopt training only touches trainable values and keeps them in range", "statement": "When fit minimises with scipy_minimize or NLoptWrapper, the state that is returned differs from the given one only in the values of trainable parameters; these lie in the range of their bijectors, the loss of the returned state is the objective at the point returned by the solver, and whenever the solver does not increase its objective the returned state is not worse than the starting one (the starting one being understood up to the bijector jitter).", "quantifier": "all model states, losses and solvers, whatever vector the solver returns", "why_tests_cant": "must hold for every point a solver may propose", "anchors": ["gpx/optimizers/scipy_optimize.py: scipy_minimize", "gpx/optimizers/nlopt_optimize.py: NLoptWrapper.optimize", "gpx/optimizers/utils.py: unravel_forward_trainables"]}
{"id": "C61", "title": "Gradient-descent training leaves frozen parameters alone", "statement": "optax_minimize returns the given state with only values of trainable parameters changed, every value in the range of its bijector; frozen parameters come back unchanged.", "quantifier": "all losses, numbers of steps, states and optimisers that do not move parameters without gradient", "why_tests_cant": "all histories of steps and all parameter trees", "anchors": ["gpx/optimizers/optax_optimize.py: train_with_constrained_parameters, optax_minimize", "gpx/parameters/model_state.py: ModelState.transform"]}
{"id": "C62", "title": "Kernel functions agree with their documented formulas up to the jitter", "statement": "k of SquaredExponential, Matern12, Matern32, Matern52 and ExpSinSquared equals the closed formula of the class documentation up to a stated tolerance (1e-12, 1e-6, sqrt(3)e-6, sqrt(5)e-6, exact) caused by the 1e-12 jitter in squared_distances.", "quantifier": "all inputs, hyperparameters, active_dims", "why_tests_cant": "a continuum of inputs; the error bound must hold uniformly", "anchors": ["gpx/kernels/kernels.py: squared_exponential_kernel, matern12_kernel, matern32_kernel, matern52_kernel, expsinsquared_kernel", "gpx/utils.py: squared_distances"]}
{"id": "C63", "title": "Kernel matrices are built sample by sample", "statement": "Evaluating a kernel (or any of its derivative kernels) on selected samples gives the selected rows and columns of the kernel matrix of all samples; in particular batching, subsetting, repeating or reordering samples never changes a value.", "quantifier": "all kernel expressions, hyperparameters, datasets and index lists", "why_tests_cant": "all subsets and orders of all datasets", "anchors": ["gpx/kernels/kernels.py: Kernel, Sum, Prod and the leaf classes", "gpx/kernels/kernelizers.py", "gpx/kernels/operations.py"]}
{"id": "C64", "title": "More training data never increases the posterior covariance", "statement": "For GPR with fixed hyperparameters, training on a dataset that contains all the samples of another one (in any order) gives a posterior covariance over any set of test points that is smaller or equal in the positive semidefinite order; in particular no predictive variance increases.", "quantifier": "every kernel expression with admissible parameters, every noise, every training set and every selection of distinct samples of it, every test set", "why_tests_cant": "It is an order relation between matrices of arbitrary size for all data; tests compare a few numbers.", "anchors": ["gpx/models/_gpr.py:_predict_dense", "gpx/models/gpr.py:GPR.predict"]}
{"id": "C65", "title": "Derivative Gram matrices are positive semidefinite", "statement": "For twice differentiable kernels the matrix of derivative-derivative kernel values contracted with any jacobians is symmetric positive semidefinite, so fitting on derivatives is well posed for every dataset.", "quantifier": "all smooth kernels of the library, datasets (with repeated samples), jacobians, hyperparameters", "why_tests_cant": "all matrix sizes and all data; tests check a few eigenvalues", "anchors": ["gpx/kernels/kernels.py: d01k, d01kj of every kernel class", "gpx/models/_gpr.py:_A_derivs_lhs"]}
{"id": "C66", "title": "Iterative fitting works on every nonempty dataset", "statement": "The iterative fit (pivoted Cholesky preconditioner and conjugate gradient) runs on every nonempty training set.", "quantifier": "all datasets, kernels, keys and numbers of pivots", "why_tests_cant": "boundary sizes for all kernels and keys", "anchors": ["gpx/kernels/approximations.py:rpcholesky", "gpx/models/_gpr.py:_fit_iter"]}
{"id": "C67", "title": "The stochastic log-determinant estimate is unbiased", "statement": "With as many Lanczos steps as the dimension, no inexact breakdown and eigenvalues at least 1e-36, each random vector contributes exactly the quadratic form of the matrix logarithm, and the average of lanczos_logdet over all random sign matrices is exactly the log-determinant.", "quantifier": "all symmetric positive definite matrices, dimensions, numbers of random vectors and keys", "why_tests_cant": "it is an expectation over all random draws and for all matrices; tests sample a few draws with loose tolerances", "anchors": ["gpx/lanczos.py:lanczos_logdet"]}
{"id": "C68", "title": "Lanczos quadrature is exact up to degree 2m-1", "statement": "For a unit start vector v and m Lanczos steps without inexact breakdown, the (0,0) element of the k-th power of the tridiagonal matrix equals v^T A^k v for every k up to 2m-1.", "quantifier": "all symmetric operators, start vectors, numbers of steps, powers up to 2m-1", "why_tests_cant": "ranges over all sizes, operators and powers", "anchors": ["gpx/lanczos.py:lanczos_tridiagonal"]}
{"id": "C69", "title": "Coefficients belong to the model's own hyperparameters and data", "statement": "Whenever a model reports being fitted, its stored coefficients are the ones the linear fit gives for its stored training data at its current hyperparameters.", "quantifier": "all histories of API calls", "why_tests_cant": "histories of arbitrary length, with calls that fail half-way", "anchors": ["gpx/models/base.py: BaseGP.fit, BaseGP.randomize", "gpx/models/gpr.py: fit, fit_derivs, fit_ol"]}
{"id": "C70", "title": "Sparse fit minimises the regularised training error", "statement": "The coefficients stored by SGPR.fit minimise, over all coefficient vectors, the sum of squared errors of SGPR.predict at the training points plus sigma^2 c^T K_mm c + 1e-10 |c|^2, for every output column.", "quantifier": "all kernel expressions, admissible hyperparameters, inducing points (also repeated), data, competing coefficients", "why_tests_cant": "a minimum over all competitors and all data cannot be sampled", "anchors": ["gpx/models/_sgpr.py: _fit_dense, _A_lhs, _predict_dense"]}
{"id": "C71", "title": "Sparse likelihood is a Gaussian log density", "statement": "For one output, n times the SGPR log marginal likelihood is the log density of the centred targets under a zero-mean Gaussian with covariance K_nm (K_mm + 1e-10)^-1 K_mn + (sigma^2 + 1e-10) I; the iterative version returns the same number when its solver and log-determinant are exact.", "quantifier": "all kernel expressions, admissible hyperparameters, inducing points, data", "why_tests_cant": "all sizes and data", "anchors": ["gpx/models/_sgpr.py: _lml_dense, _lml_iter, _Hx_fun"]}
{"id": "C72", "title": "Sparse derivative covariance and likelihood are defined", "statement": "SGPR's derivative predictions with full covariance and its derivative log marginal likelihood return a value for every number of derivative components and inducing points.", "quantifier": "all kernels, sizes, data", "why_tests_cant": "the failure depends on the relation between two sizes; tests fix them", "anchors": ["gpx/models/_sgpr.py: _predict_derivs_dense, _predict_y_derivs_dense, _lml_derivs_dense"]}
{"id": "C73", "title": "SGPR_RPChol is SGPR on selected training samples", "statement": "For every dataset with at least two samples, key and number of inducing points, SGPR_RPChol.fit and fit_derivs succeed, their inducing points (and jacobians) are training samples, the same for dense and iterative fits and all likelihoods, on targets or derivatives, all results are those of SGPR given these inducing points, and predictions are the kernel expansion over the selected samples.", "quantifier": "all kernels, datasets with at least two samples, keys, random generators, numbers of inducing points", "why_tests_cant": "all random keys and sizes", "anchors": ["gpx/models/_sgpr_rpchol.py: _fit_dense, _fit_iter, _fit_derivs_dense, _fit_derivs_iter, _lml_dense, _lml_iter, _lml_derivs_dense, _lml_derivs_iter, _predict_dense, _predict_iter, _predict_derivs_dense, _predict_derivs_iter, _predict_y_derivs_iter", "gpx/models/_rpcholesky.py: rpcholesky"]}
{"id": "C74", "title": "Samples have the documented mean and covariance", "statement": "When the normal generator delivers uncorrelated standard numbers, prior draws of GPR have mean zero and covariance K + (sigma^2 + 1e-10) I, posterior draws of GPR and SGPR (one output, or derivatives for GPR) have the mean and the covariance returned by predict with full covariance plus 1e-10 on the diagonal, different samples are uncorrelated, and sampling from the posterior of an unfitted model raises.", "quantifier": "all kernel expressions, admissible hyperparameters, data, sample counts, key-splitting functions and expectations", "why_tests_cant": "a statement about expectations over all keys and all data", "anchors": ["gpx/models/utils.py: sample", "gpx/models/gpr.py: sample_prior, sample_posterior, sample_posterior_derivs", "gpx/models/sgpr.py: sample_posterior", "gpx/models/base.py: BaseGP.sample"]}
{"id": "C75", "title": "Derivatives can be sampled for any number of components", "statement": "sample_derivs returns samples from the prior and, for fitted models, from the posterior, for every number of derivative components.", "quantifier": "all kernels, data with at least two samples, numbers of components", "why_tests_cant": "depends on the relation between two sizes", "anchors": ["gpx/models/gpr.py: sample_prior_derivs, sample_posterior_derivs", "gpx/models/sgpr.py: sample_prior_derivs, sample_posterior_derivs"]}
{"id": "C76", "title": "GPR_TD fits the documented joint system and predicts with it", "statement": "fit of a joint target/derivative model returns the unique coefficients solving the covariance-plus-noise system over all observations (targets centred, derivatives not), the predicted targets and derivatives are the cross-covariances times the coefficients (mean added to targets only), and the iterative fit and matrix-free prediction return the same values as the dense ones under exact solves. On a single sample the iterative fit always raises ValueError.", "quantifier": "all kernels, hyperparameters, datasets, jacobians, one or two derivative sets, keys and numbers of pivots", "why_tests_cant": "index bookkeeping depends on every size; equality for all data", "anchors": ["gpx/models/gpr_td.py: _fit_dense, _fit_iter, _predict_dense, _predict_iter, rpcholesky_TD"]}
{"id": "C77", "title": "The GPR_TD preconditioner is the exact inverse of a pivoted Cholesky approximation", "statement": "For two or more samples the preconditioner used by the iterative joint fit is built from the pivoted Cholesky factor F of the noise-free joint covariance at the returned pivots, F F^T never exceeds that covariance when this is PSD, and applying the preconditioner multiplies by the exact inverse of sigma_targets^2 I + F F^T.", "quantifier": "all kernels, datasets, jacobians, keys, pivot choices, numbers of pivots", "why_tests_cant": "all random pivot sequences", "anchors": ["gpx/models/gpr_td.py: rpcholesky_TD, _precond_rpcholesky_TD, _fit_iter"]}
{"id": "C78", "title": "The joint covariance of targets and derivatives is positive semidefinite", "statement": "For differentiable kernels the covariance matrix of all noise-free targets and derivatives is positive semidefinite, so the GPR_TD systems are well posed for every dataset.", "quantifier": "all smooth kernels of the library (sums and products), datasets, jacobians, hyperparameters", "why_tests_cant": "all matrix sizes and all data", "anchors": ["gpx/models/gpr_td.py: _A_lhs", "gpx/kernels/kernels.py: k, d0kj, d1kj, d01kj of every kernel class"]}
{"id": "C79", "title": "Derivative kernels are derivatives along any motion of the samples", "statement": "When the samples of a dataset depend on a coordinate and the jacobian holds the derivatives of their features with respect to it, d0kj and d1kj are the derivatives of the kernel matrix with respect to that coordinate and d01kj is the derivative of d0kj.", "quantifier": "all kernels of the library that are twice differentiable (sums and products), all differentiable paths, datasets, jacobians, hyperparameters", "why_tests_cant": "all paths and all data, coinciding samples included", "anchors": ["gpx/kernels/kernels.py: d0kj, d1kj, d01kj of every kernel class", "gpx/kernels/operations.py: prod_kernels_deriv_jac, prod_kernels_deriv01_jac"]}
{"id": "C80", "title": "Predicted derivatives are the derivatives of predicted targets", "statement": "For one fitted model, the derivatives it predicts (predict_derivs, predict_ol, GPR_TD.predict) at samples moving with a coordinate are the derivatives, with respect to that coordinate, of the targets it predicts (predict_y_derivs, predict_ol, GPR_TD.predict).", "quantifier": "all twice differentiable kernels, all fitted coefficients, training sets, paths, jacobians, dense and iterative predictions", "why_tests_cant": "all models, paths and data", "anchors": ["gpx/models/_gpr.py: _predict_derivs_dense, _predict_y_derivs_dense, _predict_derivs_iter, _predict_y_derivs_iter, _predict_ol", "gpx/models/_sgpr.py: _predict_derivs_dense, _predict_y_derivs_dense", "gpx/models/gpr_td.py: _predict_dense, _predict_iter"]}
{"id": "C81", "title": "fit_ol is the least squares fit of targets and derivatives", "statement": "The coefficients stored by fit_ol minimise, uniquely, the sum of the squared errors on the centred targets (with the noise term) and on the derivatives; the stored mean is the mean function of the targets.", "quantifier": "all kernels with admissible hyperparameters, data sets, jacobians, targets, derivatives, mean functions, noise levels", "why_tests_cant": "minimality over all coefficient vectors, for all data", "anchors": ["gpx/models/_gpr.py: _fit_ol, _predict_ol", "gpx/models/gpr.py: fit_ol"]}
{"id": "C82", "title": "The mean squared loss is the documented formula of the fitted model", "statement": "mse_loss equals 1/N times the sum of the squared errors on the targets plus coeff/(N*Natoms) times the sum of the squared norms of the errors on the derivatives, both of the predictions of the model that fit_ol returns for the same data; it is nonnegative and zero exactly when that model reproduces the data.", "quantifier": "all kernels, parameters, data sets, derivatives of shape (N, Natoms, jv), coefficients", "why_tests_cant": "all data and parameters", "anchors": ["gpx/models/_gpr.py: _mse", "gpx/models/gpr.py: mse_loss"]}
{"id": "C83", "title": "predict_ol returns the documented covariance", "statement": "predict_ol(x, jacobian, full_covariance=True) returns the predicted mean and K_nn - K_nm (K_mm + sigma^2 I)^-1 K_mn.", "quantifier": "all kernels, training sets, test sets, jacobians with any number of derivatives", "why_tests_cant": "all shapes and data", "anchors": ["gpx/models/_gpr.py: _predict_ol", "gpx/models/base.py: predict_ol"]}
{"id": "C84", "title": "Fitting methods can evaluate their default loss", "statement": "With minimize=True, each fitting method of each class calls its default loss with arguments the loss accepts, during and after the minimisation, for any loss_kwargs among the loss's optional arguments; a keyword the loss does not have is refused with TypeError.", "quantifier": "all classes, fitting methods, loss_kwargs dictionaries, values, losses offered by the modules, solvers", "why_tests_cant": "all keyword dictionaries and all combinations of class, method and loss", "anchors": ["gpx/models/base.py: BaseGP.fit, fit_derivs, fit_ol, fit_nlopt", "gpx/models/gpr_td.py: GPR_TD.fit", "gpx/models/utils.py: loss_fn_with_args, randomized_minimization, randomized_minimization_derivs, randomized_minimization_ol", "gpx/optimizers/scipy_optimize.py: scipy_minimize, scipy_minimize_derivs, scipy_minimize_ol"]}
{"id": "C85", "title": "loss_kwargs given to fit is left unchanged", "statement": "The dictionary passed as loss_kwargs to fit, fit_derivs, fit_nlopt or GPR_TD.fit is the same after the call as before, so it can be reused for other models.", "quantifier": "all dictionaries, all values of the other arguments", "why_tests_cant": "all dictionaries and call sequences", "anchors": ["gpx/models/base.py: BaseGP.fit, fit_derivs, fit_nlopt", "gpx/models/gpr_td.py: GPR_TD.fit"]}
{"id": "C86", "title": "Models built with default parameters stay well posed however they are trained", "statement": "Every kernel (and every sum and product of kernels) has default parameters the constructors accept: scalars in double precision with their documented values and trainability, and priors that are probability densities. Starting from them, after any sequence of storing results, training with SciPy, NLopt or Optax under any loss and any solver, and randomize calls, every parameter the numerical code looks up is still there as a single number with the same bijector, prior and trainability; the kernel parameters are still ones for which the kernel is a kernel and the noise is positive, so the regression system of every dataset is positive definite and has exactly one solution. (Part of it is false: Optax turns the degree of a polynomial kernel into a non-integer.)", "quantifier": "every kernel expression, every mean function and options, every finite sequence of training, storing and randomising steps, every solver, loss, sampler and dataset", "why_tests_cant": "a test trains a few kernels a few times; the claim is about every kernel expression and every history of training steps", "anchors": ["gpx/kernels/kernels.py: default_params", "gpx/models/gpr.py: default_params, init", "gpx/models/sgpr.py: default_params, init", "gpx/optimizers/utils.py: unravel_forward_trainables", "gpx/optimizers/optax_optimize.py: optax_minimize", "gpx/parameters/model_state.py: randomize, update"]}
{"id": "C87", "title": "RBF network predictions are pointwise weighted kernel sums", "statement": "Without kernel centering, RBFNet prediction at every sample is the output layer of the weighted sum, over the inducing points, of the kernel between inducing point and that sample, and the stored k_mean is returned unchanged. A sample's linear prediction does not depend on the other samples in the call (also with centering on a stored k_mean), the order of the inducing points does not matter when the weights are reordered with them, and the linear prediction is linear in the weights.", "quantifier": "every kernel built from the library's kernels with sums and products, every kernel parameter, dataset, number of samples, inducing points, weights, output layer, selection of samples", "why_tests_cant": "batch independence, reordering and linearity relate infinitely many pairs of calls over all sizes and kernels", "anchors": ["gpx/models/rbfnet.py:_predict_linear", "gpx/models/rbfnet.py:_predict", "gpx/kernels/operations.py:kernel_center"]}
{"id": "C88", "title": "The RBF network training loss is a ridge objective with a unique minimiser", "statement": "Without centering and without a stored k_mean, the RBFNet training loss is the mean over all entries of the squared residual plus alpha/n times the squared norm of the weights; it is nonnegative for alpha >= 0; and with the identity output layer and alpha > 0 exactly one choice of the weights minimises it, the solution of the ridge normal equations.", "quantifier": "every kernel expression, parameters, inducing points (repeated or not), dataset, targets, alpha, output layer", "why_tests_cant": "uniqueness of the minimiser compares against every other weight matrix", "anchors": ["gpx/models/rbfnet.py:_train_loss", "gpx/models/rbfnet.py:train_loss"]}
{"id": "C89", "title": "Centered RBF networks can be evaluated and trained", "statement": "With center_kernel, RBFNet predictions and training loss can be computed from a fresh model and from a state without k_mean, for every number of samples and inducing points.", "quantifier": "every kernel, number of inducing points, number of samples, state", "why_tests_cant": "the failure depends on the numbers of samples and inducing points; equal numbers pass", "anchors": ["gpx/models/rbfnet.py:_predict_linear", "gpx/models/rbfnet.py:_train_loss", "gpx/models/rbfnet.py:init"]}
{"id": "C90", "title": "A fit that raises leaves the model as it was", "statement": "If a call of fit, fit_derivs, fit_ol or fit_nlopt raises, at whatever point (first optimisation, any restart, linear fit, storing the history), the model object is as it was before the call.", "quantifier": "every model object reachable by API calls, optimiser behaviour, point of failure, number of restarts, flags", "why_tests_cant": "the failure can happen at any of unboundedly many points of any optimiser run", "anchors": ["gpx/models/base.py: BaseGP.fit, fit_derivs, fit_ol, fit_nlopt", "gpx/models/utils.py: randomized_minimization"]}
{"id": "C91", "title": "Training records belong to the present model", "statement": "After a fit with return_history the object's states_history_ and losses_history_ list the num_restarts+1 runs in order, losses are those of the listed states, and the model is the linear fit of the best of them; the records an object shows always belong to the optimisation its present state comes from.", "quantifier": "every object, sequence of fit calls, optimiser, number of restarts, flags; load and randomize", "why_tests_cant": "quantifies over sequences of calls and all optimiser behaviours", "anchors": ["gpx/models/base.py: BaseGP.fit, fit_derivs, fit_ol, fit_nlopt, load, randomize, from_state"]}
{"id": "C92", "title": "Posterior is likelihood plus prior, and the neg_ functions are negatives", "statement": "For every model state, data and optional arguments, log_posterior(state, x, y, ...) equals log_marginal_likelihood called with the same arguments plus log_prior(state), log_posterior_derivs likewise, and each neg_* function is the exact negative of the function it is named after; they raise exactly when those raise. (It is false for SGPR and SGPR_RPChol: log_posterior drops key_lanczos, so an iterative posterior is computed with the default key.)", "quantifier": "all model states with any parameter tree, all data, all values of iterative, num_evals, num_lanczos, key_lanczos, n_pivots, key_precond, all three models", "why_tests_cant": "The identity must hold for every combination of arguments; tests evaluate a few with the default key, for which the dropped argument is invisible.", "anchors": ["gpx/models/gpr.py:log_posterior", "gpx/models/gpr.py:neg_log_posterior", "gpx/models/sgpr.py:log_posterior", "gpx/models/sgpr_rpchol.py:log_posterior", "gpx/models/sgpr.py:neg_log_marginal_likelihood"]}
{"id": "C93", "title": "Likelihoods on derivatives ignore the mean function", "statement": "For every state, data and arguments, log_marginal_likelihood_derivs and log_posterior_derivs of GPR, SGPR and SGPR_RPChol return the same result for two states that differ only in their mean function.", "quantifier": "all model states, all mean functions, all data and optional arguments", "why_tests_cant": "It ranges over all mean functions and states; a test compares a few.", "anchors": ["gpx/models/gpr.py:log_marginal_likelihood_derivs", "gpx/models/sgpr.py:log_marginal_likelihood_derivs", "gpx/models/sgpr_rpchol.py:log_marginal_likelihood_derivs"]}
{"id": "C94", "title": "Pytree round trips and copies preserve parameters and states", "statement": "For every model state with valid parameters: flattening it with jax.tree_util and rebuilding it gives a state with the same kernel, mean function, options and parameters at every key path; tree_map with a function that keeps shapes and dtypes changes exactly the parameter values, at every path, and nothing else; tree_map with a function that changes the shape or dtype of any parameter raises, as does rebuilding from the wrong number of arrays; copy() returns the same state. The same holds for a single Parameter.", "quantifier": "all states with nested parameter dictionaries of any depth and size, all array functions, all lists of arrays", "why_tests_cant": "It ranges over all nestings, orders of keys and array functions; a test maps one function over one tree.", "anchors": ["gpx/parameters/model_state.py:ModelState.tree_flatten", "gpx/parameters/model_state.py:ModelState.tree_unflatten", "gpx/parameters/model_state.py:ModelState.copy", "gpx/parameters/parameter.py:Parameter.tree_flatten", "gpx/parameters/parameter.py:Parameter.tree_unflatten", "gpx/parameters/parameter.py:Parameter.copy"]}
{"id": "C95", "title": "Sparse models predict with the coefficients and inducing points of their last fit", "statement": "For SGPR and SGPR_RPChol, right after fit on any state, predict evaluates the prediction at exactly the coefficients, mean, hyperparameters and inducing points of that fit, and predict_derivs and predict_y_derivs raise RuntimeError; after fit_derivs it is the other way round. After init and after randomize(reset=True) all three raise RuntimeError, and a full covariance with the iterative method always does. SGPR without jacobian_locs raises KeyError in fit_derivs.", "quantifier": "all states, hence all histories, all data and options", "why_tests_cant": "the state may hold values of arbitrarily many earlier fits of both kinds", "anchors": ["gpx/models/sgpr.py: init, fit, fit_derivs, predict, predict_derivs, predict_y_derivs", "gpx/models/sgpr_rpchol.py: init, fit, fit_derivs, predict, predict_derivs, predict_y_derivs"]}
{"id": "C96", "title": "The key of SGPR_RPChol's init is optional", "statement": "sgpr_rpchol.init may be called without a key, its documented default, and then builds a state.", "quantifier": "all kernels, numbers of inducing points, parameters and times of the call", "why_tests_cant": "depends on the clock; must hold at every time", "anchors": ["gpx/models/sgpr_rpchol.py: init"]}
{"id": "C97", "title": "GPR_TD.predict returns what the trained model implies, whichever derivatives are asked for", "statement": "Whatever a GPR_TD was trained on (one set of derivatives or two) and whatever predict is asked for (jacobian only, or jacobian and jacobian_2), dense and iterative prediction return the targets, the derivatives along jacobian and, if asked for, the derivatives along jacobian_2 implied by the fitted coefficients.", "quantifier": "all kernel expressions, parameters, training sets, coefficients, numbers of components, new samples and jacobians, dense and iterative, all four combinations of training and prediction sets", "why_tests_cant": "the combinations interact with every kernel and every shape; one of the failing combinations raises nothing and returns an empty array", "anchors": ["gpx/models/gpr_td.py:_A_lhs", "gpx/models/gpr_td.py:_Ax_lhs_fun", "gpx/models/gpr_td.py:_predict_dense", "gpx/models/gpr_td.py:_predict_iter", "gpx/models/gpr_td.py:GPR_TD.predict"]}
{"id": "C98", "title": "A GPR_TD object predicts from its last fit", "statement": "After any sequence of construction and fit calls that return or raise, predict raises RuntimeError if no fit has taken place and otherwise uses the samples, jacobians (second jacobian or none), coefficients and mean of the last fit only; right after a fit that returns, the coefficients are those of the model's own parameters; a fit that needs a noise parameter which was not given raises AttributeError and, without optimisation, leaves the object unchanged.", "quantifier": "all histories of a GPR_TD object, all data, optimisers, restarts and keyword arguments", "why_tests_cant": "the histories are unbounded and mix fits with one and two sets, failures and optimisations", "anchors": ["gpx/models/gpr_td.py:GPR_TD.__init__", "gpx/models/gpr_td.py:GPR_TD.fit", "gpx/models/gpr_td.py:GPR_TD.predict"]}
{"id": "C99", "title": "A GPR_TD object can be saved and loaded", "statement": "Every GPR_TD that was given its kernel parameters and the noise parameters it uses can be saved; loading the file into a GPR_TD with the same parameter names restores parameter values and training record.", "quantifier": "all parameter dictionaries, states and histories of a GPR_TD", "why_tests_cant": "it must hold in every state; the failing case is that of every model for one set of derivatives", "anchors": ["gpx/models/gpr_td.py:GPR_TD.save", "gpx/models/gpr_td.py:GPR_TD.load", "gpx/parameters/model_state.py:ModelState.save", "gpx/parameters/utils.py:_flatten_dict"]}
{"id": "C100", "title": "GPR_TD.fit uses the preconditioner key it is given", "statement": "The random key passed to GPR_TD.fit as key_precond is the one with which the pivots of the preconditioner are drawn in the iterative fit.", "quantifier": "all keys, data, parameters and numerical routines", "why_tests_cant": "the effect of the key on the coefficients is hidden by the convergence of the solver; only for all routines can it be told whether the key is passed on", "anchors": ["gpx/models/gpr_td.py:GPR_TD.fit", "gpx/defaults.py"]}
{"id": "C101", "title": "An RBFNet is what its constructor was given, and stays well formed", "statement": "RBFNet(key, kernel, inducing_points, num_output, ...) builds a network with the given kernel, output layer, loss, centering flag, inducing points, kernel parameters (or the kernel's defaults) and alpha (or 1.0), with standard normal weights for each pair of inducing point and output; scalar inducing points are refused. After any sequence of fits and randomizations the regularisation strength is positive, shapes are kept, and frozen inducing points keep their values.", "quantifier": "every kernel, parameters, number of outputs, and every sequence of fit / fit_nlopt / fit_optax / randomize calls", "why_tests_cant": "the claim is about all histories of calls and all argument combinations", "anchors": ["gpx/models/rbfnet.py: init, default_params, RBFNet.fit, fit_nlopt, fit_optax, randomize"]}
{"id": "C102", "title": "RBFNet.randomize keeps the configuration of the network", "statement": "The network returned by randomize(key) differs from the given one only in the values of its parameters: it predicts as the given network would with those values.", "quantifier": "every network, key, value of reset and input", "why_tests_cant": "the tests randomize networks built with the default output layer and without centering", "anchors": ["gpx/models/rbfnet.py: RBFNet.randomize, RBFNet._init_default"]}
{"id": "C103", "title": "A raising RBFNet fit leaves the network as it was", "statement": "When fit, fit_nlopt or fit_optax of an RBFNet raises, the state of the network is what it was before the call.", "quantifier": "every network and training data", "why_tests_cant": "the state after an exception depends on where in the method it is raised, for every state", "anchors": ["gpx/models/rbfnet.py: RBFNet.fit, fit_nlopt, fit_optax"]}
{"id": "C104", "title": "A saved RBFNet can be loaded by another network and predicts the same", "statement": "Saving a network and loading the file into a network with the same kernel, output layer and parameter names (names that save can store, see C08), in whatever states the two are, gives a network with the predictions of the saved one.", "quantifier": "every pair of networks in reachable states, every input", "why_tests_cant": "must hold for all histories of both networks and all inputs", "anchors": ["gpx/models/rbfnet.py: RBFNet.save, RBFNet.load, predict", "gpx/parameters/model_state.py: save, load"]}
{"id": "C105", "title": "is_fitted tells whether the model is fitted", "statement": "After any history of construction, fits (that return or raise), randomize and load, is_fitted() is True exactly when the model is fitted on targets and is_fitted_derivs() exactly when it is fitted on derivatives; a prediction method never returns a value for a model that is not fitted.", "quantifier": "all models, all histories of calls, all data", "why_tests_cant": "all histories", "anchors": ["gpx/models/base.py: BaseGP.is_fitted, is_fitted_derivs, _check_is_fitted, predict, predict_derivs, predict_y_derivs, predict_ol"]}
{"id": "C106", "title": "iterative=True works with default arguments and gives the dense result", "statement": "On every dataset with two samples or more, GPR.fit, fit_derivs, fit_nlopt, log_marginal_likelihood and log_marginal_likelihood_derivs return a value with iterative=True and the other arguments at their defaults; for an exact conjugate gradient solver the coefficients are those of the dense fit, whatever the number of pivots. The dense likelihood methods return the Gaussian log density per observation, and its opposite with return_negative=True.", "quantifier": "all kernels, parameters, datasets, keys, numbers of pivots, solvers", "why_tests_cant": "all datasets, keys and numbers of pivots", "anchors": ["gpx/models/base.py: BaseGP.fit, fit_derivs, fit_nlopt, log_marginal_likelihood, log_marginal_likelihood_derivs", "gpx/models/gpr.py: fit, fit_derivs, log_marginal_likelihood, log_marginal_likelihood_derivs", "gpx/models/_gpr.py: _precond_rpcholesky, _precond_rpcholesky_derivs", "gpx/kernels/approximations.py: rpcholesky, rpcholesky_derivs"]}
{"id": "C107", "title": "The GPR_TD likelihood uses every set of derivatives it is given or raises", "statement": "log_marginal_likelihood and neg_log_marginal_likelihood of gpr_td evaluate the likelihood of exactly the observations supplied (targets, first derivatives, and the second derivatives when both jacobian_2 and y_derivs_2 are given); giving only one of jacobian_2 and y_derivs_2, or sets with different numbers of components, raises instead of dropping data; with iterative=True, pivots and a key, the result is that of exact solves, and without pivots or key it raises.", "quantifier": "all data with at least one sample, kernels, numbers of components, combinations of optional arguments", "why_tests_cant": "all sizes and combinations of arguments", "anchors": ["gpx/models/gpr_td.py: log_marginal_likelihood, neg_log_marginal_likelihood, _lml_dense, _lml_iter"]}
{"id": "C108", "title": "Iterative fits are as accurate as the solver's stopping rule", "statement": "When conjugate gradients stops at its tolerance (residual norm at most delta = max(tol*|b|, atol)) instead of solving exactly, the coefficients of an iterative fit are within delta/(sigma^2+1e-10) of those of the dense fit, every prediction from them is within delta/2*sqrt(k(x,x)/(sigma^2+1e-10)) of the dense prediction, whatever the number of pivots, the key and the preconditioner; likewise for fit_derivs, for GPR_TD with the smallest of its noises, for SGPR with the jitter 1e-10 in place of the noise, and the iterative log marginal likelihood per sample of one output is within |y-mu|*delta/(2 n (sigma^2+1e-10)) of the dense one.", "quantifier": "all datasets (not of a single sample), targets, noises, kernel expressions with admissible hyperparameters (for fit_derivs and GPR_TD: those whose derivative covariances are positive semidefinite, C65 and C78, or any twice differentiable one with the stated correction), tolerances, preconditioners and routines obeying the stopping rule, new points", "why_tests_cant": "the error bound holds for every dataset and every point reached by the solver; tests compare single runs with a loose tolerance", "anchors": ["gpx/models/_gpr.py: _fit_iter, _fit_derivs_iter, _lml_iter, _predict_iter", "gpx/models/_sgpr.py: _fit_iter, _predict_iter", "gpx/models/gpr_td.py: _fit_iter, _predict_iter"]}
{"id": "C109", "title": "Expected error of randomly pivoted Cholesky", "statement": "With an ideal random generator, the expected trace error tr(K - F F^T) of the factor F returned by rpcholesky / rpcholesky_derivs with k pivots is at most (1+theta) times the error of any competing factor with m columns that stays below K, plus (1 - 4 theta/((1+theta)^2 m))^k tr K, plus a term of order 1e-6 caused by the jitter: the number of pivots needed for near-optimal accuracy depends on the rank m of the competitor and not on the number of samples.", "quantifier": "all kernel expressions with admissible hyperparameters, datasets of two or more samples, numbers of pivots, competing factors of every number of columns and every theta > 0; the expectation is over all sequences of independent uniform draws", "why_tests_cant": "an expectation over all random sequences, compared with every competing low-rank factor; tests run a few keys on one dataset", "anchors": ["gpx/kernels/approximations.py: rpcholesky, rpcholesky_derivs"]}
{"id": "C110", "title": "The preconditioner bounds the condition number of the iterative fits", "statement": "For the preconditioner M and the matrix-free operator A of an iterative fit, all eigenvalues of the preconditioned system lie between 1 and 1 + (tr(K - F F^T) + 1e-10)/sigma^2, F the pivoted Cholesky factor: <w, M w> <= <M w, A M w> <= that number times <w, M w> for every w; for GPR_TD, whose preconditioner only knows the noise of the targets, the bounds are min(1, lo/sigma_targets^2) and max(1, hi/sigma_targets^2) + tr(K - F F^T)/sigma_targets^2 with lo and hi bounds of all noise variances.", "quantifier": "all datasets (not of a single sample), kernel expressions with admissible hyperparameters, nonzero noises, numbers of pivots, keys and vectors", "why_tests_cant": "a spectral bound over all datasets and all vectors; tests look at the number of iterations of one run", "anchors": ["gpx/models/_gpr.py: _precond_rpcholesky, _precond_rpcholesky_derivs, _Ax_lhs_fun, _Ax_derivs_lhs_fun", "gpx/models/gpr_td.py: _precond_rpcholesky_TD, _Ax_lhs_fun"]}
{"id": "C111", "title": "A failed run never displaces a successful one in random restarts", "statement": "Whenever randomized_minimization (or its derivative / nlopt variants) returns and at least one of its runs ends with a loss that is a number, the returned state is a run whose loss is a number, and no run has a smaller loss; nan losses of failed runs are ignored.", "quantifier": "all minimisers, losses (including nan and infinite values), keys and numbers of restarts", "why_tests_cant": "any pattern of failed runs, in any order, over any number of restarts", "anchors": ["gpx/models/utils.py: randomized_minimization, randomized_minimization_derivs, randomized_minimization_ol"]}
{"id": "C112", "title": "One lengthscale per feature", "statement": "A stationary kernel whose lengthscale parameter is a vector with one positive entry per active feature evaluates to the kernel with unit lengthscale on inputs divided by those lengthscales; its derivative kernels (with respect to either argument and both, with or without jacobians) return and hold the derivatives of that kernel, for every number of samples; and differentiating the kernel with respect to one of the lengthscales gives the partial derivative with respect to it.", "quantifier": "all vectors of positive lengthscales, all lists of active features, all datasets of any size, all jacobians", "why_tests_cant": "whether the call returns and whether its values are right depends on the interplay of sample counts, feature counts and lengthscale values", "anchors": ["gpx/kernels/kernels.py: squared_exponential_kernel, squared_exponential_kernel_d01k, squared_exponential_kernel_d01kj, squared_exponential_kernel_d01kjc, matern12_kernel, matern32_kernel, matern52_kernel, matern52_kernel_d0k, matern52_kernel_d1k, matern52_kernel_d01k, matern52_kernel_d01kj, matern52_kernel_d01kjc, _matern32_kernel_base, _matern52_kernel_base"]}
{"id": "C113", "title": "Random error of the stochastic log-determinant", "statement": "When lanczos_logdet is run with as many Lanczos steps as the size of the matrix and with num_evals random sign vectors, the mean over all draws of the squared difference between the returned value and log det A is exactly 2 / num_evals times the sum of the squares of the off-diagonal elements of the matrix logarithm of A; for a diagonal matrix the returned value is exact for every draw.", "quantifier": "all symmetric matrices of any size with eigenvalues at least 1e-36, all numbers of random vectors, all generators, all keys, all runs without inexact breakdown", "why_tests_cant": "the error is a random variable: a test sees a few draws, the claim is about the exact second moment over all draws for every matrix and every number of vectors", "anchors": ["gpx/lanczos.py: lanczos_logdet, lanczos_tridiagonal"]}
{"id": "C114", "title": "Accuracy of the stochastic log-determinant for any number of Lanczos steps", "statement": "For a symmetric matrix of size n with eigenvalues in [a, b], lanczos_logdet with k = num_lanczos steps differs, for every draw, from the value it would have with exact quadratic forms of log A by at most n (1 + b/a) ((b - a)/(b + a))^(2k); hence its mean over the draws is within that distance of log det A and its root mean square error is at most that distance plus sqrt(2/num_evals times the sum of the squares of the off-diagonal elements of log A).", "quantifier": "all symmetric matrices of any size with eigenvalues in [a, b] with a at least 1e-36, all numbers of Lanczos steps and of random vectors, all generators and keys, all runs without inexact breakdown", "why_tests_cant": "the bound must hold for every spectrum, every number of steps and every draw; a test can only compare a few matrices at a tolerance", "anchors": ["gpx/lanczos.py: lanczos_logdet, lanczos_tridiagonal"]}
{"id": "C115", "title": "End-to-end accuracy of the iterative log marginal likelihood", "statement": "With iterative=True the log marginal likelihood per observation of one output is a random value that depends on the random sign vectors of the log-determinant. With conjugate gradients stopped at residual norm delta, k Lanczos steps and q random vectors, its mean over the draws is within (1/2)(2 + t/s)(t/(2s+t))^(2k) + |b| delta/(2 n s) of the Gaussian log density per observation, and its root mean square error is at most that plus sqrt(2/q times the sum of the squared off-diagonal elements of the logarithm of the covariance)/(2n); s is the noise variance (sigma^2+1e-10, the smallest one for GPR_TD), t the sum of the prior variances of the observations, b the centred observations. This holds for GPR on targets and on derivatives, for SGPR and for GPR_TD with one or two sets of derivatives, whatever the preconditioner, the number of pivots and the keys.", "quantifier": "all datasets (two samples or more where a preconditioner is used), kernel expressions with admissible hyperparameters, noises, solver tolerances, numbers of Lanczos steps and random vectors, keys and generators, Lanczos runs without inexact breakdown", "why_tests_cant": "the returned value is random and approximate in three ways; a test compares a few seeds at a tolerance chosen by hand", "anchors": ["gpx/models/_gpr.py: _lml_iter, _lml_derivs_iter", "gpx/models/_sgpr.py: _lml_iter", "gpx/models/gpr_td.py: _lml_iter", "gpx/lanczos.py: lanczos_logdet"]}
{"id": "C116", "title": "Checkpoints survive a crash", "statement": "If the process dies at any moment of an optimisation with a StateCheckpointer, every checkpoint completed before can be loaded into the model and gives the parameters proposed at that iteration, the one being written is refused by load, and no other file has changed. Full claim: this remains so over any number of successive optimisations with the same checkpoint file name, i.e. once a checkpoint was completed some checkpoint always loads.", "quantifier": "all model states with storable names, all checkpoint file names without braces, all sequences of proposals, all crash points between or inside writes, all previous contents of the disk", "why_tests_cant": "a test cannot kill the process at every point of every history; it only loads files after a clean run", "anchors": ["gpx/optimizers/scipy_optimize.py: StateCheckpointer", "gpx/parameters/model_state.py: ModelState.save, ModelState.load"]}
{"id": "C117", "title": "The name given to save can be given to load", "statement": "After model.save(file), model.load(file) restores all parameters and options of the model, whatever the file name.", "quantifier": "all model states with storable names, all file names, all previous contents of the disk", "why_tests_cant": "tests use one fixed name, usually ending in .npz; the claim is about every name", "anchors": ["gpx/parameters/model_state.py: ModelState.save, ModelState.load", "gpx/models/base.py: BaseGP.save, BaseGP.load"]}
{"id": "C118", "title": "A crash while saving does not lose the model", "statement": "If the process dies while a model is saved over an existing file, the file afterwards holds the old model or the new one, and no other file has changed.", "quantifier": "all model states, file names, previous contents of the disk and crash points", "why_tests_cant": "a test cannot interrupt a save at every point", "anchors": ["gpx/parameters/model_state.py: ModelState.save", "gpx/models/base.py: BaseGP.save"]}
{"id": "C119", "title": "Training reduces the error on the training data, and less noise reduces it further", "statement": "After fit, the predictions at the training inputs satisfy: the sum of squared residuals plus the sum of squared deviations of the predictions from the mean is at most the sum of squared deviations of the targets from the mean, for every output; lowering sigma never increases the training error; the posterior covariance at the training inputs is at most (sigma^2 + 1e-10) times the identity. The first also holds when training on derivatives, on the training samples of the sparse models (targets or derivatives), and for joint training on targets and derivatives with every squared error divided by the noise variance of its kind of observation.", "quantifier": "all kernel expressions with admissible hyperparameters, noises, mean functions, training sets (duplicates allowed) and targets", "why_tests_cant": "an inequality between matrices for every data set and every pair of noise levels", "anchors": ["gpx/models/_gpr.py: _fit_dense, _predict_dense, _fit_derivs_dense, _predict_derivs_dense", "gpx/models/_sgpr.py: _fit_dense, _predict_dense, _fit_derivs_dense, _predict_derivs_dense", "gpx/models/gpr_td.py: _fit_dense, _predict_dense"]}
{"id": "C120", "title": "The prediction is the best linear predictor and its variance is the smallest attainable mean squared error", "statement": "Under the model's own prior and noise, no linear combination of the training targets has a smaller mean squared error at a new input than the predicted mean, and the predicted variance is that error. An input measured k times has posterior variance at most (sigma^2 + 1e-10)/k. The same holds for derivatives predicted by a model trained on derivatives, for the kernels whose derivative covariance is a covariance (C65).", "quantifier": "all kernel expressions with admissible hyperparameters, noises, training sets, new inputs and linear predictors", "why_tests_cant": "optimality over all predictors", "anchors": ["gpx/models/_gpr.py: _predict_dense, _fit_dense"]}
{"id": "C121", "title": "A prediction does not depend on the other points asked for", "statement": "Asking any model for a selection of inputs (in any order, with repetitions) returns the selected values and the selected block of the covariance.", "quantifier": "all models, kernel expressions, data, coefficients and selections of the inputs", "why_tests_cant": "all subsets and orders of all inputs", "anchors": ["gpx/models/_gpr.py: _predict_dense, _predict_iter, _predict_derivs_dense, _predict_ol", "gpx/models/_sgpr.py: _predict_dense, _predict_derivs_dense", "gpx/models/_gpr_td.py"]}
{"id": "C122", "title": "Predictions are bounded, stable, and return to the mean far from the data", "statement": "The squared deviation of a prediction from the mean is at most k(x,x) times the sum of squared centered targets over 4 (sigma^2 + 1e-10), and changing the targets changes it by at most the same factor times the size of the change. For kernels built from constants and stationary kernels, at inputs far enough from every training sample (along features on which the kernel decays) the prediction is within any tolerance of the mean and the variance within any tolerance of the prior variance. The bound also holds, with the prior variance of the predicted quantity, for derivatives and targets predicted by models trained on derivatives and by models trained jointly on targets and one or two sets of derivatives (squares divided by the noise variance of each kind), for the kernels whose covariance of targets and derivatives is a covariance (C65, C78).", "quantifier": "all kernel expressions with admissible hyperparameters, noises, mean functions, training sets, targets, new inputs and tolerances", "why_tests_cant": "a bound for every input and a limit at infinity", "anchors": ["gpx/models/_gpr.py: _fit_dense, _predict_dense", "gpx/kernels/kernels.py: SquaredExponential, Matern12, Matern32, Matern52, Sum, Prod"]}
{"id": "C123", "title": "Rigid motions of the inputs change nothing", "statement": "With kernels built from Constant, SquaredExponential and Matern kernels over all features, moving all inputs by the same rotation, reflection or translation (and rotating the jacobians along) leaves fitted coefficients, predictions, covariances and likelihoods of GPR, SGPR, SGPR_RPChol and GPR_TD unchanged, with the dense and with the iterative methods (for every solver, estimate and random key), and the same samples are selected as inducing points. Rotations and reflections also leave models with Linear and Polynomial kernels unchanged; translations leave every model without them unchanged, whatever its active_dims, ExpSinSquared included.", "quantifier": "all kernel expressions of these classes, parameters, datasets, jacobians, orthogonal matrices and shifts", "why_tests_cant": "all expressions, all motions and all datasets", "anchors": ["gpx/kernels/kernels.py", "gpx/kernels/operations.py: Sum, Prod", "gpx/models/_gpr.py: _fit_dense, _predict_dense, _fit_derivs_dense, _predict_derivs_dense, _predict_y_derivs_dense, _lml_dense, _lml_derivs_dense", "gpx/models/_sgpr.py: _fit_dense, _predict_dense, _lml_dense", "gpx/models/gpr_td.py", "gpx/models/_sgpr_rpchol.py", "gpx/kernels/approximations.py: rpcholesky"]}
{"id": "C124", "title": "Predictions do not depend on the units of the inputs", "statement": "Multiplying inputs and jacobians by a non-zero factor, and lengthscales (SquaredExponential, Matern) and periods (ExpSinSquared) by the same factor, changes nothing else: coefficients, predictions, covariances and likelihoods are the same. For GPR, SGPR, SGPR_RPChol and GPR_TD, dense and iterative.", "quantifier": "all kernel expressions without Linear and Polynomial, factors, parameters, datasets, jacobians", "why_tests_cant": "all expressions, factors and datasets", "anchors": ["gpx/kernels/kernels.py", "gpx/models/_gpr.py", "gpx/models/_sgpr.py", "gpx/models/gpr_td.py", "gpx/models/_sgpr_rpchol.py"]}
{"id": "C125", "title": "active_dims is the same as giving the model the selected columns", "statement": "A model whose kernels only look at some features (active_dims) gives the same coefficients, predictions, covariances and likelihoods as the model without active_dims trained on the selected columns of the inputs and of the jacobians; the other columns have no influence. For GPR, SGPR, SGPR_RPChol and GPR_TD, dense and iterative.", "quantifier": "all kernel expressions, selections (repetitions allowed), parameters, datasets, jacobians", "why_tests_cant": "all expressions, selections and datasets", "anchors": ["gpx/kernels/kernels.py: __call__ and derivative methods with active_dims", "gpx/models/_gpr.py", "gpx/models/_sgpr.py", "gpx/models/gpr_td.py", "gpx/models/_sgpr_rpchol.py"]}
{"id": "C126", "title": "SGPR with all training samples as inducing points agrees with GPR", "statement": "When the inducing points are the training samples, SGPR and GPR with the same hyperparameters make the same predictions up to the effect of the regularisation 1e-10: at the training inputs the root of the summed squared differences is at most 1e-10/sigma^2 times sqrt(1 + 1/(sigma^2+1e-10)^2) times the norm of the centred targets; at any input x the difference is at most 1e-5 sqrt(k(x,x)) / (2 sigma) times the same. The same holds for models trained on derivatives. They are not exactly equal.", "quantifier": "all kernel expressions with admissible hyperparameters, datasets, noise levels, mean functions and new inputs (for derivatives: expressions with positive semidefinite derivative Gram matrices)", "why_tests_cant": "a test compares one dataset; the bound is for all of them", "anchors": ["gpx/models/_sgpr.py: _A_lhs, _fit_dense, _predict_dense, _A_derivs_lhs, _fit_derivs_dense, _predict_derivs_dense", "gpx/models/_gpr.py: _fit_dense, _predict_dense, _fit_derivs_dense, _predict_derivs_dense"]}
{"id": "C127", "title": "Squared distances in floating point are accurate and never negative", "statement": "In floating-point arithmetic, whatever the order of the sums and the use of fused multiply-adds, the squared distances between samples are non-negative and close to the exact ones. (They are close relative to the squared norms of the inputs, not to the distances; they can be negative, and the matrix for a set of samples need not be symmetric.)", "quantifier": "all roundings to nearest, summation orders, numbers of features, inputs", "why_tests_cant": "all inputs, all orders of summation chosen by the compiler", "anchors": ["gpx/utils.py: squared_distances"]}
{"id": "C128", "title": "SquaredExponential Gram matrices survive rounding", "statement": "In floating-point arithmetic the SquaredExponential kernel matrix of a training set is a small perturbation of the exact one, so that it can be factorised once the noise is larger than the perturbation. (True when the inputs are not large compared with the lengthscale, with an explicit bound; false in general: the computed kernel of two distinct samples can exceed 2^60.)", "quantifier": "all roundings to nearest, summation orders, inputs, lengthscales", "why_tests_cant": "all inputs and all orders of summation", "anchors": ["gpx/kernels/kernels.py: _squared_exponential_kernel", "gpx/utils.py: squared_distances"]}
{"id": "C129", "title": "Rounding error and reproducibility of predictions", "statement": "Predictions computed in floating point from a computed kernel matrix are within an explicit distance of the exact ones, for every order of summation; the same prediction computed on different hardware or in a different batch differs by at most twice the rounding bound.", "quantifier": "all precisions, summation orders, kernel matrices, coefficients, sizes", "why_tests_cant": "the order of summation is chosen by the compiler", "anchors": ["gpx/models/_gpr.py: _predict_dense"]}
{"id": "C130", "title": "A kernel's functions are the ones derived from its base function", "statement": "The class Kernel documents that every callable of a kernel (value, derivatives, jacobian and contracted versions) is obtained from the kernel's base function of two samples. The arrays returned by the specialised kernels shipped with the package, and by their sums and products, are those the generic construction returns for their base functions.", "quantifier": "all kernel expressions, hyperparameters, active dimensions, data, jacobians, contracted coefficients; lists of active features that name each feature once where the claim is about derivative kernels (C156 for repeated features)", "why_tests_cant": "a test compares a few arrays up to a tolerance; the claim is for every expression, size and input, and says how large the tolerance must be", "anchors": ["gpx/kernels/kernels.py: Kernel, *_kernel_base, Sum, Prod", "gpx/kernels/kernelizers.py: kernelize, grad0_kernelize, hess01_kernelize"]}
{"id": "C131", "title": "Models trained on values never jump", "statement": "The kernel matrices of every kernel expression, and the coefficients, predictions, prediction covariances and log marginal likelihoods of GPR and SGPR trained on values, are continuous functions of everything the user can vary: hyperparameters inside their admissible range, noise, training inputs, targets, inducing points and prediction points, all at the same time. Points may coincide, and the noise may pass through zero.", "quantifier": "every kernel expression, every continuous path (more generally every topological space of settings) of hyperparameters, noise, data, inducing points and prediction points, every size and every continuous mean function", "why_tests_cant": "A jump can hide at an isolated coincidence of points or hyperparameter value; tests only sample finitely many settings.", "anchors": ["gpx/kernels/kernels.py", "gpx/models/_gpr.py:_fit_dense", "gpx/models/_gpr.py:_predict_dense", "gpx/models/_gpr.py:_lml_dense", "gpx/models/_sgpr.py:_fit_dense", "gpx/models/_sgpr.py:_lml_dense"]}
{"id": "C132", "title": "Predicted derivatives and models trained on derivatives never jump", "statement": "The derivatives predicted by a model trained on values, and the coefficients, predictions, covariances and likelihoods of models trained on derivatives, are continuous functions of hyperparameters, noise, training inputs and jacobians, targets, inducing points, prediction points and their jacobians.", "quantifier": "every kernel expression, every continuous family of admissible hyperparameters, data, jacobians and prediction points", "why_tests_cant": "The jumps are at isolated coincidences of prediction and training points.", "anchors": ["gpx/kernels/kernels.py:_matern12_kernel_base", "gpx/models/_gpr.py:_fit_derivs_dense", "gpx/models/_gpr.py:_predict_derivs_dense", "gpx/models/_gpr.py:_predict_ol", "gpx/models/_sgpr.py:_fit_derivs_dense"]}
{"id": "C133", "title": "The training objective is bounded and bounds the noise", "statement": "The log marginal likelihood (per sample) that training maximises can never exceed log(10^10/(2 pi))/2, whatever the hyperparameters, noise, data and inducing points; more precisely it never exceeds -log(2 pi (sigma^2 + 1e-10))/2. It is also never below an explicit number made of the squared centred targets, the noise and the mean prior variance. Hence every set of parameters whose loss is at most L has sigma^2 + 1e-10 <= exp(2 L)/(2 pi): training cannot follow an infinitely improving objective, and an improving objective cannot have growing noise. The same holds for models trained on derivatives, and for joint training with the smaller of the two noises.", "quantifier": "every kernel expression with admissible hyperparameters (for derivatives: the expressions whose derivative Gram matrices are positive semidefinite), every noise including zero, every dataset with at least one sample, every number of outputs, every set of inducing points", "why_tests_cant": "The supremum over all hyperparameters and datasets cannot be sampled.", "anchors": ["gpx/models/_gpr.py: _lml_dense, _lml_derivs_dense", "gpx/models/_sgpr.py: _lml_dense", "gpx/models/gpr_td.py: _lml_dense"]}
{"id": "C134", "title": "Every method of a model reaches the function of its class, with its arguments", "statement": "For GPR, SGPR and SGPR_RPChol, each public method (the constructor, init, default_params, sample and sample_derivs of both kinds, predict, predict_derivs, predict_y_derivs, predict_ol, log_marginal_likelihood, log_marginal_likelihood_derivs, mse_loss, fit, fit_derivs, fit_ol, fit_nlopt), called with any arguments its signature accepts, runs the documented function of the class's module on the state of the object, and each argument reaches the parameter of the same name; arguments that were left out have the same default in both; arguments concerning the method itself (kind, return_negative, minimize, num_restarts, key, return_history, loss_kwargs, opt_kwargs) have their documented defaults when left out, and so have the numerical ones (iterative, full_covariance, n_samples, num_evals, num_lanczos, key_lanczos, n_pivots, key_precond, coeff) in every method and function.", "quantifier": "every class, method, and list of positional and keyword arguments the method accepts", "why_tests_cant": "the argument values and the way they are passed (position, keyword, default) range over all calls, and the methods that fail do so for all of them", "anchors": ["gpx/models/base.py: BaseGP", "gpx/models/gpr.py: GPR", "gpx/models/sgpr.py: SGPR", "gpx/models/sgpr_rpchol.py: SGPR_RPChol"]}
{"id": "C135", "title": "The training data a model shows are those of its last fit", "statement": "After any sequence of construction, fits of every kind (returning or raising), randomize with and without reset, and loading, the attributes x_train, y_train and jacobian_train of a GPR object are the data given to the last fit that took place (in the loaded history, after a load); before any fit x_train, y_train, c_ and mu_ are None; after a reset c_ and mu_ are None.", "quantifier": "all histories of API calls and all data", "why_tests_cant": "histories of arbitrary length, with calls that fail half-way and objects loaded from each other's files", "anchors": ["gpx/models/base.py: BaseGP.c_, mu_, x_train, y_train, jacobian_train", "gpx/models/gpr.py: fit, fit_derivs, fit_ol, init", "gpx/parameters/model_state.py: ModelState.load, ModelState.randomize"]}
{"id": "C136", "title": "Sparse and joint models do not depend on the order of training data and inducing points", "statement": "Permuting the training samples of an SGPR model together with their targets, and its inducing points independently, reorders the coefficients with the inducing points and leaves the mean, the dense and iterative predictions, the predictive covariance and the dense log marginal likelihood unchanged. Trained on derivatives, with Jacobians permuted alike, the coefficients are reordered and the mean and the dense and iterative predictions of targets and derivatives are unchanged. Permuting the training samples of a GPR_TD model with one or two sets of derivatives, together with targets, derivatives and Jacobians, reorders the coefficients and leaves the mean, the dense and iterative predictions and the dense log marginal likelihood unchanged. For training on derivatives this is claimed whenever the linear system solved is positive definite.", "quantifier": "all permutations of all datasets and inducing sets, all kernels, hyperparameters, mean functions that ignore the order, new inputs", "why_tests_cant": "n! times m! orders for every n and m, at every dataset", "anchors": ["gpx/models/_sgpr.py: _A_lhs, _A_derivs_lhs, _fit_dense, _fit_derivs_dense, _predict_dense, _predict_iter, _predict_derivs_dense, _predict_y_derivs_dense, _lml_dense", "gpx/models/gpr_td.py: _A_lhs, _fit_dense, _predict_dense, _predict_iter, _lml_dense"]}
{"id": "C137", "title": "The printed table lists every parameter once", "statement": "For every state built from a dictionary with a kernel_params dictionary and otherwise plain parameters, print() shows one row per parameter and no other rows: kernel parameters first, named 'kernel ' followed by their keys joined by ':', then the others by name, each group in alphabetical order of the keys, with the trainable flag, bijector, prior, dtype, shape and value of that very parameter. The table does not depend on the order in which the parameters were given. With keys free of ':' and no other parameter called 'kernel ...' all rows have different names. Without kernel_params printing raises KeyError, with another nested dictionary AttributeError.", "quantifier": "every dictionary of parameters, of any nesting and any number of entries", "why_tests_cant": "nested dictionaries of arbitrary depth and size, in every insertion order", "anchors": ["gpx/parameters/model_state.py: ModelState.print_params", "gpx/models/base.py: BaseGP.print", "gpx/models/gpr_td.py: GPR_TD.print", "gpx/models/rbfnet.py: RBFNet.print"]}
{"id": "C138", "title": "States and copies share no parameters: changing one in place never shows in another", "statement": "For every program that builds parameters and states, copies, updates, maps, loads, randomises or trains them, and changes parameters (p.value = ..., p.trainable = ...), items (state.params[...] = p) and attributes (state.params = ..., state.kernel = ...) in place, in any order and with any operations raising: a state goes on showing the same kernel, mean function, parameters and options as long as it is not itself changed in place. In particular a copy and its original are independent, and objects given to the constructor or to update can be changed afterwards without effect on the state. An item assigned in place is seen at that key path and nowhere else; an attribute assigned to a parameter is seen in the states that hold the object. The program is assumed not to assign one parameter object into the dictionaries of two states.", "quantifier": "all programs (finite histories of operations on parameters and states, with failures), all states, all nestings of the parameter dictionary, all key paths", "why_tests_cant": "Aliasing bugs show only for particular histories; a test covers one history.", "anchors": ["gpx/parameters/model_state.py:ModelState.params", "gpx/parameters/model_state.py:ModelState.copy", "gpx/parameters/model_state.py:ModelState.update", "gpx/parameters/parameter.py:Parameter.tree_unflatten", "examples/map_estimate.ipynb"]}
{"id": "C139", "title": "A state changed in place keeps what it shows when it passes through a JAX transformation", "statement": "At every point of every program, mapping a function over the arrays of a state (and so any passage through jit, grad, tree_map) gives a state with the same keys, nesting, flags, bijectors, priors, kernel, mean function and options as the state shows at that moment, and the images of its values. This holds if since the state was made, or since state.params was last assigned, its parameters were changed in place only in their values. It fails in general: the structure is stored when the parameters are set, so a flag, bijector or prior assigned in place is undone by the passage.", "quantifier": "all programs (finite histories of operations), all states, all functions of arrays that keep shapes and dtypes", "why_tests_cant": "Depends on the history of in-place changes since the parameters were set.", "anchors": ["gpx/parameters/model_state.py:ModelState.tree_flatten", "gpx/parameters/model_state.py:ModelState.tree_unflatten", "gpx/parameters/model_state.py:ModelState.params"]}
{"id": "C140", "title": "Covariances of models trained on derivatives", "statement": "The covariance returned with derivatives (predict_derivs, full_covariance=True) and with targets (predict_y_derivs, full_covariance=True) by a GPR trained on derivatives is positive semidefinite, never larger than the prior covariance (the difference is positive semidefinite), and never larger than the covariance of the same model trained on part of the samples. It holds for the kernels of C65 (derivatives) and C78 (targets, sigma not zero); it fails in general: with a SquaredExponential kernel and small noise the covariance of targets is indefinite.", "quantifier": "all kernel expressions, hyperparameters, noises, training sets and subsets of them, jacobians and new inputs", "why_tests_cant": "Positive semidefiniteness for every dataset and monotonicity over every subset of the training set; the counterexample needs inputs 1e-7 apart.", "anchors": ["gpx/models/_gpr.py:_predict_derivs_dense", "gpx/models/_gpr.py:_predict_y_derivs_dense", "gpx/models/_gpr.py:_A_derivs_lhs"]}
{"id": "C141", "title": "Units of the targets", "statement": "A model whose kernel has a variance factor (Constant() * k), trained on targets expressed in other units (multiplied by s > 0), with the variance multiplied by s² and sigma by s, predicts the same in the new units. It holds exactly, together with covariance times s² and log marginal likelihood per sample minus log s, when the noise with its jitter is what scales (sigma'² + 1e-10 = s² (sigma² + 1e-10)); with sigma' = s sigma it fails because the jitter 1e-10 is absolute, and the error is bounded explicitly.", "quantifier": "all kernel expressions with a variance factor, hyperparameters, noises, factors s > 0, datasets and new inputs", "why_tests_cant": "Every factor and every dataset; with targets of order one the jitter is invisible, with targets of order 1e-5 (e.g. small energies in atomic units) it halves the predictions of a noiseless model.", "anchors": ["gpx/models/_gpr.py:_A_lhs", "gpx/models/_gpr.py:_fit_dense", "gpx/models/_gpr.py:_predict_dense", "gpx/models/_gpr.py:_lml_dense", "gpx/kernels/kernels.py:constant_kernel"]}
{"id": "C142", "title": "Repeated measurements", "statement": "Training on r measurements of each sample with noise variance sigma² + 1e-10 gives the same predictions and the same posterior covariance as training once on the averages of the measurements with that variance divided by r.", "quantifier": "all kernel expressions, hyperparameters, numbers of copies r > 0, datasets, measurements and new inputs; zero_mean, data_mean and every mean function that does not distinguish the measurements from their averages", "why_tests_cant": "Every dataset and number of copies; the matrices of the two models have different sizes and the first is nearly singular.", "anchors": ["gpx/models/_gpr.py:_A_lhs", "gpx/models/_gpr.py:_fit_dense", "gpx/models/_gpr.py:_predict_dense", "gpx/mean_functions.py:data_mean"]}
{"id": "C143", "title": "Compiled functions and kernels changed after use", "statement": "Compiling is not observable: a program that makes kernels, adds and multiplies them, assigns their attributes (as the documentation of Kernel suggests) and calls functions of models gets what the Python code computes with the kernels as they are at each call. It holds for every program that does not assign attributes of a kernel after the kernel has been used. It fails otherwise: kernels are static arguments compared by identity, so a call uses the attributes the kernel had at the first call of the same function with the same object and the same shapes, and the current ones for new shapes; sums and products keep the attributes their parts had when they were made.", "quantifier": "all programs (sequences of constructions, sums, products, assignments and calls), all compiled functions, kernels and shapes", "why_tests_cant": "Depends on the whole history of the process: which functions have been called with which kernel object and which shapes before.", "anchors": ["gpx/kernels/kernels.py:Kernel", "gpx/kernels/kernels.py:Sum", "gpx/kernels/kernels.py:Prod", "gpx/models/_gpr.py:_A_lhs", "gpx/models/_gpr.py:_fit_dense", "gpx/models/_gpr.py:_predict_dense"]}
{"id": "C144", "title": "Adding observations to a trained model", "statement": "Training a GPR again with more data gives what the model trained on the first part implies. With C the joint covariance that model predicts (full_covariance=True) for the new samples xs and any inputs x: predictions at x move by C(x,xs) (C(xs,xs) + noise)^-1 (ys - old prediction at xs); the covariance at x decreases by C(x,xs) (C(xs,xs) + noise)^-1 C(xs,x); targets equal to the old predictions change no prediction; and the likelihood of all the data is that of the first part times the Gaussian density of the new targets with the predicted mean and covariance plus noise.", "quantifier": "all kernel expressions, hyperparameters, noises, datasets and additions of any size (repeated inputs included), inputs x, and mean functions with the same value on both datasets (zero_mean always)", "why_tests_cant": "An identity between four methods (fit, predict, full_covariance, log_marginal_likelihood) for every pair of datasets.", "anchors": ["gpx/models/_gpr.py:_fit_dense", "gpx/models/_gpr.py:_predict_dense", "gpx/models/_gpr.py:_lml_dense"]}
{"id": "C145", "title": "The training objective has a gradient everywhere, and its optima are calibrated", "statement": "Kernel matrices, and the coefficients, predictions, covariances and log marginal likelihoods of GPR and SGPR trained on values are differentiable in everything a user or an optimizer can vary (hyperparameters inside their admissible range, noise, inputs, targets, inducing points, prediction points, all at once), also where points coincide and where the noise passes through zero; every bijector has a strictly positive derivative, so the same holds in the unconstrained parameters and no spurious stationary point appears. The derivative of the GPR log marginal likelihood per sample is (sum_c c_c^T (K' + 2 sigma sigma') c_c - tr(C^-1 (K' + 2 sigma sigma')))/(2n) with the fitted coefficients c. Hyperparameters that maximise it are stationary; at a stationary point with nonzero noise the squared coefficients add up to tr C^-1, and if the kernel has a variance in front the centred targets satisfy sum_c y_c^T C^-1 y_c = n.", "quantifier": "all kernel expressions, all differentiable families (over any normed space) of admissible hyperparameters, noises, datasets, inducing and prediction points of all sizes, all differentiable mean functions, all bijectors and unconstrained values; all stationary points", "why_tests_cant": "A kink or a wrong gradient can sit at isolated settings (coincident points, zero noise), and optimality relations hold at points no test hits exactly.", "anchors": ["gpx/kernels/kernels.py", "gpx/utils.py:squared_distances", "gpx/models/_gpr.py:_lml_dense", "gpx/models/_sgpr.py:_lml_dense", "gpx/bijectors.py", "gpx/optimizers/scipy_optimize.py:scipy_minimize"]}
{"id": "C146", "title": "The training objectives of models of derivatives have gradients", "statement": "For kernels with well posed derivative covariances, the derivative kernels, the coefficients, the predicted derivatives, values and covariances, and the log marginal likelihood of GPR trained on derivatives and of GPR_TD trained on values and derivatives are differentiable in hyperparameters, noises, inputs, jacobians and targets, all at once; along any curve of hyperparameters and noises the derivative of the log marginal likelihood per observation is (c^T C' c - tr(C^-1 C'))/(2N), with C' the derivatives of the entries of the covariance matrix, c the fitted coefficients and N the number of observations.", "quantifier": "every kernel expression whose derivative (GPR) or joint (GPR_TD) covariances are positive semidefinite for all data, all differentiable families over any normed space of hyperparameters, noises, data, jacobians and prediction points, all sizes, all differentiable mean functions", "why_tests_cant": "Differentiability at every setting, coincident points and zero noises included, and an identity between the gradient and the fitted coefficients for all data.", "anchors": ["gpx/models/_gpr.py:_lml_derivs_dense", "gpx/models/_gpr.py:_fit_derivs_dense", "gpx/models/gpr_td.py:_lml_dense", "gpx/models/gpr_td.py:_fit_dense", "gpx/kernels/kernels.py"]}
{"id": "C147", "title": "The objective handed to the external minimiser is smooth and bounded", "statement": "For a GPR or SGPR model built with default parameters for any kernel expression, and trained or randomised in any way before (that keeps the degree of a polynomial kernel), the function that scipy_minimize hands to SciPy for the negative log marginal likelihood is defined at every vector with as many numbers as the starting vector (no exception, whatever the minimiser proposes), depends on it differentiably, and is bounded from below by a number that depends on nothing. This includes the inducing points of SGPR when they are trainable. The same holds for GPR trained on derivatives with kernels whose derivative covariances are well posed. The negative log posterior of GPR is a single number at every such vector and differentiable too. When the minimiser stops where the gradient vanishes, the returned GPR model satisfies the condition on the noise (sum of the squared coefficients equals the trace of the inverse of the regularised kernel matrix) and, if the kernel has a Constant factor in front, its squared residuals in units of the covariance add up to the number of samples.", "quantifier": "every kernel expression, every default model, every history of training and randomising, every dataset and mean function, every vector the minimiser may propose", "why_tests_cant": "A test evaluates the objective and its gradient at finitely many vectors proposed in a few runs; a minimiser may propose any vector, and a single vector where the objective raises or has no gradient ends the training.", "anchors": ["gpx/optimizers/scipy_optimize.py: scipy_minimize", "gpx/optimizers/utils.py: ravel_backward_trainables, unravel_forward_trainables", "gpx/models/gpr.py: neg_log_marginal_likelihood, neg_log_posterior, default_params", "gpx/models/sgpr.py: neg_log_marginal_likelihood, init", "gpx/kernels/kernels.py: default_params", "gpx/bijectors.py: Softplus"]}
{"id": "C148", "title": "Optax training follows the gradient of the objective SciPy minimises", "statement": "The gradient of any function of a model state is zero in every entry of a frozen parameter and, in every entry of a trainable one, the derivative of the function when that entry alone moves. Hence gradient descent, gradient descent with momentum and Adam (any constants) never move frozen parameters. Whenever the loss handed to scipy_minimize is differentiable, optax_minimize with any optimiser that works entry by entry runs without error for every number of steps and is that optimiser run on the very function SciPy minimises, from the same starting vector: each step uses the true partial derivatives, the reported losses are the values along the way and the returned state is the one scipy_minimize would build from the last vector. At a stationary point nothing moves. For every small enough learning rate the first step of gradient descent lowers the loss unless the gradient is zero. For exact GPs with default parameters, a kernel without polynomial part and any history of training the hypotheses hold.", "quantifier": "every function of a state, every state with valid parameters (any mix of frozen and trainable, any shapes), every rule applied entry by entry, every number of steps, every dataset, every kernel expression without polynomial part", "why_tests_cant": "A test compares a few gradients and a few steps; that the trained vector is exactly the optimiser's trajectory on the other interface's objective, for any mix of frozen and trainable parameters and any number of steps, is a statement about all of them, and so is descent for every small enough learning rate.", "anchors": ["gpx/optimizers/optax_optimize.py: optax_minimize, train_with_constrained_parameters, _step", "gpx/parameters/model_state.py: ModelState.params setter, tree_flatten, tree_unflatten", "gpx/optimizers/scipy_optimize.py: scipy_minimize"]}
{"id": "C149", "title": "Samples follow the Gaussian law of the model", "statement": "Whenever the external normal generator delivers independent standard normal numbers, the arrays returned by sample are, row by row, independent draws from a multivariate Gaussian: for the prior of GPR with mean zero and covariance K + (sigma^2 + 1e-10) I (SGPR: see C51), for the posterior (one output) of GPR, SGPR and GPR trained on derivatives with the mean and covariance that predict(full_covariance=True) returns (plus 1e-10 on the diagonal).", "quantifier": "All kernels, admissible hyperparameters, noises, inputs, coefficients, numbers of samples, and probability spaces of keys on which the generator's output is standard normal.", "why_tests_cant": "A distribution over a continuum cannot be established by finitely many draws; tests compare a handful of numbers for one seed.", "anchors": ["gpx/models/utils.py: sample", "gpx/models/gpr.py: sample", "gpx/models/sgpr.py: sample"]}
{"id": "C150", "title": "Predictions are the conditional distribution given the training data", "statement": "If the training targets (and derivatives) are observations of a Gaussian process with the model's kernel as covariance, with independent Gaussian errors of the model's noise variance, then what predict returns after fit is the mean of the conditional distribution of the process at the new inputs given the data, and the full covariance it returns is the covariance of that distribution; the error of the prediction is Gaussian with this covariance and independent of the data. GPR on targets, GPR on derivatives, GPR_TD on targets and one or two sets of derivatives (mean; the covariance is given explicitly).", "quantifier": "All kernels, admissible (smooth) hyperparameters, noises, constant mean functions, training and new inputs, jacobians, and all probability spaces with such random targets.", "why_tests_cant": "It is a statement about probability distributions over all possible targets.", "anchors": ["gpx/models/gpr.py: fit, predict, predict_derivs", "gpx/models/_gpr.py: _fit_dense, _predict_dense, _fit_derivs_dense, _predict_derivs_dense", "gpx/models/gpr_td.py: fit, predict"]}
{"id": "C151", "title": "The likelihood is the probability density of the targets", "statement": "The exponential of the log marginal likelihood, multiplied by the number of observations by which the code divides it, is the probability density (with respect to Lebesgue measure on all targets) of the targets under the model; in particular it integrates to one. GPR, GPR on derivatives, SGPR (for the covariance of the sparse model), GPR_TD with one set of derivatives.", "quantifier": "All kernels, admissible hyperparameters (for derivatives: a positive definite covariance of the training observations, noise included), noises, constant mean functions, inputs, jacobians, and all targets.", "why_tests_cant": "A density is a statement about every set of targets.", "anchors": ["gpx/models/gpr.py: log_marginal_likelihood", "gpx/models/_gpr.py: _lml_dense, _lml_derivs_dense", "gpx/models/sgpr.py: log_marginal_likelihood", "gpx/models/gpr_td.py: log_marginal_likelihood"]}
{"id": "C152", "title": "On average the likelihood prefers the true hyperparameters", "statement": "If the targets are drawn from a model with some kernel, hyperparameters and constant mean, then no other kernel, hyperparameters or constant mean have a larger expected log marginal likelihood, and those that reach the maximum give the targets the same mean and covariance matrix. GPR, GPR on derivatives, GPR_TD with one or two sets of derivatives, SGPR (with respect to the law of its sparse process, inducing points included); and a sparse model never has a larger expected likelihood than the dense model the targets are drawn from.", "quantifier": "All pairs of kernels, admissible hyperparameters (for derivatives: positive definite covariances of the training observations, noise included), noises and constant means, all inputs, and all probability spaces with targets drawn from the first model.", "why_tests_cant": "It compares expectations over a continuum of targets for every pair of hyperparameters.", "anchors": ["gpx/models/gpr.py: log_marginal_likelihood", "gpx/models/gpr_td.py: log_marginal_likelihood", "gpx/models/utils.py: loss_fn_with_args"]}
{"id": "C153", "title": "No prediction from the same data has a smaller expected squared error", "statement": "If the data are noisy observations of the process as in C150, the expected squared error of each predicted value is the predicted variance, every other measurable way to compute a prediction from the same data has at least this expected squared error, and one that reaches it coincides with the model's prediction with probability one.", "quantifier": "All kernels, admissible hyperparameters, inputs, probability spaces, and all measurable functions of the data with finite expected squared error.", "why_tests_cant": "It quantifies over all predictors and over distributions.", "anchors": ["gpx/models/gpr.py: predict", "gpx/models/gpr_td.py: predict"]}
{"id": "C154", "title": "Credible intervals have the nominal coverage", "statement": "If the data are noisy observations of the process as in C150, the probability that the true value lies within z predicted standard deviations of the predicted mean is the probability that a standard normal number lies in [-z, z], for every z; where the predicted variance is zero, the prediction is exact with probability one.", "quantifier": "All kernels, admissible hyperparameters, training and new inputs, probability spaces and z.", "why_tests_cant": "A probability over a continuum of data sets cannot be established by samples.", "anchors": ["gpx/models/gpr.py: predict"]}
{"id": "C155", "title": "Predictions of the sparse models are conditional means of the sparse process", "statement": "For sigma different from zero, what predict returns after fit on an SGPR model is the conditional mean, given the targets, of a Gaussian process with covariance k(x,L) (K_LL + 1e-10/sigma^2 I)^-1 k(L,x') (L the inducing points) observed with noise variance sigma^2; the covariance of that conditional distribution is sigma^2 k(x,L) (sigma^2 K_LL + K_Ln K_nL + 1e-10 I)^-1 k(L,x). Hence, for data from this process, no other prediction from the same targets has a smaller expected squared error. The same holds on derivatives, with derivatives at the inducing points.", "quantifier": "All kernels, admissible (smooth) hyperparameters, nonzero sigma, inducing points (repeated ones allowed), training and new inputs, jacobians, constant mean functions, and all probability spaces with such random targets.", "why_tests_cant": "It is a statement about probability distributions over all possible targets.", "anchors": ["gpx/models/sgpr.py: fit, predict, predict_derivs", "gpx/models/_sgpr.py: _A_lhs, _fit_dense, _predict_dense, _fit_derivs_dense, _predict_derivs_dense"]}
{"id": "C156", "title": "Features named more than once in active_dims", "statement": "active_dims may name a feature several times; the kernel then counts it several times, its derivative kernels are the derivatives of that kernel, and every model gives the answers it would give on data in which the repeated features are separate columns.", "quantifier": "all kernel expressions and lists of active features, hyperparameters, datasets, jacobians, models", "why_tests_cant": "all lists and nested expressions; a repetition is an unusual input on which scatter operations silently keep one of the contributions", "anchors": ["gpx/kernels/kernels.py: Linear, Polynomial, SquaredExponential, Matern52 (d0k, d1k, d01k, d0kj, d1kj, d01kj), Kernel.active_dims"]}
{"id": "C157", "title": "The coordinates of the derivatives do not matter", "statement": "Derivatives may be expressed in any orthonormal coordinates, different for every sample: turning, reflecting or permuting the derivative components of a training sample (its jacobian and its observed derivatives together), or adding components that are always zero, changes no prediction and no log marginal likelihood; turning the coordinates of a prediction point turns its predicted derivatives and nothing else.", "quantifier": "all kernel expressions (repeated active features included), hyperparameters, datasets with a positive definite training matrix (all datasets for the kernels of C65 and C78), frames of every sample, prediction points; GPR and SGPR trained on derivatives, GPR_TD with one or two sets", "why_tests_cant": "all frames, one per sample, and all expressions; a misplaced index of the flattened samples-times-components axis shows only for some shapes", "anchors": ["gpx/models/gpr.py", "gpx/models/_gpr.py: _fit_derivs_dense, _predict_derivs, _predict_y_derivs, _lml_derivs_dense", "gpx/models/_sgpr.py: _fit_derivs_dense", "gpx/models/gpr_td.py: _A_lhs, _fit_dense, _predict_dense, _lml_dense", "gpx/kernels/kernels.py: d0kj, d1kj, d01kj"]}
{"id": "C158", "title": "How derivatives are split into sets does not matter", "statement": "Two sets of derivatives with the same noise give the predictions of one set with the components side by side, and log marginal likelihoods that agree up to the normalisation of C53; GPR_TD with derivatives of no components predicts the targets, and has the log marginal likelihood, of GPR with the noise of the targets.", "quantifier": "all kernel expressions, hyperparameters with equal noises of the two sets, mean functions, datasets with a positive definite training matrix (all for the kernels of C78), prediction points and jacobians", "why_tests_cant": "all shapes of the two sets and all data; a wrong offset of the stacked blocks shows only when the two sets have different numbers of components", "anchors": ["gpx/models/gpr_td.py: _A_lhs, _fit_dense, _predict_dense, _lml_dense", "gpx/models/_gpr.py: _fit_dense, _predict_dense, _lml_dense"]}
{"id": "C159", "title": "The way a kernel is written does not matter", "statement": "Exchanging or regrouping the terms of a sum or the factors of a product of kernels, multiplying out, joining Constant kernels and dropping a Constant factor 1 or summand 0, with the hyperparameters moved accordingly, changes no kernel value, no derivative and no result of any model.", "quantifier": "all kernel expressions, all sequences of such rearrangements at any depth, all hyperparameters, datasets, jacobians and stored coefficients; GPR, SGPR, SGPR_RPChol, GPR_TD, dense and iterative", "why_tests_cant": "all expressions and all rearrangements of them", "anchors": ["gpx/kernels/operations.py: sum_kernels, prod_kernels, prod_kernels_deriv, prod_kernels_deriv01, prod_kernels_deriv_jac, prod_kernels_deriv01_jac, prod_kernels_deriv0_jaccoef, prod_kernels_deriv01_jaccoef", "gpx/kernels/kernels.py: Sum, Prod, Kernel.__add__, Kernel.__mul__, Constant"]}
{"id": "C160", "title": "Models with periodic kernels are periodic", "statement": "Shifting the features seen by an ExpSinSquared kernel by whole multiples of its periodicity, in training, inducing or prediction samples, differently for different samples, changes no kernel value and no fit, prediction (targets, derivatives, covariances) or likelihood; features seen by no kernel can be shifted at will.", "quantifier": "all kernel expressions (shifts limited to what every kernel in it allows), all hyperparameters, datasets, jacobians, shifts; GPR, SGPR, SGPR_RPChol, GPR_TD, dense and iterative", "why_tests_cant": "all integers, all expressions, all data", "anchors": ["gpx/kernels/kernels.py: ExpSinSquared, expsinsquared_kernel_base", "gpx/models/_gpr.py: _fit_dense, _predict_dense, _predict_derivs_dense", "gpx/models/_sgpr.py: _predict_dense", "gpx/models/gpr_td.py: _predict_dense, _predict_iter"]}
{"id": "C161", "title": "Kernels tell different inputs apart", "statement": "If the kernel tells the training inputs apart (SquaredExponential, Matern: no two inputs agree in all active features; ExpSinSquared: not up to periods; products: one of the factors does; sums: one of the terms does), the Gram matrix is positive definite, not only semidefinite. Then, with a fixed mean, every table of values is the prediction at the training inputs for exactly one table of targets (nothing of the targets is lost); the squared training error is at most ((sigma²+1e-10)/(κ+sigma²+1e-10))² of the squared deviations of the targets, κ > 0 independent of noise and targets; and with a variance in front of the kernel the training targets are reproduced within any tolerance when the variance is large enough. Whatever the training data, the predicted covariance at new inputs that the kernel tells apart is positive definite. With a repeated input no Gram matrix is positive definite.", "quantifier": "all kernel expressions with a term or factors that tell the inputs apart, admissible hyperparameters, training and new inputs, targets, noises and mean functions (fixed mean for the correspondence of targets and predictions)", "why_tests_cant": "A positive smallest eigenvalue for every set of different inputs, however many and however close, cannot be sampled, and numerically the matrices become singular.", "anchors": ["gpx/kernels/kernels.py: SquaredExponential, Matern12, Matern32, Matern52, ExpSinSquared", "gpx/kernels/operations.py: sum_kernels, prod_kernels", "gpx/models/_gpr.py: _fit_dense, _predict_dense"]}
{"id": "C162", "title": "A best noise exists and is no larger than the data", "statement": "With everything else fixed, a sigma that maximises the log marginal likelihood exists, for GPR, SGPR and GPR trained on derivatives, and every such sigma has sigma² + 1e-10 at most the sum of the squared deviations of the targets from the mean (or the jitter 1e-10): beyond that, more noise strictly lowers the likelihood. When all targets equal the mean, sigma = 0 is the only best noise. With a Constant kernel as a factor in front of a kernel that tells the training inputs apart, a variance and a sigma that together maximise the likelihood exist, so training does not send them to infinity.", "quantifier": "all kernel expressions, admissible hyperparameters, training inputs, inducing points, targets (any number of outputs), mean functions and values of sigma", "why_tests_cant": "The claim compares the likelihood with that of every other noise and variance, an unbounded continuum, for every data set.", "anchors": ["gpx/models/_gpr.py: _lml_dense, _lml_derivs_dense", "gpx/models/_sgpr.py: _lml_dense", "gpx/optimizers/scipy_optimize.py: scipy_minimize"]}
{"id": "C163", "title": "Sparse models are as close to the dense ones as the inducing points explain the data", "statement": "Let ρ(x) = k(x,x) - k(x,L)(K_LL + 1e-10/sigma² I)^-1 k(L,x) be the variance at x that the inducing points L leave unexplained and T the sum of ρ over the training inputs. After fit on the same data with the same hyperparameters, the predictions of SGPR and GPR at any x differ by at most (sqrt(ρ(x) T) + sqrt(k(x,x)/(2 sigma²)) (T + 1e-10)) / sigma² times the norm of the centred targets. The same holds for models trained on derivatives. The log marginal likelihoods per sample of SGPR and GPR differ by at most T/(2 n s) upwards and T |y-mu|²/(2 n s²) downwards, s = sigma² + 1e-10, T with regularisation 1e-10. ρ lies between 0 and k(x,x), is at most the regularisation at an inducing point, and never grows when inducing points are added.", "quantifier": "all kernel expressions with admissible (for derivatives: smooth) hyperparameters, inducing points (repeated ones allowed), datasets, new inputs, outputs, mean functions and nonzero sigma", "why_tests_cant": "The bound relates two models for every choice of inducing points and every dataset.", "anchors": ["gpx/models/_sgpr.py: _A_lhs, _fit_dense, _predict_dense, _fit_derivs_dense, _predict_derivs_dense, _lml_dense", "gpx/models/_gpr.py: _fit_dense, _predict_dense, _fit_derivs_dense, _predict_derivs_dense, _lml_dense"]}
{"id": "C164", "title": "The predicted variance is the worst-case error", "statement": "For functions f = Σ w_l k(z_l, ·) made of kernels at any finite set of points, with squared norm ‖f‖² = Σ w_l k(z_l, z_l') w_l': after fit on (x_i, y_i), the values mu + f(x) of all functions with ‖f‖² + Σ (y_i - mu - f(x_i))²/(sigma² + 1e-10) ≤ R are exactly those t with (t - prediction(x))² ≤ (R - Σ c_i (y_i - mu)) · variance(x), c the fitted coefficients: the prediction is the centre and the predicted standard deviation the half-width of what is compatible with the data. In particular, for targets mu + f(x_i) without noise the prediction is within ‖f‖ times the predicted standard deviation of mu + f(x). The same holds for the derivatives predicted by models trained on derivatives, and values predicted by GPR_TD are within the same kind of factor times the standard deviation of a GPR trained on the values alone.", "quantifier": "all kernel expressions with admissible (derivatives: smooth) hyperparameters, datasets, targets, mean functions, new inputs, functions f and bounds R", "why_tests_cant": "It compares the model with every function of an infinite dimensional space.", "anchors": ["gpx/models/_gpr.py: _fit_dense, _predict_dense, _fit_derivs_dense, _predict_derivs_dense", "gpx/models/gpr_td.py: fit, predict"]}
{"id": "C165", "title": "Predictions vary no faster than the kernel", "statement": "The predictions of a fitted model at two inputs differ by at most the distance of the inputs as the kernel sees them, sqrt(k(x,x) - 2 k(x,x') + k(x',x')), times half the length of the centred targets in units of the noise; the predicted standard deviations (full_covariance=True) differ by at most that distance, whatever the data. The distance is at most sqrt(sum of slope_f (x_f - x'_f)^2), with slopes read off the kernel: 2/l^2 for SquaredExponential, 3/l^2 for Matern32, 5/(3 l^2) for Matern52, 8 pi^2/(l p^2) for ExpSinSquared, 1 for Linear, added in sums and weighted in products. The same for SGPR, for models trained on derivatives and for GPR_TD.", "quantifier": "all kernel expressions (for the slopes: without Matern12 and Polynomial; models of derivatives: the kernels of C65 and C78), hyperparameters, training sets, inducing points, noise, mean functions, pairs of inputs", "why_tests_cant": "A Lipschitz bound speaks about every pair of inputs and every training set; a test samples a few pairs and cannot exclude a jump elsewhere.", "anchors": ["gpx/models/_gpr.py: _fit_dense, _predict_dense", "gpx/models/_sgpr.py: _fit_dense, _predict_dense", "gpx/models/gpr_td.py: fit, predict", "gpx/kernels/kernels.py"]}
{"id": "C166", "title": "More noise or a less certain prior never makes a prediction more certain, and noise without bound makes the data irrelevant", "statement": "With the inputs fixed, enlarging sigma, adding a kernel to the kernel, raising the variance of a Constant factor, or any change under which every weighted sum of function values has at least its former prior variance, never lowers the predicted variance of any value or weighted sum of values of a GPR (full_covariance=True); the same for predicted derivatives of models trained on derivatives. As sigma grows without bound, predictions of a GPR tend to the mean of the targets and the predicted covariance to the kernel. In GPR_TD, as the noise of the derivatives grows without bound, the predicted targets tend to those of a GPR trained on the targets alone; as the noise of the targets does, the predicted derivatives (and the targets less their mean) tend to those of the model trained on the derivatives alone.", "quantifier": "all kernel expressions (models of derivatives: the kernels of C65), hyperparameters, training sets, test inputs, mean functions", "why_tests_cant": "A monotonicity claim over every pair of hyperparameters and every data set, and limits, which no finite number of runs can settle.", "anchors": ["gpx/models/_gpr.py: _fit_dense, _predict_dense, _fit_derivs_dense, _predict_derivs_dense, _predict_y_derivs_dense", "gpx/models/gpr_td.py: fit, predict", "gpx/kernels/operations.py", "gpx/kernels/kernels.py: Constant"]}
{"id": "C167", "title": "Very long and very short lengthscales", "statement": "With all lengthscales of the kernel multiplied by a number growing without bound, a GPR predicts the same at every input: the mean plus v/(m v + sigma² + 1e-10) times the sum of the centred targets, where v is the prior variance and m the number of samples (with the default mean and one output: the mean of the targets), and the predicted covariance of any two values tends to v (sigma² + 1e-10)/(m v + sigma² + 1e-10). With all lengthscales multiplied by a number going to zero, the prediction at an input told apart from all training samples tends to the mean with the prior variance, and at a training sample told apart from all others to the mean plus v/(v + sigma² + 1e-10) times its own centred target. The prior variance itself does not depend on the lengthscales.", "quantifier": "all sums and products of Constant, SquaredExponential, Matern and ExpSineSquared kernels, hyperparameters, training sets, test inputs, mean functions; told apart: by a feature along which the kernel vanishes at a distance", "why_tests_cant": "A limit in the hyperparameters for every kernel expression and data set, which no finite number of runs can settle.", "anchors": ["gpx/models/_gpr.py: _fit_dense, _predict_dense", "gpx/kernels/kernels.py", "gpx/kernels/operations.py", "gpx/mean_functions.py: data_mean"]}
{"id": "C168", "title": "Errors on samples left out can be read off the trained model", "statement": "For a GPR trained on all samples and the same model trained on all but one, with nz = sigma² + 1e-10: the coefficient of the sample times (the variance predicted there by the model that did not see it, plus nz) is the error of that model on the sample; that error equals the residual of the trained model times nz/(nz - predicted variance at the sample), where nz - variance is positive; (left-out variance + nz)(nz - variance) = nz²; and the residual of the trained model is never larger than the error left out. For a group of samples left out, with V the covariance the trained model predicts for the group, (nz I - V)(errors left out) = nz (residuals), and nz I - V is positive definite. For SGPR, with h the prediction at the sample of the model trained with zero_mean on targets that are one there and zero elsewhere, 0 ≤ h < 1 and the residual is 1 - h times the error left out. For a model trained on derivatives and a sample left out with all its directions, the statement for groups holds with V the covariance predicted for the derivatives at that sample.", "quantifier": "all kernel expressions with admissible hyperparameters, noises, data, samples and groups left out, and mean functions with the same value with and without them (zero_mean always)", "why_tests_cant": "An identity between two fits for every data set, kernel and choice of sample.", "anchors": ["gpx/models/_gpr.py: _fit_dense, _predict_dense", "gpx/models/gpr.py: fit, predict", "gpx/models/_sgpr.py: _fit_dense, _predict_dense"]}
{"id": "C169", "title": "Symmetric data give symmetric predictions", "statement": "If a motion of the inputs that the kernel does not notice (a permutation of features, rotation, reflection or translation, as in C123) maps the training inputs onto themselves so that each sample and its image have equal targets, then predictions and covariances of a GPR are equal at every input and its image; if the targets of the image are s times those of the sample, for instance opposite, predictions at the image are s times those at the input. The same holds for SGPR when the inducing points are mapped onto themselves, for models trained on derivatives and for GPR_TD when the jacobians are mapped along: derivatives predicted at the image along the mapped jacobian are those predicted at the input.", "quantifier": "all kernels of C123, hyperparameters, symmetric training sets, inputs; mean functions that ignore the order (and are linear, for s ≠ 1)", "why_tests_cant": "It ranges over all symmetries, data sets and inputs.", "anchors": ["gpx/models/_gpr.py: _fit_dense, _predict_dense, _fit_derivs_dense, _predict_derivs_dense", "gpx/models/_sgpr.py: _fit_dense, _predict_dense", "gpx/models/gpr_td.py: fit, predict", "gpx/kernels/kernels.py"]}
{"id": "C170", "title": "Uncertainty and error vanish where data accumulate, and only there as fast as the noise allows", "statement": "If N training samples differ from a new input by at most δ in the kernel's squared distance k(x,x) - 2k(x_i,x) + k(x_i,x_i), the variance reported by a trained GPR at that input is at most δ + (sigma² + 1e-10)/N, whatever the other samples; the same for derivatives in models trained on derivatives. For kernels of bounded slope the distance may be replaced by Σ_f slope_f (x_i,f - x_f)². Along any sequence of training sets that puts arbitrarily many samples arbitrarily close to the input the variance there tends to zero, for every kernel expression, and if the targets are those of the mean plus a fixed function of the kernel's space, the predictions tend to it. Conversely the variance is never below (sigma² + 1e-10) k(x,x) / (sigma² + 1e-10 + Σ_i k(x_i,x_i)).", "quantifier": "all kernels, hyperparameters, training sets and sequences of training sets, inputs, mean functions", "why_tests_cant": "It is a limit over training sets of growing size, and bounds over all training sets.", "anchors": ["gpx/models/_gpr.py: _fit_dense, _predict_dense, _predict_derivs_dense", "gpx/kernels/kernels.py"]}
{"id": "C171", "title": "Models with the simple kernels are the classical regressions", "statement": "A GPR with the Linear kernel predicts mu + Σ_f w_f x_f over the active features, with w the only minimiser of Σ_i (y_i - mu - w·x_i)² + (sigma² + 1e-10) |w|², and its covariance is that of ridge regression, s X (ΦᵀΦ + s)⁻¹ Xᵀ with s = sigma² + 1e-10. With the Constant kernel the prediction is the same everywhere, mu + v Σ(y_i - mu)/(s + n v), and every entry of the covariance is s v/(s + n v). With any kernel made of Constant, Linear and Polynomial by sums and products, predictions of dense and sparse models are a polynomial in the input of at most the degree of the kernel.", "quantifier": "all training sets, targets, noises, active_dims, mean functions, inputs; all kernel expressions of the named kernels; all coefficients for the last statement", "why_tests_cant": "Equality of two methods on every data set, and a statement about the form of the predicted function on the whole space.", "anchors": ["gpx/kernels/kernels.py: constant_kernel, linear_kernel, polynomial_kernel, Sum, Prod", "gpx/models/_gpr.py: _fit_dense, _predict_dense"]}
{"id": "C172", "title": "Features the kernel does not read do not matter, and features it does not combine do not interact", "statement": "Changing features that no part of the kernel reads (other than through Constant), in the training inputs and in the inputs of a prediction, changes neither the fit nor predictions, covariances or likelihood. The derivative predicted by a model trained on values along a direction that moves such features only is zero; in a model trained on derivatives, the derivative predicted along such a direction is the stored mean with variance zero, and (with a zero mean) targets recorded along such directions affect no prediction. If no part of the kernel reads both of two features (Linear excepted) and no product has one in each factor, the effect on the predictions of changing one of them is the same whatever the value of the other: predictions of dense and sparse models are additive in them.", "quantifier": "all kernel expressions, hyperparameters, data, coefficients, features and values", "why_tests_cant": "It ranges over all kernel expressions and all pairs of inputs.", "anchors": ["gpx/kernels/kernels.py: active_dims, Sum, Prod", "gpx/models/_gpr.py: _fit_dense, _predict_dense, _lml_dense"]}
{"id": "C173", "title": "Noise-free targets are reproduced", "statement": "If the targets are the values at the training inputs of the mean plus a function f of the kernel's space (a finite combination of kernels), then the sum of the squared residuals of the trained GPR is at most (sigma² + 1e-10)|f|²/4, with |f| the norm of the kernel's space, whatever the number and position of the training inputs, and the fitted function has a norm no larger than that of f. The same for models trained on derivatives. For SGPR and f a combination of kernels at the inducing points with weights w, the sum is at most sigma²|f|² + 1e-10|w|².", "quantifier": "all kernels, hyperparameters, training inputs, functions f, mean functions (values: admissible kernels; derivatives: kernels of C65)", "why_tests_cant": "A bound uniform over all data sets and functions.", "anchors": ["gpx/models/_gpr.py: _fit_dense, _predict_dense, _fit_derivs_dense, _predict_derivs_dense"]}
{"id": "C174", "title": "Predicted derivatives are conservative", "statement": "Integrated along a path of inputs, the derivatives predicted by a model (with the jacobian of the path) give the difference between the targets it predicts at the two ends, whatever the path between them. Round a closed path the integral is zero. This holds for predict_ol and GPR_TD as it stands; for models trained on derivatives (dense and sparse) predict_derivs adds the stored mean to every derivative, so that the integral is off by the mean times the length of the interval, and is zero round a loop only when no mean is stored.", "quantifier": "all kernel expressions with exact derivatives (C79), or made of SquaredExponential and Constant up to the factor exp(1e-12), all continuously differentiable paths, training data, coefficients, means", "why_tests_cant": "It ranges over all paths between all inputs.", "anchors": ["gpx/models/_gpr.py: _predict_derivs_dense, _predict_y_derivs_dense, _predict_ol", "gpx/models/_sgpr.py: _predict_derivs_dense, _predict_y_derivs_dense", "gpx/models/gpr_td.py: _predict_dense"]}
{"id": "C175", "title": "A model of several outputs is several models of one output", "statement": "A GPR or SGPR fitted on targets with several columns has, in each column, the coefficients and predictions of the same model fitted on that column alone, as long as the mean function gives the column the mean it gives the whole. This holds in full for zero_mean, and for data_mean when all the columns have the same average. It fails for data_mean (the default) otherwise, because the mean is taken over all columns: the prediction then differs by the difference of the two means times one minus what the model predicts when fitted on ones.", "quantifier": "all kernel expressions, hyperparameters, noises, training data, inducing points, numbers of outputs, mean functions, prediction points", "why_tests_cant": "It ranges over all targets, numbers of outputs and kernels.", "anchors": ["gpx/models/_gpr.py: _fit_dense, _predict_dense", "gpx/models/_sgpr.py: _fit_dense, _predict_dense", "gpx/mean_functions.py: zero_mean, data_mean"]}
