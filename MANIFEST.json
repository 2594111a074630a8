{
 "claims": [
  {
   "property": "C01",
   "status": "proved",
   "theorems": [
    "GPX.Props.C01_forward_in_range"
   ],
   "note": "All five library bijectors, all real arguments, over ℝ."
  },
  {
   "property": "C02",
   "status": "partial",
   "theorems": [
    "GPX.Props.C02_softplus_roundtrip",
    "GPX.Props.C02_softmin_roundtrip",
    "GPX.Props.C02_softmax_roundtrip",
    "GPX.Props.C02_softminmax_roundtrip_partial",
    "GPX.Props.C02_softminmax_sliver_undefined",
    "GPX.Props.C02_defined_partial",
    "GPX.Props.C02_sliver",
    "GPX.Props.C02_false"
   ],
   "note": "Exact for Softplus/SoftMin/SoftMax on the whole range. SoftMinMax: bounded error outside the lowest sliver of relative width 1e-300/softplus(width); in the sliver backward returns no number (C02_sliver), so the full claim C02_full is false."
  },
  {
   "property": "C03",
   "status": "proved",
   "theorems": [
    "GPX.Props.C03_softplus_backward_forward",
    "GPX.Props.C03_softmin_backward_forward",
    "GPX.Props.C03_softmax_backward_forward",
    "GPX.Props.C03_defined",
    "GPX.Props.C03_softminmax_backward_forward"
   ],
   "note": "Error bounds for Softplus, SoftMin and SoftMax; for SoftMinMax the exact error where a number is returned, and the exact condition for it."
  },
  {
   "property": "C04",
   "status": "proved",
   "theorems": [
    "GPX.Props.C04_forward_strictMono"
   ],
   "note": ""
  },
  {
   "property": "C05",
   "status": "proved",
   "theorems": [
    "GPX.Props.C05_normal_density",
    "GPX.Props.C05_normal_integral_one",
    "GPX.Props.C05_gamma_density",
    "GPX.Props.C05_gamma_integral_one"
   ],
   "note": ""
  },
  {
   "property": "C06",
   "status": "proved",
   "theorems": [
    "GPX.Props.C06_normal_sample_law",
    "GPX.Props.C06_gamma_sample_law"
   ],
   "note": "The standard draws of the random library are random variables of the stated law (hypothesis)."
  },
  {
   "property": "C07",
   "status": "partial",
   "theorems": [
    "GPX.Props.C07_roundtrip_partial",
    "GPX.Props.C07_roundtrip_false",
    "GPX.Props.C07_roundtrip_counterexample"
   ],
   "note": "Full statement C07_full is false of the code (proved); round trip proved for dictionaries whose keys avoid the separator and short-shadow clash."
  },
  {
   "property": "C08",
   "status": "partial",
   "theorems": [
    "GPX.Props.C08_save_load_partial",
    "GPX.Props.C08_save_load_false"
   ],
   "note": "False for some names: the \"subk is keys[-1]\" test in _unflatten_dict misplaces a one-character sub-dictionary name repeated by a leaf below it (witness proved). Proved for all trees without such a name and all option sets."
  },
  {
   "property": "C09",
   "status": "partial",
   "theorems": [
    "GPX.Props.C09_load_wrong_count_partial",
    "GPX.Props.C09_load_wrong_count_false",
    "GPX.Props.C09_load_success_count"
   ],
   "note": "Proved for every saved state without a shadowed one-character name; false otherwise (a file with two parameters is accepted by a state with three). For arbitrary files: success implies equal counts."
  },
  {
   "property": "C10",
   "status": "proved",
   "theorems": [
    "GPX.Props.C10_update_overlay",
    "GPX.Props.C10_update_sequence",
    "GPX.Props.C10_overlay_reads"
   ],
   "note": "Any sequence of updates behaves as an overlay."
  },
  {
   "property": "C11",
   "status": "partial",
   "theorems": [
    "GPX.Props.C11_update_preserves_partial",
    "GPX.Props.C11_parameter_update_partial",
    "GPX.Props.C11_update_preserves_false"
   ],
   "note": "False of the code: update pops kernel/mean_function/params from the caller's dictionary (witness). Proved: exactly those entries are removed and nothing else changes."
  },
  {
   "property": "C12",
   "status": "proved",
   "theorems": [
    "GPX.Props.C12_unravel_respects",
    "GPX.Props.C12_unravel_uses_all",
    "GPX.Props.C12_unravel_wrong_length"
   ],
   "note": ""
  },
  {
   "property": "C13",
   "status": "proved",
   "theorems": [
    "GPX.Props.C13_entry_roundtrip",
    "GPX.Props.C13_ravel_roundtrip"
   ],
   "note": "Exact except for the 1e-300 jitter of softplus, which is bounded."
  },
  {
   "property": "C14",
   "status": "proved",
   "theorems": [
    "GPX.Props.C14_randomize",
    "GPX.Props.C14_sample_prior"
   ],
   "note": ""
  },
  {
   "property": "C15",
   "status": "proved",
   "theorems": [
    "GPX.Props.C15_restarts_best",
    "GPX.Props.C15_never_worse",
    "GPX.Props.C15_restarts_return"
   ],
   "note": "all three randomized_minimization variants are the same function once data arguments are fixed"
  },
  {
   "property": "C16",
   "status": "proved",
   "theorems": [
    "GPX.Props.C16_no_key",
    "GPX.Props.C16_no_restarts",
    "GPX.Props.C16_fit_no_key"
   ],
   "note": ""
  },
  {
   "property": "C17",
   "status": "proved",
   "theorems": [
    "GPX.Props.C17_kernelize_entries"
   ],
   "note": "Both vmap and loop compositions give exactly the pointwise values."
  },
  {
   "property": "C18",
   "status": "proved",
   "theorems": [
    "GPX.Props.C18_layout",
    "GPX.Props.C18_entries_are_derivatives",
    "GPX.Props.C18_argnums"
   ],
   "note": "Layout for every expression; entries are true derivatives at every point where the expression is smooth."
  },
  {
   "property": "C19",
   "status": "proved",
   "theorems": [
    "GPX.Props.C19_jacobian_contractions"
   ],
   "note": "All jacobian-contracted kernels of decorator-built kernels."
  },
  {
   "property": "C20",
   "status": "partial",
   "theorems": [
    "GPX.Props.C20_coefficient_sums",
    "GPX.Props.C20_traced_is_sum",
    "GPX.Props.C20_library_partial",
    "GPX.Props.C20_false",
    "GPX.Props.C20_errors_partial"
   ],
   "note": "Proved for every decorator-built kernel and every library expression without Matern52; false for Matern52, whose d0kjc has no jitter while d0kj has. For every expression, Matern52 included, the two sides differ by at most an explicit error caused by the jitter (C20_errors_partial)."
  },
  {
   "property": "C21",
   "status": "proved",
   "theorems": [
    "GPX.Props.C21_symmetric"
   ],
   "note": "All kernel expressions: leaves, sums, products, any active_dims."
  },
  {
   "property": "C22",
   "status": "proved",
   "theorems": [
    "GPX.Props.C22_gram_posSemidef",
    "GPX.Props.C22_regularized_posDef"
   ],
   "note": "All kernel expressions, including the three Matern kernels with the jitter of the code."
  },
  {
   "property": "C23",
   "status": "proved",
   "theorems": [
    "GPX.Props.C23_stationary"
   ],
   "note": "All five stationary leaves."
  },
  {
   "property": "C24",
   "status": "partial",
   "theorems": [
    "GPX.Props.C24_false",
    "GPX.Props.C24_kernels_partial",
    "GPX.Props.C24_squared_exponential_false",
    "GPX.Props.C24_constant",
    "GPX.Props.C24_linear",
    "GPX.Props.C24_polynomial",
    "GPX.Props.C24_squared_exponential",
    "GPX.Props.C24_squared_exponential_first",
    "GPX.Props.C24_exp_sin_squared",
    "GPX.Props.C24_matern52",
    "GPX.Props.C24_rules_partial",
    "GPX.Props.C24_rules_coincident_partial",
    "GPX.Props.C24_matern32_curvature",
    "GPX.Props.C24_rules_false"
   ],
   "note": "Hand-written derivative kernels are exact; d0k and d1k of SquaredExponential (from the base kernel, without the jitter of k) are exp(1e-12) times the derivative, so the full claim is false; the custom_jvp rules are exact above the 1e-36 floor, and at coincident points for the sample arguments; the lengthscale rule is off by about 1e-36 at coincident points."
  },
  {
   "property": "C25",
   "status": "proved",
   "theorems": [
    "GPX.Props.C25_leaf_contractions",
    "GPX.Props.C25_expression_contractions",
    "GPX.Props.C25_expression_coefficients"
   ],
   "note": "All leaves, then sums and products."
  },
  {
   "property": "C26",
   "status": "proved",
   "theorems": [
    "GPX.Props.C26_product_rule",
    "GPX.Props.C26_product_contractions"
   ],
   "note": "Arbitrary factor kernels."
  },
  {
   "property": "C27",
   "status": "proved",
   "theorems": [
    "GPX.Props.C27_sum_additive",
    "GPX.Props.C27_sum_derivatives"
   ],
   "note": "Arbitrary summands."
  },
  {
   "property": "C28",
   "status": "proved",
   "theorems": [
    "GPX.Props.C28_active_dims"
   ],
   "note": "Any kernel expression; index lists without repetitions."
  },
  {
   "property": "C29",
   "status": "proved",
   "theorems": [
    "GPX.Props.C29_matvec",
    "GPX.Props.C29_matvec_derivs"
   ],
   "note": "All kernel expressions; targets, derivatives and the mixed target/derivative product."
  },
  {
   "property": "C30",
   "status": "proved",
   "theorems": [
    "GPX.Props.C30_preconditioner",
    "GPX.Props.C30_preconditioner_derivs"
   ],
   "note": "The preconditioner applies the exact inverse of F Fᵀ + sigma² I for the factor returned by the pivoted Cholesky routine."
  },
  {
   "property": "C31",
   "status": "proved",
   "theorems": [
    "GPX.Props.C31_fit_solves",
    "GPX.Props.C31_fit_derivs_solves"
   ],
   "note": "Under the contract LinAlg.Exact of the external solver; the derivative version assumes a PSD derivative Gram matrix (C65)."
  },
  {
   "property": "C32",
   "status": "partial",
   "theorems": [
    "GPX.Props.C32_iterative_eq_dense",
    "GPX.Props.C32_predictions_agree_partial",
    "GPX.Props.C32_sparse_coef_partial",
    "GPX.Props.C32_matern52_derivs_partial",
    "GPX.Props.C32_fit_iterative",
    "GPX.Props.C32_fit_derivs_iterative",
    "GPX.Props.C32_false",
    "GPX.Props.C32_errors_partial"
   ],
   "note": "Iterative and dense paths agree for exact CG; predict_y_derivs with stored jacobian coefficients disagrees for Matern52 (C32_false); the same for SGPR (C32_sparse_coef_partial). For every expression, Matern52 included, the predictions from stored coefficients differ from the dense ones by at most an explicit error caused by the jitter (C32_errors_partial)."
  },
  {
   "property": "C33",
   "status": "proved",
   "theorems": [
    "GPX.Props.C33_posterior_covariance",
    "GPX.Props.C33_posterior_formula"
   ],
   "note": ""
  },
  {
   "property": "C34",
   "status": "partial",
   "theorems": [
    "GPX.Props.C34_single_output_partial",
    "GPX.Props.C34_dense_formula",
    "GPX.Props.C34_derivs",
    "GPX.Props.C34_false",
    "GPX.Props.C34_iterative_false"
   ],
   "note": "Exact for one output column and for derivative targets. For several output columns the code counts log-determinant and constant once, and the iterative version adds cross terms between columns: both refuted."
  },
  {
   "property": "C35",
   "status": "proved",
   "theorems": [
    "GPX.Props.C35_order",
    "GPX.Props.C35_order_derivs"
   ],
   "note": "zeroMean_orderFree and dataMean_orderFree discharge the hypothesis on the mean function."
  },
  {
   "property": "C36",
   "status": "proved",
   "theorems": [
    "GPX.Props.C36_linear",
    "GPX.Props.C36_linear_derivs",
    "GPX.Props.C36_shift",
    "GPX.Props.C36_linear_sparse",
    "GPX.Props.C36_linear_rpchol",
    "GPX.Props.C36_linear_sparse_derivs",
    "GPX.Props.C36_linear_joint",
    "GPX.Props.C36_linear_joint2",
    "GPX.Props.C36_shift_sparse",
    "GPX.Props.C36_shift_joint"
   ],
   "note": ""
  },
  {
   "property": "C37",
   "status": "proved",
   "theorems": [
    "GPX.Props.C37_loop",
    "GPX.Props.C37_error_decreases",
    "GPX.Props.C37_factor_below_kernel",
    "GPX.Props.C37_factor_below_kernel_derivs"
   ],
   "note": ""
  },
  {
   "property": "C38",
   "status": "proved",
   "theorems": [
    "GPX.Props.C38_pivots",
    "GPX.Props.C38_pivots_derivs"
   ],
   "note": ""
  },
  {
   "property": "C39",
   "status": "partial",
   "theorems": [
    "GPX.Props.C39_residual_partial",
    "GPX.Props.C39_false"
   ],
   "note": "False: the 1e-6 jitter leaves a positive sampling weight on a used pivot. Proved: the remaining weight is at most 2e-6 times the square root of the old one."
  },
  {
   "property": "C40",
   "status": "proved",
   "theorems": [
    "GPX.Props.C40_symmetric_tridiagonal",
    "GPX.Props.C40_orthonormal",
    "GPX.Props.C40_start",
    "GPX.Props.C40_projection"
   ],
   "note": "Exact arithmetic. The entrywise error 2e-12 is the effect of the breakdown threshold; the run must be regular (a replacement vector drawn after a breakdown is not in the span of the previous columns)."
  },
  {
   "property": "C41",
   "status": "proved",
   "theorems": [
    "GPX.Props.C41_zero_means",
    "GPX.Props.C41_train_test",
    "GPX.Props.C41_test_test",
    "GPX.Props.C41_posSemidef"
   ],
   "note": "Features in any real inner product space."
  },
  {
   "property": "C42",
   "status": "proved",
   "theorems": [
    "GPX.Props.C42_flags",
    "GPX.Props.C42_predict",
    "GPX.Props.C42_predict_derivs",
    "GPX.Props.C42_predict_y_derivs",
    "GPX.Props.C42_predict_ol",
    "GPX.Props.C42_both_flags",
    "GPX.Props.C42_flag_values"
   ],
   "note": "all histories of a GPR object, with any minimiser that changes only parameters (scipy and nlopt wrappers do)"
  },
  {
   "property": "C43",
   "status": "partial",
   "theorems": [
    "GPX.Props.C43_false",
    "GPX.Props.C43_sgpr_fit_raises",
    "GPX.Props.C43_sgpr_call_raises",
    "GPX.Props.C43_rbfnet_fit_raises",
    "GPX.Props.C43_fit_partial"
   ],
   "note": "false of the code for SGPR, SGPR_RPChol and RBFNet: their fit methods raise for every input; holds for GPR and for fit_nlopt"
  },
  {
   "property": "C44",
   "status": "partial",
   "theorems": [
    "GPX.Props.C44_checkpoints_partial",
    "GPX.Props.C44_names_partial",
    "GPX.Props.C44_false"
   ],
   "note": "False for file names containing single braces (str.format interprets them and raises). Proved for all names: the calls succeed exactly when braces are doubled, the n-th checkpoint is called stem.NNN.ext, and then no two checkpoints share a file, for any number of calls."
  },
  {
   "property": "C45",
   "status": "proved",
   "theorems": [
    "GPX.Props.C45_optax_history",
    "GPX.Props.C45_validation_pair"
   ],
   "note": "gradients and the optax optimiser are external parameters"
  },
  {
   "property": "C46",
   "status": "proved",
   "theorems": [
    "GPX.Props.C46_recursive_check",
    "GPX.Props.C46_parameter_guard",
    "GPX.Props.C46_states_consistent"
   ],
   "note": ""
  },
  {
   "property": "C47",
   "status": "partial",
   "theorems": [
    "GPX.Props.C47_last_dimension",
    "GPX.Props.C47_other_dimensions_lost",
    "GPX.Props.C47_one_output_partial",
    "GPX.Props.C47_vector_mean",
    "GPX.Props.C47_false"
   ],
   "note": "False for two or more output dimensions: only the draws of the last one are returned; with a one-dimensional mean the sample count is ignored. Proved for one output."
  },
  {
   "property": "C48",
   "status": "partial",
   "theorems": [
    "GPX.Props.C48_fit_solves",
    "GPX.Props.C48_fit_derivs_solves",
    "GPX.Props.C48_matvec",
    "GPX.Props.C48_iterative_eq_dense",
    "GPX.Props.C48_matvec_derivs_formula",
    "GPX.Props.C48_matvec_derivs_partial",
    "GPX.Props.C48_fit_derivs_iterative_partial",
    "GPX.Props.C48_predict_derivs",
    "GPX.Props.C48_likelihood_operator",
    "GPX.Props.C48_likelihood_operator_derivs_partial",
    "GPX.Props.C48_false"
   ],
   "note": "Dense systems, target operators and the likelihood operator proved for all inputs. The derivative operator permutes columns when there are two or more derivative components and inducing points (C48_false); exact permutation in C48_matvec_derivs_formula; equality proved for one component or one inducing point."
  },
  {
   "property": "C49",
   "status": "partial",
   "theorems": [
    "GPX.Props.C49_at_training_inputs_partial",
    "GPX.Props.C49_covariance_posSemidef",
    "GPX.Props.C49_false"
   ],
   "note": "False in general: the code passes the prediction points where the training inputs belong. Proved when they coincide; the returned matrix is positive semidefinite for all inputs."
  },
  {
   "property": "C50",
   "status": "partial",
   "theorems": [
    "GPX.Props.C50_rpchol_ignores_flag",
    "GPX.Props.C50_sgpr_partial",
    "GPX.Props.C50_one_point_partial",
    "GPX.Props.C50_false"
   ],
   "note": "SGPR_RPChol drops the flag (for every input); SGPR honours it for one derivative component, and for one inducing point with the noise variance added to every entry of the covariance of the components (C50_one_point_partial); see C72 for more."
  },
  {
   "property": "C51",
   "status": "partial",
   "theorems": [
    "GPX.Props.C51_gpr_partial",
    "GPX.Props.C51_sgpr_uses_sqrt",
    "GPX.Props.C51_sgpr_partial",
    "GPX.Props.C51_false",
    "GPX.Props.C51_sgpr_derivs"
   ],
   "note": "GPR as stated; SGPR and SGPR_RPChol add sigma instead of sigma squared, i.e. sample with noise sqrt(sigma)."
  },
  {
   "property": "C52",
   "status": "proved",
   "theorems": [
    "GPX.Props.C52_entries1",
    "GPX.Props.C52_entries2",
    "GPX.Props.C52_symmetric",
    "GPX.Props.C52_posDef1",
    "GPX.Props.C52_posDef2",
    "GPX.Props.C52_matvec1",
    "GPX.Props.C52_matvec2"
   ],
   "note": "Entries of every block, symmetry, positive definiteness given a PSD noise-free covariance (supplied by C78), matrix-free product equals dense product, one and two derivative sets."
  },
  {
   "property": "C53",
   "status": "partial",
   "theorems": [
    "GPX.Props.C53_one_set_partial",
    "GPX.Props.C53_two_sets_partial",
    "GPX.Props.C53_false"
   ],
   "note": "With one derivative set the claim holds; with two the dense code divides by n+n*v and omits n*v2 copies of the constant, so dense and iterative values differ (C53_false)."
  },
  {
   "property": "C54",
   "status": "partial",
   "theorems": [
    "GPX.Props.C54_log_posterior_partial",
    "GPX.Props.C54_log_prior_false",
    "GPX.Props.C54_array_never_scalar",
    "GPX.Props.C92_negatives"
   ],
   "note": "False for array-valued parameters (the result is never a scalar, C54_array_never_scalar); proved for scalar parameters. The negated losses: C92_negatives."
  },
  {
   "property": "C55",
   "status": "proved",
   "theorems": [
    "GPX.Props.C55_distances"
   ],
   "note": ""
  },
  {
   "property": "C56",
   "status": "partial",
   "theorems": [
    "GPX.Props.C56_fit_returns_partial",
    "GPX.Props.C56_always_raises",
    "GPX.Props.C56_false"
   ],
   "note": "false of the code: fit(return_history=True, minimize=False) always raises UnboundLocalError; proved: it returns in the other three combinations"
  },
  {
   "property": "C57",
   "status": "proved",
   "theorems": [
    "GPX.Props.C57_pso_best",
    "GPX.Props.C57_no_repetition",
    "GPX.Props.C57_local"
   ],
   "note": "pso_jax and SciPy are external parameters; reported values may be nan or infinite: such repetitions are never kept, and when there is no other one (or repeat = 0) the call raises UnboundLocalError. C57_local: the default localopt=True."
  },
  {
   "property": "C58",
   "status": "proved",
   "theorems": [
    "GPX.Props.C58_transform_mode",
    "GPX.Props.C58_transform_values",
    "GPX.Props.C58_transform_roundtrip"
   ],
   "note": ""
  },
  {
   "property": "C59",
   "status": "partial",
   "theorems": [
    "GPX.Props.C59_apart_partial",
    "GPX.Props.C59_restart_reuses_draws",
    "GPX.Props.C59_false"
   ],
   "note": "False of the code: the key passed to randomize is then split along the same chain, so the i-th restart reuses the keys of the previous one shifted by one parameter. Proved: with t trainable parameters the keys of restarts at least t apart are different (all restarts when t is one). Within one restart keys are distinct (C14)."
  },
  {
   "property": "C60",
   "status": "partial",
   "theorems": [
    "GPX.Props.C60_scipy_state",
    "GPX.Props.C60_scipy_objective",
    "GPX.Props.C60_scipy_not_worse",
    "GPX.Props.C60_scipy_returns",
    "GPX.Props.C60_nlopt_partial",
    "GPX.Props.C60_nlopt_false"
   ],
   "note": "full for scipy_minimize; for NLoptWrapper frozen values are taken from the state given to the constructor, so the full statement is false there"
  },
  {
   "property": "C61",
   "status": "partial",
   "theorems": [
    "GPX.Props.C61_optax_partial",
    "GPX.Props.C61_false",
    "GPX.Props.C61_adam_partial"
   ],
   "note": "false exactly: frozen parameters come back as forward(backward(v)), i.e. with the bijector jitter; proved up to that jitter"
  },
  {
   "property": "C62",
   "status": "proved",
   "theorems": [
    "GPX.Props.C62_documented_formulas"
   ],
   "note": ""
  },
  {
   "property": "C63",
   "status": "proved",
   "theorems": [
    "GPX.Props.C63_sampleWise"
   ],
   "note": "All kernel expressions and lists of active features."
  },
  {
   "property": "C64",
   "status": "proved",
   "theorems": [
    "GPX.Props.C64_more_data"
   ],
   "note": ""
  },
  {
   "property": "C65",
   "status": "partial",
   "theorems": [
    "GPX.Props.C65_gram_partial",
    "GPX.Props.C65_two_datasets_partial",
    "GPX.Props.C65_fit_well_posed_partial",
    "GPX.Props.C65_slack_partial",
    "GPX.Props.C65_fit_slack_partial",
    "GPX.Props.C65_se_product",
    "GPX.Props.C65_matern32",
    "GPX.Props.C65_false"
   ],
   "note": "Proved for a recursive class of kernel expressions closed under sums, products and scalings. False in general: SquaredExponential times Linear (value and Hessian damped by the 1e-12 jitter, first derivatives not) and Matern32 (floor) give indefinite matrices for explicit data. For every twice differentiable expression, products with SquaredExponential and Matern32 included, and every dataset in which no Matern32 finds two different samples nearer than 1e-18/sqrt(3) lengthscales, the matrix becomes positive semidefinite once an explicit slack is added, and fit_derivs is well posed when the noise variance exceeds the sum of the slacks (C65_slack_partial, C65_fit_slack_partial)."
  },
  {
   "property": "C66",
   "status": "partial",
   "theorems": [
    "GPX.Props.C66_fit_partial",
    "GPX.Props.C66_single_sample",
    "GPX.Props.C66_false"
   ],
   "note": "Iterative fitting raises IndexError on a single sample, succeeds otherwise."
  },
  {
   "property": "C67",
   "status": "proved",
   "theorems": [
    "GPX.Props.C67_term",
    "GPX.Props.C67_unbiased"
   ],
   "note": "jnp.linalg.eigh enters through its contract (orthogonal diagonalization)."
  },
  {
   "property": "C68",
   "status": "proved",
   "theorems": [
    "GPX.Props.C68_moments"
   ],
   "note": "Exact arithmetic, runs without a beta in (0, 1e-12]."
  },
  {
   "property": "C69",
   "status": "partial",
   "theorems": [
    "GPX.Props.C69_false",
    "GPX.Props.C69_fresh_partial"
   ],
   "note": "false of the code after randomize(reset=False); proved for every history ending in a fit, possibly followed by calls that raise in the linear fit"
  },
  {
   "property": "C70",
   "status": "proved",
   "theorems": [
    "GPX.Props.C70_sparse_fit_optimal"
   ],
   "note": "Exact solver contract; all kernel expressions with admissible hyperparameters."
  },
  {
   "property": "C71",
   "status": "proved",
   "theorems": [
    "GPX.Props.C71_sparse_likelihood",
    "GPX.Props.C71_inducing_points",
    "GPX.Props.C71_rpc_selection"
   ],
   "note": "Exact solver contracts."
  },
  {
   "property": "C72",
   "status": "partial",
   "theorems": [
    "GPX.Props.C72_raises",
    "GPX.Props.C72_likelihood_raises",
    "GPX.Props.C72_false",
    "GPX.Props.C72_one_component_partial",
    "GPX.Props.C72_one_point_partial",
    "GPX.Props.C72_iterative_partial"
   ],
   "note": "False: TypeError for two or more components and inducing points, for every kernel and data; one component proved; with one inducing point the covariance is defined for every number of components, with the jitter added to every entry (C72_one_point_partial)."
  },
  {
   "property": "C73",
   "status": "proved",
   "theorems": [
    "GPX.Props.C73_rpchol_is_sgpr",
    "GPX.Props.C73_rpchol_selection",
    "GPX.Props.C73_single_sample_raises",
    "GPX.Props.C73_rpchol_predictions"
   ],
   "note": "Any kernel object, any random generator."
  },
  {
   "property": "C74",
   "status": "proved",
   "theorems": [
    "GPX.Props.C74_gpr_prior",
    "GPX.Props.C74_gpr_posterior",
    "GPX.Props.C74_sgpr_posterior",
    "GPX.Props.C74_gpr_posterior_derivs",
    "GPX.Props.C74_unfitted",
    "GPX.Props.C74_gpr_prior_derivs",
    "GPX.Props.C74_sgpr_posterior_derivs"
   ],
   "note": "Exact Cholesky contract; the derivative case assumes a positive semidefinite joint derivative Gram matrix (C65)."
  },
  {
   "property": "C75",
   "status": "partial",
   "theorems": [
    "GPX.Props.C75_raises",
    "GPX.Props.C75_false",
    "GPX.Props.C75_gpr_posterior_partial",
    "GPX.Props.C75_one_component_partial"
   ],
   "note": "False: prior sampling (both models) and SGPR posterior sampling raise for two or more components; GPR posterior and the one-component case proved."
  },
  {
   "property": "C76",
   "status": "proved",
   "theorems": [
    "GPX.Props.C76_fit1",
    "GPX.Props.C76_fit2",
    "GPX.Props.C76_predict1",
    "GPX.Props.C76_predict2",
    "GPX.Props.C76_iterative1",
    "GPX.Props.C76_iterative2",
    "GPX.Props.C76_single_sample"
   ],
   "note": "Exact solver and exact conjugate gradient contracts are hypotheses, with witnesses. The fit theorems are for positive definite systems; C78 says for which kernels and noise levels the system is one for every dataset."
  },
  {
   "property": "C77",
   "status": "proved",
   "theorems": [
    "GPX.Props.C77_preconditioner1",
    "GPX.Props.C77_preconditioner2"
   ],
   "note": "For every pivot-choice function and key."
  },
  {
   "property": "C78",
   "status": "partial",
   "theorems": [
    "GPX.Props.C78_joint_partial",
    "GPX.Props.C78_well_posed_partial",
    "GPX.Props.C78_near_partial",
    "GPX.Props.C78_well_posed_noise_partial",
    "GPX.Props.C78_squared_exponential_partial",
    "GPX.Props.C78_slack_partial",
    "GPX.Props.C78_well_posed_separated_partial",
    "GPX.Props.C78_well_posed_slack_partial",
    "GPX.Props.C78_false"
   ],
   "note": "Proved for the recursive class JointSmooth (constant, linear, polynomial, Matern52, ExpSinSquared, their sums and products). False for SquaredExponential: three samples 1e-7 apart. For SquaredExponential and the other DerivSmooth kernels the covariance becomes positive semidefinite once the entries between observations of the same kind are enlarged by a relative 2e-12, and the GPR_TD systems are positive definite when each noise variance exceeds 2e-12 times the sum of the prior variances (C78_near_partial, C78_well_posed_noise_partial, C78_squared_exponential_partial). For every twice differentiable expression, products with SquaredExponential and Matern32 included, and every dataset in which no Matern32 finds two different samples nearer than 1e-18/sqrt(3) lengthscales, the covariance becomes positive semidefinite once an explicit slack is added, and the GPR_TD systems are positive definite when the noise variances exceed the sum of the slacks; without Matern32 nothing is asked of the noise of the targets nor of the distances (C78_slack_partial, C78_well_posed_separated_partial, C78_well_posed_slack_partial)."
  },
  {
   "property": "C79",
   "status": "partial",
   "theorems": [
    "GPX.Props.C79_paths_partial",
    "GPX.Props.C79_gaussian",
    "GPX.Props.C79_near_partial",
    "GPX.Props.C79_false"
   ],
   "note": "Exact for Constant, Linear, Polynomial (natural degree >= 2), Matern52, ExpSinSquared, all sums and products; SquaredExponential (with Constants) up to the exact factor exp(+-1e-12), for which and for Matern32 the full claim is false (C79_false). For every twice differentiable expression (C79_near_partial): up to 2e-12 of the terms in which a SquaredExponential is differentiated and 2e-6 of those in which a Matern32 is; the second derivatives of Matern32 off the floor of its distance."
  },
  {
   "property": "C80",
   "status": "partial",
   "theorems": [
    "GPX.Props.C80_gpr_derivs_partial",
    "GPX.Props.C80_sgpr_derivs_partial",
    "GPX.Props.C80_ol_partial",
    "GPX.Props.C80_td1_partial",
    "GPX.Props.C80_td2_partial",
    "GPX.Props.C80_gaussian",
    "GPX.Props.C80_ol_near_partial",
    "GPX.Props.C80_gpr_derivs_near_partial",
    "GPX.Props.C80_sgpr_derivs_near_partial",
    "GPX.Props.C80_td1_near_partial",
    "GPX.Props.C80_td2_near_partial",
    "GPX.Props.C80_false"
   ],
   "note": "Exact for the same kernels as C79; SquaredExponential up to the exact factor exp(+-1e-12). For every twice differentiable expression (the near theorems) up to the errors of C79, weighted with the coefficients."
  },
  {
   "property": "C81",
   "status": "proved",
   "theorems": [
    "GPX.Props.C81_fit_ol",
    "GPX.Props.C81_predictions"
   ],
   "note": "la.Exact (reduced SVD and solve are exact)."
  },
  {
   "property": "C82",
   "status": "proved",
   "theorems": [
    "GPX.Props.C82_mse",
    "GPX.Props.C82_zero"
   ],
   "note": "y_derivs of rank 3 as the code requires; the SVD is a parameter."
  },
  {
   "property": "C83",
   "status": "partial",
   "theorems": [
    "GPX.Props.C83_partial",
    "GPX.Props.C83_error",
    "GPX.Props.C83_negative",
    "GPX.Props.C83_false"
   ],
   "note": "False of the code: the cross kernel is overwritten by its derivative, so the call raises TypeError for n >= 2 and v >= 2, and for v = 1 the returned matrix subtracts derivative covariances (it can be negative). Proved: what is returned for v = 1, the error otherwise."
  },
  {
   "property": "C84",
   "status": "partial",
   "theorems": [
    "GPX.Props.C84_partial",
    "GPX.Props.C84_unknown",
    "GPX.Props.C84_raises",
    "GPX.Props.C84_fit_raises",
    "GPX.Props.C84_false",
    "GPX.Props.C84_table"
   ],
   "note": "False of the code: fit and fit_derivs of the sparse models pass n_pivots and key_precond to losses without these parameters, fit_derivs of every class passes jacobian to a default loss without it, fit_ol passes y_derivs to the default loss. Proved: which combinations work, for every loss_kwargs, and that the others raise TypeError. C84_table says, for every fitting method and every loss of its module, whether the loss is evaluated, needs the jacobian in loss_kwargs, or raises."
  },
  {
   "property": "C85",
   "status": "partial",
   "theorems": [
    "GPX.Props.C85_partial",
    "GPX.Props.C85_leak",
    "GPX.Props.C85_false"
   ],
   "note": "False of the code: the caller's dictionary gets iterative, n_pivots and key_precond. Proved: exactly these entries change."
  },
  {
   "property": "C86",
   "status": "partial",
   "theorems": [
    "GPX.Props.C86_constructed",
    "GPX.Props.C86_default_values",
    "GPX.Props.C86_present",
    "GPX.Props.C86_partial",
    "GPX.Props.C86_well_posed_partial",
    "GPX.Props.C86_false"
   ],
   "note": "Holds for every kernel without Optax, and with Optax for every kernel without a polynomial; C86_false: Optax moves the frozen degree of a polynomial kernel off the natural numbers. PSO is excluded: it works in the constrained space and its range is what the user passes as bounds. Scalar parameters; sampler draws are assumed to have the shape of the prior and PRNG splits not to collide."
  },
  {
   "property": "C87",
   "status": "proved",
   "theorems": [
    "GPX.Props.C87_predict",
    "GPX.Props.C87_sampleWise",
    "GPX.Props.C87_reorder",
    "GPX.Props.C87_linear"
   ],
   "note": "functional part of rbfnet.py; the output layer is any function of the linear prediction"
  },
  {
   "property": "C88",
   "status": "proved",
   "theorems": [
    "GPX.Props.C88_loss",
    "GPX.Props.C88_layer",
    "GPX.Props.C88_unique_minimiser"
   ],
   "note": "for states whose k_mean is None, the only ones on which train_loss returns (C89)"
  },
  {
   "property": "C89",
   "status": "partial",
   "theorems": [
    "GPX.Props.C89_fresh_partial",
    "GPX.Props.C89_predict_fails",
    "GPX.Props.C89_loss_fails",
    "GPX.Props.C89_false"
   ],
   "note": "false of the code: with k_mean None the mean is taken over the inducing points, so its length is the number of samples; train_loss passes k_mean as a static (hashed) argument, which raises for arrays. Proved: fresh-state predictions work and are centred"
  },
  {
   "property": "C90",
   "status": "partial",
   "theorems": [
    "GPX.Props.C90_failed_fit",
    "GPX.Props.C90_unchanged_partial",
    "GPX.Props.C90_false"
   ],
   "note": "False of the code: fit(return_history=True, minimize=False) raises after storing the fitted state, and a linear fit that raises after an optimisation leaves the new hyperparameters with the old coefficients. Proved: the exact object after every raising call"
  },
  {
   "property": "C91",
   "status": "partial",
   "theorems": [
    "GPX.Props.C91_history_partial",
    "GPX.Props.C91_kept",
    "GPX.Props.C91_load_randomize",
    "GPX.Props.C91_false"
   ],
   "note": "False of the code: a later fit without return_history, and load, keep the old records. Proved: the records after a fit with return_history, and what every other call does to them"
  },
  {
   "property": "C92",
   "status": "partial",
   "theorems": [
    "GPX.Props.C92_arguments",
    "GPX.Props.C92_gpr_partial",
    "GPX.Props.C92_sparse_derivs_partial",
    "GPX.Props.C92_sparse_partial",
    "GPX.Props.C92_sparse_ignores_key",
    "GPX.Props.C92_negatives",
    "GPX.Props.C92_key_matters",
    "GPX.Props.C92_false"
   ],
   "note": "Holds for GPR, for all derivative functions and for all neg_ functions; false for SGPR and SGPR_RPChol log_posterior, which drops key_lanczos (C92_sparse_ignores_key, C92_key_matters, C92_false). Partial theorem covers dense likelihoods and the default key."
  },
  {
   "property": "C93",
   "status": "proved",
   "theorems": [
    "GPX.Props.C93_mean_ignored"
   ],
   "note": "Three models, all states, data, arguments."
  },
  {
   "property": "C94",
   "status": "proved",
   "theorems": [
    "GPX.Props.C94_roundtrip",
    "GPX.Props.C94_tree_map",
    "GPX.Props.C94_wrong_count",
    "GPX.Props.C94_shape_change_raises",
    "GPX.Props.C94_copy",
    "GPX.Props.C94_parameter",
    "GPX.Props.C94_parameter_count"
   ],
   "note": "All states with valid parameters. JAX placeholders that are not arrays are not modelled."
  },
  {
   "property": "C95",
   "status": "proved",
   "theorems": [
    "GPX.Props.C95_init",
    "GPX.Props.C95_reset",
    "GPX.Props.C95_sgpr_fit",
    "GPX.Props.C95_sgpr_fit_derivs",
    "GPX.Props.C95_sgpr_no_jacobian",
    "GPX.Props.C95_rpc_fit",
    "GPX.Props.C95_rpc_fit_derivs"
   ],
   "note": "Every theorem is about an arbitrary state built by the ModelState constructor, so about the last call of any history."
  },
  {
   "property": "C96",
   "status": "partial",
   "theorems": [
    "GPX.Props.C96_no_key",
    "GPX.Props.C96_false",
    "GPX.Props.C96_key_partial"
   ],
   "note": "False of the code: the default calls PRNGKey with the float time.time(), which is a TypeError. Proved: that it always raises, and the state built when a key is given."
  },
  {
   "property": "C97",
   "status": "partial",
   "theorems": [
    "GPX.Props.C97_one_partial",
    "GPX.Props.C97_two_partial",
    "GPX.Props.C97_two_one_iterative_partial",
    "GPX.Props.C97_two_one_dense_raises",
    "GPX.Props.C97_one_two_iterative_raises",
    "GPX.Props.C97_one_two_dense_partial",
    "GPX.Props.C97_false",
    "GPX.Props.C97_false_silent"
   ],
   "note": "Full statement C97_full is false: dense prediction of one set after training on two raises, iterative prediction of two sets after training on one raises, and dense prediction of two sets after training on one silently returns an empty array of second derivatives. Proved for the other combinations, for every kernel expression."
  },
  {
   "property": "C98",
   "status": "proved",
   "theorems": [
    "GPX.Props.C98_constructor",
    "GPX.Props.C98_predict",
    "GPX.Props.C98_after_fit",
    "GPX.Props.C98_missing_parameter",
    "GPX.Props.C98_enough_parameters"
   ],
   "note": "For all histories of fits; the minimiser is any function that only changes parameters."
  },
  {
   "property": "C99",
   "status": "partial",
   "theorems": [
    "GPX.Props.C99_two_sets_partial",
    "GPX.Props.C99_unsaveable",
    "GPX.Props.C99_false"
   ],
   "note": "Full statement C99_full is false: a GPR_TD for one set of derivatives (sigma_derivs2=None) raises AttributeError in save. Proved for models with all four parameters."
  },
  {
   "property": "C100",
   "status": "partial",
   "theorems": [
    "GPX.Props.C100_partial",
    "GPX.Props.C100_ignored",
    "GPX.Props.C100_false"
   ],
   "note": "Full statement C100_full is false: the argument key_precond of GPR_TD.fit is ignored. Proved when the key is the default one or the fit is dense."
  },
  {
   "property": "C101",
   "status": "proved",
   "theorems": [
    "GPX.Props.C101_init",
    "GPX.Props.C101_scalar_inducing",
    "GPX.Props.C101_history"
   ],
   "note": "constructor and invariant over all histories of calls"
  },
  {
   "property": "C102",
   "status": "partial",
   "theorems": [
    "GPX.Props.C102_no_reset_partial",
    "GPX.Props.C102_reset",
    "GPX.Props.C102_false"
   ],
   "note": "false of the code with reset=True (the default): output layer, loss and centering are reset to the class defaults; holds with reset=False"
  },
  {
   "property": "C103",
   "status": "partial",
   "theorems": [
    "GPX.Props.C103_partial",
    "GPX.Props.C103_fit_raises",
    "GPX.Props.C103_false"
   ],
   "note": "false of the code: fit and fit_optax clear k_mean before the call that raises; fit_nlopt leaves the state alone"
  },
  {
   "property": "C104",
   "status": "proved",
   "theorems": [
    "GPX.Props.C104_reload"
   ],
   "note": "for names that can be stored, as in C08"
  },
  {
   "property": "C105",
   "status": "partial",
   "theorems": [
    "GPX.Props.C105_predictions_guarded_partial",
    "GPX.Props.C105_always_true",
    "GPX.Props.C105_false"
   ],
   "note": "is_fitted and is_fitted_derivs are always True (C105_always_true, C105_false); what holds is that fitted models are reported as fitted and that predictions of unfitted models raise."
  },
  {
   "property": "C106",
   "status": "partial",
   "theorems": [
    "GPX.Props.C106_fit_partial",
    "GPX.Props.C106_fit_derivs_partial",
    "GPX.Props.C106_dense",
    "GPX.Props.C106_raises",
    "GPX.Props.C106_false"
   ],
   "note": "Without n_pivots every iterative fit raises TypeError; fit_nlopt and the likelihood methods have no such argument and always raise. With n_pivots fit and fit_derivs equal the dense fit."
  },
  {
   "property": "C107",
   "status": "proved",
   "theorems": [
    "GPX.Props.C107_one_set",
    "GPX.Props.C107_two_sets",
    "GPX.Props.C107_incomplete_raises",
    "GPX.Props.C107_iterative_needs_pivots"
   ],
   "note": "The value with two sets of derivatives in the dense version has the wrong normalisation, see C53."
  },
  {
   "property": "C108",
   "status": "proved",
   "theorems": [
    "GPX.Props.C108_fit",
    "GPX.Props.C108_likelihood",
    "GPX.Props.C108_fit_derivs",
    "GPX.Props.C108_sparse",
    "GPX.Props.C108_td1",
    "GPX.Props.C108_td2",
    "GPX.Props.C108_td1_slack",
    "GPX.Props.C108_td2_slack",
    "GPX.Props.C108_fit_derivs_slack"
   ],
   "note": "The solver is only assumed to satisfy its stopping rule on positive definite systems. Derivative fits: kernels of C65; GPR_TD: kernels of C78. fit_derivs of the sparse models with several components is not covered (its matrix-free product is wrong, C48). The _slack theorems: fit_derivs and GPR_TD with any twice differentiable kernel but Matern32 (fit_derivs: Matern32 too when no two different samples are too near), the noise variance of the derivatives lowered by twice the sum of the slacks of the training observations and the prior variance of a predicted derivative raised by twice its slack."
  },
  {
   "property": "C109",
   "status": "proved",
   "theorems": [
    "GPX.Props.C109_loop",
    "GPX.Props.C109_expected_error",
    "GPX.Props.C109_expected_error_derivs",
    "GPX.Props.C109_td1",
    "GPX.Props.C109_td2",
    "GPX.Props.C109_generator"
   ],
   "note": "expectation over an ideal generator: every step draws a fresh independent uniform number and inverts the cumulative weights, as jax.random.choice does; the quality of the pseudo-random bits themselves is not modelled. GPR_TD: kernels of C78."
  },
  {
   "property": "C110",
   "status": "proved",
   "theorems": [
    "GPX.Props.C110_fit",
    "GPX.Props.C110_fit_derivs",
    "GPX.Props.C110_td1",
    "GPX.Props.C110_td2"
   ],
   "note": "fit_derivs: kernels of C65; GPR_TD: kernels of C78"
  },
  {
   "property": "C111",
   "status": "partial",
   "theorems": [
    "GPX.Props.C111_restarts",
    "GPX.Props.C111_partial",
    "GPX.Props.C111_false",
    "GPX.Props.C111_finite"
   ],
   "note": "False of the code: when the first run ends with a nan loss, min(losses) keeps it (nothing compares smaller than nan) and index finds it by identity, so the failed first run is returned although a restart succeeded (C111_false). C111_restarts characterises the selection in every case; C111_partial proves the property when the first loss is a number; C111_finite shows that on finite losses the selection is that of C15."
  },
  {
   "property": "C112",
   "status": "partial",
   "theorems": [
    "GPX.Props.C112_values",
    "GPX.Props.C112_isotropic_partial",
    "GPX.Props.C112_returns",
    "GPX.Props.C112_matern52_d1k",
    "GPX.Props.C112_squared_exponential_gradients",
    "GPX.Props.C112_square_partial",
    "GPX.Props.C112_rules_partial",
    "GPX.Props.C112_rules_single_partial",
    "GPX.Props.C112_false"
   ],
   "note": "Proved for the kernel values, for the first derivatives of SquaredExponential, for d1k/d1kj of Matern52 and, when all lengthscales are equal, for the rest. The full statement is false of the code: the Hessian kernels of SquaredExponential and Matern52 and d0k of Matern52 broadcast the lengthscales against the samples of x2, so they raise unless the number of active features is one or the number of samples, and in the latter case use the lengthscale of the wrong feature (C112_square_partial gives the exact factors); the custom_jvp rules for the lengthscales of Matern32 and Matern52 use the whole squared distance for every lengthscale. C112_false has a witness of each."
  },
  {
   "property": "C113",
   "status": "proved",
   "theorems": [
    "GPX.Props.C113_mean_square",
    "GPX.Props.C113_diagonal_exact"
   ],
   "note": "Averages are over all sign matrices (the distribution of random.rademacher); eigh is exact; exact arithmetic; runs without off-diagonal elements in (0, 1e-12]."
  },
  {
   "property": "C114",
   "status": "proved",
   "theorems": [
    "GPX.Props.C114_term",
    "GPX.Props.C114_every_draw",
    "GPX.Props.C114_bias",
    "GPX.Props.C114_mean_square"
   ],
   "note": "C114_term gives the stronger bound through any approximating polynomial of degree 2k-1; the explicit rate comes from the truncated series of the logarithm. eigh is exact; exact arithmetic; runs without off-diagonal elements in (0, 1e-12]."
  },
  {
   "property": "C115",
   "status": "proved",
   "theorems": [
    "GPX.Props.C115_gpr",
    "GPX.Props.C115_gpr_derivs",
    "GPX.Props.C115_sgpr",
    "GPX.Props.C115_td1",
    "GPX.Props.C115_td2",
    "GPX.Props.C115_td1_slack",
    "GPX.Props.C115_td2_slack",
    "GPX.Props.C115_gpr_derivs_slack"
   ],
   "note": "Conjugate gradients only satisfies its stopping rule (CGStops), eigh and the dense solvers are exact, exact arithmetic. Derivative likelihoods for kernel expressions with positive semidefinite derivative Gram matrices (C65, C78). The iterative derivative likelihood of SGPR is not included: its operator is wrong (C48). The _slack theorems: fit_derivs and GPR_TD with any twice differentiable kernel but Matern32 when the noise of the derivatives outweighs twice the sum of the slacks."
  },
  {
   "property": "C116",
   "status": "partial",
   "theorems": [
    "GPX.Props.C116_crash_partial",
    "GPX.Props.C116_false"
   ],
   "note": "Proved for one run of a checkpointer and every crash point. The full statement over successive runs is false of the code: each new checkpointer counts from zero and truncates the earlier checkpoint before writing (C116_false)."
  },
  {
   "property": "C117",
   "status": "partial",
   "theorems": [
    "GPX.Props.C117_save_load_partial",
    "GPX.Props.C117_false"
   ],
   "note": "Proved for names ending in .npz; for other names the model is found under the name with .npz appended and load(file) itself fails or reads something older (C117_false)."
  },
  {
   "property": "C118",
   "status": "partial",
   "theorems": [
    "GPX.Props.C118_crash_partial",
    "GPX.Props.C118_fresh_name_partial",
    "GPX.Props.C118_false"
   ],
   "note": "False of the code: the file is truncated when opened (C118_false). Proved: other files are untouched, a half-written file is refused, and saving under an unused name loses nothing."
  },
  {
   "property": "C119",
   "status": "proved",
   "theorems": [
    "GPX.Props.C119_training_residual",
    "GPX.Props.C119_less_noise",
    "GPX.Props.C119_training_covariance",
    "GPX.Props.C119_training_residual_derivs",
    "GPX.Props.C119_sparse",
    "GPX.Props.C119_sparse_derivs",
    "GPX.Props.C119_joint",
    "GPX.Props.C119_joint2"
   ],
   "note": "GPR trained on targets and on derivatives; SGPR (targets, derivatives) on its training samples; GPR_TD with errors divided by the noise variances (positive semidefinite joint covariance, as for every JointSmooth kernel). Exact linear algebra."
  },
  {
   "property": "C120",
   "status": "proved",
   "theorems": [
    "GPX.Props.C120_best_linear",
    "GPX.Props.C120_repeated",
    "GPX.Props.C120_best_linear_derivs"
   ],
   "note": "Dense GPR. The error is computed from the kernel and the noise sigma^2 + 1e-10 of the fit. Derivatives: kernels of C65."
  },
  {
   "property": "C121",
   "status": "partial",
   "theorems": [
    "GPX.Props.C121_targets_partial",
    "GPX.Props.C121_derivs_partial",
    "GPX.Props.C121_td_partial",
    "GPX.Props.C121_false"
   ],
   "note": "Holds for all means and for the covariance of GPR. False for SGPR.predict(full_covariance=True), whose covariance is built from the points asked for (C121_false)."
  },
  {
   "property": "C122",
   "status": "proved",
   "theorems": [
    "GPX.Props.C122_bounded",
    "GPX.Props.C122_stable",
    "GPX.Props.C122_kernel_decay",
    "GPX.Props.C122_far_from_data",
    "GPX.Props.C122_bounded_derivs",
    "GPX.Props.C122_bounded_y_derivs",
    "GPX.Props.C122_bounded_joint",
    "GPX.Props.C122_bounded_joint2",
    "GPX.Props.C122_bounded_joint_slack",
    "GPX.Props.C122_bounded_joint2_slack",
    "GPX.Props.C122_bounded_derivs_slack",
    "GPX.Props.C122_bounded_y_derivs_slack"
   ],
   "note": "Dense GPR and GPR_TD, exact linear algebra. Models trained on derivatives or jointly: the bound only, kernels of C65 and C78. The _slack theorems: every twice differentiable kernel, slack added to the prior variance and taken from the noise variances."
  },
  {
   "property": "C123",
   "status": "proved",
   "theorems": [
    "GPX.Props.C123_rigid_motion",
    "GPX.Props.C123_rotation",
    "GPX.Props.C123_translation",
    "GPX.Props.C123_rigid_motion_iterative",
    "GPX.Props.C123_rotation_iterative",
    "GPX.Props.C123_translation_iterative",
    "GPX.Props.C123_rigid_motion_joint",
    "GPX.Props.C123_rotation_joint",
    "GPX.Props.C123_translation_joint"
   ],
   "note": "SameModels, SameIterative, SameRPChol, SameSparseRest and SameJoint list the functions covered."
  },
  {
   "property": "C124",
   "status": "proved",
   "theorems": [
    "GPX.Props.C124_units",
    "GPX.Props.C124_units_iterative",
    "GPX.Props.C124_units_joint"
   ],
   "note": "All expressions without Linear and Polynomial."
  },
  {
   "property": "C125",
   "status": "proved",
   "theorems": [
    "GPX.Props.C125_active_dims",
    "GPX.Props.C125_active_dims_iterative",
    "GPX.Props.C125_active_dims_joint"
   ],
   "note": "All expressions and selections, repetitions included."
  },
  {
   "property": "C126",
   "status": "proved",
   "theorems": [
    "GPX.Props.C126_targets",
    "GPX.Props.C126_derivs",
    "GPX.Props.C126_not_exact"
   ],
   "note": "Exact linear algebra (LinAlg.Exact)."
  },
  {
   "property": "C127",
   "status": "partial",
   "theorems": [
    "GPX.Props.C127_error_partial",
    "GPX.Props.C127_nonneg_partial",
    "GPX.Props.C127_double_partial",
    "GPX.Props.C127_negative",
    "GPX.Props.C127_not_symmetric",
    "GPX.Props.C127_false"
   ],
   "note": "Error bound relative to the squared norms for every order of summation; non-negative when the inputs are small. Computed squared distances can be negative and unsymmetric (C127_false, C127_not_symmetric). No overflow or underflow."
  },
  {
   "property": "C128",
   "status": "partial",
   "theorems": [
    "GPX.Props.C128_error_partial",
    "GPX.Props.C128_above_one",
    "GPX.Props.C128_false"
   ],
   "note": "Two-sided bound with an explicit exponent; false in general: inputs far from the origin in units of the lengthscale give kernel values above 2^60 (C128_false)."
  },
  {
   "property": "C129",
   "status": "proved",
   "theorems": [
    "GPX.Props.C129_predict",
    "GPX.Props.C129_reproducible"
   ],
   "note": "Unit roundoff u is arbitrary; no overflow or underflow."
  },
  {
   "property": "C130",
   "status": "partial",
   "theorems": [
    "GPX.Props.C130_exact_partial",
    "GPX.Props.C130_squared_exponential_partial",
    "GPX.Props.C130_values_partial",
    "GPX.Props.C130_false",
    "GPX.Props.C130_derivatives_partial",
    "GPX.Props.C130_jacobians_partial",
    "GPX.Props.C130_coefficients_partial"
   ],
   "note": "Exact for every sum and product of Constant, Linear, Polynomial and ExpSinSquared kernels. False for the distance kernels, whose specialised functions add the jitter 1e-12 to squared distances and the base functions do not: SquaredExponential differs by the factor exp(-1e-12) in the value and the second derivatives and agrees in the first derivatives. All nine functions of every expression, Matern kernels included, differ from those of the base function by at most an explicit error."
  },
  {
   "property": "C131",
   "status": "proved",
   "theorems": [
    "GPX.Props.C131_kernel",
    "GPX.Props.C131_gpr",
    "GPX.Props.C131_sgpr"
   ],
   "note": "Kernel entries of every expression, and fit, predictions, covariance and likelihood of GPR and SGPR (dense), continuous jointly in hyperparameters, noise, data, inducing points and prediction points. Exact solvers."
  },
  {
   "property": "C132",
   "status": "partial",
   "theorems": [
    "GPX.Props.C132_kernel",
    "GPX.Props.C132_slopes_all_partial",
    "GPX.Props.C132_slopes_partial",
    "GPX.Props.C132_gpr_partial",
    "GPX.Props.C132_gpr_slack_partial",
    "GPX.Props.C132_sgpr_partial",
    "GPX.Props.C132_false"
   ],
   "note": "False for Matern12, whose predicted derivative jumps at the training points (C132_false). Derivatives predicted by models trained on values: proved for every expression without Matern12 (C132_slopes_all_partial). Models trained on derivatives: expressions without Matern12 and Matern32 (whose second derivatives change by about 1e-18 at the floor of the distance), either with positive semidefinite derivative Gram matrices or with noise above the slack (C132_gpr_slack_partial)."
  },
  {
   "property": "C133",
   "status": "proved",
   "theorems": [
    "GPX.Props.C133_gpr",
    "GPX.Props.C133_gpr_derivs",
    "GPX.Props.C133_sgpr",
    "GPX.Props.C133_bounded",
    "GPX.Props.C133_noise",
    "GPX.Props.C133_td",
    "GPX.Props.C133_td_two",
    "GPX.Props.C133_gpr_derivs_slack",
    "GPX.Props.C133_td_slack"
   ],
   "note": "Upper and lower bounds for GPR and SGPR on values and GPR on derivatives, upper bounds for GPR_TD (dense likelihoods, exact solvers). With two sets of derivatives the dense likelihood of GPR_TD is divided by the count without the second set, and the bound says so. C133_gpr_derivs_slack and C133_td_slack: upper bounds for all twice differentiable kernels, with the noise that is left after the slack of C65 and C78."
  },
  {
   "property": "C134",
   "status": "partial",
   "theorems": [
    "GPX.Props.C134_dispatch_partial",
    "GPX.Props.C134_init",
    "GPX.Props.C134_defaults",
    "GPX.Props.C134_false",
    "GPX.Props.C134_own_defaults",
    "GPX.Props.C134_numerical_defaults"
   ],
   "note": "False: mse_loss of every model looks up an attribute that no class has (AttributeError), fit and fit_derivs of the sparse models pass n_pivots and key_precond to functions that do not have them (TypeError), fit_ol and predict_ol of the sparse models have no function (AttributeError). The partial theorem covers every other method and shows that these always raise."
  },
  {
   "property": "C135",
   "status": "partial",
   "theorems": [
    "GPX.Props.C135_shown_partial",
    "GPX.Props.C135_derivs_partial",
    "GPX.Props.C135_false"
   ],
   "note": "False as stated: jacobian_train keeps the Jacobian of an earlier fit after a fit on targets (C135_false). Proved: x_train, y_train are those of the last fit after every history, jacobian_train is the Jacobian of the last fit that took one (AttributeError when none), c_ and mu_ are None before a fit and after a reset."
  },
  {
   "property": "C136",
   "status": "proved",
   "theorems": [
    "GPX.Props.C136_sgpr",
    "GPX.Props.C136_sgpr_derivs",
    "GPX.Props.C136_derivs_system",
    "GPX.Props.C136_gpr_td",
    "GPX.Props.C136_gpr_td2"
   ],
   "note": "Exact solver contract is a hypothesis, with a witness. For training on derivatives the system is assumed positive definite; C136_derivs_system and C78 say when it is."
  },
  {
   "property": "C137",
   "status": "proved",
   "theorems": [
    "GPX.Props.C137_table",
    "GPX.Props.C137_names",
    "GPX.Props.C137_order",
    "GPX.Props.C137_no_kernel_params",
    "GPX.Props.C137_nested"
   ],
   "note": "The text of a cell (str, np.array2string, tabulate) is not modelled: a row carries the objects it shows. Entries that are None are not represented."
  },
  {
   "property": "C138",
   "status": "proved",
   "theorems": [
    "GPX.Props.C138_isolated",
    "GPX.Props.C138_copy",
    "GPX.Props.C138_no_aliases",
    "GPX.Props.C138_constructor",
    "GPX.Props.C138_assign",
    "GPX.Props.C138_set_attr"
   ],
   "note": "Memory of parameter objects and states with in-place operations (Model/Heap.lean); assigning whole sub-dictionaries in place is not modelled."
  },
  {
   "property": "C139",
   "status": "partial",
   "theorems": [
    "GPX.Props.C139_created_partial",
    "GPX.Props.C139_params_set_partial",
    "GPX.Props.C139_false"
   ],
   "note": "The full claim is false of the code: _params_structure is stored when the parameters are set, so a trainable flag assigned in place is lost (C139_false). Proved when only values were changed in place since then."
  },
  {
   "property": "C140",
   "status": "partial",
   "theorems": [
    "GPX.Props.C140_derivs_partial",
    "GPX.Props.C140_targets_partial",
    "GPX.Props.C140_targets_slack_partial",
    "GPX.Props.C140_derivs_slack_partial",
    "GPX.Props.C140_false"
   ],
   "note": "False in general (SquaredExponential, targets 1e-7 apart, noise below 1e-12). Proved for the kernels of C65 (derivatives) and C78 (targets) with any noise; for every expression without Matern12 and Matern32 the targets once the noise exceeds the slack; for every expression without Matern12 the derivatives up to twice the slack."
  },
  {
   "property": "C141",
   "status": "partial",
   "theorems": [
    "GPX.Props.C141_units_partial",
    "GPX.Props.C141_error_partial",
    "GPX.Props.C141_false"
   ],
   "note": "False because the jitter 1e-10 of the noise does not scale with the targets. Proved: exact scaling of predictions, covariance and log marginal likelihood when the noise with its jitter scales; explicit bound of the error when only sigma scales."
  },
  {
   "property": "C142",
   "status": "proved",
   "theorems": [
    "GPX.Props.C142_repeated"
   ],
   "note": ""
  },
  {
   "property": "C143",
   "status": "partial",
   "theorems": [
    "GPX.Props.C143_faithful_partial",
    "GPX.Props.C143_first_use_partial",
    "GPX.Props.C143_new_shapes_partial",
    "GPX.Props.C143_parts_partial",
    "GPX.Props.C143_false"
   ],
   "note": "False for programs that assign attributes of a kernel after it has been used by a compiled function. Proved for all other programs; exact description of which attributes a call uses in every program."
  },
  {
   "property": "C144",
   "status": "proved",
   "theorems": [
    "GPX.Props.C144_update",
    "GPX.Props.C144_chain_rule"
   ],
   "note": ""
  },
  {
   "property": "C145",
   "status": "proved",
   "theorems": [
    "GPX.Props.C145_kernel",
    "GPX.Props.C145_gpr",
    "GPX.Props.C145_sgpr",
    "GPX.Props.C145_gradient",
    "GPX.Props.C145_optimum",
    "GPX.Props.C145_noise",
    "GPX.Props.C145_calibrated",
    "GPX.Props.C145_bijectors"
   ],
   "note": "Exact real arithmetic; the existence and value of the mathematical gradient. That jax.grad computes it is part of the trusted library."
  },
  {
   "property": "C146",
   "status": "proved",
   "theorems": [
    "GPX.Props.C146_kernel",
    "GPX.Props.C146_gpr",
    "GPX.Props.C146_gradient",
    "GPX.Props.C146_td",
    "GPX.Props.C146_td_gradient",
    "GPX.Props.C146_gpr_posDef",
    "GPX.Props.C146_gradient_posDef",
    "GPX.Props.C146_td_posDef",
    "GPX.Props.C146_td_gradient_posDef"
   ],
   "note": "Kernels with Matern12 or Matern32 are outside the claim: their derivative covariances are not positive semidefinite for all data (C65, C78). Exact real arithmetic; that jax.grad computes the mathematical gradient is part of the trusted library. The _posDef theorems: any twice differentiable kernel but Matern32, along families of settings whose training matrices are positive definite (which the slack bound of C65/C78 supplies)."
  },
  {
   "property": "C147",
   "status": "proved",
   "theorems": [
    "GPX.Props.C147_gpr",
    "GPX.Props.C147_sgpr",
    "GPX.Props.C147_derivs",
    "GPX.Props.C147_posterior",
    "GPX.Props.C147_converged",
    "GPX.Props.C147_locations"
   ],
   "note": "Non-vacuity: exists_converged gives, for every kernel expression, a default model, a dataset and a vector with zero gradient."
  },
  {
   "property": "C148",
   "status": "proved",
   "theorems": [
    "GPX.Props.C148_gradient",
    "GPX.Props.C148_optimisers",
    "GPX.Props.C148_trajectory",
    "GPX.Props.C148_stationary",
    "GPX.Props.C148_descent",
    "GPX.Props.C148_gpr"
   ],
   "note": "JAX derivatives are the derivatives of the functions computed (hand-written rules: C24, C112); sgd, momentum and Adam of optax are modelled from their definitions"
  },
  {
   "property": "C149",
   "status": "proved",
   "theorems": [
    "GPX.Props.C149_gpr_prior",
    "GPX.Props.C149_gpr_posterior",
    "GPX.Props.C149_sgpr_posterior",
    "GPX.Props.C149_gpr_posterior_derivs"
   ],
   "note": "Assumes what the external generator promises: its output is standard normal. The generator itself is not modelled."
  },
  {
   "property": "C150",
   "status": "proved",
   "theorems": [
    "GPX.Props.C150_gpr",
    "GPX.Props.C150_gpr_derivs",
    "GPX.Props.C150_gpr_td1",
    "GPX.Props.C150_gpr_td2"
   ],
   "note": "Exact solvers assumed (LinAlg.Exact). GPR_TD returns no covariance: the covariance of the conditional law is written out in the statement."
  },
  {
   "property": "C151",
   "status": "proved",
   "theorems": [
    "GPX.Props.C151_gpr",
    "GPX.Props.C151_gpr_derivs",
    "GPX.Props.C151_sgpr",
    "GPX.Props.C151_gpr_td1",
    "GPX.Props.C151_gpr_total",
    "GPX.Props.C151_gpr_derivs_posDef",
    "GPX.Props.C151_gpr_td1_posDef",
    "GPX.Props.C151_gpr_td2"
   ],
   "note": "The posDef theorems cover every kernel whose training covariance, noise included, is positive definite (C65 and C78 say when). With two sets of derivatives the normalisation is wrong (C53); C151_gpr_td2 gives the constant."
  },
  {
   "property": "C152",
   "status": "proved",
   "theorems": [
    "GPX.Props.C152_gpr",
    "GPX.Props.C152_gpr_derivs",
    "GPX.Props.C152_gpr_td1",
    "GPX.Props.C152_gpr_derivs_posDef",
    "GPX.Props.C152_gpr_td1_posDef",
    "GPX.Props.C152_gpr_td2",
    "GPX.Props.C152_sgpr",
    "GPX.Props.C152_sparse_below_dense"
   ],
   "note": "Expectation over targets drawn from the model; constant mean functions. The posDef theorems and C152_gpr_td2 cover every kernel whose training covariance, noise included, is positive definite. C152_sgpr: the same among sparse models; C152_sparse_below_dense: a sparse model never beats the dense model the targets come from."
  },
  {
   "property": "C153",
   "status": "proved",
   "theorems": [
    "GPX.Props.C153_best_prediction",
    "GPX.Props.C153_gpr"
   ],
   "note": "C153_best_prediction applies to every model of C150; C153_gpr is spelled out."
  },
  {
   "property": "C154",
   "status": "proved",
   "theorems": [
    "GPX.Props.C154_coverage",
    "GPX.Props.C154_gpr"
   ],
   "note": "C154_coverage applies to every model of C150; C154_gpr is spelled out."
  },
  {
   "property": "C155",
   "status": "proved",
   "theorems": [
    "GPX.Props.C155_sgpr",
    "GPX.Props.C155_sgpr_derivs",
    "GPX.Props.C153_best_prediction"
   ],
   "note": "The covariance SGPR itself returns is a different one (C49)."
  },
  {
   "property": "C156",
   "status": "partial",
   "theorems": [
    "GPX.Props.C156_false",
    "GPX.Props.C156_kernels_partial",
    "GPX.Props.C156_models_partial",
    "GPX.Props.C156_joint_models_partial",
    "GPX.Props.C156_symmetric_partial",
    "GPX.Props.C156_paths_partial",
    "GPX.Props.C156_gram_partial",
    "GPX.Props.C156_joint_partial"
   ],
   "note": "False of the raw derivative kernels (d0k, d1k, d01k) of Linear, Polynomial, Matern52: one contribution of a repeated feature is lost. Proved for k and the contracted kernels, hence for every model. The other claims about models hold for repeated features as they stand; only C24, C25, C28 and the derivative part of C130 ask for lists without repetitions."
  },
  {
   "property": "C157",
   "status": "proved",
   "theorems": [
    "GPX.Props.C157_prediction_points",
    "GPX.Props.C157_gpr",
    "GPX.Props.C157_gpr_likelihood",
    "GPX.Props.C157_sgpr",
    "GPX.Props.C157_joint1",
    "GPX.Props.C157_joint1_likelihood",
    "GPX.Props.C157_joint2",
    "GPX.Props.C157_joint2_likelihood"
   ],
   "note": "for every kernel expression, repeated active features included; SGPR needs no condition beyond the positive definiteness of its training matrix"
  },
  {
   "property": "C158",
   "status": "proved",
   "theorems": [
    "GPX.Props.C158_two_sets",
    "GPX.Props.C158_two_sets_likelihood",
    "GPX.Props.C158_no_components"
   ],
   "note": "equal noises of the two sets; the normalisation of the dense likelihood with two sets is the one of C53"
  },
  {
   "property": "C159",
   "status": "proved",
   "theorems": [
    "GPX.Props.C159_kernels",
    "GPX.Props.C159_models",
    "GPX.Props.C159_joint_models"
   ],
   "note": "Rearranged is the congruence generated by the rules of arithmetic; all nine functions of the kernel and every result of the models."
  },
  {
   "property": "C160",
   "status": "proved",
   "theorems": [
    "GPX.Props.C160_kernels",
    "GPX.Props.C160_models",
    "GPX.Props.C160_joint_models",
    "GPX.Props.C160_gpr",
    "GPX.Props.C160_others",
    "GPX.Props.C160_joint"
   ],
   "note": "Shifts are whole periods in the features of ExpSinSquared kernels and zero in the features of the others, for each sample separately. C160_models and C160_joint_models move all datasets, the others the prediction points alone."
  },
  {
   "property": "C161",
   "status": "proved",
   "theorems": [
    "GPX.Props.C161_gram",
    "GPX.Props.C161_repeated",
    "GPX.Props.C161_predictions",
    "GPX.Props.C161_training_error",
    "GPX.Props.C161_reproduces",
    "GPX.Props.C161_posterior"
   ],
   "note": "Strict positive definiteness by linear independence of exponentials and mixtures of Gaussians; products through Kronecker products. The exact solver of C31 is assumed for the model statements."
  },
  {
   "property": "C162",
   "status": "proved",
   "theorems": [
    "GPX.Props.C162_best_noise",
    "GPX.Props.C162_best_noise_sgpr",
    "GPX.Props.C162_best_noise_derivs",
    "GPX.Props.C162_more_noise",
    "GPX.Props.C162_flat",
    "GPX.Props.C162_best_variance"
   ],
   "note": "The best variance may be 0, the boundary of the admissible variances."
  },
  {
   "property": "C163",
   "status": "proved",
   "theorems": [
    "GPX.Props.C163_predictions",
    "GPX.Props.C163_derivs",
    "GPX.Props.C163_likelihood",
    "GPX.Props.C163_unexplained"
   ],
   "note": ""
  },
  {
   "property": "C164",
   "status": "proved",
   "theorems": [
    "GPX.Props.C164_range",
    "GPX.Props.C164_worst_case",
    "GPX.Props.C164_attained",
    "GPX.Props.C164_exact_data",
    "GPX.Props.C164_range_derivs",
    "GPX.Props.C164_worst_case_derivs",
    "GPX.Props.C164_attained_derivs",
    "GPX.Props.C164_joint"
   ],
   "note": "GPR_TD: the upper bound, for the kernels of C78 and one set of derivatives."
  },
  {
   "property": "C165",
   "status": "proved",
   "theorems": [
    "GPX.Props.C165_kernel",
    "GPX.Props.C165_kernel_matern12",
    "GPX.Props.C165_mean",
    "GPX.Props.C165_mean_inputs",
    "GPX.Props.C165_std",
    "GPX.Props.C165_std_inputs",
    "GPX.Props.C165_sgpr",
    "GPX.Props.C165_derivs",
    "GPX.Props.C165_y_derivs",
    "GPX.Props.C165_joint2"
   ],
   "note": "Kernel distance for every expression; explicit slopes for all kernels but Matern12 (distance instead of squared distance) and Polynomial. Models of derivatives: kernels of C65 and C78."
  },
  {
   "property": "C166",
   "status": "proved",
   "theorems": [
    "GPX.Props.C166_less_certain",
    "GPX.Props.C166_noise",
    "GPX.Props.C166_sum",
    "GPX.Props.C166_variance",
    "GPX.Props.C166_derivs",
    "GPX.Props.C166_limit",
    "GPX.Props.C166_derivs_ignored",
    "GPX.Props.C166_targets_ignored"
   ],
   "note": "Exact linear algebra. The derivative models for the kernels of C65; joint models with one set of derivatives and one output, through the equations of the dense fit. The noise is sigma^2 + 1e-10."
  },
  {
   "property": "C167",
   "status": "proved",
   "theorems": [
    "GPX.Props.C167_long",
    "GPX.Props.C167_long_data_mean",
    "GPX.Props.C167_short_new",
    "GPX.Props.C167_short_training"
   ],
   "note": ""
  },
  {
   "property": "C168",
   "status": "proved",
   "theorems": [
    "GPX.Props.C168_leave_one_out",
    "GPX.Props.C168_leave_group_out",
    "GPX.Props.C168_sparse",
    "GPX.Props.C168_leave_out_derivs"
   ],
   "note": "Models trained on derivatives: kernels of C65, a sample left out with all its directions."
  },
  {
   "property": "C169",
   "status": "proved",
   "theorems": [
    "GPX.Props.C169_gpr",
    "GPX.Props.C169_gpr_odd",
    "GPX.Props.C169_sgpr",
    "GPX.Props.C169_derivs",
    "GPX.Props.C169_joint"
   ],
   "note": "Models of derivatives: whenever the covariance of the derivatives is positive semidefinite, or the joint system positive definite (C65, C78)."
  },
  {
   "property": "C170",
   "status": "proved",
   "theorems": [
    "GPX.Props.C170_near",
    "GPX.Props.C170_near_derivs",
    "GPX.Props.C170_near_inputs",
    "GPX.Props.C170_dense",
    "GPX.Props.C170_consistent",
    "GPX.Props.C170_floor"
   ],
   "note": "The limit holds at a fixed input and for fixed hyperparameters."
  },
  {
   "property": "C171",
   "status": "proved",
   "theorems": [
    "GPX.Props.C171_polynomial",
    "GPX.Props.C171_polynomial_sparse",
    "GPX.Props.C171_linear",
    "GPX.Props.C171_linear_cov",
    "GPX.Props.C171_constant"
   ],
   "note": "Degrees of Polynomial are natural numbers (Admissible)."
  },
  {
   "property": "C172",
   "status": "proved",
   "theorems": [
    "GPX.Props.C172_unread",
    "GPX.Props.C172_unread_slopes",
    "GPX.Props.C172_unread_derivs",
    "GPX.Props.C172_unread_targets",
    "GPX.Props.C172_no_interaction",
    "GPX.Props.C172_no_interaction_sparse"
   ],
   "note": ""
  },
  {
   "property": "C173",
   "status": "proved",
   "theorems": [
    "GPX.Props.C173_gpr",
    "GPX.Props.C173_derivs",
    "GPX.Props.C173_sparse"
   ],
   "note": ""
  },
  {
   "property": "C174",
   "status": "proved",
   "theorems": [
    "GPX.Props.C174_derivs",
    "GPX.Props.C174_gaussian",
    "GPX.Props.C174_loop",
    "GPX.Props.C174_sparse",
    "GPX.Props.C174_ol",
    "GPX.Props.C174_td",
    "GPX.Props.C174_mean",
    "GPX.Props.C174_td2"
   ],
   "note": "Dense predictions. The stored mean appears in the statement; C174_mean shows it is not zero round a loop with the mean of the data."
  },
  {
   "property": "C175",
   "status": "partial",
   "theorems": [
    "GPX.Props.C175_gpr_partial",
    "GPX.Props.C175_sgpr_partial",
    "GPX.Props.C175_zero_mean",
    "GPX.Props.C175_same_average_partial",
    "GPX.Props.C175_false",
    "GPX.Props.C175_difference",
    "GPX.Props.C175_sparse",
    "GPX.Props.C175_difference_sparse"
   ],
   "note": "Proved in full for zero_mean (GPR and SGPR). False for data_mean, the default (C175_false); C175_difference gives the exact gap, C175_same_average_partial and the _partial theorems the case where the means agree."
  }
 ]
}