{
 "claims": [
  {
   "property": "C01",
   "status": "proved",
   "theorems": [
    "Irt.C01_onePL_distribution",
    "Irt.C01_twoPL_distribution",
    "Irt.C01_gpc_distribution",
    "Irt.C01_nrm_distribution",
    "Irt.C01_monotone_polynomial",
    "Irt.C01_monotone_nn",
    "Irt.C01_monotone_bspline"
   ],
   "note": "1PL, 2PL, generalized partial credit, nominal response, monotone polynomial, monotone network and monotone B-spline, for all parameters. For the network with an answer key, one key per item below the largest category count is assumed (other keys are the subject of C18)."
  },
  {
   "property": "C02",
   "status": "proved",
   "theorems": [
    "Irt.C02_base_cells",
    "Irt.C02_base_sum",
    "Irt.C02_base_sum_impossible",
    "Irt.C02_base_masked_irrelevant",
    "Irt.C02_base_out_of_range",
    "Irt.C02_base_no_mask",
    "Irt.C02_base_no_mask_cells",
    "Irt.C02_gpc_sum",
    "Irt.C02_table_cells",
    "Irt.C02_table_sum",
    "Irt.C02_table_mean_refused",
    "Irt.C02_base_mean",
    "Irt.C02_base_ignored"
   ],
   "note": "Base log_likelihood (softmax models) and the table lookup variant (3PL, GRM): cells, sum, impossible responses, masked cells, out-of-range responses, no mask."
  },
  {
   "property": "C03",
   "status": "proved",
   "theorems": [
    "Irt.C03_onePL_formula",
    "Irt.C03_onePL_increasing",
    "Irt.C03_twoPL_formula",
    "Irt.C03_twoPL_increasing",
    "Irt.C03_threePL_formula",
    "Irt.C03_threePL_bounds",
    "Irt.C03_threePL_increasing"
   ],
   "note": "Formulas in the reported parameters, strict monotonicity, 3PL bounds."
  },
  {
   "property": "C04",
   "status": "partial",
   "theorems": [
    "Irt.C04_grm_sum_one",
    "Irt.C04_grm_nonneg_iff",
    "Irt.C04_grm_distribution_partial",
    "Irt.C04_grm_negative_probability",
    "Irt.C04_grm_reset_distribution"
   ],
   "note": "False of the code: nothing orders the intercepts (C04_grm_negative_probability). Proved: always sums to one, nonnegative iff intercepts ordered, fresh/reset model valid."
  },
  {
   "property": "C05",
   "status": "partial",
   "theorems": [
    "Irt.C05_gpc_formula_partial",
    "Irt.C05_gpc_doc_formula_iff",
    "Irt.C05_gpc_doc_formula_false"
   ],
   "note": "False of the code: intercepts are not accumulated (C05_gpc_doc_formula_false). Proved: exact formula the code computes, and documented formula holds iff all but the last intercept are zero."
  },
  {
   "property": "C06",
   "status": "proved",
   "theorems": [
    "Irt.C06_nrm_sum_to_zero",
    "Irt.C06_nrm_formula",
    "Irt.C06_nrm_identified"
   ],
   "note": "Sum-to-zero, formula in reported parameters, identifiability."
  },
  {
   "property": "C07",
   "status": "proved",
   "theorems": [
    "Irt.C07_nested_item",
    "Irt.C07_nested_table",
    "Irt.C07_key_check",
    "Irt.C07_bad_key_refused",
    "Irt.C07_bspline_incorrect",
    "Irt.C07_nested_twoPL_nominal"
   ],
   "note": "One item, whole tables, key check, 2PL + nominal and B-spline incorrect models."
  },
  {
   "property": "C08",
   "status": "proved",
   "theorems": [
    "Irt.C08_distribution_theta",
    "Irt.C08_ordered_theta",
    "Irt.C08_cumulative",
    "Irt.C08_distribution",
    "Irt.C08_ordered"
   ],
   "note": "Distribution, cumulative formula and stochastic order in the basis tail sums; the basis values themselves come from the external splinetorch package."
  },
  {
   "property": "C09",
   "status": "partial",
   "theorems": [
    "Irt.C09_mix_probs",
    "Irt.C09_mix_distribution",
    "Irt.C09_mix_gpc_nrm",
    "Irt.C09_mix_ll_sum",
    "Irt.C09_mix_ll_sum_impossible",
    "Irt.C09_mix_mean_refused",
    "Irt.C09_mix_two_gpc_ll",
    "Irt.C09_mix_two_gpc_ll_no_mask",
    "Irt.C09_mix_three_pl_refused"
   ],
   "note": "Concatenation, distributions and the sum of log likelihoods (with and without a mask, minus infinity included) for any number of components whose output has one entry per item and category. Disagreement with the code: a 3PL component is refused (C09_mix_three_pl_refused), because its output has one entry per item while the split expects two. mean is refused as documented."
  },
  {
   "property": "C10",
   "status": "partial",
   "theorems": [
    "Irt.C10_mix_cells",
    "Irt.C10_mix_cells_one_respondent_partial",
    "Irt.C10_mix_cells_one_model_partial",
    "Irt.C10_mix_layout_false"
   ],
   "note": "False of the code (C10_mix_layout_false); exact layout proved, correct for one respondent or one component."
  },
  {
   "property": "C11",
   "status": "proved",
   "theorems": [
    "Irt.C11_derivative_positive",
    "Irt.C11_strictly_increasing",
    "Irt.C11_direction_sign",
    "Irt.C11_unrelated",
    "Irt.C11_degree"
   ],
   "note": "Derivative is direction * softplus(omega) * product of positive quadratics, for every degree, number of inputs/outputs and parameters; strict monotonicity, sign of directions, unrelated pairs and accepted degrees."
  },
  {
   "property": "C12",
   "status": "partial",
   "theorems": [
    "Irt.C12_partial",
    "Irt.C12_false",
    "Irt.C12_reported_instead"
   ],
   "note": "Holds for degree 1 only (C12_partial). False for every higher degree: C12_false; C12_reported_instead gives the exact values returned."
  },
  {
   "property": "C13",
   "status": "proved",
   "theorems": [
    "Irt.C13_mean_score",
    "Irt.C13_polynomial",
    "Irt.C13_nn",
    "Irt.C13_nn_key",
    "Irt.C13_bspline_basis",
    "Irt.C13_bspline_categories_refused",
    "Irt.C13_bspline"
   ],
   "note": "MonotonePolynomial, MonotoneNN (any hidden widths, both separations, both activations, ordered and multiple choice) and MonotoneBSpline (textbook B-spline basis, any degree and sorted knots). B-spline with separate='categories' and several latent variables raises (C13_bspline_categories_refused)."
  },
  {
   "property": "C14",
   "status": "proved",
   "theorems": [
    "Irt.C14_value",
    "Irt.C14_shape",
    "Irt.C14_derivative",
    "Irt.C14_derivative_any_alpha"
   ],
   "note": "Forward pass with overflow of exp modelled. The derivative claim holds everywhere for alpha = 1 and off the joints for other alpha."
  },
  {
   "property": "C15",
   "status": "proved",
   "theorems": [
    "Irt.C15_output_count",
    "Irt.C15_groups_separate",
    "Irt.C15_default_groups",
    "Irt.C15_nondecreasing",
    "Irt.C15_strictly_increasing",
    "Irt.C15_zero_output",
    "Irt.C15_zero_input",
    "Irt.C15_bad_groups_refused"
   ],
   "note": "Any group sizes, masks and parameter values; default groups, strictness and refused constructions included."
  },
  {
   "property": "C16",
   "status": "proved",
   "theorems": [
    "Irt.C16_twoPL_unrelated",
    "Irt.C16_threePL_unrelated",
    "Irt.C16_gpc_unrelated",
    "Irt.C16_grm_unrelated",
    "Irt.C16_nrm_unrelated",
    "Irt.C16_parameters_used_once",
    "Irt.C16_relationships_checked",
    "Irt.C16_relationships_default",
    "Irt.C16_gpc_constructor",
    "Irt.C16_twoPL_constructor",
    "Irt.C16_polynomial_unrelated",
    "Irt.C16_nn_unrelated"
   ],
   "note": "2PL, 3PL, GPC, GRM, NRM, monotone polynomial and network; each free slope used exactly once; constructors refuse masks that do not fit."
  },
  {
   "property": "C17",
   "status": "proved",
   "theorems": [
    "Irt.C17_expected_item_score",
    "Irt.C17_expected_keyed_score",
    "Irt.C17_expected_sum_score",
    "Irt.C17_expected_keyed_sum_score",
    "Irt.C17_population_difficulty"
   ],
   "note": "Expected item and sum scores, with and without key, population difficulty."
  },
  {
   "property": "C18",
   "status": "partial",
   "theorems": [
    "Irt.C18_key_check_partial",
    "Irt.C18_key_check_false",
    "Irt.C18_bad_key_scores_zero"
   ],
   "note": "False of the code (off by one, negative, short and long key lists accepted); exact acceptance condition proved."
  },
  {
   "property": "C19",
   "status": "partial",
   "theorems": [
    "Irt.C19_one_scale_partial",
    "Irt.C19_opposite_order_partial",
    "Irt.C19_commuting_partial",
    "Irt.C19_false"
   ],
   "note": "Proved for one scale, for inverses applied in the opposite order, and for scales that commute. C19_false shows that with two scales the list is inverted in the wrong order (it is not reversed) and the round trip fails."
  },
  {
   "property": "C20",
   "status": "proved",
   "theorems": [
    "Irt.C20_chain_rule"
   ],
   "note": "Chain rule for any list of scales whose own jacobian is correct at the point it is evaluated at."
  },
  {
   "property": "C21",
   "status": "partial",
   "theorems": [
    "Irt.C21_reachable",
    "Irt.C21_bijection",
    "Irt.C21_knots",
    "Irt.C21_round_trip",
    "Irt.C21_free_endpoints_false"
   ],
   "note": "Proved for every well formed module (ordered bounds, minimum sizes that fit, any parameters), with the reachability of well-formedness from the constructor. With free_endpoints the trained output bounds may cross, and then the claim is false (C21_free_endpoints_false)."
  },
  {
   "property": "C22",
   "status": "partial",
   "theorems": [
    "Irt.C22_inside_partial",
    "Irt.C22_outside",
    "Irt.C22_false"
   ],
   "note": "Proved strictly inside the bounds and one-sidedly on them, in both modes. Outside the bounds the code reports 0 although the tails have slope (upper-lower)/(upper-lower): the full claim is refuted by C22_false on the default Flow spline."
  },
  {
   "property": "C23",
   "status": "proved",
   "theorems": [
    "Irt.C23_before_fit",
    "Irt.C23_round_trip",
    "Irt.C23_order",
    "Irt.C23_jacobian"
   ],
   "note": "Training is a parameter: any trained spline with a valid parameter layout. The derivative claim excludes scores exactly on a spline bound, where the slope jumps."
  },
  {
   "property": "C24",
   "status": "proved",
   "theorems": [
    "Irt.C24_reverse_involution",
    "Irt.C24_reverse_value",
    "Irt.C24_reverse_jacobian",
    "Irt.C24_rotate_accepts",
    "Irt.C24_rotate"
   ],
   "note": "Reverse and Rotate: round trips, values and Jacobians; Rotate refuses a non-square or wrong-size matrix."
  },
  {
   "property": "C25",
   "status": "partial",
   "theorems": [
    "Irt.C25_accepts",
    "Irt.C25_same_direction_partial",
    "Irt.C25_direction",
    "Irt.C25_false",
    "Irt.C25_neuralnet_refused"
   ],
   "note": "Proved for models oriented the same way, and monotone direction for both. C25_false: with inverted=True the inverse negates after inverting the spline."
  },
  {
   "property": "C26",
   "status": "partial",
   "theorems": [
    "Irt.C26_spline_partial",
    "Irt.C26_spline_sign",
    "Irt.C26_false"
   ],
   "note": "Proved for the spline method. C26_false: the neural network Jacobian omits the activation functions."
  },
  {
   "property": "C27",
   "status": "proved",
   "theorems": [
    "Irt.C27_accepts",
    "Irt.C27_value",
    "Irt.C27_training_scores",
    "Irt.C27_level",
    "Irt.C27_order",
    "Irt.C27_empty_sample",
    "Irt.C27_not_invertible"
   ],
   "note": "RankCDF over a sample: the transform returns the average rank divided by the sample size of a closest sample score (of the chosen one on ties), training scores get their own average rank, scores are between 0 and 1 and nondecreasing; empty samples, inverse and jacobian behave as stated."
  },
  {
   "property": "C28",
   "status": "proved",
   "theorems": [
    "Irt.C28_scores",
    "Irt.C28_orientation",
    "Irt.C28_more_respondents",
    "Irt.C28_finer_grid",
    "Irt.C28_total_variation",
    "Irt.C28_created",
    "Irt.C28_to_1D_one_dimensional",
    "Irt.C28_to_1D",
    "Irt.C28_empty_batch"
   ],
   "note": "Bit scores: accepted inputs, value, sign orientation, more respondents and finer grids never lower a score, bounded by the total entropy variation, empty batches refused; transform_to_1D by rows, nonnegative, zero at or below the starting theta, at least the net entropy change."
  },
  {
   "property": "C29",
   "status": "partial",
   "theorems": [
    "Irt.C29_monotone_entropy_partial",
    "Irt.C29_false",
    "Irt.C29_to_1D_partial"
   ],
   "note": "The claim is false for transform (C29_false, every number of grid points). Proved for items with monotone entropy and for transform_to_1D of multidimensional models. C29_to_1D_partial needs more than one latent variable; with one, transform_to_1D is transform."
  },
  {
   "property": "C30",
   "status": "partial",
   "theorems": [
    "Irt.C30_all_items_partial",
    "Irt.C30_false",
    "Irt.C30_one_item_false",
    "Irt.C30_refused"
   ],
   "note": "False for proper subsets: two or more items raise (C30_false), one item gives a wrong value (C30_one_item_false). Proved for all items in order. Several latent variables and inverse are refused."
  },
  {
   "property": "C31",
   "status": "proved",
   "theorems": [
    "Irt.C31_degrees_refused",
    "Irt.C31_positive_semidefinite",
    "Irt.C31_directional",
    "Irt.C31_one_dimension",
    "Irt.C31_test_is_sum",
    "Irt.C31_fisher",
    "Irt.C31_twoPL"
   ],
   "note": "Information equals the Fisher information (expected product of derivatives of the log probability) for differentiable probabilities, is symmetric and positive semidefinite for items and test whatever the scales, directional information is the quadratic form in the cosines and nonnegative, test information is the sum of item informations; 2PL closed form p(1-p) a a'. Wrong number of degrees refused. Probability-zero categories with a nonzero gradient (infinite in torch) are outside the model."
  },
  {
   "property": "C32",
   "status": "proved",
   "theorems": [
    "Irt.C32_probability_gradients",
    "Irt.C32_information",
    "Irt.C32_information_matrix",
    "Irt.C32_singular",
    "Irt.C32_expected_scores_plain",
    "Irt.C32_expected_scores"
   ],
   "note": "With invertible Jacobians of the transformation, rescaled probability gradients, expected score gradients and information equal those of the model written in the transformed scores; information is J^{-T} I J^{-1}; a singular Jacobian raises."
  },
  {
   "property": "C33",
   "status": "proved",
   "theorems": [
    "Irt.C33_conditional_score_distribution",
    "Irt.C33_total_mass",
    "Irt.C33_is_distribution",
    "Irt.C33_sum_incorrect"
   ],
   "note": "The recursion equals the sum over all response patterns, for any number of items and categories (generating polynomials); total mass one; the incorrect-category variant."
  },
  {
   "property": "C34",
   "status": "proved",
   "theorems": [
    "Irt.C34_one_hot",
    "Irt.C34_decodable",
    "Irt.C34_too_large_rejected",
    "Irt.C34_wrong_width_rejected",
    "Irt.C34_negative_response_wraps"
   ],
   "note": "Exactly one 1 per item block at the response, missing rows coded as documented, decodable; too large responses and wrong widths refused. Negative codes other than -1 wrap around (C34_negative_response_wraps)."
  },
  {
   "property": "C35",
   "status": "partial",
   "theorems": [
    "Irt.C35_false",
    "Irt.C35_nan_overwritten",
    "Irt.C35_no_nan_partial",
    "Irt.C35_imputed_partial",
    "Irt.C35_not_one_hot_partial",
    "Irt.C35_only_coding_changes"
   ],
   "note": "False of the code: NaN cells of the caller are overwritten with -1 (C35_false, C35_nan_overwritten). Proved: nothing else ever changes, and the tensor is untouched without NaN, with imputation, or without one-hot encoding."
  },
  {
   "property": "C36",
   "status": "proved",
   "theorems": [
    "Irt.C36_zero",
    "Irt.C36_mean",
    "Irt.C36_mean_keeps_means",
    "Irt.C36_mean_not_missing",
    "Irt.C36_random_incorrect",
    "Irt.C36_single_respondent_refused",
    "Irt.C36_prior_expected",
    "Irt.C36_unknown_method",
    "Irt.C36_implementations_agree"
   ],
   "note": "Zero, mean, random incorrect and prior expected imputation in both implementations; unknown names refused. Random incorrect fails for a single respondent (C36_single_respondent_refused)."
  },
  {
   "property": "C37",
   "status": "partial",
   "theorems": [
    "Irt.C37_false",
    "Irt.C37_never_succeeds"
   ],
   "note": "False of the code: the test for a key is inverted, so the call never succeeds with a model (C37_false, C37_never_succeeds)."
  },
  {
   "property": "C38",
   "status": "partial",
   "theorems": [
    "Irt.C38_constructor_counts",
    "Irt.C38_get_item_categories_false",
    "Irt.C38_get_item_categories_partial"
   ],
   "note": "Constructors: exact. get_item_categories is false with NaN (C38_get_item_categories_false); exact without NaN."
  },
  {
   "property": "C39",
   "status": "proved",
   "theorems": [
    "Irt.C39_split_partitions",
    "Irt.C39_no_shuffle",
    "Irt.C39_any_ratio"
   ],
   "note": "For every permutation and every ratio (also outside [0,1]: still a partition). The product n*ratio is exact here; Python rounds it to a double first."
  },
  {
   "property": "C40",
   "status": "partial",
   "theorems": [
    "Irt.C40_folds_partition",
    "Irt.C40_fold_count",
    "Irt.C40_fold_count_false",
    "Irt.C40_fold_count_partial",
    "Irt.C40_degenerate_refused"
   ],
   "note": "Partition and training sets: proved. Number of folds: false of the code (C40_fold_count_false); exact condition and a sufficient one proved."
  },
  {
   "property": "C41",
   "status": "partial",
   "theorems": [
    "Irt.C41_partial",
    "Irt.C41_false"
   ],
   "note": "False of the code: one model object is warm-started through all folds (C41_false). Proved: first fold, and all folds when fitting ignores its starting state."
  },
  {
   "property": "C42",
   "status": "proved",
   "theorems": [
    "Irt.C42_moments",
    "Irt.C42_monomials",
    "Irt.C42_refused"
   ],
   "note": "numpy's hermgauss and torch's cholesky are arguments: the theorem assumes what their documentation states (exactness below degree 2n against exp(-x^2); L L^T = covariance). Weights sum to one, weighted mean and covariance are the requested ones, and every reachable monomial moment is exact. The two-point rule is shown to satisfy the hypothesis. With n = 1 only the mean is right, which the property's quantifier excludes."
  },
  {
   "property": "C43",
   "status": "partial",
   "theorems": [
    "Irt.C43_range",
    "Irt.C43_well_defined",
    "Irt.C43_equal",
    "Irt.C43_sign",
    "Irt.C43_sign_impossible",
    "Irt.C43_larger_partial",
    "Irt.C43_strict_converse_false",
    "Irt.C43_separates"
   ],
   "note": "Range, well-definedness, zero for equal fits and the sign are proved for every pair of mean log likelihoods (minus infinity included) and every iteration limit: a positive value implies the second model is better, a negative value that the first is. The strict converse (better implies positive) is false of the code, C43_strict_converse_false: two models below -2 per response both end at the lower clamp and get 0. C43_larger_partial proves the converse unless both entries end at the same clamp."
  },
  {
   "property": "C44",
   "status": "proved",
   "theorems": [
    "Irt.C44_defined",
    "Irt.C44_constructed",
    "Irt.C44_fit",
    "Irt.C44_responsibilities",
    "Irt.C44_refused",
    "Irt.C44_collapse"
   ],
   "note": "MultivariateNormal is modelled by its documented behaviour (refuses a covariance that is not positive definite; log density). fit may raise when a component collapses (C44_collapse: always with one observation and two iterations); the property speaks of the mixtures it returns."
  },
  {
   "property": "C45",
   "status": "proved",
   "theorems": [
    "Irt.C45_limit",
    "Irt.C45_limit_training",
    "Irt.C45_posterior_mean",
    "Irt.C45_grid",
    "Irt.C45_within_grid",
    "Irt.C45_defined",
    "Irt.C45_own_responses",
    "Irt.C45_all_missing",
    "Irt.C45_refused"
   ],
   "note": "EAP scores are the mean of the posterior on the grid, for every scoreable model (the softmax and table models are shown to be scoreable): posterior mean, grid, bounds, independence of other respondents, missing data, refusals."
  },
  {
   "property": "C46",
   "status": "partial",
   "theorems": [
    "Irt.C46_mml_false",
    "Irt.C46_scores_partial",
    "Irt.C46_singular",
    "Irt.C46_one_respondent"
   ],
   "note": "False after MML (C46_mml_false: the documented default after MML raises). Proved for JML and autoencoders with a positive definite sample covariance; singular covariance and one respondent are characterised."
  },
  {
   "property": "C47",
   "status": "partial",
   "theorems": [
    "Irt.C47_refused",
    "Irt.C47_missing_refused",
    "Irt.C47_encoder_accepted",
    "Irt.C47_imputed_partial",
    "Irt.C47_vae_false",
    "Irt.C47_random_incorrect_false",
    "Irt.C47_no_encoder",
    "Irt.C47_map",
    "Irt.C47_map_prior",
    "Irt.C47_map_no_prior"
   ],
   "note": "False for variational autoencoders and for 'random incorrect' imputation (C47_vae_false, C47_random_incorrect_false). Proved: refusals, the encoder branch, imputation with 'zero' or 'mean', models without encoder, MAP exactly when the prior covariance is positive definite. The encoder and the optimiser are parameters."
  },
  {
   "property": "C48",
   "status": "proved",
   "theorems": [
    "Irt.C48_objective"
   ],
   "note": "The MML loss is minus the sum of log marginal likelihoods under the quadrature rule."
  },
  {
   "property": "C49",
   "status": "partial",
   "theorems": [
    "Irt.C49_mml",
    "Irt.C49_jml",
    "Irt.C49_autoencoder",
    "Irt.C49_learning_rate",
    "Irt.C49_learning_rate_autoencoder",
    "Irt.C49_descent_partial",
    "Irt.C49_false"
   ],
   "note": "False (C49_false): the loss is recorded before the update and the parameters are copied after it. Proved for MML, JML and the autoencoders and every loss and update function: number of iterations, stopping rule, learning rates, which parameters are returned; with a non-increasing loss the returned parameters are at least as good as every recorded loss (C49_descent_partial)."
  },
  {
   "property": "C50",
   "status": "partial",
   "theorems": [
    "Irt.C50_false",
    "Irt.C50_usable_partial",
    "Irt.C50_parameters"
   ],
   "note": "False for spline models under MML (C50_false): the precomputed basis survives an exception. Proved for fits that return and for models without a precomputed basis."
  },
  {
   "property": "C51",
   "status": "proved",
   "theorems": [
    "Irt.C51_concatenation",
    "Irt.C51_one_hot",
    "Irt.C51_missing_pattern"
   ],
   "note": "Training data accumulates by concatenation over any history of fits; what the stored tensor shows after a one-hot fit."
  },
  {
   "property": "C52",
   "status": "proved",
   "theorems": [
    "Irt.C52_factor",
    "Irt.C52_extremes",
    "Irt.C52_is_outlier",
    "Irt.C52_one_side"
   ],
   "note": "Outlier detector: factor validation, bounds, extremes of the non-outliers, is_outlier and one-sided rules."
  },
  {
   "property": "C53",
   "status": "proved",
   "theorems": [
    "Irt.C53_knots",
    "Irt.C53_between",
    "Irt.C53_outside",
    "Irt.C53_monotone",
    "Irt.C53_too_few_knots"
   ],
   "note": "For at least two distinct knots in any order; with fewer knots the function raises or returns NaN (C53_too_few_knots)."
  },
  {
   "property": "C54",
   "status": "proved",
   "theorems": [
    "Irt.C54_ranks",
    "Irt.C54_order"
   ],
   "note": "argsort is any function returning a sorting permutation (ties broken arbitrarily); icdf is any right inverse of the standard normal distribution function on (0,1)."
  },
  {
   "property": "C55",
   "status": "partial",
   "theorems": [
    "Irt.C55_complete",
    "Irt.C55_constant_false",
    "Irt.C55_missing_symmetric",
    "Irt.C55_missing_partial",
    "Irt.C55_missing_few",
    "Irt.C55_missing_false"
   ],
   "note": "Proved for complete data without constant columns and, with missing values, for pairs of variables one of which is observed only where the other is. False in general: with missing values an entry can exceed one (C55_missing_false), and constant columns give NaN including on the diagonal (C55_constant_false)."
  },
  {
   "property": "C56",
   "status": "partial",
   "theorems": [
    "Irt.C56_rejects",
    "Irt.C56_entropy",
    "Irt.C56_joint",
    "Irt.C56_few_common_false",
    "Irt.C56_coded_false"
   ],
   "note": "Bounds, rejection and the joint entropies for data in which all pairs of items have at least two common respondents. False in general: a pair with fewer common respondents makes the whole call raise (C56_few_common_false), and missing responses coded -1 count as a category (C56_coded_false)."
  },
  {
   "property": "C57",
   "status": "partial",
   "theorems": [
    "Irt.C57_definition",
    "Irt.C57_range",
    "Irt.C57_weighted_recall",
    "Irt.C57_perfect_partial",
    "Irt.C57_perfect_false",
    "Irt.C57_most_probable"
   ],
   "note": "The metrics are proved to be the weighted and unweighted averages of the per-category counts, in [0,1], with the most probable category predicted. Missing because false of the code: unweighted metrics of a perfect prediction are not 1 (C57_perfect_false)."
  },
  {
   "property": "C58",
   "status": "proved",
   "theorems": [
    "Irt.C58_residuals",
    "Irt.C58_residual_range",
    "Irt.C58_averages",
    "Irt.C58_fit_statistics",
    "Irt.C58_fit_nonneg",
    "Irt.C58_level_refused"
   ],
   "note": "Residuals, their averages over observed cells, infit and outfit are the defined quantities for every data set."
  },
  {
   "property": "C59",
   "status": "partial",
   "theorems": [
    "Irt.C59_cells",
    "Irt.C59_sums",
    "Irt.C59_means",
    "Irt.C59_group_partial",
    "Irt.C59_group_missing",
    "Irt.C59_group_misaligned",
    "Irt.C59_group_false"
   ],
   "note": "Cell, sum and mean log-likelihoods hold for all data with missing responses; group fit holds for complete data. Missing because false: with missing responses the group means are NaN or read other respondents' cells (C59_group_missing, C59_group_misaligned, C59_group_false)."
  },
  {
   "property": "C60",
   "status": "partial",
   "theorems": [
    "Irt.C60_weights",
    "Irt.C60_grid",
    "Irt.C60_distribution",
    "Irt.C60_distribution_keyed",
    "Irt.C60_encoder_sampling",
    "Irt.C60_encoder_sampling_false",
    "Irt.C60_method_refused",
    "Irt.C60_population_data",
    "Irt.C60_population"
   ],
   "note": "Proved for 'data', 'qmvn' and 'gmm'. Missing because false: 'encoder sampling' always fails (C60_encoder_sampling_false) and population data is refused for models without encoder (C60_population_data)."
  },
  {
   "property": "C61",
   "status": "partial",
   "theorems": [
    "Irt.C61_multiple_choice_partial",
    "Irt.C61_scored",
    "Irt.C61_first_category_false",
    "Irt.C61_refused"
   ],
   "note": "Items with more than two categories and items with two categories and key 1 behave as stated. False for items with two categories whose key is 0 (C61_first_category_false); the documented default guessing_probabilities=None is refused (C61_refused)."
  },
  {
   "property": "C62",
   "status": "proved",
   "theorems": [
    "Irt.C62_divergence",
    "Irt.C62_sample_divergence",
    "Irt.C62_samples",
    "Irt.C62_annealing",
    "Irt.C62_annealing_zero",
    "Irt.C62_between",
    "Irt.C62_objective_one",
    "Irt.C62_objective_many",
    "Irt.C62_bound_one",
    "Irt.C62_bound_many",
    "Irt.C62_more_samples",
    "Irt.C62_one_sample",
    "Irt.C62_samples_limit",
    "Irt.C62_logit_samples"
   ],
   "note": "Besides the three clauses of the statement, the objective itself is characterised. In expectation it is a lower bound of the log marginal likelihood that does not fall with more samples (C62_more_samples) and tends to the log marginal likelihood (C62_samples_limit); C62_logit_samples discharges the conditions for every model with linear log odds, every encoder output and every valid row of answers."
  },
  {
   "property": "C63",
   "status": "partial",
   "theorems": [
    "Irt.C63_twoPL_irt_format",
    "Irt.C63_twoPL_irt_format_refused",
    "Irt.C63_gpc_irt_format",
    "Irt.C63_gpc_irt_format_not_refused",
    "Irt.C63_threePL_irt_format",
    "Irt.C63_threePL_irt_format_refused",
    "Irt.C63_grm_irt_format",
    "Irt.C63_grm_irt_format_not_refused"
   ],
   "note": "2PL, 3PL, GRM: formula proved; GRM silently ignores the flag for several latent variables instead of refusing (C63_grm_irt_format_not_refused)."
  },
  {
   "property": "C64",
   "status": "partial",
   "theorems": [
    "Irt.C64_round_trip",
    "Irt.C64_older_files",
    "Irt.C64_other_structure_refused",
    "Irt.C64_history",
    "Irt.C64_failed_load_false",
    "Irt.C64_stored_basis_false",
    "Irt.C64_evaluator_kept"
   ],
   "note": "Round trip proved for every saved and every target state of the same layout without a stored basis, and over histories of saves, loads and changes. Missing because false: a load that raises has already overwritten tensors (C64_failed_load_false), and a basis left in the target by an interrupted fit survives loading (C64_stored_basis_false)."
  },
  {
   "property": "C65",
   "status": "partial",
   "theorems": [
    "Irt.C65_candidates",
    "Irt.C65_best_training_score_partial",
    "Irt.C65_sample",
    "Irt.C65_large_false"
   ],
   "note": "False above the sampling limit (C65_large_false). Proved for training sets within the limit."
  },
  {
   "property": "C66",
   "status": "proved",
   "theorems": [
    "Irt.C66_least_squares",
    "Irt.C66_refused"
   ],
   "note": "Least squares optimality and uniqueness; refused exactly if the coefficients are not determined."
  },
  {
   "property": "C67",
   "status": "partial",
   "theorems": [
    "Irt.C67_standard",
    "Irt.C67_bounded_variational_partial",
    "Irt.C67_batch_normalisation",
    "Irt.C67_two_layers_false",
    "Irt.C67_no_hidden"
   ],
   "note": "Proved for standard encoders and for the others without batch normalisation; with it, exactly the lists with equal first and last sizes work (C67_batch_normalisation), so that the claim is false (C67_two_layers_false)."
  },
  {
   "property": "C68",
   "status": "proved",
   "theorems": [
    "Irt.C68_scores",
    "Irt.C68_rows"
   ],
   "note": ""
  },
  {
   "property": "C69",
   "status": "partial",
   "theorems": [
    "Irt.C69_grid",
    "Irt.C69_rows",
    "Irt.C69_average",
    "Irt.C69_non_numeric_refused",
    "Irt.C69_false"
   ],
   "note": "Every combination exactly once, keyword arguments applied, averages exact for numeric parameters. False for non-numeric parameters (C69_false, C69_non_numeric_refused)."
  },
  {
   "property": "C70",
   "status": "partial",
   "theorems": [
    "Irt.C70_even_groups",
    "Irt.C70_groups",
    "Irt.C70_groups_rescaled",
    "Irt.C70_observed_distribution",
    "Irt.C70_model_distribution",
    "Irt.C70_residuals",
    "Irt.C70_residuals_rescaled",
    "Irt.C70_standardized_training_data",
    "Irt.C70_group_count_false",
    "Irt.C70_mid_point_false"
   ],
   "note": "The groups partition the respondents in order of the latent scores, with the stated observed and model shares. Missing because false: there can be fewer groups than asked for (C70_group_count_false), the documented average is a median (C70_mid_point_false), standardized residuals of training data fail (C70_standardized_training_data)."
  },
  {
   "property": "C71",
   "status": "partial",
   "theorems": [
    "Irt.C71_polynomial_direction",
    "Irt.C71_polynomial_unrelated",
    "Irt.C71_false",
    "Irt.C71_nn_direction",
    "Irt.C71_nn_direction_key",
    "Irt.C71_nn_unrelated"
   ],
   "note": "Proved for MonotonePolynomial and MonotoneNN; the 'exactly when' half is false when negative relationships are disabled: 1 is reported for unrelated pairs (C71_false). With them enabled unrelated pairs report 0; a zero direction parameter of a related pair also reports 0."
  },
  {
   "property": "C72",
   "status": "proved",
   "theorems": [
    "Irt.C72_density",
    "Irt.C72_em_monotone",
    "Irt.C72_fit_monotone",
    "Irt.C72_pdf"
   ],
   "note": "For every valid mixture and every number of iterations, by Jensen's inequality and the maximum property of the M step (log det S <= log det C + tr(C^-1 S) - d)."
  },
  {
   "property": "C73",
   "status": "partial",
   "theorems": [
    "Irt.C73_nan_false",
    "Irt.C73_complete_partial",
    "Irt.C73_key_partial",
    "Irt.C73_equal_scores_false",
    "Irt.C73_minus_one_false",
    "Irt.C73_refused"
   ],
   "note": "False with NaN responses, with -1 responses and with equal sum scores (C73_nan_false, C73_minus_one_false, C73_equal_scores_false). Proved for complete data and, with an answer key, for every missing pattern."
  },
  {
   "property": "C74",
   "status": "partial",
   "theorems": [
    "Irt.C74_reported",
    "Irt.C74_never_larger",
    "Irt.C74_diagonal_partial",
    "Irt.C74_delta_method",
    "Irt.C74_variational",
    "Irt.C74_false"
   ],
   "note": "False for two latent variables (C74_false): the reciprocal square root of the diagonal of the information is reported, not the diagonal of its inverse. Proved: what is reported, that it is never larger than the asymptotic value, that both agree for a diagonal information matrix (in particular one latent variable), the delta method. For a variational autoencoder with a flow or a link attached the Jacobian of the modelled formula cannot be computed by the code, which raises there (C122_vae_trained)."
  },
  {
   "property": "C75",
   "status": "partial",
   "theorems": [
    "Irt.C75_population",
    "Irt.C75_training_partial",
    "Irt.C75_false"
   ],
   "note": "Proved for calls with population data and for histories without it. False otherwise (C75_false): the density of an earlier population is used again."
  },
  {
   "property": "C76",
   "status": "partial",
   "theorems": [
    "Irt.C76_expected",
    "Irt.C76_observed",
    "Irt.C76_complete_partial",
    "Irt.C76_local_independence",
    "Irt.C76_few_common",
    "Irt.C76_p_values",
    "Irt.C76_missing_false"
   ],
   "note": "For complete data with at least two respondents, the reported difference is within (M^2+2M)1e-10/log(base) of the mutual information of the observed pairs minus that of the model, symmetric, with the absolute value as second statistic, and both mutual informations are nonnegative; the p-values are proved for all inputs. Disagreement with the code: with missing responses the marginal and joint entropies come from different respondents, so the observed mutual information can be negative (C76_missing_false), and a pair with fewer than two common respondents makes the whole call fail (C76_few_common). Rounding to three decimals not modelled."
  },
  {
   "property": "C77",
   "status": "partial",
   "theorems": [
    "Irt.C77_complete_partial",
    "Irt.C77_constant",
    "Irt.C77_missing_partial",
    "Irt.C77_missing_false",
    "Irt.C77_p_values",
    "Irt.C77_diagonal",
    "Irt.C77_undefined_false",
    "Irt.C77_ties_false"
   ],
   "note": "Proved for complete data, and with missing responses when everyone who answered one of the two items answered the other. Disagreements with the code: with other missing patterns Q3 can exceed 1 (C77_missing_false); undefined Q3 gets p-value 0 (C77_undefined_false); if all simulated values equal the observed one the p-value is 0 instead of 1 (C77_ties_false). Rounding to three decimals not modelled."
  },
  {
   "property": "C83",
   "status": "partial",
   "theorems": [
    "Irt.C83_unaffected",
    "Irt.C83_own_algorithm",
    "Irt.C83_same_algorithm",
    "Irt.C83_other_model_false",
    "Irt.C83_other_items",
    "Irt.C83_rows"
   ],
   "note": "The frame property, the fresh algorithm object, the refused data and the stored rows are proved. That fitting another model leaves a model alone is false when both are given the same algorithm object (C83_other_model_false, C83_same_algorithm): the first model then reads the encoder, scores and data of the second."
  },
  {
   "property": "C84",
   "status": "partial",
   "theorems": [
    "Irt.C84_order",
    "Irt.C84_error",
    "Irt.C84_separate_partial",
    "Irt.C84_shared_false",
    "Irt.C84_no_models"
   ],
   "note": "Order and exceptions are proved for every schedule. Own algorithm objects are proved for at most four models per process; with more, the chunks of multiprocessing.Pool make models share one algorithm object (C84_shared_false). What each fit returns is an argument; pickling is modelled only as far as sharing goes."
  },
  {
   "property": "C78",
   "status": "partial",
   "theorems": [
    "Irt.C78_positive",
    "Irt.C78_training_rows",
    "Irt.C78_refused",
    "Irt.C78_one_variable",
    "Irt.C78_units",
    "Irt.C78_density_false"
   ],
   "note": "Definedness, positivity, the values at the data, refusal exactly for collinear normal scores and independence of units are proved. That pdf is a probability density is false (C78_density_false): the derivative of the transformation to normal scores is missing, so doubling the unit doubles the integral."
  },
  {
   "property": "C79",
   "status": "proved",
   "theorems": [
    "Irt.C79_selected",
    "Irt.C79_held_out",
    "Irt.C79_edges",
    "Irt.C79_approximations",
    "Irt.C79_requested",
    "Irt.C79_defined"
   ],
   "note": "Random means of every fit are arguments; argmax is any function that returns a position of a largest entry. Log likelihoods are real numbers, so NaN averages are outside the model."
  },
  {
   "property": "C81",
   "status": "proved",
   "theorems": [
    "Irt.C81_interval",
    "Irt.C81_nested",
    "Irt.C81_smallest",
    "Irt.C81_mean_se",
    "Irt.C81_samples",
    "Irt.C81_samples_empty",
    "Irt.C81_sample_law"
   ],
   "note": "The encoder and the normal quantile function are parameters (the latter with its defining property)."
  },
  {
   "property": "C82",
   "status": "partial",
   "theorems": [
    "Irt.C82_value",
    "Irt.C82_bounds_distance",
    "Irt.C82_equal",
    "Irt.C82_divergence",
    "Irt.C82_widths_false",
    "Irt.C82_widths"
   ],
   "note": "Everything holds when the two models have the same largest number of categories; models whose widths differ pass the constructor but the loss raises RuntimeError (C82_widths_false)."
  },
  {
   "property": "C80",
   "status": "proved",
   "theorems": [
    "Irt.C80_points",
    "Irt.C80_setup",
    "Irt.C80_other_names",
    "Irt.C80_gauss_hermite",
    "Irt.C80_objective",
    "Irt.C80_limit",
    "Irt.C80_truncation"
   ],
   "note": "All method names other than gauss_hermite select the grid (C80_other_names). The Gauss-Hermite rule is C42."
  },
  {
   "property": "C87",
   "status": "partial",
   "theorems": [
    "Irt.C87_line",
    "Irt.C87_defaults",
    "Irt.C87_defaults_untrained",
    "Irt.C87_line_scale",
    "Irt.C87_line_other",
    "Irt.C87_line_increasing",
    "Irt.C87_line_flat_start",
    "Irt.C87_line_decreasing",
    "Irt.C87_line_constant",
    "Irt.C87_range_false",
    "Irt.C87_surface",
    "Irt.C87_surface_scale",
    "Irt.C87_sum_score",
    "Irt.C87_sum_score_items",
    "Irt.C87_probabilities",
    "Irt.C87_entropy",
    "Irt.C87_log_likelihood_partial",
    "Irt.C87_log_likelihood_items_partial",
    "Irt.C87_log_likelihood_false",
    "Irt.C87_probability_line",
    "Irt.C87_probability_fixed_false",
    "Irt.C87_information_line_partial",
    "Irt.C87_information_line_false",
    "Irt.C87_information_surface_partial",
    "Irt.C87_information_axes_false",
    "Irt.C87_latent_variables",
    "Irt.C87_latent_zero_false",
    "Irt.C87_draw",
    "Irt.C87_scale_lines"
   ],
   "note": "Proved: lines and surfaces on the original scale and, for invertible transformations with training scores, on the transformed scale; defaults; other transformations as far as the trimming at the minimum allows; the quantities drawn by expected_sum_score, item_probabilities, item_entropy and, for complete responses, log_likelihood. False of the code: the documented range without training scores and the last step of a decreasing scale (C87_range_false, C87_line_decreasing), a constant scale draws nothing, medians used on the wrong scale by item_probabilities (C87_probability_fixed_false), information with a scale and several latent variables (C87_information_line_false, C87_information_axes_false), missing responses in log_likelihood (C87_log_likelihood_false), latent variable 0 (C87_latent_zero_false)."
  },
  {
   "property": "C85",
   "status": "proved",
   "theorems": [
    "Irt.C85_probability",
    "Irt.C85_valid",
    "Irt.C85_marginal",
    "Irt.C85_likelihood",
    "Irt.C85_discrimination",
    "Irt.C85_discrimination_key",
    "Irt.C85_discrimination_scale",
    "Irt.C85_discrimination_empty"
   ],
   "note": "sample_test_data as a probability distribution over tables: law of a table, support, marginal law of a cell, equality with the exponential of log_likelihood for any model whose log_likelihood satisfies C02. population_discrimination without and with an answer key, on the original and on transformed scales, and for no respondents."
  },
  {
   "property": "C86",
   "status": "partial",
   "theorems": [
    "Irt.C86_guessers",
    "Irt.C86_given_partial",
    "Irt.C86_refused",
    "Irt.C86_start",
    "Irt.C86_return_false",
    "Irt.C86_items_false",
    "Irt.C86_order_false",
    "Irt.C86_constructor"
   ],
   "note": "Proved: the default guessers, given probabilities (except two category items with key 0, C61_first_category_false), refusals, median of the guessers' scores, constructor. False of the code, with proofs: nothing is returned although a tensor is documented; any selection with fewer or more items than the test raises, and a selection in another order scores the responses of one item as those of another."
  },
  {
   "property": "C88",
   "status": "partial",
   "theorems": [
    "Irt.C88_key",
    "Irt.C88_columns",
    "Irt.C88_binary",
    "Irt.C88_failure",
    "Irt.C88_key_from_one_false"
   ],
   "note": "Key reading, column order, alignment of data and key, scoring and error handling are proved for every file content. The documented base of the returned key is false: the loader subtracts one, so that the key is the correct response itself (C88_key_from_one_false)."
  },
  {
   "property": "C89",
   "status": "proved",
   "theorems": [
    "Irt.C89_layout",
    "Irt.C89_rows_monotone",
    "Irt.C89_rows_surprisal",
    "Irt.C89_rows_nested",
    "Irt.C89_precompute",
    "Irt.C89_mml",
    "Irt.C89_stored_basis_false"
   ],
   "note": "Layout of the flattened basis, row independence of the three spline models, precomputation for the same scores, and the MML fit (also for SurprisalSpline, which mml.py leaves out by a repeated isinstance test). C89_stored_basis_false records that a stored basis replaces the scores of a later call, which matters after an interrupted fit (see C50, C64)."
  },
  {
   "property": "C90",
   "status": "proved",
   "theorems": [
    "Irt.C90_gradient",
    "Irt.C90_basis_derivative"
   ],
   "note": "The backward pass is the exact gradient for every differentiable loss; C90_basis_derivative shows that the hypothesis on the external derivative function can be met, for every degree away from the knots."
  },
  {
   "property": "C91",
   "status": "partial",
   "theorems": [
    "Irt.C91_cached",
    "Irt.C91_retry",
    "Irt.C91_source",
    "Irt.C91_interrupted_false",
    "Irt.C91_recovers_partial"
   ],
   "note": "Caching, sources and retries are proved for every history. Recovery is false: an interrupted write leaves an incomplete cache file that every later call fails to read (C91_interrupted_false); it holds if no write was interrupted (C91_recovers_partial)."
  },
  {
   "property": "C92",
   "status": "partial",
   "theorems": [
    "Irt.C92_onePL",
    "Irt.C92_twoPL",
    "Irt.C92_threePL",
    "Irt.C92_gpc",
    "Irt.C92_grm",
    "Irt.C92_single_category_false",
    "Irt.C92_nested",
    "Irt.C92_bspline_partial",
    "Irt.C92_regression",
    "Irt.C92_regression_defined",
    "Irt.C92_regression_false",
    "Irt.C92_nominal_requires_scores"
   ],
   "note": "Proved in both directions for the 1PL, 2PL, 3PL, GPC, GRM (items with at least two categories) and the nested logit model with a 2PL; for the regression rule with one latent variable. Disagreements: an item with one category is reported with direction 1 although its score is constant (C92_single_category_false); with two correlated latent variables the regression rule of the nominal model reports -1 for a variable that always raises the expected score (C92_regression_false). For the monotone B-spline model only that scores never decrease is proved, not strictness."
  },
  {
   "property": "C93",
   "status": "partial",
   "theorems": [
    "Irt.C93_fit",
    "Irt.C93_error",
    "Irt.C93_not_worse_false",
    "Irt.C93_usable_false",
    "Irt.C93_not_worse_partial"
   ],
   "note": "Order, bounds, stopping reasons and exceptions are proved. Disagreement: unlike the estimation algorithms, both fits keep the transformation after the last update, not the best one, so the loss can be larger than at the start (C93_not_worse_false), and when the loss becomes NaN they only log a warning and keep the transformation with the NaN loss (C93_usable_false). C93_not_worse_partial holds for optimisers that never increase the loss. evaluation_interval_size = 0 raises ZeroDivisionError after one update."
  },
  {
   "property": "C94",
   "status": "partial",
   "theorems": [
    "Irt.C94_same_as_sequential",
    "Irt.C94_table",
    "Irt.C94_no_gpu",
    "Irt.C94_threads",
    "Irt.C94_schedule_false"
   ],
   "note": "Proved for fits without random numbers. Disagreement: fits that use random numbers (JML with several latent variables, autoencoders, model constructors) draw from the generator of the worker process that takes the job, so the table depends on the distribution of the work (C94_schedule_false)."
  },
  {
   "property": "C95",
   "status": "partial",
   "theorems": [
    "Irt.C95_reproducible",
    "Irt.C95_sequential",
    "Irt.C95_seed_without_effect",
    "Irt.C95_pool_false"
   ],
   "note": "Proved for calls that read only the generators that set_seed seeds, among them sequential cross-validation. Disagreement: with multiprocessing (the default on the processor) the workers are spawned with generators of their own, the seed of the caller has no effect on the fits (C95_seed_without_effect), and the table can differ between runs with the same seed (C95_pool_false)."
  },
  {
   "property": "C96",
   "status": "partial",
   "theorems": [
    "Irt.C96_inside_partial",
    "Irt.C96_total",
    "Irt.C96_density",
    "Irt.C96_false"
   ],
   "note": "Proved inside the bounds of the spline (C96_inside_partial), for all values when the tails have slope one (C96_density), and the exact total mass for every spline (C96_total). False in general (C96_false): outside the bounds the spline reports log determinant 0 whatever its slope, so with the default bounds of Flow ([-5.5, 5.5] to [-3, 3]) the tails are counted 11/6 times and the density integrates to more than one."
  },
  {
   "property": "C97",
   "status": "partial",
   "theorems": [
    "Irt.C97_contour",
    "Irt.C97_default_bins",
    "Irt.C97_histogram_partial",
    "Irt.C97_two_variables",
    "Irt.C97_histogram_false",
    "Irt.C97_too_many",
    "Irt.C97_variables_partial",
    "Irt.C97_variables_false",
    "Irt.C97_history",
    "Irt.C97_history_untrained",
    "Irt.C97_relationships",
    "Irt.C97_relationships_scale",
    "Irt.C97_relationships_given"
   ],
   "note": "Proved for two or more respondents and variables numbered from one. False otherwise: the scores of one respondent cannot be plotted for one variable because squeeze removes both dimensions (C97_histogram_false), and variable 0 is accepted and shows the last one (C97_variables_false); variables above the dimension raise IndexError because the check meant for them is a copy of the check on their number (C97_variables_partial)."
  },
  {
   "property": "C98",
   "status": "partial",
   "theorems": [
    "Irt.C98_curve_partial",
    "Irt.C98_dropped_false",
    "Irt.C98_two_variables_false",
    "Irt.C98_line_partial",
    "Irt.C98_line_missing_false",
    "Irt.C98_line_key_false"
   ],
   "note": "Proved where the expected sum score strictly increases with the plotted variable, and the line for complete responses without an answer key. False otherwise: C98_dropped_false (positions before an interior minimum are left out), C98_two_variables_false (an error for two latent variables), C98_line_missing_false (a missing response coded -1 lowers the line), C98_line_key_false (with an answer key the line is at the sum of option numbers)."
  },
  {
   "property": "C99",
   "status": "partial",
   "theorems": [
    "Irt.C99_objective",
    "Irt.C99_epoch",
    "Irt.C99_scores_partial",
    "Irt.C99_random_incorrect_false",
    "Irt.C99_vae_imputation_false",
    "Irt.C99_vae_one_hot_false",
    "Irt.C99_unobserved_item"
   ],
   "note": "Proved: the loss of a batch is minus the mean log likelihood of the observed responses at the encoder scores, whatever was imputed (C99_objective); every epoch is a partition of the respondents (C99_epoch); scoring the training data gives the stored scores for complete data, without imputation, and after AE with zeros or means imputed (C99_scores_partial). False otherwise: after AE with \"random incorrect\" imputation scoring data with missing responses raises ValueError, since the key is not passed on (C99_random_incorrect_false); VAE.fit does not store the imputation method, so that scoring incomplete data raises ValueError (C99_vae_imputation_false) or, with one-hot encoding, silently gives other scores (C99_vae_one_hot_false). With means imputed and an item nobody answered, the first loss is NaN: fit returns without error, parameters unchanged and all training scores NaN (C99_unobserved_item)."
  },
  {
   "property": "C100",
   "status": "partial",
   "theorems": [
    "Irt.C100_eap_order",
    "Irt.C100_ranked_categories",
    "Irt.C100_onePL",
    "Irt.C100_twoPL",
    "Irt.C100_gpc",
    "Irt.C100_nrm",
    "Irt.C100_threePL",
    "Irt.C100_grm",
    "Irt.C100_two_traits_false"
   ],
   "note": "With one latent variable the claim is proved for all six models, through a general theorem (C100_eap_order) about answers with a monotone likelihood ratio; for the graded response model the intercepts must fall (the code does not enforce it, see C04). Not true with two latent variables (C100_two_traits_false): passing one more item can lower the EAP score on an ability which that item does not need."
  },
  {
   "property": "C101",
   "status": "proved",
   "theorems": [
    "Irt.C101_likelihood",
    "Irt.C101_eap",
    "Irt.C101_ranking",
    "Irt.C101_onePL",
    "Irt.C101_twoPL",
    "Irt.C101_gpc",
    "Irt.C101_nrm",
    "Irt.C101_threePL_false"
   ],
   "note": "Proved for the four multinomial logit models, the general statement for up to four latent variables and the exact ranking for one. C101_threePL_false records that it does not extend to the 3PL model (which the property does not claim): there an answer that is harder to guess counts for more."
  },
  {
   "property": "C102",
   "status": "partial",
   "theorems": [
    "Irt.C102_objective",
    "Irt.C102_rows",
    "Irt.C102_no_false_maxima",
    "Irt.C102_map",
    "Irt.C102_map_scores",
    "Irt.C102_ml_scores",
    "Irt.C102_ml_exists_iff",
    "Irt.C102_loop",
    "Irt.C102_models",
    "Irt.C102_onePL_ml",
    "Irt.C102_twoPL_ml",
    "Irt.C102_ml_perfect_false",
    "Irt.C102_threePL_false"
   ],
   "note": "proved for the models with log-concave probabilities. That LBFGS stops at a zero of the gradient is a hypothesis: the code stops when the summed loss changes by less than 1e-8 per cell or after 40 calls. Disagreements, each with a counterexample: a respondent with only right (or only wrong) answers has no maximum likelihood score, the returned number depends on where the search stopped (C102_ml_perfect_false); the likelihood of the 3PL model can have a local maximum far from the best scores (C102_threePL_false)."
  },
  {
   "property": "C103",
   "status": "partial",
   "theorems": [
    "Irt.C103_exact",
    "Irt.C103_mml_loss",
    "Irt.C103_mml_number",
    "Irt.C103_eap_value",
    "Irt.C103_eap_nan_iff",
    "Irt.C103_eap_close_partial",
    "Irt.C103_eap_length",
    "Irt.C103_eap_long",
    "Irt.C103_eap_long_false",
    "Irt.C103_exact_never_nan",
    "Irt.C103_threePL_saturated"
   ],
   "note": "Proved for the MML loss (C103_mml_loss, C103_mml_number) and, for EAP, when some grid point is well above the underflow limit (C103_eap_close_partial, C103_eap_length) with the exact condition for NaN (C103_eap_nan_iff). Disagreements: EAP takes the exponential without subtracting the maximum, so 1078 or more balanced 1PL items give NaN for everyone with 64 bit numbers (C103_eap_long_false); the 3PL takes the log of a rounded probability, so failing an item whose logit is 17 or more at every point gives NaN for EAP and for the MML loss (C103_threePL_saturated). Only the exponential and the sigmoid are rounded, overflow is not modelled."
  },
  {
   "property": "C104",
   "status": "partial",
   "theorems": [
    "Irt.C104_limit_partial",
    "Irt.C104_never_above",
    "Irt.C104_relabelled",
    "Irt.C104_onePL",
    "Irt.C104_outside_grid",
    "Irt.C104_default_false"
   ],
   "note": "The limit is proved for every model, batch and starting theta when the entropies are continuously differentiable and do not turn between the starting theta and the grid or beyond the end of the grid (C104_limit_partial); the scores never exceed the integral in any case. The documented claim without that condition is false with the default settings (C104_default_false): the starting theta is -10000 but the grid only covers [-7, 7], so the entropy peak of an item with difficulty below -7 is jumped over with every number of grid points (C104_outside_grid gives the missing amount). The entropy is the smoothed one that the code computes (`log2(p + 1e-10)`)."
  },
  {
   "property": "C105",
   "status": "partial",
   "theorems": [
    "Irt.C105_never_best",
    "Irt.C105_relabel",
    "Irt.C105_turn_round",
    "Irt.C105_twoPL_equal_slopes",
    "Irt.C105_threePL_equal_slopes",
    "Irt.C105_gpc_equal_slopes",
    "Irt.C105_tells_apart_false"
   ],
   "note": "Proved: invariance of the loss under renaming and turning round (C105_relabel, C105_turn_round). Disproved (C105_tells_apart_false): 2PL, 3PL and GPC start with every slope at 1, so the gradients of an item's slopes are the same on all latent variables, and so are their Adam states; all latent variables keep the same slopes after any number of epochs (C105_twoPL_equal_slopes, C105_threePL_equal_slopes, C105_gpc_equal_slopes) and the fitted model is a one-dimensional model in the sum of the latent scores. C105_never_best: data for which every such fit stays a fixed amount above the loss of another 2PL model. Exact arithmetic: in floating point only rounding breaks the tie. Relationship matrices that differ between items, GRM and NRM (random starting values) and JML (random thetas) are not affected and not covered."
  },
  {
   "property": "C106",
   "status": "partial",
   "theorems": [
    "Irt.C106_outer_product",
    "Irt.C106_hessian",
    "Irt.C106_cramer_rao",
    "Irt.C106_standard_error_partial",
    "Irt.C106_lower_bound",
    "Irt.C106_missing_ignored",
    "Irt.C106_twoPL",
    "Irt.C106_missing_false"
   ],
   "note": "Proved: for differentiable probabilities the test information is the expected outer product of the gradient, for twice continuously differentiable positive probabilities also minus the expected Hessian (both without hypotheses for the 2PL); the bound of Cramér and Rao; the squared ML standard error is the smallest variance of a locally unbiased statistic for respondents who answered every item, and a lower bound for every respondent. The full claim is false (C106_missing_false): `information` does not know which answers are missing, so a respondent who answered two of four items is reported the standard error of one who answered four, and standard errors are too small. Other latent variables are taken as known (C74 is about unknown ones)."
  },
  {
   "property": "C107",
   "status": "partial",
   "theorems": [
    "Irt.C107_onePL",
    "Irt.C107_twoPL",
    "Irt.C107_threePL_partial",
    "Irt.C107_gpc_partial",
    "Irt.C107_nrm",
    "Irt.C107_grm_partial",
    "Irt.C107_threePL_false",
    "Irt.C107_gpc_false"
   ],
   "note": "Proved in full for the 1PL, 2PL and nominal response models; for the 3PL under a nonzero slope, for partial credit and graded response items under at least two categories. Without these conditions the claim is false: a 3PL item with zero slope has many pairs of intercept and guessing parameter with the same curve (C107_threePL_false), and the slopes of an item with one category are reported although they have no effect (C107_gpc_false)."
  },
  {
   "property": "C108",
   "status": "partial",
   "theorems": [
    "Irt.C108_onePL_in_twoPL",
    "Irt.C108_twoPL_in_gpc",
    "Irt.C108_twoPL_in_grm",
    "Irt.C108_gpc_in_nrm",
    "Irt.C108_threePL_false",
    "Irt.C108_threePL_partial",
    "Irt.C108_mml_onePL",
    "Irt.C108_mml_twoPL",
    "Irt.C108_mml_gpc"
   ],
   "note": "1PL in 2PL, 2PL in partial credit and in graded response, partial credit in nominal response: proved, for the probabilities and for the marginal loss. The 3PL does not contain the 2PL (C108_threePL_false): its guessing parameter is a sigmoid and never zero; proved instead: there are 3PL models uniformly as close as one likes (C108_threePL_partial)."
  },
  {
   "property": "C109",
   "status": "partial",
   "theorems": [
    "Irt.C109_gpc",
    "Irt.C109_nrm",
    "Irt.C109_grm",
    "Irt.C109_onePL",
    "Irt.C109_twoPL",
    "Irt.C109_threePL",
    "Irt.C109_arguments",
    "Irt.C109_nested_partial",
    "Irt.C109_mix",
    "Irt.C109_any_data_false",
    "Irt.C109_own_intercepts_false",
    "Irt.C109_nominal_numbers_false",
    "Irt.C109_binary_checked_false",
    "Irt.C109_nested_distributions_false",
    "Irt.C109_monotone_polynomial",
    "Irt.C109_monotone_bspline_partial",
    "Irt.C109_monotone_bspline_false",
    "Irt.C109_surprisal",
    "Irt.C109_monotone_nn"
   ],
   "note": "Logistic, partial credit, graded, nominal, nested logit, monotone polynomial, monotone network, monotone B-spline and surprisal spline models from data in which every item was answered, and mixes: proved, for every later value of the parameters. Not true of all data that the documentation allows: an item without any answer coded NaN makes the partial credit constructor raise a RuntimeError (C109_any_data_false); coded -1 it gets zero categories, so that too few intercepts are allocated and the masked assignment gives all items the same one without an error (C109_own_intercepts_false), and the nominal model gives NaN (C109_nominal_numbers_false). The logistic models do not look at the answers (C109_binary_checked_false), and nested logit accepts a correct-response model with more than two categories, whose rows then do not sum to one (C109_nested_distributions_false). A monotone B-spline with separate functions for the categories and two latent variables is built but cannot be evaluated (C109_monotone_bspline_false)."
  },
  {
   "property": "C110",
   "status": "partial",
   "theorems": [
    "Irt.C110_transform",
    "Irt.C110_attached_unique",
    "Irt.C110_probabilities",
    "Irt.C110_scores",
    "Irt.C110_bit_partial",
    "Irt.C110_bit_refit_false",
    "Irt.C110_bit_second_false"
   ],
   "note": "The history part is proved in full. The bit scale part holds when nothing else is attached and the model is not trained again; otherwise it is false of the code: the scale keeps the orientation and starting theta of the parameters it was built with but reads the current item probabilities (`C110_bit_refit_false`), and attached after another scale it reads the probabilities at scores that are already transformed (`C110_bit_second_false`). Saving and loading is in C64."
  },
  {
   "property": "C111",
   "status": "partial",
   "theorems": [
    "Irt.C111_objective",
    "Irt.C111_epoch",
    "Irt.C111_fit",
    "Irt.C111_extreme",
    "Irt.C111_exists_iff",
    "Irt.C111_exists_false",
    "Irt.C111_unique_false",
    "Irt.C111_units",
    "Irt.C111_two_items",
    "Irt.C111_inconsistent",
    "Irt.C111_consistent_false"
   ],
   "note": "C111_objective: the loss of a batch is minus the log likelihood of its observed responses at the rows' own scores. C111_epoch, C111_fit: order of the batches, recorded losses and what is returned with the default batch size. C111_exists_iff: 1PL joint estimates exist and are unique up to a shift iff the data are well connected; C111_extreme: at a minimum everybody and every item has right and wrong answers; C111_units: stretching the scale changes no joint loss of the 2PL. C111_two_items: closed form with two items. C111_inconsistent: almost surely the estimated difference tends to twice the true one, for every ability distribution. Refuted: estimates always exist (C111_exists_false), are determined by the data (C111_unique_false), tend to the truth (C111_consistent_false). Missing: that the optimiser reaches the minimum (Adam is a parameter), bias with more than two items."
  },
  {
   "property": "C112",
   "status": "partial",
   "theorems": [
    "Irt.C112_lines",
    "Irt.C112_lines_scale",
    "Irt.C112_heights",
    "Irt.C112_groups",
    "Irt.C112_surfaces",
    "Irt.C112_colours",
    "Irt.C112_palette_false",
    "Irt.C112_palette_iff",
    "Irt.C112_gray",
    "Irt.C112_gray_distinct",
    "Irt.C112_gray_single_false"
   ],
   "note": "Proved: lines, heights summing to one, group markers, surfaces, and colours in turn after any session. Disagreements, proved as negations: a coloured surface figure of an item with more categories than the palette has colours lengthens plotly's global palette (`colors += ...`, C112_palette_false; C112_palette_iff says exactly when), and the gray of an item with a single category is zero divided by zero turned into an integer (C112_gray_single_false). Grays are distinct exactly up to 177 categories."
  },
  {
   "property": "C113",
   "status": "proved",
   "theorems": [
    "Irt.C113_adam_quiet",
    "Irt.C113_respondents",
    "Irt.C113_twoPL",
    "Irt.C113_threePL",
    "Irt.C113_gpc",
    "Irt.C113_empty_respondents"
   ],
   "note": "C113_respondents holds for every model family with positive probabilities (any optimiser); C113_twoPL, C113_threePL and C113_gpc add reordering of items, unanswered items and empty respondents. Leaving out unanswered items needs an optimiser that does not move entries with zero gradient; C113_adam_quiet shows this of Adam. For the default quasi Monte Carlo integration an empty respondent shifts the objective by the logarithm of the sum of the weights (C113_empty_respondents); the learning rate schedule compares losses relatively, so the path of the training is only claimed to be unchanged for Gauss-Hermite weights that sum to one."
  },
  {
   "property": "C114",
   "status": "partial",
   "theorems": [
    "Irt.C114_evaluation",
    "Irt.C114_same_row",
    "Irt.C114_variational",
    "Irt.C114_standard_size",
    "Irt.C114_bounded",
    "Irt.C114_own_answers",
    "Irt.C114_complete_partial",
    "Irt.C114_mean_false",
    "Irt.C114_interrupted_false",
    "Irt.C114_training_single",
    "Irt.C114_refused_false",
    "Irt.C114_other_fits"
   ],
   "note": "Proved: after a fit that returned, whatever was scored since and whichever fits of other objects failed, NN scores are computed row by row by the trained network from the respondent's own answers, and scoring leaves everything unchanged (C114_own_answers, C114_other_fits, C114_evaluation, C114_variational); sizes and bounds (C114_standard_size, C114_bounded). False: with AE and imputation_method=\"mean\", missing answers are filled with means over the respondents of the call (C114_mean_false; complete data: C114_complete_partial); after an interrupted second fit of the same object the encoder is left in training mode, where batch normalisation uses the respondents scored together (C114_interrupted_false) and a single respondent raises ValueError (C114_training_single); a refused fit has already replaced the encoder by an untrained one (C114_refused_false). How training changes the parameters is not modelled here (see C99)."
  },
  {
   "property": "C115",
   "status": "partial",
   "theorems": [
    "Irt.C115_ae",
    "Irt.C115_vae_partial",
    "Irt.C115_vae_single",
    "Irt.C115_vae_false",
    "Irt.C115_ae_small_batches",
    "Irt.C115_ae_untrained_false",
    "Irt.C115_ae_trains_partial"
   ],
   "note": "Proved: AE with batch normalisation never raises, for every number of respondents and batch size (C115_ae); VAE does not either if the batch size is above one and no single respondent is left for the last batch (C115_vae_partial). False for VAE otherwise: VAE.fit does not store batch_normalization, its loop skips no small batches, and batch normalisation refuses a batch of one respondent (C115_vae_false, C115_vae_single). AE makes at least one step with at least four respondents and a batch size of at least four (C115_ae_trains_partial); otherwise all batches are skipped and fit returns without any training or error (C115_ae_small_batches, C115_ae_untrained_false). The loss after the encoder and the optimiser are parameters."
  },
  {
   "property": "C116",
   "status": "partial",
   "theorems": [
    "Irt.C116_residuals",
    "Irt.C116_accuracy",
    "Irt.C116_predictions",
    "Irt.C116_infit_outfit",
    "Irt.C116_q3",
    "Irt.C116_mutual_information",
    "Irt.C116_groups_partial",
    "Irt.C116_groups_rescaled_partial",
    "Irt.C116_group_residuals_partial",
    "Irt.C116_log_likelihood",
    "Irt.C116_group_fit_partial",
    "Irt.C116_groups_false",
    "Irt.C116_group_fit_false"
   ],
   "note": "Proved for all permutations: residuals, accuracy, predictions, infit/outfit, Q3, mutual information and log-likelihood; for grouped evaluations only when the scores used for grouping differ between all respondents, and for group_fit_log_likelihood only without missing responses. False of the code otherwise: tied scores put different respondents into a group depending on the order (C116_groups_false), and group_fit_log_likelihood applies the unsorted mask of missing cells (evaluator.py 574-583) to the sorted data, so its result depends on the order (C116_group_fit_false)."
  },
  {
   "property": "C117",
   "status": "partial",
   "theorems": [
    "Irt.C117_history_partial",
    "Irt.C117_no_nan_partial",
    "Irt.C117_only_coding",
    "Irt.C117_default_data",
    "Irt.C117_default_scores",
    "Irt.C117_models",
    "Irt.C117_mutual_information_false",
    "Irt.C117_group_fit_false"
   ],
   "note": "Proved for all histories and all evaluations but two (C117_history_partial), for all evaluations when the data have no NaN (C117_no_nan_partial); earlier calls only change NaN to -1 (C117_only_coding); the defaults for data and scores (C117_default_data, C117_default_scores); the hypothesis on the model holds for the six item response models (C117_models). Disagreements with the code: residuals, q3 and scoring with an encoder write -1 over the NaN of the caller's tensor, and two evaluations treat the two codes differently. mutual_information_difference counts -1 as one more response and can raise a RuntimeError after residuals although it returned a table before (C117_mutual_information_false). group_fit_log_likelihood uses the mask of the unsorted respondents, so that an unmasked NaN raises IndexError before residuals and counts as the last category afterwards (C117_group_fit_false)."
  },
  {
   "property": "C118",
   "status": "partial",
   "theorems": [
    "Irt.C118_q3_level_partial",
    "Irt.C118_amid_level_partial",
    "Irt.C118_q3_runs",
    "Irt.C118_amid_runs",
    "Irt.C118_q3_level_false",
    "Irt.C118_amid_level_false"
   ],
   "note": "Proved with the bound (a S + 2)/(S + 1) for Q3 and (a S + 1)/(S + 1) for the mutual information difference, S simulated data sets, plus the probability that the statistic of the data equals that of a simulated data set or is undefined (C118_q3_level_partial, C118_amid_level_partial, by exchangeability); both tests return p-values in [0,1] for data from the model (C118_q3_runs, C118_amid_runs). Disagreements with the code: ties count as evidence against the model and an undefined Q3 has p-value zero, so that with two respondents tossing coins both tests at the five per cent level reject with probability at least 1/16 for every number of simulations (C118_q3_level_false, C118_amid_level_false). Estimated latent scores, missing responses (the simulated data are complete) and the rounding of the p-values are not covered."
  },
  {
   "property": "C119",
   "status": "partial",
   "theorems": [
    "Irt.C119_more_points",
    "Irt.C119_ranked_points",
    "Irt.C119_right_answers",
    "Irt.C119_common_slope",
    "Irt.C119_trait_at_score",
    "Irt.C119_onePL",
    "Irt.C119_twoPL",
    "Irt.C119_twoPL_traits",
    "Irt.C119_threePL",
    "Irt.C119_gpc_partial",
    "Irt.C119_gpc_trait_false",
    "Irt.C119_nrm_points",
    "Irt.C119_grm_points",
    "Irt.C119_polynomial_points",
    "Irt.C119_bspline_points",
    "Irt.C119_nn_points",
    "Irt.C119_onePL_points",
    "Irt.C119_twoPL_points",
    "Irt.C119_threePL_points"
   ],
   "note": "Proved for all nine models in the direction from the latent variable to the points (C119_*_points, C119_twoPL_traits, C119_gpc_partial first part; general form C119_more_points and C119_ranked_points). From the points to the latent variable it is proved for right/wrong items (C119_onePL, C119_twoPL, C119_threePL, by log-concavity of the score distribution) and for GPC models with a common slope (C119_gpc_partial); strictly when some slope is positive. Disagreement: with polytomous items of different slopes it is false: C119_gpc_trait_false has a GPC model with positive slopes in which respondents with two points have a lower mean latent score than those with one."
  },
  {
   "property": "C120",
   "status": "partial",
   "theorems": [
    "Irt.C120_refused",
    "Irt.C120_crash",
    "Irt.C120_completed",
    "Irt.C120_encoder",
    "Irt.C120_completes",
    "Irt.C120_same",
    "Irt.C120_retry",
    "Irt.C120_after_refused",
    "Irt.C120_stores_false",
    "Irt.C120_corrected_false",
    "Irt.C120_encoder_false",
    "Irt.C120_mode_false"
   ],
   "note": "The calls are modelled statement by statement with an interruption before any statement (Model/FitCrash). Proved: a refused call changes nothing of the model (C120_refused) and the next call does what it would have done (C120_after_refused); at every crash point the model keeps pointing to its old algorithm and has parameters after some number of updates (C120_crash, C120_completed); calls that are not refused complete (C120_completes); what a call does depends only on the parameters it starts from, the stored basis where it does not set it and, for VAE, the stored batch normalisation flag (C120_same), so any attempt can be repeated once the parameters are put back (C120_retry). Disagreements with the code: the data is stored before the arguments are checked, so a refused call stores its data and after the corrected call it is stored twice (C120_stores_false, C120_corrected_false); AE replaces the trained encoder before it checks its arguments (C120_encoder_false); an interrupted call leaves the model in training mode (C120_mode_false)."
  },
  {
   "property": "C121",
   "status": "partial",
   "theorems": [
    "Irt.C121_onePL_exists_iff",
    "Irt.C121_twoPL_exists_iff",
    "Irt.C121_gpc_iff",
    "Irt.C121_gpc_exists_iff",
    "Irt.C121_nrm_iff",
    "Irt.C121_nrm_exists_iff",
    "Irt.C121_minimum",
    "Irt.C121_item_total",
    "Irt.C121_onePL",
    "Irt.C121_onePL_no_minimum",
    "Irt.C121_twoPL",
    "Irt.C121_twoPL_slopes",
    "Irt.C121_twoPL_no_minimum",
    "Irt.C121_gpc",
    "Irt.C121_gpc_slopes",
    "Irt.C121_gpc_no_minimum",
    "Irt.C121_nrm",
    "Irt.C121_nrm_slopes",
    "Irt.C121_nrm_no_minimum",
    "Irt.C121_minimum_exists_false"
   ],
   "note": "C121_onePL and C121_twoPL (gradient zero iff observed and expected numbers agree), C121_gpc_iff and C121_nrm_iff the same for the intercepts of GPC and NRM, C121_item_total, the slope equations C121_twoPL_slopes, C121_gpc_slopes and C121_nrm_slopes, C121_minimum (a minimum has gradient zero) and the C121_*_no_minimum theorems (no minimum if an answer to an answered item was never given). C121_onePL_exists_iff, C121_twoPL_exists_iff, C121_gpc_exists_iff and C121_nrm_exists_iff: with the slopes held fixed, minimising intercepts exist exactly if every answer that an answered item allows was given. Partial because a user would expect estimates to exist: C121_minimum_exists_false shows that they do not for an item that everybody solved; the code neither refuses such data nor warns."
  },
  {
   "property": "C122",
   "status": "partial",
   "theorems": [
    "Irt.C122_step",
    "Irt.C122_buffers_mml",
    "Irt.C122_buffers_jml",
    "Irt.C122_buffers_ae",
    "Irt.C122_fit_fresh",
    "Irt.C122_frozen_kept",
    "Irt.C122_all_frozen",
    "Irt.C122_scoring",
    "Irt.C122_history_partial",
    "Irt.C122_window_false",
    "Irt.C122_frozen_false",
    "Irt.C122_stop_seen_partial",
    "Irt.C122_stop_seen_iff",
    "Irt.C122_stop_seen_false",
    "Irt.C122_item_buffer",
    "Irt.C122_probability_gradients_partial",
    "Irt.C122_information_partial",
    "Irt.C122_bit_flag",
    "Irt.C122_bit_later",
    "Irt.C122_bit_flag_false",
    "Irt.C122_score_gradients_partial",
    "Irt.C122_score_gradients_refused",
    "Irt.C122_flag_kept_false",
    "Irt.C122_vae_partial",
    "Irt.C122_information_se_partial",
    "Irt.C122_vae_trained",
    "Irt.C122_vae_false"
   ],
   "note": "Flags, gradient buffers and the gradient mode are part of the model (Model/Autograd). Proved: one iteration uses the derivative of its own loss only and leaves frozen entries alone (C122_step); trainings by MML, JML and autoencoders do not depend on the buffers (C122_buffers_*); without frozen parameters fit is the training without flags and buffers (C122_fit_fresh), also after any history of derivative and scoring calls (C122_history_partial); frozen parameters keep their values in a fit (C122_frozen_kept), all frozen raises (C122_all_frozen); the shared buffer of the loop over items gives every item its own derivatives (C122_item_buffer); gradients, information and standard errors are the same in every gradient mode for the lists of scales stated. Disagreements with the code: a scoring call interrupted between base_irt_model.py 800 and 814 leaves all parameters frozen, as the finally block reads a variable that does not exist yet, and the next fit raises (C122_window_false), the caller sees a NameError instead of what happened (C122_stop_seen_false); a completed scoring call unfreezes parameters the user froze, and the next fit moves them (C122_frozen_false); expected_item_score_gradients clears requires_grad of the caller's tensor (C122_flag_kept_false); on a bit scale probability_gradients and information raise for a tensor that requires a gradient although the values are fine (C122_bit_flag, C122_bit_flag_false), and for a bit scale attached after another scale (C122_bit_later); rescaled standard errors of a VAE with a flow or a link raise a RuntimeError because latent_scores runs under no_grad and the Jacobian calls backward (C122_vae_trained, C122_vae_false), so C74_variational holds in the code only without such scales."
  },
  {
   "property": "C123",
   "status": "partial",
   "theorems": [
    "Irt.C123_mml_loss",
    "Irt.C123_eap",
    "Irt.C123_ml_map",
    "Irt.C123_twoPL",
    "Irt.C123_gpc",
    "Irt.C123_grm",
    "Irt.C123_nrm",
    "Irt.C123_best_gpc",
    "Irt.C123_best_twoPL",
    "Irt.C123_best_nrm",
    "Irt.C123_best_grm",
    "Irt.C123_onePL_false",
    "Irt.C123_onePL_partial",
    "Irt.C123_onePL_mml_partial",
    "Irt.C123_threePL_false",
    "Irt.C123_gpc_rename_false",
    "Irt.C123_merge_grm",
    "Irt.C123_merge_gpc_false",
    "Irt.C123_merge_nrm_false",
    "Irt.C123_grm_rename_false"
   ],
   "note": "Reverse coding any items: the 2PL, GPC and GRM stay in their families with the slopes negated (C123_twoPL, C123_gpc, C123_grm; the GRM keeps ordered thresholds), the NRM allows any renaming (C123_nrm). A model that follows the new names gives the same MML loss (C123_mml_loss), EAP scores (C123_eap) and ML/MAP start and objective (C123_ml_map) on the recoded data. The best attainable MML loss is the same (C123_best_twoPL, C123_best_gpc, C123_best_grm, C123_best_nrm). Merging neighbouring categories works for the GRM (C123_merge_grm). Parts of the claim are false of the families as they are coded, each with a counterexample: reverse coding for the 1PL, whose slopes are all +1 (C123_onePL_false; true if every item is reversed and the latent variable turned round, C123_onePL_partial, and then the MML loss is unchanged for symmetric integration points, C123_onePL_mml_partial), reverse coding for the 3PL, where guessing has a floor only for answer 1 (C123_threePL_false), other renamings for GPC and GRM (C123_gpc_rename_false, C123_grm_rename_false), merging for GPC and NRM (C123_merge_gpc_false, C123_merge_nrm_false)."
  },
  {
   "property": "C124",
   "status": "proved",
   "theorems": [
    "Irt.C124_step",
    "Irt.C124_first_step",
    "Irt.C124_mml",
    "Irt.C124_lr",
    "Irt.C124_jml",
    "Irt.C124_ae",
    "Irt.C124_scale",
    "Irt.C124_fit",
    "Irt.C124_twoPL",
    "Irt.C124_threePL",
    "Irt.C124_gpc"
   ],
   "note": "One step: C124_step (after any history of derivatives and learning rates), exact first step C124_first_step. Loops: C124_mml, C124_jml, C124_ae, C124_scale (kept parameters, last parameters, parameters after an exception), learning rate C124_lr. Fitted models: C124_fit, C124_twoPL, C124_threePL, C124_gpc (MML from the constructor's starting values). Adam with amsgrad is the model of torch.optim.Adam of C105 (betas 0.9 and 0.999, eps 1e-8, no weight decay) over the reals."
  },
  {
   "property": "C125",
   "status": "partial",
   "theorems": [
    "Irt.C125_residuals",
    "Irt.C125_accuracy",
    "Irt.C125_predictions",
    "Irt.C125_infit_outfit",
    "Irt.C125_log_likelihood",
    "Irt.C125_q3_partial",
    "Irt.C125_mutual_information_partial",
    "Irt.C125_mml",
    "Irt.C125_mml_order",
    "Irt.C125_twoPL_partial",
    "Irt.C125_threePL_partial",
    "Irt.C125_gpc_partial",
    "Irt.C125_fit_false",
    "Irt.C125_q3_false",
    "Irt.C125_mutual_information_false",
    "Irt.C125_jml_start_partial",
    "Irt.C125_jml_start_false"
   ],
   "note": "Proved for residuals, accuracy, predictions, infit and outfit, mean log likelihoods and the MML loss. Q3 and the mutual information difference are proved for pairs of items that at least two respondents of both data sets answered: with a single such respondent Q3 is 0 but NaN after doubling the data, and the mutual information raises (C125_q3_false, C125_mutual_information_false). Fits agree for every optimiser that only looks at relative sizes of derivatives, in particular for Adam with amsgrad without the constant 1e-8; with the constant the fitted model depends on the number of respondents (C125_fit_false). The starting scores of JML differ by a factor, because they use the unbiased standard deviation (C125_jml_start_partial, C125_jml_start_false)."
  },
  {
   "property": "C126",
   "status": "partial",
   "theorems": [
    "Irt.C126_mml_loss",
    "Irt.C126_eap",
    "Irt.C126_ml_map",
    "Irt.C126_residuals",
    "Irt.C126_accuracy",
    "Irt.C126_infit_outfit",
    "Irt.C126_q3",
    "Irt.C126_mutual_information",
    "Irt.C126_predictions",
    "Irt.C126_log_likelihood",
    "Irt.C126_score_distribution",
    "Irt.C126_sum_score_probabilities",
    "Irt.C126_information",
    "Irt.C126_expected_scores",
    "Irt.C126_fit_and_score",
    "Irt.C126_jml_start",
    "Irt.C126_jml_start_false",
    "Irt.C126_jml_start_unanswered",
    "Irt.C126_mutual_information_unanswered_false"
   ],
   "note": "Reordering of items is proved for all the results named (residuals for data whose answers are categories, infit and outfit for probabilities that sum to one, rescaled information where the Jacobian is invertible); fitting and scoring for two parameter logistic models, with C113 as the step for the fit. Items nobody answered leave the MML loss and the EAP, ML and MAP scores alone, and for a fit too if the optimiser leaves parameters without gradient alone (Adam does). For two results the second half is false of the code: JML starts from NaN scores for everyone (C126_jml_start_false, C126_jml_start_unanswered) and the mutual information difference raises for all pairs (C126_mutual_information_unanswered_false). See also C106_missing_false for standard errors, which count missing answers as answered."
  },
  {
   "property": "C127",
   "status": "proved",
   "theorems": [
    "Irt.C127_mml",
    "Irt.C127_eap",
    "Irt.C127_eap_between"
   ],
   "note": "Complete answers are the cells of `fullAnswers`; the probabilities of the unanswered items add up to one, so the likelihood of a row with gaps is the sum over its completions."
  },
  {
   "property": "C128",
   "status": "proved",
   "theorems": [
    "Irt.C128_scores_exist",
    "Irt.C128_errors",
    "Irt.C128_calibrated",
    "Irt.C128_mean",
    "Irt.C128_pythagoras",
    "Irt.C128_best",
    "Irt.C128_more_items",
    "Irt.C128_spread"
   ],
   "note": "The population is the prior restricted to the points of the EAP grid (that is what the scores are posterior means of); for the limit of finer grids see C45_limit. The latent scores are drawn from the grid, the items are answered independently given them."
  },
  {
   "property": "C129",
   "status": "partial",
   "theorems": [
    "Irt.C129_mml_total",
    "Irt.C129_mml_truth",
    "Irt.C129_mml_points_false",
    "Irt.C129_log_likelihood_partial",
    "Irt.C129_log_likelihood_false",
    "Irt.C129_accuracy"
   ],
   "note": "Proved for the MML loss with integration rules whose weights have the same sum (always so for Gauss-Hermite, and for quasi Monte Carlo with the same points), for the log likelihood of models without impossible answers and for accuracy. False beyond: quasi Monte Carlo weights are densities that are not normalised (mml.py 287-316), so the loss falls when points are added, whatever the model (C129_mml_points_false); the evaluator counts an impossible answer as -30, more than a possible answer less likely than exp(-30), so a model that wrongly rules an answer out can have the larger expected log likelihood (C129_log_likelihood_false)."
  },
  {
   "property": "C130",
   "status": "partial",
   "theorems": [
    "Irt.C130_residuals_item",
    "Irt.C130_residuals_respondent",
    "Irt.C130_residuals_overall",
    "Irt.C130_residuals_zero",
    "Irt.C130_residuals_keyed_false",
    "Irt.C130_fit_items",
    "Irt.C130_fit_respondents"
   ],
   "note": "Averages over all data sets of residuals for every item, respondent and overall, and of infit and outfit. False part: for models with an answer key the residual is one minus the probability of the answer given, which averages one minus the sum of the squared probabilities, not zero (C130_residuals_keyed_false); the value is proved. Infit and outfit hold with and without an answer key."
  },
  {
   "property": "C131",
   "status": "partial",
   "theorems": [
    "Irt.C131_scores",
    "Irt.C131_joint",
    "Irt.C131_one_model_partial",
    "Irt.C131_gpc",
    "Irt.C131_nrm",
    "Irt.C131_mml_false",
    "Irt.C131_eap_blind",
    "Irt.C131_eap_false",
    "Irt.C131_vae_one_sample",
    "Irt.C131_vae_samples_false"
   ],
   "note": "ML, MAP and JML objectives are right for every mix (C131_scores, C131_joint), and a mix of one model is fitted and scored like the model (C131_one_model_partial); generalized partial credit and nominal response models qualify (C131_gpc, C131_nrm). False of the code for MML and EAP (C131_mml_false, C131_eap_false): ModelMix.log_likelihood concatenates the log likelihoods model by model (C10), so view(-1, items) puts log likelihoods of different respondents or quadrature points into one sum; C131_eap_blind: somebody who solves the only informative item and somebody who does not get the same EAP score. The documented ModelMix example fits with MML. A variational autoencoder is right with one sample per respondent (C131_vae_one_sample, the default) and wrong with several (C131_vae_samples_false): log likelihoods of different samples are added up."
  },
  {
   "property": "C132",
   "status": "proved",
   "theorems": [
    "Irt.C132_affinity",
    "Irt.C132_error",
    "Irt.C132_long_tests",
    "Irt.C132_twoPL",
    "Irt.C132_logit",
    "Irt.C132_onePL",
    "Irt.C132_gpc"
   ],
   "note": "C132_affinity and C132_error hold for every model with positive probabilities; C132_long_tests gives one number of items for all models whose items keep the affinities of grid points with different scores at or below a bound below one; C132_twoPL derives that bound from bounds on slopes and intercepts by compactness; C132_logit gives it, with an explicit rate, for every multinomial logit model, C132_onePL and C132_gpc in terms of item_parameters (C138_nrm gives the condition for the nominal response model). The score is the EAP score from the model's own code path (EapOf), the truth is drawn from the same grid."
  },
  {
   "property": "C133",
   "status": "proved",
   "theorems": [
    "Irt.C133_sample",
    "Irt.C133_expected_distance",
    "Irt.C133_probability",
    "Irt.C133_consistent",
    "Irt.C133_parameters",
    "Irt.C133_onePL_exists",
    "Irt.C133_onePL"
   ],
   "note": "C133_sample holds for every single sample; C133_expected_distance and C133_probability average over all samples of N complete rows; C133_consistent and C133_parameters are the limits; C133_onePL instantiates them (identification of the intercepts from the item proportions is proved) and C133_onePL_exists shows that estimates exist. The fit is assumed to reach a loss not larger than the loss of the true model; what the optimiser reaches is the subject of C49 and C124. Both models must use integration rules with the same sum of weights (see C129_mml_points_false)."
  },
  {
   "property": "C134",
   "status": "partial",
   "theorems": [
    "Irt.C134_total",
    "Irt.C134_mean",
    "Irt.C134_where",
    "Irt.C134_one_respondent",
    "Irt.C134_one_model_partial",
    "Irt.C134_cells_false",
    "Irt.C134_respondent_false",
    "Irt.C134_item_false",
    "Irt.C134_group_false"
   ],
   "note": "The totals and overall means are right (C134_total, C134_mean), as is everything for one respondent (C134_one_respondent) and for a mix of one model (C134_one_model_partial). The values per respondent, item, cell and group are wrong for several models and respondents (C134_respondent_false, C134_item_false, C134_cells_false, C134_group_false): the mix returns all values of the first model, then all of the second, and the evaluator cuts this list into rows of all items. C134_where says where each number ends up."
  },
  {
   "property": "C135",
   "status": "proved",
   "theorems": [
    "Irt.C135_share",
    "Irt.C135_monotone",
    "Irt.C135_gpc",
    "Irt.C135_probabilities",
    "Irt.C135_true_link",
    "Irt.C135_twoPL"
   ],
   "note": "For any models whose probabilities are proper tables (C135_probabilities, C135_true_link); the step from probabilities to scores is C135_twoPL with an explicit constant, C135_share and C135_monotone for all models whose common items tell scores apart, and C135_gpc. Whether training reaches a low loss is not part of the claim (C93 is about the training loop)."
  },
  {
   "property": "C136",
   "status": "proved",
   "theorems": [
    "Irt.C136_common_slope",
    "Irt.C136_populations",
    "Irt.C136_onePL",
    "Irt.C136_two_items",
    "Irt.C136_gpc",
    "Irt.C136_twoPL_false"
   ],
   "note": "C136_common_slope is the general statement (any number of latent variables), C136_onePL and C136_gpc the two families, C136_populations the statement about populations, C136_two_items the comparison of two items. C136_twoPL_false shows that the condition on the slopes is needed."
  },
  {
   "property": "C137",
   "status": "partial",
   "theorems": [
    "Irt.C137_log_likelihood",
    "Irt.C137_log_likelihood_masked",
    "Irt.C137_same_answers_partial",
    "Irt.C137_contiguous",
    "Irt.C137_repeated",
    "Irt.C137_batches",
    "Irt.C137_columns_false",
    "Irt.C137_mix_floats_partial",
    "Irt.C137_mix_integers",
    "Irt.C137_integers_false",
    "Irt.C137_written",
    "Irt.C137_not_written",
    "Irt.C137_caller",
    "Irt.C137_fit_caller",
    "Irt.C137_caller_false"
   ],
   "note": "Proved: latent_scores, the evaluations (contiguous), MML (repeat) and the data loaders (stack) never depend on the layout; a direct log_likelihood gives the value of the table or is refused, with the exact condition, so two layouts never give two values. False of the code: tables stored column after column are refused (C137_columns_false); a mix of models refuses 64-bit integers (C137_integers_false); whether a missing answer of the caller becomes -1 depends on the layout (C137_caller_false). Model: strides of dimensions of size one do not matter, as in torch; empty tensors count as contiguous."
  },
  {
   "property": "C138",
   "status": "proved",
   "theorems": [
    "Irt.C138_error",
    "Irt.C138_logit",
    "Irt.C138_long_tests",
    "Irt.C138_ml_scores",
    "Irt.C138_map_scores",
    "Irt.C138_twoPL",
    "Irt.C138_onePL",
    "Irt.C138_gpc",
    "Irt.C138_nrm"
   ],
   "note": "C138_error bounds the chance for every log-concave model (also graded response with ordered intercepts) by products of affinities; C138_logit is the explicit geometric bound, C138_long_tests the uniform number of items, C138_ml_scores and C138_map_scores the statement about the values returned. C138_onePL, C138_twoPL, C138_gpc and C138_nrm give the condition on the items in terms of item_parameters. That the optimiser stops where the gradient is zero is a hypothesis (as in C102)."
  },
  {
   "property": "C139",
   "status": "proved",
   "theorems": [
    "Irt.C139_sum",
    "Irt.C139_any_order",
    "Irt.C139_log_softmax",
    "Irt.C139_log_likelihood",
    "Irt.C139_logit_model",
    "Irt.C139_linear",
    "Irt.C139_twoPL",
    "Irt.C139_range",
    "Irt.C139_softmax",
    "Irt.C139_expected_score",
    "Irt.C139_mml_loss",
    "Irt.C139_eap",
    "Irt.C139_float32",
    "Irt.C139_order_matters"
   ],
   "note": "Model/Rounding has the formulas as relations over an arbitrary floating point arithmetic and arbitrary summation trees. C139_log_likelihood, C139_logit_model and C139_twoPL (from parameters and scores) bound the log likelihood, C139_float32 gives numbers; C139_linear, C139_softmax, C139_range, C139_expected_score, C139_mml_loss, C139_eap bound the others. C139_order_matters shows that the value does depend on the order. Arithmetic with cut-off binary digits meets all hypotheses (Lemmas/Truncation). Overflow to infinity and NaN are not in this model; underflow of whole posteriors is C103."
  },
  {
   "property": "C140",
   "status": "proved",
   "theorems": [
    "Irt.C140_gradient",
    "Irt.C140_scores_gradient",
    "Irt.C140_scores_objective",
    "Irt.C140_computed",
    "Irt.C140_answers",
    "Irt.C140_points",
    "Irt.C140_better_answers",
    "Irt.C140_parameters",
    "Irt.C140_twoPL",
    "Irt.C140_gpc",
    "Irt.C140_units"
   ],
   "note": "C140_scores_gradient and C140_scores_objective are about the scores that latent_scores returns with an arbitrary optimiser; C140_gradient and C140_computed are the statements for one respondent. C140_answers, C140_points, C140_better_answers, C140_twoPL, C140_gpc: other answers. C140_parameters: other item parameters. C140_units gives the meaning of the units for one latent variable with a standard normal prior. There is no such statement for ML scores, which may not exist (C102)."
  },
  {
   "property": "C141",
   "status": "proved",
   "theorems": [
    "Irt.C141_rule",
    "Irt.C141_rules_exist",
    "Irt.C141_expectation",
    "Irt.C141_loss_moving",
    "Irt.C141_loss",
    "Irt.C141_order",
    "Irt.C141_estimates",
    "Irt.C141_consistent",
    "Irt.C141_methods",
    "Irt.C141_onePL"
   ],
   "note": "Gauss-Hermite rules enter through numpy's documented exactness for polynomials of degree below 2n (ExactRules); C141_rules_exist constructs such rules for every n from Hermite polynomials, C141_rule derives distinct nodes and positive weights. C141_expectation is convergence of gauss_hermite in any dimension, by characteristic functions and Levy's continuity theorem; C141_loss(_moving), C141_order, C141_estimates, C141_consistent carry it to the MML loss and its minimisers, C141_onePL instantiates the 1PL model, C141_methods compares the two integration methods. Real arithmetic; the optimiser is not assumed to reach the minimum: the theorems about estimates speak of near minimisers."
  },
  {
   "property": "C142",
   "status": "proved",
   "theorems": [
    "Irt.C142_log_likelihood",
    "Irt.C142_marginal",
    "Irt.C142_choice",
    "Irt.C142_enough",
    "Irt.C142_own_scores_false"
   ],
   "note": "C142_log_likelihood and C142_marginal: Markov bound exp(-a) and the bound exp(-a/2 - N D^2/8) from the overlap of the distributions (Cauchy-Schwarz); C142_choice and C142_enough: union bound over finitely many models. C142_own_scores_false shows that the scores must not be estimated from the answers that enter the log likelihood, as evaluator.log_likelihood does by default (theta=None). Respondents answer every item; probabilities are sums over the finite set of all samples."
  },
  {
   "property": "C143",
   "status": "proved",
   "theorems": [
    "Irt.C143_twoPL",
    "Irt.C143_gpc",
    "Irt.C143_grm",
    "Irt.C143_nrm",
    "Irt.C143_onePL",
    "Irt.C143_onePL_unit_false",
    "Irt.C143_log_likelihood",
    "Irt.C143_ml_objective",
    "Irt.C143_mml_points",
    "Irt.C143_ml",
    "Irt.C143_map",
    "Irt.C143_training_covariance",
    "Irt.C143_map_origin_false",
    "Irt.C143_mml",
    "Irt.C143_best_gpc",
    "Irt.C143_quasi_mc_false",
    "Irt.C143_information"
   ],
   "note": "Families C143_twoPL, _gpc, _grm, _nrm (affine change of scale) and C143_onePL (origin); the parts of a naive reading that are false of the code are C143_onePL_unit_false, C143_map_origin_false and C143_quasi_mc_false and are excluded from the statement. The Cholesky routine is a parameter: C143_mml assumes that it returns T L for T C T^t when it returns L for C (true of lower triangular T with positive diagonal); C143_best_gpc only that it returns square roots in one dimension. Differentiability of the probabilities, which C143_information assumes, is GPC.differentiable for the partial credit model."
  },
  {
   "property": "C144",
   "status": "proved",
   "theorems": [
    "Irt.C144_mml",
    "Irt.C144_sample",
    "Irt.C144_expected_distance",
    "Irt.C144_consistent",
    "Irt.C144_eap_calibrated",
    "Irt.C144_eap_best",
    "Irt.C144_adaptive",
    "Irt.C144_other_reasons_false"
   ],
   "note": "Proved for every rule under which the probability of seeing just the answers z is a function of z (missing at random), for complete generality of models and rules (C144_mml, C144_sample, C144_expected_distance, C144_consistent, C144_eap_calibrated, C144_eap_best); C144_adaptive shows that every adaptive test is such a rule. The distance is that of the distributions of what is seen: what is never asked cannot be learned. C144_other_reasons_false: the condition is needed (respondents who skip what they do not know)."
  },
  {
   "property": "C145",
   "status": "partial",
   "theorems": [
    "Irt.C145_fresh",
    "Irt.C145_history",
    "Irt.C145_refit",
    "Irt.C145_mix_false",
    "Irt.C145_like_new_false"
   ],
   "note": "Proved for the parameters of the six families (C145_fresh, C145_history, C145_refit). Two parts of the claim are false: ModelMix.reset_parameters refers to weight_param and bias_param, which a mix does not have, and always raises AttributeError (C145_mix_false), and the algorithm and the attached scales survive a reset, so that EAP scoring after MML training and a reset raises although a new model scores (C145_like_new_false)."
  },
  {
   "property": "C146",
   "status": "proved",
   "theorems": [
    "Irt.C146_models",
    "Irt.C146_linear",
    "Irt.C146_twoPL",
    "Irt.C146_gpc",
    "Irt.C146_one_answer",
    "Irt.C146_answer_logit",
    "Irt.C146_answer_twoPL",
    "Irt.C146_marginal"
   ],
   "note": "Real arithmetic. The log odds form of the one-answer bound covers the logit families (1PL, 2PL, GPC, nominal response); C146_one_answer states it for any model."
  },
  {
   "property": "C147",
   "status": "proved",
   "theorems": [
    "Irt.C147_mean",
    "Irt.C147_keyed",
    "Irt.C147_population",
    "Irt.C147_difficulty",
    "Irt.C147_slope",
    "Irt.C147_item_slopes",
    "Irt.C147_common_slope",
    "Irt.C147_loss",
    "Irt.C147_onePL",
    "Irt.C147_gpc",
    "Irt.C147_twoPL"
   ],
   "note": "C147_mean and C147_keyed (mean and variance of conditional_score_distribution), C147_population and C147_difficulty (sum_score_probabilities, without an answer key), C147_slope (bound by the information, for differentiable probabilities), C147_item_slopes, C147_common_slope and C147_loss (logit models), C147_onePL, C147_gpc and C147_twoPL. Difficulties need items with at least two categories, torch divides by zero otherwise."
  },
  {
   "property": "C148",
   "status": "partial",
   "theorems": [
    "Irt.C148_slope_partial",
    "Irt.C148_transform_partial",
    "Irt.C148_below_start",
    "Irt.C148_below_start_flat",
    "Irt.C148_below_start_false"
   ],
   "note": "`C148_slope_partial`: slope of the documented integral. `C148_transform_partial`: slope of the score `transform` returns, inside a grid cell in which no entropy turns. `C148_below_start` and `C148_below_start_flat`: below the starting theta scores are zero. Missing part is false: `C148_below_start_false` (two Rasch items, starting theta 5, latent score -1: scores constant, reported slope above 0.19). Standard errors rescaled with this Jacobian are therefore positive for respondents below the starting theta, although their bit score is a constant."
  },
  {
   "property": "C149",
   "status": "proved",
   "theorems": [
    "Irt.C149_scale",
    "Irt.C149_density",
    "Irt.C149_log_likelihood",
    "Irt.C149_respondents",
    "Irt.C149_components",
    "Irt.C149_one_component",
    "Irt.C149_one_component_scale",
    "Irt.C149_fresh_false"
   ],
   "note": "Proved for every start expressed on the new scale (C149_scale, C149_density, C149_log_likelihood), for reordered respondents and components (C149_respondents, C149_components), and for new mixtures with one component (C149_one_component, C149_one_component_scale). False for new mixtures with two components (C149_fresh_false): scores -1 and 1 give weights one half, scores 9 and 11 with the same draws do not. So the density that approximate_latent_density fits depends on where the latent scale has its origin."
  },
  {
   "property": "C150",
   "status": "proved",
   "theorems": [
    "Irt.C150_corresponding",
    "Irt.C150_respondents",
    "Irt.C150_same_answers",
    "Irt.C150_same_answers_default",
    "Irt.C150_onePL",
    "Irt.C150_batches_false",
    "Irt.C150_twoPL",
    "Irt.C150_gpc"
   ],
   "note": "Proved for the default batch size (C150_corresponding, C150_respondents, C150_same_answers, C150_same_answers_default, C150_onePL, C150_twoPL, C150_gpc). False for smaller batches (C150_batches_false): after one epoch with Adam and batches of one, two respondents who both solved the only item differ by more than 0.01. Disagreement with the code: batches are processed one after the other, with momentum for respondents outside the batch."
  },
  {
   "property": "C151",
   "status": "proved",
   "theorems": [
    "Irt.C151_default_false",
    "Irt.C151_sample",
    "Irt.C151_probability",
    "Irt.C151_consistent",
    "Irt.C151_parameters",
    "Irt.C151_onePL"
   ],
   "note": "C151_sample bounds, for one sample and a truth of any kind, the distance of the fit's distribution of answers from the truth by Pearson's distance of the frequencies and the error of the rule at the true parameters; C151_probability averages over samples; C151_consistent and C151_parameters are the limits, with the number of points chosen before the risk and the number of respondents; C151_onePL proves identification in the normal population. C151_default_false: with the default method, one item and a positive intercept the best intercepts within wide bounds are below a number smaller than the true intercept with probability tending to one (disagreement with what a user expects of a consistent estimator; the documentation promises an approximation of the integral over the normal distribution). As in C133 the fit is assumed to reach a loss not above that of the true parameters (what an optimiser that finds a minimum does), rows are complete and numbers are real."
  },
  {
   "property": "C152",
   "status": "proved",
   "theorems": [
    "Irt.C152_neighbourhood",
    "Irt.C152_scores",
    "Irt.C152_onePL",
    "Irt.C152_onePL_map",
    "Irt.C152_precision",
    "Irt.C152_long_test"
   ],
   "note": "Real arithmetic. That the EAP grid misses latent scores between and beyond its points (C104, C132) is not part of the comparison: both models are scored on the same grid, and the mean squared error is that of a population on the grid."
  },
  {
   "property": "C153",
   "status": "proved",
   "theorems": [
    "Irt.C153_population",
    "Irt.C153_consistent",
    "Irt.C153_parameters",
    "Irt.C153_gpc",
    "Irt.C153_onePL",
    "Irt.C153_two_groups"
   ],
   "note": "Real arithmetic. The 1PL result needs the variance the fit assumes, since the unit of a 1PL is not a convention (C143_onePL_unit_false). Convergence of the parameters is proved for families with determined parameters (C153_parameters), of which the 1PL is the instance; for partial credit the distribution of the answers is proved to converge."
  },
  {
   "property": "C154",
   "status": "proved",
   "theorems": [
    "Irt.C154_identified",
    "Irt.C154_twoPL",
    "Irt.C154_scores",
    "Irt.C154_groups",
    "Irt.C154_exists",
    "Irt.C154_signs",
    "Irt.C154_two_items_false"
   ],
   "note": "Identification by single crossing: of two items that are answered rightly equally often the steeper one has more right answers in common with a third item. At least three items and positive slopes are needed (C154_two_items_false, C154_signs)."
  },
  {
   "property": "C155",
   "status": "proved",
   "theorems": [
    "Irt.C155_identified",
    "Irt.C155_grm",
    "Irt.C155_scores",
    "Irt.C155_exists",
    "Irt.C155_groups"
   ],
   "note": "By the first category boundary of every item (moments_identified of C154), then the other boundaries one by one. The intercepts are kept apart by a positive gap, as the code does not order them by itself (C04)."
  },
  {
   "property": "C156",
   "status": "proved",
   "theorems": [
    "Irt.C156_identified",
    "Irt.C156_parameters",
    "Irt.C156_scores",
    "Irt.C156_groups",
    "Irt.C156_exists"
   ],
   "note": "Identification is proved from the moments of items that measure the same latent variable. The covariance matrix is the one handed to the algorithm: it is not estimated, as in the code. Estimates are restricted to compact bounds and compared with the truth by their loss; the optimiser's path is not part of this claim."
  },
  {
   "property": "C157",
   "status": "proved",
   "theorems": [
    "Irt.C157_twoPL",
    "Irt.C157_gpc",
    "Irt.C157_grm",
    "Irt.C157_nrm",
    "Irt.C157_any_axis",
    "Irt.C157_slopes_false",
    "Irt.C157_signs"
   ],
   "note": "The statement is about the exact distribution of the answers. The loss with finitely many Gauss-Hermite points is not the same for turned axes, since the points are not turned. That the slopes are determined by the answers of two latent variables is refuted by C157_slopes_false."
  },
  {
   "property": "C158",
   "status": "proved",
   "theorems": [
    "Irt.C158_scores",
    "Irt.C158_twoPL_scores",
    "Irt.C158_sample",
    "Irt.C158_probability",
    "Irt.C158_parameters",
    "Irt.C158_identified",
    "Irt.C158_twoPL",
    "Irt.C158_exists",
    "Irt.C158_two_items_false",
    "Irt.C158_grm_identified",
    "Irt.C158_grm",
    "Irt.C158_single",
    "Irt.C158_grm_single"
   ],
   "note": "All respondents come from the same normal population; groups that get different booklets and have different means are not covered (see C153). Estimates are compared with the truth by their loss within compact bounds; the optimiser's path is not part of this claim."
  },
  {
   "property": "C159",
   "status": "proved",
   "theorems": [
    "Irt.C159_scores",
    "Irt.C159_identified",
    "Irt.C159_variance",
    "Irt.C159_mean",
    "Irt.C159_onePL",
    "Irt.C159_exists",
    "Irt.C159_single"
   ],
   "note": "The slopes of the 1PL model are fixed at one (one_parameter_logistic.py), so the variance of the population is a property of the data that the covariance_matrix argument of MML.fit must state. Estimates are compared with the truth by their loss within compact bounds; the optimiser's path is not part of this claim."
  },
  {
   "property": "C160",
   "status": "proved",
   "theorems": [
    "Irt.C160_same",
    "Irt.C160_confounded",
    "Irt.C160_twoPL"
   ],
   "note": "A limit of the code, proved as it is: MML.fit has no argument for groups. The estimates are compared by their loss with the parameters on the groups' own scales within compact bounds. Designs with items common to groups are not covered."
  },
  {
   "property": "C161",
   "status": "partial",
   "theorems": [
    "Irt.C161_bound",
    "Irt.C161_any_weights",
    "Irt.C161_gauss_hermite",
    "Irt.C161_complete",
    "Irt.C161_quasi_mc_false"
   ],
   "note": "Proved for every integration rule whose weights add up to one (C161_bound), which Gauss-Hermite rules do (C161_gauss_hermite); C161_complete gives the floor for data without missing answers. False for the equidistant grid (integration_method quasi_mc): its weights are densities that are not normalised, so that with enough points the loss of one respondent with one answer falls below the floor of zero (C161_quasi_mc_false); for any weights the floor is lower by the number of respondents times the logarithm of their sum (C161_any_weights)."
  },
  {
   "property": "C162",
   "status": "proved",
   "theorems": [
    "Irt.C162_item",
    "Irt.C162_merging",
    "Irt.C162_directional",
    "Irt.C162_standard_errors",
    "Irt.C162_grm"
   ],
   "note": "C162_item is the inequality between the Fisher informations of one item, C162_merging the outputs of `information` for items and test without rescaling, C162_directional the same with degrees, C162_standard_errors the reported standard errors of the scores and the asymptotic ones, C162_grm the graded response model with the merged model of C123. Uses that a probability that is zero has slope zero. A merged model is one whose probabilities add up, not one fitted to merged data."
  },
  {
   "property": "C163",
   "status": "proved",
   "theorems": [
    "Irt.C163_sum_score",
    "Irt.C163_twoPL",
    "Irt.C163_onePL"
   ],
   "note": "C163_sum_score is the inequality for all models with differentiable probabilities, C163_twoPL says for the 2PL model in which directions the two are equal, C163_onePL is the equality of the matrices for the 1PL model. The information in the sum score is `fisherInformation` of the returned list, as a function of the latent scores; otherwise inequality and equality are between the quadratic forms of the matrices, which are symmetric."
  }
 ]
}