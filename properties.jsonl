{"id": "C01", "title": "Category probabilities of logit-based models form a distribution", "statement": "item_probabilities of a logit-based model (1PL, 2PL, generalized partial credit, nominal response, monotone polynomial / neural net / B-spline) returns for every respondent and every item numbers in [0,1] that sum to exactly one, gives probability zero to every category index an item does not have and a strictly positive probability to every category it does have.", "quantifier": "every parameter vector, every latent trait vector, every list of item category counts", "why_tests_cant": "parameters and latent scores range over a continuum and item layouts are unbounded; a test only samples some of them", "anchors": ["irtorch/models/base_irt_model.py: BaseIRTModel.probabilities_from_output, item_probabilities", "irtorch/models/generalized_partial_credit.py: forward", "irtorch/models/nominal_response.py: forward"]}
{"id": "C02", "title": "log_likelihood is the log probability of exactly the observed responses", "statement": "log_likelihood(data, output) with a missing mask equals the sum over the observed cells of log item_probabilities at the response given; missing cells contribute nothing whatever value they hold, and with loss_reduction='none' cell (i,j) of the result is the log probability of cell (i,j) of the data and NaN exactly where the mask is set. With loss_reduction='mean' the result is that sum divided by the number of observed cells; a response of -100 counts as missing.", "quantifier": "every data matrix, every missing pattern, every model output", "why_tests_cant": "masking patterns are exponential in the data size and alignment errors only show on particular patterns", "anchors": ["irtorch/models/base_irt_model.py: BaseIRTModel.log_likelihood", "irtorch/models/three_parameter_logistic.py: log_likelihood", "irtorch/models/graded_response.py: log_likelihood"]}
{"id": "C03", "title": "1PL/2PL/3PL implement the logistic response functions", "statement": "The success probability reported by the 1PL, 2PL and 3PL models is sigmoid(theta+d), sigmoid(a.theta+d) and c+(1-c)sigmoid(a.theta+d) in the parameters returned by item_parameters; it is strictly increasing in a latent trait with positive slope, and for the 3PL lies strictly between the guessing parameter and 1.", "quantifier": "every parameter value and every latent trait vector", "why_tests_cant": "a statement over all reals including limits of the parameter space", "anchors": ["irtorch/models/one_parameter_logistic.py: forward, item_parameters", "irtorch/models/two_parameter_logistic.py: forward, item_parameters", "irtorch/models/three_parameter_logistic.py: forward, probabilities_from_output, item_parameters"]}
{"id": "C04", "title": "Graded response probabilities are valid probabilities", "statement": "GradedResponse.item_probabilities returns for every item numbers summing to one that are nonnegative, with zero for categories the item lacks.", "quantifier": "every parameter vector reachable by training (any real values), every latent trait vector", "why_tests_cant": "the failure only appears for threshold parameters in the wrong order, which a fresh model never has but an unconstrained optimiser can reach", "anchors": ["irtorch/models/graded_response.py: forward, probabilities_from_output, reset_parameters"]}
{"id": "C05", "title": "Generalized partial credit matches its documented formula", "statement": "GeneralizedPartialCredit gives P(X=x) proportional to exp(x*a.theta + sum_{m<=x} d_m) with a and d as returned by item_parameters, for every category of every item.", "quantifier": "every parameter vector, latent trait vector and number of categories", "why_tests_cant": "two-category items and zero intercepts satisfy both readings; distinguishing them needs the general case", "anchors": ["irtorch/models/generalized_partial_credit.py: class docstring, forward, item_parameters"]}
{"id": "C06", "title": "Nominal response parameters are sum-to-zero and identified", "statement": "In NominalResponse the slopes over the categories of an item sum to zero and so do the intercepts, for every parameter vector; two parameter vectors that give the same probabilities at every latent trait value are equal.", "quantifier": "every pair of parameter vectors, every number of categories and latent variables", "why_tests_cant": "uniqueness over all parameter vectors cannot be sampled", "anchors": ["irtorch/models/nominal_response.py: forward, item_parameters"]}
{"id": "C07", "title": "Nested logit is a proper distribution nested in the correct-response model", "statement": "NestedLogit.item_probabilities puts exactly the correct-response model's success probability on the keyed category, shares the rest among the other categories of the item in the proportions given by the incorrect-response model, puts zero on categories the item lacks and sums to one.", "quantifier": "every key, every category count, every success probability and every incorrect-response distribution", "why_tests_cant": "the index map from incorrect responses to categories must be right for every key and every ragged item layout", "anchors": ["irtorch/models/nested_logit.py: __init__, forward, item_probabilities"]}
{"id": "C08", "title": "Surprisal splines define a proper and ordered distribution", "statement": "SurprisalSpline.item_probabilities are nonnegative, sum to one, are zero for categories an item lacks, and P(X<=x) = exp(-sum of the surprisals of the steps above x), so that P(X>=x) does not decrease when the surprisals (hence the spline basis tail sums) do not decrease.", "quantifier": "every coefficient vector, every basis value, every number of categories", "why_tests_cant": "products over an unbounded number of categories and all real coefficients", "anchors": ["irtorch/models/surprisal_spline.py: forward, probabilities_from_output"]}
{"id": "C09", "title": "ModelMix concatenates its models", "statement": "ModelMix.item_probabilities is the item-wise concatenation of the component models' probabilities padded with zeros, each item still sums to one, and with loss_reduction='sum' its log_likelihood is the sum of the components' log likelihoods on their own items.", "quantifier": "any number of component models with any item and category counts", "why_tests_cant": "offset arithmetic must be right for every list of component sizes", "anchors": ["irtorch/models/model_mix.py: forward, probabilities_from_output, _pad_and_concat, log_likelihood"]}
{"id": "C10", "title": "Per-response log likelihood of a ModelMix belongs to the right respondent", "statement": "With loss_reduction='none', reshaping the ModelMix log likelihood to (respondents, items), as MML, JML, EAP and the evaluator do, puts the log likelihood of respondent i on item j at (i,j).", "quantifier": "any number of respondents and component models", "why_tests_cant": "a single respondent or a single component hides the layout error; totals over all cells are unaffected", "anchors": ["irtorch/models/model_mix.py: log_likelihood", "irtorch/estimation_algorithms/mml.py: _train_step", "irtorch/evaluator.py: log_likelihood"]}
{"id": "C11", "title": "Monotone polynomials are strictly increasing", "statement": "With positive directions the polynomial computed by MonotonePolynomialModule has a derivative that is positive everywhere, so its output is strictly increasing in its input whatever the unconstrained parameters.", "quantifier": "every odd degree, every real parameter vector, every real input", "why_tests_cant": "positivity of a polynomial on the whole line for all parameters and all degrees", "anchors": ["irtorch/torch_modules/monotone_polynomial.py: MonotonePolynomialModule.forward"]}
{"id": "C12", "title": "Reported polynomial coefficients are the ones used", "statement": "get_polynomial_coefficients returns the coefficients of the polynomial that forward evaluates.", "quantifier": "every odd degree and every parameter vector", "why_tests_cant": "they coincide for degree one; all degrees and parameters must be covered", "anchors": ["irtorch/torch_modules/monotone_polynomial.py: MonotonePolynomialModule.get_polynomial_coefficients, forward"]}
{"id": "C13", "title": "Monotone models are monotone in the latent trait", "statement": "In MonotoneNN, MonotonePolynomial and MonotoneBSpline without negative relationships, increasing a latent trait never decreases the expected item score of an ordered item, nor P(X>=x) for any x; with mc_correct it never decreases the probability of the correct category.", "quantifier": "every weight vector, every network width, every latent trait pair", "why_tests_cant": "monotonicity is a statement about all pairs of points and all weights", "anchors": ["irtorch/models/monotone_nn.py: forward, _split_activation", "irtorch/models/monotone_polynomial.py: forward", "irtorch/models/monotone_b_spline.py: forward", "irtorch/torch_modules/softplus_linear.py: forward"]}
{"id": "C14", "title": "BoundedELU is increasing, bounded and differentiated correctly", "statement": "BoundedELU is continuous, nondecreasing, odd, stays strictly within (-1-alpha, 1+alpha), and its hand-written backward pass returns its derivative.", "quantifier": "every real input and every alpha (alpha=1 for the derivative at the joints)", "why_tests_cant": "custom autograd code is only compared with finite differences at sample points", "anchors": ["irtorch/activation_functions.py: BoundedELUFunction"]}
{"id": "C15", "title": "SoftplusLinear keeps groups separate and respects masks", "statement": "SoftplusLinear with separate groups never lets an input of one group influence an output of another, has nonnegative weights, is nondecreasing in every input, and yields exactly zero on zeroed outputs.", "quantifier": "every raw weight, every layout of groups, every input", "why_tests_cant": "block index arithmetic over arbitrary sizes", "anchors": ["irtorch/torch_modules/softplus_linear.py: SoftplusLinear.__init__, forward, separate_weights"]}
{"id": "C16", "title": "Items without a relationship to a latent variable ignore it", "statement": "When item_theta_relationships[j,k] is False, the probabilities of item j do not change with latent variable k; every free parameter is used by exactly one item.", "quantifier": "every boolean relationship matrix, every parameter vector, every pair of latent trait vectors", "why_tests_cant": "the parameter scatter must be right for every boolean matrix", "anchors": ["irtorch/models/two_parameter_logistic.py: forward", "irtorch/models/generalized_partial_credit.py: forward", "irtorch/models/nominal_response.py: forward", "irtorch/models/graded_response.py: forward"]}
{"id": "C17", "title": "Expected scores stay in range", "statement": "expected_scores of an item lies between 0 and its highest score (0 and 1 with an answer key), the expected sum score between 0 and the maximum sum score, and population_difficulty between 0 and 1.", "quantifier": "every valid probability table, key, and category layout", "why_tests_cant": "range claims over a continuum of probability tables", "anchors": ["irtorch/models/base_irt_model.py: expected_scores, population_difficulty"]}
{"id": "C18", "title": "Constructors only accept answer keys that exist", "statement": "Model construction with mc_correct raises ValueError unless there is one key per item and each key is one of the item's categories.", "quantifier": "every list of category counts and keys", "why_tests_cant": "boundary and length mismatches are easily missed by tests", "anchors": ["irtorch/models/base_irt_model.py: BaseIRTModel.__init__", "irtorch/models/nested_logit.py: __init__"]}
{"id": "C19", "title": "inverse_transform_theta undoes transform_theta", "statement": "For invertible scale transformations attached in any order, inverse_transform_theta(transform_theta(theta)) = theta.", "quantifier": "every list of invertible scales and every theta", "why_tests_cant": "one scale, or scales that commute, hide the order of application", "anchors": ["irtorch/models/base_irt_model.py: transform_theta, inverse_transform_theta, add_scale_transformation"]}
{"id": "C20", "title": "theta_transform_jacobian is the Jacobian of transform_theta", "statement": "theta_transform_jacobian returns the derivative of the composed transformation whenever each scale returns its own derivative.", "quantifier": "every list of differentiable scales and every theta", "why_tests_cant": "matrix order errors vanish for commuting Jacobians", "anchors": ["irtorch/models/base_irt_model.py: theta_transform_jacobian"]}
{"id": "C21", "title": "The rational quadratic spline is an increasing bijection with a correct inverse", "statement": "For every parameter vector the spline transformation is continuous and strictly increasing on the whole line, maps the knots to the knots, and its inverse mode undoes the forward mode.", "quantifier": "every number of bins, every real parameter vector, every input inside and outside the bounds", "why_tests_cant": "the inverse solves a quadratic in every bin; agreement must hold for all bins and parameters", "anchors": ["irtorch/torch_modules/rational_quadratic_spline.py: forward, inverse, _spline_transform, _rational_quadratic_spline"]}
{"id": "C22", "title": "The spline's log-determinant is the log of its derivative", "statement": "The log|det| returned with the transformed value is the logarithm of the derivative of the transformation at the input.", "quantifier": "every parameter vector, every input (inside and outside the bounds)", "why_tests_cant": "outside the bounds only particular defaults reveal a wrong constant", "anchors": ["irtorch/torch_modules/rational_quadratic_spline.py: _spline_transform", "irtorch/torch_modules/neural_spline_flow.py: forward"]}
{"id": "C23", "title": "Flow rescaling round-trips and reports its derivative", "statement": "After fitting, Flow.inverse(Flow.transform(theta)) = theta, transform preserves the order of latent scores in each dimension and using it before fit raises ValueError.", "quantifier": "every fitted parameter set and every theta", "why_tests_cant": "composition of standardisation and spline for all inputs", "anchors": ["irtorch/rescale/flow.py: transform, inverse, jacobian"]}
{"id": "C24", "title": "Reverse and Rotate are invertible with the stated Jacobian", "statement": "Reverse is an involution and Rotate.inverse undoes Rotate.transform for an invertible rotation matrix; the returned jacobian is the derivative of the transformation.", "quantifier": "every theta, every reversal pattern, every invertible matrix, every dimension", "why_tests_cant": "all dimensions and matrices", "anchors": ["irtorch/rescale/reverse.py: Reverse", "irtorch/rescale/rotate.py: Rotate"]}
{"id": "C25", "title": "LinkCommonItems.inverse undoes transform", "statement": "LinkCommonItems.inverse(LinkCommonItems.transform(theta)) = theta for the spline method whether or not the two models measure the trait in the same direction.", "quantifier": "every fitted spline and both orientations", "why_tests_cant": "an odd spline (e.g. the initial one) hides the sign error", "anchors": ["irtorch/rescale/link_common_items.py: transform, inverse, _get_inverted_scale_multiplier"]}
{"id": "C26", "title": "LinkCommonItems.jacobian is the derivative of its transform", "statement": "LinkCommonItems.jacobian returns the derivative of transform for both linking methods.", "quantifier": "every fitted network or spline and every theta", "why_tests_cant": "linear networks hide the missing activation", "anchors": ["irtorch/rescale/link_common_items.py: jacobian, transform"]}
{"id": "C27", "title": "RankCDF preserves order and stays finite", "statement": "RankCDF.transform never reverses the order of two latent scores, maps into the open range of the target distribution (so values are finite), and sends each training score to the quantile of its average rank.", "quantifier": "every training sample (with ties), every new theta", "why_tests_cant": "ties and between-sample values are unbounded in number", "anchors": ["irtorch/rescale/rank_cdf.py: __init__, transform"]}
{"id": "C28", "title": "Bit scores are zero at the start and increase along the latent trait", "statement": "Bit scores are nonnegative, zero at and below the starting theta, nondecreasing in the (orientation adjusted) latent trait, and at least as large as the net change in item entropy; refining the grid never decreases them.", "quantifier": "every model, every grid, every set of latent scores", "why_tests_cant": "cumulative sums over arbitrary grids and arbitrary entropy curves", "anchors": ["irtorch/rescale/bit.py: transform, transform_to_1D, _compute_1d_bit_scores, _compute_multi_dimensional_bit_scores"]}
{"id": "C29", "title": "Bit scores of a respondent do not depend on the other respondents", "statement": "transform(theta)[i] equals transform(theta[i:i+1])[0].", "quantifier": "every batch of latent scores", "why_tests_cant": "only batches whose other rows refine the grid where entropy is not monotone reveal the dependence", "anchors": ["irtorch/rescale/bit.py: _compute_multi_dimensional_bit_scores"]}
{"id": "C30", "title": "Bit Jacobian covers the item subset", "statement": "Bit.jacobian works for every nonempty subset of items given at construction and equals the sum of the absolute entropy derivatives over that subset.", "quantifier": "every subset of items", "why_tests_cant": "the full item set hides the missing subsetting", "anchors": ["irtorch/rescale/bit.py: jacobian"]}
{"id": "C31", "title": "Fisher information is a positive semidefinite, additive matrix", "statement": "information(item=True) is symmetric positive semidefinite for every item, directional information is nonnegative, the test information is the sum of the item informations, and for the 2PL it equals a a' p(1-p).", "quantifier": "every model with positive probabilities, every theta and direction", "why_tests_cant": "definiteness quantifies over all directions", "anchors": ["irtorch/models/base_irt_model.py: information", "irtorch/models/two_parameter_logistic.py: forward"]}
{"id": "C32", "title": "Rescaled gradients obey the chain rule", "statement": "Gradients returned on the transformed scale are the original gradients times the inverse Jacobian, so information on the transformed scale equals J^{-T} I J^{-1}.", "quantifier": "every invertible Jacobian and gradient", "why_tests_cant": "all matrices and dimensions", "anchors": ["irtorch/models/base_irt_model.py: _rescale_gradients, information"]}
{"id": "C33", "title": "conditional_score_distribution is the distribution of the sum score", "statement": "conditional_score_distribution(probabilities, item_categories) gives, for every score s, the sum over all response patterns with total s of the product of the item probabilities; it sums to one.", "quantifier": "any number of items, any ragged category layout, any probabilities", "why_tests_cant": "the pattern space grows exponentially with the number of items", "anchors": ["irtorch/_internal_utils.py: conditional_score_distribution", "irtorch/evaluator.py: sum_score_probabilities"]}
{"id": "C34", "title": "One-hot encoding is faithful", "statement": "one_hot_encode_test_data gives, for each respondent and item, a block with a single one at the response, or all zeros if the response is missing, and the responses can be decoded from it; a response at or above the item's category count, or a category list of the wrong length, is rejected.", "quantifier": "every data matrix and category layout", "why_tests_cant": "offsets into ragged blocks must be right for all layouts", "anchors": ["irtorch/_internal_utils.py: one_hot_encode_test_data", "irtorch/irt_dataset.py: PytorchIRTDataset"]}
{"id": "C35", "title": "Library calls do not modify the caller's data", "statement": "one_hot_encode_test_data, latent_scores, Evaluator.residuals and fitting leave the data tensor passed by the caller unchanged.", "quantifier": "every data matrix, every call sequence", "why_tests_cant": "aliasing through .to/.contiguous depends on dtype, device and layout; only data with missing values reveals it", "anchors": ["irtorch/_internal_utils.py: one_hot_encode_test_data", "irtorch/models/base_irt_model.py: latent_scores", "irtorch/evaluator.py: residuals", "irtorch/irt_dataset.py: __init__"]}
{"id": "C36", "title": "Imputation only touches missing cells and leaves none", "statement": "impute_missing leaves every observed response unchanged; afterwards no cell is missing (for mean imputation: in every column with an observation), mean imputation keeps column means, and random incorrect imputation never imputes the keyed category.", "quantifier": "every data matrix, missing pattern, key and random draw", "why_tests_cant": "random draws and missing patterns cannot be enumerated", "anchors": ["irtorch/_internal_utils.py: impute_missing_internal", "irtorch/utils.py: impute_missing"]}
{"id": "C37", "title": "Random incorrect imputation is usable with a model", "statement": "impute_missing(data, method='random incorrect', model=m) succeeds when the model carries an answer key.", "quantifier": "every model and data matrix", "why_tests_cant": "an inverted guard makes every call fail; the claim is over all calls", "anchors": ["irtorch/utils.py: impute_missing"]}
{"id": "C38", "title": "Inferred category counts cover every observed response", "statement": "get_item_categories, and the constructors that infer categories from data, return for each item a count larger than every observed response of that item (and not larger than needed).", "quantifier": "every data matrix with any missing pattern", "why_tests_cant": "only particular missing patterns drop the row holding the maximum", "anchors": ["irtorch/utils.py: get_item_categories", "irtorch/models/graded_response.py: __init__", "irtorch/models/generalized_partial_credit.py: __init__", "irtorch/models/nominal_response.py: __init__"]}
{"id": "C39", "title": "split_data partitions the rows", "statement": "split_data returns train and test sets that together contain every row exactly once, with int(n*ratio) rows in the first.", "quantifier": "every data set, ratio and random permutation", "why_tests_cant": "all permutations and sizes", "anchors": ["irtorch/utils.py: split_data"]}
{"id": "C40", "title": "Cross-validation folds partition the rows into the requested number of folds", "statement": "Each row is in exactly one validation fold and in the training set of every other fold, and there are as many folds as requested.", "quantifier": "every number of rows, folds and random permutation", "why_tests_cant": "uneven divisions matter: most (n, folds) pairs behave, some do not", "anchors": ["irtorch/utils.py: cross_validation, _prepare_cross_validation_data, _cv_fold"]}
{"id": "C41", "title": "Cross-validation does not leak the validation fold", "statement": "The log likelihood reported for a fold is computed from a model fitted only on the other folds.", "quantifier": "every fitting algorithm, parameter grid and fold history", "why_tests_cant": "requires reasoning about the history of one model object across folds", "anchors": ["irtorch/utils.py: _cv_param_combination, _cv_fold"]}
{"id": "C42", "title": "Gauss-Hermite quadrature integrates normal moments exactly", "statement": "gauss_hermite(n, mean, covariance) returns weights that sum to one whose weighted mean and covariance are the ones requested.", "quantifier": "every number of points >= 2, every dimension, every mean and positive definite covariance", "why_tests_cant": "product grids in all dimensions", "anchors": ["irtorch/utils.py: gauss_hermite"]}
{"id": "C43", "title": "IMV is well defined and ordered", "statement": "imv is always well defined, lies within (-1/2, 1), is zero when both models fit equally, and its sign says which model has the larger log likelihood per response.", "quantifier": "every pair of log likelihoods", "why_tests_cant": "Newton iteration outcomes over a continuum of inputs", "anchors": ["irtorch/utils.py: imv, _imv_newton_raphson"]}
{"id": "C44", "title": "EM keeps the Gaussian mixture valid", "statement": "After any number of EM iterations the mixture weights are positive and sum to one, the component covariances are symmetric and positive (semi)definite, responsibilities sum to one and the mixture mean equals the data mean.", "quantifier": "every data set, starting value and number of iterations", "why_tests_cant": "histories of iterations are unbounded", "anchors": ["irtorch/torch_modules/gaussian_mixture_model.py: e_step, m_step, fit"]}
{"id": "C45", "title": "EAP scores are posterior means", "statement": "EAP latent scores are the weighted average of the grid points with weights proportional to prior times likelihood of the respondent's own observed responses; they lie within the range of the grid and do not depend on other respondents.", "quantifier": "every model, data matrix, missing pattern and grid", "why_tests_cant": "index layout over respondents times grid points", "anchors": ["irtorch/models/base_irt_model.py: _eap_theta_scores, _theta_grid"]}
{"id": "C46", "title": "EAP scoring is available after fitting", "statement": "latent_scores(theta_estimation='EAP') returns scores for a model fitted with any of the estimation algorithms and at most four latent variables.", "quantifier": "every fitted model", "why_tests_cant": "depends on which attributes each algorithm leaves behind after fit", "anchors": ["irtorch/models/base_irt_model.py: _eap_theta_scores, latent_scores", "irtorch/estimation_algorithms/base_irt_algorithm.py: __init__", "irtorch/estimation_algorithms/mml.py: fit"]}
{"id": "C47", "title": "latent_scores accepts exactly the documented option combinations", "statement": "latent_scores raises ValueError for an unknown estimation method, for standard errors with EAP/MAP, for NN without an encoder, and for missing data with an encoder that neither one-hot encodes nor imputes; data with missing responses is accepted when the algorithm was fitted with an imputation method.", "quantifier": "every option combination and every fit history", "why_tests_cant": "combinations of options, algorithms and histories", "anchors": ["irtorch/models/base_irt_model.py: latent_scores", "irtorch/estimation_algorithms/ae.py: fit", "irtorch/estimation_algorithms/vae.py: fit"]}
{"id": "C48", "title": "The MML objective is the negative marginal log likelihood", "statement": "The MML training loss equals minus the sum over respondents of the log of the quadrature-weighted sum of the likelihood of the respondent's observed responses.", "quantifier": "every number of respondents, quadrature points, items and missing patterns", "why_tests_cant": "repeat/interleave layout must match for all sizes", "anchors": ["irtorch/estimation_algorithms/mml.py: _training_loop, _train_step, _log_likelihood"]}
{"id": "C49", "title": "Training stops and keeps the best parameters", "statement": "The training loop makes at most max_epochs epochs, stops after the configured number of learning rate reductions, and leaves the model with parameters that attain the smallest loss recorded during training.", "quantifier": "every loss sequence, every optimiser behaviour, every setting of epochs and patience", "why_tests_cant": "histories of losses are unbounded and adversarial", "anchors": ["irtorch/estimation_algorithms/mml.py: _training_loop", "irtorch/estimation_algorithms/jml.py: _training_loop", "irtorch/estimation_algorithms/ae.py: _training_loop"]}
{"id": "C50", "title": "A failed fit leaves the model usable", "statement": "After fit has returned or raised at any point, evaluating the model at new latent scores uses those scores.", "quantifier": "every point at which training can be interrupted", "why_tests_cant": "crash points cannot be enumerated by tests", "anchors": ["irtorch/estimation_algorithms/mml.py: _training_loop", "irtorch/models/monotone_b_spline.py: forward, precompute_basis", "irtorch/models/nested_logit.py: forward, precompute_basis"]}
{"id": "C51", "title": "Training data accumulates over fits", "statement": "After any sequence of fit calls on one algorithm object, its stored training data is the concatenation of the data of all calls in order.", "quantifier": "every sequence of fits", "why_tests_cant": "histories of arbitrary length", "anchors": ["irtorch/estimation_algorithms/base_irt_algorithm.py: fit"]}
{"id": "C52", "title": "Outlier bounds always leave data", "statement": "smallest_largest_non_outlier returns for each column two values of that column inside the outlier bounds, smallest <= largest; constructing a detector with factor < 1 raises ValueError; is_outlier on the data agrees with identify_outliers.", "quantifier": "every nonempty data matrix, every factor >= 1", "why_tests_cant": "existence of a non-outlier for all samples needs a proof about quantiles", "anchors": ["irtorch/outlier_detector.py: OutlierDetector"]}
{"id": "C53", "title": "interp passes through its knots and is monotone", "statement": "interp returns y[k] at x[k], lies between neighbouring knots' values in between, is nondecreasing for nondecreasing y, and continues linearly outside.", "quantifier": "every sorted knot vector and query", "why_tests_cant": "search index and wrap-around at the left end for all queries", "anchors": ["irtorch/latent_variable_functions.py: interp"]}
{"id": "C54", "title": "quantile_transform maps ranks into the open unit interval", "statement": "quantile_transform maps column values to normal quantiles of ranks/(n+1): finite, order preserving and pairwise distinct within a column.", "quantifier": "every data matrix", "why_tests_cant": "all orderings and ties", "anchors": ["irtorch/latent_variable_functions.py: quantile_transform"]}
{"id": "C55", "title": "Correlations lie in [-1,1]", "statement": "correlation_matrix returns a symmetric matrix with ones on the diagonal and entries in [-1,1], also with missing data.", "quantifier": "every data matrix with any missing pattern", "why_tests_cant": "only unbalanced missing patterns violate it", "anchors": ["irtorch/_internal_utils.py: correlation_matrix", "irtorch/evaluator.py: q3"]}
{"id": "C56", "title": "Entropies are consistent", "statement": "entropy is between 0 and log(number of categories) up to its smoothing constant, rejects tables that do not sum to one; joint_entropy_matrix is symmetric with item entropies on the diagonal and treats missing responses as missing.", "quantifier": "every probability table and data matrix", "why_tests_cant": "all distributions", "anchors": ["irtorch/_internal_utils.py: entropy, joint_entropy_matrix", "irtorch/evaluator.py: mutual_information_difference"]}
{"id": "C57", "title": "Classification metrics are consistent", "statement": "Precision, recall and F1 lie in [0,1]; weighted recall equals accuracy; a perfect prediction gives one everywhere it is defined.", "quantifier": "every data and prediction matrix", "why_tests_cant": "all confusion tables", "anchors": ["irtorch/evaluator.py: predictions, accuracy"]}
{"id": "C58", "title": "Residuals and fit statistics are in range", "statement": "With an answer key residuals lie in [0,1], otherwise within the score range; item and respondent averages average only observed cells; infit and outfit are nonnegative.", "quantifier": "every data matrix, mask and probability table", "why_tests_cant": "all data", "anchors": ["irtorch/evaluator.py: residuals, infit_outfit"]}
{"id": "C59", "title": "Evaluator log likelihoods aggregate the right cells", "statement": "Evaluator.log_likelihood on item, respondent and test level are sums of the same cell values, and group_fit_log_likelihood gives each latent-variable group the log likelihood of its own observed responses.", "quantifier": "every data matrix, missing pattern, ordering of latent scores", "why_tests_cant": "only sorted data with missing values reveals a stale mask", "anchors": ["irtorch/evaluator.py: log_likelihood, group_fit_log_likelihood"]}
{"id": "C60", "title": "Model-implied sum score probabilities form a distribution", "statement": "sum_score_probabilities returns nonnegative weights summing to one over scores 0..max.", "quantifier": "every model, theta sample or grid", "why_tests_cant": "all weights and tables", "anchors": ["irtorch/evaluator.py: sum_score_probabilities, _get_theta_scores_and_weights"]}
{"id": "C61", "title": "Random guessing honours the answer key", "statement": "random_guessing_data answers item j correctly with probability guessing_probabilities[j] and otherwise spreads evenly over the wrong categories.", "quantifier": "every key, category layout, guessing probability", "why_tests_cant": "distributions cannot be tested exactly", "anchors": ["irtorch/_internal_utils.py: random_guessing_data"]}
{"id": "C62", "title": "VAE objective uses a valid variational bound", "statement": "The KL term is nonnegative and zero only at the prior, the annealing factor stays in [0,1] and reaches 1, and the importance weighted bound lies between the average and the maximum of its samples. In expectation the objective is a lower bound of the log marginal likelihood; more importance samples never lower it, and with more and more samples it approaches the log marginal likelihood.", "quantifier": "every mean, log variance, iteration and sample", "why_tests_cant": "all reals", "anchors": ["irtorch/estimation_algorithms/vae.py: _loss_function"]}
{"id": "C63", "title": "IRT-format parameters describe the same model", "statement": "item_parameters(irt_format=True) returns a and b with a(theta-b) equal to the logit the model computes (1PL/2PL/3PL/GRM), and is refused for several latent variables.", "quantifier": "every parameter vector with nonzero slope, every theta", "why_tests_cant": "all parameters", "anchors": ["irtorch/models/one_parameter_logistic.py: item_parameters", "irtorch/models/two_parameter_logistic.py: item_parameters", "irtorch/models/three_parameter_logistic.py: item_parameters", "irtorch/models/graded_response.py: item_parameters"]}
{"id": "C64", "title": "save_model/load_model round-trips", "statement": "Loading a saved model into a model of the same structure gives the same probabilities, scales and algorithm.", "quantifier": "every model state and every overwritten target state", "why_tests_cant": "all states and histories", "anchors": ["irtorch/models/base_irt_model.py: save_model, load_model"]}
{"id": "C65", "title": "Starting values for ML/MAP come from the best training respondent", "statement": "For models fitted by JML, optimisation starts each respondent at the training latent score with the highest likelihood of that respondent's own observed responses.", "quantifier": "every data matrix and training sample", "why_tests_cant": "respondent-by-candidate layout for all sizes", "anchors": ["irtorch/models/base_irt_model.py: _initial_theta_from_training_data"]}
{"id": "C66", "title": "linear_regression is least squares", "statement": "linear_regression returns coefficients that minimise the residual sum of squares.", "quantifier": "every design with invertible normal matrix", "why_tests_cant": "minimality over all coefficient vectors", "anchors": ["irtorch/_internal_utils.py: linear_regression"]}
{"id": "C67", "title": "Encoders can be built for every layer list", "statement": "Standard, variational and bounded encoders built with any list of hidden sizes, with or without batch normalisation, have matching layer sizes from input to output.", "quantifier": "every list of hidden sizes", "why_tests_cant": "layer name collisions only matter for several layers of different sizes", "anchors": ["irtorch/estimation_algorithms/encoders/base_encoder.py", "irtorch/estimation_algorithms/encoders/standard_encoder.py", "irtorch/estimation_algorithms/encoders/variational_encoder.py", "irtorch/estimation_algorithms/encoders/bounded_encoder.py"]}
{"id": "C68", "title": "Big Five reverse coding is an involution on the answer scale", "statement": "Reverse keyed items map answers 1..5 to scores 4..0 and other items to 0..4; missing answers stay missing.", "quantifier": "every answer matrix", "why_tests_cant": "all cells", "anchors": ["irtorch/load_dataset.py: big_five"]}
{"id": "C69", "title": "Grid-parameter search covers every combination once", "statement": "cross_validation evaluates every combination of the parameter grid exactly once with keyword arguments applied to all, and reports for each the average over folds.", "quantifier": "every parameter grid", "why_tests_cant": "products of arbitrary lists", "anchors": ["irtorch/utils.py: _create_param_grid, _run_sequential"]}
{"id": "C70", "title": "Groups of respondents are a partition ordered by the latent variable", "statement": "Grouped evaluation (group_fit_residuals, latent_group_probabilities, group_fit_log_likelihood) puts each respondent in exactly one group, groups are contiguous in the latent variable, and the observed proportions of a group sum to one per item.", "quantifier": "every number of respondents and groups", "why_tests_cant": "uneven divisions", "anchors": ["irtorch/evaluator.py: group_fit_residuals, group_fit_log_likelihood, latent_group_probabilities, _grouped_data_probabilities"]}
{"id": "C71", "title": "Reported item-latent variable directions are the actual directions", "statement": "item_theta_relationship_directions of MonotonePolynomial and MonotoneNN returns, for each item and latent variable, 1, -1 or 0 such that moving the latent variables in the reported directions never lowers P(X>=x) or the expected score (or, with mc_correct, the probability of the correct category), and 0 exactly when the item ignores the latent variable.", "quantifier": "every relationship matrix, every parameter value, every pair of latent trait vectors", "why_tests_cant": "the sign must be right for every parameter vector and every pair of points", "anchors": ["irtorch/models/monotone_polynomial.py: item_theta_relationship_directions", "irtorch/models/monotone_nn.py: item_theta_relationship_directions", "irtorch/torch_modules/negation_layer.py: forward, all_item_weights"]}
{"id": "C72", "title": "EM never lowers the log likelihood of a Gaussian mixture", "statement": "GaussianMixtureModel.fit never returns parameters whose log likelihood (the value of the module on the data) is below that of the parameters it started from; pdf at a point is the exponential of the log likelihood of that point.", "quantifier": "every data set, every valid starting mixture, every number of components, features and iterations", "why_tests_cant": "an inequality over all data sets and all starting values", "anchors": ["irtorch/torch_modules/gaussian_mixture_model.py: forward, fit, pdf"]}
{"id": "C73", "title": "Default starting scores of joint maximum likelihood are usable", "statement": "JML.fit without start_thetas starts from standardised sum scores: finite numbers, one row per respondent, in the order of the sum scores of the observed responses, whatever the missing responses in the data.", "quantifier": "every data matrix, every missing pattern, every number of latent variables", "why_tests_cant": "a claim about all missing patterns and all degenerate score distributions", "anchors": ["irtorch/estimation_algorithms/jml.py: fit", "irtorch/_internal_utils.py: sum_score"]}
{"id": "C74", "title": "Reported standard errors are the asymptotic standard errors", "statement": "With standard_errors=True and ML scores, latent_scores returns for each latent variable the asymptotic standard error of the estimate: the square root of the diagonal entry of the inverse of the test information matrix at the scores; with the variational autoencoder and a rescaled theta it returns the delta-method standard error of the encoder.", "quantifier": "every model, every data matrix, every number of latent variables, every scale transformation", "why_tests_cant": "depends on the whole information matrix at every score", "anchors": ["irtorch/models/base_irt_model.py: latent_scores, information"]}
{"id": "C75", "title": "Model-implied sum scores do not depend on earlier evaluations", "statement": "sum_score_probabilities with a latent density approximation ('qmvn' or 'gmm') weights the latent space by a density fitted to the population the call asks for (the training scores when no population data is given), whatever the evaluator was used for before.", "quantifier": "every history of evaluator calls, every population", "why_tests_cant": "depends on histories of calls on one evaluator object", "anchors": ["irtorch/evaluator.py: sum_score_probabilities, _get_theta_scores_and_weights_for_latent_density_methods, approximate_latent_density"]}
{"id": "C76", "title": "mutual_information_difference compares the dependence in the data with that of the model", "statement": "For every data set and fitted model, evaluate.mutual_information_difference reports for every pair of items the mutual information of the observed responses of the respondents who answered both items minus the mutual information the fitted model implies for the same respondents (up to the constant 1e-10 used to avoid log 0), symmetric in the two items, with its absolute value as second statistic; both mutual informations are nonnegative and the p-values are proportions of simulated statistics above the observed one, NaN on the diagonal.", "quantifier": "all data sets, with and without missing responses, all probability tables of the respondents and all lists of simulated statistics", "why_tests_cant": "the estimate depends on every combination of responses, missing patterns and probability tables; tests fix one data set", "anchors": ["irtorch/evaluator.py:Evaluator.mutual_information_difference", "irtorch/_internal_utils.py:entropy", "irtorch/_internal_utils.py:joint_entropy_matrix"]}
{"id": "C77", "title": "Q3 is the correlation of the residuals, with a two-sided p-value", "statement": "For every data set and fitted model, evaluate.q3 reports for every pair of different items the Pearson correlation of their residuals over the respondents who answered both items, a number in [-1,1] that does not depend on the order of the items, and NaN on the diagonal and where it is undefined; the p-value of the test is twice the smaller tail proportion of the simulated values, lies in [0,1], is NaN where Q3 is undefined, and does not reject when the simulated values equal the observed one.", "quantifier": "all data sets, with and without missing responses, all probability tables and all lists of simulated statistics", "why_tests_cant": "range and symmetry depend on the missing pattern; ties and undefined statistics are not met by a test with one data set", "anchors": ["irtorch/evaluator.py:Evaluator.q3", "irtorch/evaluator.py:Evaluator.residuals", "irtorch/_internal_utils.py:correlation_matrix"]}
{"id": "C83", "title": "An algorithm object belongs to the models fitted with it", "statement": "What a model reads from its algorithm object (training data, scores, encoder, covariance) changes only through calls that fit this model or use the same algorithm object. A model fitted with an algorithm object of its own sees exactly its own data and its own results, whatever else is fitted in the session and whether or not those fits raise. Data with another number of items is refused without changing anything.", "quantifier": "every history of calls model.fit(data, algorithm) over any number of models and algorithm objects, each of which may raise", "why_tests_cant": "tests fit one model with one algorithm object; sharing shows up only in histories of several fits", "anchors": ["irtorch/models/base_irt_model.py: BaseIRTModel.fit", "irtorch/estimation_algorithms/base_irt_algorithm.py: BaseIRTAlgorithm.fit"]}
{"id": "C84", "title": "fit_multiple_models_cpu returns the fitted models in order, each with its own algorithm object", "statement": "fit_multiple_models_cpu returns one fitted model per given model in the order given, whatever the order in which the worker processes finish; it raises if and only if some fit raises, with the exception of one of the fits. Each returned model has its own algorithm object with its own scores and the training data once.", "quantifier": "every number of models, number of cores, outcome of each fit and order in which the workers finish", "why_tests_cant": "the order of arrival is up to the operating system, and the sharing appears only with more than four models per process", "anchors": ["irtorch/utils.py: fit_multiple_models_cpu, _fit_model"]}
{"id": "C78", "title": "The quantile normal approximation of the density of the latent variables", "statement": "QuantileMVNormal.fit succeeds unless the normal scores of the columns are collinear; pdf is then positive and defined at every point (distinct values in each column), equals the normal density of the normal scores at the rows it was fitted to, does not depend on the units of the variables, and is a probability density.", "quantifier": "every data matrix with at least two rows and distinct values in each column, every point", "why_tests_cant": "no test integrates the density; the missing derivative of the transformation shows only in the integral over the whole space", "anchors": ["irtorch/quantile_mv_normal.py: QuantileMVNormal", "irtorch/latent_variable_functions.py: quantile_transform, interp"]}
{"id": "C79", "title": "Choice of the number of mixture components by cross-validation", "statement": "approximate_latent_density(approximation='gmm') returns a mixture fitted to all scores with the number of components, among those given, whose mixtures give the held out parts the largest total log likelihood; every part is evaluated with a mixture fitted to the other parts only. A single number is used as it is, an empty list and other approximations are refused.", "quantifier": "every score matrix, list of component numbers and random initialisation", "why_tests_cant": "a test sees one data set; that the argmax is over held out data only and survives fewer than five folds needs all of them", "anchors": ["irtorch/evaluator.py: Evaluator.approximate_latent_density, Evaluator._cv_gaussian_mixture_model"]}
{"id": "C81", "title": "Credible intervals, standard errors and samples of a fitted variational autoencoder", "statement": "For every respondent, latent variable and 0 < alpha < 1, VAE.latent_credible_interval returns an interval with the reported mean strictly inside and at its middle, that the encoder's normal distribution gives probability exactly 1 - alpha with alpha/2 in each tail, that lies strictly inside the interval of every smaller alpha, and that no set of the same size beats in probability. latent_mean_se returns the mean and the standard deviation of that distribution. sample_latent_variables returns one sample per requested row, each with the encoder's distribution for a row of the data.", "quantifier": "all encoder outputs, all levels alpha, all data and all random draws", "why_tests_cant": "coverage is an integral of a density over every possible encoder output; tests check shapes on one data set", "anchors": ["irtorch/estimation_algorithms/vae.py: VAE.latent_credible_interval, VAE.latent_mean_se, VAE.sample_latent_variables, VAE.reparameterize"]}
{"id": "C82", "title": "The linking objective measures the distance of the response distributions of the common items", "statement": "For every pair of models accepted by LinkCommonItems and every sample of latent variables, the training loss is defined; it is the average over respondents and common items of the Kullback-Leibler divergence of the linked model's response probabilities (plus 1e-10) from the target model's. It is never below -M * 1e-10 for M categories, it is at most zero when the probabilities agree, it is within 1e-10 times the probability ratios of the exact divergence, and it bounds the average squared Hellinger distance of the two response distributions.", "quantifier": "all models, index lists of common items, samples of latent variables and probabilities including zeros", "why_tests_cant": "a bound for all distributions needs an inequality, not examples; the failure for models of different widths needs a pair the tests do not build", "anchors": ["irtorch/rescale/link_common_items.py: LinkCommonItems.__init__, LinkCommonItems.fit, LinkCommonItems._loss_function"]}
{"id": "C80", "title": "The default integration method of MML approximates the marginal likelihood", "statement": "MML.fit with integration_method='quasi_mc' evaluates the model at every combination of equidistant points of [-3,3] with the normal log density as log weight; its loss, less a constant that does not depend on the model, converges as the number of points grows to minus the log marginal likelihood of all responses over [-3,3]^d, which exceeds the unrestricted value exactly by minus the log posterior probabilities of the box. More than three latent variables without a number of points, and a covariance matrix of another shape or not positive definite, are refused before training.", "quantifier": "every model with continuous positive probabilities, number of latent variables, positive definite covariance, data set with missing responses, and the limit over all numbers of points", "why_tests_cant": "convergence to an integral and the exact truncation error cannot be observed at finitely many grids", "anchors": ["irtorch/estimation_algorithms/mml.py: MML.fit, _quasi_mc, MML._train_step"]}
{"id": "C87", "title": "Plotted curves and surfaces show the model at the positions they claim", "statement": "The points drawn by item_entropy, log_likelihood, item_probabilities, information, expected_sum_score and scale_transformations pair the score of a latent position with the model quantity at that same position. The positions are `steps` equally spaced values over the requested range of the plotted variable, the other variables being fixed at the given values or at the medians of the training scores. With invertible scale transformations range and fixed values refer to the transformed scale. No step is left out, except for repeated scores where a transformation is flat.", "quantifier": "every model, scale transformation, range, number of steps, choice of one or two latent variables and fixed values", "why_tests_cant": "The plots depend on ranges, steps, transformations and training scores in combination; tests look at a few figures and compare no curve with the model over the range.", "anchors": ["irtorch/plotter.py: Plotter.item_entropy, log_likelihood, item_probabilities, information, expected_sum_score, scale_transformations, _get_theta_grid_for_plotting, _item_probabilities_plot"]}
{"id": "C85", "title": "Simulated test data follow the model and population discrimination is a mean slope", "statement": "sample_test_data(theta) returns one row per row of theta and one column per item, every entry a category of its item. The probability of getting a given table is the product of the model's item probabilities, which is also the exponential of the model's log likelihood of that table; each entry alone has the model's category probabilities. population_discrimination(theta) is, per item and latent variable, the mean over the rows of the derivative of the expected item score divided by the highest score (of the probability of the correct answer if there is a key); with scale transformations it is that of the model written in transformed scores.", "quantifier": "every model whose item probabilities are distributions, every table of latent scores, every table of responses, every invertible differentiable scale transformation", "why_tests_cant": "A law over all tables of responses cannot be established by drawing samples; tests check the shape and the range of one draw.", "anchors": ["irtorch/models/base_irt_model.py: BaseIRTModel.sample_test_data, population_discrimination, expected_item_score_gradients"]}
{"id": "C86", "title": "The starting point of bit scores found by guessing is the median score of random guessers", "statement": "bit_score_starting_theta_mc simulates respondents that guess on every chosen item: without probabilities each category is equally likely, with probabilities the correct category has the given probability and the others share the rest. The starting theta of the scale becomes, per latent variable, the median of the scores latent_scores gives these respondents on the original scale, and is returned. Models without answer key and probabilities outside [0,1) or of the wrong number are refused. A Bit scale constructed with mc_start_theta_approx starts there, unless a starting theta is given.", "quantifier": "every fitted multiple choice model, answer key, selection of items, list of guessing probabilities, estimation method and random draw", "why_tests_cant": "The result depends on random data and on all combinations of items, keys and probabilities.", "anchors": ["irtorch/rescale/bit.py: Bit.bit_score_starting_theta_mc, Bit.__init__", "irtorch/_internal_utils.py: random_guessing_data"]}
{"id": "C88", "title": "The Swedish SAT loaders return matching data, keys and scored data", "statement": "swedish_sat returns, for every respondent, the quantitative items followed by the verbal items, and a key with one entry per column that belongs to the item of that column, read from a file that lists the correct alternatives counted from one. As documented, the entries of the key start from one, a key of 1 being a response of 0 in the data. swedish_sat_binary has the same respondents and columns, 1 exactly where the response is the correct one and 0 elsewhere, missing responses included. A file that cannot be read, or parts with different respondents, give a RuntimeError and no data.", "quantifier": "every content of the data and key files, including separators in the key file and missing responses", "why_tests_cant": "The loaders are run on the one data set shipped; that columns and keys stay aligned must hold for every content of the files.", "anchors": ["irtorch/load_dataset.py: swedish_sat, swedish_sat_binary, swedish_sat_verbal, swedish_sat_quantitative"]}
{"id": "C89", "title": "Spline models treat the rows of a batch separately, with or without a precomputed basis", "statement": "The output of MonotoneBSpline, SurprisalSpline and NestedLogit (bspline) for a batch of latent scores has one row per row of scores, and each row is the output for that row's scores alone, for any number of latent variables and rows. After precompute_basis(theta) the output for theta is exactly the output without precomputation, so that an MML fit evaluates the same model whether or not it precomputes, and after the fit the model evaluates the scores it is given.", "quantifier": "every spline model, degree, knots, parameters, number of latent variables and batch of scores", "why_tests_cant": "The layout of the flattened basis must be right for every number of rows and variables; a mix-up is invisible for one row or one variable.", "anchors": ["irtorch/models/monotone_b_spline.py: MonotoneBSpline.forward, precompute_basis", "irtorch/models/surprisal_spline.py: SurprisalSpline.forward, precompute_basis", "irtorch/models/nested_logit.py: NestedLogit.forward, precompute_basis", "irtorch/estimation_algorithms/mml.py: MML._training_loop"]}
{"id": "C90", "title": "Gradients through the spline basis are exact", "statement": "For every differentiable function of the output of the spline basis, the gradient that the custom backward pass returns for the points is the gradient of the function of the points, for any number of points and basis functions, given that the derivatives of the basis functions it is supplied with are correct.", "quantifier": "every loss function, points, knots, degree and incoming gradient", "why_tests_cant": "A gradient check compares finite differences at sampled points; exactness for every function is a statement about limits.", "anchors": ["irtorch/torch_modules/b_spline.py: BSplineBasisFunction.forward, BSplineBasisFunction.backward"]}
{"id": "C91", "title": "The Big Five loader can be called again after any history of calls", "statement": "Once big_five() has returned data, every later call returns the same data, even without network. A call that returns gives the data downloaded and processed by itself or by an earlier call. Failed downloads leave no trace. After any history of failed or interrupted calls, a call with working network, disk and installation returns data.", "quantifier": "every sequence of calls, each of which may fail to download, be interrupted while it writes the cache, or fail to read the item list", "why_tests_cant": "The claim ranges over histories with failures and interruptions at any point, which tests do not produce.", "anchors": ["irtorch/load_dataset.py: big_five"]}
{"id": "C92", "title": "Reported directions of item to latent variable relationships", "statement": "item_theta_relationship_directions returns one row per item and one entry per latent variable. An entry is 1 (-1, 0) exactly if raising that latent variable alone strictly raises (strictly lowers, does not change) the expected score of the item, for the 1PL, 2PL, 3PL, GRM, GPC and nested logit models. For models without their own rule (nominal response), a latent variable that always raises (lowers, does not change) the expected item score is reported as 1 (-1, 0) whatever respondents are given.", "quantifier": "all parameter values, items, latent variables, latent traits, relationship masks and, for the regression rule, all samples of respondents", "why_tests_cant": "The sign must agree with the expected score at every latent trait and every parameter vector; tests check the sign at a few weights.", "anchors": ["irtorch/models/one_parameter_logistic.py: item_theta_relationship_directions", "irtorch/models/two_parameter_logistic.py: item_theta_relationship_directions", "irtorch/models/three_parameter_logistic.py: item_theta_relationship_directions", "irtorch/models/graded_response.py: item_theta_relationship_directions", "irtorch/models/generalized_partial_credit.py: item_theta_relationship_directions", "irtorch/models/nested_logit.py: item_theta_relationship_directions", "irtorch/models/nominal_response.py: item_theta_relationship_directions", "irtorch/models/monotone_b_spline.py: item_theta_relationship_directions", "irtorch/models/base_irt_model.py: BaseIRTModel.item_theta_relationship_directions"]}
{"id": "C93", "title": "Fitting a flow or a linking function stops as documented and keeps what it trained", "statement": "Flow.fit and LinkCommonItems.fit go through the batches in order, epoch after epoch, with one update of the transformation per batch, for at most max_epochs epochs. They stop early only at a batch whose loss is NaN, which is not used for an update, or after learning_rate_updates_before_stopping reductions of the learning rate, each by the factor 0.6 and after at least two evaluation intervals. The transformation kept does not have a larger loss than the one training started with, and if fit returns without an exception its loss is a number. An exception leaves the updates made until then.", "quantifier": "every loss (which may be NaN or raise at any batch), optimiser, shuffling into batches, learning rate, interval, number of epochs and stopping limit", "why_tests_cant": "Where a run stops depends on the whole history of losses; a NaN or an exception can occur in any batch.", "anchors": ["irtorch/rescale/flow.py: Flow.fit", "irtorch/rescale/link_common_items.py: LinkCommonItems.fit"]}
{"id": "C94", "title": "Parallel cross-validation gives the same table as sequential cross-validation", "statement": "cross_validation returns one row per combination in the order of the grid, and the same rows (or the same exception) with and without multiprocessing, for every number of cores, every distribution of the combinations over the workers and every failure to start or use the pool. The number of torch threads is afterwards what it was before. A GPU that is not available is refused.", "quantifier": "every grid, number of cores (also zero or negative), assignment of chunks to workers, pool failure and exception in any combination", "why_tests_cant": "The assignment of work to processes and pool failures are decided by the operating system; tests see one of them.", "anchors": ["irtorch/utils.py: cross_validation, _run_multiprocessing, _run_sequential"]}
{"id": "C95", "title": "Results are reproducible after set_seed", "statement": "After set_seed(seed), the results of any sequence of calls are the same whatever was computed before and in whatever state the process was, including cross_validation.", "quantifier": "every seed, every earlier history of calls, every later sequence of calls, every scheduling of worker processes", "why_tests_cant": "The claim compares runs after arbitrary histories and under arbitrary scheduling.", "anchors": ["irtorch/utils.py: set_seed, cross_validation, _run_multiprocessing"]}
{"id": "C96", "title": "Flow log densities", "statement": "Take a normalizing flow with trained spline and base distribution. Over any interval of observed values inside the bounds of the spline, the exponential of log_prob integrates to the probability the base distribution gives the transformed interval, which is the probability that a sample drawn from the flow falls in the interval. Over all values the exponential of log_prob integrates to one, so log_prob is a log density.", "quantifier": "Every spline reachable by training, every base density, every interval, every number of variables", "why_tests_cant": "An integral over all real values, and over arbitrary spline parameters, is not something a test can evaluate; the two tails that break normalisation carry little mass for typical data.", "anchors": ["irtorch/torch_modules/neural_spline_flow.py:NeuralSplineFlow.log_prob", "irtorch/torch_modules/neural_spline_flow.py:NeuralSplineFlow._sample_obs", "irtorch/torch_modules/rational_quadratic_spline.py:RationalQuadraticSpline.forward"]}
{"id": "C97", "title": "Distribution, relationship and history plots", "statement": "The plot of latent scores shows the scores of every respondent on the requested latent variables, numbered from one: the given scores, or those of the given responses, or those of the training data. For two variables the heights are a density: height times cell area is the proportion of respondents in the cell, and these sum to one, with the number of bins of Sturges' rule by default. Numbers of variables that the model does not have are refused. The heat map shows for each item and latent variable the mean derivative of the expected item score. The training history has one point for each recorded loss, in order.", "quantifier": "Every set of scores, every number of respondents, bins and variables, every history", "why_tests_cant": "Where a score equal to an edge is counted, one respondent, equal scores and variable zero are boundary cases of unbounded inputs; tests look at mocked figures only.", "anchors": ["irtorch/plotter.py:Plotter.latent_score_distribution", "irtorch/plotter.py:Plotter._distribution_plot", "irtorch/plotter.py:Plotter._two_latent_variables_distribution_plot", "irtorch/plotter.py:Plotter.item_latent_variable_relationships", "irtorch/plotter.py:Plotter.training_history"]}
{"id": "C98", "title": "Log likelihood against the expected sum score", "statement": "With expected_sum_score the log likelihood plot has one point for each latent position of the grid: the expected sum score there and the log likelihood of the respondent. The dashed line is at the respondent's observed sum score.", "quantifier": "Every model, respondent, range, number of steps and latent variable", "why_tests_cant": "Which positions are kept depends on where over the whole range the expected score is lowest, and missing responses or answer keys change the observed score; tests use one complete response vector and a mocked model.", "anchors": ["irtorch/plotter.py:Plotter.log_likelihood"]}
{"id": "C99", "title": "What fitting an autoencoder maximises and stores", "statement": "Fitting with AE minimises, batch by batch, minus the mean over the respondents of the batch of the log likelihood of their observed responses at the scores the encoder gives them; every epoch visits each respondent exactly once; and scoring the training data afterwards with the network returns the training scores that the fit stored.", "quantifier": "every model, network, data set with or without missing responses, imputation method, encoding, batch size and order of respondents", "why_tests_cant": "Missing cells, imputation, encodings, ragged last batches and the attributes left by the fit interact; tests fit one data set and look at the shape of the scores.", "anchors": ["irtorch/estimation_algorithms/ae.py AE.fit, _train_batch, _training_loop", "irtorch/estimation_algorithms/vae.py VAE.fit", "irtorch/irt_dataset.py PytorchIRTDataset", "irtorch/models/base_irt_model.py latent_scores"]}
{"id": "C100", "title": "Better answers never lower the EAP score", "statement": "If one respondent answers every item at least as well as another (a higher category, or a missing answer instead of the lowest category, or the highest category instead of a missing answer), then latent_scores with ability_estimation_method='EAP' does not give the first respondent a lower score on any latent variable, provided no slope is negative; with one latent variable and some strictly better answer to an item with a positive slope the score is strictly higher.", "quantifier": "every 1PL, 2PL, 3PL, generalized partial credit, nominal response and graded response model with any parameters, every data set, every pair of respondents, every pattern of missing answers, every grid and prior covariance", "why_tests_cant": "Tests score a handful of response patterns with a handful of parameters; the claim compares every two comparable patterns under every parameter setting and grid.", "anchors": ["irtorch/models/base_irt_model.py:latent_scores", "irtorch/models/base_irt_model.py:_eap_theta_scores", "irtorch/models/one_parameter_logistic.py:forward", "irtorch/models/two_parameter_logistic.py:forward", "irtorch/models/three_parameter_logistic.py:log_likelihood", "irtorch/models/graded_response.py:probabilities_from_output"]}
{"id": "C101", "title": "What the latent scores depend on", "statement": "In the 1PL, 2PL, generalized partial credit and nominal response models the EAP scores of two respondents who answered the same items are equal whenever the sums of the slopes of their answers are equal, and with one latent variable they are ordered exactly as these sums (for the 1PL: as the numbers of correct answers); their likelihoods are proportional, so every maximum likelihood or maximum a posteriori score of one is a score of the other.", "quantifier": "every such model with any parameters and any number of latent variables up to four, every data set, every two respondents with the same missing answers, every grid and prior covariance", "why_tests_cant": "Tests compare a few patterns; the claim is an equality and an exact ranking for all pairs among exponentially many response patterns.", "anchors": ["irtorch/models/base_irt_model.py:latent_scores", "irtorch/models/base_irt_model.py:_eap_theta_scores", "irtorch/models/one_parameter_logistic.py:forward", "irtorch/models/two_parameter_logistic.py:forward", "irtorch/models/generalized_partial_credit.py:forward", "irtorch/models/nominal_response.py:forward"]}
{"id": "C102", "title": "Maximum likelihood and maximum a posteriori scores are what they are called", "statement": "The quantity optimised for theta_estimation='ML' is the log likelihood of each respondent's own answers at their own scores, summed over respondents, and for 'MAP' also the log density of a normal prior; so the best matrix of scores has in every row the best scores of that respondent. In the 1PL, 2PL, generalized partial credit, nominal response and (ordered) graded response models there are no false maxima: a point where the gradient vanishes, or a local maximum, is a maximum. The MAP scores of a respondent exist and are unique whatever they answered, hence do not depend on the starting values if the optimiser stops at a zero of the gradient. With one latent variable the ML score exists and is unique exactly when the answers leave room in both directions (1PL, 2PL with positive slopes: at least one right and one wrong answer). The search ends with the first optimiser call that changes the loss by less than 1e-8 per cell of data, at the latest after 40 calls. Not true: an ML score exists for every respondent; the 3PL model has no false maxima.", "quantifier": "every model with log-concave category probabilities, every set of parameters, responses with missing cells, number of respondents and latent variables, prior covariance, starting values, optimiser and tolerance history", "why_tests_cant": "tests run an optimiser on a few simulated respondents and compare with the simulated scores; existence, uniqueness and absence of local maxima range over all parameters, response patterns and points of a continuum", "anchors": ["irtorch/models/base_irt_model.py: BaseIRTModel._ml_map_theta_scores", "irtorch/models/base_irt_model.py: BaseIRTModel.latent_scores", "irtorch/models/base_irt_model.py: BaseIRTModel.log_likelihood"]}
{"id": "C103", "title": "Finite precision does not turn likelihoods and scores into NaN", "statement": "Fitting with MML and EAP scoring take exponentials of log likelihoods, which round to zero for long tests. The MML loss stays a number for every test length, respondent and quadrature rule, and differs from minus the marginal log likelihood by at most respondents times points times the rounding error of the exponential. EAP scores are numbers close to the exact posterior means for every test length. A probability that rounds to one does not make the likelihood of the other response zero.", "quantifier": "every floating point exponential that is exact at zero, vanishes below a limit and has a bounded relative error above another, every sigmoid that saturates, every model, test length, response pattern, grid and prior covariance", "why_tests_cant": "Underflow appears only for test lengths and response patterns beyond the fixtures; a bound over all lengths cannot be sampled.", "anchors": ["irtorch/estimation_algorithms/mml.py:MML._train_step", "irtorch/models/base_irt_model.py:BaseIRTModel._eap_theta_scores", "irtorch/models/three_parameter_logistic.py:ThreeParameterLogistic.log_likelihood"]}
{"id": "C104", "title": "More grid points make the bit scores approach the documented integral", "statement": "The documentation of the bit scale defines the bit score as the sum over items of the integral of |dH_j/dt| from the starting theta to theta, and says that more grid points give more accurate results. For every model with continuously differentiable item entropies, every starting theta and every batch of respondents, the scores returned by transform never exceed that integral and converge to it as grid_points grows, whatever the other respondents of the batch; two models that differ only by an increasing relabelling of the latent variable give a respondent the same limit.", "quantifier": "all models, items, starting thetas, population samples, batches and respondents; limit in the number of grid points", "why_tests_cant": "A statement about a limit over all grid sizes and about an integral: a test compares two finite grids, and does not notice that the grid ends at -7 and 7 while the starting theta is -10000.", "anchors": ["irtorch/rescale/bit.py::Bit", "irtorch/rescale/bit.py::Bit.transform", "irtorch/rescale/bit.py::Bit._compute_multi_dimensional_bit_scores"]}
{"id": "C105", "title": "Marginal maximum likelihood and the latent variables of a multidimensional model", "statement": "The marginal likelihood that MML maximises does not depend on how the latent variables are named or on their direction: a model and the same model with its latent variables renamed or turned round have the same loss on every data set and every integration method. A fit of a multidimensional 2PL, 3PL or GPC model by MML should nevertheless be able to use the latent variables for different groups of items, and should be able to come near the smallest loss.", "quantifier": "all numbers of latent variables, items and respondents, data sets with missing answers, integration methods and points, learning rates, numbers of epochs and coordinate-wise optimisers", "why_tests_cant": "A test that fits a two dimensional model and checks that the loss falls passes although the two columns of slopes are the same; the statement is about every data set and every number of epochs.", "anchors": ["irtorch/estimation_algorithms/mml.py::MML.fit", "irtorch/estimation_algorithms/mml.py::MML._train_step", "irtorch/models/two_parameter_logistic.py::TwoParameterLogistic.reset_parameters", "irtorch/models/three_parameter_logistic.py::ThreeParameterLogistic.reset_parameters", "irtorch/models/generalized_partial_credit.py::GeneralizedPartialCredit.reset_parameters"]}
{"id": "C106", "title": "Test information and standard errors as statements about the answers", "statement": "The test information is, as documented, the expectation over all patterns of answers of the outer product of the gradient of the log likelihood, and minus the expectation of its second derivatives. The square of the standard error that `latent_scores` reports for a respondent is the smallest variance with which a locally unbiased statistic of the answers that the respondent gave can estimate the latent variable (the bound of Cram\u00e9r and Rao).", "quantifier": "all models with differentiable probabilities, numbers of items, categories and latent variables, latent scores, data sets with or without missing answers, statistics of the answers", "why_tests_cant": "The expectation ranges over exponentially many patterns of answers and the bound over all statistics of them; a test compares the returned matrix with the same formula.", "anchors": ["irtorch/models/base_irt_model.py::BaseIRTModel.information", "irtorch/models/base_irt_model.py::BaseIRTModel.latent_scores"]}
{"id": "C107", "title": "Item parameters are determined by the response curves", "statement": "Two models of the same family and shape that give every respondent the same item probabilities report the same item_parameters: the parameters are identified by the curves, and already by the probabilities at one more latent score vector than there are latent variables (logistic, partial credit, graded and nominal response models). So two fits that predict the same can be told to have the same parameters, and a reported parameter is a statement about the data and not about the run.", "quantifier": "all pairs of models of a family, numbers of items, latent variables and categories, restricted relationships, latent scores", "why_tests_cant": "Quantifies over all pairs of parameter values; a test compares two fits, whose parameters differ only when their curves do except in cases nobody thinks of (a flat item with guessing, an item with one category).", "anchors": ["irtorch/models/one_parameter_logistic.py::OneParameterLogistic.item_parameters", "irtorch/models/two_parameter_logistic.py::TwoParameterLogistic.item_parameters", "irtorch/models/three_parameter_logistic.py::ThreeParameterLogistic.item_parameters", "irtorch/models/generalized_partial_credit.py::GeneralizedPartialCredit.item_parameters", "irtorch/models/graded_response.py::GradedResponse.item_parameters", "irtorch/models/nominal_response.py::NominalResponse.item_parameters"]}
{"id": "C108", "title": "The smaller models are special cases of the larger ones", "statement": "For every 1PL model there is a 2PL model, for every 2PL model a partial credit, a graded response and a 3PL model, and for every partial credit model a nominal response model, of the same shape, that gives every respondent the same probabilities, and hence every data set the same marginal likelihood. So the larger model can fit any data at least as well and the difference of log likelihoods of two fits means what a likelihood ratio means.", "quantifier": "all models, numbers of items, latent variables and categories, restricted relationships, latent scores, data sets with missing answers, integration points and weights", "why_tests_cant": "A test compares two models with particular numbers; the claim is that for every parameter value of one model there is one of another model, for all latent scores at once.", "anchors": ["irtorch/models/one_parameter_logistic.py::OneParameterLogistic.forward", "irtorch/models/two_parameter_logistic.py::TwoParameterLogistic.forward", "irtorch/models/three_parameter_logistic.py::ThreeParameterLogistic.forward", "irtorch/models/generalized_partial_credit.py::GeneralizedPartialCredit.forward", "irtorch/models/graded_response.py::GradedResponse.forward", "irtorch/models/nominal_response.py::NominalResponse.forward", "irtorch/estimation_algorithms/mml.py::MML._train_step"]}
{"id": "C109", "title": "A model built from data is a model of these data", "statement": "Called with data in which every item was answered by somebody, the constructors of all models succeed, for acceptable other arguments. The category count of an item is one more than the largest observed answer. The model object can then be evaluated, before and after any training of its parameters, gives a distribution for every item, and gives every observed answer a positive probability. A mix of models is built exactly from models with the same number of latent variables and has their items in order.", "quantifier": "all rectangular response matrices with entries NaN, -1, 0, 1, ..., all numbers of latent variables, all acceptable relationship matrices, all random draws of the starting values and all values of the parameters after training", "why_tests_cant": "The constructors allocate parameter vectors by counting masks, so shapes agree for the tested data sets but must agree for every data set. The failing data sets (an item that nobody answered) are not in the tests.", "anchors": ["irtorch/models/base_irt_model.py:BaseIRTModel.__init__", "irtorch/models/generalized_partial_credit.py:GeneralizedPartialCredit.__init__", "irtorch/models/graded_response.py:GradedResponse.__init__", "irtorch/models/nominal_response.py:NominalResponse.__init__", "irtorch/models/two_parameter_logistic.py:TwoParameterLogistic.__init__", "irtorch/models/three_parameter_logistic.py:ThreeParameterLogistic.__init__", "irtorch/models/nested_logit.py:NestedLogit.__init__", "irtorch/models/monotone_polynomial.py:MonotonePolynomial.__init__", "irtorch/models/monotone_nn.py:MonotoneNN.__init__", "irtorch/models/monotone_b_spline.py:MonotoneBSpline.__init__", "irtorch/models/surprisal_spline.py:SurprisalSpline.__init__", "irtorch/models/model_mix.py:ModelMix.__init__"]}
{"id": "C110", "title": "A model object keeps track of its scales over its whole life", "statement": "After any sequence of fit, add_scale_transformation and detach_scale_transformations, transform_theta sends scores through exactly the scales attached since the last detachment, in the order of attachment; item_probabilities and latent_scores(rescale=False) depend only on the last training; latent_scores(rescale=True) is latent_scores(rescale=False) transformed. A bit scale attached to a unidimensional model orders respondents as their expected test scores do.", "quantifier": "all models, all histories of training, attaching and detaching (any length), all scales and data; for the bit scale all unidimensional models whose expected test score rises or falls along the latent variable", "why_tests_cant": "A test runs one short history; the order and number of the steps, and what an attached object remembers from an earlier state of the model, are unbounded.", "anchors": ["irtorch/models/base_irt_model.py:BaseIRTModel.fit", "irtorch/models/base_irt_model.py:BaseIRTModel.add_scale_transformation", "irtorch/models/base_irt_model.py:BaseIRTModel.detach_scale_transformations", "irtorch/models/base_irt_model.py:BaseIRTModel.transform_theta", "irtorch/models/base_irt_model.py:BaseIRTModel.latent_scores", "irtorch/rescale/bit.py:Bit.__init__"]}
{"id": "C111", "title": "Joint maximum likelihood minimises the joint loss of items and scores; when that has a minimum, and what it estimates", "statement": "With JML the loss of a batch is minus the log likelihood of the observed responses of its respondents at their own latent scores; an epoch goes through the respondents once, in order; with the default batch size every recorded loss is the joint loss and the parameters and scores returned are those after the epoch with the smallest one. For the one parameter logistic model joint estimates exist and are unique up to a common shift exactly if respondents and items do not fall into two groups one above the other; in particular nobody may have solved everything. The data do not determine the origin and, in the two parameter model, the unit. With two items the joint estimate of the difference of the intercepts is twice the log ratio of the numbers of respondents who solved only one of them, so that in growing samples it tends to twice the true difference.", "quantifier": "all models with valid response tables, data sets with missing responses, batch sizes, optimisers and numbers of epochs; all one parameter logistic models and binary data sets with missing answers; all two-item data; all ability distributions and random samples of growing size", "why_tests_cant": "Existence and uniqueness of a minimum over all real parameters, a characterisation by all ways to split respondents and items into two groups, and an almost sure limit over infinite samples cannot be tested.", "anchors": ["irtorch/estimation_algorithms/jml.py: JML.fit, JML._training_loop", "irtorch/models/base_irt_model.py: BaseIRTModel.log_likelihood", "irtorch/models/one_parameter_logistic.py: OneParameterLogistic"]}
{"id": "C112", "title": "Figures of item probabilities show every category with its probabilities and its own colour", "statement": "A figure of item probabilities has one line (or, for two latent variables, one surface) per response category, labelled with the category. The height of the line of a category at a plotted score is the probability of that category there, and at every plotted score the heights of the lines are non-negative and sum to one. With a group fit, each category also has a marker per group for the data and for the model, at the mean score of the group and in the colour of the category. The colours are those of the palette in turn, whatever was drawn before in the session, and drawing a figure leaves the palette of other figures alone. In grayscale the categories go from light gray to black in distinct grays.", "quantifier": "every table of probabilities, item, number of categories, range, number of steps, fixed values, group fit, palette and every sequence of figures drawn before", "why_tests_cant": "Tests look at the type of the returned figure for one model; the heights, the colours after an arbitrary session and the grays for any number of categories are not enumerable.", "anchors": ["irtorch/plotter.py:Plotter.item_probabilities", "irtorch/plotter.py:_item_probabilities_plot", "irtorch/plotter.py:_item_probabilities_3dplot", "irtorch/plotter.py:_generate_grayscale_colors"]}
{"id": "C113", "title": "Marginal maximum likelihood does not depend on the order of respondents and items, and unanswered items do not disturb the others", "statement": "Fitting a model by MML to the same answers with the respondents in another order gives the same parameters. With the items (and their numbers of categories) in another order, corresponding items get the same slopes, intercepts and guessing parameters and the same response probabilities. An item that nobody answered keeps its starting values and changes nothing for the other items. Respondents who answered nothing change the objective by a constant only, and with Gauss-Hermite integration leave the fit as it is.", "quantifier": "all permutations of respondents and items, all positions and numbers of unanswered items and empty respondents, all data with missing answers, all item category counts, numbers of latent variables, integration methods, learning rates, epochs and optimisers that treat entries alike", "why_tests_cant": "A test compares two orders of one data set after a few epochs within a tolerance; the claim is about every reordering of every data set and the whole training history, including the learning rate schedule and early stopping.", "anchors": ["irtorch/estimation_algorithms/mml.py: MML.fit, _training_loop, _train_step, _quasi_mc", "irtorch/models/two_parameter_logistic.py", "irtorch/models/three_parameter_logistic.py", "irtorch/models/generalized_partial_credit.py", "irtorch/models/base_irt_model.py: log_likelihood"]}
{"id": "C114", "title": "Encoder scores depend on the respondent's own answers only", "statement": "After model.fit with AE or VAE has returned, latent_scores(data, theta_estimation='NN') gives every respondent scores computed by the trained network from this respondent's own answers: they do not depend on who else is scored, on the order of the rows, on what was scored before or on failed fits of other algorithm objects, and scoring changes nothing. The standard encoder returns one score per latent variable, the bounded encoder scores strictly between -1 and 1.", "quantifier": "every network (any layers and parameters, with or without batch normalisation), every history of fits and scoring calls, every data matrix", "why_tests_cant": "batch normalisation couples respondents in training mode; whether a history can leave the network in that mode, or whether any input couples rows, ranges over all histories, networks and data", "anchors": ["irtorch/estimation_algorithms/encoders/standard_encoder.py: StandardEncoder", "irtorch/estimation_algorithms/encoders/variational_encoder.py: VariationalEncoder", "irtorch/estimation_algorithms/encoders/bounded_encoder.py: BoundedEncoder", "irtorch/estimation_algorithms/ae.py: AE.fit, AE.theta_scores", "irtorch/estimation_algorithms/vae.py: VAE.fit, VAE.theta_scores, VAE.latent_mean_se", "irtorch/models/base_irt_model.py: fit, latent_scores"]}
{"id": "C115", "title": "Autoencoders with batch normalisation can be trained on any number of respondents", "statement": "model.fit with AE or VAE and batch_normalization_encoder=True raises nothing for any number of respondents and any batch size, and a fit of at least one epoch that meets no NaN changes the parameters at least once.", "quantifier": "every encoder of fitting sizes, every data matrix, batch size, number of epochs and shuffling", "why_tests_cant": "whether the last batch of an epoch is too small depends on number of respondents and batch size together; tests use a few convenient sizes", "anchors": ["irtorch/estimation_algorithms/ae.py: AE.fit, AE._train_step", "irtorch/estimation_algorithms/vae.py: VAE.fit", "irtorch/estimation_algorithms/encoders/variational_encoder.py: VariationalEncoder"]}
{"id": "C116", "title": "Evaluations do not depend on the order of the respondents", "statement": "Listing the same respondents (answers and scores) in another order leaves every item-level and overall evaluation unchanged (residual averages, accuracy, predictions table, infit and outfit, Q3, mutual information differences, log-likelihood, group fit), and moves respondent-level results with the respondents.", "quantifier": "every number of respondents, every permutation, every probability function, every answers with or without missing cells", "why_tests_cant": "a permutation test on one data set cannot cover ties, missing cells and group borders together", "anchors": ["irtorch/evaluator.py: residuals, accuracy, predictions, infit_outfit, q3, mutual_information_difference, log_likelihood, latent_group_probabilities, group_fit_residuals, group_fit_log_likelihood"]}
{"id": "C117", "title": "An evaluation gives the same result whenever it is called", "statement": "Calling an evaluation of a fitted model with given data and latent scores returns the same value or raises the same error, whatever evaluations, scoring calls and changes of scale were made before on the same tensors (a change of scale only matters for evaluations on the transformed scale). Earlier calls change nothing in the data but the coding of missing responses. A call without data evaluates the training data (AttributeError if the model was not trained), and a call without latent scores gives what it gives when the scores are computed first with the same method and passed in.", "quantifier": "every fitted model that sees the data through its likelihood, every collection of data tensors with or without missing responses, every finite history of evaluation calls, scoring calls and scale changes, every evaluation call afterwards", "why_tests_cant": "The calls write into the user's tensors (NaN becomes -1), so the result of a call depends on its history in principle; tests run each evaluation once on fresh data and never compare results after different histories.", "anchors": ["irtorch/evaluator.py:_evaluate_data_theta_input", "irtorch/evaluator.py:residuals", "irtorch/evaluator.py:accuracy", "irtorch/evaluator.py:q3", "irtorch/evaluator.py:group_fit_log_likelihood", "irtorch/evaluator.py:mutual_information_difference", "irtorch/models/base_irt_model.py:latent_scores"]}
{"id": "C118", "title": "The tests of local independence reject a true model no more often than their level", "statement": "If the responses really come from the model at the latent scores passed to evaluate.q3 or evaluate.mutual_information_difference with sample_hypothesis_test=True, the probability that two different items get a p-value of at most a is at most a, up to the resolution of the simulation; and the tests always return p-values in [0,1] for such data.", "quantifier": "every model with valid probabilities, every set of latent scores, every pair of items, every level, every number of simulated data sets; probability over the data and the simulations", "why_tests_cant": "The statement is about a distribution over all data sets and all simulated data sets; a unit test sees a handful of draws and cannot estimate error rates, let alone for every model.", "anchors": ["irtorch/evaluator.py:q3", "irtorch/evaluator.py:mutual_information_difference", "irtorch/models/base_irt_model.py:sample_test_data"]}
{"id": "C119", "title": "More points on the test go with a higher latent variable", "statement": "The number of points of a respondent, whose distribution given the latent scores is what the model-implied sum score probabilities are computed from, orders respondents by the latent variable. Respondents who have a higher latent score, on items that do not point downwards, have stochastically more points and a higher expected number of points. Conversely, in any population, those with more points have a mean latent score that is not lower.", "quantifier": "every 1PL, 2PL, 3PL, GPC, nominal, graded, monotone polynomial, monotone network and monotone B-spline model with slopes that are not negative, every pair of latent scores, every pair of numbers of points, every finite population of respondents", "why_tests_cant": "The distribution of the number of points sums over all response patterns of the test, and the claim compares it at all latent scores and in all populations; tests compute a few distributions of two or three items.", "anchors": ["irtorch/_internal_utils.py:conditional_score_distribution", "irtorch/evaluator.py:sum_score_probabilities", "irtorch/models/generalized_partial_credit.py", "irtorch/models/three_parameter_logistic.py", "irtorch/models/monotone_polynomial.py"]}
{"id": "C120", "title": "A failed fit leaves the model usable and can be repeated", "statement": "A call of model.fit with any algorithm that is refused because of its arguments leaves the model exactly as it was. A call that raises or is interrupted at any point leaves the model pointing to the algorithm object it had, with parameters reached by some number of the optimiser updates of the call. A call that is not refused and not interrupted completes. After any failed or completed attempt, putting the parameters back and repeating the call gives the same outcome and the same fit as if the attempt had never been made, and the training data of the successful call is what the algorithm stores.", "quantifier": "every call of fit with MML, JML, AE and VAE (every data set, argument and loss function), every point at which it raises or is interrupted, every state of the model and of the algorithm object before", "why_tests_cant": "There are as many crash points as statements executed, and the states before a call are all histories of earlier calls; a test can raise an exception at one or two chosen places.", "anchors": ["irtorch/models/base_irt_model.py:fit", "irtorch/estimation_algorithms/base_irt_algorithm.py:fit", "irtorch/estimation_algorithms/mml.py:fit", "irtorch/estimation_algorithms/jml.py:fit", "irtorch/estimation_algorithms/ae.py:fit", "irtorch/estimation_algorithms/vae.py:fit"]}
{"id": "C121", "title": "A fit by marginal maximum likelihood reproduces the observed numbers of answers, and exists only if every answer was given", "statement": "For the 1PL, 2PL, generalized partial credit and nominal response models: if the gradient of the loss that MML minimises is zero with respect to the intercepts (in particular at a minimum), then for every item and every response category the number of respondents who gave that response equals the number the fitted model expects, each respondent being represented by the posterior distribution of their latent scores given their own answers; missing answers count on neither side. The converse holds too. Observed and expected item totals then agree. If the gradient with respect to the slopes is zero, the posterior mean latent scores weighted by observed responses equal those weighted by expected responses. Consequently, if some category of an item that somebody answered was chosen by nobody (for instance an item that everybody solved) then no intercepts minimise the loss: MML estimates do not exist for all data. Conversely, if every category of every answered item was chosen by somebody, then for any given slopes intercepts that minimise the loss exist.", "quantifier": "all models of the four families with any parameters, relationships and numbers of categories, all integration points and log weights, all numbers of respondents, all data with missing values", "why_tests_cant": "The gradient of a sum over integration points of products over items has to be identified for every parameter, data set and quadrature; a test can compare counts for one fit, and only up to the convergence tolerance, and can never show that no minimum exists.", "anchors": ["irtorch/estimation_algorithms/mml.py: MML._train_step", "irtorch/models/one_parameter_logistic.py: forward", "irtorch/models/two_parameter_logistic.py: forward", "irtorch/models/generalized_partial_credit.py: forward", "irtorch/models/nominal_response.py: forward", "irtorch/models/base_irt_model.py: log_likelihood"]}
{"id": "C122", "title": "Derivatives and scores leave no trace in later results", "statement": "Computing derivatives (expected_item_score_gradients, probability_gradients, information, jacobian of a scale) or latent scores with a model has no effect on later fits: whatever such calls came before, and however they ended, fit gives the parameters it would have given without them, because no gradient left behind is added to a later one and no parameter stays frozen or becomes unfrozen. The derivatives themselves do not depend on whether the caller has switched gradients off or on what was computed before, each item gets its own derivatives, the caller's tensor of latent scores is left as it was, and standard errors are available on every scale.", "quantifier": "every loss, optimiser, number of epochs and starting values; every content of the gradient buffers; every finite history of derivative and scoring calls with every point where a call is stopped; every list of attached scales, every latent scores and flags of their tensor, gradients on or off", "why_tests_cant": "Gradient buffers and flags are hidden global state: tests start from a fresh model, so they never see what an arbitrary history of other calls leaves behind, nor calls made under no_grad with each combination of scales.", "anchors": ["irtorch/models/base_irt_model.py:expected_item_score_gradients", "irtorch/models/base_irt_model.py:probability_gradients", "irtorch/models/base_irt_model.py:latent_scores", "irtorch/models/base_irt_model.py:_ml_map_theta_scores", "irtorch/models/base_irt_model.py:theta_transform_jacobian", "irtorch/estimation_algorithms/mml.py:_train_step", "irtorch/estimation_algorithms/jml.py", "irtorch/estimation_algorithms/ae.py", "irtorch/rescale/flow.py:jacobian", "irtorch/rescale/bit.py:jacobian", "irtorch/rescale/link_common_items.py:jacobian"]}
{"id": "C123", "title": "It does not matter how the answers are coded", "statement": "Reverse coding any set of items (answer r of an item with c categories becomes c-1-r; missing answers stay missing) changes nothing of substance: for every model of the data there is a model of the same family, with the slopes of the reversed items negated, that gives every recoded answer the probability of the original answer. With it, the MML objective, the EAP scores and the objective and the start of the ML and MAP search are unchanged for every respondent, and a best model of the recoded data has the same objective value as a best model of the original data. The same holds for any renaming of the categories. Merging neighbouring categories of an item likewise leaves a model of the same family.", "quantifier": "all models of the 1PL, 2PL, 3PL, GPC, GRM and NRM families with any parameters, relationships and numbers of categories, all sets of reversed items, all renamings and mergings of categories, all data with missing values, all integration points and log weights", "why_tests_cant": "Recoding acts on every item, category and respondent at once, and equality of the best attainable loss is a statement about all parameter values; a test compares one fit of one data set up to numerical noise.", "anchors": ["irtorch/models/one_parameter_logistic.py:forward", "irtorch/models/two_parameter_logistic.py:forward", "irtorch/models/three_parameter_logistic.py:forward", "irtorch/models/generalized_partial_credit.py:forward", "irtorch/models/graded_response.py:forward", "irtorch/models/nominal_response.py:forward", "irtorch/estimation_algorithms/mml.py:_train_step", "irtorch/models/base_irt_model.py:latent_scores"]}
{"id": "C124", "title": "How far an estimation can move the parameters", "statement": "Whatever the model, the loss, the data and the settings, one training step changes no parameter by more than 7.28 times the current learning rate, and the learning rate never rises. Hence after fit with learning rate lr no parameter of the model is farther from its starting value than 7.28*lr*(number of training steps): max_epochs for MML, max_epochs times the number of batches for JML (also the latent scores), the number of batches of all epochs for the autoencoders and for flows and linking functions. The bound holds for the parameters fit keeps, and for the parameters an exception in the middle of training leaves behind. In particular the slopes of a fitted two or three parameter logistic or partial credit model are within 7.28*lr*max_epochs of one and the intercepts within that of zero, even if the data have no maximum likelihood estimate.", "quantifier": "All losses without NaN, all derivatives, all data, all learning rates, numbers of epochs and batches, schedules of the learning rate, starting values and crash points.", "why_tests_cant": "A test runs a handful of trainings; the bound is about every sequence of derivatives, including sequences built to make the optimiser's averages disagree.", "anchors": ["irtorch/estimation_algorithms/mml.py: MML.fit", "irtorch/estimation_algorithms/jml.py: JML.fit", "irtorch/estimation_algorithms/ae.py: AE.fit", "irtorch/estimation_algorithms/vae.py: VAE.fit", "irtorch/rescale/flow.py: Flow.fit", "irtorch/rescale/link_common_items.py: LinkCommonItems.fit"]}
{"id": "C125", "title": "Only the relative frequencies of the answer patterns count", "statement": "Two data sets in which every combination of latent scores and answers makes up the same proportion of the respondents, whatever the order and the number of respondents (for example a data set and the same data set with everyone entered twice), give the same evaluation: the average residuals per item and overall, accuracy, precision, recall and F1, infit and outfit of the items, mean log likelihoods, Q3 and the mutual information difference. The loss minimised by MML is proportional to the number of respondents, so of two models the same one is preferred; the fitted model is the same as well, and JML starts from the same scores.", "quantifier": "all models, latent scores and data with missing values, all pairs of data sets with the same relative frequencies, any numbers of respondents, all settings of the fit", "why_tests_cant": "Proportionality is about arbitrary frequencies and sizes of the data; a test compares one data set with one copy, where an additive constant in a denominator or a divisor n-1 may go unnoticed or be lost in a tolerance.", "anchors": ["irtorch/evaluator.py: Evaluator.residuals", "irtorch/evaluator.py: Evaluator.accuracy", "irtorch/evaluator.py: Evaluator.predictions", "irtorch/evaluator.py: Evaluator.infit_outfit", "irtorch/evaluator.py: Evaluator.log_likelihood", "irtorch/evaluator.py: Evaluator.q3", "irtorch/evaluator.py: Evaluator.mutual_information_difference", "irtorch/_internal_utils.py: correlation_matrix", "irtorch/_internal_utils.py: joint_entropy_matrix", "irtorch/estimation_algorithms/mml.py: MML.fit", "irtorch/estimation_algorithms/jml.py: JML.fit"]}
{"id": "C126", "title": "The order of the items does not matter, and an item nobody answered counts for nothing", "statement": "Putting the items of a test in another order (in the data, the model and the answer key alike) leaves everything about respondents and about the test unchanged: the MML loss, EAP scores, the objectives and starts of ML and MAP scoring, the starting scores of JML, residuals and accuracy per respondent and overall, infit and outfit per respondent, log likelihoods, the distribution of sum scores, expected sum scores and the information of the test. Results per item, and Q3 and the mutual information difference per pair of items, move with the items. Adding an item that nobody answered changes no latent score and no result about other items: fitting by MML and scoring afterwards gives everyone the same score.", "quantifier": "all models with arbitrary probabilities, all permutations of any number of items, all numbers of added items, all data with missing values and all latent scores", "why_tests_cant": "The claim ranges over all permutations and data. Layout errors (a view instead of a transpose, an index into the wrong axis) are invisible in tests where items are alike or their number equals that of respondents.", "anchors": ["irtorch/estimation_algorithms/mml.py: MML.fit", "irtorch/estimation_algorithms/jml.py: JML.fit", "irtorch/models/base_irt_model.py: BaseIRTModel.latent_scores", "irtorch/models/base_irt_model.py: BaseIRTModel.information", "irtorch/models/base_irt_model.py: BaseIRTModel.expected_scores", "irtorch/evaluator.py: Evaluator.residuals", "irtorch/evaluator.py: Evaluator.accuracy", "irtorch/evaluator.py: Evaluator.predictions", "irtorch/evaluator.py: Evaluator.infit_outfit", "irtorch/evaluator.py: Evaluator.log_likelihood", "irtorch/evaluator.py: Evaluator.q3", "irtorch/evaluator.py: Evaluator.mutual_information_difference", "irtorch/evaluator.py: Evaluator.sum_score_probabilities"]}
{"id": "C127", "title": "An unanswered item counts as an item whose answer is unknown", "statement": "The marginal likelihood MML uses for a respondent with unanswered items is the sum of the marginal likelihoods of all the ways in which they could have answered these items. Their EAP score is the mean of the EAP scores of all these completed answers, weighted with the probability of the completion given the answers they gave. In particular it lies between the smallest and the largest score they could have got by answering.", "quantifier": "all models whose category probabilities are positive and add up to one, all numbers of items and categories, all patterns of unanswered items, all integration rules and EAP grids", "why_tests_cant": "the number of completions grows exponentially with the number of unanswered items and the identity must hold for every model and pattern; a test can only compare a few", "anchors": ["irtorch/estimation_algorithms/mml.py: _train_step", "irtorch/models/base_irt_model.py: BaseIRTModel.log_likelihood, _eap_theta_scores"]}
{"id": "C128", "title": "EAP scores are calibrated and the best scores where the model is true", "statement": "For respondents whose latent scores follow the prior on the EAP grid and whose answers follow the model: every answer pattern gets a score; the mean latent score of the respondents in any group formed by EAP score is the mean of their EAP scores; the error of the score is uncorrelated with everything that can be computed from the answers; no other score computed from the same answers has a smaller mean squared error, and one that is as good gives everybody the same score; asking more items never increases the error; the variance of the latent variable is that of the scores and the mean squared error together, so EAP scores vary less than the latent variable.", "quantifier": "all models whose category probabilities are positive and add up to one, all sets of items asked, all covariances and grids, up to four latent variables", "why_tests_cant": "statements about expectations over all answer patterns and about all competing scoring rules", "anchors": ["irtorch/models/base_irt_model.py: BaseIRTModel.latent_scores, _eap_theta_scores, _theta_grid"]}
{"id": "C129", "title": "The true model wins", "statement": "On respondents whose answers follow a model, no other model (of whatever item type and number of latent variables) and no other latent scores have on average a smaller MML loss, a larger log likelihood in the evaluator, or a larger accuracy; a model with the same average loss or log likelihood gives every answer pattern the same probability.", "quantifier": "all pairs of models for the same items whose category probabilities add up to one, all latent scores, all integration rules", "why_tests_cant": "quantifies over all competing models and over expectations; a simulation can only compare a few models on a finite sample", "anchors": ["irtorch/estimation_algorithms/mml.py: _train_step, _quasi_mc", "irtorch/evaluator.py: log_likelihood, accuracy"]}
{"id": "C130", "title": "Where the model is true, residuals are zero and fit statistics are one on average", "statement": "If every answer has the probability the model gives it, independently of the others, and which items were asked does not depend on the answers, then averaged over all data sets residuals() is zero for every item asked of somebody, for every respondent asked something and overall, and infit_outfit() is one: infit for every item (respondent) unless the model is certain of all its answers, outfit if the model is certain of none of its answers.", "quantifier": "every number of respondents, items and categories, every table of probabilities, every pattern of asked items, every answer key", "why_tests_cant": "a test compares one simulated data set with a tolerance; the claim is about the average over all data sets, which are exponentially many, for every model", "anchors": ["irtorch/evaluator.py: residuals", "irtorch/evaluator.py: infit_outfit"]}
{"id": "C131", "title": "Fitting and scoring a mix of models", "statement": "A mix of models is fitted and scored from the likelihood of all responses of a respondent: the objective of ML and MAP scores and of JML is the likelihood of all observed responses (times the prior density for MAP), the MML loss is minus the log of the marginal likelihood of each respondent, EAP scores are posterior means, and a variational autoencoder maximises the evidence lower bound (one sample) or the importance weighted bound (several samples); a mix of one model behaves like that model.", "quantifier": "every list of models to mix that compute their own likelihoods correctly, every number of respondents, items and categories, every valid response matrix with missing responses, every set of quadrature points", "why_tests_cant": "a test of a mix compares a few numbers; which log likelihoods end up in which sum depends on the numbers of respondents, of quadrature points and of items of every model in the mix", "anchors": ["irtorch/models/model_mix.py: ModelMix.log_likelihood", "irtorch/models/model_mix.py: ModelMix.forward", "irtorch/estimation_algorithms/mml.py: _train_step", "irtorch/models/base_irt_model.py: _eap_theta_scores", "irtorch/models/base_irt_model.py: latent_scores", "irtorch/estimation_algorithms/jml.py: _train_step"]}
{"id": "C132", "title": "Long tests measure the latent variables exactly", "statement": "Draw latent scores from the EAP grid with its weights and answers from the model. The mean squared error of the EAP scores is at most a weighted sum over pairs of grid points of the squared difference of the scores times the product over items of the affinities of the item's answer distributions at the two points. An affinity is at most one, and one only if the item answers alike at both points. So with a fixed grid, any bound below one on the affinities and any tolerance, there is a number of items from which on the mean squared error is below the tolerance, whatever the model. For the unidimensional 1PL, 2PL and generalized partial credit models it suffices that the sizes of the slopes stay between two positive bounds and the intercepts and numbers of categories stay bounded.", "quantifier": "all models, numbers of items and categories, grids, covariances, tolerances and bounds on affinities or item parameters", "why_tests_cant": "A statement about the limit of arbitrarily long tests, averaged over all answer patterns of a test; the number of patterns grows exponentially with the items.", "anchors": ["irtorch/models/base_irt_model.py: latent_scores, _eap_theta_scores", "irtorch/models/two_parameter_logistic.py: TwoParameterLogistic.forward"]}
{"id": "C133", "title": "With many respondents marginal maximum likelihood finds the true model", "statement": "Draw respondents independently from a population on the points of the integration rule, with answers from a true model. On every sample, a model whose MML loss is not larger than that of the true model gives answer patterns probabilities whose summed absolute distance from the true ones, squared, is at most sixteen times Pearson's distance between the frequencies of the sample and the truth; on average over all samples of N respondents that is at most 16 (number of patterns - 1) / N. So for every distance and every risk there is a number of respondents from which on a best fit is further from the truth with at most that risk. In a family with continuous probabilities, parameters in a compact set and an identified truth the parameter estimates converge to the truth; for the 1PL model with bounded intercepts the best intercepts exist on every sample and converge.", "quantifier": "all models of any item type, integration rules, numbers of items, categories and respondents, all samples, all ways to choose a model that fits the sample at least as well as the truth", "why_tests_cant": "A statement about the probability of all samples of any size and about the limit of large samples; a simulation sees one sample at a time.", "anchors": ["irtorch/estimation_algorithms/mml.py: MML._train_step, MML._training_loop", "irtorch/models/one_parameter_logistic.py: OneParameterLogistic"]}
{"id": "C134", "title": "The evaluator's log likelihood of a mix of models", "statement": "For a test made of several models (`ModelMix`), `evaluator.log_likelihood` at the default level 'all' is the sum (or mean) over all observed responses of their log probabilities under the model that the item belongs to, with -30 for impossible ones. The values of `level='respondent'`, `level='item'`, `reduction='none'` and `group_fit_log_likelihood` belong to the respondents, items and groups that they are reported for.", "quantifier": "all mixes of models whose cellwise log likelihood is right (C02), all numbers of models, items and respondents, all latent scores, all valid data with missing responses", "why_tests_cant": "A mix with one model, or data of one respondent, gives right values, and so does the default level; only the assignment of the numbers to rows and columns for several models and several respondents is wrong.", "anchors": ["irtorch/models/model_mix.py:ModelMix.log_likelihood", "irtorch/evaluator.py:Evaluator.log_likelihood", "irtorch/evaluator.py:Evaluator.group_fit_log_likelihood"]}
{"id": "C135", "title": "Linking by common items finds the relation of the two scales", "statement": "If the common items of two models have the same response curves when the scores of the first model are changed by some function g, then no linking function has a loss below that of g by more than M 1e-10, and every linking function whose loss is at most eta above that of g gives the common items nearly the right probabilities: the mean squared difference over respondents and items is at most 10 eta + 11 M 1e-10. For two-parameter logistic models with g(theta) = A theta + B the linked scores themselves are right: the share of the fitted respondents whose linked score is off by delta or more is bounded by an explicit number that is proportional to eta + 2.2e-10. The same holds, with a constant that depends on the models, the bound on the scores and delta only, for generalized partial credit models and for all models with a common item one of whose categories has a continuous and strictly monotone probability.", "quantifier": "all pairs of models, all lists of common items, all samples of scores, all linking functions (splines, networks or others), all g, all eta and delta", "why_tests_cant": "An example shows that one training run came close to one true link; that a low loss always means a right link, for all samples and links, is an inequality between Kullback-Leibler divergences and distances on the scale.", "anchors": ["irtorch/rescale/link_common_items.py:LinkCommonItems._loss_function", "irtorch/rescale/link_common_items.py:LinkCommonItems.fit"]}
{"id": "C136", "title": "In models with a common slope the number of points says everything about the latent variables", "statement": "For a one-parameter logistic model, and for a generalized partial credit model whose items have the same slopes, the probability of a complete set of answers is the probability of its number of points, as computed by conditional_score_distribution, times a number that does not depend on the latent variables. Respondents with the same number of points therefore have the same distribution of answers in every population, and of those who solve exactly one of two items of a one-parameter logistic model the share who solve the first is logistic(b1 - b2) for every latent score. With different slopes this is not so.", "quantifier": "all models of the two families, numbers of items, categories and latent variables, all parameters, all latent scores, all answers and all finite populations", "why_tests_cant": "It is an identity for all latent scores; the comparison of items by the model is only meaningful if it holds for all of them.", "anchors": ["irtorch/models/one_parameter_logistic.py:OneParameterLogistic.forward", "irtorch/models/generalized_partial_credit.py:GeneralizedPartialCredit.forward", "irtorch/_internal_utils.py:conditional_score_distribution"]}
{"id": "C137", "title": "The answers count, not the memory layout of the tensor that holds them", "statement": "A call that takes a table of answers depends on the answers only: a transposed tensor, a slice of columns or rows, a table stored column after column, or integers instead of floats give the same log likelihood, scores, evaluations and fits, and leave the same tensors behind.", "quantifier": "all tensors (memory, offset, sizes and strides) that hold the same table, all sizes, float and 64-bit integer numbers, all models, all mixes of models", "why_tests_cant": "Tests use fresh, contiguous float tensors. Which strides make view(-1) fail, and whether an in-place write reaches the caller's memory, depends on the combination of sizes and strides; there are infinitely many.", "anchors": ["irtorch/models/base_irt_model.py: BaseIRTModel.log_likelihood, latent_scores", "irtorch/models/model_mix.py: ModelMix.log_likelihood", "irtorch/evaluator.py: Evaluator._evaluate_data_theta_input, residuals", "irtorch/_internal_utils.py: one_hot_encode_test_data", "irtorch/irt_dataset.py: PytorchIRTDataset"]}
{"id": "C138", "title": "Maximum likelihood and MAP scores of long tests are as exact as one likes", "statement": "For a respondent who answers according to the model, the chance that latent_scores with theta_estimation='ML' or 'MAP' gives a score that is off by epsilon or more, or that there is no maximum at all, falls geometrically with the number of items the respondent was asked: for all bounds on slopes, intercepts, number of categories and size of the score, all epsilon and delta there is a number of items from which on the chance is below delta, for every test within the bounds, whichever items were asked.", "quantifier": "all 1PL, 2PL, generalized partial credit and nominal response models with one latent variable whose items have bounded parameters and two categories with different slopes; all subsets of asked items, all latent scores up to a bound, all epsilon and delta, all positive definite prior covariances, all starting values; optimisers that stop where the gradient is zero whenever a maximum exists", "why_tests_cant": "A simulation looks at a few tests, respondents and draws; the claim is about the probability over all sets of answers, for tests of every length, and needs that there are no other maxima.", "anchors": ["irtorch/models/base_irt_model.py: BaseIRTModel.latent_scores, _ml_map_theta_scores, log_likelihood", "irtorch/models/two_parameter_logistic.py: TwoParameterLogistic", "irtorch/models/generalized_partial_credit.py: GeneralizedPartialCredit", "irtorch/models/nominal_response.py: NominalResponse"]}
{"id": "C139", "title": "Rounding errors and the order of summation change results only by small relative amounts", "statement": "In any floating point arithmetic whose operations have relative error at most u (plus underflow), and with every sum taken in any order, the computed log likelihood differs from the exact one by at most a small multiple of its size plus a small amount per answer: for 32-bit numbers and up to eight categories, 2e-5 of its size plus 2e-5 per answer. Logits, category probabilities, expected scores, the marginal likelihood loss and EAP scores have bounds of the same kind, whatever the order in which torch adds (number of threads, vector width, order of the respondents). Computed probabilities are never below zero or above one. The results are not bitwise independent of the order of summation.", "quantifier": "every floating point arithmetic with bounded relative errors, every order of summation, every number of answers, respondents, categories and grid points, every logit", "why_tests_cant": "A test sees one build, one number of threads and one data set; the order of the additions, and with it the rounding errors, differ between machines and sizes, and a formula with cancellation would only show on some of them.", "anchors": ["irtorch/models/base_irt_model.py: BaseIRTModel.log_likelihood, item_probabilities, expected_scores, _eap_theta_scores", "irtorch/estimation_algorithms/mml.py: MML._train_step", "irtorch/models/two_parameter_logistic.py: TwoParameterLogistic.forward"]}
{"id": "C140", "title": "MAP scores are stable", "statement": "latent_scores with theta_estimation='MAP' does not need an optimiser that stops exactly at the mode: the distance of a returned score to the MAP score, in units of the prior, is at most the size of the gradient there, and the squared distances of all respondents add up to at most twice the amount by which the objective is below its maximum; rounding errors in the objective enter in the same way. Answers of a respondent that are changed, added or removed move the MAP score by at most the sum of the slopes of these items; with one latent variable more weighted points never lower it. Errors of the item parameters that change the logits by at most l move the squared MAP score by at most 4 l per answered item.", "quantifier": "every log-concave model (logit models and graded response) for the search; every multinomial logit model (1PL, 2PL, generalized partial credit, nominal response) for answers and parameters; every prior covariance matrix, response pattern, optimiser and starting value", "why_tests_cant": "Optimisers stop at a tolerance and after a number of iterations that depend on data and machine; a test can compare with one known solution but cannot bound the distance for all response patterns, parameters and stopping points.", "anchors": ["irtorch/models/base_irt_model.py: BaseIRTModel.latent_scores, _ml_map_theta_scores"]}
{"id": "C141", "title": "With more Gauss-Hermite points marginal maximum likelihood approaches the exact marginal likelihood", "statement": "With integration_method='gauss_hermite' and n points per dimension, the loss MML.fit minimises converges, as n grows, to minus the log of the exact marginal likelihood of the data, for every number of latent variables, every positive definite covariance matrix and every model whose positive probabilities are continuous; expectations computed by gauss_hermite converge to the normal expectations. Of two parameter sets the loss with enough points prefers the one with the larger exact likelihood, and the parameters that minimise the losses (up to errors that vanish) can converge only to parameters that maximise the exact likelihood; if these are unique in a compact set, they do converge to them. The nodes of the rule need not be assumed distinct nor its weights positive. With integration_method='quasi_mc' the loss, up to a constant, converges to a strictly larger value, since it leaves out the latent scores outside [-3, 3].", "quantifier": "every dimension, mean, positive definite covariance matrix with its Cholesky factor, sequence of rules with the documented exactness of numpy.polynomial.hermite.hermgauss, bounded continuous function, model with positive continuous probabilities, data set with missing answers, compact set of parameters and sequence of (near) minimisers", "why_tests_cant": "A test compares a few numbers of points for one model; it cannot show convergence as the number grows, nor for every model and data set, nor that the estimates converge with the losses.", "anchors": ["irtorch/utils.py: gauss_hermite", "irtorch/estimation_algorithms/mml.py: MML.fit, MML._quasi_mc, MML._train_step"]}
{"id": "C142", "title": "A wrong model rarely does better on new respondents", "statement": "If the answers of new respondents follow a model, the probability that another model has a log likelihood that is larger by a or more is at most exp(-a): for the evaluator's log_likelihood at given latent scores (those of the other model chosen in any way that does not use these answers) and for the marginal likelihood, that is the loss of MML (with integration weights of equal sum). The probability that the other model is not worse decreases exponentially with the number of respondents at a rate given by the distance of the two distributions of answers, so that the choice between finitely many models by the loss on new respondents finds a model close to the truth with a risk as small as one likes. With scores estimated from the same answers this is false: a wrong model can have the larger log likelihood whatever the answers are.", "quantifier": "every pair or finite family of models with positive probabilities, of any dimensions, every number of items, categories and respondents, all latent scores, every integration rule, every margin a and every set of samples in which the other model wins", "why_tests_cant": "Tests compare two fitted models on one data set; the claim is about the probability over all data sets, for all models, and needs an argument about likelihood ratios.", "anchors": ["irtorch/evaluator.py: Evaluator.log_likelihood", "irtorch/models/base_irt_model.py: BaseIRTModel.log_likelihood", "irtorch/estimation_algorithms/mml.py: MML._train_step"]}
{"id": "C143", "title": "The origin and the units of the latent variables are a convention", "statement": "Take a fitted 2PL, generalized partial credit, graded response or nominal response model and any new scale for its latent variables (other origin, other units, new variables that mix old ones as far as the relationships between items and latent variables allow). There is a model of the same family and shape that says on the new scale exactly what the model says on the old one; ordered graded intercepts stay ordered. The two models give all data the same log-likelihoods, the same ML scores, the same MAP scores when the origin is kept and the prior covariance is in the same units, the same marginal loss with Gauss-Hermite integration when the covariance is in the same units, and information matrices related by the change of units. So fitting one latent variable with variance s squared instead of one gives the same best partial credit model with slopes divided by s. A 1PL absorbs another origin. Not conventions: the unit of a 1PL, the origin for MAP scores (the prior mean is always zero), and the covariance for the equidistant grid.", "quantifier": "all well-formed models, changes of scale that respect the relationships, data sets with missing answers, scores, integration rules and covariances", "why_tests_cant": "there is a continuum of scales and models, and the equalities hold for every data set at once; a test can compare a few numbers for one rescaled model", "anchors": ["irtorch/models/two_parameter_logistic.py: forward", "irtorch/models/generalized_partial_credit.py: forward", "irtorch/models/graded_response.py: forward", "irtorch/models/nominal_response.py: forward", "irtorch/models/one_parameter_logistic.py: forward", "irtorch/models/base_irt_model.py: _ml_map_theta_scores, information", "irtorch/estimation_algorithms/mml.py: fit, _quasi_mc", "irtorch/utils.py: gauss_hermite", "irtorch/evaluator.py: log_likelihood"]}
{"id": "C144", "title": "Questions left out for reasons visible in the answers do no harm", "statement": "If the answers of the respondents follow a model and which questions a respondent answers depends on chance and on the answers given, but not on the answers that were not given (as in every adaptive or branched test, whatever the rule for the next question), then no other model has on average a smaller MML loss on the incomplete data; a model with the same average loss gives the same probability to everything that can be seen; a model that fits a sample at least as well as the true one is near the truth in the distribution of what is seen, with a mean square distance of at most 16 (number of possibilities - 1) / number of respondents, so that fits converge. EAP scores computed from the given answers are calibrated and have the smallest mean squared error of all scores computed from what is seen. If questions are left out because the answer is not known, this is false.", "quantifier": "all models of any item type and dimension with positive probabilities, all integration rules, all rules (random or not) by which questions are left out, all samples, all fits that are at least as good as the truth, all scores computed from what is seen", "why_tests_cant": "Tests fit simulated data with values missing completely at random; they cannot range over all adaptive rules nor show an average over all data sets to be minimal.", "anchors": ["irtorch/estimation_algorithms/mml.py:MML", "irtorch/models/base_irt_model.py:BaseIRTModel.log_likelihood", "irtorch/models/base_irt_model.py:BaseIRTModel._eap_theta_scores"]}
{"id": "C145", "title": "Resetting the parameters of a used model", "statement": "Calling reset_parameters on a OneParameterLogistic, TwoParameterLogistic, ThreeParameterLogistic, GeneralizedPartialCredit, NominalResponse or GradedResponse model returns, and afterwards the parameters are exactly those a new model built with the same constructor arguments (and the same random draws) has, whatever training, loading, scale changes or earlier resets went before. So training the model again is training a new model. The whole object is as new and every model has the method.", "quantifier": "every constructor call of the six families, every random draw, every history of fits, loads, scale changes and resets that keeps the tensor shapes", "why_tests_cant": "tests reset one model after one short training; the claim is about every history of the object and every constructor argument", "anchors": ["irtorch/models/one_parameter_logistic.py: OneParameterLogistic.reset_parameters", "irtorch/models/two_parameter_logistic.py: TwoParameterLogistic.reset_parameters", "irtorch/models/three_parameter_logistic.py: ThreeParameterLogistic.reset_parameters", "irtorch/models/generalized_partial_credit.py: GeneralizedPartialCredit.reset_parameters", "irtorch/models/nominal_response.py: NominalResponse.reset_parameters", "irtorch/models/graded_response.py: GradedResponse.reset_parameters", "irtorch/models/model_mix.py: ModelMix.reset_parameters"]}
{"id": "C146", "title": "EAP scores and marginal likelihoods change little when item parameters or one answer change", "statement": "If the log probabilities of all answers under two models differ by at most delta at the integration points, the EAP scores latent_scores reports for a respondent with n answers differ by at most 1 - exp(-2 n delta) times the range of the integration grid, and the MML losses by at most delta per answer. For 2PL and generalized partial credit models delta is given by the differences of the reported slopes and intercepts. Another answer to one item (or none) moves the EAP scores by at most 1 - exp(-s) times the range, s being how much the log odds of the two answers vary over the grid; for a 2PL item that is the slope times the range.", "quantifier": "every pair of models with the same categories, every response row with any missing cells, every training history that leaves a usable grid, any number of items and up to four latent variables", "why_tests_cant": "tests compare scores of particular parameter values; the bound must hold for all parameters, answers and grids at once", "anchors": ["irtorch/models/base_irt_model.py: BaseIRTModel.latent_scores, BaseIRTModel._eap_theta_scores", "irtorch/estimation_algorithms/mml.py: MML._train_step", "irtorch/models/two_parameter_logistic.py: TwoParameterLogistic.forward", "irtorch/models/generalized_partial_credit.py: GeneralizedPartialCredit.forward"]}
{"id": "C147", "title": "Expected scores, score distributions, difficulties and information agree", "statement": "The score summaries of a model tell one story. The mean of conditional_score_distribution is what expected_scores reports, with and without an answer key, and its variance is the sum of the variances of the item scores. The mean of sum_score_probabilities is the mean of expected_scores over the latent density used, and with the respondents' own scores as density it is the sum over the items of the highest score times one minus population_difficulty. The squared slope of expected_scores is never above the variance of the score distribution times the information; for 1PL and partial credit models with a common slope it is equal (for the 1PL information, variance and slope are one number), and for logit models with different item slopes the difference is half the sum over pairs of items of the product of their variances and the squared difference of their slopes.", "quantifier": "all probability tables, models with any number of items, categories and latent variables, latent scores, latent densities and answer keys", "why_tests_cant": "an identity between five functions computed by different code (a loop over items, a tensor product, automatic differentiation) for all probability tables; unit tests check each function on a few numbers", "anchors": ["irtorch/_internal_utils.py:conditional_score_distribution", "irtorch/_internal_utils.py:sum_incorrect_probabilities", "irtorch/models/base_irt_model.py:BaseIRTModel.expected_scores", "irtorch/models/base_irt_model.py:BaseIRTModel.information", "irtorch/models/base_irt_model.py:BaseIRTModel.population_difficulty", "irtorch/evaluator.py:Evaluator.sum_score_probabilities"]}
{"id": "C148", "title": "The reported Jacobian of the bit scale is the slope of the bit scores", "statement": "For a bit scale on all items of a model with one latent variable, the Jacobian returned for a latent score above the starting theta is the derivative, at that score, of the bit score: of the documented integral, and of the score that `transform` itself returns with its finite grid when no item entropy turns between the neighbouring grid points. Only the 1e-10 that the transformation adds inside the logarithm separates the two, and it changes the slope by at most the sum over items and categories of |p'| (1e-10/p)^2 / ln 2. Below the starting theta all bit scores are zero and so is their slope, but the Jacobian still reports the slope of the entropies.", "quantifier": "every model with one latent variable and differentiable item probabilities, every starting theta, orientation and grid, every latent score", "why_tests_cant": "The slope of the transformation is a limit, so a test can only compare finite differences at a few scores, and the agreement has to hold for every model and score.", "anchors": ["irtorch/rescale/bit.py:Bit.jacobian", "irtorch/rescale/bit.py:Bit.transform", "irtorch/rescale/bit.py:Bit._compute_multi_dimensional_bit_scores", "irtorch/_internal_utils.py:entropy"]}
{"id": "C149", "title": "A Gaussian mixture follows the scale of the data and ignores their order", "statement": "Fitting a Gaussian mixture to data on another scale (any invertible linear map and any shift), from a start expressed on that scale, gives the same mixture on the new scale after any number of iterations: equal weights and responsibilities, moved means, transformed covariances, the density divided by the change of volume, and the log likelihood changed by a constant that does not depend on the mixture. It fails exactly when the fit on the old scale fails. The order of the respondents has no effect and the order of the components of the start is the order of the fitted components. With one component this also holds for newly constructed mixtures, whatever means were drawn; with more it does not, because the constructor draws means around zero with unit covariances whatever the data are.", "quantifier": "all data sets, invertible scale changes, starting mixtures, numbers of components and features, permutations of respondents and components, numbers of iterations", "why_tests_cant": "equivariance under every linear map and every iteration count; tests fit particular data from particular random starts", "anchors": ["irtorch/torch_modules/gaussian_mixture_model.py:GaussianMixtureModel.fit", "irtorch/torch_modules/gaussian_mixture_model.py:GaussianMixtureModel.forward", "irtorch/torch_modules/gaussian_mixture_model.py:GaussianMixtureModel.pdf", "irtorch/torch_modules/gaussian_mixture_model.py:GaussianMixtureModel.__init__"]}
{"id": "C150", "title": "Joint maximum likelihood ignores the order of the data", "statement": "Fitting a model by joint maximum likelihood with the default batch size to the same answers with the respondents (and their starting scores) in another order gives the same item parameters and the same latent score for everyone, whatever the optimiser settings and the number of epochs. Two respondents with the same answers and the same starting scores end with the same latent scores; with one latent variable the default starting scores already are the same. For one and two parameter logistic and generalized partial credit models the same holds for the order of the items, and items nobody answered or respondents who answered nothing do not change anything else; such respondents keep their starting scores. With batches smaller than the data this is not so: respondents with the same answers in different batches can get different scores.", "quantifier": "all models whose log likelihood is that of their response probabilities, all data sets with any missing pattern, permutations of respondents and items, starting values, optimiser settings, numbers of epochs", "why_tests_cant": "symmetry of a whole training run under every permutation and any number of epochs; tests train on a few data sets in one order", "anchors": ["irtorch/estimation_algorithms/jml.py:JML.fit", "irtorch/estimation_algorithms/jml.py:JML._training_loop", "irtorch/irt_dataset.py:PytorchIRTDataset.__getitem__"]}
{"id": "C151", "title": "With many respondents from a normal population and enough points marginal maximum likelihood finds the truth", "statement": "If the latent scores of the respondents follow the normal distribution with the covariance matrix given to MML.fit, the answers follow a model and the fit uses integration_method='gauss_hermite', then for every distance there is a number of integration points per dimension, and for every risk a number of respondents, from which on fits with a loss not above that of the true model give a distribution of the answers that is further than that distance from the true one with at most that risk. In a family of models with parameters in a compact set that are determined by the distribution of the answers in the normal population the parameters themselves converge; the 1PL model is such a family. With the default integration_method='quasi_mc' the estimates do not come to the truth, however many points and respondents there are: the points leave out latent scores outside [-3, 3], and the estimated intercept of an easy item of a 1PL model stays below a number smaller than the true intercept with a probability that tends to one.", "quantifier": "every dimension, positive definite covariance matrix with its Cholesky factor, sequence of rules with the documented exactness of numpy.polynomial.hermite.hermgauss, family of models with positive jointly continuous probabilities, truth, number of points and respondents beyond the bounds, every way to choose the estimates and every set of samples with estimates that are far off", "why_tests_cant": "A simulation study fits a few samples from one true model with one number of points; the claim is about the probability over all samples, for every model, and needs the limits in the number of points and of respondents at the same time.", "anchors": ["irtorch/estimation_algorithms/mml.py: MML.fit, MML._train_step", "irtorch/utils.py: gauss_hermite", "irtorch/models/one_parameter_logistic.py: forward"]}
{"id": "C152", "title": "Scores from a model fitted to many respondents are those of the true model", "statement": "If a model is fitted with integration_method='gauss_hermite' to respondents from the normal population it assumes, the parameters are determined by the distribution of the answers and enough integration points and respondents are used, then with a probability as close to one as one likes the EAP scores of the fitted model differ by less than any given number from those of the true model, for all answers a respondent can give, with or without missing ones. For the 1PL model the same holds for the MAP scores with every prior. EAP scores within eps of those of the true model have a mean squared error that is larger by at most eps squared; therefore the scores of a long enough 1PL test that was calibrated on enough respondents have a mean squared error as small as one likes.", "quantifier": "every family of models with positive jointly continuous probabilities and parameters in a compact set (1PL: every number of items and bound), truth, EAP grid and prior, tolerance, risk, number of points and respondents beyond the bounds, every way to choose the estimates, every row of answers with or without missing ones", "why_tests_cant": "Calibration and scoring are tested separately and on single data sets; the claim joins both and is about the probability over all calibration samples and about all answer patterns at once.", "anchors": ["irtorch/estimation_algorithms/mml.py: MML.fit, MML._train_step", "irtorch/models/base_irt_model.py: latent_scores", "irtorch/utils.py: gauss_hermite", "irtorch/models/one_parameter_logistic.py: forward"]}
{"id": "C153", "title": "Calibrating with groups that have other means and covariances", "statement": "MML.fit assumes latent variables with mean zero and the given covariance matrix. If the respondents come from a normal population with another mean mu and covariance T C T', the answers are distributed as if a population with mean zero and covariance C had answered the items of the model that says the same on the scale with origin mu and units T; so with integration_method='gauss_hermite' and enough points and respondents the fit finds the distribution of the answers, and the parameters on the scale of the group where these are determined by it. For the generalized partial credit model such a model exists, with slopes multiplied by the units. For the 1PL model and a group with mean mu and variance one the estimated intercepts come to the true ones plus mu: of two groups calibrated separately every item shows the difference of the means plus the difference of its own true intercepts in the two groups, with a probability as close to one as one likes.", "quantifier": "every mean, invertible change of units that respects the item relationships, covariance, model (general; generalized partial credit; 1PL), tolerance, risk, numbers of points and respondents beyond the bounds, every way to choose the estimates, all pairs of samples of two independent groups", "why_tests_cant": "Tests generate data from the population the fit assumes. The claim is about populations that differ from it, about the probability over all samples of both groups, and about limits.", "anchors": ["irtorch/estimation_algorithms/mml.py: MML.fit, MML._train_step", "irtorch/utils.py: gauss_hermite", "irtorch/models/generalized_partial_credit.py: forward", "irtorch/models/one_parameter_logistic.py: forward"]}
{"id": "C154", "title": "The 2PL model is recovered from the answers of a normal population", "statement": "For a 2PL model with one latent variable, three or more items and positive slopes, the distribution of the answers in a standard normal population determines all slopes and intercepts. So a marginal maximum likelihood fit within bounds with enough Gauss-Hermite points and respondents has all slopes and intercepts, and all EAP scores, as close to those of the true model as one likes, but for a risk as small as one likes; from a group with mean mu and standard deviation sigma one gets the slopes times sigma and the intercepts plus slope times mu. Parameters with the smallest loss exist within bounds. All signs turned around give the same answers, and two items do not determine the parameters.", "quantifier": "every number of items from three, all positive true slopes and all intercepts, all bounds, precisions and risks, all exact Gauss-Hermite rules, all estimates that fit at least as well as the truth, all group means and standard deviations", "why_tests_cant": "tests fit a few simulated data sets; that no other slopes and intercepts give the same distribution, and that the probability of a bad fit tends to zero, is a statement about all parameters and all samples", "anchors": ["irtorch/models/two_parameter_logistic.py: TwoParameterLogistic.forward", "irtorch/estimation_algorithms/mml.py: MML._train_step", "irtorch/estimation_algorithms/mml.py: MML.fit", "irtorch/models/base_irt_model.py: BaseIRTModel.latent_scores"]}
{"id": "C155", "title": "The graded response model is recovered from the answers of a normal population", "statement": "For a graded response model with one latent variable, three or more items with any numbers of categories, positive slopes and ordered intercepts, the distribution of the answers in a standard normal population determines all slopes and intercepts. A marginal maximum likelihood fit within bounds with enough Gauss-Hermite points and respondents therefore has all slopes and intercepts, and all EAP scores, as close to those of the true model as one likes, but for a risk as small as one likes; from a group with mean mu and standard deviation sigma one gets the slopes times sigma and the intercepts plus slope times mu. Parameters with the smallest loss exist within bounds.", "quantifier": "every list of at least three numbers of categories of two or more, all parameters, bounds, precisions and risks, all exact Gauss-Hermite rules, all estimates that fit at least as well as the truth, all group means and standard deviations", "why_tests_cant": "tests fit a few simulated data sets; uniqueness of the parameters and the limit in the number of respondents are statements about all parameters and all samples", "anchors": ["irtorch/models/graded_response.py: GradedResponse.forward", "irtorch/models/graded_response.py: GradedResponse.probabilities_from_output", "irtorch/estimation_algorithms/mml.py: MML.fit, MML._train_step", "irtorch/models/base_irt_model.py: BaseIRTModel.latent_scores"]}
{"id": "C156", "title": "A 2PL model with several latent variables, each with items of its own, is recovered", "statement": "When item_theta_relationships lets every item measure one latent variable, and every latent variable is measured by three or more items with positive slopes, the distribution of the answers in a normal population with a known covariance matrix determines all slopes and intercepts. A marginal maximum likelihood fit within bounds that is given this covariance matrix has, with enough Gauss-Hermite points and respondents, all slopes and intercepts, and the EAP scores on all latent variables, as close to those of the true model as one likes, but for a risk as small as one likes; from a group with other means and standard deviations one gets the slopes times the standard deviation and the intercepts plus slope times mean of the item's latent variable. Parameters with the smallest loss exist within bounds.", "quantifier": "every number of latent variables (up to four for the EAP scores), every assignment of items to latent variables with three or more items each, every positive definite covariance matrix with its Cholesky factor, all positive true slopes and all intercepts, all bounds, precisions and risks, all exact Gauss-Hermite rules, all estimates that fit at least as well as the truth", "why_tests_cant": "tests fit a few simulated data sets; uniqueness of the parameters and the limit in the number of respondents are statements about all parameters and all samples", "anchors": ["irtorch/models/two_parameter_logistic.py: TwoParameterLogistic.__init__, TwoParameterLogistic.forward", "irtorch/estimation_algorithms/mml.py: MML.fit, MML._train_step", "irtorch/models/base_irt_model.py: BaseIRTModel.latent_scores"]}
{"id": "C157", "title": "Turned axes of the latent space cannot be seen in the answers", "statement": "If the covariance matrix of a normal population is the same on turned axes and the turned slopes respect item_theta_relationships, the model with the turned slopes gives every list of answers the same probability, in the 2PL, generalized partial credit, graded response and nominal response models. So in a standard normal population the signs of the slopes on every latent variable can be turned around whatever item_theta_relationships says, and without restrictions every item can be made to measure any one latent variable only, with a slope as large as the length of its slope vector: the slopes of a model with two or more unrestricted latent variables are not determined by the answers.", "quantifier": "all models of the four kinds with any numbers of items and latent variables, all positive definite covariance matrices, all matrices that leave them as they are, all answers; for the last part all unrestricted 2PL models, items and latent variables", "why_tests_cant": "a test compares a few rotations on a few answers; that no amount of data separates the models is a statement about all answers and the whole population", "anchors": ["irtorch/models/two_parameter_logistic.py: TwoParameterLogistic.forward", "irtorch/models/generalized_partial_credit.py: GeneralizedPartialCredit.forward", "irtorch/models/graded_response.py: GradedResponse.forward", "irtorch/models/nominal_response.py: NominalResponse.forward", "irtorch/estimation_algorithms/mml.py: MML.fit"]}
{"id": "C158", "title": "Items can be calibrated in booklets that nobody answers completely", "statement": "Every respondent from a normal population answers some of the items, and what is left out depends on nothing but the answers that are seen. If what is seen determines the parameters, a marginal maximum likelihood fit within bounds to data with missing answers, with enough Gauss-Hermite points and respondents, has parameters as close to the true ones as one likes, but for a risk as small as one likes. For the 2PL model with booklets handed out at random this is so if for every item with its positive slope there are two other items that measure the same latent variable, and each two of the three are together in some booklet: booklets of two items can suffice, and booklets of three items need no common items. Two items alone do not suffice, whatever the booklets. Nor do respondents with one answer each: any other slopes and any other covariance matrix give the same answers with suitable intercepts. EAP scores by the fitted model, of answers to whichever items, come as close to those by the true model. The same holds for the slopes and all intercepts of a graded response model with one latent variable. Parameters with the smallest loss exist within bounds.", "quantifier": "all models that are continuous in their parameters, all ways of asking that depend on seen answers only, all compact parameter sets, all covariance matrices; all booklet designs in which every item is one of three whose pairs are asked together, all true parameters, bounds, precisions and risks, all estimates that fit at least as well as the truth", "why_tests_cant": "tests fit a few simulated data sets with missing answers; uniqueness of the parameters and the limit in the number of respondents are statements about all parameters, designs and samples", "anchors": ["irtorch/estimation_algorithms/mml.py: MML.fit, MML._train_step", "irtorch/models/base_irt_model.py: BaseIRTModel.log_likelihood", "irtorch/models/two_parameter_logistic.py: TwoParameterLogistic.forward"]}
{"id": "C159", "title": "1PL items can be calibrated from respondents who answer one item each, and the answers tell the variance but not the mean", "statement": "The intercepts of a 1PL model are recovered by a marginal maximum likelihood fit within bounds to data from booklets handed out at random, if every item is in some booklet: with enough Gauss-Hermite points and respondents they are as close as one likes to the true intercepts plus the mean of the population, but for a risk as small as one likes. A single item per respondent suffices. The mean of the population is absorbed by the intercepts. If two items are asked together, what is seen determines the variance of the population as well, so that no intercepts make up for a wrong covariance_matrix. If nobody answers two items, some intercepts make up for any covariance_matrix. EAP scores by the fitted model come as close to those by the true model. Intercepts with the smallest loss exist within bounds.", "quantifier": "all numbers of items, all booklet designs in which every item occurs, all true intercepts, means and variances, all bounds, precisions and risks, all estimates that fit at least as well as the truth", "why_tests_cant": "tests fit a few simulated data sets; that no other intercepts and variances give the same answers is a statement about all of them", "anchors": ["irtorch/models/one_parameter_logistic.py: OneParameterLogistic.forward", "irtorch/estimation_algorithms/mml.py: MML.fit, MML._train_step", "irtorch/models/base_irt_model.py: BaseIRTModel.log_likelihood"]}
{"id": "C160", "title": "Groups with booklets of their own put the items on different scales", "statement": "MML fits a single population. If groups with different means and standard deviations get booklets without common items, a 2PL fit with enough Gauss-Hermite points and respondents comes as close as one likes to parameters with every item on the scale of the group that answers it (slopes times the group's standard deviation, intercepts plus slope times the group's mean), not to parameters on one scale. Nothing in such data can tell a difference between groups from a difference between their items: groups without differences and other items give the same answers with the same probabilities.", "quantifier": "all numbers of groups, their shares, means and standard deviations, all booklet designs without items common to groups, all slopes and intercepts; for the fit all designs in which every item is one of three whose pairs are asked together, all bounds, precisions and risks", "why_tests_cant": "tests with simulated groups can show a bias in an example; that the data cannot tell the cases apart is an equality of probabilities for all parameters and all that can be seen", "anchors": ["irtorch/estimation_algorithms/mml.py: MML.fit, MML._train_step", "irtorch/models/two_parameter_logistic.py: TwoParameterLogistic.forward", "irtorch/models/base_irt_model.py: BaseIRTModel.log_likelihood"]}
{"id": "C161", "title": "No model fits better than the observed frequencies", "statement": "The loss that a fit by marginal maximum likelihood minimises has a floor that can be read off the data: for every respondent the logarithm of the share that their answers have among the respondents who answered the same items, summed and with the sign turned around. No model of whatever item types, number of latent variables and parameters has a smaller loss, also with missing answers, and a model reaches it just if it gives the answers of every respondent their observed share. So a loss below the floor is the sign of a mistake, and the distance to the floor bounds what any other model could gain.", "quantifier": "all models without impossible answers, all parameters, numbers of respondents, data sets, patterns of missing answers, numbers of Gauss-Hermite points and covariance matrices", "why_tests_cant": "tests compute losses of a few fits; the floor is a statement about all models and data sets", "anchors": ["irtorch/estimation_algorithms/mml.py: MML._train_step, MML.fit, MML._quasi_mc", "irtorch/utils.py: gauss_hermite", "irtorch/models/base_irt_model.py: BaseIRTModel.log_likelihood"]}
{"id": "C162", "title": "Merging categories never adds information", "statement": "Recoding answers so that categories of an item are put together cannot make a test more precise. When one model gives every merged category the sum of the probabilities that another model gives to its parts, information(item=True) of every item and information(item=False) of the test of the merged answers are at most those of the answers as they are, in every direction and at all latent scores, and the standard errors of scores are not smaller. For a graded response model and neighbouring categories there is such a model of the merged answers, with the same slopes.", "quantifier": "all tables of differentiable probabilities, numbers of items, categories and latent variables, ways of merging, latent scores and directions; all graded response models with ordered thresholds", "why_tests_cant": "tests compare information at a few scores; the inequality is about all models, mergings, scores and directions", "anchors": ["irtorch/models/base_irt_model.py: BaseIRTModel.information, BaseIRTModel.probability_gradients", "irtorch/models/graded_response.py: GradedResponse.forward"]}
{"id": "C163", "title": "The number of points tells at most what the answers tell", "statement": "Summarising a test by its sum score cannot add information about the latent variables. The Fisher information in the sum score, with the distribution that conditional_score_distribution returns, is at most the test information that information(item=False) returns, in every direction and at all latent scores. For the 1PL model the two are equal: there the number of points is all that counts. For a 2PL model they are equal in a direction just if all items have the same slope in this direction; otherwise the sum score tells less.", "quantifier": "all tables of differentiable probabilities, numbers of items, categories and latent variables, latent scores and directions; all 1PL and 2PL models", "why_tests_cant": "the two outputs come from different functions and are compared at all scores, in all directions and for all models", "anchors": ["irtorch/models/base_irt_model.py: BaseIRTModel.information", "irtorch/_internal_utils.py: conditional_score_distribution", "irtorch/models/one_parameter_logistic.py: OneParameterLogistic.forward", "irtorch/models/two_parameter_logistic.py: TwoParameterLogistic.forward"]}
