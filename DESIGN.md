# Formal model of irtorch: design

Target: `joakimwallmark/irtorch` (source text in `/repo`, python, not run here).
Prover: Lean 4.33.0 with Mathlib. Model and proofs live in `lean/Verif`.

## 1. How the code is modelled

* **Numbers.** Python floats and torch tensors' entries are modelled by Mathlib's real numbers `ℝ`
  (exact arithmetic). Values torch represents by special floats are explicit data: a logit is
  `fin x | negInf` (`posInf` where the code uses it), a data cell is `Option` (`none` = NaN / missing),
  a log likelihood may be minus infinity.
* **Tensors** are lists (row-major, as torch's flat memory) where index layout is part of the
  behaviour (`view`, `repeat`, `repeat_interleave`, `cat`, `split`, `chunk`, boolean-mask
  assignment), and finite functions `Fin n → ℝ` or matrices where only the algebra matters.
* **Batches.** A function that treats rows independently is modelled for one row; functions whose
  layout mixes rows (MML, EAP, ModelMix likelihood, evaluator groups, Bit scores, spline bases) are
  modelled on the whole batch.
* **Errors** are values: `Except PyErr α`, with one constructor per Python exception class raised.
* **Randomness** is an argument (a permutation, a list of draws), over which theorems quantify, or a
  Mathlib `PMF` where the claim is about probabilities (C85, C86).
* **State** (model, algorithm object, caller's tensors, files, caches) is an explicit record threaded
  through; histories and schedules are lists over which theorems use induction.
* **External code** (torch optimisers, autograd, `splinetorch`, `numpy.hermgauss`, normal icdf,
  `factor_analyzer`) is a parameter; what is assumed about it is a hypothesis of the theorem.

## 2. Layout of the Lean project

* `Verif/Torch/*`     – the torch operations used, as list functions.
* `Verif/Model/*`     – the model; each definition cites the lines of `/repo` it models.
* `Verif/Spec/*`      – small independent specifications used in theorem statements.
* `Verif/Lemmas/*`    – helper lemmas.
* `Verif/Props/*`     – the property theorems, named after the property (`C17_...`), each next to an
  `example` that instantiates its hypotheses.

Naming of theorems: `..._false` proves the negation of a claim as a user would state it (the code
disagrees with it; the claim itself is a `def ... : Prop` just above); `..._partial` proves the claim
under an extra hypothesis that its docstring names. Other theorems are full.

## 3. Trusted base

* Lean's kernel.
* Axioms: `propext`, `Classical.choice`, `Quot.sound`. `#print axioms` for the 1187 theorems of MANIFEST.json: 1173 depend on all three; `C109_mix`, `C11_degree`, `C83_own_algorithm`, `C83_rows`, `C87_latent_variables`, `C91_cached`, `C91_retry`, `C98_line_partial` only on propext, Quot.sound; `C16_relationships_default`, `C67_no_hidden`, `C83_unaffected`, `C95_reproducible`, `C98_line_key_false`, `C98_line_missing_false` only on propext. No other axiom occurs; there is no `sorry`, `native_decide` or `bv_decide`.
* The reading of the code: nothing ties the model to `/repo` except the cited lines.
* Real arithmetic instead of IEEE floats (no rounding, overflow, underflow, or NaN propagation except
  where NaN/±inf is explicit data and in C103, where the exponential and the sigmoid are rounded, and in C139, where every operation is
  rounded and sums are taken in any order). Theorems about equality of floats are therefore about the formulas; C139 bounds how far
  the computed log likelihoods, probabilities, expected scores, losses and EAP scores are from them.
* The hypotheses about external code listed with each theorem: `numpy.polynomial.hermite.hermgauss`
  returns nodes and weights exact for polynomials up to degree 2n-1; `Normal.icdf` is the quantile
  function; `splinetorch.b_spline_basis` computes the Cox–de Boor functions (`Spec/BSpline`) and
  `b_spline_basis_derivative` their derivatives; autograd returns derivatives (`HasDerivAt`,
  `HasFDerivAt`); `torch.linalg.cholesky`/`MultivariateNormal` fail exactly for matrices that are not
  positive definite and otherwise give the normal density; `torch.argsort` returns a sorting
  permutation, in any order for ties; optimisers are arbitrary step functions.

### Which parts of the code are modelled

| file in `/repo/irtorch` | modelled in | not modelled |
|---|---|---|
| `models/base_irt_model.py` | Base, Scoring, LatentScores, Lifecycle, Information, Rescale, Persist, Sampling, Data, Sharing, ScoreSearch, Underflow, Rounding | LBFGS/Adam iterations of ML/MAP (an arbitrary function), progress output |
| `models/{one,two,three}_parameter_logistic.py` | Logistic, Directions | random initial values (arguments) |
| `models/{generalized_partial_credit,graded_response,nominal_response}.py` | Polytomous, Base, Directions | random initial values |
| `models/monotone_{polynomial,nn,b_spline}.py` | Monotone, Modules, Spline, SplineBatch | – |
| `models/surprisal_spline.py`, `nested_logit.py` | Composite, Spline, SplineBatch | broadcasting of a basis for one row in NestedLogit |
| `models/model_mix.py` | Composite, Layout | broken `reset_parameters` |
| `torch_modules/*` | Modules, RQSpline, Mixture, SplineBatch | `plot_spline`; random start of the mixture (an argument) |
| `activation_functions.py` | Modules | – |
| `rescale/*` | Rescale, RankCDF, Bit, Sampling, RQSpline, LinkLoss, ScaleTraining | optimiser steps of `Flow.fit` and `LinkCommonItems.fit` |
| `estimation_algorithms/mml.py` | Scoring, Quadrature, MmlSetup, Training, SplineBatch, Underflow, Rounding, GradientFit, FitCrash | – |
| `estimation_algorithms/jml.py`, `ae.py`, `vae.py` | Training, Joint, JointFit, Scoring, VAE, Posterior, Autoencoder, Utils, FitCrash | mini-batch order (an argument) |
| `estimation_algorithms/encoders/*` | Utils (layer sizes and names), EncoderNet, BatchNormFit | – |
| `evaluator.py` | Evaluator, EvaluatorCalls, Density, Dependence, DependenceTests, ScoreDist, Sampling | rounding of printed tables |
| `outlier_detector.py` | Outlier | – |
| `plotter.py` | Plotter, Figures, ItemFigures | figure objects |
| `latent_variable_functions.py`, `quantile_mv_normal.py` | LatentFunctions, Density | `cdf` (raises NotImplementedError) |
| `irt_dataset.py`, `_internal_utils.py`, `utils.py` | Data, Utils, Splits, Quadrature, Sharing, ScoreDist, CvPool | Jupyter detection |
| `load_dataset.py` | Utils (Big Five), Datasets | national mathematics loaders (a `torch.load`) |

Not modelled anywhere: progress bars and logging (`dynamic_print`, `is_jupyter`, `config.py`,
`timer.py`), device placement, the drawing libraries (colours, labels, legends, figure objects; what is
modelled of the plots are the points and values handed to them), autograd internals, optimiser updates,
operating system processes (only order, sharing and failures of the jobs), pickle file formats, the
content of data files.

## 4. Plan per property

What is modelled and how it is proved. "Negation" means that the code disagrees with the property; the
property is then refuted on a concrete case and proved under the conditions where it holds.

| id | modelled | proof |
|----|----------|-------|
| C01 | `forward` and `probabilities_from_output` of the softmax models as flat lists | softmax lemma and a layout lemma per model |
| C02 | base `log_likelihood` with masks and reductions | induction over cells |
| C03 | 1PL/2PL/3PL forward, probabilities, parameters | calculus of the sigmoid |
| C04 | GRM forward, probabilities, reset | telescoping; negation for disordered thresholds |
| C05 | GPC forward and parameters | negation of the documented formula with three categories; the exact formula the code implements |
| C06 | NRM forward and parameters | list sums; uniqueness by comparing logits |
| C07 | nested logit index map and scatter | permutation of category indices |
| C08 | surprisal spline forward | telescoping product; B-spline tail sums are monotone |
| C09 | ModelMix forward, probabilities, likelihood | induction over components; negation for a 3PL component |
| C10 | ModelMix likelihood with reduction `none` | negation; one component or one respondent |
| C11 | polynomial module | product form of the derivative |
| C12 | reported polynomial coefficients | negation for degree above one |
| C13 | adjacent-category logits of the monotone models | monotone likelihood ratio implies stochastic order; induction over network layers |
| C14 | BoundedELU forward and backward | calculus |
| C15 | SoftplusLinear | finite sums |
| C16 | relationship masks of all constructors | scatter lemma |
| C17 | expected scores | finite sums |
| C18 | answer key validation | exact acceptance condition; negation |
| C19 | chain of scale transformations | induction over scales; negation (inverted in the wrong order) |
| C20 | Jacobian of the chain | chain rule, induction over scales |
| C21 | rational quadratic spline | algebra per bin, ordered knots; negation for crossing free endpoints |
| C22 | reported log derivative of the spline | derivative per bin; negation outside the bounds |
| C23 | Flow | composition of C21 with the empirical standardisation |
| C24 | Reverse, Rotate | linear algebra |
| C25, C26 | LinkCommonItems transform, inverse, Jacobian | composition; negations for inverted scales and for the network |
| C27 | RankCDF | order statistics, interpolation |
| C28–C30 | bit scores on a path and their Jacobian | cumulative sums of absolute differences; negations |
| C31 | Fisher information | Gram matrices, variance of the score |
| C32 | rescaled gradients and expected score gradients | chain rule |
| C33 | Lord–Wingersky recursion | induction over items against the sum over response patterns |
| C34, C35, C51 | one-hot encoding, dataset, stored training data | induction over rows and cells; negation for NaN cells of the caller |
| C36, C37, C38 | imputation, inferred categories | induction; negations |
| C39, C40, C41, C69 | splitting, folds, cross-validation, parameter grid | permutations; negations for fold count, leakage, non-numeric parameters |
| C42 | Gauss–Hermite | products of sums; exactness for polynomials |
| C43 | IMV | invariant of the clamped Newton iteration, monotone in its argument; negation of the strict converse |
| C44, C72 | Gaussian mixture, EM | invariants; Jensen's inequality; integral of the density |
| C45 | EAP | layout lemma; convergence of the grid approximation (Riemann sums) |
| C46, C47, C74 | latent scores: decision table, prior, standard errors | case analysis; Schur complement inequality; negations |
| C48, C80 | MML objective, default integration grid | layout lemma; log-sum-exp; Riemann sums in several dimensions; integral of the normal density |
| C49, C50 | training loops | invariant over epochs; negations |
| C52 | outlier detector | counting |
| C53, C54 | interpolation, quantile transformation | order statistics |
| C55, C56 | correlation, entropy | Cauchy–Schwarz, Gibbs; negations with missing data |
| C57, C58, C59, C70 | evaluator: classification, residuals, infit/outfit, log likelihood, groups | counting, partition of respondents; negations |
| C60, C75 | sum score probabilities, latent density cache | C33 averaged over a density; induction over histories; negation |
| C61, C86 | random guessing, guessing start of bit scores | laws as `PMF`, product of item laws; negations |
| C62, C81 | VAE objective and posterior summaries | Gaussian integrals, coverage of intervals |
| C63 | `irt_format` parameters | algebra; negation for the graded response model |
| C64 | save and load | round trip, induction over histories; negations for failed loads and stored bases |
| C65, C66, C67, C68 | starting values, regression, encoder layers, Big Five processing | case analysis, normal equations |
| C71 | reported directions of the monotone models | sign of the direction parameter times an increasing function; negation |
| C73 | starting values of JML | negation with missing data |
| C76, C77 | mutual information difference, Q3 and their p-values | entropy bounds, counting; negations with missing data |
| C78, C79 | quantile multivariate normal, choice of the mixture | integrals under a change of units; argmax |
| C82 | linking objective | Gibbs and Hellinger inequalities; negation for different widths |
| C83, C84 | shared algorithm objects, parallel fits | frame property over histories; all schedules; negations |
| C85 | simulated data, population discrimination | probability of a table as a product, induction over rows and items |
| C87 | points drawn by the plots | layout of grids, monotone trimming; negations |
| C88 | Swedish SAT loaders | induction over the key file and over rows; negation of the documented key base |
| C89 | spline models on a batch, `precompute_basis` | layout of the flattened basis, locality of each model row |
| C90 | backward pass of the spline basis | chain rule for an arbitrary differentiable loss; derivative of the Cox–de Boor recursion |
| C91 | cache of the Big Five loader | state machine over histories of calls with failures; negation for an interrupted write |
| C92 | The `item_theta_relationship_directions` method of every model (Model/Directions), the base class rule through `linearRegression`. | The expected score is a strictly increasing function of the linear predictor (pairing terms for the GPC, telescoping for the GRM), hence follows the sign of the slope; the regression slope with one variable has the sign of a sum of products of differences; counterexamples by three respondents and by an item with one category. |
| C93 | The loop shared by `Flow.fit` and `LinkCommonItems.fit` (Model/ScaleTraining) around an arbitrary loss and optimiser. | An invariant over batches and epochs says that the state is that of a run of optimiser steps, with window, learning rate and counters; stopping reasons by cases. Counterexamples: a single overshooting step, and a loss that becomes NaN. |
| C94 | `cross_validation`, `_run_multiprocessing`, `_run_sequential` and the chunking of `Pool.starmap` (Model/CvPool), with the schedule, the workers' generators and pool failures as arguments. | Jobs without random numbers: induction over chunks and jobs, and flattening the chunks gives back the jobs. Counterexample for random jobs: two jobs drawn by one or by two workers. |
| C95 | `set_seed` on the four seeded generators plus an unseeded part (the pool), sequences of calls as functions of that state. | Induction over the calls; sequential cross-validation reads only the seeded part. Counterexample: the same seed with two schedules of the pool. |
| C96 | `NeuralSplineFlow.log_prob` and `_sample_obs` on top of the spline of C21 and C22 (Model/RQSpline), base density as an argument. | Change of variables for a strictly increasing bijection with the derivative of C22 on each of three pieces of the line, then additivity of the integral. The total mass is computed for every spline; the counterexample uses the default bounds of `Flow`. |
| C97 | The data of `latent_score_distribution`, `item_latent_variable_relationships` and `training_history` (Model/Figures), with numpy's two-dimensional histogram as documented. | Edges are equally spaced, so counting the edges below a score finds the only bin that contains it; every respondent is counted once, so the total is their number. Counterexamples: one respondent, and variable zero. |
| C98 | `Plotter.log_likelihood` with `expected_sum_score=True` (Model/Figures), with the trimming of the curve and the line at `data.sum()`. | If the expected sum score increases along the grid, trimming keeps every point (as in C87). Counterexamples: a minimum inside the range drops the points before it; two variables index a missing column; missing responses coded -1 and answer keys move the line. |
| C99 | The fit of both autoencoders end to end: data set, data loader, batch loss, training loop, stored scores (Model/Autoencoder.lean). Networks are functions of their parameters; the optimiser update is an argument | Likelihood factorisation over the cells of a batch; block partition of a permutation; equality of the encoder input at fitting and at scoring; NaN propagation for an unobserved item; concrete fits for the false cases |
| C100 | The six parametric models as scorers (Model/Scorers.lean) on top of the EAP model of C45. | Each model has a monotone likelihood ratio in its categories (for the graded model by factoring the category probability into a constant, a probability of reaching and one of not passing); products keep it, and a double sum over the grid turns it into an order of posterior means. Counterexample with two latent variables on the grid {-3, 3} x {-3, 3}. |
| C101 | The same scorers as C100, with the common multinomial logit form proved for the 1PL, 2PL, generalized partial credit and nominal response models (Lemmas/LogitModel.lean). | The likelihood is factored into the exponential of the weighted sums and a term that depends only on the answered items; proportional weights have equal means, and exponential tilting moves the mean of the posterior. Counterexample for the 3PL. |
| C102 | The objective of `_ml_map_theta_scores` (log likelihood plus log prior, summed over respondents) and its stopping rule, for any optimiser; models as in C100 | Products over respondents separate. Log-sum-exp is convex (weighted inequality for exp), the graded response probabilities factor into two logistic functions, the normal log density is strictly concave and has compact level sets; hence existence, uniqueness and no local maxima. One latent variable: the likelihood tends to zero in both directions exactly for mixed answers. Counterexamples for perfect answers and for the 3PL model. Loop by induction |
| C103 | The MML loss and EAP scores with the exponential as a parameter, and the 3PL with the sigmoid as a parameter (Model/Underflow); every other operation stays exact. | The loss subtracts the maximum, so every sum of exponentials is at least one and the logs of the two sums differ by at most the difference of the sums. EAP: sums of rounded weights are zero exactly when all log posteriors are below the limit; distance of two weighted means. Counterexample: 1078 alternating 1PL answers. |
| C104 | `Bit.transform` as in C28, with the number of grid points going to infinity; documented integral as an interval integral (Spec/BitIntegral) | Each step between neighbouring grid points: mean value theorem and uniform continuity of the derivative inside the grid, monotonicity outside, one step across the start of the grid bounded by the step length. Change of variables for relabelling. Closed form for the 1PL. Counterexample: any 1PL item with difficulty below -7. |
| C105 | `MML.fit` with the gradient of `_train_step`'s loss (as a derivative) and an arbitrary optimiser that treats the entries one by one (Model/GradientFit; Adam is the instance); 2PL, 3PL and GPC with their starting values | The integration points and weights are unchanged by permutations and sign changes of coordinates. Invariant of the epochs: equal columns of slopes have equal gradients and equal optimiser states. For the last part: a mixture along one line gives one of four answer patterns at most 1/4 everywhere, hence a bound on the likelihood; a two dimensional model is above it on the default grid. |
| C106 | `information` and `latent_scores` as in C31 and C74; answers to different items independent given the latent scores (Spec/Fisher) | Expectation of a product of sums over independent items; the score has mean zero. Second derivatives of the logarithm for the Hessian form. Cramér and Rao by the inequality of Cauchy and Schwarz; the bound is attained by the latent score plus the scaled gradient. Counterexample: a respondent who answered two of four items gets the standard error for four. |
| C107 | The logistic, partial credit, graded and nominal response models of C01-C07 with their reported parameters; the probe scores (the zero vector and the unit vectors) in Spec/Identify | Logits are recovered from the probabilities (the logistic function is injective; softmax up to a constant that the zero first intercept, or the zero sum of the nominal model, fixes). Affine functions that agree at the probe scores are equal. 3PL: the guessing parameter is the limit of the curve along the slope. Counterexamples: an item with zero slope (intercept and guessing confounded) and an item with one category. |
| C108 | The same models and the MML loss of C46 | The larger model is written down: slopes one; slope entries moved from the item mask to the category mask; for the nominal model the logits shifted so that they sum to zero. Equal probabilities give equal losses because the loss is a function of the probabilities (`mmlLoss_weighted`). 3PL: the guessing parameter is a sigmoid and never zero, so the 2PL is only a limit. |
| C109 | The constructors with all their arguments (`Model/Constructors`, `Model/SplineConstructors`): choice of the counts, the check of the base class, relationship matrices, allocation of the parameters, and evaluation with the checks (and broadcasting) of the masked assignment. | The counts from the column maxima; shapes kept by training give the well-formedness used by C01-C07. Counterexamples computed for two or three items. |
| C110 | `Model/Lifecycle`: a model object as parameters, algorithm and list of attached scales; an attached scale is a function of the model as it is now, because a bit scale keeps a reference to the model. Steps fit, add, detach; queries `transform_theta`, `item_probabilities`, `latent_scores`. | Induction on the history from its end; the specification reads the attached scales off the history. Bit part from C28. Counterexamples: one 2PL item whose slope changes sign; `Reverse` attached before the bit scale. |
| C111 | `jmlObjective`, `jmlTrainer`, `jmlFit` (objective, loader order, training of items and scores), over any scorer; the 1PL in particular | log likelihood of a batch as in C99; existence by compactness after bounding differences along chains of answers (closed sets of the relation), uniqueness by strict convexity of the log-sum-exp; two items by profiling out the scores; limit by the strong law of large numbers |
| C112 | Model/ItemFigures: traces and surfaces of `item_probabilities` (kind, label, colour, points), colour repetition, the palette list that `+=` changes in place, gray levels | lines and surfaces from the curve theorems of C87 and the table property; sums from the distributions; colours by the invariant that the palette is a repetition of the initial one over any sequence of figures; grays by division with remainder and counting; negations by witnesses |
| C113 | The fit of C105 (`MmlSettings.fit`, Adam entry by entry, schedule and early stopping of `Model/Training`) for two data sets side by side | A simulation: two trainings whose parameters correspond entry by entry have equal losses, so equal partial derivatives, equal steps and equal schedules (`mmlEpochs_related`, `gradientFit_corresponding`); entries without counterpart have derivative zero. The loss is a sum over respondents of logs of sums of products over items, so it does not depend on their order; positions of slopes and of the ragged intercepts by bijections of index sets |
| C114 | Model/EncoderNet.lean: layers with parameters and running statistics, training and evaluation mode, the forward methods, algorithm objects, and sessions of fits (completed, refused, interrupted) and scoring calls | row-by-row evaluation by induction on the layers; invariant over the calls after the fit; encoder input row by row by cases of the imputation; witnesses for the false parts |
| C115 | Model/BatchNormFit.lean: the training loop of the autoencoders with the encoder in training mode, the stored batch normalisation flag of AE and VAE, the loader batches | induction over batches and epochs; sizes of loader batches; induction over layers for acceptance of batches; witnesses |
| C116 | the evaluation functions of Model/Evaluator.lean, Model/Dependence.lean run on respondents (score and answers paired) listed in two orders | invariance of every reduction under permutation; sorting respondents with different scores gives the same sorted list; witnesses with two tied respondents and with one missing answer |
| C117 | `_evaluate_data_theta_input` with its defaults, each public evaluation as a value and the writes it makes to the tensors it was given, sessions of evaluation, scoring and scale steps over a store of tensors (`EvaluatorCalls.lean`) | induction over the history with the invariant that a tensor is the original one or the original one with NaN replaced by -1, and a proof for each evaluation that it cannot tell the two apart; witnesses for the two evaluations that can |
| C118 | Model/DependenceTests.lean: q3 and mutual_information_difference with sample_hypothesis_test as random programs that draw data sets with sample_test_data | exchangeability of the data and the simulated data sets (invariance of the product law under transpositions and a bound on how many data sets can have a small rank); witnesses with coin tossing for ties |
| C119 | Model/ScoreDist.lean (conditional_score_distribution) on the probability tables of the nine monotone models | generating polynomials: stochastic order item by item, Newton's inequalities for right/wrong items (likelihood ratio order), factorisation of the coefficients for a common slope; covariance inequality for the mean latent score; counterexample with rational probabilities |
| C120 | Model/FitCrash.lean: the fit methods of MML, JML, AE and VAE and model.fit as programs of single statements that can be interrupted before any of them; local variables of the loops from Model/Training | a small program logic: triples for every crash point (loop invariants by induction), relations between two runs, termination; witnesses by running the programs |
| C121 | the MML loss of Model/Posterior as a function of the parameters (Model/GradientFit.partialAt) for the 1PL, 2PL, GPC and NRM | Fisher's identity: HasDerivAt of the softmax, product rule over items, logarithm of the weighted sum; the entry of the flat parameter that moves each intercept or slope (masks and views); totals for the first category; positivity of the expected numbers for the non-existence; existence by coercivity (the respondent who gave the less likely of two categories bounds the loss from below by the difference of the intercepts) and compactness |
| C122 | Model/Autograd.lean: parameters with flag and buffer, zero_grad / backward / step, fit, the freezing and unfreezing of the ML search with its stop points, gradient modes and flags of the latent scores for derivatives and standard errors | simulation relations through the three training loops that also cover exceptions; invariants over histories; induction over the scales; witnesses by running one epoch and by a fitted flow and a Rasch bit scale |
| C123 | probability tables of the six parametric families (Model/Logistic, Model/Polytomous), MML loss, EAP and ML/MAP objectives (Model/Scoring) | construction of the recoded parameters through the masks and views (existence of a model with given free slopes and intercepts); softmax shift, sigmoid(-x) = 1 - sigmoid(x), telescoping sums for merged categories; counterexamples by comparing odds at three latent scores |
| C124 | Adam with amsgrad entry by entry (Model/GradientFit adamRule), training loops (Model/Training, Model/ScaleTraining) on parameters with flags and buffers (Model/Autograd) | invariant of the optimiser state: the first average squared is at most 370/7 times the second one; 1 - 0.999^t <= (1 - 0.9^t)^2; induction over iterations, batches and epochs with the number of steps as counter |
| C125 | the statistics of the evaluator (Model/Evaluator, Model/Dependence, Model/Utils), MML loss and gradient fits (Model/GradientFit), starting scores of JML (Model/Training) | two lists with the same frequencies are permutations of each other after repeating each of them; every statistic is shown invariant under permutation and repetition; scaled losses give related optimiser states by induction over the epochs; counterexamples with one and two respondents |
| C126 | probability tables of arbitrary models as functions of position, item and category; MML loss, EAP grid sums, ML/MAP objectives (Model/Scoring, Model/ScoreSearch), evaluator (Model/Evaluator, Model/Dependence, Model/ScoreDist), information (Model/Information), start of JML (Model/Training) | sums over items are sums over a permutation; the observed answers of a respondent are a permutation of each other after dropping the missing ones; the counts of answer pairs are symmetric; the sum score distribution by its characterisation as a sum over answer vectors; fit by C113. Witnesses for the false parts: a second item without answers |
| C127 | MML loss (Model/Scoring mmlLoss), EAP scores on the grid (Model/Scoring eapScores) | product over items of sums over categories is the sum over answer vectors; the posterior mean of a row with gaps is the quotient of two such sums |
| C128 | EAP scores (Model/Scoring eapScores, eapGrid); Spec/Population: expectation over grid points and answer vectors | the score is the conditional mean, so its error is orthogonal to every function of the answers asked; best score and spread by Pythagoras |
| C129 | MML loss (Model/Scoring), quasi Monte Carlo rule (Model/MmlSetup), log likelihood and accuracy of the evaluator (Model/Evaluator) | Gibbs inequality over the answer vectors with strictness; accuracy item by item, the most probable category; witnesses: an item that says nothing with one and two integration points, a graded item with tied thresholds |
| C130 | residuals and infit_outfit (Model/Evaluator); Spec/DrawnData: expectation over data matrices | linearity of expectation over independent cells; the expected squared error of a cell is its variance; witness: one answer to one keyed item |
| C131 | Model/MixScorer (ModelMix as the object of fitting and scoring); Spec/Mix: what a model in a mix has to do right | the concatenated log likelihoods are a permutation of the right ones, so total sums are right; witnesses for MML and EAP: one respondent, two points, a rising item mixed with a constant one |
| C132 | EAP scoring of complete answers on the trained grid; affinity (Bhattacharyya coefficient) of an item at two points in Spec/Affinity | posterior spread bounded by the geometric mean of pairs of posterior weights; sum over answer patterns factorises over items; geometric decay; compactness of the item parameter range |
| C133 | mmlLoss on complete samples; Spec/LargeSample: samples, their probabilities, shares, distance of pattern distributions | Hellinger distance below Kullback-Leibler below Pearson; Cauchy-Schwarz; variance of sums of independent draws; Markov inequality; compactness for parameters |
| C134 | `evaluatorLogLikelihood` and `groupFitLogLikelihood` of `mixScorer` | the concatenated cells are a permutation of the matrix (induction on the models), so sums and means agree; counterexamples with two models of one item and two respondents |
| C135 | `linkLoss` at the tables of two models; the linking function is any function | the loss bounds the Hellinger distance (C82), which bounds squared differences of probabilities; a lower bound for differences of the logistic function turns these into differences of scores; Markov inequality over the respondents |
| C136 | `OnePL.probs`, `GPC.probs`, `conditionalScoreDistribution` | the probability of the answers factors through the number of points in a logit model with a common slope; the coefficient of the generating polynomial is the sum over the answers |
| C137 | Model/Layout: tensors as memory, offset, sizes and strides; contiguous, long (preserve_format), view(-1), in-place writes; log_likelihood of a model and of a mix on such tensors | entries through positions in memory; one stride walks through all entries iff the outer stride is the inner one times the width; counterexamples with two respondents and two items |
| C138 | `mlMapScores`, `scoreObjective` with an optimiser that stops at a zero of the gradient; `scoreWeight` of the answers to any set of items | log-concavity in one variable: if the weight at θ ± ε is below that at θ, all maxima are within ε; otherwise a likelihood ratio is at least one, and the mean of its square root factors over the items into affinities; explicit bound of the affinities in logit models |
| C139 | Model/Rounding: logits, softmax, cross entropy, expected scores, MML loss and EAP with every operation rounded by an arbitrary arithmetic `F`, sums as arbitrary binary trees | bounds by induction on summation trees; the logarithm of a sum that is at least one has no cancellation; multiplicative factors for the posterior; truncation of binary digits as witness |
| C140 | Model/LatentScores `mlMapScores` and Model/ScoreSearch `scoreObjective` with an arbitrary optimiser (as in C102); Spec/Stability: distance in units of the prior | the normal prior makes the log posterior strongly concave; gap at the mode, tangent plane, Cauchy inequality for the covariance matrix and its inverse |
| C141 | Model/Quadrature `gaussHermite`, Model/MmlSetup `mmlIntegration`, `mmlLoss`; `hermgauss` as any function with the documented exactness (Spec/QuadratureLimit `ExactRules`) | rules: orthogonality, sign changes and Lagrange interpolation (Lemmas/HermiteRule); convergence: Taylor expansion of the complex exponential against the rule, products over dimensions, Levy continuity; estimates: uniform continuity on a compact set of scores that carries almost all mass, then compactness of the parameters |
| C142 | `evaluatorLogLikelihood` and `mmlLoss` on all samples of N respondents (Spec/LargeSample `samples`, Spec/ModelChoice `answersProb`) | likelihood ratios: on the set where the other model wins the true probability is at most exp(-a) times the other; overlap of the distributions multiplies over respondents; union bound |
| C143 | `forward` of the five families through their probability tables, `evaluatorLogLikelihood`, `scoreObjective`, `mmlIntegration`, `mmlLoss`, `sampleCov`, `information`; Spec/Convention: the old scores T phi + c and `SameOnNewScale` | construct the parameters of the rescaled model; likelihoods agree pointwise; invertible change of variable for modes, determinant for the prior, T L for the integration points, chain rule for the information |
| C144 | mmlLoss, eapScores on rows with missing cells; the rule for leaving questions out as a function on what is seen (Spec/LeftOut) | sums over answers and answered items regrouped by what is seen, Gibbs' inequality, the bound of C133 for incomplete patterns, C128_errors with weights |
| C145 | `reset_parameters` of the six families and of a mix (Model/Reset), constructors, objects with parameters, algorithm attributes and scales under histories of fits, loads, scale changes and resets; Spec/Reset `SameShape`, `KeepsShape` | each reset depends on shapes only; induction over the history for the shapes; counterexamples for a mix and for the leftover algorithm |
| C146 | `eapScores` on rows with missing cells for two models, or two rows, on the same grid; `mmlLoss`; Spec/EapStability `CloseOn`, `answeredItems` | means with weights known up to factors c and C differ by at most (1 - c/C) times the range; likelihoods as products over answered items; log softmax is 2-Lipschitz |
| C147 | no new model code: conditionalScoreDistribution, sumIncorrectProbabilities (Model/ScoreDist), expectedSumScore, populationDifficulty (Model/Base), sumScoreProbabilities (Model/Evaluator), information (Model/Information) | moments of the generating polynomial of the sum score by induction on the items; weighted means for the population; Cramér-Rao (C106) with the number of points as statistic; derivative of the softmax for the logit models (Props/ScoreMoments) |
| C148 | `Bit.transform`, `Bit.jacobian`, smoothed and exact entropies | fundamental theorem of calculus for the documented integral; the score inside a grid cell is a constant plus the entropy change from the last grid point; log(1+u) - u/(1+u) bounded by u squared for the smoothing; counterexample below the starting theta |
| C149 | no new model code: gmmInit, gmmEStep, gmmMStep, gmmFit, gmmPdf, gmmForward (Model/Mixture); Spec/MixtureImage `movedPoint`, `MovedMixture` | log densities change by the log determinant, responsibilities are equal, weighted means and covariances are equivariant; induction over iterations; reindexing of sums; explicit weights as logistic functions for the counterexample |
| C150 | `jmlLoss`, `jmlGradientTrainer`, `jmlGradientFit` (Model/JointFit): jml.py with the Adam update of every parameter and latent score written out | with one batch the loop is that of C113, so that corresponding entries have equal partial derivatives and stay equal; swapping two respondents for equal answers; one epoch of Adam computed for the counterexample |
| C151 | mmlLoss with mmlIntegration "gauss_hermite"; Spec/NormalPopulation: probability of answers in a normal population | bound of C133 with an error term for the rule, convergence of the rules at moving parameters (C141), compactness and subsequences for the parameters, strict monotonicity of the probability of a right answer for 1PL |
| C152 | `eapScores` of the true and the fitted model, `mmlLoss` with `mmlIntegration "gauss_hermite"` | the log probabilities at the finitely many grid points are continuous in the parameters, so C146 gives a neighbourhood with close scores and C151 puts the estimates in it; the mean squared errors are compared with C128 (Pythagoras) and C132 |
| C153 | `mmlLoss` with `mmlIntegration "gauss_hermite"`; Spec/OtherPopulation: answers of a normal population with any mean and covariance | change of variables in the integral over the latent variables (C143 for the models), then C151; a union bound over two independent samples |
| C154 | 2PL with one latent variable (twoPLWith), normal population (Spec/NormalPopulation, OtherPopulation) | Props/TwoPLIdentified: rightBoth_mono (single crossing), C154_identified, then the generic C151_parameters, C152_scores and C153_population |
| C155 | graded response model with one latent variable (grmWith), bounds with ordered intercepts (GRMBounds) | Props/GradedIdentified: grmWith_atLeast, moments_identified, C155_identified, then the generic C151_parameters, C152_scores and C153_population |
| C156 | 2PL model with one-hot item_theta_relationships (simpleTwoPL), any known covariance matrix | Props/SimpleStructure with Lemmas/SingleCrossing: momentsAt_identified per latent variable, then the generic C151_parameters and C152_scores |
| C157 | turned slopes in the 2PL, partial credit, graded and nominal models (C143), reflections | Props/Rotation: C153_population with a matrix that leaves the covariance as it is; Householder reflections for C157_any_axis |
| C158 | missing answers by design (Spec/LeftOut, Spec/Booklets) with the code's mmlLoss and Gauss-Hermite rules | Props/Booklets: distance_of_nearly_better and draws_chi for what is seen, apart_of_limit, booklet_average, momentsAt_identified per booklet; Props/BookletsGraded for the graded response model; Props/BookletScores: C152_neighbourhood for the scores |
| C159 | 1PL model with missing answers by design, the code's mmlLoss and Gauss-Hermite rules | Props/RaschBooklets: rightOneAt_mono per item, rightBothAt_mono twice for the variance, C153_population for the mean, C158_parameters for the limit |
| C160 | groups with distributions and booklets of their own (Spec/BookletGroups), the code's mmlLoss | Props/BookletGroups: seen_local (what is seen depends on the answered items), C153_population per group, C158_twoPL for the limit |
| C161 | `mmlLoss`, `mmlIntegration`, `quasiMc`; `saturatedLoss` in Spec/Saturated is a count of equal rows | Marginal likelihoods of all answers to the same items add up to one; log x ≤ x - 1 for the ratio of model probability to observed share, summed over the respondents |
| C162 | `information` for tables of probabilities; `AddsUp` and `Merging` of Spec/Recode | Props/Merging: C31_fisher, Fisher information in a direction is the sum of squared slope by probability, Cauchy-Schwarz over the parts of every merged category; C123_merge_grm for the graded model |
| C163 | `information`, `conditionalScoreDistribution`, 1PL and 2PL models; `fisherInformation` of Spec/Information | Props/SumScoreInfo: C33 and C106 turn both outputs into sums over patterns of answers; Cauchy-Schwarz over the patterns with the same sum (merged_le), with equality when the slope of the log likelihood depends on the sum only |

No property of the list was found inexpressible; where only part is proved, section 5 says which.

## 5. What is not proved, and where the code disagrees with its documentation or with what users expect

Every disagreement below is a theorem (the names are in parentheses) unless it says otherwise.

* **C04**: False of the code: nothing orders the intercepts (C04_grm_negative_probability). Proved: always sums to one, nonnegative iff intercepts ordered, fresh/reset model valid.
* **C05**: False of the code: intercepts are not accumulated (C05_gpc_doc_formula_false). Proved: exact formula the code computes, and documented formula holds iff all but the last intercept are zero.
* **C09**: Concatenation, distributions and the sum of log likelihoods (with and without a mask, minus infinity included) for any number of components whose output has one entry per item and category. Disagreement with the code: a 3PL component is refused (C09_mix_three_pl_refused), because its output has one entry per item while the split expects two. mean is refused as documented.
* **C10**: False of the code (C10_mix_layout_false); exact layout proved, correct for one respondent or one component.
* **C12**: Holds for degree 1 only (C12_partial). False for every higher degree: C12_false; C12_reported_instead gives the exact values returned.
* **C18**: False of the code (off by one, negative, short and long key lists accepted); exact acceptance condition proved.
* **C19**: Proved for one scale, for inverses applied in the opposite order, and for scales that commute. C19_false shows that with two scales the list is inverted in the wrong order (it is not reversed) and the round trip fails.
* **C21**: Proved for every well formed module (ordered bounds, minimum sizes that fit, any parameters), with the reachability of well-formedness from the constructor. With free_endpoints the trained output bounds may cross, and then the claim is false (C21_free_endpoints_false).
* **C22**: Proved strictly inside the bounds and one-sidedly on them, in both modes. Outside the bounds the code reports 0 although the tails have slope (upper-lower)/(upper-lower): the full claim is refuted by C22_false on the default Flow spline.
* **C25**: Proved for models oriented the same way, and monotone direction for both. C25_false: with inverted=True the inverse negates after inverting the spline.
* **C26**: Proved for the spline method. C26_false: the neural network Jacobian omits the activation functions.
* **C29**: The claim is false for transform (C29_false, every number of grid points). Proved for items with monotone entropy and for transform_to_1D of multidimensional models. C29_to_1D_partial needs more than one latent variable; with one, transform_to_1D is transform.
* **C30**: False for proper subsets: two or more items raise (C30_false), one item gives a wrong value (C30_one_item_false). Proved for all items in order. Several latent variables and inverse are refused.
* **C35**: False of the code: NaN cells of the caller are overwritten with -1 (C35_false, C35_nan_overwritten). Proved: nothing else ever changes, and the tensor is untouched without NaN, with imputation, or without one-hot encoding.
* **C37**: False of the code: the test for a key is inverted, so the call never succeeds with a model (C37_false, C37_never_succeeds).
* **C38**: Constructors: exact. get_item_categories is false with NaN (C38_get_item_categories_false); exact without NaN.
* **C40**: Partition and training sets: proved. Number of folds: false of the code (C40_fold_count_false); exact condition and a sufficient one proved.
* **C41**: False of the code: one model object is warm-started through all folds (C41_false). Proved: first fold, and all folds when fitting ignores its starting state.
* **C43**: Range, well-definedness, zero for equal fits and the sign are proved for every pair of mean log likelihoods (minus infinity included) and every iteration limit: a positive value implies the second model is better, a negative value that the first is. The strict converse (better implies positive) is false of the code, C43_strict_converse_false: two models below -2 per response both end at the lower clamp and get 0. C43_larger_partial proves the converse unless both entries end at the same clamp.
* **C46**: False after MML (C46_mml_false: the documented default after MML raises). Proved for JML and autoencoders with a positive definite sample covariance; singular covariance and one respondent are characterised.
* **C47**: False for variational autoencoders and for 'random incorrect' imputation (C47_vae_false, C47_random_incorrect_false). Proved: refusals, the encoder branch, imputation with 'zero' or 'mean', models without encoder, MAP exactly when the prior covariance is positive definite. The encoder and the optimiser are parameters.
* **C49**: False (C49_false): the loss is recorded before the update and the parameters are copied after it. Proved for MML, JML and the autoencoders and every loss and update function: number of iterations, stopping rule, learning rates, which parameters are returned; with a non-increasing loss the returned parameters are at least as good as every recorded loss (C49_descent_partial).
* **C50**: False for spline models under MML (C50_false): the precomputed basis survives an exception. Proved for fits that return and for models without a precomputed basis.
* **C55**: Proved for complete data without constant columns and, with missing values, for pairs of variables one of which is observed only where the other is. False in general: with missing values an entry can exceed one (C55_missing_false), and constant columns give NaN including on the diagonal (C55_constant_false).
* **C56**: Bounds, rejection and the joint entropies for data in which all pairs of items have at least two common respondents. False in general: a pair with fewer common respondents makes the whole call raise (C56_few_common_false), and missing responses coded -1 count as a category (C56_coded_false).
* **C57**: The metrics are proved to be the weighted and unweighted averages of the per-category counts, in [0,1], with the most probable category predicted. Missing because false of the code: unweighted metrics of a perfect prediction are not 1 (C57_perfect_false).
* **C59**: Cell, sum and mean log-likelihoods hold for all data with missing responses; group fit holds for complete data. Missing because false: with missing responses the group means are NaN or read other respondents' cells (C59_group_missing, C59_group_misaligned, C59_group_false).
* **C60**: Proved for 'data', 'qmvn' and 'gmm'. Missing because false: 'encoder sampling' always fails (C60_encoder_sampling_false) and population data is refused for models without encoder (C60_population_data).
* **C61**: Items with more than two categories and items with two categories and key 1 behave as stated. False for items with two categories whose key is 0 (C61_first_category_false); the documented default guessing_probabilities=None is refused (C61_refused).
* **C63**: 2PL, 3PL, GRM: formula proved; GRM silently ignores the flag for several latent variables instead of refusing (C63_grm_irt_format_not_refused).
* **C64**: Round trip proved for every saved and every target state of the same layout without a stored basis, and over histories of saves, loads and changes. Missing because false: a load that raises has already overwritten tensors (C64_failed_load_false), and a basis left in the target by an interrupted fit survives loading (C64_stored_basis_false).
* **C65**: False above the sampling limit (C65_large_false). Proved for training sets within the limit.
* **C67**: Proved for standard encoders and for the others without batch normalisation; with it, exactly the lists with equal first and last sizes work (C67_batch_normalisation), so that the claim is false (C67_two_layers_false).
* **C69**: Every combination exactly once, keyword arguments applied, averages exact for numeric parameters. False for non-numeric parameters (C69_false, C69_non_numeric_refused).
* **C70**: The groups partition the respondents in order of the latent scores, with the stated observed and model shares. Missing because false: there can be fewer groups than asked for (C70_group_count_false), the documented average is a median (C70_mid_point_false), standardized residuals of training data fail (C70_standardized_training_data).
* **C71**: Proved for MonotonePolynomial and MonotoneNN; the 'exactly when' half is false when negative relationships are disabled: 1 is reported for unrelated pairs (C71_false). With them enabled unrelated pairs report 0; a zero direction parameter of a related pair also reports 0.
* **C73**: False with NaN responses, with -1 responses and with equal sum scores (C73_nan_false, C73_minus_one_false, C73_equal_scores_false). Proved for complete data and, with an answer key, for every missing pattern.
* **C74**: False for two latent variables (C74_false): the reciprocal square root of the diagonal of the information is reported, not the diagonal of its inverse. Proved: what is reported, that it is never larger than the asymptotic value, that both agree for a diagonal information matrix (in particular one latent variable), the delta method. For a variational autoencoder with a flow or a link attached the Jacobian of the modelled formula cannot be computed by the code, which raises there (C122_vae_trained).
* **C75**: Proved for calls with population data and for histories without it. False otherwise (C75_false): the density of an earlier population is used again.
* **C76**: For complete data with at least two respondents, the reported difference is within (M^2+2M)1e-10/log(base) of the mutual information of the observed pairs minus that of the model, symmetric, with the absolute value as second statistic, and both mutual informations are nonnegative; the p-values are proved for all inputs. Disagreement with the code: with missing responses the marginal and joint entropies come from different respondents, so the observed mutual information can be negative (C76_missing_false), and a pair with fewer than two common respondents makes the whole call fail (C76_few_common). Rounding to three decimals not modelled.
* **C77**: Proved for complete data, and with missing responses when everyone who answered one of the two items answered the other. Disagreements with the code: with other missing patterns Q3 can exceed 1 (C77_missing_false); undefined Q3 gets p-value 0 (C77_undefined_false); if all simulated values equal the observed one the p-value is 0 instead of 1 (C77_ties_false). Rounding to three decimals not modelled.
* **C83**: The frame property, the fresh algorithm object, the refused data and the stored rows are proved. That fitting another model leaves a model alone is false when both are given the same algorithm object (C83_other_model_false, C83_same_algorithm): the first model then reads the encoder, scores and data of the second.
* **C84**: Order and exceptions are proved for every schedule. Own algorithm objects are proved for at most four models per process; with more, the chunks of multiprocessing.Pool make models share one algorithm object (C84_shared_false). What each fit returns is an argument; pickling is modelled only as far as sharing goes.
* **C78**: Definedness, positivity, the values at the data, refusal exactly for collinear normal scores and independence of units are proved. That pdf is a probability density is false (C78_density_false): the derivative of the transformation to normal scores is missing, so doubling the unit doubles the integral.
* **C82**: Everything holds when the two models have the same largest number of categories; models whose widths differ pass the constructor but the loss raises RuntimeError (C82_widths_false).
* **C87**: Proved: lines and surfaces on the original scale and, for invertible transformations with training scores, on the transformed scale; defaults; other transformations as far as the trimming at the minimum allows; the quantities drawn by expected_sum_score, item_probabilities, item_entropy and, for complete responses, log_likelihood. False of the code: the documented range without training scores and the last step of a decreasing scale (C87_range_false, C87_line_decreasing), a constant scale draws nothing, medians used on the wrong scale by item_probabilities (C87_probability_fixed_false), information with a scale and several latent variables (C87_information_line_false, C87_information_axes_false), missing responses in log_likelihood (C87_log_likelihood_false), latent variable 0 (C87_latent_zero_false).
* **C86**: Proved: the default guessers, given probabilities (except two category items with key 0, C61_first_category_false), refusals, median of the guessers' scores, constructor. False of the code, with proofs: nothing is returned although a tensor is documented; any selection with fewer or more items than the test raises, and a selection in another order scores the responses of one item as those of another.
* **C88**: Key reading, column order, alignment of data and key, scoring and error handling are proved for every file content. The documented base of the returned key is false: the loader subtracts one, so that the key is the correct response itself (C88_key_from_one_false).
* **C91**: Caching, sources and retries are proved for every history. Recovery is false: an interrupted write leaves an incomplete cache file that every later call fails to read (C91_interrupted_false); it holds if no write was interrupted (C91_recovers_partial).
* **C92**: Proved in both directions for the 1PL, 2PL, 3PL, GPC, GRM (items with at least two categories) and the nested logit model with a 2PL; for the regression rule with one latent variable. Disagreements: an item with one category is reported with direction 1 although its score is constant (C92_single_category_false); with two correlated latent variables the regression rule of the nominal model reports -1 for a variable that always raises the expected score (C92_regression_false). For the monotone B-spline model only that scores never decrease is proved, not strictness.
* **C93**: Order, bounds, stopping reasons and exceptions are proved. Disagreement: unlike the estimation algorithms, both fits keep the transformation after the last update, not the best one, so the loss can be larger than at the start (C93_not_worse_false), and when the loss becomes NaN they only log a warning and keep the transformation with the NaN loss (C93_usable_false). C93_not_worse_partial holds for optimisers that never increase the loss. evaluation_interval_size = 0 raises ZeroDivisionError after one update.
* **C94**: Proved for fits without random numbers. Disagreement: fits that use random numbers (JML with several latent variables, autoencoders, model constructors) draw from the generator of the worker process that takes the job, so the table depends on the distribution of the work (C94_schedule_false).
* **C95**: Proved for calls that read only the generators that set_seed seeds, among them sequential cross-validation. Disagreement: with multiprocessing (the default on the processor) the workers are spawned with generators of their own, the seed of the caller has no effect on the fits (C95_seed_without_effect), and the table can differ between runs with the same seed (C95_pool_false).
* **C96**: Proved inside the bounds of the spline (C96_inside_partial), for all values when the tails have slope one (C96_density), and the exact total mass for every spline (C96_total). False in general (C96_false): outside the bounds the spline reports log determinant 0 whatever its slope, so with the default bounds of Flow ([-5.5, 5.5] to [-3, 3]) the tails are counted 11/6 times and the density integrates to more than one.
* **C97**: Proved for two or more respondents and variables numbered from one. False otherwise: the scores of one respondent cannot be plotted for one variable because squeeze removes both dimensions (C97_histogram_false), and variable 0 is accepted and shows the last one (C97_variables_false); variables above the dimension raise IndexError because the check meant for them is a copy of the check on their number (C97_variables_partial).
* **C98**: Proved where the expected sum score strictly increases with the plotted variable, and the line for complete responses without an answer key. False otherwise: C98_dropped_false (positions before an interior minimum are left out), C98_two_variables_false (an error for two latent variables), C98_line_missing_false (a missing response coded -1 lowers the line), C98_line_key_false (with an answer key the line is at the sum of option numbers).
* **C99**: Proved: the loss of a batch is minus the mean log likelihood of the observed responses at the encoder scores, whatever was imputed (C99_objective); every epoch is a partition of the respondents (C99_epoch); scoring the training data gives the stored scores for complete data, without imputation, and after AE with zeros or means imputed (C99_scores_partial). False otherwise: after AE with "random incorrect" imputation scoring data with missing responses raises ValueError, since the key is not passed on (C99_random_incorrect_false); VAE.fit does not store the imputation method, so that scoring incomplete data raises ValueError (C99_vae_imputation_false) or, with one-hot encoding, silently gives other scores (C99_vae_one_hot_false). With means imputed and an item nobody answered, the first loss is NaN: fit returns without error, parameters unchanged and all training scores NaN (C99_unobserved_item).
* **C100**: With one latent variable the claim is proved for all six models, through a general theorem (C100_eap_order) about answers with a monotone likelihood ratio; for the graded response model the intercepts must fall (the code does not enforce it, see C04). Not true with two latent variables (C100_two_traits_false): passing one more item can lower the EAP score on an ability which that item does not need.
* **C102**: proved for the models with log-concave probabilities. That LBFGS stops at a zero of the gradient is a hypothesis: the code stops when the summed loss changes by less than 1e-8 per cell or after 40 calls. Disagreements, each with a counterexample: a respondent with only right (or only wrong) answers has no maximum likelihood score, the returned number depends on where the search stopped (C102_ml_perfect_false); the likelihood of the 3PL model can have a local maximum far from the best scores (C102_threePL_false).
* **C103**: Proved for the MML loss (C103_mml_loss, C103_mml_number) and, for EAP, when some grid point is well above the underflow limit (C103_eap_close_partial, C103_eap_length) with the exact condition for NaN (C103_eap_nan_iff). Disagreements: EAP takes the exponential without subtracting the maximum, so 1078 or more balanced 1PL items give NaN for everyone with 64 bit numbers (C103_eap_long_false); the 3PL takes the log of a rounded probability, so failing an item whose logit is 17 or more at every point gives NaN for EAP and for the MML loss (C103_threePL_saturated). Only the exponential and the sigmoid are rounded, overflow is not modelled.
* **C104**: The limit is proved for every model, batch and starting theta when the entropies are continuously differentiable and do not turn between the starting theta and the grid or beyond the end of the grid (C104_limit_partial); the scores never exceed the integral in any case. The documented claim without that condition is false with the default settings (C104_default_false): the starting theta is -10000 but the grid only covers [-7, 7], so the entropy peak of an item with difficulty below -7 is jumped over with every number of grid points (C104_outside_grid gives the missing amount). The entropy is the smoothed one that the code computes (`log2(p + 1e-10)`).
* **C105**: Proved: invariance of the loss under renaming and turning round (C105_relabel, C105_turn_round). Disproved (C105_tells_apart_false): 2PL, 3PL and GPC start with every slope at 1, so the gradients of an item's slopes are the same on all latent variables, and so are their Adam states; all latent variables keep the same slopes after any number of epochs (C105_twoPL_equal_slopes, C105_threePL_equal_slopes, C105_gpc_equal_slopes) and the fitted model is a one-dimensional model in the sum of the latent scores. C105_never_best: data for which every such fit stays a fixed amount above the loss of another 2PL model. Exact arithmetic: in floating point only rounding breaks the tie. Relationship matrices that differ between items, GRM and NRM (random starting values) and JML (random thetas) are not affected and not covered.
* **C106**: Proved: for differentiable probabilities the test information is the expected outer product of the gradient, for twice continuously differentiable positive probabilities also minus the expected Hessian (both without hypotheses for the 2PL); the bound of Cramér and Rao; the squared ML standard error is the smallest variance of a locally unbiased statistic for respondents who answered every item, and a lower bound for every respondent. The full claim is false (C106_missing_false): `information` does not know which answers are missing, so a respondent who answered two of four items is reported the standard error of one who answered four, and standard errors are too small. Other latent variables are taken as known (C74 is about unknown ones).
* **C107**: Proved in full for the 1PL, 2PL and nominal response models; for the 3PL under a nonzero slope, for partial credit and graded response items under at least two categories. Without these conditions the claim is false: a 3PL item with zero slope has many pairs of intercept and guessing parameter with the same curve (C107_threePL_false), and the slopes of an item with one category are reported although they have no effect (C107_gpc_false).
* **C108**: 1PL in 2PL, 2PL in partial credit and in graded response, partial credit in nominal response: proved, for the probabilities and for the marginal loss. The 3PL does not contain the 2PL (C108_threePL_false): its guessing parameter is a sigmoid and never zero; proved instead: there are 3PL models uniformly as close as one likes (C108_threePL_partial).
* **C109**: Logistic, partial credit, graded, nominal, nested logit, monotone polynomial, monotone network, monotone B-spline and surprisal spline models from data in which every item was answered, and mixes: proved, for every later value of the parameters. Not true of all data that the documentation allows: an item without any answer coded NaN makes the partial credit constructor raise a RuntimeError (C109_any_data_false); coded -1 it gets zero categories, so that too few intercepts are allocated and the masked assignment gives all items the same one without an error (C109_own_intercepts_false), and the nominal model gives NaN (C109_nominal_numbers_false). The logistic models do not look at the answers (C109_binary_checked_false), and nested logit accepts a correct-response model with more than two categories, whose rows then do not sum to one (C109_nested_distributions_false). A monotone B-spline with separate functions for the categories and two latent variables is built but cannot be evaluated (C109_monotone_bspline_false).
* **C110**: The history part is proved in full. The bit scale part holds when nothing else is attached and the model is not trained again; otherwise it is false of the code: the scale keeps the orientation and starting theta of the parameters it was built with but reads the current item probabilities (`C110_bit_refit_false`), and attached after another scale it reads the probabilities at scores that are already transformed (`C110_bit_second_false`). Saving and loading is in C64.
* **C111**: C111_objective: the loss of a batch is minus the log likelihood of its observed responses at the rows' own scores. C111_epoch, C111_fit: order of the batches, recorded losses and what is returned with the default batch size. C111_exists_iff: 1PL joint estimates exist and are unique up to a shift iff the data are well connected; C111_extreme: at a minimum everybody and every item has right and wrong answers; C111_units: stretching the scale changes no joint loss of the 2PL. C111_two_items: closed form with two items. C111_inconsistent: almost surely the estimated difference tends to twice the true one, for every ability distribution. Refuted: estimates always exist (C111_exists_false), are determined by the data (C111_unique_false), tend to the truth (C111_consistent_false). Missing: that the optimiser reaches the minimum (Adam is a parameter), bias with more than two items.
* **C112**: Proved: lines, heights summing to one, group markers, surfaces, and colours in turn after any session. Disagreements, proved as negations: a coloured surface figure of an item with more categories than the palette has colours lengthens plotly's global palette (`colors += ...`, C112_palette_false; C112_palette_iff says exactly when), and the gray of an item with a single category is zero divided by zero turned into an integer (C112_gray_single_false). Grays are distinct exactly up to 177 categories.
* **C114**: Proved: after a fit that returned, whatever was scored since and whichever fits of other objects failed, NN scores are computed row by row by the trained network from the respondent's own answers, and scoring leaves everything unchanged (C114_own_answers, C114_other_fits, C114_evaluation, C114_variational); sizes and bounds (C114_standard_size, C114_bounded). False: with AE and imputation_method="mean", missing answers are filled with means over the respondents of the call (C114_mean_false; complete data: C114_complete_partial); after an interrupted second fit of the same object the encoder is left in training mode, where batch normalisation uses the respondents scored together (C114_interrupted_false) and a single respondent raises ValueError (C114_training_single); a refused fit has already replaced the encoder by an untrained one (C114_refused_false). How training changes the parameters is not modelled here (see C99).
* **C115**: Proved: AE with batch normalisation never raises, for every number of respondents and batch size (C115_ae); VAE does not either if the batch size is above one and no single respondent is left for the last batch (C115_vae_partial). False for VAE otherwise: VAE.fit does not store batch_normalization, its loop skips no small batches, and batch normalisation refuses a batch of one respondent (C115_vae_false, C115_vae_single). AE makes at least one step with at least four respondents and a batch size of at least four (C115_ae_trains_partial); otherwise all batches are skipped and fit returns without any training or error (C115_ae_small_batches, C115_ae_untrained_false). The loss after the encoder and the optimiser are parameters.
* **C116**: Proved for all permutations: residuals, accuracy, predictions, infit/outfit, Q3, mutual information and log-likelihood; for grouped evaluations only when the scores used for grouping differ between all respondents, and for group_fit_log_likelihood only without missing responses. False of the code otherwise: tied scores put different respondents into a group depending on the order (C116_groups_false), and group_fit_log_likelihood applies the unsorted mask of missing cells (evaluator.py 574-583) to the sorted data, so its result depends on the order (C116_group_fit_false).
* **C117**: Proved for all histories and all evaluations but two (C117_history_partial), for all evaluations when the data have no NaN (C117_no_nan_partial); earlier calls only change NaN to -1 (C117_only_coding); the defaults for data and scores (C117_default_data, C117_default_scores); the hypothesis on the model holds for the six item response models (C117_models). Disagreements with the code: residuals, q3 and scoring with an encoder write -1 over the NaN of the caller's tensor, and two evaluations treat the two codes differently. mutual_information_difference counts -1 as one more response and can raise a RuntimeError after residuals although it returned a table before (C117_mutual_information_false). group_fit_log_likelihood uses the mask of the unsorted respondents, so that an unmasked NaN raises IndexError before residuals and counts as the last category afterwards (C117_group_fit_false).
* **C118**: Proved with the bound (a S + 2)/(S + 1) for Q3 and (a S + 1)/(S + 1) for the mutual information difference, S simulated data sets, plus the probability that the statistic of the data equals that of a simulated data set or is undefined (C118_q3_level_partial, C118_amid_level_partial, by exchangeability); both tests return p-values in [0,1] for data from the model (C118_q3_runs, C118_amid_runs). Disagreements with the code: ties count as evidence against the model and an undefined Q3 has p-value zero, so that with two respondents tossing coins both tests at the five per cent level reject with probability at least 1/16 for every number of simulations (C118_q3_level_false, C118_amid_level_false). Estimated latent scores, missing responses (the simulated data are complete) and the rounding of the p-values are not covered.
* **C119**: Proved for all nine models in the direction from the latent variable to the points (C119_*_points, C119_twoPL_traits, C119_gpc_partial first part; general form C119_more_points and C119_ranked_points). From the points to the latent variable it is proved for right/wrong items (C119_onePL, C119_twoPL, C119_threePL, by log-concavity of the score distribution) and for GPC models with a common slope (C119_gpc_partial); strictly when some slope is positive. Disagreement: with polytomous items of different slopes it is false: C119_gpc_trait_false has a GPC model with positive slopes in which respondents with two points have a lower mean latent score than those with one.
* **C120**: The calls are modelled statement by statement with an interruption before any statement (Model/FitCrash). Proved: a refused call changes nothing of the model (C120_refused) and the next call does what it would have done (C120_after_refused); at every crash point the model keeps pointing to its old algorithm and has parameters after some number of updates (C120_crash, C120_completed); calls that are not refused complete (C120_completes); what a call does depends only on the parameters it starts from, the stored basis where it does not set it and, for VAE, the stored batch normalisation flag (C120_same), so any attempt can be repeated once the parameters are put back (C120_retry). Disagreements with the code: the data is stored before the arguments are checked, so a refused call stores its data and after the corrected call it is stored twice (C120_stores_false, C120_corrected_false); AE replaces the trained encoder before it checks its arguments (C120_encoder_false); an interrupted call leaves the model in training mode (C120_mode_false).
* **C121**: C121_onePL and C121_twoPL (gradient zero iff observed and expected numbers agree), C121_gpc_iff and C121_nrm_iff the same for the intercepts of GPC and NRM, C121_item_total, the slope equations C121_twoPL_slopes, C121_gpc_slopes and C121_nrm_slopes, C121_minimum (a minimum has gradient zero) and the C121_*_no_minimum theorems (no minimum if an answer to an answered item was never given). C121_onePL_exists_iff, C121_twoPL_exists_iff, C121_gpc_exists_iff and C121_nrm_exists_iff: with the slopes held fixed, minimising intercepts exist exactly if every answer that an answered item allows was given. Partial because a user would expect estimates to exist: C121_minimum_exists_false shows that they do not for an item that everybody solved; the code neither refuses such data nor warns.
* **C122**: Flags, gradient buffers and the gradient mode are part of the model (Model/Autograd). Proved: one iteration uses the derivative of its own loss only and leaves frozen entries alone (C122_step); trainings by MML, JML and autoencoders do not depend on the buffers (C122_buffers_*); without frozen parameters fit is the training without flags and buffers (C122_fit_fresh), also after any history of derivative and scoring calls (C122_history_partial); frozen parameters keep their values in a fit (C122_frozen_kept), all frozen raises (C122_all_frozen); the shared buffer of the loop over items gives every item its own derivatives (C122_item_buffer); gradients, information and standard errors are the same in every gradient mode for the lists of scales stated. Disagreements with the code: a scoring call interrupted between base_irt_model.py 800 and 814 leaves all parameters frozen, as the finally block reads a variable that does not exist yet, and the next fit raises (C122_window_false), the caller sees a NameError instead of what happened (C122_stop_seen_false); a completed scoring call unfreezes parameters the user froze, and the next fit moves them (C122_frozen_false); expected_item_score_gradients clears requires_grad of the caller's tensor (C122_flag_kept_false); on a bit scale probability_gradients and information raise for a tensor that requires a gradient although the values are fine (C122_bit_flag, C122_bit_flag_false), and for a bit scale attached after another scale (C122_bit_later); rescaled standard errors of a VAE with a flow or a link raise a RuntimeError because latent_scores runs under no_grad and the Jacobian calls backward (C122_vae_trained, C122_vae_false), so C74_variational holds in the code only without such scales.
* **C123**: Reverse coding any items: the 2PL, GPC and GRM stay in their families with the slopes negated (C123_twoPL, C123_gpc, C123_grm; the GRM keeps ordered thresholds), the NRM allows any renaming (C123_nrm). A model that follows the new names gives the same MML loss (C123_mml_loss), EAP scores (C123_eap) and ML/MAP start and objective (C123_ml_map) on the recoded data. The best attainable MML loss is the same (C123_best_twoPL, C123_best_gpc, C123_best_grm, C123_best_nrm). Merging neighbouring categories works for the GRM (C123_merge_grm). Parts of the claim are false of the families as they are coded, each with a counterexample: reverse coding for the 1PL, whose slopes are all +1 (C123_onePL_false; true if every item is reversed and the latent variable turned round, C123_onePL_partial, and then the MML loss is unchanged for symmetric integration points, C123_onePL_mml_partial), reverse coding for the 3PL, where guessing has a floor only for answer 1 (C123_threePL_false), other renamings for GPC and GRM (C123_gpc_rename_false, C123_grm_rename_false), merging for GPC and NRM (C123_merge_gpc_false, C123_merge_nrm_false).
* **C125**: Proved for residuals, accuracy, predictions, infit and outfit, mean log likelihoods and the MML loss. Q3 and the mutual information difference are proved for pairs of items that at least two respondents of both data sets answered: with a single such respondent Q3 is 0 but NaN after doubling the data, and the mutual information raises (C125_q3_false, C125_mutual_information_false). Fits agree for every optimiser that only looks at relative sizes of derivatives, in particular for Adam with amsgrad without the constant 1e-8; with the constant the fitted model depends on the number of respondents (C125_fit_false). The starting scores of JML differ by a factor, because they use the unbiased standard deviation (C125_jml_start_partial, C125_jml_start_false).
* **C126**: Reordering of items is proved for all the results named (residuals for data whose answers are categories, infit and outfit for probabilities that sum to one, rescaled information where the Jacobian is invertible); fitting and scoring for two parameter logistic models, with C113 as the step for the fit. Items nobody answered leave the MML loss and the EAP, ML and MAP scores alone, and for a fit too if the optimiser leaves parameters without gradient alone (Adam does). For two results the second half is false of the code: JML starts from NaN scores for everyone (C126_jml_start_false, C126_jml_start_unanswered) and the mutual information difference raises for all pairs (C126_mutual_information_unanswered_false). See also C106_missing_false for standard errors, which count missing answers as answered.
* **C129**: Proved for the MML loss with integration rules whose weights have the same sum (always so for Gauss-Hermite, and for quasi Monte Carlo with the same points), for the log likelihood of models without impossible answers and for accuracy. False beyond: quasi Monte Carlo weights are densities that are not normalised (mml.py 287-316), so the loss falls when points are added, whatever the model (C129_mml_points_false); the evaluator counts an impossible answer as -30, more than a possible answer less likely than exp(-30), so a model that wrongly rules an answer out can have the larger expected log likelihood (C129_log_likelihood_false).
* **C130**: Averages over all data sets of residuals for every item, respondent and overall, and of infit and outfit. False part: for models with an answer key the residual is one minus the probability of the answer given, which averages one minus the sum of the squared probabilities, not zero (C130_residuals_keyed_false); the value is proved. Infit and outfit hold with and without an answer key.
* **C131**: ML, MAP and JML objectives are right for every mix (C131_scores, C131_joint), and a mix of one model is fitted and scored like the model (C131_one_model_partial); generalized partial credit and nominal response models qualify (C131_gpc, C131_nrm). False of the code for MML and EAP (C131_mml_false, C131_eap_false): ModelMix.log_likelihood concatenates the log likelihoods model by model (C10), so view(-1, items) puts log likelihoods of different respondents or quadrature points into one sum; C131_eap_blind: somebody who solves the only informative item and somebody who does not get the same EAP score. The documented ModelMix example fits with MML. A variational autoencoder is right with one sample per respondent (C131_vae_one_sample, the default) and wrong with several (C131_vae_samples_false): log likelihoods of different samples are added up.
* **C134**: The totals and overall means are right (C134_total, C134_mean), as is everything for one respondent (C134_one_respondent) and for a mix of one model (C134_one_model_partial). The values per respondent, item, cell and group are wrong for several models and respondents (C134_respondent_false, C134_item_false, C134_cells_false, C134_group_false): the mix returns all values of the first model, then all of the second, and the evaluator cuts this list into rows of all items. C134_where says where each number ends up.
* **C137**: Proved: latent_scores, the evaluations (contiguous), MML (repeat) and the data loaders (stack) never depend on the layout; a direct log_likelihood gives the value of the table or is refused, with the exact condition, so two layouts never give two values. False of the code: tables stored column after column are refused (C137_columns_false); a mix of models refuses 64-bit integers (C137_integers_false); whether a missing answer of the caller becomes -1 depends on the layout (C137_caller_false). Model: strides of dimensions of size one do not matter, as in torch; empty tensors count as contiguous.
* **C145**: Proved for the parameters of the six families (C145_fresh, C145_history, C145_refit). Two parts of the claim are false: ModelMix.reset_parameters refers to weight_param and bias_param, which a mix does not have, and always raises AttributeError (C145_mix_false), and the algorithm and the attached scales survive a reset, so that EAP scoring after MML training and a reset raises although a new model scores (C145_like_new_false).
* **C148**: `C148_slope_partial`: slope of the documented integral. `C148_transform_partial`: slope of the score `transform` returns, inside a grid cell in which no entropy turns. `C148_below_start` and `C148_below_start_flat`: below the starting theta scores are zero. Missing part is false: `C148_below_start_false` (two Rasch items, starting theta 5, latent score -1: scores constant, reported slope above 0.19). Standard errors rescaled with this Jacobian are therefore positive for respondents below the starting theta, although their bit score is a constant.
* **C161**: Proved for every integration rule whose weights add up to one (C161_bound), which Gauss-Hermite rules do (C161_gauss_hermite); C161_complete gives the floor for data without missing answers. False for the equidistant grid (integration_method quasi_mc): its weights are densities that are not normalised, so that with enough points the loss of one respondent with one answer falls below the floor of zero (C161_quasi_mc_false); for any weights the floor is lower by the number of respondents times the logarithm of their sum (C161_any_weights).

Further observations on the source made while modelling (not all of them are theorems):

* The documentation of `impute_missing` names `random_incorrect`, but only `random incorrect` is accepted.
* `MonotoneBSpline(separate="categories")` with several latent variables raises in `forward`
  (C13_bspline_categories_refused).
* `mml.py` 190 tests `isinstance(model, MonotoneBSpline)` twice, so `SurprisalSpline` never precomputes its basis; by
  C89_mml this changes no result.
* `ModelMix.reset_parameters` refers to attributes that do not exist.
* `random_guessing_data` raises for its documented default `guessing_probabilities=None` (C61_refused).
* `annealing_iterations=0` makes the VAE raise ZeroDivisionError.
* After two fits, `train_data` holds the rows of both while `training_theta_scores` belongs to the last (C51).
* `reduction in "mean"` in the evaluator is a substring test, so that e.g. `"m"` is accepted.
* `group_fit_residuals` passes `**kwargs` to a function that does not take them.
* Single-respondent data make `squeeze` drop a dimension in several places (imputation, histograms).

## 6. Testing the theorems against wrong programs

`seeded/LOG.jsonl` has one line per seeded bug: the model definition that was edited in a scratch copy, the edit, the
claim it breaks, the theorems that no longer compile, and the theorems that were tightened because they still did.
