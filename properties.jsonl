{"id": "C01", "title": "Forget weights are exactly exponential", "statement": "The vector of discount weights for N >= 1 observations has length N and gives observation n (1-based, oldest first) the weight (1 - forget)^(N - n); with forget = 0 every weight is 1.", "quantifier": "every real forget factor and every size N >= 1", "why_tests_cant": "The recursion runs for an arbitrary number of steps and has a special branch at forget = 0; tests try a handful of sizes and factors.", "anchors": ["src/ondil/gram.py: init_forget_vector"]}
{"id": "C02", "title": "The Gramian is the discounted weighted cross product", "statement": "The initial Gramian of a data set is the matrix sum over observations of (1-forget)^(N-n) * w_n * x_n x_n^T, and the initial y-Gramian is the vector sum of (1-forget)^(N-n) * w_n * y_n * x_n.", "quantifier": "every data set with non-negative sample weights, every forget factor with 1 - forget >= 0, every number of features", "why_tests_cant": "Equality must hold for all data and all weights, including zero weights, not for sampled matrices.", "anchors": ["src/ondil/gram.py: init_gram, init_y_gram"]}
{"id": "C03", "title": "Online Gramian equals batch Gramian under every chunking", "statement": "Starting from the Gramian of an initial data set and updating it with any sequence of later batches (each of any size >= 1) gives exactly the Gramian of the concatenated data; so the result does not depend on how the stream is cut into batches. The same holds for the y-Gramian.", "quantifier": "every initial data set, every finite sequence of non-empty batches, every cut of the same stream, non-negative weights, 0 <= forget <= 1", "why_tests_cant": "There are unboundedly many histories and chunkings, and the code has different branches for single rows and batches.", "anchors": ["src/ondil/gram.py: update_gram, update_y_gram, init_gram, init_y_gram"]}
{"id": "C04", "title": "The recursively updated inverse Gramian stays the inverse of the Gramian", "statement": "If the initial Gramian is invertible, then after any sequence of updates the maintained matrix is exactly the inverse of the discounted Gramian of all data seen; no update divides by zero and the Gramian never becomes singular, and the result does not depend on the chunking.", "quantifier": "every initial data set with invertible Gramian, every finite sequence of non-empty batches, non-negative weights, 0 <= forget < 1", "why_tests_cant": "An inductive invariant over unbounded histories; tests check a few updates up to tolerance.", "anchors": ["src/ondil/gram.py: _update_inverted_gram, update_inverted_gram, init_inverted_gram"]}
{"id": "C05", "title": "Initialising the inverse Gramian fails exactly on rank-deficient data", "statement": "Building the inverse Gramian raises ValueError exactly when some non-zero combination of the regressors vanishes on every observation with positive weight; otherwise it returns a two-sided inverse of the Gramian.", "quantifier": "every data set, non-negative weights, 0 <= forget < 1", "why_tests_cant": "It is an if-and-only-if over all data sets; tests exercise one singular and a few regular matrices.", "anchors": ["src/ondil/gram.py: init_inverted_gram"]}
{"id": "C06", "title": "The Gramian is symmetric positive semi-definite for ever", "statement": "The Gramian is symmetric and positive semi-definite after the initial fit and after any sequence of updates; its diagonal is non-negative, and if it is once positive definite it stays so.", "quantifier": "every history of batches, non-negative weights, 0 <= forget <= 1 (< 1 for definiteness)", "why_tests_cant": "Invariant over unbounded histories.", "anchors": ["src/ondil/gram.py: init_gram, update_gram"]}
{"id": "C07", "title": "Sample weights act as frequencies in the sufficient statistics", "statement": "Without forgetting, an observation with integer weight k contributes to the Gramian and y-Gramian exactly like k copies of the observation with weight one, and an observation with weight zero like an absent one; and multiplying all weights by a constant multiplies Gramian and y-Gramian by that constant (for every forget factor).", "quantifier": "every data set, every position of the weighted observation, every k, every constant c >= 0", "why_tests_cant": "Metamorphic relation over all data sets and multiplicities.", "anchors": ["src/ondil/gram.py: init_gram, init_y_gram, update_gram, update_y_gram"]}
{"id": "C08", "title": "Online least squares minimises the discounted weighted squared error", "statement": "After an initial fit and any sequence of updates with the OLS method, the coefficients are the unique minimiser of the sum of (1-forget)^(age) * w * (y - x.b)^2 over all observations seen so far.", "quantifier": "every initial data set of full rank, every sequence of batches, non-negative weights, 0 <= forget < 1", "why_tests_cant": "Optimality quantifies over all competing coefficient vectors and over unbounded histories.", "anchors": ["src/ondil/methods/recursive_least_squares.py: OrdinaryLeastSquares", "src/ondil/gram.py: update_inverted_gram, update_y_gram"]}
{"id": "C09", "title": "Online fit equals batch refit for least squares without scaling", "statement": "OnlineLinearModel(method='ols', scale_inputs=False): fit on an initial data set followed by updates (or partial_fit calls) gives the same coefficients, and hence predictions, as one fit on all data, for every chunking.", "quantifier": "every initial data set accepted by fit, every sequence of batches, both intercept settings, non-negative weights, 0 <= forget < 1", "why_tests_cant": "Refinement between an incremental and a batch computation for all histories.", "anchors": ["src/ondil/estimators/online_linear_model.py: OnlineLinearModel.fit, OnlineLinearModel.update, OnlineLinearModel.predict", "src/ondil/base/estimator.py: OndilEstimatorMixin.partial_fit"]}
{"id": "C10", "title": "Online fit equals batch refit with input scaling", "statement": "OnlineLinearModel(method='ols', scale_inputs=True) with an intercept: fit followed by updates gives the same predictions as one fit on all data.", "quantifier": "every initial data set, every sequence of batches", "why_tests_cant": "Refinement over all histories; the scaler changes between updates while the Gramian keeps rows scaled with older parameters.", "anchors": ["src/ondil/estimators/online_linear_model.py: OnlineLinearModel.update", "src/ondil/scaler.py: OnlineScaler.update"]}
{"id": "C11", "title": "Scaling the inputs does not change a least squares fit", "statement": "For one fit with an intercept, OLS predictions with scale_inputs=True (or any column subset) equal those with scale_inputs=False whenever all scaled columns have positive variance.", "quantifier": "every data set of full rank, every prediction point, every column selection", "why_tests_cant": "Equality for all data sets and prediction points.", "anchors": ["src/ondil/estimators/online_linear_model.py: OnlineLinearModel.fit, OnlineLinearModel.predict", "src/ondil/scaler.py: OnlineScaler.fit, OnlineScaler.transform"]}
{"id": "C12", "title": "Scaler statistics are the exponentially weighted moments of the whole stream", "statement": "After fit and any sequence of updates the scaler's mean and variance of each selected column are the weighted mean and the weighted population variance of that column over all data seen, with weights (1-forget)^(age) * sample weight; the result does not depend on the chunking. n_observations_ is the sum of all sample weights seen, also when nothing is scaled.", "quantifier": "every initial data set, every sequence of batches of every size, every column selection, positive weights, 0 <= forget < 1", "why_tests_cant": "Welford-type recursion: an invariant over unbounded histories; tests check few lengths and tolerances.", "anchors": ["src/ondil/scaler.py: OnlineScaler.fit, OnlineScaler.update"]}
{"id": "C13", "title": "Scaler variance never negative, weight total stays positive", "statement": "At every point of every history the scaler's variances are >= 0 and the accumulated weight is > 0, so no update divides by zero.", "quantifier": "every history of fit and update calls with positive weights and 0 <= forget < 1", "why_tests_cant": "Safety invariant over all reachable states.", "anchors": ["src/ondil/scaler.py: OnlineScaler.fit, OnlineScaler.update, OnlineScaler.std_"]}
{"id": "C14", "title": "Scaling and inverse scaling are mutually inverse", "statement": "inverse_transform(transform(X)) = X and transform(inverse_transform(Z)) = Z for every matrix when the selected columns have positive variance; columns that are not selected are returned unchanged and the shape is preserved. With to_scale=False both functions are the identity.", "quantifier": "every scaler state with positive variances, every matrix, every column selection", "why_tests_cant": "Round-trip law for all inputs.", "anchors": ["src/ondil/scaler.py: OnlineScaler.transform, OnlineScaler.inverse_transform"]}
{"id": "C15", "title": "Scaled data are standardised", "statement": "After fit and any updates, transforming the complete history gives columns with discounted weighted mean 0 and discounted weighted variance 1 for each selected column with positive variance.", "quantifier": "every history of batches, every column selection, positive weights, 0 <= forget < 1", "why_tests_cant": "Consequence of the moments invariant for all histories.", "anchors": ["src/ondil/scaler.py: OnlineScaler"]}
{"id": "C16", "title": "A constant column cannot be scaled into finite numbers", "statement": "If a selected column is constant over the whole history its variance is 0 and transform gives a non-finite value in every row of that column.", "quantifier": "every history of batches in which a selected column is constant", "why_tests_cant": "Quantifies over all histories; the failure only shows on specific data.", "anchors": ["src/ondil/scaler.py: OnlineScaler.transform"]}
{"id": "C17", "title": "Effective training length is the total discount weight", "statement": "The effective training length for n observations is the sum of the n discount weights; it is n without forgetting, otherwise below the asymptotic length 1/forget, it is strictly increasing in n and at most n.", "quantifier": "every n and every forget factor in [0, 1)", "why_tests_cant": "Closed form of a sum of unbounded length, and order relations for all n.", "anchors": ["src/ondil/utils.py: calculate_effective_training_length, calculate_asymptotic_training_length"]}
{"id": "C18", "title": "Online mean update keeps the exponentially weighted mean", "statement": "Feeding values one by one, or in arrays of any size with n_seen counting the values including the new ones, keeps the average equal to the discounted mean of all values seen, whatever the chunking.", "quantifier": "every sequence of values, every chunking into arrays, every forget factor in [0, 1)", "why_tests_cant": "Invariant over unbounded streams and chunkings, including the off-by-one of n_seen.", "anchors": ["src/ondil/utils.py: _online_mean_update, online_mean_update"]}
{"id": "C19", "title": "Soft thresholding is the proximal map of the absolute value", "statement": "For a threshold t >= 0, soft_threshold(v, t) is the unique minimiser of (z - v)^2/2 + t*|z|; it is zero exactly when |v| <= t, never changes the sign of v, is odd and non-expansive in v.", "quantifier": "all reals v and all t >= 0", "why_tests_cant": "Optimality over all competitors z.", "anchors": ["src/ondil/coordinate_descent.py: soft_threshold"]}
{"id": "C20", "title": "A coordinate step is an exact minimisation", "statement": "One coordinate update of online coordinate descent sets the coordinate to the minimiser, over all values allowed by its bounds, of the elastic net objective with the other coordinates held fixed.", "quantifier": "every symmetric Gramian, y-Gramian, coefficient vector, coordinate with positive curvature, lambda >= 0, alpha in [0,1], bounds lower <= upper (possibly infinite)", "why_tests_cant": "Optimality over all competing values.", "anchors": ["src/ondil/coordinate_descent.py: online_coordinate_descent"]}
{"id": "C21", "title": "Coordinate descent never makes the objective worse", "statement": "The elastic net objective of the returned coefficients is at most that of every feasible start value, for every order of the coordinates chosen in each sweep (cyclic or any random permutation) and every stopping point.", "quantifier": "every symmetric Gramian with positive curvature, start value within the bounds, every schedule of coordinate orders, every tolerance and iteration limit", "why_tests_cant": "All random schedules and iteration counts; tests see one seed.", "anchors": ["src/ondil/coordinate_descent.py: online_coordinate_descent"]}
{"id": "C22", "title": "Coefficient bounds always hold", "statement": "Every coefficient on every returned path row lies within its lower and upper bound, after the initial fit and after any number of updates, for every schedule of coordinate orders and every start-value rule.", "quantifier": "all Gramians with non-zero curvature, bounds lower <= upper with 0 allowed, all lambdas, all histories of fits and updates", "why_tests_cant": "Invariant over histories, schedules and early stopping.", "anchors": ["src/ondil/coordinate_descent.py: online_coordinate_descent, online_coordinate_descent_path", "src/ondil/methods/elasticnet.py: ElasticNetPath"]}
{"id": "C23", "title": "Coordinate descent terminates within its iteration limit", "statement": "online_coordinate_descent always returns, for every input including NaN, after at least 1 and at most max_iterations + 1 sweeps, and the returned iteration count is the number of sweeps; each path row reports a count in that range or 0 when it was skipped by early stopping.", "quantifier": "all inputs, all schedules, all comparison outcomes (including NaN)", "why_tests_cant": "Termination of an unbounded `while True` loop.", "anchors": ["src/ondil/coordinate_descent.py: online_coordinate_descent, online_coordinate_descent_path"]}
{"id": "C24", "title": "A fixed point of a full sweep is a global optimum", "statement": "If a full sweep leaves the coefficients unchanged, they minimise the elastic net objective over the whole box, for every positive semi-definite Gramian; in particular with alpha = 0 and no bounds they solve the ridge normal equations.", "quantifier": "every symmetric positive semi-definite Gramian with positive curvature, every lambda >= 0, alpha in [0,1], every sweep order", "why_tests_cant": "Global optimality over all coefficient vectors.", "anchors": ["src/ondil/coordinate_descent.py: online_coordinate_descent", "src/ondil/methods/ridge.py: Ridge"]}
{"id": "C25", "title": "Converged coordinate descent returns a global optimum", "statement": "If online coordinate descent stops because the last sweep changed nothing, the returned coefficients minimise the elastic net objective.", "quantifier": "every symmetric positive semi-definite Gramian with positive curvature, every start value", "why_tests_cant": "Depends on the active-set rule (only non-zero coefficients are revisited after the first sweep); failing inputs are rare.", "anchors": ["src/ondil/coordinate_descent.py: online_coordinate_descent"]}
{"id": "C26", "title": "At the largest lambda of the path all regularised coefficients are zero", "statement": "The regularisation grid starts at the smallest strength for which all regularised coefficients are zero: the first row of a freshly fitted path contains only zeros for regularised coefficients.", "quantifier": "every Gramian/y-Gramian pair, with and without an unregularised intercept, every alpha in (0,1]", "why_tests_cant": "Holds or fails depending on signs of the data; needs all inputs.", "anchors": ["src/ondil/methods/elasticnet.py: ElasticNetPath._get_lambda_max, ElasticNetPath.fit_beta_path"]}
{"id": "C27", "title": "The lambda grid is geometric and decreasing", "statement": "The regularisation grid has n points, runs from lambda_max down to lambda_max * lambda_eps, is strictly decreasing and geometric; hence all points are positive when lambda_max is.", "quantifier": "every lambda_max > 0, lambda_eps in (0,1), n >= 2", "why_tests_cant": "All grid lengths and parameters.", "anchors": ["src/ondil/methods/elasticnet.py: ElasticNetPath.fit_beta_path, ElasticNetPath.update_beta_path"]}
{"id": "C28", "title": "Early stopping freezes the path once enough coefficients are active", "statement": "With early_stop = k > 0 and warm starts along the path, no row whose predecessor has at least k non-zero coefficients is optimised: it repeats its predecessor with 0 iterations, so all rows after the first row with at least k non-zeros are equal; with early_stop = 0 every row is optimised.", "quantifier": "all inputs, all schedules, all k, all grid lengths", "why_tests_cant": "Inductive property along the path.", "anchors": ["src/ondil/coordinate_descent.py: online_coordinate_descent_path"]}
{"id": "C29", "title": "The start-value option selects the documented start value", "statement": "Each row is warm-started from the previous row of the new path for 'previous_lambda', from the same row of the previous fit for 'previous_fit' and from the average of the two for 'average'.", "quantifier": "all inputs", "why_tests_cant": "A control-flow property for all inputs; converged results hide the start value.", "anchors": ["src/ondil/coordinate_descent.py: online_coordinate_descent_path"]}
{"id": "C30", "title": "Rescaling all weights leaves the coefficient path unchanged", "statement": "Multiplying Gramian and y-Gramian by c > 0 (all sample weights times c) multiplies the lambda grid by c and leaves all coefficient paths and iteration counts unchanged; OLS coefficients are unchanged too.", "quantifier": "all inputs, all c > 0, all schedules", "why_tests_cant": "Metamorphic relation through an iterative algorithm.", "anchors": ["src/ondil/coordinate_descent.py: online_coordinate_descent_path", "src/ondil/methods/elasticnet.py: ElasticNetPath", "src/ondil/methods/recursive_least_squares.py: OrdinaryLeastSquares"]}
{"id": "C31", "title": "Model selection returns the best model of the path", "statement": "The selected index is within the path, its information criterion is minimal, and it is the first such index.", "quantifier": "all paths of length >= 1, all criteria, all data", "why_tests_cant": "Universally quantified over paths.", "anchors": ["src/ondil/information_criteria.py: InformationCriterion", "src/ondil/estimators/online_linear_model.py: OnlineLinearModel.fit", "src/ondil/estimators/online_gamlss.py: OnlineDistributionalRegression._fit_select_model"]}
{"id": "C32", "title": "Information criteria follow their textbook definitions and invalid input is rejected", "statement": "For log-likelihood l, n observations and p parameters the criteria equal AIC = 2p - 2l, AICc = AIC + 2p(p+1)/(n-p-1), BIC = p log n - 2l, HQC = 2p log log n - 2l; from_rss uses the Gaussian profile log-likelihood; unknown names raise ValueError; AICc raises ValueError exactly when n = p + 1; HQC is NaN below one observation.", "quantifier": "all real l, all n and p (n > 0 for BIC, n > 1 or n < 1 for HQC), all strings", "why_tests_cant": "Identity for all values plus exact error condition.", "anchors": ["src/ondil/information_criteria.py: InformationCriterion"]}
{"id": "C33", "title": "Stronger penalties never select larger models", "statement": "On the same path, BIC selects a model with at most as many non-zero coefficients as AIC selects whenever log n > 2, and HQC at most as many as AIC when log log n > 1; with equal numbers of parameters all criteria prefer the smaller residual sum of squares.", "quantifier": "all paths with residual sums of squares at least zero, all n > 1 with the stated condition", "why_tests_cant": "Comparison of argmins over all paths.", "anchors": ["src/ondil/information_criteria.py: InformationCriterion"]}
{"id": "C34", "title": "Criterion 'max' selects the largest model", "statement": "With criterion 'max' the selected model is the one with the most non-zero coefficients (documentation: 'Select the largest model').", "quantifier": "all paths", "why_tests_cant": "Fails only on particular paths.", "anchors": ["src/ondil/information_criteria.py: InformationCriterion.from_rss, InformationCriterion.from_ll", "src/ondil/estimators/online_linear_model.py: OnlineLinearModel"]}
{"id": "C35", "title": "Observation counters are additive over the history", "statement": "After fit and any sequence of updates the number of observations is the sum of all sample weights seen (the row count with unit weights) and the training length is the corresponding effective training length, whatever the chunking.", "quantifier": "all histories accepted by fit and update, all estimator configurations", "why_tests_cant": "Invariant over unbounded histories.", "anchors": ["src/ondil/estimators/online_linear_model.py: OnlineLinearModel.fit, OnlineLinearModel.update", "src/ondil/estimators/online_gamlss.py: OnlineDistributionalRegression.fit, update", "src/ondil/scaler.py: OnlineScaler"]}
{"id": "C36", "title": "Residual sum of squares used for model selection does not depend on chunking", "statement": "For path methods the residual sum of squares kept for online model selection is the discounted weighted residual sum of squares of the data: updating with a batch row by row or at once gives the same value for the same coefficients, and zero-weight observations do not count.", "quantifier": "all batches, all weights, all forget factors", "why_tests_cant": "Fails only for forget > 0 with batches larger than one, or for non-unit weights.", "anchors": ["src/ondil/estimators/online_linear_model.py: OnlineLinearModel.fit, OnlineLinearModel.update"]}
{"id": "C37", "title": "Too few observations are rejected for least squares", "statement": "OnlineLinearModel.fit with the OLS method (given by name or as an object) raises ValueError whenever there are not more observations than design-matrix columns; for every method it raises ValueError for a single observation.", "quantifier": "all data sets, both ways to pass the method", "why_tests_cant": "Decision logic over all configurations.", "anchors": ["src/ondil/estimators/online_linear_model.py: OnlineLinearModel.fit"]}
{"id": "C38", "title": "partial_fit is fit first and update afterwards", "statement": "Any sequence of partial_fit calls is equivalent to one fit on the first batch followed by updates with the others, and an estimator is reported as fitted exactly after its first successful fit.", "quantifier": "all sequences of batches, all estimators", "why_tests_cant": "Dispatch over all histories, including failed fits.", "anchors": ["src/ondil/base/estimator.py: OndilEstimatorMixin", "src/ondil/estimators/online_linear_model.py: OnlineLinearModel.fit, OnlineLinearModel.update", "src/ondil/estimators/online_gamlss.py: OnlineDistributionalRegression"]}
{"id": "C39", "title": "R-squared never exceeds one", "statement": "score() is at most 1 and equals 1 exactly when every prediction is exact.", "quantifier": "all data with non-constant response, all models", "why_tests_cant": "Universally quantified inequality with equality case.", "anchors": ["src/ondil/estimators/online_linear_model.py: OnlineLinearModel.score"]}
{"id": "C40", "title": "Method look-up is isolated", "statement": "get_estimation_method maps 'ols', 'lasso', 'elasticnet' to fresh method objects, copies instances so that fitting never changes the object the user passed, and raises ValueError for every other string or object.", "quantifier": "all strings, all objects, all histories of fits on the copy", "why_tests_cant": "Negative property (never mutates) over histories.", "anchors": ["src/ondil/methods/factory.py: get_estimation_method"]}
{"id": "C41", "title": "Link functions invert exactly on their working range", "statement": "inverse(link(x)) = x for every x in the parameter range in which no clipping takes place, and link(inverse(eta)) = eta for every eta in the corresponding range, for all link functions.", "quantifier": "all reals in the stated ranges, all 11 link classes, all shift values", "why_tests_cant": "Round-trip law over a continuum with clipping branches.", "anchors": ["src/ondil/links/loglinks.py", "src/ondil/links/logitlinks.py", "src/ondil/links/softpluslinks.py", "src/ondil/links/sqrtlinks.py", "src/ondil/links/identitylinks.py", "src/ondil/links/robust_math.py"]}
{"id": "C42", "title": "Inverse links map every real into the admissible parameter range", "statement": "For every real linear predictor the inverse link is a value of the link's declared support: positive for log, softplus and log-identity, above the shift for shifted links, in (0,1) for logit.", "quantifier": "all reals, all link classes", "why_tests_cant": "Safety for all linear predictors, including those far outside the training data.", "anchors": ["src/ondil/links: inverse, link_support"]}
{"id": "C43", "title": "Links are strictly increasing", "statement": "Link and inverse functions are strictly increasing on their working range and non-decreasing everywhere despite clipping.", "quantifier": "all pairs of reals", "why_tests_cant": "Order property over all pairs, at the seams of the branches.", "anchors": ["src/ondil/links"]}
{"id": "C44", "title": "Link derivatives are the true derivatives", "statement": "link_derivative, link_second_derivative and inverse_derivative are the first and second derivatives of link and the derivative of inverse at every interior point of the unclipped range, for all link classes.", "quantifier": "all points of the open working range", "why_tests_cant": "Needs analysis at every point; finite differences at samples leave gaps.", "anchors": ["src/ondil/links: link_derivative, link_second_derivative, inverse_derivative"]}
{"id": "C45", "title": "Robust elementary functions never leave the finite range", "statement": "robust_log maps every non-NaN input except +inf to a finite number, robust_exp maps every non-NaN input to a finite non-negative number bounded by the large constant, robust_sigmoid lies in [0,1] for every finite non-zero k, and they agree with log, exp and the logistic function where no clipping takes place.", "quantifier": "all extended reals", "why_tests_cant": "Totality over all inputs including infinities.", "anchors": ["src/ondil/links/robust_math.py"]}
{"id": "C46", "title": "Score functions are the derivatives of the log density", "statement": "For every distribution and every distribution parameter, dl1_dp1 is the derivative of logpdf with respect to that parameter, at every admissible parameter vector and response.", "quantifier": "all responses in the support, all admissible parameters, all distributions of the package", "why_tests_cant": "Calculus over a continuum; numerical differentiation in tests samples a few points.", "anchors": ["src/ondil/distributions: dl1_dp1, logpdf"]}
{"id": "C47", "title": "Working weights are positive", "statement": "dl2_dp2 is negative for every admissible parameter vector and response, so the fitting weights are positive and finite.", "quantifier": "all responses in the support, all admissible parameters, all distributions", "why_tests_cant": "Strict inequality over a continuum, including special functions.", "anchors": ["src/ondil/distributions: dl2_dp2", "src/ondil/estimators/online_gamlss.py: OnlineDistributionalRegression._inner_fit, _inner_update"]}
{"id": "C48", "title": "dl2_dp2 is the Fisher information", "statement": "dl2_dp2 is minus the variance of the score, i.e. the expectation of the squared score under the distribution itself, for the distributions that use expected information.", "quantifier": "all admissible parameters", "why_tests_cant": "Needs integrals for every parameter value.", "anchors": ["src/ondil/distributions: dl2_dp2"]}
{"id": "C49", "title": "Log density is the logarithm of the density", "statement": "For the distributions with their own density code, pdf is non-negative, logpdf is log(pdf) wherever pdf > 0, and responses outside the support have density 0 and log density minus infinity.", "quantifier": "all reals y, all admissible parameters", "why_tests_cant": "Branch logic over a continuum, including points outside the support.", "anchors": ["src/ondil/distributions/betainflated.py", "src/ondil/distributions/betainflatedzero.py", "src/ondil/distributions/zeroadjustedgamma.py", "src/ondil/distributions/lognormal.py"]}
{"id": "C50", "title": "Distribution functions belong to the densities", "statement": "For every class cdf(y) is the probability of the responses up to y under the law described by its density method. The cdf of the zero/one inflated distributions is non-decreasing, 0 below the support, within [0,1], reaches 1 at the upper end, and jumps by exactly the point mass at each inflated point; total mass is one.", "quantifier": "all pairs of reals, all admissible parameters, all base distribution functions", "why_tests_cant": "Order property over all pairs of points.", "anchors": ["src/ondil/distributions/betainflated.py: cdf", "src/ondil/distributions/betainflatedzero.py: cdf", "src/ondil/distributions/zeroadjustedgamma.py: cdf"]}
{"id": "C51", "title": "Quantile function is the generalised inverse of the cdf", "statement": "For every class ppf(q) <= y exactly when q <= cdf(y) for every probability 0 < q < 1 and every y in the support.", "quantifier": "all q in (0,1), all y in the support, all admissible parameters", "why_tests_cant": "Galois connection over a continuum with point masses.", "anchors": ["src/ondil/distributions/betainflated.py: ppf", "src/ondil/distributions/betainflatedzero.py: ppf", "src/ondil/distributions/zeroadjustedgamma.py: ppf"]}
{"id": "C52", "title": "Parameterisation matches the documented moments", "statement": "The translation to the scipy parameters yields admissible scipy parameters for every admissible parameter vector and the documented mean and variance, e.g. mean mu and variance sigma^2 mu^2 for Gamma, mean mu and variance sigma^2 mu (1-mu) for Beta, mean mu and variance sigma^2 mu^3 for InverseGaussian, mean mu for Exponential; log-space mean and standard deviation for LogNormal; mu is the median for LogNormalMedian and the mode for InverseGamma.", "quantifier": "all admissible parameters", "why_tests_cant": "Identity for all parameters.", "anchors": ["src/ondil/distributions: theta_to_scipy_params"]}
{"id": "C53", "title": "Initial values are admissible parameters", "statement": "The initial parameter values of every row lie in the parameter support for every non-degenerate sample from the declared distribution support.", "quantifier": "all samples in the support", "why_tests_cant": "Fails only for special samples (all zeros, constant, boundary).", "anchors": ["src/ondil/distributions: initial_values"]}
{"id": "C54", "title": "Derivative requests for non-existing parameters are rejected", "statement": "dl1_dp1/dl2_dp2 raise ValueError for a parameter index >= the number of parameters and dl2_dpp raises ValueError for equal or too large indices; mixed derivatives are symmetric in the two indices.", "quantifier": "all indices, all distributions", "why_tests_cant": "Decision logic over all index pairs.", "anchors": ["src/ondil/base/distribution.py: Distribution._validate_dln_dpn_inputs, _validate_dl2_dpp_inputs", "src/ondil/distributions: dl2_dpp"]}
{"id": "C55", "title": "Responses outside the support are rejected without side effects", "statement": "fit and update of the distributional regression raise OutOfSupportError exactly when some response lies outside the support of the distribution, and a rejected update leaves all predictions and all later updates unchanged.", "quantifier": "all estimator states, all batches", "why_tests_cant": "Atomicity over all states and batches.", "anchors": ["src/ondil/estimators/online_gamlss.py: OnlineDistributionalRegression._validate_inputs, update"]}
{"id": "C56", "title": "A rejected update has no effect", "statement": "Whenever update of the distributional regression raises, for whatever reason and option setting, the estimator state is as before the call.", "quantifier": "all states, all batches, all options including cautious_updates", "why_tests_cant": "Atomicity over all failure points.", "anchors": ["src/ondil/estimators/online_gamlss.py: OnlineDistributionalRegression.update"]}
{"id": "C57", "title": "Every observation enters the statistics exactly once", "statement": "However many inner and outer iterations an update needs, the committed Gramian of each distribution parameter is the discounted previous Gramian plus the contribution of the new batch exactly once, with the working weights of the last iteration.", "quantifier": "all iteration counts, all convergence behaviours, all distributions and methods, all histories", "why_tests_cant": "The number of iterations is data dependent and unbounded a priori.", "anchors": ["src/ondil/estimators/online_gamlss.py: OnlineDistributionalRegression.update, _outer_update, _inner_update"]}
{"id": "C58", "title": "The fitting loops terminate within their limits", "statement": "fit and update perform at most max_it_outer outer iterations and at most the scheduled number of inner iterations per parameter and outer iteration, for every behaviour of the deviance including NaN, provided min_it_outer and prefit settings do not exceed max_it_outer.", "quantifier": "all data, distributions, schedules, deviance sequences", "why_tests_cant": "Termination for all behaviours of user-supplied distributions.", "anchors": ["src/ondil/estimators/online_gamlss.py: OnlineDistributionalRegression._outer_fit, _outer_update, _inner_fit, _inner_update"]}
{"id": "C59", "title": "Accepted steps never increase the deviance", "statement": "After the first outer iteration of fit, the stored fitted values change only to values with a deviance not above the one at the start of that inner loop, so the deviance of the stored fitted values is non-increasing from outer iteration two on.", "quantifier": "all distributions, methods, data, step sizes, iteration limits", "why_tests_cant": "Invariant over the iterations of an adaptive step-halving loop.", "anchors": ["src/ondil/estimators/online_gamlss.py: OnlineDistributionalRegression._inner_fit, _outer_fit"]}
{"id": "C60", "title": "Per-parameter options reach the parameter they were given for", "statement": "If an option is passed as a dictionary, each distribution parameter listed gets its value and each missing one the default, independent of the order of the dictionary; a single value applies to all parameters; the step size used when fitting parameter p is the one given for p.", "quantifier": "all dictionaries, in all insertion orders, all numbers of parameters", "why_tests_cant": "Insertion orders and partial dictionaries are combinatorial.", "anchors": ["src/ondil/estimators/online_gamlss.py: OnlineDistributionalRegression._process_parameter, _make_step_size_schedule", "src/ondil/utils.py: handle_param_dict"]}
{"id": "C61", "title": "Options given by the user are not modified", "statement": "Constructing and fitting an estimator leaves the dictionaries the user passed unchanged.", "quantifier": "all dictionaries", "why_tests_cant": "Negative property over all inputs.", "anchors": ["src/ondil/estimators/online_gamlss.py: OnlineDistributionalRegression._process_parameter, _process_equation", "src/ondil/utils.py: handle_param_dict"]}
{"id": "C62", "title": "Design matrix width agrees with the coefficient count", "statement": "For every accepted equation the design matrix built for a parameter has exactly as many columns as the reported number of coefficients, its first column is one when an intercept is fitted, and the others are the selected columns in order.", "quantifier": "all equations (all, intercept, boolean masks, index arrays), all data, all parameters", "why_tests_cant": "Combinatorial input space.", "anchors": ["src/ondil/estimators/online_gamlss.py: OnlineDistributionalRegression.get_J_from_equation, make_model_array, _process_equation"]}
{"id": "C63", "title": "The configured step size is applied in updates", "statement": "Changing the step size changes the fitted values used during an update (as it does in fit); with cautious updates an outlier moves the coefficients less.", "quantifier": "all states, batches and step sizes", "why_tests_cant": "Independence of an output from an option is a universally quantified statement.", "anchors": ["src/ondil/estimators/online_gamlss.py: OnlineDistributionalRegression._inner_update"]}
{"id": "C64", "title": "Predictions are consistent", "statement": "Predicted distribution parameters are the inverse link of the linear predictor; the contributions returned with return_contributions=True sum over columns to the link-scale prediction; predict returns the means and predict_quantile the quantiles of the distributions with the predicted parameters, row by row; predictions do not change the state.", "quantifier": "all fitted states, all prediction matrices", "why_tests_cant": "Identity for all inputs.", "anchors": ["src/ondil/estimators/online_gamlss.py: OnlineDistributionalRegression.predict_distribution_parameters, predict"]}
{"id": "C65", "title": "Every prediction method works for every distribution", "statement": "predict, predict_median, predict_quantile and predict_distribution_parameters are available for every distribution of the package after fit.", "quantifier": "all distributions, all prediction methods", "why_tests_cant": "A completeness statement over the class table.", "anchors": ["src/ondil/estimators/online_gamlss.py: OnlineDistributionalRegression.predict, predict_median", "src/ondil/base/distribution.py: Distribution, ScipyMixin"]}
{"id": "C66", "title": "Default links match the parameter support", "statement": "For every distribution the default link of each parameter has a support contained in the parameter support (no warning), and a warning is issued exactly when a user-supplied link can leave the support.", "quantifier": "all distributions, all links", "why_tests_cant": "Decision logic over all link/distribution combinations.", "anchors": ["src/ondil/base/distribution.py: Distribution._validate_links", "src/ondil/distributions"]}
{"id": "C67", "title": "Warm starting on the previous lambda makes updates equal to batch fits", "statement": "For LassoPath and ElasticNetPath with start values taken from the previous lambda (for fits and updates), the coefficient path after a fit and any sequence of updates is exactly the path a single fit on all observations returns, independent of the previous paths.", "quantifier": "all data streams and batchings, all forget factors, all weights, all schedules", "why_tests_cant": "Equality over all histories; the documentation only claims 'effectively batch-fitting'.", "anchors": ["src/ondil/methods/elasticnet.py: ElasticNetPath.update_beta_path", "src/ondil/coordinate_descent.py: online_coordinate_descent_path"]}
{"id": "C68", "title": "Early stopping does not stop learning from new data", "statement": "With early_stop = k, an update still adapts the rows of the path to the new data: a row is skipped only because of the rows before it on the same path, not forever.", "quantifier": "all histories of updates with the default start value 'previous_fit'", "why_tests_cant": "Needs all later updates, not one.", "anchors": ["src/ondil/coordinate_descent.py: online_coordinate_descent_path", "src/ondil/methods/elasticnet.py: ElasticNetPath.update_beta_path"]}
{"id": "C69", "title": "Point prediction is one column of the path prediction", "statement": "After a fit with a path method and any sequence of updates there is one position on the path such that predict(X) is that column of predict_path(X) for every X; both have one row per row of X.", "quantifier": "all accepted histories, all prediction matrices", "why_tests_cant": "Relates two methods over all states reachable by fits and updates.", "anchors": ["src/ondil/estimators/online_linear_model.py: OnlineLinearModel.predict, OnlineLinearModel.predict_path"]}
{"id": "C70", "title": "Responses accepted by the declared support have a finite log density", "statement": "Every response inside the declared distribution_support has a finite log density for every parameter vector in the declared parameter_support, so that a fit that passes the support check has a finite deviance.", "quantifier": "all responses in the declared support, all parameter vectors in the declared parameter support, all distributions", "why_tests_cant": "Boundary points of the support for all parameters.", "anchors": ["src/ondil/distributions: distribution_support, parameter_support", "src/ondil/base/distribution.py: ScipyMixin.logpdf"]}
{"id": "C71", "title": "The documented density formula is the density returned by pdf", "statement": "For every distribution whose docstring gives a density formula, pdf returns the value of that formula.", "quantifier": "all responses in the support, all admissible parameters, all distributions with a documented formula", "why_tests_cant": "Equality of two formulas for all real arguments.", "anchors": ["src/ondil/distributions: class docstrings, pdf", "src/ondil/base/distribution.py: ScipyMixin.pdf"]}
{"id": "C72", "title": "The intercept is penalised exactly when asked for", "statement": "The penalised methods of OnlineLinearModel minimise half the discounted weighted squared error plus lambda times the penalty of the feature coefficients, plus the penalty of the intercept if and only if regularize_intercept is set: every sweep lowers this objective, coefficients that a sweep leaves unchanged minimise it within the bounds, and with an unpenalised, unbounded intercept their weighted residuals sum to zero.", "quantifier": "all data, weights, forget factors, penalties, bounds, orders of the coordinates, with and without intercept", "why_tests_cant": "Optimality over all coefficient vectors for all data; a test on one data set does not notice a slightly shrunken intercept.", "anchors": ["src/ondil/estimators/online_linear_model.py: OnlineLinearModel.fit, OnlineLinearModel.update", "src/ondil/methods/elasticnet.py: ElasticNetPath.fit_beta_path", "src/ondil/methods/ridge.py: Ridge.fit_beta"]}
{"id": "C73", "title": "Ridge uses the requested penalty, or the mean squared column, and keeps it", "statement": "Ridge with lambda_reg uses exactly that penalty; without it the penalty is the mean over the coefficients of the discounted weighted sum of squares of their columns in the first fit; the penalty is not changed by updates, and every update lowers (or keeps) the penalised squared error on all data seen so far.", "quantifier": "all data, all sequences of updates", "why_tests_cant": "Invariant over all histories.", "anchors": ["src/ondil/methods/ridge.py: Ridge.fit_beta, Ridge.update_beta"]}
{"id": "C74", "title": "logcdf of the inflated distributions is the logarithm of cdf", "statement": "For the inflated distributions (BetaInflated, BetaInflatedZero, ZeroAdjustedGamma) logcdf(y, theta) is the logarithm of cdf(y, theta), minus infinity where the distribution function is zero.", "quantifier": "all real responses, all admissible parameters", "why_tests_cant": "Equality of two separately coded case distinctions for all real arguments.", "anchors": ["src/ondil/distributions/betainflated.py: BetaInflated.cdf, logcdf", "src/ondil/distributions/betainflatedzero.py: BetaInflatedZero.cdf, logcdf", "src/ondil/distributions/zeroadjustedgamma.py: ZeroAdjustedGamma.cdf, logcdf"]}
{"id": "C75", "title": "OnlineLasso can be fitted", "statement": "OnlineLasso, the documented shortcut for OnlineLinearModel with the lasso method, can be constructed with its documented arguments, fitted, updated and inspected with get_params like every other estimator of the package.", "quantifier": "all constructor arguments, all data", "why_tests_cant": "A statement about every call sequence; a test only notices the sequences it runs.", "anchors": ["src/ondil/estimators/online_lasso.py: OnlineLasso", "src/ondil/estimators/online_linear_model.py: OnlineLinearModel.fit"]}
{"id": "C76", "title": "Valid input is fitted and updated without an exception of the estimator's own", "statement": "Let options be in their documented domains with 1 <= min_it_outer <= max_it_outer and prefits of at most max_it_outer iterations, equations select columns of the data, the first batch have at least two observations with positive weights, and all responses lie in the support. If the functions of the distribution and method objects raise nothing and return arrays of matching shapes, then fit of OnlineDistributionalRegression followed by any number of updates returns without an exception, and the estimator predicts for all inputs. The derivatives, links and start values of the distributions of the package never raise; with more iterations required than allowed, every fit raises although the options are accepted. With ordinary least squares nothing is raised if the columns of the first design are independent, and with a given ridge penalty nothing is raised if the penalty is positive, the bounds have the right length and the second derivatives of the distribution are not positive.", "quantifier": "all configurations, all distribution and method objects, all data, all numbers and sizes of batches", "why_tests_cant": "Termination and absence of exceptions over all histories.", "anchors": ["src/ondil/estimators/online_gamlss.py: OnlineDistributionalRegression.fit, OnlineDistributionalRegression.update"]}
{"id": "C77", "title": "The stored fitted values are the predictions on the last batch", "statement": "After fit and after every update, the fitted distribution parameters the estimator has stored (and from which its deviance is computed) are what predict_distribution_parameters returns for the same design matrix.", "quantifier": "all configurations including step sizes below one, all data", "why_tests_cant": "Relates two code paths over all configurations.", "anchors": ["src/ondil/estimators/online_gamlss.py: OnlineDistributionalRegression._inner_fit, OnlineDistributionalRegression._inner_update, OnlineDistributionalRegression.predict_distribution_parameters"]}
{"id": "C78", "title": "A rejected re-fit does not change a fitted estimator", "statement": "If fit of an already fitted OnlineDistributionalRegression raises because of the new data, predictions and later updates of the estimator are what they were before the call.", "quantifier": "all fitted states, all rejected calls of fit", "why_tests_cant": "Statement about all states and all ways to reject.", "anchors": ["src/ondil/estimators/online_gamlss.py: OnlineDistributionalRegression.fit"]}
{"id": "C79", "title": "Cautious updates accept batches of every size", "statement": "With cautious_updates=True, update accepts a batch of one or of many observations, as it does without the option.", "quantifier": "all fitted states, all batch sizes", "why_tests_cant": "Tests use one batch size.", "anchors": ["src/ondil/estimators/online_gamlss.py: OnlineDistributionalRegression.update, OnlineDistributionalRegression._outer_update"]}
{"id": "C80", "title": "Conditional start values minimise the conditional negative log-likelihood", "statement": "calculate_conditional_initial_values(y, theta, param) returns, for every distribution, a start value at which the negative log-likelihood of the responses given the other fitted parameters is no larger than at the unconditional start value.", "quantifier": "all distributions, all responses, all parameter arrays, every behaviour of the numerical minimiser that does not return a worse point", "why_tests_cant": "Statement about an optimiser call for all samples and all distributions.", "anchors": ["src/ondil/base/distribution.py: ScipyMixin.calculate_conditional_initial_values"]}
{"id": "C81", "title": "get_debug_information returns the iteration asked for", "statement": "With debug=True, get_debug_information(variable, param, it_outer, it_inner) returns what was recorded for that parameter in that outer and inner iteration, for every iteration that was made; without debug mode it raises.", "quantifier": "all variables, parameters and iterations, all histories of fit and update", "why_tests_cant": "All recorded keys after all histories; a test looks up a few.", "anchors": ["src/ondil/estimators/online_gamlss.py: OnlineDistributionalRegression.get_debug_information, OnlineDistributionalRegression._inner_fit, OnlineDistributionalRegression._inner_update"]}
{"id": "C82", "title": "Debug mode changes no result", "statement": "Two estimators that differ only in the option debug have, after the same calls of fit and update, the same coefficients, statistics, deviances and predictions, and raise the same exceptions.", "quantifier": "all configurations, all data, all histories", "why_tests_cant": "Equality of two runs over all histories.", "anchors": ["src/ondil/estimators/online_gamlss.py: OnlineDistributionalRegression.fit, OnlineDistributionalRegression.update, OnlineDistributionalRegression._inner_fit, OnlineDistributionalRegression._inner_update"]}
{"id": "C83", "title": "The stored deviance is the deviance of the stored fitted values", "statement": "After fit, the deviance the estimator has stored is minus twice the weighted log-likelihood of the responses at the stored fitted values; after update it is that of the new batch plus the old deviance discounted by (1 - forget) to the number of new observations.", "quantifier": "all configurations, all data, all histories", "why_tests_cant": "Relates two pieces of state over all runs of nested loops with rejected steps.", "anchors": ["src/ondil/estimators/online_gamlss.py: OnlineDistributionalRegression._inner_fit, OnlineDistributionalRegression._outer_fit, OnlineDistributionalRegression._inner_update, OnlineDistributionalRegression._outer_update"]}
{"id": "C84", "title": "Initial values describe a law with the moments of the sample", "statement": "The law described by the initial values has the mean of the sample and, where the initial scale is computed from the standard deviation, also its variance.", "quantifier": "all non-degenerate samples", "why_tests_cant": "Identity between integrals and sample moments for all samples.", "anchors": ["src/ondil/distributions: initial_values"]}
{"id": "C85", "title": "Random variates follow the distribution", "statement": "rvs(size, theta) returns, for every class, theta.shape[0] rows of size numbers; the numbers are independent and those of row i have the law described by the density method for the i-th parameters.", "quantifier": "all admissible parameter arrays, all sizes, all states of the random source", "why_tests_cant": "A statement about the joint law of the draws; tests see finitely many draws.", "anchors": ["src/ondil/base/distribution.py: ScipyMixin.rvs", "src/ondil/distributions/betainflated.py: BetaInflated.rvs", "src/ondil/distributions/betainflatedzero.py: BetaInflatedZero.rvs", "src/ondil/distributions/zeroadjustedgamma.py: ZeroAdjustedGamma.rvs"]}
{"id": "C86", "title": "A normal distributional regression estimates the mean by least squares", "statement": "OnlineDistributionalRegression with the Normal distribution, its default links, method ols, an intercept and an intercept-only scale succeeds on positive weights and linearly independent columns, and the coefficients of the location are the discounted weighted least squares coefficients; with all columns they are the coefficients of OnlineLinearModel on the same data.", "quantifier": "all numbers of columns, all data sets, all column selections, all iteration limits and tolerances, all forget factors", "why_tests_cant": "Outcome of nested loops with accepted and rejected steps for all data; a test compares a few data sets up to a tolerance.", "anchors": ["src/ondil/estimators/online_gamlss.py: OnlineDistributionalRegression.fit, OnlineDistributionalRegression._outer_fit, OnlineDistributionalRegression._inner_fit", "src/ondil/distributions/normal.py: Normal", "src/ondil/methods/recursive_least_squares.py: OrdinaryLeastSquares"]}
{"id": "C87", "title": "The working quantities of an iteration are score and information of the linear predictor", "statement": "In every inner iteration of fit and update the product of the working weight and (working response - eta) is the derivative of the log density of the observation with respect to the linear predictor of the parameter being estimated; the working weight is positive and at most 1e10 and, for the classes whose dl2_dp2 is an expected second derivative, is the Fisher information of the linear predictor, up to clipping. The weighted regression of an iteration is therefore a Fisher scoring step.", "quantifier": "all distributions, all parameters, all links, all batches of responses and fitted values inside the supports", "why_tests_cant": "An identity between derivatives, integrals and the arithmetic of the loop for all distributions and links; tests compare coefficients at the end.", "anchors": ["src/ondil/estimators/online_gamlss.py: OnlineDistributionalRegression._inner_fit, OnlineDistributionalRegression._inner_update", "src/ondil/distributions: dl1_dp1, dl2_dp2", "src/ondil/links: link, inverse, inverse_derivative"]}
{"id": "C88", "title": "An update with responses in the support keeps the coefficients finite", "statement": "If every response of a batch lies in the support of the distribution, update of an OnlineDistributionalRegression with method ols leaves finite sufficient statistics and finite coefficients, as fit does; in particular a zero (or a one) for BetaInflated, BetaInflatedZero and ZeroAdjustedGamma.", "quantifier": "all distributions, all links, all options, all fitted estimators, all batches with responses in the support", "why_tests_cant": "Whether NaN enters depends on a weight that is exactly zero for some responses; a test has to update with just such a response, and an estimator once poisoned stays so for every later sequence of updates.", "anchors": ["src/ondil/estimators/online_gamlss.py: OnlineDistributionalRegression.update, OnlineDistributionalRegression._inner_update", "src/ondil/distributions/zeroadjustedgamma.py: ZeroAdjustedGamma.dl1_dp1, ZeroAdjustedGamma.dl2_dp2", "src/ondil/distributions/betainflated.py: BetaInflated.dl1_dp1, BetaInflated.dl2_dp2", "src/ondil/gram.py: update_y_gram"]}
{"id": "C89", "title": "The model selected on a coefficient path is the best by the information criterion", "statement": "With a path-based method, the coefficients stored by a successful fit or update of OnlineDistributionalRegression for a parameter are the row of its stored coefficient path with the smallest value of the chosen information criterion (aic, bic, hqc or max, as in the textbook, with the effective training length and the number of non-zero coefficients; the first such row in case of ties). The statistics behind the criterion are, after fit, the discounted residual sum of squares of the last weighted regression (local_rss) or the discounted log-likelihood (global_ll) of the rows, with the sample weights.", "quantifier": "all distributions, all path-based estimation methods, all options, all data sets, all estimators that are updated", "why_tests_cant": "Minimality over all rows of paths computed inside nested loops, for all criteria and data; a test sees that some row was chosen.", "anchors": ["src/ondil/estimators/online_gamlss.py: OnlineDistributionalRegression._fit_select_model, OnlineDistributionalRegression._update_select_model, OnlineDistributionalRegression._inner_fit, OnlineDistributionalRegression._inner_update", "src/ondil/information_criteria.py: InformationCriterion"]}
{"id": "C90", "title": "Model selection after updates takes all data into account", "statement": "With a path-based method, the statistics by which update selects a row of the coefficient path are those of all data seen: the discounted weighted residual sums of squares (local_rss), normalised by the mean weight, or the discounted weighted log-likelihoods (global_ll) kept of the earlier data plus those of the batch. Fitting on a first part and updating with the rest selects by the same statistics as a fit on everything, whenever the path and the working quantities are the same.", "quantifier": "all distributions, all path-based estimation methods, all forget factors, all sample weights, all sequences of updates", "why_tests_cant": "An invariant of arbitrary sequences of updates with state hidden in private attributes; a test sees a selected row.", "anchors": ["src/ondil/estimators/online_gamlss.py: OnlineDistributionalRegression._update_select_model, OnlineDistributionalRegression._fit_select_model, OnlineDistributionalRegression._inner_update", "src/ondil/utils.py: online_mean_update"]}
{"id": "C91", "title": "A fit forgets everything before it", "statement": "fit on an object that has been fitted, updated or left by an exception before gives exactly the result of fit on a new object: the same exception, or the same coefficients, fitted values, predictions and score, also after any sequence of updates that follows; the same holds for predict_path.", "quantifier": "all estimators, all options, all states of the object, all data sets, all sequences of updates", "why_tests_cant": "The private attributes that survive a fit have arbitrary earlier values; a test refits one object once.", "anchors": ["src/ondil/estimators/online_gamlss.py: OnlineDistributionalRegression.fit, OnlineDistributionalRegression._prepare_estimator", "src/ondil/estimators/online_linear_model.py: OnlineLinearModel.fit, OnlineLinearModel.predict_path"]}
{"id": "C92", "title": "The units of standardised features do not matter", "statement": "If the rows of fit, updates and predictions are given in other units (every column j that scale_inputs standardises becomes a_j x_j + b_j with a_j > 0), the estimator raises alike, or ends with the same coefficients on the standardised columns, the same fitted values, deviance and numbers of iterations, and the same predictions.", "quantifier": "all estimators and methods, all unit changes of standardised columns, all non-negative sample weights, all data sets, all sequences of updates", "why_tests_cant": "Relates two runs through all iterations of the nested loops and all updates of the moments; a test compares two runs up to a tolerance.", "anchors": ["src/ondil/scaler.py: OnlineScaler", "src/ondil/estimators/online_gamlss.py: OnlineDistributionalRegression.fit, OnlineDistributionalRegression.update", "src/ondil/estimators/online_linear_model.py: OnlineLinearModel.fit, OnlineLinearModel.update"]}
{"id": "C93", "title": "The unit of the response does not matter", "statement": "If all responses of fit and updates of an OnlineLinearModel are multiplied by a factor k > 0, the estimator raises alike, or ends with coefficients, coefficient path and predictions multiplied by k; the score on responses multiplied by k is the same.", "quantifier": "all estimation methods, all options, all factors k > 0, all data sets, all sequences of updates", "why_tests_cant": "Relates two runs through coordinate descent, the grid of penalties, model selection and all updates; absolute tolerances only show at extreme units, which no test uses.", "anchors": ["src/ondil/estimators/online_linear_model.py: OnlineLinearModel.fit, OnlineLinearModel.update", "src/ondil/coordinate_descent.py: online_coordinate_descent", "src/ondil/methods/elasticnet.py: ElasticNetPath", "src/ondil/methods/lasso_path.py: LassoPath"]}
{"id": "C94", "title": "The fitting iterations rest exactly at stationary points of the likelihood", "statement": "Consider a parameter of an OnlineDistributionalRegression estimated by ordinary least squares, with forget below one, cond_start_val off and fitted values inside the parameter support and the range of the link, so that nothing is clipped. An inner iteration of fit that starts from the fitted values of coefficients b returns b exactly if b is a stationary point of the discounted, weighted log likelihood as a function of the coefficients of that parameter; otherwise the log likelihood grows for small enough steps from b towards the returned coefficients. If the fit starts at fitted values that are stationary for every parameter, it ends with these fitted values and coefficients.", "quantifier": "all distributions of the package, all links, all data sets, weights, forget factors and designs of full rank, all numbers of iterations", "why_tests_cant": "That a fixed point of an iteration is a maximum likelihood estimate is a statement about derivatives of the likelihood at all coefficients; a test can only compare one run with another optimiser up to a tolerance.", "anchors": ["src/ondil/estimators/online_gamlss.py: OnlineDistributionalRegression._inner_fit, OnlineDistributionalRegression._outer_fit", "src/ondil/methods/recursive_least_squares.py: OrdinaryLeastSquares", "src/ondil/base/link.py: LinkFunction"]}
{"id": "C95", "title": "Without forgetting, the order of the observations does not matter", "statement": "If nothing is forgotten, the observations (rows of X, y and sample_weight together) of fit and of every update can be given in any order within the call: the estimator raises alike, or ends with the same coefficients, coefficient path, scaler, Gramians, residual sums of squares, deviance, numbers of iterations and predictions.", "quantifier": "all estimators, all distributions, links, estimation methods and options without forgetting, all data sets with non-negative weights, all reorderings within each call, all sequences of updates", "why_tests_cant": "Relates two runs through all iterations of the nested loops and the rank one updates of inverse Gramians, one row after the other; a test compares one shuffle up to a tolerance.", "anchors": ["src/ondil/estimators/online_gamlss.py: OnlineDistributionalRegression.fit, OnlineDistributionalRegression.update", "src/ondil/estimators/online_linear_model.py: OnlineLinearModel.fit, OnlineLinearModel.update", "src/ondil/gram.py: update_inverted_gram, init_inverted_gram", "src/ondil/scaler.py: OnlineScaler", "src/ondil/base/distribution.py: ScipyMixin.calculate_conditional_initial_values"]}
{"id": "C96", "title": "The iterations of a fit are those of the damped algorithm", "statement": "Every successful fit of OnlineDistributionalRegression is a run of the following algorithm, and every successful update a run of its variant for new rows. Outer iterations treat the parameters in the given order, at least the required number and at most max_it_outer of them, until the deviance hardly changes or, in fit, rises. For each parameter, passes compute working weights and vector at the current fitted values, solve the weighted regression (update: with the discounted Gramians of the earlier calls) and propose new values, in fit damped by the step size; a proposal that raises the deviance is dropped and the step halved, until the deviance hardly changes, six increases or the limit of passes. What is kept is the best proposal; the coefficients, the deviance and the number of iterations stored are those of the run, and debug mode records every pass.", "quantifier": "all distributions, estimation methods and options, all data sets, all estimators that are updated", "why_tests_cant": "The passes are local to nested loops and only their end shows; a test sees coefficients, and a wrong rule for dropping, halving or stopping changes them by less than its tolerance.", "anchors": ["src/ondil/estimators/online_gamlss.py: OnlineDistributionalRegression._outer_fit, OnlineDistributionalRegression._inner_fit, OnlineDistributionalRegression._outer_update, OnlineDistributionalRegression._inner_update"]}
{"id": "C97", "title": "The tolerance of coordinate descent bounds its error, and its sweeps converge", "statement": "Let online_coordinate_descent end because its convergence test succeeded. Then no coefficient vector within the bounds that is zero wherever the result is zero has an objective better than that of the result by more than tolerance times the largest coefficient times the coupling of the features (off-diagonal row sums of the Gramian) times the distance; with curvature at least mu every at least equally good such vector lies within 2 * tolerance * max|beta| * coupling / mu. The same holds for every row of a path. With positive curvature the coefficients converge as max_iterations grows, to the best vector among those that are zero wherever a sweep has produced a zero; with a positive tolerance the test succeeds after a number of sweeps that does not depend on max_iterations, unless the coefficients tend to zero.", "quantifier": "all Gramians, penalties, mixing parameters, bounds, start values, tolerances, iteration limits, all orders of the coordinates", "why_tests_cant": "Bounds an error with respect to an unknown optimum for all inputs, and states a limit; a test can only run finitely many sweeps on a few problems.", "anchors": ["src/ondil/coordinate_descent.py: online_coordinate_descent, online_coordinate_descent_path"]}
{"id": "C98", "title": "Without forgetting, sample weights are frequencies", "statement": "If nothing is forgotten, an observation of sample weight w passed to fit or update of an OnlineLinearModel can be split into several copies whose weights add up to w, equal observations can be merged, and observations of weight zero can be left out: the estimator raises alike, or ends with the same coefficients, coefficient path, Gramians, scaler, numbers of observations and predictions.", "quantifier": "all estimation methods and options without forgetting, all data sets with non-negative weights, all ways to split and merge within each call, all sequences of updates", "why_tests_cant": "Relates all pairs of data sets with equal total weights, through scaling, rank one updates and all later updates; a test compares repetition and weight two on one data set.", "anchors": ["src/ondil/estimators/online_linear_model.py: OnlineLinearModel.fit, OnlineLinearModel.update", "src/ondil/gram.py", "src/ondil/scaler.py: OnlineScaler"]}
{"id": "C99", "title": "Columns that no equation uses have no effect", "statement": "A column of X that no equation of a distributional regression selects has no influence: with any other values in it, fit and all later updates raise alike or end with the same coefficients, fitted values, deviance, numbers of iterations and paths, and all predictions are the same, also if the inputs are scaled and the column is among the scaled ones.", "quantifier": "all distributions, methods, options and equations, all data sets, batches and prediction inputs that agree in the responses, weights and selected columns", "why_tests_cant": "Quantifies over all values in the unused columns and over all equations, masks and index lists; the scaler stores means and variances of the unused columns, so the states do differ and only their effects must agree.", "anchors": ["src/ondil/estimators/online_gamlss.py: OnlineDistributionalRegression.make_model_array, get_J_from_equation, fit, update, predict_distribution_parameters", "src/ondil/scaler.py: OnlineScaler"]}
{"id": "C100", "title": "The influence of old data fades exponentially", "statement": "With a positive forget, what an OnlineLinearModel (least squares, no input scaling) was fitted to before its last n observations matters only by the factor (1 - forget)^n: the distance of its coefficients to those of a model with other initial data, or of the recent data alone, is at most (1 - forget)^n times the difference of the gradients of the old data, divided by the curvature of the recent data. Two models with different initial data and the same endless stream approach each other exponentially, in coefficients and predictions. The scaler forgets its old mean in the same way, and the statistics of bounded data stay bounded for ever.", "quantifier": "all forget factors, initial data sets, weights, streams of batches and prediction inputs", "why_tests_cant": "A statement about the limit of endless streams and a rate for all of them; a test sees a finite number of updates and cannot tell exponential from slower forgetting.", "anchors": ["src/ondil/estimators/online_linear_model.py: OnlineLinearModel.fit, OnlineLinearModel.update, OnlineLinearModel.predict", "src/ondil/gram.py", "src/ondil/scaler.py: OnlineScaler"]}
{"id": "C101", "title": "Predicted quantiles are quantiles of the predicted law", "statement": "Quantiles predicted by a distributional regression are possible responses, have the probabilities asked for under the law with the predicted parameters (at least q at or below, at most q below, exactly q for distributions without point masses), and do not cross: a higher probability never gives a lower quantile. Hence the interval between the quantiles of q and q' has at least (without point masses exactly) the probability q' - q.", "quantifier": "all distributions of the package, all links, coefficients, prediction inputs and probabilities strictly between 0 and 1, all rows whose predicted parameters are in the declared supports", "why_tests_cant": "Probabilities under the predicted law are integrals over all responses, for all parameters; a test compares a few numbers with scipy.", "anchors": ["src/ondil/estimators/online_gamlss.py: OnlineDistributionalRegression.predict_quantile", "src/ondil/base/distribution.py: ScipyMixin.ppf", "src/ondil/distributions"]}
{"id": "C102", "title": "The coefficients of a distribution parameter solve one weighted regression on all data", "statement": "After fit and after every update the estimator stores for every distribution parameter the discounted cross products of one set of working observations (columns of its equation, working response, sample weight times working weight): those of the last accepted pass over the fit data, followed by those of the last pass over every update batch, at the weights they had in their own call. With least squares the coefficients minimise the weighted squared error of these observations; with Ridge their penalised error is at most that of the start value; with LassoPath and ElasticNetPath they are a row of a path whose grid belongs to these observations and whose rows improve on the row they start from. All coefficients are penalised but the intercept, and that one too if regularize_intercept is set or the equation is the intercept alone. A ridge penalty that was not given is fixed once in fit and kept by all updates.", "quantifier": "all distributions, options, data, batches and numbers of updates", "why_tests_cant": "Which observations, weights and penalties enter the stored coefficients after a history of accepted and rejected steps cannot be seen from outside; a test compares numbers for one data set and one method.", "anchors": ["src/ondil/estimators/online_gamlss.py: OnlineDistributionalRegression._inner_fit, OnlineDistributionalRegression._inner_update", "src/ondil/methods/recursive_least_squares.py", "src/ondil/methods/ridge.py", "src/ondil/methods/elasticnet.py"]}
{"id": "C103", "title": "Equations that describe no columns are rejected", "statement": "If the equation of any distribution parameter describes no columns of X (another string than 'all' and 'intercept', an object of another type, a floating point array, a mask of another length, an index outside the columns), OnlineDistributionalRegression.fit raises ValueError. Whenever fit succeeds, the design of every parameter consists of exactly the columns its equation describes, after a column of ones if there is an intercept.", "quantifier": "all equations, distributions, methods, options, data and earlier states of the estimator", "why_tests_cant": "There are infinitely many malformed equations, and an equation that silently selects other columns gives plausible coefficients.", "anchors": ["src/ondil/estimators/online_gamlss.py: OnlineDistributionalRegression._process_equation, OnlineDistributionalRegression.get_J_from_equation, OnlineDistributionalRegression.make_model_array"]}
{"id": "C104", "title": "Least squares is unbiased, optimal among linear estimators, and consistent along a stream", "statement": "Let OnlineLinearModel use ordinary least squares without scaling, and let the responses be random with means that are linear in the features. After fit and any sequence of updates, coefficients and predictions have the right expectation, whatever the forgetting factor and the sample weights. Without forgetting and with uncorrelated noise whose variance is inversely proportional to the sample weight, the covariance of the coefficients is the noise variance times the stored inverse Gramian, no linear unbiased estimator has a smaller variance, and the mean squared error of every coefficient tends to zero along a stream whose features keep varying.", "quantifier": "all probability spaces, noise distributions with finite second moments, features, weights, batchings and numbers of updates", "why_tests_cant": "A test sees a few simulated samples; expectations, variances, optimality among all linear estimators and limits along an unending stream cannot be observed in them.", "anchors": ["src/ondil/estimators/online_linear_model.py: OnlineLinearModel.fit, OnlineLinearModel.update, OnlineLinearModel.predict", "src/ondil/methods/recursive_least_squares.py: OrdinaryLeastSquares", "src/ondil/gram.py: init_inverted_gram, update_inverted_gram, init_y_gram, update_y_gram"]}
{"id": "C105", "title": "The direction of features and of the response does not matter", "statement": "If some columns of X are multiplied by -1, OnlineLinearModel raises the same exception or gives the coefficients of these columns the opposite sign and leaves all others, predictions for the reversed columns and the score are unchanged. If y is multiplied by -1, all coefficients and predictions change their sign and the score is unchanged. This holds for fit and any sequence of updates, with any scaling of the inputs.", "quantifier": "all data, sets of reversed columns, batchings, forgetting factors, methods; bounds and start values are those of the reversed coefficients", "why_tests_cant": "A test compares a few data sets; a sign error in one of the branches (scaler, start value, soft threshold, grid of penalties, selection) shows up only for particular signs.", "anchors": ["src/ondil/estimators/online_linear_model.py: OnlineLinearModel.fit, OnlineLinearModel.update, OnlineLinearModel.predict, OnlineLinearModel.score", "src/ondil/methods/elasticnet.py: ElasticNetPath._get_lambda_max, ElasticNetPath.fit_beta_path, ElasticNetPath.update_beta_path", "src/ondil/methods/ridge.py: Ridge.fit_beta", "src/ondil/scaler.py: OnlineScaler", "src/ondil/coordinate_descent.py: online_coordinate_descent, soft_threshold"]}
{"id": "C106", "title": "Least squares does not depend on the coordinates of the features", "statement": "OnlineLinearModel with ordinary least squares and without scaling accepts data in other coordinates (features A x + v with an invertible matrix A, such as another coding of categories, or a sum and a difference for two terms) exactly when it accepts the original data, and after fit and any updates predicts the same. If the response is multiplied by k and a linear function of the features is added to it, predictions change in the same way, and the coefficients b become k b + g.", "quantifier": "all data, invertible matrices, offsets (with an intercept), factors, linear functions, batchings, forgetting factors and nonnegative weights", "why_tests_cant": "There are infinitely many coordinate systems; that rank check, inverse Gramian and its recursive update commute with every one of them is a statement about matrices, not about samples.", "anchors": ["src/ondil/estimators/online_linear_model.py: OnlineLinearModel.fit, OnlineLinearModel.update, OnlineLinearModel.predict", "src/ondil/methods/recursive_least_squares.py: OrdinaryLeastSquares", "src/ondil/gram.py: init_inverted_gram, update_inverted_gram"]}
{"id": "C107", "title": "The fitting iterations rest exactly at maximum likelihood estimates", "statement": "An iteration of the distributional regression for one parameter, started at fitted values that belong to coefficients b, returns b if and only if b maximises the discounted weighted log likelihood over all coefficients of this parameter (the other parameters held fixed): there are no other points at which the fit can come to rest. For location-like parameters this estimate is unique if the columns are linearly independent.", "quantifier": "all distributions and parameters with their default links, all data at which nothing is clipped, all forgetting factors and nonnegative sample weights", "why_tests_cant": "That no coefficient vector whatsoever has a larger likelihood is a statement about all of them; a test compares with the result of one optimiser, which may stop at the same place.", "anchors": ["src/ondil/estimators/online_gamlss.py: OnlineDistributionalRegression._inner_fit", "src/ondil/distributions", "src/ondil/links"]}
{"id": "C108", "title": "Rounding errors do not build up along a stream", "statement": "With a positive forget, the difference between the Gramians computed in floating point arithmetic and the exact discounted sums stays below one bound for ever, however many updates follow: old rounding errors are forgotten like old data. The same holds for the inverse Gramian of recursive least squares as long as the data determine the coefficients: it never becomes singular, and its inverse stays near the exact Gramian. Coefficients that minimise the objective of the computed Gramians therefore stay near the exact ones. Without forgetting the error of a Gramian is only bounded relative to the sum of the absolute terms, by nine roundings per observation, and in float64 it can grow without bound, because a large entry no longer changes.", "quantifier": "every arithmetic whose operations have a relative error of at most u (sums in any order; overflow and underflow excluded), all forget in (0, 1), all bounded streams and batch sizes; for the inverse Gramian all streams with a lower bound for the discounted information and u small against it", "why_tests_cant": "Error growth shows after millions of updates, and for one order of summation at a time; that it stops at a bound is a statement about streams of every length.", "anchors": ["src/ondil/gram.py: init_gram, init_y_gram, update_gram, update_y_gram, update_inverted_gram", "src/ondil/methods/recursive_least_squares.py"]}
{"id": "C109", "title": "What forgetting buys and what it costs", "statement": "When the true coefficients change at some point of the stream, the expectation of the coefficients of an ordinary least squares linear model after n further observations differs from the new coefficients by exactly (1 - forget)^n times the old Gramian's share of the total, applied to the jump; so with informative data the bias of the old regime vanishes geometrically. The price is variance: with a positive forget the variance of every coefficient stays above a positive bound for ever, so the coefficients do not converge even when nothing changes. For a constant feature with weights one the variance is exactly noise variance * f/(2-f) * (1 + (1-f)^n)/(1 - (1-f)^n), never below noise variance * f/(2-f).", "quantifier": "every probability space, all histories split at a change into batches of any sizes, all forget in [0, 1) (the variance bound: in (0, 1)), all old and new coefficients, every uncorrelated noise with variances inversely proportional to the weights", "why_tests_cant": "Expectations and variances over all random data, and the behaviour for ever, are not visible in single runs.", "anchors": ["src/ondil/estimators/online_linear_model.py: OnlineLinearModel.fit, OnlineLinearModel.update", "src/ondil/gram.py: update_gram, update_y_gram", "src/ondil/methods/recursive_least_squares.py"]}
{"id": "C110", "title": "Learning a batch improves the predictions for it", "statement": "After update(X, y) of a linear model the discounted weighted squared error of predict(X) against y is not larger than before the update, and smaller whenever the update changed the coefficients. The coefficients stay as they are if and only if the residuals of the batch before the update are orthogonal to every regressor; a batch that was predicted without error changes nothing. For a single observation the prediction error is multiplied by 1/(1 + w/(1 - forget) * x'Mx), M the stored inverse Gramian, a number in (0, 1], so the prediction moves towards the response and never beyond it.", "quantifier": "all configurations of the method, all initial data, all sequences of batches before the one considered, all batches, all weights at least zero, all forget in [0, 1)", "why_tests_cant": "Tests update with a few batches and compare coefficients with a refit; that no batch whatever can be predicted worse after it was learned is a statement about all histories and batches. It is false with input scaling and for ridge regression with forgetting.", "anchors": ["src/ondil/estimators/online_linear_model.py: OnlineLinearModel.update, OnlineLinearModel.predict", "src/ondil/gram.py: update_inverted_gram, update_y_gram", "src/ondil/methods/recursive_least_squares.py", "src/ondil/methods/ridge.py"]}
{"id": "C111", "title": "Penalised fits along a stream agree with a fit on all data up to the tolerance", "statement": "For Ridge, LassoPath and ElasticNetPath without input scaling, the coefficients after a fit and any sequence of updates solve the same penalised problem as one fit on all observations: if coordinate descent ended by its convergence test in both cases and the same coefficients are zero, the two results differ by at most 2 * tolerance * (largest coefficient) * (coupling of the features) / (curvature), for every row of a path. With a ridge penalty on every coefficient the penalty can take the place of the curvature, without conditions on the data.", "quantifier": "all initial data, all sequences of batches, all weights at least zero, all forget in [0, 1), all penalties, bounds, start value options, coordinate orders, tolerances and iteration limits", "why_tests_cant": "The two computations take different numbers of sweeps from different start values; tests compare them on a few data sets with a chosen precision. It is false for Ridge with the default penalty, which depends on the first batch for ever.", "anchors": ["src/ondil/estimators/online_linear_model.py: OnlineLinearModel.fit, OnlineLinearModel.update", "src/ondil/methods/ridge.py: Ridge.fit_beta, Ridge.update_beta", "src/ondil/methods/elasticnet.py: ElasticNetPath.fit_beta_path, ElasticNetPath.update_beta_path", "src/ondil/coordinate_descent.py: online_coordinate_descent"]}
{"id": "C112", "title": "The unit of the sample weights does not matter", "statement": "Multiplying the sample weights of the fit and of all updates by the same positive number does not change the coefficients, the predictions or the score of the linear model.", "quantifier": "all data, all batches, all positive factors, all settings of OnlineLinearModel", "why_tests_cant": "Tests compare a few rescaled data sets; the claim is about all factors and all histories. It is false for the row selected from a path, for Ridge with a given penalty and for weights that sum to one.", "anchors": ["src/ondil/estimators/online_linear_model.py: OnlineLinearModel.fit, OnlineLinearModel.update, OnlineLinearModel.predict, OnlineLinearModel.predict_path", "src/ondil/gram.py", "src/ondil/scaler.py: OnlineScaler", "src/ondil/information_criteria.py: InformationCriterion"]}
{"id": "C113", "title": "With an unpenalised intercept the predictions are right on average", "statement": "After a fit and any number of updates with fit_intercept=True and regularize_intercept=False, the predictions of the linear model for the data seen so far have the same average, discounted and weighted, as the responses. For least squares the residuals are orthogonal to every regressor.", "quantifier": "all data, all batches, all weights, all forgetting factors, all estimation methods", "why_tests_cant": "Tests check the mean of the residuals on a few data sets; the claim is about every history and about the last iterate of an iterative solver. It is false with input scaling after an update and when coordinate descent passes an intercept of exactly zero.", "anchors": ["src/ondil/estimators/online_linear_model.py: OnlineLinearModel.fit, OnlineLinearModel.update, OnlineLinearModel.predict, OnlineLinearModel.predict_path", "src/ondil/coordinate_descent.py: online_coordinate_descent, online_coordinate_descent_path", "src/ondil/methods/ridge.py: Ridge", "src/ondil/methods/recursive_least_squares.py: OrdinaryLeastSquares"]}
{"id": "C114", "title": "Fitted values move no more than the responses", "statement": "Run the same fit and the same updates of a linear model on data that differ only in the responses. The fitted values of all data seen so far are at most as far apart, in the discounted weighted squared distance, as the responses.", "quantifier": "all features, all weights, all responses, all batches, all forgetting factors, all estimation methods", "why_tests_cant": "Tests compare a fit with a reference on fixed data; they do not perturb the responses, and the claim is about every perturbation, however small. It is false for coordinate descent when an intercept is exactly zero after the first sweep, and for paths with negative penalties.", "anchors": ["src/ondil/estimators/online_linear_model.py: OnlineLinearModel.fit, OnlineLinearModel.update, OnlineLinearModel.predict, OnlineLinearModel.predict_path", "src/ondil/coordinate_descent.py: online_coordinate_descent, online_coordinate_descent_path", "src/ondil/methods/ridge.py: Ridge", "src/ondil/methods/recursive_least_squares.py: OrdinaryLeastSquares"]}
{"id": "C115", "title": "Adding a constant to the responses only moves the intercept", "statement": "Fit a linear model with an unpenalised intercept and update it; then do the same with a constant added to every response. The intercept grows by the constant, every other coefficient is the same, and every prediction grows by the constant.", "quantifier": "all constants, all features, all weights, all responses, all batches, all forgetting factors, all estimation methods", "why_tests_cant": "The claim relates two runs for every shift of the origin of the response; tests use one dataset with one origin. It is false for coordinate descent when the intercept of one of the two runs is exactly zero after the first sweep.", "anchors": ["src/ondil/estimators/online_linear_model.py: OnlineLinearModel.fit, OnlineLinearModel.update, OnlineLinearModel.predict, OnlineLinearModel.predict_path", "src/ondil/coordinate_descent.py: online_coordinate_descent, online_coordinate_descent_path", "src/ondil/gram.py: init_y_gram, update_y_gram", "src/ondil/methods/ridge.py: Ridge", "src/ondil/methods/recursive_least_squares.py: OrdinaryLeastSquares"]}
{"id": "C116", "title": "The unit of the sample weights does not matter to a distributional regression", "statement": "Fit a distributional regression with ordinary least squares and update it; then do the same with all sample weights multiplied by one positive constant. Both runs raise the same exception or none, make the same number of iterations, and end with the same coefficients, the same fitted values and the same predictions.", "quantifier": "all positive constants, all distributions, all links, all options, all data, all batches", "why_tests_cant": "The claim relates two whole runs of nested iterations for every constant; tests fit with one set of weights. It is false with the default absolute tolerances, which are compared with a weighted deviance, and the difference appears only for weights that are small or large enough to change when an iteration ends.", "anchors": ["src/ondil/estimators/online_gamlss.py: OnlineDistributionalRegression.fit, OnlineDistributionalRegression.update, OnlineDistributionalRegression._inner_fit, OnlineDistributionalRegression._outer_fit", "src/ondil/gram.py: init_inverted_gram, init_y_gram, update_inverted_gram, update_y_gram"]}
{"id": "C117", "title": "A distributional regression by least squares does not depend on the coordinates of the features", "statement": "Fit a distributional regression with ordinary least squares and without scaling of the inputs and update it; then do the same with the features in other coordinates: every column in its own unit and from its own origin, or, when the equations are all or intercept, any invertible linear map of the features. Both runs raise the same exception or none, make the same number of iterations with the same deviance, and give the same fitted values and the same predictions; the coefficients are those of the new coordinates. Origins may be moved only if every parameter has an intercept.", "quantifier": "all invertible maps and origins, all equations (for units), all distributions, all links, all options, all data, all batches", "why_tests_cant": "The claim relates two whole runs of nested iterations with recursive inverses for every map of the features; a test compares two fits for one map up to a tolerance.", "anchors": ["src/ondil/estimators/online_gamlss.py: OnlineDistributionalRegression.fit, OnlineDistributionalRegression.update, OnlineDistributionalRegression.make_model_array, OnlineDistributionalRegression._inner_fit, OnlineDistributionalRegression._inner_update", "src/ondil/gram.py: init_inverted_gram, init_y_gram, update_inverted_gram, update_y_gram", "src/ondil/methods/recursive_least_squares.py: OrdinaryLeastSquares"]}
{"id": "C118", "title": "The origin of the response only moves the location of a distributional regression", "statement": "Fit a distributional regression with ordinary least squares for a class with a location (normal with standard deviation or variance, Student t, Johnson SU, logistic, Gumbel, reverse Gumbel) under the identity link of the location and with an intercept for it, and update it with batches; then do the same with a constant added to every response. Both runs raise the same exception or none, make the same number of iterations with the same deviance and give the same coefficients of all other parameters; the intercept of the location, the predicted locations and the predicted quantiles move by the constant. Tolerances, damping, scaling of the inputs, forgetting below one and cautious updates may be chosen freely; the sample weights are not negative and the starting values are not the conditional ones.", "quantifier": "all constants, all location classes, all links of the other parameters, all equations, all tolerances, step sizes and other options, all data, all batches", "why_tests_cant": "The claim relates two whole runs of nested iterations with stopping rules for every constant; a test compares two fits for one constant up to a tolerance.", "anchors": ["src/ondil/estimators/online_gamlss.py: OnlineDistributionalRegression.fit, OnlineDistributionalRegression.update, OnlineDistributionalRegression._inner_fit, OnlineDistributionalRegression._inner_update, OnlineDistributionalRegression.predict_distribution_parameters, OnlineDistributionalRegression.predict_quantile", "src/ondil/gram.py: init_inverted_gram, init_y_gram, update_inverted_gram, update_y_gram", "src/ondil/distributions/normal.py: Normal, NormalMeanVariance", "src/ondil/distributions/studentt.py: StudentT", "src/ondil/distributions/johnsonsu.py: JSU", "src/ondil/distributions/logistic.py: Logistic", "src/ondil/distributions/gumbel.py: Gumbel", "src/ondil/distributions/reversegumbel.py: ReverseGumbel"]}
{"id": "C119", "title": "Weaker penalties fit the training data at least as well", "statement": "Along the coefficient path of LassoPath and ElasticNetPath, and between two ridge regressions on the same data, the smaller penalty has the smaller (discounted, weighted) squared error on the data seen so far and the coefficients with the larger penalty term.", "quantifier": "all data, all streams, all grids, all pairs of rows", "why_tests_cant": "An ordering between all pairs of solutions of all problems; tests look at single paths. Whether the order survives the stopping rule and the active set of coordinate descent cannot be seen from examples in which it does.", "anchors": ["src/ondil/coordinate_descent.py: online_coordinate_descent, online_coordinate_descent_path", "src/ondil/methods/elasticnet.py: ElasticNetPath.fit_beta_path, ElasticNetPath.update_beta_path", "src/ondil/methods/ridge.py: Ridge.fit_beta, Ridge.update_beta", "src/ondil/estimators/online_linear_model.py: OnlineLinearModel.fit, OnlineLinearModel.update"]}
{"id": "C120", "title": "Predictions are made row by row", "statement": "A prediction for a matrix is the list of the predictions for its rows: predicting in batches, in another order, or one row at a time gives the same numbers, for predict and predict_path of the linear model and for predict, predict_quantile, predict_distribution_parameters and the contributions of the distributional regression. Whether a prediction raises an exception, and which one, does not depend on the rows.", "quantifier": "all states of the estimator, all matrices with at least one row, all distributions and links of the package, all equations, all probabilities", "why_tests_cant": "It compares all ways to split all matrices, in all states; a test compares a few splits of one matrix. A statistic of the prediction matrix leaking into a row (a rescaling, a drop of columns) would change single batches only.", "anchors": ["src/ondil/estimators/online_linear_model.py: OnlineLinearModel.predict, OnlineLinearModel.predict_path", "src/ondil/estimators/online_gamlss.py: OnlineDistributionalRegression.predict, OnlineDistributionalRegression.predict_quantile, OnlineDistributionalRegression.predict_distribution_parameters, OnlineDistributionalRegression.make_model_array", "src/ondil/scaler.py: OnlineScaler.transform"]}
{"id": "C121", "title": "More features never fit the training data worse", "statement": "Take an OnlineLinearModel with ordinary least squares without scaling, and a second one that gets some of the columns of X only. If the first can be fitted, so can the second; after fit and any updates the discounted weighted squared error of the first on the data seen so far is at most that of the second, and smaller unless both predict the same there. Without forgetting and with unit weights the training score of a fit does not fall when features are added.", "quantifier": "all data sets and streams, all selections and orders of columns, all forgetting factors, with and without intercept", "why_tests_cant": "It relates all pairs of nested models on all data; tests compare a few models on one data set and cannot exclude a recursion that loses the optimum after some batches.", "anchors": ["src/ondil/estimators/online_linear_model.py: OnlineLinearModel.fit, OnlineLinearModel.update, OnlineLinearModel.predict, OnlineLinearModel.score", "src/ondil/methods/recursive_least_squares.py: OrdinaryLeastSquares", "src/ondil/gram.py: init_inverted_gram, update_inverted_gram"]}
{"id": "C122", "title": "Location and scale parameters carry the origin and the unit of the response", "statement": "If a response has a distribution of one of the classes, the same response in another unit (and, for the classes on the whole line, with another origin) has a distribution of the same class: the location moves with the response, the scale is multiplied by the factor (a variance by its square), shape parameters stay. cdf gives the same probabilities, ppf gives the quantiles in the new unit, pdf is divided by the factor and logpdf falls by its logarithm; the probability of a zero of ZeroAdjustedGamma does not change.", "quantifier": "all 14 distribution classes not confined to the unit interval, all admissible parameters, all positive factors, all shifts (none for the classes on the positive numbers), all responses and all probability levels between 0 and 1", "why_tests_cant": "It relates the functions of each class at all pairs of parameters linked by a change of unit; tests compare with scipy at a few parameters and do not see a parametrisation in which a scale parameter is not a scale.", "anchors": ["src/ondil/distributions: Normal, NormalMeanVariance, StudentT, JSU, Logistic, Gumbel, ReverseGumbel, Gamma, LogNormal, LogNormalMedian, Exponential, InverseGamma, InverseGaussian, ZeroAdjustedGamma", "src/ondil/base/distribution.py: ScipyMixin.pdf, ScipyMixin.cdf, ScipyMixin.ppf, ScipyMixin.logpdf"]}
{"id": "C123", "title": "Related distribution classes agree with each other", "statement": "NormalMeanVariance and Normal, LogNormalMedian and LogNormal, and Exponential and Gamma with sigma 1 return the same pdf, logpdf, cdf and ppf for parameters that describe the same distribution. For the classes on the whole line the mirrored response -Y has the mirrored parameters (Gumbel and ReverseGumbel are mirror images, Normal, StudentT and Logistic are symmetric, JSU changes the sign of its skewness): cdf becomes 1 - cdf and the q-quantile minus the (1-q)-quantile. The logarithm of a LogNormal response is Normal. Away from the inflated points the density of ZeroAdjustedGamma, BetaInflated and BetaInflatedZero is that of Gamma or Beta times the probability of not being inflated.", "quantifier": "all admissible parameters, all responses and all probability levels between 0 and 1", "why_tests_cant": "It relates different classes with each other at all parameters; tests check every class on its own at a few parameters.", "anchors": ["src/ondil/distributions: Normal, NormalMeanVariance, LogNormal, LogNormalMedian, Exponential, Gamma, Gumbel, ReverseGumbel, StudentT, JSU, Logistic, Beta, BetaInflated, BetaInflatedZero, ZeroAdjustedGamma", "src/ondil/base/distribution.py: ScipyMixin.pdf, ScipyMixin.logpdf, ScipyMixin.cdf, ScipyMixin.ppf"]}
{"id": "C124", "title": "Quantiles rise with the first parameter and intervals widen with the scale", "statement": "If only the first parameter of a distribution (location, mean or median) is larger, ppf is not smaller at any level and cdf is not larger at any response. For the classes that are not confined to the unit interval, other than InverseGaussian, ppf is strictly larger, except for a quantile at the zero of ZeroAdjustedGamma, which may stay where it is. For the classes on the whole line, if only the second parameter (the scale, or the variance) is larger, the interval between any two quantiles is wider.", "quantifier": "first part: all 17 classes, strictly for 13 of them; second part: the 7 classes on the whole line; all admissible parameters, all levels strictly between 0 and 1, all responses", "why_tests_cant": "It orders the quantiles at all pairs of parameters and all levels; tests evaluate ppf at a few parameters.", "anchors": ["src/ondil/distributions: Normal, NormalMeanVariance, StudentT, JSU, Logistic, Gumbel, ReverseGumbel, Gamma, LogNormal, LogNormalMedian, Exponential, InverseGamma, ZeroAdjustedGamma, InverseGaussian, Beta, BetaInflated, BetaInflatedZero", "src/ondil/base/distribution.py: ScipyMixin.cdf, ScipyMixin.ppf"]}
{"id": "C125", "title": "Comparing forecasts by their log density is fair", "statement": "If responses follow a distribution with parameters theta, the expected logpdf is highest for theta itself: no other parameters have a higher one, and parameters that describe another law have a lower one; where the expectations do not exist, the expected gains of the other parameters are finite and less than their expected losses. Over n independent responses, each with its own parameters, other parameters lead by t in the sum of logpdf with probability at most exp(-t); with the same parameters for all responses, the probability that other parameters are at least level falls geometrically in n. Different parameters describe different laws. The exponential of the difference of two logpdf converts probabilities of one law into those of the other.", "quantifier": "all 17 classes, all pairs of admissible parameters, all n and t; the difference of the expectations where they exist, shown to exist for Normal, NormalMeanVariance, LogNormal, LogNormalMedian and Exponential; gains and losses without proviso", "why_tests_cant": "It is a statement on expectations and probabilities under all laws; tests compare the log density of a few fitted models on one data set.", "anchors": ["src/ondil/distributions: all classes", "src/ondil/base/distribution.py: ScipyMixin.logpdf, ScipyMixin.pdf"]}
{"id": "C126", "title": "Quantiles, intervals, means and distribution functions are the best forecasts under their losses", "statement": "If responses follow a distribution with parameters theta, no forecast has a smaller expected pinball loss at level q than ppf(q, theta), none a smaller expected absolute error than ppf(0.5, theta), and no interval a smaller expected interval score at level 1 - a than the one from ppf(a/2, theta) to ppf(1 - a/2, theta); the Brier score of any probability forecast f for the event that the response is at most x is that of cdf(x, theta) plus the squared distance, hence the expected continuous ranked probability score of a forecast distribution function is that of cdf plus the integrated squared distance; the interval between the quantiles of levels q < r contains the response with probability at least r - q, and exactly r - q for the classes without inflated points; the expected squared error of a forecast is that of the documented mean plus the squared distance to it; cdf(y, theta) at the response itself is at most u with probability at most u, and with probability exactly u for the classes without inflated points.", "quantifier": "all 17 classes, all admissible parameters, all levels strictly between 0 and 1, all forecasts and intervals; the squared error where the variance is finite", "why_tests_cant": "It concerns expected losses over the whole law and all competing forecasts; tests compare ppf and cdf with scipy at a few points.", "anchors": ["src/ondil/distributions: all classes", "src/ondil/base/distribution.py: ScipyMixin.cdf, ScipyMixin.ppf"]}
{"id": "C127", "title": "Forecasting each batch before learning it costs little, and tells more than the training error", "statement": "For OnlineLinearModel with method ols and without input scaling: record predict for every batch before and after update with it. The final training error less the discounted training error of the first fit is at most the error of the predictions made before learning and at least the error of those made after it, so the latter do at least as well as any fixed coefficients up to what these lose on the first data. Without forgetting, for observations learned one at a time with weighted squared forecast errors of at most E, the total error of the forecasts exceeds that of any fixed coefficients, even chosen afterwards, by at most what these lose on the first data plus E times the logarithm of the growth of the determinant of the Gramian.", "quantifier": "all initial data for which fit succeeds, all sequences of non-empty batches (single observations for the second part), all weights at least zero, all forget in [0, 1) (0 for the second part), with or without intercept, all competing coefficients", "why_tests_cant": "It bounds whole streams of forecasts against every competitor; tests compare coefficients after a few updates with a refit.", "anchors": ["src/ondil/estimators/online_linear_model.py: OnlineLinearModel.fit, OnlineLinearModel.update, OnlineLinearModel.predict", "src/ondil/gram.py: update_inverted_gram, update_y_gram", "src/ondil/methods/recursive_least_squares.py"]}
{"id": "C128", "title": "Leave-one-out errors follow from the stored inverse Gramian", "statement": "For OnlineLinearModel with method ols, without input scaling and without forgetting: if the data of one estimator are those of another, in any order and any batches, and one more observation, then the error of the first for this observation is 1 - w x'Mx times the error of the second, which has not seen it; M is the inverse Gramian stored by the first and w x'Mx lies in [0, 1). So leave-one-out errors need no refit and are never smaller than the training errors. With any forgetting, the discounted sum of w x'Mx over all data is the number of coefficients.", "quantifier": "all data for which both fits succeed, all orders and non-empty batches, all weights at least zero, with or without intercept; all forget in [0, 1) for the sum", "why_tests_cant": "It relates two estimators with different data for all data and orders; tests fit one estimator on fixed data.", "anchors": ["src/ondil/estimators/online_linear_model.py: OnlineLinearModel.fit, OnlineLinearModel.update, OnlineLinearModel.predict", "src/ondil/gram.py: init_inverted_gram, update_inverted_gram, update_y_gram", "src/ondil/methods/recursive_least_squares.py"]}
{"id": "C129", "title": "New observations move the predictions by a known gain", "statement": "For OnlineLinearModel with method ols and without input scaling: learning one observation (x, y, w) moves the prediction at any point v by the error y - predict(x) made before times w v'Mx / (1 - forget + w x'Mx), M the inverse Gramian stored before. Without forgetting: if after any history the same observation is learned n more times, in any batches, the error of its prediction is divided by 1 + n w x'Mx, M the inverse Gramian stored before; w x'Mx is at least zero.", "quantifier": "all initial data for which fit succeeds, all histories of non-empty batches, all observations, all n and all ways to cut the n copies into batches, all weights at least zero, with or without intercept", "why_tests_cant": "It is a closed form for any number of repetitions after any history; tests make a few updates with different data.", "anchors": ["src/ondil/estimators/online_linear_model.py: OnlineLinearModel.update, OnlineLinearModel.predict", "src/ondil/gram.py: update_inverted_gram, update_y_gram", "src/ondil/methods/recursive_least_squares.py"]}
