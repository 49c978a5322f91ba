# Design of the formal model of `ondil`

The code in `/repo` (package `ondil`, `src/ondil`) is modelled in Lean 4 with Mathlib, function by function.
`properties.jsonl` lists the properties, `MANIFEST.json` maps each to its theorems, `seeded/LOG.jsonl` records the
mutation experiments.

## Layout

| Directory | Content |
|---|---|
| `lean/Verif/Model/` | the model: one definition per Python function, each citing file and lines |
| `lean/Verif/Spec/`  | small independent specifications: discounted sums, elastic net objective, laws of the distributions, ... |
| `lean/Verif/Lemmas/` | helper lemmas and program logics; no property is claimed here |
| `lean/Verif/Props/` | the property theorems `Cnn_...` and the cases that meet their hypotheses (`example`) |

Theorem names begin with the property id. A suffix `_partial` marks a theorem that proves less than the English property;
its comment says what is missing. A suffix `_fails` marks a proved negation: the code violates the property on the stated
inputs, most often on a whole class of inputs rather than on one witness.

## Modelling decisions

* **Numbers.** A float64 is a real number in the models of Gramians, scaler, coordinate descent, methods, the linear model
  and the distributions. Rounding is modelled for the Gramians and the inverse Gramian only
  (`Model/Rounding.lean`, C108), by the standard model: every operation has a relative error of at most u. Where the behaviour on non-finite numbers matters, the type
  `Flt` (a real, +inf, -inf or NaN, with the IEEE rules for their combination and comparison) is used: robust
  elementary functions, scaling of constant columns, and the whole distributional regression, whose loops
  compare deviances that can be NaN. Overflow and underflow are not modelled: `exp` of a real is a positive real. Where this
  matters the property says so (`C42_log_underflow_fails` treats underflow of the log link by an explicit assumption).
  Lean totalises division, square root and logarithm; theorems carry the guard that excludes the totalised case, or
  the model raises or returns a non-finite `Flt` there.
* **numba.** Functions compiled by numba raise `ZeroDivisionError` for a division by zero; this is modelled in
  coordinate descent (`C20_error_iff`, `C23_error_iff`).
* **Arrays.** The observation axis is a `List` (it grows and is cut into batches). The feature axis is `Fin p → ℝ` in the
  real models and a list in the distributional regression. Columns of equal length are obtained by stating theorems over
  lists of observation records (`Obs`).
* **Exceptions and state.** `raise` is `Except.error`. Methods that change an object are programs of the monad
  `Py σ α := σ → Except PyErr α × σ` (`Model/Py.lean`): the state after an exception is part of the result, so "an
  exception leaves the object unchanged" is a statement, not an assumption. A missing attribute is `none`, reading it raises.
  The attribute reads and writes are in the order of the code.
* **Objects and aliasing.** The method factory is modelled over a heap of objects (`Model/Factory.lean`), because the
  property is about sharing and copying. Dictionaries given by the user are association lists with insertion order; the
  model returns what the dictionary of the user has become (`Processed.user`), because `_process_parameter` changes it.
* **Loops.** `for` loops are folds or structural recursion. `while True` loops are unrolled `fuel` times, and a
  theorem shows that the chosen fuel is never used up (`C23_terminates`, `C58_loops_leave`).
* **Randomness.** The random coordinate order is an arbitrary oracle; theorems hold for all oracles, hence for all seeds.
* **External code.** numpy and scipy are replaced by their mathematical meaning: `np.linalg.inv` is the matrix inverse,
  `matrix_rank` the exact rank, `np.argmin` the first minimum (NaN first, as numpy does), `np.geomspace` the exact
  geometric sequence, `scipy.special` the real special functions (`digamma` and `polygamma(1, .)` are derivatives of
  `log ∘ Gamma`), `scipy.stats` the textbook densities in `Model/Scipy.lean`. Distribution functions of scipy are
  the measure of a half line under the law with that density (`Model/DistributionFunctions.lean`), quantile
  functions the generalised inverse. Random numbers of scipy are independent with the law of the frozen distribution. `scipy.stats.<f>.fit` (Student t, Johnson SU) and
  `scipy.optimize.minimize` are oracles. What scipy does with arguments outside the domain of its formulas is an oracle
  too (`Elsewhere`).
* **scikit-learn.** Assumed: `validate_data` rejects empty input and otherwise returns the data; the decorator
  `_fit_context` compares the constructor arguments with `_parameter_constraints` before the body runs and calls
  `get_params` for that; `check_is_fitted` without attribute names looks for an attribute that ends in an underscore;
  `check_is_fitted(self, name)` looks for that attribute. The default configuration of scikit-learn is assumed.
* **Interfaces of the distributional regression.** The estimator is modelled for an arbitrary distribution object
  (`DistOps`: links, derivatives, log density, start values, quantiles) and an arbitrary method object (`MethodOps`), as
  the code accepts both. Theorems about the loops hold for all of them. `Dist.ops` and `packageMethods`
  (`Model/GamlssInstances.lean`) are the objects of the package. Theorems that need something of
  these objects have it as a hypothesis that is proved for the distributions of the package (`Regular`, `KeepsLength`) or shown to
  be satisfiable (`MethodContract`, which OLS violates for singular Gramians, where it raises).

## What is modelled

| Source file | Model | Not modelled |
|---|---|---|
| `gram.py` | `Model/Gram.lean`: all functions | numba compilation |
| `scaler.py` | `Model/Scaler.lean`: `fit`, `update`, `partial_fit`, `transform`, `inverse_transform`, selection of columns | scikit-learn tags |
| `utils.py` | `Model/Utils.lean`: `calculate_asymptotic_training_length`, `calculate_effective_training_length`, `online_mean_update` | |
| `coordinate_descent.py` | `Model/CoordinateDescent.lean`: all functions | |
| `information_criteria.py` | `Model/InformationCriteria.lean`, all criteria; `icFromLL`, `icFromRss` for `Flt` | |
| `methods/*.py` | `Model/Methods.lean` (elastic net, lasso, ridge, least squares), `Model/Factory.lean` (look-up, copies) | end points of opposite sign in `geomspace` |
| `links/*.py` | `Model/Links.lean`, `Model/RobustMath.lean`: all link classes and robust functions | |
| `distributions/*.py`, `base/distribution.py` | `Model/Distributions.lean` (16 classes: supports, links, parameter maps, first, second and cross derivatives, densities), `Model/DistributionFunctions.lean` (cdf, ppf, logcdf, start values), `Model/ConditionalStart.lean` (conditional start values), `Model/RandomVariates.lean` (`rvs`, `InverseGamma.sample`) | the optimisers of scipy; `logpmf`, `pmf` |
| `estimators/online_linear_model.py`, `base/estimator.py`, `design_matrix.py` | `Model/LinearModel.lean`: `fit`, `update`, `partial_fit`, `predict`, `predict_path`, `score` | warnings |
| `estimators/online_lasso.py` | `Model/OnlineLasso.lean`, with `get_params` | |
| `estimators/online_gamlss.py` | `Model/GamlssOptions.lean` (options, equations, design matrix, schedules), `Model/Gamlss.lean` (both model selections, inner and outer loops of fit and update, cautious updates, `fit`, `update`, `partial_fit`, all predict methods), `Model/GamlssDebug.lean` | printing (`verbose`), warnings, data frames as input (column names in equations are modelled up to the point where the matrix is indexed) |

## Trusted base

* Lean 4.33.0's kernel.
* The axioms `propext`, `Classical.choice` and `Quot.sound`: `#print axioms` for every theorem in `MANIFEST.json` reports a
  subset of these three. The project declares no axiom and uses no `sorry`, `native_decide` or `bv_decide`.
* The definitions of Mathlib that occur in statements: reals, matrices, derivatives, measures, the Gamma and Beta functions.
* The definitions in `Model/` as a reading of the Python code, and the specifications in `Spec/`.
* The behaviour of numpy, scipy, numba and scikit-learn as listed under "Modelling decisions".

Program logics used in proofs (helper, not trusted): Hoare triples with a post-condition for exceptions (`Py.Triple`),
invariants (`Py.Inv`), relations between two runs (`Py.Rel`, used for debug mode and step sizes), and total
correctness (`Py.Total`, used for the absence of exceptions), all in `Lemmas/PyLogic.lean` and `Lemmas/GamlssSuccess.lean`.


## Properties: model and proof method

`gap` says what the theorems leave open, or in which way the property is false. An empty gap means that the English
property is proved in full about the model.

**C01. Forget weights are exactly exponential** (proved)

* modelled by: `forgetLoop`, `initForgetVector`
* proof: induction over the backward loop
* theorems: `C01_forget_vector`, `C01_no_forget`

**C02. The Gramian is the discounted weighted cross product** (proved)

* modelled by: `initGram`, `initYGram`
* proof: list induction; the square roots of the weights recombine
* theorems: `C02_gram`, `C02_y_gram`

**C03. Online Gramian equals batch Gramian under every chunking** (proved)

* modelled by: `updateGram`, `updateYGram`
* proof: batch = online for one batch by algebra on discounted sums, histories by induction over batches
* theorems: `C03_online_eq_batch`, `C03_online_eq_batch_y`, `C03_chunking_irrelevant`, `C03_scalar_weight`

**C04. The recursively updated inverse Gramian stays the inverse of the Gramian** (proved)

* modelled by: `initInvertedGram`, `updateInvertedGramStep`, `updateInvertedGram`
* proof: Sherman-Morrison; invariant "the matrix is the inverse of the discounted Gramian" by induction over rows and batches
* gap: scalar weights raise
* theorems: `C04_inverse_maintained`, `C04_denominator_pos`, `C04_chunking_irrelevant`, `C04_scalar_weight_batch_fails`

**C05. Initialising the inverse Gramian fails exactly on rank-deficient data** (proved)

* modelled by: `initInvertedGram`
* proof: rank of the discounted weighted design equals the rank of the design
* theorems: `C05_error_iff`, `C05_ok_otherwise`

**C06. The Gramian is symmetric positive semi-definite for ever** (proved)

* modelled by: `initGram`, `updateGram`
* proof: sum of rank-one positive semi-definite matrices, induction over batches
* theorems: `C06_symmetric_psd`, `C06_definite_stays`

**C07. Sample weights act as frequencies in the sufficient statistics** (proved)

* modelled by: `initGram`, `updateGram` and the vector versions
* proof: repetition of a row against its weight; homogeneity of the sums
* theorems: `C07_integer_weight`, `C07_homogeneous`

**C08. Online least squares minimises the discounted weighted squared error** (proved)

* modelled by: `LM.fit`, `LM.update` with `MethodObj.ols`
* proof: normal equations from the maintained inverse, strict convexity of the discounted squared error
* theorems: `C08_least_squares`, `C08_exact_recovery`

**C09. Online fit equals batch refit for least squares without scaling** (proved)

* modelled by: `LM.fit`, `LM.update`
* proof: C03 and C04 for the design matrix, induction over histories
* theorems: `C09_online_eq_batch`, `C09_chunking_irrelevant`

**C10. Online fit equals batch refit with input scaling** (partial)

* modelled by: `LM.fit`, `LM.update`, `Scaler`
* proof: characterisation of the mixed design; numerical witness solved exactly
* gap: false
* theorems: `C10_mixed_design_partial`, `C10_scaled_online_fails`

**C11. Scaling the inputs does not change a least squares fit** (proved)

* modelled by: `LM.fit`, `Scaler`
* proof: affine reparametrisation of the least squares problem with intercept
* theorems: `C11_scaling_irrelevant`

**C12. Scaler statistics are the exponentially weighted moments of the whole stream** (proved)

* modelled by: `scalerFit`, `scalerStep`, `scalerUpdate`
* proof: Welford recursion as invariant, induction over rows
* theorems: `C12_moments`, `C12_chunking_irrelevant`, `C12_observations`, `C12_fit_errors`, `C12_totalWeight_pos`

**C13. Scaler variance never negative, weight total stays positive** (proved)

* modelled by: `scalerFit`, `scalerUpdate`
* proof: invariant over rows
* theorems: `C13_invariant`, `C13_no_zero_division`

**C14. Scaling and inverse scaling are mutually inverse** (proved)

* modelled by: `transformRow`, `inverseTransformRow`, `Scaler`
* proof: algebra on the selected columns; reachable scalers are consistent
* theorems: `C14_reachable_consistent`, `C14_inverse_transform_transform`, `C14_transform_inverse_transform`, `C14_columns`, `C14_object`, `C14_object_round_trip`, `C14_selection`

**C15. Scaled data are standardised** (proved)

* modelled by: `Scaler.fit`, `Scaler.transform`
* proof: weighted moments of an affine image
* theorems: `C15_standardised`

**C16. A constant column cannot be scaled into finite numbers** (proved)

* modelled by: `transformRowFlt`
* proof: division by zero in `Flt`
* theorems: `C16_constant_column`

**C17. Effective training length is the total discount weight** (proved)

* modelled by: `effectiveTrainingLength`
* proof: geometric sum, monotonicity
* theorems: `C17_sum_of_weights`, `C17_no_forget`, `C17_below_asymptotic`, `C17_strictMono`, `C17_le_count`

**C18. Online mean update keeps the exponentially weighted mean** (proved)

* modelled by: `onlineMeanUpdate`
* proof: induction over the stream
* theorems: `C18_array`, `C18_scalar`, `C18_chunking`

**C19. Soft thresholding is the proximal map of the absolute value** (proved)

* modelled by: `softThreshold`
* proof: convex analysis on the line
* theorems: `C19_prox`, `C19_zero_iff`, `C19_sign`, `C19_odd`, `C19_nonexpansive`

**C20. A coordinate step is an exact minimisation** (proved)

* modelled by: `CDProblem`, `cdStep`
* proof: quadratic function of one coordinate with absolute value and box
* theorems: `C20_exact_minimiser`, `C20_error_iff`

**C21. Coordinate descent never makes the objective worse** (proved)

* modelled by: `cdSweep`, `onlineCD`
* proof: C20 as invariant over arbitrary coordinate orders
* theorems: `C21_objective_nonincreasing`

**C22. Coefficient bounds always hold** (proved)

* modelled by: `cdStep`, `onlineCDPath`, `EnetArgs.fitBetaPath`, `RidgeArgs`
* proof: invariant over sweeps, rows and histories
* theorems: `C22_bounds`, `C22_bounds_path`, `C22_bounds_history`, `C22_bound_validation`, `C22_ridge`

**C23. Coordinate descent terminates within its iteration limit** (proved)

* modelled by: `whileLoop`, `onlineCD`
* proof: measure of the loop; the error condition is characterised
* theorems: `C23_terminates`, `C23_iteration_count`, `C23_error_iff`, `C23_path_counts`

**C24. A fixed point of a full sweep is a global optimum** (proved)

* modelled by: `cdSweep`
* proof: subdifferential of the elastic net objective
* theorems: `C24_fixed_point_optimal`, `C24_ridge_normal_equations`

**C25. Converged coordinate descent returns a global optimum** (partial)

* modelled by: `onlineCD`
* proof: C24 on the support; witness computed exactly
* gap: false: active set rule
* theorems: `C25_optimal_on_support_partial`, `C25_fails`

**C26. At the largest lambda of the path all regularised coefficients are zero** (partial)

* modelled by: `getLambdaMax`, `onlineCD`
* proof: sweep at the first lambda
* gap: false for alpha < 1 and for negative correlations without intercept
* theorems: `C26_intercept_partial`, `C26_all_regularized_partial`, `C26_sign_fails`, `C26_alpha_fails`

**C27. The lambda grid is geometric and decreasing** (proved)

* modelled by: `geomspace`, `EnetArgs.lambdaPath`
* proof: powers of the common ratio
* theorems: `C27_grid`, `C27_zero_raises`

**C28. Early stopping freezes the path once enough coefficients are active** (proved)

* modelled by: `cdPathRow`, `cdPathLoop`
* proof: induction over the path
* theorems: `C28_frozen`, `C28_optimised`

**C29. The start-value option selects the documented start value** (partial)

* modelled by: `startValue`
* proof: case analysis
* gap: "average" is dead code
* theorems: `C29_start_value_partial`, `C29_average_is_previous_fit`, `C29_average_fails`

**C30. Rescaling all weights leaves the coefficient path unchanged** (proved)

* modelled by: `EnetArgs.fitBetaPath`, `EnetArgs.updateBetaPath`, `olsBeta`
* proof: scaling of Gramians commutes with every step
* theorems: `C30_path`, `C30_grid`, `C30_fit`, `C30_update`, `C30_ols`

**C31. Model selection returns the best model of the path** (proved)

* modelled by: `argminFlt`, `selectByRss`, `selectCoef`; values and NaN as numpy orders them (`Flt.Preferred`), textbook criteria in `Spec/Criteria.lean`
* proof: first minimum by induction; a NaN or -inf criterion is covered
* theorems: `C31_argmin`, `C31_select_succeeds`, `C31_selected_is_best`, `C31_selected_textbook`, `C31_coef_is_best_row`, `C31_coef_textbook`

**C32. Information criteria follow their textbook definitions and invalid input is rejected** (proved)

* modelled by: `fromLL`, `fromRss`, `Criterion.ofString`
* proof: algebra
* gap: AICc raises for arrays
* theorems: `C32_aic`, `C32_aicc`, `C32_bic`, `C32_hqc`, `C32_hqc_undefined`, `C32_rss_profile`, `C32_unknown_name`, `C32_names`, `C32_aicc_array_fails`

**C33. Stronger penalties never select larger models** (proved)

* modelled by: `selectByRss`
* proof: order argument on criteria
* theorems: `C33_stronger_penalty`, `C33_bic_aic`, `C33_hqc_aic`, `C33_smaller_rss`, `C33_smaller_rss_aicc`

**C34. Criterion 'max' selects the largest model** (partial)

* modelled by: `selectByRss`
* proof: likelihood of nested fits
* gap: false in general
* theorems: `C34_max_likelihood_partial`, `C34_nested_partial`, `C34_max_fails`

**C35. Observation counters are additive over the history** (proved)

* modelled by: `LM`, `GState`
* proof: induction over histories
* theorems: `C35_gamlss_counters`, `C35_counters`, `C35_unit_weights`

**C36. Residual sum of squares used for model selection does not depend on chunking** (partial)

* modelled by: `rssFit`, `rssUpdate`
* proof: expansion of the recursion; witnesses
* gap: false with forgetting or weights
* theorems: `C36_no_forget_partial`, `C36_fit_partial`, `C36_chunking_fails`, `C36_weights_ignored_fails`, `C36_squared_weights_fails`

**C37. Too few observations are rejected for least squares** (partial)

* modelled by: `LM.fit`
* proof: case analysis, rank bound
* gap: the check is by name and by weight
* theorems: `C37_named`, `C37_named_rows`, `C37_single_row`, `C37_object`, `C37_object_fails`, `C37_weights_fails`

**C38. partial_fit is fit first and update afterwards** (partial)

* modelled by: `LM.partialFit`, `GState.partialFit`
* proof: dispatch by induction over calls
* gap: `is_fitted` after rejected fits
* theorems: `C38_gamlss_partial_fit`, `C38_gamlss_is_fitted_fails`, `C38_partial_fit`, `C38_is_fitted_partial`, `C38_is_fitted_fails`

**C39. R-squared never exceeds one** (proved)

* modelled by: `LM.score`
* proof: sums of squares
* theorems: `C39_score_le_one`

**C40. Method look-up is isolated** (proved)

* modelled by: `Heap.getEstimationMethod`, `Heap.getMethods`
* proof: separation of heap addresses
* theorems: `C40_errors`, `C40_value_error`, `C40_names`, `C40_copy`, `C40_isolated`, `C40_parameters_isolated`, `C40_settings_kept`

**C41. Link functions invert exactly on their working range** (partial)

* modelled by: `LinkClass.link`, `LinkClass.inverse`
* proof: real analysis per class
* gap: false for shifted links near the shift
* theorems: `C41_inverse_link_partial`, `C41_link_inverse_partial`, `C41_shifted_round_trip_fails`, `C41_shifted_reverse_fails`

**C42. Inverse links map every real into the admissible parameter range** (partial)

* modelled by: `LinkClass.inverse`
* proof: case analysis at the seams
* gap: square root links; log link under underflow
* theorems: `C42_inverse_in_range_partial`, `C42_sqrt_partial`, `C42_sqrt_fails`, `C42_log_underflow_fails`

**C43. Links are strictly increasing** (partial)

* modelled by: `LinkClass.link`, `LinkClass.inverse`
* proof: derivative signs, monotonicity at the seams
* gap: softplus and square root inverses are not strictly increasing everywhere
* theorems: `C43_link_strict`, `C43_inverse_strict`, `C43_link_monotone`, `C43_inverse_monotone_partial`, `C43_softplus_inverse_fails`, `C43_softplus_inverse_partial`, `C43_sqrt_inverse_fails`

**C44. Link derivatives are the true derivatives** (partial)

* modelled by: `LinkClass.linkDerivative`, `linkSecondDerivative`, `inverseDerivative`
* proof: `HasDerivAt` per class
* gap: several derivatives are wrong, see findings
* theorems: `C44_link_derivative_partial`, `C44_inverse_derivative`, `C44_second_derivative_partial`, `C44_softplus_link_derivative_fails`, `C44_logIdent_fails`, `C44_softplus_second_derivative_fails`, `C44_softplus_inverse_derivative_fails`

**C45. Robust elementary functions never leave the finite range** (proved)

* modelled by: `robustLogF`, `robustExpF`, `robustSigmoidF`
* proof: case analysis over `Flt`
* theorems: `C45_robust_log_finite`, `C45_robust_log_lower`, `C45_robust_log_agrees`, `C45_robust_exp_finite`, `C45_robust_exp_agrees`, `C45_real_and_extended_agree`, `C45_robust_sigmoid_range`, `C45_robust_sigmoid_agrees`, `C45_robust_sigmoid_extended`, `C45_robust_softplus_extended`, `C45_robust_softplus_inverse_extended`

**C46. Score functions are the derivatives of the log density** (proved)

* modelled by: `Dist.dl1`, `Dist.logpdf`
* proof: `HasDerivAt` of the log density for every class and parameter; digamma as derivative of log Gamma
* theorems: `C46_score_is_derivative`, `C46_declared_supports`

**C47. Working weights are positive** (partial)

* modelled by: `Dist.dl2`
* proof: sign analysis; trigamma bounds from the Hurwitz series
* gap: zero at inflated points; Johnson SU
* theorems: `C47_negative_partial`, `C47_nonpositive`, `C47_inflated_points_fails`, `C47_jsu_fails`

**C48. dl2_dp2 is the Fisher information** (partial)

* modelled by: `Dist.dl2`, `Dist.dl2pp`, `Dist.dl1`
* proof: every law is written as an image of a normal, gamma or beta law; the scores are linear in two statistics whose first two moments are computed (integration by parts, tilting, digamma and trigamma); mixtures for the inflated classes
* gap: Gumbel constants are decimals (shown to agree in all printed digits), the ReverseGumbel mixed derivative has the wrong sign, the clipped information of Student t
* theorems: `C48_scores`, `C48_expected_information_partial`, `C48_information_partial`, `C48_expected_cross_partial`, `C48_cross_partial`, `C48_gumbel_digits`, `C48_gumbel_cross_digits`, `C48_reverseGumbel_cross_fails`, `C48_student_clipped_fails`

**C49. Log density is the logarithm of the density** (partial)

* modelled by: `Dist.pdf`, `Dist.logpdf`
* proof: algebra of logarithms
* gap: false outside the support of four classes
* theorems: `C49_log_of_density_partial`, `C49_outside_partial`, `C49_beta_inflated_outside_fails`, `C49_beta_inflated_zero_outside_fails`, `C49_zaga_negative_fails`, `C49_log_normal_negative_fails`

**C50. Distribution functions belong to the densities** (partial)

* modelled by: `Dist.cdf`
* proof: mixture measures, monotone limits
* gap: ZeroAdjustedGamma at negative arguments
* theorems: `C50_total_mass`, `C50_cdf_partial`, `C50_distribution_function`, `C50_distribution_function_zaga_partial`, `C50_zaga_negative_fails`, `C50_jump_partial`, `C50_cdf`

**C51. Quantile function is the generalised inverse of the cdf** (partial)

* modelled by: `Dist.ppf`, `Dist.cdf`
* proof: Galois connection for generalised inverses; own formulas of LogNormal and the inflated classes
* gap: probabilities outside (0, 1) for ZeroAdjustedGamma
* theorems: `C51_generalised_inverse`, `C51_quantile_in_support`, `C51_invalid_probability_partial`, `C51_zaga_negative_probability_fails`, `C51_generalised_inverse_all`, `C51_quantile_of_cdf`

**C52. Parameterisation matches the documented moments** (proved)

* modelled by: `Dist.toScipy`, `Dist.law`
* proof: laws as images of normal, gamma and beta laws; table `Dist.moments` in Spec/LawMoments
* theorems: `C52_scipy_arguments`, `C52_moments`, `C52_log_moments`, `C52_median`, `C52_inverseGamma_mean_fails`, `C52_inverseGamma_mode`

**C53. Initial values are admissible parameters** (partial)

* modelled by: `Dist.initialValues`
* proof: positivity of empirical moments
* gap: constant samples; classes fitted by scipy
* theorems: `C53_admissible_partial`, `C53_rows`, `C53_constant_sample_fails`, `C53_zero_response_fails`

**C54. Derivative requests for non-existing parameters are rejected** (partial)

* modelled by: `validateIndex`, `validatePair`
* proof: case analysis
* gap: InverseGaussian and negative indices
* theorems: `C54_index_rejected`, `C54_equal_indices_rejected`, `C54_pair_rejected_partial`, `C54_inverse_gaussian_fails`, `C54_negative_index_fails`, `C54_symmetric`

**C55. Responses outside the support are rejected without side effects** (proved)

* modelled by: `GState.fit`, `GState.update`, `OutOfSupport`
* proof: order of the checks; error provenance by triples over the whole program
* theorems: `C55_update_rejects`, `C55_fit_rejects`, `C55_only_out_of_support`

**C56. A rejected update has no effect** (partial)

* modelled by: `GState.update`
* proof: invariant over the whole program including exceptions
* gap: counters change before some rejections
* theorems: `C56_statistics_partial`, `C56_checks_partial`, `C56_cautious_fails`

**C57. Every observation enters the statistics exactly once** (partial)

* modelled by: `innerUpdate`, `outerUpdate`, `commitUpdate`
* proof: invariant that statistics are recomputed from the previous call, over both loops
* gap: updates without outer iteration
* theorems: `C57_statistics_once`, `C57_weight_sum`, `C57_skipped_fails`

**C58. The fitting loops terminate within their limits** (proved)

* modelled by: `outerLoop`, `fitInnerLoop`, `updateInnerLoop`
* proof: measure of the loops; keys of the debug dictionary as observable iterations
* theorems: `C58_loops_leave`, `C58_fit_outer`, `C58_update_outer`, `C58_min_above_max`, `C58_fit_iterations`, `C58_update_iterations`

**C59. Accepted steps never increase the deviance** (partial)

* modelled by: `innerFit`, `outerFit`
* proof: invariant along the states of the fit
* gap: NaN deviances are accepted
* theorems: `C59_nan_fails`, `C59_inner`, `C59_fit_partial`

**C60. Per-parameter options reach the parameter they were given for** (partial)

* modelled by: `OptArg.process`, `stepSchedule`, `GConfig.Valid`
* proof: association lists
* gap: step sizes follow insertion order; dictionaries are rejected by validation
* theorems: `C60_dict_rejected_fails`, `C60_dict_lookup`, `C60_value_lookup`, `C60_order_irrelevant`, `C60_step_size_fails`, `C60_step_size_missing_fails`, `C60_step_size_partial`, `C60_step_size_value`

**C61. Options given by the user are not modified** (partial)

* modelled by: `OptArg.process`, `processEquation`
* proof: association lists
* gap: false: completed in place
* theorems: `C61_option_dict_fails`, `C61_equation_fails`, `C61_complete_partial`, `C61_equation_partial`

**C62. Design matrix width agrees with the coefficient count** (partial)

* modelled by: `modelArray`, `getJ`
* proof: case analysis over equations
* gap: lists of booleans and of names
* theorems: `C62_columns`, `C62_width`, `C62_first_column`, `C62_built`, `C62_bool_list_fails`, `C62_names_fails`

**C63. The configured step size is applied in updates** (partial)

* modelled by: `updateIteration`, `stepAt`
* proof: relational proof: runs with different step sizes are equal
* gap: false: the step size has no effect
* theorems: `C63_update_ignores_step_size_fails`, `C63_updates_ignore_step_size_fails`, `C63_cautious_step_size_fails`

**C64. Predictions are consistent** (proved)

* modelled by: `predictParams`, `contributions`, `predictQuantile`, `predictMean`
* proof: row-wise evaluation
* theorems: `C64_response_is_inverse_link`, `C64_contributions_sum`, `C64_predictions_admissible`, `C64_quantiles`, `C64_mean`

**C65. Every prediction method works for every distribution** (partial)

* modelled by: `predictMean`, `predictMedian`, `predictQuantile`
* proof: availability of the distribution functions
* gap: median for all classes, mean for inflated classes
* theorems: `C65_available_partial`, `C65_median_fails`, `C65_mean_fails`

**C66. Default links match the parameter support** (partial)

* modelled by: `Dist.defaultLinks`, `linkWarnings`
* proof: case analysis, C42
* gap: square root links
* theorems: `C66_defaults_silent`, `C66_defaults_admissible`, `C66_warning_iff_partial`, `C66_sqrt_link_fails`

**C67. Warm starting on the previous lambda makes updates equal to batch fits** (proved)

* modelled by: `EnetArgs.updateBetaPath`, `LM.update`
* proof: start values do not read the previous path; induction over histories
* theorems: `C67_linear_model`, `C67_update_eq_batch_fit`

**C68. Early stopping does not stop learning from new data** (partial)

* modelled by: `cdPathRow`
* proof: the frozen row is copied
* gap: false
* theorems: `C68_frozen_fails`

**C69. Point prediction is one column of the path prediction** (proved)

* modelled by: `LM.predict`, `LM.predictPath`
* proof: linearity and selection
* theorems: `C69_predict_is_path_column`

**C70. Responses accepted by the declared support have a finite log density** (partial)

* modelled by: `Dist.support`, `Dist.logpdf`
* proof: positivity of densities
* gap: zero responses
* theorems: `C70_finite_logpdf_partial`, `C70_zero_response_fails`

**C71. The documented density formula is the density returned by pdf** (partial)

* modelled by: `Dist.pdf`
* proof: algebra against the documented formulas
* gap: three classes differ
* theorems: `C71_documented_density_partial`, `C71_gumbel_exchanged_fails`, `C71_inverse_gaussian_fails`

**C72. The intercept is penalised exactly when asked for** (proved)

* modelled by: `isRegularized`, `LM.fit`
* proof: C24 with an unpenalised coordinate
* theorems: `C72_converged_minimises`, `C72_path_fit`, `C72_residuals_sum_to_zero`

**C73. Ridge uses the requested penalty, or the mean squared column, and keeps it** (proved)

* modelled by: `RidgeArgs.penalty`, `RidgeArgs.fitBeta`, `RidgeArgs.updateBeta`
* proof: fixed points and stored penalty
* theorems: `C73_ridge_fit`, `C73_ridge_update`

**C74. logcdf of the inflated distributions is the logarithm of cdf** (proved)

* modelled by: `Dist.logcdf`
* proof: case analysis
* theorems: `C74_logcdf`

**C75. OnlineLasso can be fitted** (partial)

* modelled by: `LassoArgs`, `getParams`, `estimatorCall`
* proof: the first missing attribute; induction over calls
* gap: false
* theorems: `C75_get_params_fails`, `C75_every_call_fails`, `C75_never_fitted_fails`, `C75_linear_model_partial`

**C76. Valid input is fitted and updated without an exception of the estimator's own** (partial)

* modelled by: `GState.fit`, `GState.update`, `packageMethods`
* proof: total correctness over the whole program, with a contract for the method objects; the contract is proved for least squares and for ridge with a given penalty, the hypotheses on the distribution for those of the package
* gap: `min_it_outer > max_it_outer` (false); for path methods the contract is a hypothesis: they raise when the largest penalty is zero; methods on arrays with NaN are assumed not to raise
* theorems: `C76_package_ridge`, `C76_package_ols`, `C76_ridge`, `C76_ols`, `C76_no_exception`, `C76_package_distributions`, `C76_min_above_max_fails`

**C77. The stored fitted values are the predictions on the last batch** (partial)

* modelled by: `innerUpdate`, `innerFit`, `predictParams`
* proof: updates: invariant over the loop over parameters; fits: from the trace of C96; toy estimators for the negations
* gap: fits: false for step sizes other than one and after a halved step, proved for step size one without a halved step
* theorems: `C77_fit_partial`, `C77_halved_step_fails`, `C77_update`, `C77_step_size_fails`

**C78. A rejected re-fit does not change a fitted estimator** (partial)

* modelled by: `GState.fit`
* proof: state after the exception
* gap: false
* theorems: `C78_rejected_refit_fails`

**C79. Cautious updates accept batches of every size** (partial)

* modelled by: `cautious`
* proof: state after the exception
* gap: false
* theorems: `C79_cautious_batch_fails`

**C80. Conditional start values minimise the conditional negative log-likelihood** (partial)

* modelled by: `Dist.objective`, `Dist.conditionalStart`
* proof: keyword arguments of scipy followed by name
* gap: false for most classes
* theorems: `C80_objective_partial`, `C80_start_no_worse_partial`, `C80_gamma_beta_fails`, `C80_inflated_fails`, `C80_normal_variance_fails`, `C80_inverse_gamma_fails`, `C80_inverse_gaussian_fails`

**C81. get_debug_information returns the iteration asked for** (partial)

* modelled by: `GState.debugInformation`
* proof: iterations as keys; an invariant on the debug dictionaries through all loops
* gap: the iteration is the one after the one asked for (false); what holds is that the entries returned belong together
* theorems: `C81_debug_only`, `C81_default_call_fails`, `C81_last_iteration_fails`, `C81_first_iteration_fails`, `C81_records_partial`

**C82. Debug mode changes no result** (proved)

* modelled by: `debugWork`, `debugBeta`
* proof: relational proof over the whole program
* theorems: `C82_debug_mode`

**C83. The stored deviance is the deviance of the stored fitted values** (partial)

* modelled by: `updateDeviance`, `innerFit`, `outerFit`
* proof: last iteration of the loops
* gap: fits whose last step was rejected
* theorems: `C83_update`, `C83_fit_partial`, `C83_rejected_fails`

**C84. Initial values describe a law with the moments of the sample** (partial)

* modelled by: `Dist.initialRow`, `Dist.law`
* proof: moments of C52 at the initial values
* gap: false for the Gumbel and the inflated classes (mean), Logistic and InverseGaussian (variance); no claim for initial values from an optimiser
* theorems: `C84_start_law`, `C84_mean_partial`, `C84_variance_partial`, `C84_mean_fails`, `C84_variance_fails`

**C85. Random variates follow the distribution** (partial)

* modelled by: `Dist.inflatedRvs`, `Dist.scipyRvs`, `Dist.inverseGammaSample`
* proof: probability integral transform from C51; product measures
* gap: false shape and dependent draws for the inflated classes; LogNormal above the clipping bound of `robust_exp`
* theorems: `C85_one_draw_per_row_partial`, `C85_single_row_partial`, `C85_scipy`, `C85_sample`, `C85_shape_fails`, `C85_square_fails`, `C85_dependent_fails`

**C86. A normal distributional regression estimates the mean by least squares** (partial)

* modelled by: `GState.fit` with `Dist.normal.ops` and `packageMethods`
* proof: invariants of the two inner loops and the outer loop: least squares on working data is a fixed point
* gap: standard deviations outside of [1e-5, 1e5] (false there); for forget > 0 only if the first step is accepted
* theorems: `C86_least_squares_partial`, `C86_undiscounted_partial`, `C86_linear_model_partial`, `C86_units_matter_fails`

**C87. The working quantities of an iteration are score and information of the linear predictor** (partial)

* modelled by: `working`, `Dist.ops`
* proof: chain rule for the inverse link, C44, C46, C47 and C48
* gap: fitted values at which something is clipped; rows of `update` with second derivative zero; no claim on the weight for classes with observed information
* theorems: `C87_fit`, `C87_update_partial`

**C88. An update with responses in the support keeps the coefficients finite** (partial)

* modelled by: `working`, `updateYGramFlt`, `fltOls`, `Dist.outside`
* proof: NaN propagates through the sums; invariant of the update loops
* gap: false at inflated points; the inverse Gramian in floats is not modelled
* theorems: `C88_update_nan_fails`, `C88_stays_nan_fails`, `C88_update_finite_partial`, `C88_fit_finite_partial`, `C88_fit_then_update_fails`

**C89. The model selected on a coefficient path is the best by the information criterion** (partial)

* modelled by: `selectModel`, `fitSelectModel`, `updateSelectModel`, `icFromLL`, `argminFlt`
* proof: affine shift of the criterion by the other parameters; invariant of the loops
* gap: false for sample weights under global_ll
* theorems: `C89_fit_partial`, `C89_update`, `C89_weights_fails`

**C90. Model selection after updates takes all data into account** (partial)

* modelled by: `updateSelectModel`, `innerUpdate`, `onlineMeanLoopFlt`
* proof: invariant `PooledRss` kept by the update; two concrete runs
* gap: false with forgetting or sample weights under local_rss
* theorems: `C90_fit_partial`, `C90_update_partial`, `C90_loglikelihood`, `C90_forget_fails`, `C90_weights_fails`

**C91. A fit forgets everything before it** (partial)

* modelled by: `GState.fit`, `GState.updates`, `LM.fit`, `LM.updates`, `LM.predictPath`
* proof: relational logic `Py.RelTo` from the total relation on states to `TwinState Eq`
* gap: false for `predict_path` after a refit without path
* theorems: `C91_distributional`, `C91_linear_partial`, `C91_predict_path_fails`

**C92. The units of standardised features do not matter** (proved)

* modelled by: `Scaler.fit`, `Scaler.update`, both estimators
* proof: the same relational proof with scalers related by the unit change
* gap: real arithmetic: rounding is not modelled
* theorems: `C92_distributional`, `C92_linear`

**C93. The unit of the response does not matter** (partial)

* modelled by: `LM.fit`, `LM.update`, `onlineCD`, `EnetArgs.fitBetaPath`, `RidgeArgs.fitBeta`, `selectCoef`
* proof: relational proof: all states of two runs differ by the factor in y-Gram, path and residuals; counterexamples by solving one column exactly
* gap: real arithmetic; equality of the selected row needs that no coefficient is near 1e-8, and elastic net is false
* theorems: `C93_response_units_partial`, `C93_fit_partial`, `C93_elasticnet_fails`, `C93_selection_fails`

**C94. The fitting iterations rest exactly at stationary points of the likelihood** (proved)

* modelled by: `fitIteration`, `fitInnerLoop`, `innerFit`, `outerFit`, `working`, `fltOls`
* proof: chain rule for the score; the step is the solution of weighted normal equations whose right side is the gradient; total correctness of the nested loops from a point of rest
* gap: rows at which nothing is clipped; no claim that the iterations converge
* theorems: `C94_scoring_step`, `C94_estimate_at_rest`

**C95. Without forgetting, the order of the observations does not matter** (partial)

* modelled by: `LM.fit`, `LM.update`, `GState.fit`, `GState.update`, `Dist.ops`, `packageMethods`
* proof: two runs in lockstep: everything kept per observation is the same function of the row, everything else is a symmetric sum and equal; rank one updates of the inverse Gramian give the inverse of the sum
* gap: conditional starting values start at the first row (negation proved)
* theorems: `C95_linear`, `C95_distributional_partial`, `C95_forget_fails`, `C95_conditional_start_fails`

**C96. The iterations of a fit are those of the damped algorithm** (partial)

* modelled by: `outerFit`, `innerFit`, `fitIteration`, `outerUpdate`, `innerUpdate`, `updateIteration`
* proof: records of the passes by induction over the inner loops, treatments by induction over the parameters and the outer loop, against the separate specification `Spec/FitTrace.lean`
* gap: the last proposal is kept, not the best (negation proved)
* theorems: `C96_fit`, `C96_update`, `C96_no_iteration`, `C96_best_fails`

**C97. The tolerance of coordinate descent bounds its error, and its sweeps converge** (proved)

* modelled by: `onlineCD`, `cdSweep`, `onlineCDPath`
* proof: the variational inequality that a sweep leaves at each updated coordinate, summed with the exact second order expansion of the objective; decrease of each sweep by the squared change, Cauchy sequence, limit
* gap: none (with respect to zero coefficients see C25)
* theorems: `C97_value`, `C97_path_value`, `C97_distance`, `C97_converges`, `C97_stops`, `C97_zero_limit`

**C98. Without forgetting, sample weights are frequencies** (partial)

* modelled by: `LM.fit`, `LM.update`, `Scaler`, `updateInvertedGram`
* proof: equal frequencies give equal weighted sums of every function of an observation; every statistic but the residual sum of squares is such a sum, and the rank one updates of the inverse are the inverse of one
* gap: selection on a path is not invariant (negation proved)
* theorems: `C98_frequencies`, `C98_path_partial`, `C98_selection_fails`

**C99. Columns that no equation uses have no effect** (proved)

* modelled by: `GState.fit`, `GState.update`, `predictParams`, `modelArray`, `Scaler`
* proof: relational proof: two runs whose designs give the same model array for every equation in use; the scaler works column by column
* gap: real arithmetic: values that are not finite are not modelled in X
* theorems: `C99_unused_columns`

**C100. The influence of old data fades exponentially** (proved)

* modelled by: `LM.fit`, `LM.update`, `LM.predict`, `onlineScaler`, `onlineGram`
* proof: normal equations of two histories with a common end, subtracted and multiplied with the difference of the coefficients; Cauchy-Schwarz; geometric series; compactness for a bound that holds for the whole stream
* gap: least squares without input scaling; with scaling the past also stays in the design (C10)
* theorems: `C100_fading_memory`, `C100_recent_data`, `C100_convergence`, `C100_forgotten`, `C100_scaler`, `C100_bounded`

**C101. Predicted quantiles are quantiles of the predicted law** (proved)

* modelled by: `predictQuantile`, `Dist.ppf`, `Dist.law`
* proof: the quantile function is the generalised inverse of the distribution function (C51); continuity of measures for the probability below; supports are intervals of full probability
* gap: probabilities 0 and 1; parameters outside the declared supports
* theorems: `C101_quantiles`

**C102. The coefficients of a distribution parameter solve one weighted regression on all data** (partial)

* modelled by: `GState.fit`, `GState.update`, `packageMethods`, `regularizedFlags`
* proof: the stored statistics, coefficients and method objects are followed through all loops (Lemmas/GamlssSource.lean); on finite arrays they are the statistics of the real model, whose sums are known (C01, C04, C19)
* gap: finite working rows with nonnegative weights; for fit with paths: rows started one from the other (`start_value_update="previous_lambda"`); the value of a ridge penalty that was not given
* theorems: `C102_fit_ols`, `C102_update_ols`, `C102_fit_ridge`, `C102_update_ridge`, `C102_fit_path_partial`, `C102_update_path`, `C102_flags`

**C103. Equations that describe no columns are rejected** (partial)

* modelled by: `processEquation`, `getJ`, `modelArray`, `GState.fit`
* proof: all exceptions before the loops are followed; a successful fit went through every check
* gap: an index below `-p` raises IndexError; lists with pandas or polars installed
* theorems: `C103_rejected_partial`, `C103_used`, `C103_negative_index_fails`

**C104. Least squares is unbiased, optimal among linear estimators, and consistent along a stream** (proved)

* modelled by: `LM.fit`, `LM.updates`, `LM.predict` with `ols`; the responses are random variables on an arbitrary probability space
* proof: the run is the same for all outcomes up to a vector that is linear in the responses; duality with the normal equations; Cauchy-Schwarz in the form of a difference of variances
* gap: scaling of the inputs, forgetting in the optimality part; the noise variance is known up to a factor through the weights
* theorems: `C104_unbiased`, `C104_gauss_markov`, `C104_mean_squared_error`, `C104_consistent`

**C105. The direction of features and of the response does not matter** (partial)

* modelled by: `LM.fit`, `LM.updates`, `LM.predict`, `LM.score`, `Scaler`, `getLambdaMax`, `onlineCD`
* proof: two runs of one program whose states are images of each other under the signs, step by step
* gap: path methods that penalise every coefficient (false); lower bounds above their upper bounds
* theorems: `C105_directions_partial`, `C105_bounds_partial`, `C105_named_methods_partial`, `C105_all_penalised_fails`

**C106. Least squares does not depend on the coordinates of the features** (proved)

* modelled by: `LM.fit`, `LM.updates`, `LM.predict` with `ols`
* proof: full rank and strict minimisers of the squared error are carried over by the change of coordinates
* gap: scaling of the inputs (C11 and C92 treat it); penalised methods, for which the property is not expected
* theorems: `C106_accepted`, `C106_coordinates`

**C107. The fitting iterations rest exactly at maximum likelihood estimates** (partial)

* modelled by: `fitIteration`, `working`, `fltOls`, `Dist.logpdf`, `LinkClass.inverse`
* proof: the log density is concave in the linear predictor (monotone derivatives of location kernels, of scale families, of linear minus exponential and of linear minus log-sum-exp functions; for the scales of the gamma classes x (log x - digamma x) decreases, by telescoping); a stationary point of a sum of concave terms is a maximum, and conversely (C94); strict concavity and full rank give uniqueness
* gap: 28 of the 40 default parameter and link pairs: locations, scales, means and inflation probabilities. The other twelve are false, each with two observations at which the iteration rests though another coefficient is more likely: location and degrees of freedom of the t distribution, the mean of the inverse Gaussian, location, scale and tail of Johnson SU, mean and scale of the three beta classes
* theorems: `C107_rest_is_maximum_partial`, `C107_unique_partial`, `C107_student_fails`, `C107_inverseGaussian_fails`, `C107_johnson_location_fails`, `C107_johnson_tail_fails`, `C107_johnson_scale_fails`, `C107_beta_mean_fails`, `C107_beta_scale_fails`, `C107_student_freedom_fails`

**C108. Rounding errors do not build up along a stream** (proved)

* modelled by: `init_forget_vector`, `init_gram`, `init_y_gram`, `update_gram`, `update_y_gram`, `_update_inverted_gram`, `update_inverted_gram`, `OrdinaryLeastSquares.fit_beta` with every operation rounded (`Model/Rounding.lean`); shown equal to the models without rounding for u = 0
* proof: running error analysis: a computed value after k roundings has an error of at most (1+u)^k - 1 times the size of its terms; the error of an update is contracted by (1 - forget)(1 + eta), hence bounded; inverse Gramian: the inverse of a step is the update of the inverse, so errors contract by 1 - forget, with a perturbation bound for matrix inverses and the curvature of the Gramian to keep the denominator positive; coefficients by strong convexity
* gap: the initial inverse (LAPACK) enters with an arbitrary error e0. Rounding inside coordinate descent and in the scaler is not modelled; overflow and underflow are excluded
* theorems: `C108_gram`, `C108_y_gram`, `C108_bounded`, `C108_y_bounded`, `C108_uniform`, `C108_coefficients`, `C108_inverse`, `C108_inverse_float`, `C108_least_squares`, `C108_product`, `C108_no_forgetting`, `C108_exact`, `C108_exact_inverse`

**C109. What forgetting buys and what it costs** (proved)

* modelled by: `OnlineLinearModel` with method "ols" without scaling; random data as in C104 (`Spec/GaussMarkov.lean`, `Spec/Adaptation.lean`)
* proof: normal equations of the run in every outcome; the discounted cross product of a history splits at the change with the factor (1-forget)^n; expectations and variances of linear combinations of uncorrelated responses; squared discounts are discounts with forget(2-forget); lower bound by Cauchy-Schwarz on the last informative observations
* gap: weights are known numbers, regressors fixed, as in C104. Methods with a penalty are not covered (their coefficients are no linear function of the responses)
* theorems: `C109_change`, `C109_adaptation`, `C109_variance`, `C109_variance_floor`, `C109_not_consistent`, `C109_mean`

**C110. Learning a batch improves the predictions for it** (partial)

* modelled by: `OnlineLinearModel.fit`, `update`, `predict` with methods "ols" and `Ridge`; error and residual products in `Spec/Improvement.lean`
* proof: least squares before and after the update are strict minimisers on the old and on all data, the criterion on all data is (1-forget)^n times the old one plus that of the batch; stationarity for the characterisation of no change; rank one step of the normal equations for a single observation. Ridge without forgetting: the same comparison of penalised criteria (C72, C73)
* gap: false with `scale_inputs` (`C110_scaling_fails`) and for `Ridge` with forgetting (`C110_ridge_fails`); path methods are not covered, their penalties are recomputed from the data at every update
* theorems: `C110_batch`, `C110_unchanged`, `C110_single`, `C110_scaling_fails`, `C110_ridge_fails`, `C110_ridge_partial`

**C111. Penalised fits along a stream agree with a fit on all data up to the tolerance** (partial)

* modelled by: `OnlineLinearModel.fit`, `update` with `Ridge`, `LassoPath`, `ElasticNetPath`; distance, coupling and curvature in `Spec/Accuracy.lean`
* proof: both runs end with coordinate descent on the problem given by the Gramians of all data (invariant of C03, C09); the better of the two results is at most the error bound of C97 away from the other
* gap: false for `Ridge()` with the default penalty (`C111_default_penalty_fails`). The condition on the zeros is necessary in general (C25: zeros are never left). Rows copied by early stopping are not covered (C68)
* theorems: `C111_ridge`, `C111_ridge_penalised`, `C111_path`, `C111_default_penalty_fails`

**C112. The unit of the sample weights does not matter** (partial)

* modelled by: `LM.fit`, `LM.update`, `Scaler`, Gramians; `Obs.scaleW` in `Spec/Units.lean`
* proof: simulation between the two runs: Gramians and weight sums are multiplied by the factor, the inverted Gramian by its inverse, means and variances of the scaler agree; C30 for the paths
* gap: false for the selection from a path, for a given ridge penalty and for normalised weights; proved for least squares, ridge with the default penalty, whole paths, and the selection by "max" after a fit
* theorems: `C112_weight_units_partial`, `C112_max_fit`, `C112_normalised_fails`, `C112_selection_fails`, `C112_ridge_fails`

**C113. With an unpenalised intercept the predictions are right on average** (partial)

* modelled by: `LM.fit`, `LM.updates`, `LM.predict`, `LM.predictPath`, `onlineCD`; `residualSum` in `Spec/Calibration.lean`, `residualProduct` in `Spec/Improvement.lean`
* proof: least squares: normal equations of the Gramians (C10); ridge and paths: the coefficients are the last sweep of coordinate descent on all data, and the accuracy of the sweep (C97) in the direction of the intercept bounds the sum of the residuals
* gap: false with scaling after an update and for an intercept that is exactly zero after the first sweep; for the penalised methods up to the tolerance of the convergence test
* theorems: `C113_least_squares`, `C113_fit`, `C113_ridge_partial`, `C113_path_partial`, `C113_scaling_fails`, `C113_zero_intercept_fails`

**C114. Fitted values move no more than the responses** (partial)

* modelled by: `LM.fit`, `LM.updates`, `LM.predict`, `onlineCD`; `SameInput`, `weightedDistance` in `Spec/Stability.lean`
* proof: least squares: the difference of the two normal equations and the inequality of Cauchy and Schwarz; ridge: the accuracy of the last sweep (C27) of each run is applied to the result of the other run and added
* gap: false for ridge regression when the two results have different zeros and for paths where every coefficient is penalised; for ridge regression up to the tolerance of the convergence test; without scaling
* theorems: `C114_least_squares`, `C114_ridge_partial`, `C114_ridge_fails`, `C114_path_fails`

**C115. Adding a constant to the responses only moves the intercept** (partial)

* modelled by: `LM.fit`, `LM.updates`, `LM.predict`, `LM.predictPath`, `onlineCD`, `onlineCDPath`; `Obs.raise`, `raiseAt` in `Spec/Origin.lean`
* proof: least squares: the Gram vector moves by the intercept column of the Gram matrix, so the moved coefficients solve the moved normal equations; descent: the accuracy of the last sweep (C27) of each run is applied to the moved result of the other; paths: the penalties do not change
* gap: false for ridge regression when an intercept is exactly zero; for descent up to the tolerance of the convergence test and without scaling; the row a path method selects is not covered
* theorems: `C115_least_squares`, `C115_ridge_partial`, `C115_path_partial`, `C115_ridge_fails`

**C116. The unit of the sample weights does not matter to a distributional regression** (partial)

* modelled by: `GState.fit`, `GState.updates`, `packageMethods`; `Flt.times`, `GConfig.inUnit`, `WeightFreeMethods` in `Spec/GamlssWeightUnits.lean`
* proof: simulation of the two runs (`Py.Sim`): deviances are multiplied by the constant, comparisons are invariant, the inverse Gramian is divided by it and the products with the response multiplied
* gap: false with the default absolute tolerances (negation proved); holds when the absolute tolerances are in the same unit or zero; path based methods and ridge regression have penalties in the unit of the weights and are not covered
* theorems: `C116_weight_units_partial`, `C116_relative_tolerances`, `C116_tolerance_fails`

**C117. A distributional regression by least squares does not depend on the coordinates of the features** (proved)

* modelled by: `GState.fit`, `GState.updates`, `packageMethods`, `modelRow`; `SameSpan`, `Row.units`, `NanOrRaise` in `Spec/GamlssCoordinates.lean`, `Row.recode` in `Spec/Coordinates.lean`
* proof: simulation of the two runs (`Py.Sim`): design matrices, inverse Gramians, cross products and coefficients are related by one invertible matrix per parameter, everything else is equal
* gap: arrays that are not finite raise or give NaN whatever the coordinates (`NanOrRaise`)
* theorems: `C117_same_span`, `C117_coordinates`, `C117_units`

**C118. The origin of the response only moves the location of a distributional regression** (proved)

* modelled by: `GState.fit`, `GState.updates`, `packageMethods`, `Dist.ops`, `predictQuantile`; `Obs.respondingFrom`, `locationPlus`, `interceptPlus`, `Dist.LocationFamily`, `Elsewhere.Moves`, `ScipyOracles.FitMoves`, `ResponseBlind` in `Spec/GamlssOrigin.lean`
* proof: simulation of the two runs (`Py.Sim`): the cross products of the location differ by a multiple of the first row of its Gramian, so that least squares moves the intercept only; translation of the laws for the quantiles
* gap: arrays that are not finite raise or give NaN whatever the response (`ResponseBlind`); `st.t.fit` and `st.johnsonsu.fit` are assumed to move with the data (`FitMoves`, Student t and Johnson SU only)
* theorems: `C118_origin_of_response`

**C119. Weaker penalties fit the training data at least as well** (partial)

* modelled by: `LM.fit`, `LM.updates`, `onlineCDPath`, `onlineCD`; `discSSE`, `totalPenalty`, `stoppingSlack` in `Spec/PathTradeoff.lean`
* proof: two solutions that are almost optimal for two penalties are compared with each other (exchange argument), with the accuracy of C97 and the warm start of C72
* gap: false for rows with other zeros (negation proved); exact for tolerance zero, else up to the accuracy the tolerance gives
* theorems: `C119_path_partial`, `C119_ridge_partial`, `C119_no_dominated_row`, `C119_start_value_fails`

**C120. Predictions are made row by row** (proved)

* modelled by: `LM.predict`, `LM.predictPath`, `predictParams`, `predictMean`, `predictQuantile`, `contributions`, `designFor`, `modelRow`; `RowByRow`, `ColsByRow` in `Spec/RowByRow.lean`
* proof: every step of a prediction is a function of one row or an exception that does not depend on the row; composed along the methods
* gap: rounding of the matrix product and the blocking of BLAS are not modelled
* theorems: `C120_append`, `C120_single`, `C120_parameters`, `C120_mean`, `C120_quantiles`, `C120_contributions`, `C120_linear`, `C120_linear_path`

**C121. More features never fit the training data worse** (proved)

* modelled by: `LM.fit`, `LM.updates`, `LM.predict`, `LM.score`; `keepFeatures` in `Spec/Nested.lean`, `predictionError` in `Spec/Improvement.lean`
* proof: coefficients of the small model padded with zeros compete with the least squares solution of the large one; full rank is inherited by a selection of columns
* gap: for `scale_inputs=False`; with scaling and updates the design mixes several scalings (C10)
* theorems: `C121_fits`, `C121_error`, `C121_score`

**C122. Location and scale parameters carry the origin and the unit of the response** (proved)

* modelled by: `Dist.pdf`, `Dist.logpdf`, `Dist.cdf`, `Dist.ppf`, `Dist.law`; `changeUnit`, `HasUnit`, `FixedOrigin` in `Spec/UnitOfResponse.lean`
* proof: the laws as images of standard laws; cdf and ppf from the law by C50 and C51, the densities from their closed forms
* gap: the three classes on the unit interval have no unit; the parameter of LogNormal is on the log scale and moves by the logarithm of the factor, the dispersion of InverseGaussian is divided by the root of the factor
* theorems: `C122_law`, `C122_cdf`, `C122_ppf`, `C122_density`, `C122_zero`

**C123. Related distribution classes agree with each other** (proved)

* modelled by: `Dist.pdf`, `Dist.logpdf`, `Dist.cdf`, `Dist.ppf`; `SameDistribution`, `mirror`, `mirrorClass`, `continuousPart` in `Spec/Relatives.lean`
* proof: densities from their closed forms, laws from the densities, cdf and ppf from the laws by C50 and C51; positive densities make quantiles unique
* gap: quantiles at levels strictly between 0 and 1
* theorems: `C123_density`, `C123_probabilities`, `C123_mirror_density`, `C123_mirror_law`, `C123_mirror_cdf`, `C123_mirror_ppf`, `C123_log`, `C123_continuous_part`

**C124. Quantiles rise with the first parameter and intervals widen with the scale** (proved)

* modelled by: `Dist.cdf`, `Dist.ppf`
* proof: a larger first parameter is a change of unit or origin that enlarges every response (C122); quantiles of laws with positive densities are strictly ordered; for InverseGaussian and the Beta classes, whose first parameter is neither a location nor a scale, the ratio of the two densities rises with the response, which orders the distribution functions
* gap: the strict order of the quantiles is not stated for InverseGaussian and the Beta classes
* theorems: `C124_quantiles`, `C124_cdf`, `C124_intervals`, `C124_cdf_all`, `C124_quantiles_all`

**C125. Comparing forecasts by their log density is fair** (proved)

* modelled by: `Dist.logpdf`, `Dist.pdf`
* proof: the laws have `pdf` as density with respect to one measure (Lebesgue plus the inflated points), so `exp` of the difference of the log densities is the density of one law with respect to the other; Markov and `1 + u <= exp u`; parameters recovered from moments (C52), point masses, the shape of the density (StudentT, InverseGamma) and the quantiles (JSU)
* gap: expectations are assumed to exist outside five classes, except in the form with gains and losses
* theorems: `C125_weights`, `C125_wrong_wins`, `C125_proper`, `C125_identified`, `C125_gains_and_losses`, `C125_separates`, `C125_strictly_proper`

**C126. Quantiles, intervals, means and distribution functions are the best forecasts under their losses** (proved)

* modelled by: `Dist.cdf`, `Dist.ppf`
* proof: `ppf` is the generalised inverse of the distribution function of the law (C51); the pinball loss lies above its subgradient at the quantile; sets of responses with a small cdf lie below a quantile
* theorems: `C126_pinball`, `C126_squared_error`, `C126_absolute_error`, `C126_intervals`, `C126_uniform`, `C126_brier`, `C126_crps`, `C126_coverage`

**C127. Forecasting each batch before learning it costs little, and tells more than the training error** (proved)

* modelled by: `LM.fit`, `LM.update`, `LM.predict`
* proof: the coefficients minimise the error of all data before and after each batch, induction over the batches; the determinant of a Gramian grows by the factor by which the error of an observation shrinks when it is learned
* gap: with input scaling already one batch can be predicted worse after learning (C110)
* theorems: `C127_enclosed`, `C127_regret`

**C128. Leave-one-out errors follow from the stored inverse Gramian** (proved)

* modelled by: `LM.fit`, `LM.updates`, `LM.predict`, `LM.xGram`
* proof: normal equations of both estimators (invariant over the updates), without forgetting the sums do not depend on the order; trace of the Gramian times its inverse
* theorems: `C128_leave_one_out`, `C128_leverages`

**C129. New observations move the predictions by a known gain** (proved)

* modelled by: `LM.fit`, `LM.updates`, `LM.predict`, `LM.xGram`
* proof: normal equations before and after the repetitions; their difference is n times the gradient of the one observation
* theorems: `C129_repeated`, `C129_gain`

## Findings: where the code disagrees with the property

Each is proved about the model by a theorem with suffix `_fails` (or the negative part of the named theorem).

1. Scalar weights in `update_inverted_gram` raise for batches (C04).
2. With input scaling, an online fit is not the batch fit: earlier rows stay standardised with outdated moments (C10).
3. The active-set rule of coordinate descent can stop at a point that is not optimal (C25).
4. The largest penalty of the path ignores `alpha` and the sign of the gradient, so coefficients can be non-zero at its start (C26).
5. The start value "average" is overwritten and equals "previous_fit" (C29).
6. AICc raises for arrays of models (C32). `ic="max"` maximises the likelihood, not the size (C34).
7. The residual sum of squares for model selection squares the weights in `fit`, ignores them in `update`, and discounts by
   batch instead of by observation (C36).
8. The check for too few observations is skipped for method objects and counts weights (C37).
9. `is_fitted` is true after some rejected fits (C38).
10. Shifted and square root links do not invert on part of the range, and some derivatives of links are wrong (C41 to C44).
11. Working weights can vanish or have the wrong sign (C47).
12. Densities outside the support: BetaInflated, BetaInflatedZero, ZeroAdjustedGamma, LogNormal (C49, C50, C51).
13. Constant samples and zeros give start values outside the parameter space (C53, C70).
14. Some derivative requests for parameters that do not exist are answered (C54).
15. A rejected update changes the observation counter (C56); an update without outer iteration loses its batch (C57).
16. A NaN deviance is accepted as an improvement (C59).
17. Option dictionaries are rejected by the validation (C60), completed in place (C61), and step sizes are assigned by
    insertion order (C60).
18. Lists of booleans or names are accepted as equations but not used as documented (C62).
19. Updates ignore the step size (C63).
20. `predict_median` is missing for all, `predict` for the inflated distributions (C65).
21. Square root links accept parameters they cannot represent without a warning (C66).
22. Early stopping freezes rows for ever (C68).
23. The documented densities of Gumbel, ReverseGumbel and InverseGaussian are not the ones returned (C71).
24. `OnlineLasso` cannot be fitted (C75).
25. `min_it_outer > max_it_outer` is accepted and every fit raises (C76).
26. Fits with a step size below one, or whose step was halved after an increase of the deviance, store fitted values that belong to no
    coefficients (C77, `C77_halved_step_fails`), and after a rejected last step
    the stored deviance is the one of the rejected values (C83).
27. A rejected re-fit makes a fitted estimator unusable (C78).
28. Cautious updates raise for more than one observation (C79).
29. Conditional start values raise for Gamma, Beta and the inflated classes, and minimise a wrong objective for
    NormalMeanVariance, InverseGamma and InverseGaussian (C80).
30. `get_debug_information` returns the following inner iteration (C81).
31. The mixed derivative of ReverseGumbel has the wrong sign for all parameters; the information of the degrees of freedom of
    Student t is clipped from `1e8` on (C48).
32. `mu` of InverseGamma is the mode, not the mean (C52).
33. Initial values: ReverseGumbel corrects the mean in the wrong direction, Gumbel not at all; the initial scale of Logistic
    is too large by the factor `sqrt(pi)`, the one of InverseGaussian by the mean (C84).
34. `rvs` of the inflated classes returns one number per parameter row instead of `size`, raises for most sizes, and uses one
    uniform number for all rows when `size` is 1 (C85).
35. The working weights are clipped to [1e-10, 1e10], so the estimates depend on the unit of the response: one iteration
    finds the line y = 1e5 x exactly and estimates the slope 1e4 for the line y = 1e6 x (C86).
36. `update` clips the working weights to [-1e10, 1e10] where `fit` uses [1e-10, 1e10]. A zero (or one) as response of an
    inflated distribution then has working response 0/0, and the coefficients of location and scale are NaN for ever (C88).
37. Under `global_ll` the fit selects by the log-likelihood without the sample weights, the update with them
    (`_fit_select_model`, `_update_select_model`; C89). A NaN statistic wins the selection (numpy's argmin).
38. Under `local_rss` with forgetting, the fit divides the discounted residual sums of squares by the mean of the discounted
    weights, and the update multiplies by the mean of the weights without discount: the earlier data count too much, and the
    selected row differs from that of a fit on all data (C90).
39. Under `local_rss` with sample weights, the denominator of an update averages the working weights without the sample
    weights and takes the sum of the sample weights for the number of values; from the second update on the earlier data have
    the wrong weight (C90). The sum of the weights is discounted once per update, not once per observation.
40. A refit by a method without a coefficient path keeps the path of the earlier fit: `predict_path` multiplies the new design
    with the old path, where a new object raises (C91).
41. Elastic net: the grid of penalties is proportional to the response (`elasticnet.py`, `lambda_max`), and the same penalty is
    added to the diagonal of the Gram matrix (`coordinate_descent.py:81-83`). In larger units of the response the coefficients
    of the path are shrunk more, relative to the unit (C93).
42. Model selection of `OnlineLinearModel` counts coefficients by `np.isclose` (`online_linear_model.py:161`, `:222`), with the
    absolute tolerance 1e-8: in a large unit of the response all rows count as empty and the least penalised one is selected
    (C93).
43. With `forget > 0` an inner iteration of `fit` solves the discounted normal equations, but its step is accepted or halved by
    the deviance without discount (`online_gamlss.py:1116`): the point of rest of C94 and the quantity that is monitored belong
    to different likelihoods.

44. `calculate_conditional_initial_values` (base/distribution.py:356-383) starts the optimiser at the parameters of the first row and
    gives its result to all rows, so with `cond_start_val=True` the order of the observations matters even without forgetting
    (C95_conditional_start_fails).
45. `_inner_fit` keeps the proposal of its last pass (online_gamlss.py:1175-1192), not the best one: in the first outer iteration
    without any test, later if it is not worse than the values before the loop. A pass that reached the minimum can be followed by
    a last one that leaves it (C96_best_fails). `_inner_update` keeps the last proposal whatever its deviance, and the step sizes
    it halves are never used.
46. The outer loops compare the initial deviance with itself plus 1000 (online_gamlss.py:941). With `min_it_outer = 0`
    and an initial deviance above 1000 / `rel_tol_outer` the fit ends before its first iteration, with all coefficients zero
    (C96_no_iteration).
47. `_current_min_it_outer` survives a call: after a cautious update that met an outlier, or after prefit iterations of `fit`, later
    updates without `cautious_updates` and `prefit_update` use the number of required iterations of the earlier call (C96_update).
48. The tolerance of coordinate descent is relative to the largest coefficient: when the coefficients tend to zero (response
    orthogonal to the features) no sweep ever passes the test and `max_iterations` is used up (`C97_zero_limit`).
49. In `OnlineLinearModel.fit` the residuals are multiplied with the sample weight before they are squared, and in `update` they
    are not weighted at all (online_linear_model.py:157-160, 217-221): splitting one observation into copies that share its weight
    can change which model is selected (`C98_selection_fails`).
50. A ridge penalty that is not given is set at the first weighted regression of `fit` (ridge.py), that is, from the working
    weights at the start values of the distribution, and kept for all later passes and updates (C102).
51. `_get_lambda_max` takes `np.max(y_gram)` without the absolute value when all coefficients are penalised (elasticnet.py:91-92):
    for an equation with the intercept alone and negative working responses all penalties are negative, and with a cross product
    of zero `np.geomspace` raises.
52. `_inner_update` clips the working weights to [-1e10, 1e10] (online_gamlss.py:1230), so weights can be negative; the batch
    statistics take their square roots.
53. In `_inner_update` the residual sum of squares of the new batch is divided by the mean weight of the batch and then, together with
    the undivided old part, by the mean weight of all data (online_gamlss.py:1296-1308).
54. `robust_log` returns the logarithm of its smallest number for NaN, since the comparison with NaN is false
    (links/robust_math.py:19-22).
55. `param_order` may name a parameter twice; it is then treated twice in every outer iteration. `min_it_outer` is not among the
    validated options.
56. An index array in an equation is checked against the number of columns from above only; an entry below `-p` raises IndexError
    from numpy (C103). An empty index array raises ValueError from `max` of an empty array.
57. `Exponential.dl2_dpp` has the default parameters (0, 0), which `_validate_dl2_dpp_inputs` always rejects; with one parameter there
    is no pair of nonnegative numbers it accepts (C54).
58. `LogNormal.ppf` names its first argument `p`, the base class `q`; calls with the keyword `q` raise TypeError.
59. The class comment of `ReverseGumbel` describes the minimum distribution, the code is scipy's `gumbel_r`, the maximum distribution.
60. `_get_lambda_max` without absolute values (finding 51) makes the lasso depend on the direction of the response: for a column of
    ones and the responses -1, -1 all penalties are negative and every coefficient of the path lies beyond the least squares value
    (C105).
61. A cautious update that meets an outlier requires four outer iterations, but the schedules have `max_it_outer` rows and the limit
    is only checked after the required iterations: with `max_it_outer` below four it raises IndexError. The same happens with
    `min_it_outer` above `max_it_outer`.

62. The likelihood of the location of Student's t distribution can have several maxima and minima; the iterations of `_inner_fit` stay at
    any of its stationary points, also at a minimum between two groups of responses, without a warning (C107_student_fails). The start
    value decides.

63. Without forgetting (the default of the linear model) the float64 Gramian of a long stream stops growing: an entry
    of 2^54 does not change when 1 is added, so later observations have no influence at all (C108_no_forgetting). With a positive
    forget this cannot happen (C108_bounded).

64. `get_debug_information` documents the variables `X_dict` and `X_scaled` but raises for both: the method builds the key
    `(param, it_outer, it_inner + 1)`, while `_debug_X_dict` is keyed by the parameter alone and `_debug_X_scaled` is an array
    (online_gamlss.py:1523-1524). Found by reading, not modelled.
65. `_debug_dv` is written by `_inner_fit` only and not reset by `update`, so after an update it still returns the deviances of the fit.
    Found by reading, not modelled.
66. `ReverseGumbel.dl2_dpp` builds its constant with `np.full_like(y, ...)`: for integer responses the second derivative is
    truncated to an integer. Found by reading, not modelled.
67. `LogNormal` clips the scale by `robust_exp` in `theta_to_scipy_params` (lognormal.py:56-59), so `rvs` and `mean` clip, while `pdf`,
    `cdf` and `ppf` do not. Found by reading, not modelled.

68. With `Ridge` and `forget > 0` the penalty is not discounted with the data, so its relative strength grows: an observation that is
    predicted exactly still moves the coefficients towards zero (`C110_ridge_fails`).

69. `Ridge()` without `lambda_reg` takes the mean of the diagonal of the first Gramian and keeps it, while the Gramian grows with every
    update: an online fit is penalised less than a fit on the same data at once (`C111_default_penalty_fails`).

70. With sample weights that sum to less than one (for example normalised weights on a part of the data) the criterion HQC is
    `log(log(n))` of a number below one, so NaN for every model; `np.argmin` then returns the first model of the path, the most penalised
    one (`C32_hqc_undefined`, `C31_argmin`).

71. `OnlineLinearModel.fit` takes the sum of the sample weights for the number of observations: normalised weights (sum one) always raise
    a `ValueError` about one sample (`C112_normalised_fails`), and the selection by information criterion depends on the unit of the
    weights (`C112_selection_fails`).

72. Coordinate descent skips every coefficient that is zero after the first sweep, the unpenalised intercept included. If the first sweep
    leaves an intercept of exactly zero, the fit keeps it for good: the predictions are wrong on average by any amount, whatever the tolerance
    and the number of iterations (`C113_zero_intercept_fails`).

73. Because coordinate descent skips coefficients that are zero after the first sweep, `Ridge` is not a continuous function of the responses:
    for the points (1, 1), (3, 3) and `lambda_reg=10` the fitted values are 0.5 and 1.5, and adding any positive amount to both responses,
    however small, moves them by at least 0.8 and 0.4 (`C114_ridge_fails`; real arithmetic).

74. For the same reason the origin of the response matters to `Ridge`: for the points (1, 1), (3, 3) and `lambda_reg=10` the slope is 0.5, and
    with any positive constant added to both responses it is at most 0.3 (`C115_ridge_fails`; real arithmetic).

75. Other parameters whose likelihood has several stationary points, or a minimum where the iteration rests: the mean of `InverseGaussian` (a
    feature with the values 1 and -1 and two responses 1/4), location, scale and tail of `JSU`, the degrees of freedom of `StudentT`, and
    mean and scale of `Beta`, `BetaInflated` and `BetaInflatedZero` (`C107_inverseGaussian_fails`, `C107_johnson_*_fails`,
    `C107_student_freedom_fails`, `C107_beta_*_fails`).  The coefficient found depends on the start values, and nothing reports it.

76. `abs_tol_inner` and `abs_tol_outer` are compared with differences of a deviance that is a weighted sum and not divided by the sum of the
    weights.  With small weights, for example weights normalised to sum to one, every difference is below the default of 0.001 and the
    iterations end early: an exponential regression with two observations makes two passes with weights of 1/10000 and three with weights of
    one, and the coefficients differ (`C116_tolerance_fails`).  For the same reason a fit to few observations ends earlier than one in which
    every observation occurs many times.

77. The coefficients that the first sweep of coordinate descent sets to zero are not visited again (finding on C25), so a weaker penalty can
    fit the data worse than a stronger one.  With `start_value_initial="previous_fit"`, where every row of the first path starts at zero, the
    lasso of three observations has the coefficients `(0, 8/5, 1/6)` for the penalty 5 and `(0, 9/5, 0)` for the penalty 4, with the larger
    squared error (`C119_start_value_fails`).

## Testing the theorems

In a scratch copy the model is edited as a realistic bug would edit it, and the project is rebuilt. `seeded/LOG.jsonl` has
one line per experiment: definition, edit, broken claim, theorems that failed, theorems tightened as a result. When all
theorems survived a mutation that falsifies an English claim, the theorem was tightened. For the edits that aim at C113
to C126 only the modules of the claim and their imports were rebuilt, and the build was stopped soon after the first error: the
line then names the first theorems that failed, which may be lemmas or claims below the one aimed at.
