{
 "claims": [
  {
   "property": "C01",
   "status": "proved",
   "theorems": [
    "Ondil.C01_forget_vector",
    "Ondil.C01_no_forget"
   ],
   "note": ""
  },
  {
   "property": "C02",
   "status": "proved",
   "theorems": [
    "Ondil.C02_gram",
    "Ondil.C02_y_gram"
   ],
   "note": ""
  },
  {
   "property": "C03",
   "status": "proved",
   "theorems": [
    "Ondil.C03_online_eq_batch",
    "Ondil.C03_online_eq_batch_y",
    "Ondil.C03_chunking_irrelevant",
    "Ondil.C03_scalar_weight"
   ],
   "note": ""
  },
  {
   "property": "C04",
   "status": "proved",
   "theorems": [
    "Ondil.C04_inverse_maintained",
    "Ondil.C04_denominator_pos",
    "Ondil.C04_chunking_irrelevant",
    "Ondil.C04_scalar_weight_batch_fails"
   ],
   "note": "The inverse is maintained for all histories of array-weighted batches; C04_scalar_weight_batch_fails records that the default scalar weight raises TypeError for batches."
  },
  {
   "property": "C05",
   "status": "proved",
   "theorems": [
    "Ondil.C05_error_iff",
    "Ondil.C05_ok_otherwise"
   ],
   "note": ""
  },
  {
   "property": "C06",
   "status": "proved",
   "theorems": [
    "Ondil.C06_symmetric_psd",
    "Ondil.C06_definite_stays"
   ],
   "note": ""
  },
  {
   "property": "C07",
   "status": "proved",
   "theorems": [
    "Ondil.C07_integer_weight",
    "Ondil.C07_homogeneous"
   ],
   "note": ""
  },
  {
   "property": "C08",
   "status": "proved",
   "theorems": [
    "Ondil.C08_least_squares",
    "Ondil.C08_exact_recovery"
   ],
   "note": ""
  },
  {
   "property": "C09",
   "status": "proved",
   "theorems": [
    "Ondil.C09_online_eq_batch",
    "Ondil.C09_chunking_irrelevant"
   ],
   "note": ""
  },
  {
   "property": "C10",
   "status": "partial",
   "theorems": [
    "Ondil.C10_mixed_design_partial",
    "Ondil.C10_scaled_online_fails"
   ],
   "note": "False: witness with five points on a line. Proved: the online fit is least squares on a design in which each batch is standardised with the moments known at that time."
  },
  {
   "property": "C11",
   "status": "proved",
   "theorems": [
    "Ondil.C11_scaling_irrelevant"
   ],
   "note": ""
  },
  {
   "property": "C12",
   "status": "proved",
   "theorems": [
    "Ondil.C12_moments",
    "Ondil.C12_chunking_irrelevant",
    "Ondil.C12_observations",
    "Ondil.C12_fit_errors",
    "Ondil.C12_totalWeight_pos"
   ],
   "note": ""
  },
  {
   "property": "C13",
   "status": "proved",
   "theorems": [
    "Ondil.C13_invariant",
    "Ondil.C13_no_zero_division"
   ],
   "note": ""
  },
  {
   "property": "C14",
   "status": "proved",
   "theorems": [
    "Ondil.C14_reachable_consistent",
    "Ondil.C14_inverse_transform_transform",
    "Ondil.C14_transform_inverse_transform",
    "Ondil.C14_columns",
    "Ondil.C14_object",
    "Ondil.C14_object_round_trip",
    "Ondil.C14_selection"
   ],
   "note": ""
  },
  {
   "property": "C15",
   "status": "proved",
   "theorems": [
    "Ondil.C15_standardised"
   ],
   "note": ""
  },
  {
   "property": "C16",
   "status": "proved",
   "theorems": [
    "Ondil.C16_constant_column"
   ],
   "note": ""
  },
  {
   "property": "C17",
   "status": "proved",
   "theorems": [
    "Ondil.C17_sum_of_weights",
    "Ondil.C17_no_forget",
    "Ondil.C17_below_asymptotic",
    "Ondil.C17_strictMono",
    "Ondil.C17_le_count"
   ],
   "note": ""
  },
  {
   "property": "C18",
   "status": "proved",
   "theorems": [
    "Ondil.C18_array",
    "Ondil.C18_scalar",
    "Ondil.C18_chunking"
   ],
   "note": ""
  },
  {
   "property": "C19",
   "status": "proved",
   "theorems": [
    "Ondil.C19_prox",
    "Ondil.C19_zero_iff",
    "Ondil.C19_sign",
    "Ondil.C19_odd",
    "Ondil.C19_nonexpansive"
   ],
   "note": ""
  },
  {
   "property": "C20",
   "status": "proved",
   "theorems": [
    "Ondil.C20_exact_minimiser",
    "Ondil.C20_error_iff"
   ],
   "note": ""
  },
  {
   "property": "C21",
   "status": "proved",
   "theorems": [
    "Ondil.C21_objective_nonincreasing"
   ],
   "note": ""
  },
  {
   "property": "C22",
   "status": "proved",
   "theorems": [
    "Ondil.C22_bounds",
    "Ondil.C22_bounds_path",
    "Ondil.C22_bounds_history",
    "Ondil.C22_bound_validation",
    "Ondil.C22_ridge"
   ],
   "note": "Single runs, paths, histories of fits and updates, and Ridge."
  },
  {
   "property": "C23",
   "status": "proved",
   "theorems": [
    "Ondil.C23_terminates",
    "Ondil.C23_iteration_count",
    "Ondil.C23_error_iff",
    "Ondil.C23_path_counts"
   ],
   "note": ""
  },
  {
   "property": "C24",
   "status": "proved",
   "theorems": [
    "Ondil.C24_fixed_point_optimal",
    "Ondil.C24_ridge_normal_equations"
   ],
   "note": ""
  },
  {
   "property": "C25",
   "status": "partial",
   "theorems": [
    "Ondil.C25_optimal_on_support_partial",
    "Ondil.C25_fails"
   ],
   "note": "False in general: C25_fails gives a lasso problem on which coordinate descent stops at a non-optimal point (active set rule). Proved: optimality among vectors with the same zeros."
  },
  {
   "property": "C26",
   "status": "partial",
   "theorems": [
    "Ondil.C26_intercept_partial",
    "Ondil.C26_all_regularized_partial",
    "Ondil.C26_sign_fails",
    "Ondil.C26_alpha_fails"
   ],
   "note": "Proved for the lasso with an unregularised intercept and for sign-dominated all-regularised problems. False for alpha < 1 and for negative correlations without an intercept (witnesses proved for all such data)."
  },
  {
   "property": "C27",
   "status": "proved",
   "theorems": [
    "Ondil.C27_grid",
    "Ondil.C27_zero_raises"
   ],
   "note": ""
  },
  {
   "property": "C28",
   "status": "proved",
   "theorems": [
    "Ondil.C28_frozen",
    "Ondil.C28_optimised"
   ],
   "note": ""
  },
  {
   "property": "C29",
   "status": "partial",
   "theorems": [
    "Ondil.C29_start_value_partial",
    "Ondil.C29_average_is_previous_fit",
    "Ondil.C29_average_fails"
   ],
   "note": "\"average\" is dead code (equals previous_fit for all inputs); the other two options are proved."
  },
  {
   "property": "C30",
   "status": "proved",
   "theorems": [
    "Ondil.C30_path",
    "Ondil.C30_grid",
    "Ondil.C30_fit",
    "Ondil.C30_update",
    "Ondil.C30_ols"
   ],
   "note": ""
  },
  {
   "property": "C31",
   "status": "proved",
   "theorems": [
    "Ondil.C31_argmin",
    "Ondil.C31_select_succeeds",
    "Ondil.C31_selected_is_best",
    "Ondil.C31_selected_textbook",
    "Ondil.C31_coef_is_best_row",
    "Ondil.C31_coef_textbook"
   ],
   "note": ""
  },
  {
   "property": "C32",
   "status": "proved",
   "theorems": [
    "Ondil.C32_aic",
    "Ondil.C32_aicc",
    "Ondil.C32_bic",
    "Ondil.C32_hqc",
    "Ondil.C32_hqc_undefined",
    "Ondil.C32_rss_profile",
    "Ondil.C32_unknown_name",
    "Ondil.C32_names",
    "Ondil.C32_aicc_array_fails"
   ],
   "note": "All scalar formulas and error conditions, with the values of numpy for logarithms of non-positive numbers (C32_hqc_undefined). C32_aicc_array_fails records that AICc raises for every array of two or more models."
  },
  {
   "property": "C33",
   "status": "proved",
   "theorems": [
    "Ondil.C33_stronger_penalty",
    "Ondil.C33_bic_aic",
    "Ondil.C33_hqc_aic",
    "Ondil.C33_smaller_rss",
    "Ondil.C33_smaller_rss_aicc"
   ],
   "note": ""
  },
  {
   "property": "C34",
   "status": "partial",
   "theorems": [
    "Ondil.C34_max_likelihood_partial",
    "Ondil.C34_nested_partial",
    "Ondil.C34_max_fails"
   ],
   "note": "False: \"max\" selects the largest likelihood, which for nested penalised fits is proved to be the largest model only under the stated conditions."
  },
  {
   "property": "C35",
   "status": "proved",
   "theorems": [
    "Ondil.C35_gamlss_counters",
    "Ondil.C35_counters",
    "Ondil.C35_unit_weights"
   ],
   "note": "OnlineLinearModel and OnlineDistributionalRegression."
  },
  {
   "property": "C36",
   "status": "partial",
   "theorems": [
    "Ondil.C36_no_forget_partial",
    "Ondil.C36_fit_partial",
    "Ondil.C36_chunking_fails",
    "Ondil.C36_weights_ignored_fails",
    "Ondil.C36_squared_weights_fails"
   ],
   "note": "False with forgetting (exact characterisation), with weights in fit (squared) and in update (ignored). Proved: no forgetting, unit weights."
  },
  {
   "property": "C37",
   "status": "partial",
   "theorems": [
    "Ondil.C37_named",
    "Ondil.C37_named_rows",
    "Ondil.C37_single_row",
    "Ondil.C37_object",
    "Ondil.C37_object_fails",
    "Ondil.C37_weights_fails"
   ],
   "note": "By name: proved for the sum of weights. As an object: proved for fewer rows than columns; equality is accepted (witness). Weights can inflate the count (witness)."
  },
  {
   "property": "C38",
   "status": "partial",
   "theorems": [
    "Ondil.C38_gamlss_partial_fit",
    "Ondil.C38_gamlss_is_fitted_fails",
    "Ondil.C38_partial_fit",
    "Ondil.C38_is_fitted_partial",
    "Ondil.C38_is_fitted_fails"
   ],
   "note": "Dispatch proved for OnlineLinearModel when the first call is accepted; is_fitted is true after some rejected fits (witness for all such data)."
  },
  {
   "property": "C39",
   "status": "proved",
   "theorems": [
    "Ondil.C39_score_le_one"
   ],
   "note": ""
  },
  {
   "property": "C40",
   "status": "proved",
   "theorems": [
    "Ondil.C40_errors",
    "Ondil.C40_value_error",
    "Ondil.C40_names",
    "Ondil.C40_copy",
    "Ondil.C40_isolated",
    "Ondil.C40_parameters_isolated",
    "Ondil.C40_settings_kept"
   ],
   "note": ""
  },
  {
   "property": "C41",
   "status": "partial",
   "theorems": [
    "Ondil.C41_inverse_link_partial",
    "Ondil.C41_link_inverse_partial",
    "Ondil.C41_shifted_round_trip_fails",
    "Ondil.C41_shifted_reverse_fails"
   ],
   "note": "False for shifted links near the shift."
  },
  {
   "property": "C42",
   "status": "partial",
   "theorems": [
    "Ondil.C42_inverse_in_range_partial",
    "Ondil.C42_sqrt_partial",
    "Ondil.C42_sqrt_fails",
    "Ondil.C42_log_underflow_fails"
   ],
   "note": "Missing: square root links; log link under underflow."
  },
  {
   "property": "C43",
   "status": "partial",
   "theorems": [
    "Ondil.C43_link_strict",
    "Ondil.C43_inverse_strict",
    "Ondil.C43_link_monotone",
    "Ondil.C43_inverse_monotone_partial",
    "Ondil.C43_softplus_inverse_fails",
    "Ondil.C43_softplus_inverse_partial",
    "Ondil.C43_sqrt_inverse_fails"
   ],
   "note": "Missing: softplus and square root inverses are not strictly increasing everywhere."
  },
  {
   "property": "C44",
   "status": "partial",
   "theorems": [
    "Ondil.C44_link_derivative_partial",
    "Ondil.C44_inverse_derivative",
    "Ondil.C44_second_derivative_partial",
    "Ondil.C44_softplus_link_derivative_fails",
    "Ondil.C44_logIdent_fails",
    "Ondil.C44_softplus_second_derivative_fails",
    "Ondil.C44_softplus_inverse_derivative_fails"
   ],
   "note": "Missing: several derivatives are wrong, see findings."
  },
  {
   "property": "C45",
   "status": "proved",
   "theorems": [
    "Ondil.C45_robust_log_finite",
    "Ondil.C45_robust_log_lower",
    "Ondil.C45_robust_log_agrees",
    "Ondil.C45_robust_exp_finite",
    "Ondil.C45_robust_exp_agrees",
    "Ondil.C45_real_and_extended_agree",
    "Ondil.C45_robust_sigmoid_range",
    "Ondil.C45_robust_sigmoid_agrees",
    "Ondil.C45_robust_sigmoid_extended",
    "Ondil.C45_robust_softplus_extended",
    "Ondil.C45_robust_softplus_inverse_extended"
   ],
   "note": ""
  },
  {
   "property": "C46",
   "status": "proved",
   "theorems": [
    "Ondil.Dist.C46_score_is_derivative",
    "Ondil.Dist.C46_declared_supports"
   ],
   "note": "All classes and all parameters. C46_declared_supports: the declared parameter_support of every class is the admissible set up to the endpoints."
  },
  {
   "property": "C47",
   "status": "partial",
   "theorems": [
    "Ondil.Dist.C47_negative_partial",
    "Ondil.Dist.C47_nonpositive",
    "Ondil.Dist.C47_inflated_points_fails",
    "Ondil.Dist.C47_jsu_fails"
   ],
   "note": "Missing: zero at inflated points; Johnson SU."
  },
  {
   "property": "C48",
   "status": "partial",
   "theorems": [
    "Ondil.Dist.C48_scores",
    "Ondil.Dist.C48_expected_information_partial",
    "Ondil.Dist.C48_information_partial",
    "Ondil.Dist.C48_expected_cross_partial",
    "Ondil.Dist.C48_cross_partial",
    "Ondil.Dist.C48_gumbel_digits",
    "Ondil.Dist.C48_gumbel_cross_digits",
    "Ondil.Dist.C48_reverseGumbel_cross_fails",
    "Ondil.Dist.C48_student_clipped_fails"
   ],
   "note": "Proved for all classes including mixed derivatives, except for the decimal constants of the Gumbel classes (error bounded by half a unit of the last digit), the mixed derivative of ReverseGumbel (wrong sign) and Student t where the information of the degrees of freedom is below 1e-15 (there dl2_dp2 returns -1e-15)."
  },
  {
   "property": "C49",
   "status": "partial",
   "theorems": [
    "Ondil.Dist.C49_log_of_density_partial",
    "Ondil.Dist.C49_outside_partial",
    "Ondil.Dist.C49_beta_inflated_outside_fails",
    "Ondil.Dist.C49_beta_inflated_zero_outside_fails",
    "Ondil.Dist.C49_zaga_negative_fails",
    "Ondil.Dist.C49_log_normal_negative_fails"
   ],
   "note": "False outside the support of four classes."
  },
  {
   "property": "C50",
   "status": "partial",
   "theorems": [
    "Ondil.Dist.C50_total_mass",
    "Ondil.Dist.C50_cdf_partial",
    "Ondil.Dist.C50_distribution_function",
    "Ondil.Dist.C50_distribution_function_zaga_partial",
    "Ondil.Dist.C50_zaga_negative_fails",
    "Ondil.Dist.C50_jump_partial",
    "Ondil.Dist.C50_cdf"
   ],
   "note": "cdf and density agree for every class and every response; BetaInflated and BetaInflatedZero for all arguments; ZeroAdjustedGamma is wrong for negative arguments (witness for all parameters)."
  },
  {
   "property": "C51",
   "status": "partial",
   "theorems": [
    "Ondil.Dist.C51_generalised_inverse",
    "Ondil.Dist.C51_quantile_in_support",
    "Ondil.Dist.C51_invalid_probability_partial",
    "Ondil.Dist.C51_zaga_negative_probability_fails",
    "Ondil.Dist.C51_generalised_inverse_all",
    "Ondil.Dist.C51_quantile_of_cdf"
   ],
   "note": "Proved for every class and probabilities in (0, 1); ZeroAdjustedGamma accepts negative probabilities."
  },
  {
   "property": "C52",
   "status": "proved",
   "theorems": [
    "Ondil.Dist.C52_scipy_arguments",
    "Ondil.Dist.C52_moments",
    "Ondil.Dist.C52_log_moments",
    "Ondil.Dist.C52_median",
    "Ondil.Dist.C52_inverseGamma_mean_fails",
    "Ondil.Dist.C52_inverseGamma_mode"
   ],
   "note": "All classes. mu of InverseGamma is the mode and not the mean (C52_inverseGamma_mean_fails); it is documented as a mean-related parameter."
  },
  {
   "property": "C53",
   "status": "partial",
   "theorems": [
    "Ondil.Dist.C53_admissible_partial",
    "Ondil.Dist.C53_rows",
    "Ondil.Dist.C53_constant_sample_fails",
    "Ondil.Dist.C53_zero_response_fails"
   ],
   "note": "Closed-form classes and samples with two different values. False for constant samples (scale 0) and zeros in LogNormal samples. Student t and Johnson SU use an optimiser of scipy, which is not modelled."
  },
  {
   "property": "C54",
   "status": "partial",
   "theorems": [
    "Ondil.Dist.C54_index_rejected",
    "Ondil.Dist.C54_equal_indices_rejected",
    "Ondil.Dist.C54_pair_rejected_partial",
    "Ondil.Dist.C54_inverse_gaussian_fails",
    "Ondil.Dist.C54_negative_index_fails",
    "Ondil.Dist.C54_symmetric"
   ],
   "note": "Missing: InverseGaussian and negative indices."
  },
  {
   "property": "C55",
   "status": "proved",
   "theorems": [
    "Ondil.C55_update_rejects",
    "Ondil.C55_fit_rejects",
    "Ondil.C55_only_out_of_support"
   ],
   "note": "For every distribution, data set and state; the only way fit and update reject a batch for its values before counting it."
  },
  {
   "property": "C56",
   "status": "partial",
   "theorems": [
    "Ondil.C56_statistics_partial",
    "Ondil.C56_checks_partial",
    "Ondil.C56_cautious_fails"
   ],
   "note": "The sufficient statistics survive a batch that is rejected for its values; false in general: the observation counter and (with cautious updates) the scaler are changed before the rejection."
  },
  {
   "property": "C57",
   "status": "partial",
   "theorems": [
    "Ondil.C57_statistics_once",
    "Ondil.C57_weight_sum",
    "Ondil.C57_skipped_fails"
   ],
   "note": "Proved for every update that makes at least one outer iteration. With min_it_outer = 0 an update can make none and the batch is then counted but lost (C57_skipped_fails)."
  },
  {
   "property": "C58",
   "status": "proved",
   "theorems": [
    "Ondil.C58_loops_leave",
    "Ondil.C58_fit_outer",
    "Ondil.C58_update_outer",
    "Ondil.C58_min_above_max",
    "Ondil.C58_fit_iterations",
    "Ondil.C58_update_iterations"
   ],
   "note": ""
  },
  {
   "property": "C59",
   "status": "partial",
   "theorems": [
    "Ondil.C59_nan_fails",
    "Ondil.C59_inner",
    "Ondil.C59_fit_partial"
   ],
   "note": "Per inner loop without hypotheses; along the states of a fit when none of them has deviance NaN. A NaN deviance is accepted (C59_nan_fails)."
  },
  {
   "property": "C60",
   "status": "partial",
   "theorems": [
    "Ondil.C60_dict_rejected_fails",
    "Ondil.C60_dict_lookup",
    "Ondil.C60_value_lookup",
    "Ondil.C60_order_irrelevant",
    "Ondil.C60_step_size_fails",
    "Ondil.C60_step_size_missing_fails",
    "Ondil.C60_step_size_partial",
    "Ondil.C60_step_size_value"
   ],
   "note": "Look-up proved for all dictionaries; the step size follows the insertion order instead of the key (witnesses for all values)."
  },
  {
   "property": "C61",
   "status": "partial",
   "theorems": [
    "Ondil.C61_option_dict_fails",
    "Ondil.C61_equation_fails",
    "Ondil.C61_complete_partial",
    "Ondil.C61_equation_partial"
   ],
   "note": "False: dictionaries that leave out a parameter are completed in place."
  },
  {
   "property": "C62",
   "status": "partial",
   "theorems": [
    "Ondil.C62_columns",
    "Ondil.C62_width",
    "Ondil.C62_first_column",
    "Ondil.C62_built",
    "Ondil.C62_bool_list_fails",
    "Ondil.C62_names_fails"
   ],
   "note": "Proved for the documented equations (all, intercept, boolean arrays, index arrays). Lists of booleans and of names are accepted but have another width or raise."
  },
  {
   "property": "C63",
   "status": "partial",
   "theorems": [
    "Ondil.C63_update_ignores_step_size_fails",
    "Ondil.C63_updates_ignore_step_size_fails",
    "Ondil.C63_cautious_step_size_fails"
   ],
   "note": "False: an update has the same result for every step size, with and without cautious updates. The fit uses the step size."
  },
  {
   "property": "C64",
   "status": "proved",
   "theorems": [
    "Ondil.C64_response_is_inverse_link",
    "Ondil.C64_contributions_sum",
    "Ondil.C64_predictions_admissible",
    "Ondil.C64_quantiles",
    "Ondil.C64_mean"
   ],
   "note": "For every distribution of the package and every method, in states reached by the model."
  },
  {
   "property": "C65",
   "status": "partial",
   "theorems": [
    "Ondil.C65_available_partial",
    "Ondil.C65_median_fails",
    "Ondil.C65_mean_fails"
   ],
   "note": "predict_quantile, predict_distribution_parameters and predict are available for scipy-backed classes; predict_median is missing for every class, predict for the inflated classes (witnesses)."
  },
  {
   "property": "C66",
   "status": "partial",
   "theorems": [
    "Ondil.Dist.C66_defaults_silent",
    "Ondil.Dist.C66_defaults_admissible",
    "Ondil.Dist.C66_warning_iff_partial",
    "Ondil.Dist.C66_sqrt_link_fails"
   ],
   "note": "Missing: square root links."
  },
  {
   "property": "C67",
   "status": "proved",
   "theorems": [
    "Ondil.C67_linear_model",
    "Ondil.C67_update_eq_batch_fit"
   ],
   "note": ""
  },
  {
   "property": "C68",
   "status": "partial",
   "theorems": [
    "Ondil.C68_frozen_fails"
   ],
   "note": "False: rows at the early-stopping limit are copied by every later update."
  },
  {
   "property": "C69",
   "status": "proved",
   "theorems": [
    "Ondil.C69_predict_is_path_column"
   ],
   "note": ""
  },
  {
   "property": "C70",
   "status": "partial",
   "theorems": [
    "Ondil.Dist.C70_finite_logpdf_partial",
    "Ondil.Dist.C70_zero_response_fails"
   ],
   "note": "Missing: zero responses."
  },
  {
   "property": "C71",
   "status": "partial",
   "theorems": [
    "Ondil.Dist.C71_documented_density_partial",
    "Ondil.Dist.C71_gumbel_exchanged_fails",
    "Ondil.Dist.C71_inverse_gaussian_fails"
   ],
   "note": "Missing: three classes differ."
  },
  {
   "property": "C72",
   "status": "proved",
   "theorems": [
    "Ondil.C72_converged_minimises",
    "Ondil.C72_path_fit",
    "Ondil.C72_residuals_sum_to_zero"
   ],
   "note": ""
  },
  {
   "property": "C73",
   "status": "proved",
   "theorems": [
    "Ondil.C73_ridge_fit",
    "Ondil.C73_ridge_update"
   ],
   "note": ""
  },
  {
   "property": "C74",
   "status": "proved",
   "theorems": [
    "Ondil.Dist.C74_logcdf"
   ],
   "note": ""
  },
  {
   "property": "C75",
   "status": "partial",
   "theorems": [
    "Ondil.C75_get_params_fails",
    "Ondil.C75_every_call_fails",
    "Ondil.C75_never_fitted_fails",
    "Ondil.C75_linear_model_partial"
   ],
   "note": "False: the constructor of OnlineLasso does not store nine of its arguments, so get_params of scikit-learn, which runs before fit and update, raises AttributeError. Assumes the default configuration of scikit-learn."
  },
  {
   "property": "C76",
   "status": "partial",
   "theorems": [
    "Ondil.C76_package_ridge",
    "Ondil.C76_package_ols",
    "Ondil.C76_ridge",
    "Ondil.C76_ols",
    "Ondil.C76_no_exception",
    "Ondil.C76_package_distributions",
    "Ondil.C76_min_above_max_fails"
   ],
   "note": "Proved for method objects that raise nothing on the arrays they are given, in particular for OrdinaryLeastSquares (C76_ols) and Ridge with a given penalty (C76_ridge). C76_package_ridge, C76_package_ols: the same for the distributions of the package, where a condition on the sign of the second derivatives remains only outside the parameter support. False with min_it_outer > max_it_outer. Path methods can raise: the grid of penalties is undefined when the largest penalty is zero."
  },
  {
   "property": "C77",
   "status": "partial",
   "theorems": [
    "Ondil.C77_fit_partial",
    "Ondil.C77_halved_step_fails",
    "Ondil.C77_update",
    "Ondil.C77_step_size_fails"
   ],
   "note": "C77_update: every update that makes an outer iteration. C77_fit_partial: fits with step size one in which no pass but the last one of a treatment raised the deviance. False for a fit with a step size other than one (C77_step_size_fails), and for a fit with step size one that halves it after a pass that raised the deviance (C77_halved_step_fails): the coefficients take the full step, the fitted values the shortened one."
  },
  {
   "property": "C78",
   "status": "partial",
   "theorems": [
    "Ondil.C78_rejected_refit_fails"
   ],
   "note": "False: the rejected call has already replaced the scaler."
  },
  {
   "property": "C79",
   "status": "partial",
   "theorems": [
    "Ondil.C79_cautious_batch_fails"
   ],
   "note": "False: every cautious update with more than one observation raises, after the observations have been counted."
  },
  {
   "property": "C80",
   "status": "partial",
   "theorems": [
    "Ondil.Dist.C80_objective_partial",
    "Ondil.Dist.C80_start_no_worse_partial",
    "Ondil.Dist.C80_gamma_beta_fails",
    "Ondil.Dist.C80_inflated_fails",
    "Ondil.Dist.C80_normal_variance_fails",
    "Ondil.Dist.C80_inverse_gamma_fails",
    "Ondil.Dist.C80_inverse_gaussian_fails"
   ],
   "note": "Proved for the classes whose scipy parametrisation is one-to-one parameter by parameter. False for Gamma and Beta (KeyError), for the inflated classes (TypeError), and for NormalMeanVariance, InverseGamma and InverseGaussian (wrong objective)."
  },
  {
   "property": "C81",
   "status": "partial",
   "theorems": [
    "Ondil.C81_debug_only",
    "Ondil.C81_default_call_fails",
    "Ondil.C81_last_iteration_fails",
    "Ondil.C81_first_iteration_fails",
    "Ondil.C81_records_partial"
   ],
   "note": "False: the entry of the following inner iteration is returned. The entry of the last inner iteration raises KeyError and the first entry is never returned. What is returned belongs together: all four working quantities come from one pass for the parameter asked for (C81_records_partial)."
  },
  {
   "property": "C82",
   "status": "proved",
   "theorems": [
    "Ondil.C82_debug_mode"
   ],
   "note": "For every distribution, method and history."
  },
  {
   "property": "C83",
   "status": "partial",
   "theorems": [
    "Ondil.C83_update",
    "Ondil.C83_fit_partial",
    "Ondil.C83_rejected_fails"
   ],
   "note": "Proved for updates. After a fit the stored deviance is the one of the stored fitted values or larger; when the last step was rejected it is the one of the rejected values (C83_rejected_fails)."
  },
  {
   "property": "C84",
   "status": "partial",
   "theorems": [
    "Ondil.Dist.C84_start_law",
    "Ondil.Dist.C84_mean_partial",
    "Ondil.Dist.C84_variance_partial",
    "Ondil.Dist.C84_mean_fails",
    "Ondil.Dist.C84_variance_fails"
   ],
   "note": "The mean for seven classes, mean and variance for Normal and NormalMeanVariance. False for Gumbel, ReverseGumbel and ZeroAdjustedGamma (mean), Logistic and InverseGaussian (variance); the resulting moments are given in closed form."
  },
  {
   "property": "C85",
   "status": "partial",
   "theorems": [
    "Ondil.Dist.C85_one_draw_per_row_partial",
    "Ondil.Dist.C85_single_row_partial",
    "Ondil.Dist.C85_scipy",
    "Ondil.Dist.C85_sample",
    "Ondil.Dist.C85_shape_fails",
    "Ondil.Dist.C85_square_fails",
    "Ondil.Dist.C85_dependent_fails"
   ],
   "note": "Proved for the classes with ScipyMixin (assuming that the draws of scipy have the law of the frozen distribution). The inflated classes return one array instead of one row per parameter row: one draw per row if size is the number of rows, size draws for one row, dependent draws for size 1, ValueError otherwise. C85_sample is the extra method InverseGamma.sample."
  },
  {
   "property": "C86",
   "status": "partial",
   "theorems": [
    "Ondil.C86_least_squares_partial",
    "Ondil.C86_undiscounted_partial",
    "Ondil.C86_linear_model_partial",
    "Ondil.C86_units_matter_fails"
   ],
   "note": "Proved when the standard deviation of the response is between 1e-5 and 1e5 and, for forget > 0, when the discounted least squares solution is not worse than the mean in the undiscounted sum of squares (automatic for forget 0). Outside of this range the working weights are clipped and the coefficients depend on the unit of the response (C86_units_matter_fails). step_size 1, default parameter order, no conditional starting values."
  },
  {
   "property": "C87",
   "status": "partial",
   "theorems": [
    "Ondil.Dist.C87_fit",
    "Ondil.Dist.C87_update_partial"
   ],
   "note": "fit: every class, parameter and link, at fitted values where neither the distribution nor the link clips; the weight is the clipped Fisher information for the classes with expected second derivatives. The shifted links do not invert their shift of 1e-10 (C41), so for them the linear predictor is that of the shifted parameter. update: only rows whose second derivative is not zero; at the inflated points of the inflated classes the weight is zero."
  },
  {
   "property": "C88",
   "status": "partial",
   "theorems": [
    "Ondil.C88_update_nan_fails",
    "Ondil.C88_stays_nan_fails",
    "Ondil.C88_update_finite_partial",
    "Ondil.C88_fit_finite_partial",
    "Ondil.C88_fit_then_update_fails"
   ],
   "note": "False: the weights of update are clipped to [-1e10, 1e10] instead of [1e-10, 1e10], so at an inflated point location and scale have score 0 and weight 0 and the working response is 0/0. Proved for every inflated class, all links, options and data: fit and update succeed and the coefficients of location and scale are NaN (C88_fit_then_update_fails), and no later update repairs them (C88_stays_nan_fails). What holds: an inner iteration without inflated responses keeps everything finite while the inverse Gramian is."
  },
  {
   "property": "C89",
   "status": "partial",
   "theorems": [
    "Ondil.C89_fit_partial",
    "Ondil.C89_update",
    "Ondil.C89_weights_fails"
   ],
   "note": "C89_update needs an outer iteration. False for the sample weights under global_ll: the fit sums the log-likelihood without them (C89_weights_fails), the update with them. What the statistics are after an update is the subject of C90."
  },
  {
   "property": "C90",
   "status": "partial",
   "theorems": [
    "Ondil.C90_fit_partial",
    "Ondil.C90_update_partial",
    "Ondil.C90_loglikelihood",
    "Ondil.C90_forget_fails",
    "Ondil.C90_weights_fails"
   ],
   "note": "local_rss: with unit sample weights and without forgetting. False with forgetting (C90_forget_fails) and with sample weights (C90_weights_fails). global_ll: for all forget factors and weights, for the update."
  },
  {
   "property": "C91",
   "status": "partial",
   "theorems": [
    "Ondil.C91_distributional",
    "Ondil.C91_linear_partial",
    "Ondil.C91_predict_path_fails"
   ],
   "note": "False for predict_path after a refit by a method without a path: the path of the earlier fit is used (C91_predict_path_fails). C91_linear_partial has everything else. The number of columns is the same before and after; the debug dictionaries are not compared."
  },
  {
   "property": "C92",
   "status": "proved",
   "theorems": [
    "Ondil.C92_distributional",
    "Ondil.C92_linear"
   ],
   "note": ""
  },
  {
   "property": "C93",
   "status": "partial",
   "theorems": [
    "Ondil.C93_response_units_partial",
    "Ondil.C93_fit_partial",
    "Ondil.C93_elasticnet_fails",
    "Ondil.C93_selection_fails"
   ],
   "note": "Proved for ordinary least squares, for lasso paths without bounds, and for ridge without bounds and start value: exceptions are the same and the path is multiplied by k, for all data and updates; for methods with a path the selected coefficients, predictions and score follow when the same coefficients exceed 1e-8 in both units and no row fits perfectly (C93_response_units_partial). The property is false for the elastic net, whose quadratic penalty grows with the unit of the response (C93_elasticnet_fails), and for the selection on a lasso path in small units, because np.isclose counts coefficients with an absolute tolerance (C93_selection_fails)."
  },
  {
   "property": "C94",
   "status": "proved",
   "theorems": [
    "Ondil.C94_scoring_step",
    "Ondil.C94_estimate_at_rest"
   ],
   "note": "Both parts are proved for rows at which nothing is clipped (fitted values in the parameter support of the distribution and in the range of the link), a positive definite design, forget < 1 and cond_start_val off; the second part also for links without shift. C94_scoring_step covers every inner iteration, including those of later outer iterations; C94_estimate_at_rest covers the two nested loops with their acceptance tests."
  },
  {
   "property": "C95",
   "status": "partial",
   "theorems": [
    "Ondil.C95_linear",
    "Ondil.C95_distributional_partial",
    "Ondil.C95_forget_fails",
    "Ondil.C95_conditional_start_fails"
   ],
   "note": "Proved for the linear model with all methods and criteria. For the distributional regression proved with cond_start_val off, positive total weight in fit, scipy fits that do not depend on the order of the sample, and derivatives outside the parameter support that are not positive (needed for the inverse Gramian only). C95_conditional_start_fails: with cond_start_val the optimiser starts from the parameters of the first row. C95_forget_fails shows that the hypothesis on forgetting is needed."
  },
  {
   "property": "C96",
   "status": "partial",
   "theorems": [
    "Ondil.C96_fit",
    "Ondil.C96_update",
    "Ondil.C96_no_iteration",
    "Ondil.C96_best_fails"
   ],
   "note": "C96_fit and C96_update give the whole run of every successful call as a list of passes; each pass solves its regression with the method configured for the parameter, after the calls this method had before. C96_best_fails: the last proposal is kept, not the best. C96_no_iteration: with min_it_outer = 0 a large initial deviance ends the fit before the first iteration, with zero coefficients. For path based methods the coefficients of a pass are a row of the path of that regression, computed from scratch in the very first pass of a fit only; which row is C89."
  },
  {
   "property": "C97",
   "status": "proved",
   "theorems": [
    "Ondil.C97_value",
    "Ondil.C97_path_value",
    "Ondil.C97_distance",
    "Ondil.C97_converges",
    "Ondil.C97_stops",
    "Ondil.C97_zero_limit"
   ],
   "note": "C97_value, C97_path_value, C97_distance: error bounds of a run that passed the test. C97_converges, C97_stops: limit of the sweeps and termination by the test. C97_zero_limit: with coefficients that tend to zero no sweep passes the relative test, so the exception is necessary. That zeros are never left again is C25."
  },
  {
   "property": "C98",
   "status": "partial",
   "theorems": [
    "Ondil.C98_frequencies",
    "Ondil.C98_path_partial",
    "Ondil.C98_selection_fails"
   ],
   "note": "Least squares and ridge: the whole run (C98_frequencies). Lasso and elastic net: path and statistics (C98_path_partial); the selected row is not invariant, because the residuals are multiplied with the weight before squaring (C98_selection_fails). Hypotheses: at least two rows in fit, no empty batch, which the code requires anyway."
  },
  {
   "property": "C99",
   "status": "proved",
   "theorems": [
    "Ondil.C99_unused_columns"
   ],
   "note": ""
  },
  {
   "property": "C100",
   "status": "proved",
   "theorems": [
    "Ondil.C100_fading_memory",
    "Ondil.C100_recent_data",
    "Ondil.C100_convergence",
    "Ondil.C100_forgotten",
    "Ondil.C100_scaler",
    "Ondil.C100_bounded"
   ],
   "note": ""
  },
  {
   "property": "C101",
   "status": "proved",
   "theorems": [
    "Ondil.C101_quantiles"
   ],
   "note": ""
  },
  {
   "property": "C102",
   "status": "partial",
   "theorems": [
    "Ondil.C102_fit_ols",
    "Ondil.C102_update_ols",
    "Ondil.C102_fit_ridge",
    "Ondil.C102_update_ridge",
    "Ondil.C102_fit_path_partial",
    "Ondil.C102_update_path",
    "Ondil.C102_flags"
   ],
   "note": "For working rows that are finite and have nonnegative weights. Path methods in fit: rows computed one from the other, start_value_update = previous_lambda; for update both kinds of start values. The value of a ridge penalty that was not given (it comes from the first weighted regression, at the start values) is not identified. numpy on arrays with NaN is assumed to leave the method objects as they are (KeepsObjects)."
  },
  {
   "property": "C103",
   "status": "partial",
   "theorems": [
    "Ondil.C103_rejected_partial",
    "Ondil.C103_used",
    "Ondil.C103_negative_index_fails"
   ],
   "note": "An index array with an entry below -p raises IndexError when the design is built, after estimator attributes were changed. With pandas or polars installed lists pass the checks, too: a list of names raises IndexError (C62), a list of booleans is used as a mask but counted by its length (C62)."
  },
  {
   "property": "C104",
   "status": "proved",
   "theorems": [
    "Ondil.C104_unbiased",
    "Ondil.C104_gauss_markov",
    "Ondil.C104_mean_squared_error",
    "Ondil.C104_consistent"
   ],
   "note": "Randomness enters through the responses only; features and weights are fixed. Real arithmetic. Scaling of the inputs is switched off, because the online scaler gives old and new observations different units."
  },
  {
   "property": "C105",
   "status": "partial",
   "theorems": [
    "Ondil.C105_directions_partial",
    "Ondil.C105_bounds_partial",
    "Ondil.C105_named_methods_partial",
    "Ondil.C105_all_penalised_fails"
   ],
   "note": "False when every coefficient is penalised (no intercept, or a penalised one): the largest penalty is then the maximum of the response Gramian without absolute values; if all entries are negative the penalties are negative and the lasso expands the coefficients (C105_all_penalised_fails). Bounds and start values have to be reversed, too (C105_bounds_partial); bounds of a wrong length raise in both runs and are left out."
  },
  {
   "property": "C106",
   "status": "proved",
   "theorems": [
    "Ondil.C106_accepted",
    "Ondil.C106_coordinates"
   ],
   "note": "Real arithmetic. Without an intercept the offset v must be zero."
  },
  {
   "property": "C107",
   "status": "partial",
   "theorems": [
    "Ondil.C107_rest_is_maximum_partial",
    "Ondil.C107_unique_partial",
    "Ondil.C107_student_fails",
    "Ondil.C107_inverseGaussian_fails",
    "Ondil.C107_johnson_location_fails",
    "Ondil.C107_johnson_tail_fails",
    "Ondil.C107_johnson_scale_fails",
    "Ondil.C107_beta_mean_fails",
    "Ondil.C107_beta_scale_fails",
    "Ondil.C107_student_freedom_fails"
   ],
   "note": "Proved for 28 pairs of parameter and default link with a concave log likelihood. False for the location of Student t: the iteration rests at location 0 for the responses 10 and -10, though 10 is more likely (C107_student_fails). False for the mean of InverseGaussian and for location, scale and tail of Johnson SU, each with two observations (C107_inverseGaussian_fails, C107_johnson_location_fails, C107_johnson_scale_fails, C107_johnson_tail_fails). Also false for the degrees of freedom of Student t (C107_student_freedom_fails) and for mean and scale of the three beta classes (C107_beta_mean_fails, C107_beta_scale_fails). With these twelve all 40 pairs are decided."
  },
  {
   "property": "C108",
   "status": "proved",
   "theorems": [
    "Ondil.C108_gram",
    "Ondil.C108_y_gram",
    "Ondil.C108_bounded",
    "Ondil.C108_y_bounded",
    "Ondil.C108_uniform",
    "Ondil.C108_coefficients",
    "Ondil.C108_inverse",
    "Ondil.C108_inverse_float",
    "Ondil.C108_least_squares",
    "Ondil.C108_product",
    "Ondil.C108_no_forgetting",
    "Ondil.C108_exact",
    "Ondil.C108_exact_inverse"
   ],
   "note": "Gramians, y-Gramians and the recursion of the inverse Gramian with rounding in every operation. The initial inverse of LAPACK enters with an arbitrary error. Rounding inside coordinate descent is not modelled: C108_coefficients compares exact minimisers for the exact and the computed Gramians. C108_no_forgetting proves the last sentence with float64."
  },
  {
   "property": "C109",
   "status": "proved",
   "theorems": [
    "Ondil.C109_change",
    "Ondil.C109_adaptation",
    "Ondil.C109_variance",
    "Ondil.C109_variance_floor",
    "Ondil.C109_not_consistent",
    "Ondil.C109_mean"
   ],
   "note": "For method \"ols\" without scaling. C109_change and C109_adaptation: the bias after a change; C109_variance, C109_variance_floor, C109_not_consistent: the variance; C109_mean: the exact value for a constant feature."
  },
  {
   "property": "C110",
   "status": "partial",
   "theorems": [
    "Ondil.C110_batch",
    "Ondil.C110_unchanged",
    "Ondil.C110_single",
    "Ondil.C110_scaling_fails",
    "Ondil.C110_ridge_fails",
    "Ondil.C110_ridge_partial"
   ],
   "note": "Proved for method \"ols\" without scaling: C110_batch, C110_unchanged, C110_single. False with scaling (C110_scaling_fails) and for Ridge with forgetting (C110_ridge_fails): a batch that was predicted exactly is predicted with an error after it was learned. C110_ridge_partial: Ridge without forgetting, scaling and bounds, from converged coefficients. Missing: path methods, bounds."
  },
  {
   "property": "C111",
   "status": "partial",
   "theorems": [
    "Ondil.C111_ridge",
    "Ondil.C111_ridge_penalised",
    "Ondil.C111_path",
    "Ondil.C111_default_penalty_fails"
   ],
   "note": "C111_ridge, C111_ridge_penalised: Ridge with a given lambda_reg. C111_path: rows of LassoPath and ElasticNetPath. False for Ridge with the default penalty: C111_default_penalty_fails. Equality instead of closeness with warm starts on the previous lambda is C67."
  },
  {
   "property": "C112",
   "status": "partial",
   "theorems": [
    "Ondil.C112_weight_units_partial",
    "Ondil.C112_max_fit",
    "Ondil.C112_normalised_fails",
    "Ondil.C112_selection_fails",
    "Ondil.C112_ridge_fails"
   ],
   "note": "C112_weight_units_partial: least squares, ridge with the default penalty and the whole paths of LassoPath and ElasticNetPath, for every history. C112_max_fit: selection by max after a fit. False for the selection by the other criteria (C112_selection_fails, default BIC), for Ridge with a given penalty (C112_ridge_fails) and for weights that sum to one, which are always rejected (C112_normalised_fails)."
  },
  {
   "property": "C113",
   "status": "partial",
   "theorems": [
    "Ondil.C113_least_squares",
    "Ondil.C113_fit",
    "Ondil.C113_ridge_partial",
    "Ondil.C113_path_partial",
    "Ondil.C113_scaling_fails",
    "Ondil.C113_zero_intercept_fails"
   ],
   "note": "C113_least_squares: exact, without scaling, after any updates; C113_fit: after a fit with any scaling. C113_ridge_partial and C113_path_partial: up to tolerance times largest coefficient times the weighted feature sums, if coordinate descent ended by its convergence test and the intercept is not zero. False with input scaling after an update (C113_scaling_fails) and when the intercept is exactly zero after the first sweep (C113_zero_intercept_fails)."
  },
  {
   "property": "C114",
   "status": "partial",
   "theorems": [
    "Ondil.C114_least_squares",
    "Ondil.C114_ridge_partial",
    "Ondil.C114_ridge_fails",
    "Ondil.C114_path_fails"
   ],
   "note": "C114_least_squares: exact, without scaling, after any updates. C114_ridge_partial: any bounds, up to twice the tolerance times the largest coefficients times the couplings of the features, if both descents ended by the convergence test and have the same zeros. False for ridge regression otherwise: an arbitrarily small change of two responses makes the fitted values jump (C114_ridge_fails). False for lasso paths without an unpenalised coefficient (C114_path_fails)."
  },
  {
   "property": "C115",
   "status": "partial",
   "theorems": [
    "Ondil.C115_least_squares",
    "Ondil.C115_ridge_partial",
    "Ondil.C115_path_partial",
    "Ondil.C115_ridge_fails"
   ],
   "note": "C115_least_squares: exact, any scaling, after any updates; the second run succeeds when the first does. C115_ridge_partial and C115_path_partial: any bounds on the other coefficients, up to the tolerance times the largest coefficients times the couplings of the features, if both descents ended by the convergence test and the zeros of the results agree; for paths for each row, with the same penalties. False for ridge regression otherwise: adding any positive constant to two responses changes the slope from 1/2 to at most 3/10 (C115_ridge_fails)."
  },
  {
   "property": "C116",
   "status": "partial",
   "theorems": [
    "Ondil.C116_weight_units_partial",
    "Ondil.C116_relative_tolerances",
    "Ondil.C116_tolerance_fails"
   ],
   "note": "C116_weight_units_partial: the claim with the absolute tolerances in the same unit as the weights, for all distribution objects, links and options with at least one outer iteration. C116_relative_tolerances: the claim as it stands when the absolute tolerances are zero. False with the default tolerances: with weights of 1/10000 a fit of the exponential distribution ends after two passes, with weights of one after three, with another coefficient (C116_tolerance_fails)."
  },
  {
   "property": "C117",
   "status": "proved",
   "theorems": [
    "Ondil.C117_same_span",
    "Ondil.C117_coordinates",
    "Ondil.C117_units"
   ],
   "note": "C117_same_span: the general statement, for every map of the features under which the regressors of each parameter are invertible combinations of the old ones, with the new coefficients. C117_coordinates: all invertible affine maps, equations all and intercept. C117_units: units and origins of single columns, all equations."
  },
  {
   "property": "C118",
   "status": "proved",
   "theorems": [
    "Ondil.C118_origin_of_response"
   ],
   "note": "C118_origin_of_response: fit and updates, with exceptions, iterations, deviance, coefficients, predicted parameters and predicted quantiles. The loop must estimate the location at least once before the stopping rule may end it (max_it of the prefit positive or min_it_outer at least 1, as by default)."
  },
  {
   "property": "C119",
   "status": "partial",
   "theorems": [
    "Ondil.C119_path_partial",
    "Ondil.C119_ridge_partial",
    "Ondil.C119_no_dominated_row",
    "Ondil.C119_start_value_fails"
   ],
   "note": "C119_path_partial and C119_ridge_partial: after a fit and any updates, up to what the tolerance leaves open (nothing for tolerance zero), for runs of coordinate descent that ended by their convergence test and have the same zeros or needed one sweep. C119_no_dominated_row: with warm starts along the path, for every tolerance, every limit and all zeros, no row is worse than the row before it in both respects. False for rows with other zeros: with start_value previous_fit the weaker of two penalties has the larger squared error though both runs ended because nothing changed any more (C119_start_value_fails)."
  },
  {
   "property": "C120",
   "status": "proved",
   "theorems": [
    "Ondil.C120_append",
    "Ondil.C120_single",
    "Ondil.C120_parameters",
    "Ondil.C120_mean",
    "Ondil.C120_quantiles",
    "Ondil.C120_contributions",
    "Ondil.C120_linear",
    "Ondil.C120_linear_path"
   ],
   "note": "For every state, reachable or not, and every distribution of the package; C120_append and C120_single say what it means for stacked matrices and single rows. validate_data is modelled for the number of rows only."
  },
  {
   "property": "C121",
   "status": "proved",
   "theorems": [
    "Ondil.C121_fits",
    "Ondil.C121_error",
    "Ondil.C121_score"
   ],
   "note": "For the method given by its name; C121_fits says that the smaller model can be fitted, C121_error compares the errors after fit and updates, C121_score the training scores of a fit."
  },
  {
   "property": "C122",
   "status": "proved",
   "theorems": [
    "Ondil.Dist.C122_law",
    "Ondil.Dist.C122_cdf",
    "Ondil.Dist.C122_ppf",
    "Ondil.Dist.C122_density",
    "Ondil.Dist.C122_zero"
   ],
   "note": "C122_law for the distribution itself, C122_cdf, C122_ppf, C122_density and C122_zero for the methods; over the reals, so overflow and rounding are not covered."
  },
  {
   "property": "C123",
   "status": "proved",
   "theorems": [
    "Ondil.Dist.C123_density",
    "Ondil.Dist.C123_probabilities",
    "Ondil.Dist.C123_mirror_density",
    "Ondil.Dist.C123_mirror_law",
    "Ondil.Dist.C123_mirror_cdf",
    "Ondil.Dist.C123_mirror_ppf",
    "Ondil.Dist.C123_log",
    "Ondil.Dist.C123_continuous_part"
   ],
   "note": "C123_density and C123_probabilities for the same distribution in two classes, C123_mirror_* for mirror images, C123_log for log-normal and normal (cdf and pdf), C123_continuous_part for the densities of the inflated classes; over the reals."
  },
  {
   "property": "C124",
   "status": "proved",
   "theorems": [
    "Ondil.Dist.C124_quantiles",
    "Ondil.Dist.C124_cdf",
    "Ondil.Dist.C124_intervals",
    "Ondil.Dist.C124_cdf_all",
    "Ondil.Dist.C124_quantiles_all"
   ],
   "note": "C124_quantiles_all and C124_cdf_all for the first parameter of every class, C124_quantiles for the strict order, C124_cdf for the same classes as C124_quantiles, C124_intervals for the second parameter; over the reals."
  },
  {
   "property": "C125",
   "status": "proved",
   "theorems": [
    "Ondil.Dist.C125_weights",
    "Ondil.Dist.C125_wrong_wins",
    "Ondil.Dist.C125_proper",
    "Ondil.Dist.C125_identified",
    "Ondil.Dist.C125_gains_and_losses",
    "Ondil.Dist.C125_separates",
    "Ondil.Dist.C125_strictly_proper"
   ],
   "note": "C125_gains_and_losses (no integrability needed), C125_proper (with integrability as hypothesis), C125_strictly_proper (five classes, without it), C125_wrong_wins and C125_separates for samples, C125_identified, C125_weights; over the reals."
  },
  {
   "property": "C126",
   "status": "proved",
   "theorems": [
    "Ondil.Dist.C126_pinball",
    "Ondil.Dist.C126_squared_error",
    "Ondil.Dist.C126_absolute_error",
    "Ondil.Dist.C126_intervals",
    "Ondil.Dist.C126_uniform",
    "Ondil.Dist.C126_brier",
    "Ondil.Dist.C126_crps",
    "Ondil.Dist.C126_coverage"
   ],
   "note": "C126_pinball, C126_absolute_error, C126_intervals, C126_coverage, C126_brier, C126_crps, C126_squared_error and C126_uniform; over the reals."
  },
  {
   "property": "C127",
   "status": "proved",
   "theorems": [
    "Ondil.C127_enclosed",
    "Ondil.C127_regret"
   ],
   "note": "C127_enclosed: any batches and forgetting; C127_regret: single observations without forgetting. Over the reals. With input scaling the order of the errors after and before learning is false already for one batch (C110_scaling_fails)."
  },
  {
   "property": "C128",
   "status": "proved",
   "theorems": [
    "Ondil.C128_leave_one_out",
    "Ondil.C128_leverages"
   ],
   "note": "C128_leave_one_out and C128_leverages; over the reals."
  },
  {
   "property": "C129",
   "status": "proved",
   "theorems": [
    "Ondil.C129_repeated",
    "Ondil.C129_gain"
   ],
   "note": "C129_gain: any forgetting; C129_repeated: without forgetting; over the reals."
  }
 ]
}