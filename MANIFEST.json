{
 "claims": [
  {
   "property": "C01",
   "status": "proved",
   "theorems": [
    "Verif.Props.C01_normalize_range_order",
    "Verif.Props.C01_normalize_constant",
    "Verif.Props.C01_normalize_fails_iff",
    "Verif.Props.C01_normalize_minimiser"
   ],
   "note": ""
  },
  {
   "property": "C02",
   "status": "proved",
   "theorems": [
    "Verif.Props.C02_normalize_affine_invariant",
    "Verif.Props.C02_normalize_idempotent"
   ],
   "note": ""
  },
  {
   "property": "C03",
   "status": "proved",
   "theorems": [
    "Verif.Props.C03_best_by_evaluation",
    "Verif.Props.C03_objective_raises",
    "Verif.Props.C03_fails_iff"
   ],
   "note": "The code raises TypeError when no candidate has a value below +inf; C03_fails_iff states it."
  },
  {
   "property": "C04",
   "status": "proved",
   "theorems": [
    "Verif.Props.C04_best_by_history",
    "Verif.Props.C04_succeeds_iff",
    "Verif.Props.C04_is_minimum"
   ],
   "note": ""
  },
  {
   "property": "C05",
   "status": "proved",
   "theorems": [
    "Verif.Props.C05_next_best",
    "Verif.Props.C05_exhausted",
    "Verif.Props.C05_result_origin",
    "Verif.Props.C05_fails_iff"
   ],
   "note": "With every candidate already evaluated the last evaluated point is returned again (C05_exhausted)."
  },
  {
   "property": "C06",
   "status": "proved",
   "theorems": [
    "Verif.Props.C06_keeps_data",
    "Verif.Props.C06_deterministic",
    "Verif.Props.C06_each_query"
   ],
   "note": ""
  },
  {
   "property": "C07",
   "status": "proved",
   "theorems": [
    "Verif.Props.C07_in_bounds",
    "Verif.Props.C07_steps",
    "Verif.Props.C07_object"
   ],
   "note": "For every surrogate whose step proposes only points of the search space (C07_in_bounds); the surrogates of the package do (C07_steps, C07_object)."
  },
  {
   "property": "C08",
   "status": "proved",
   "theorems": [
    "Verif.Props.C08_no_repeats"
   ],
   "note": ""
  },
  {
   "property": "C09",
   "status": "proved",
   "theorems": [
    "Verif.Props.C09_prefix",
    "Verif.Props.C09_best_monotone",
    "Verif.Props.C09_resume",
    "Verif.Props.C09_steps",
    "Verif.Props.C09_any_clock",
    "Verif.Props.C09_object"
   ],
   "note": ""
  },
  {
   "property": "C10",
   "status": "proved",
   "theorems": [
    "Verif.Props.C10_failing_iteration"
   ],
   "note": ""
  },
  {
   "property": "C11",
   "status": "proved",
   "theorems": [
    "Verif.Props.C11_lengths",
    "Verif.Props.C11_initial_inputs",
    "Verif.Props.C11_times",
    "Verif.Props.C11_initial_times",
    "Verif.Props.C11_steps",
    "Verif.Props.C11_object"
   ],
   "note": ""
  },
  {
   "property": "C12",
   "status": "proved",
   "theorems": [
    "Verif.Props.C12_same_run",
    "Verif.Props.C12_same_round"
   ],
   "note": ""
  },
  {
   "property": "C13",
   "status": "proved",
   "theorems": [
    "Verif.Props.C13_in_box",
    "Verif.Props.C13_succeeds_iff",
    "Verif.Props.C13_initials"
   ],
   "note": ""
  },
  {
   "property": "C14",
   "status": "partial",
   "theorems": [
    "Verif.Props.C14_count_partial",
    "Verif.Props.C14_grid_count",
    "Verif.Props.C14_grid_violates"
   ],
   "note": "Violated by 'grid', which returns n**d points (C14_grid_count, C14_grid_violates); the four random methods satisfy it."
  },
  {
   "property": "C15",
   "status": "proved",
   "theorems": [
    "Verif.Props.C15_grid",
    "Verif.Props.C15_fails",
    "Verif.Props.C15_axis",
    "Verif.Props.C15_single"
   ],
   "note": ""
  },
  {
   "property": "C16",
   "status": "proved",
   "theorems": [
    "Verif.Props.C16_fails_iff",
    "Verif.Props.C16_curve",
    "Verif.Props.C16_nonincreasing",
    "Verif.Props.C16_last",
    "Verif.Props.C16_mean_std",
    "Verif.Props.C16_no_initial"
   ],
   "note": ""
  },
  {
   "property": "C17",
   "status": "proved",
   "theorems": [
    "Verif.Props.C17_fails_iff",
    "Verif.Props.C17_curve",
    "Verif.Props.C17_monotone"
   ],
   "note": ""
  },
  {
   "property": "C18",
   "status": "proved",
   "theorems": [
    "Verif.Props.C18_plot_lengths",
    "Verif.Props.C18_boundary_fails"
   ],
   "note": "Includes the boundary case num_init = rounds, where the checks pass but the call fails (C18_boundary_fails)."
  },
  {
   "property": "C19",
   "status": "proved",
   "theorems": [
    "Verif.Props.C19_dict_round_trip",
    "Verif.Props.C19_convert_iff",
    "Verif.Props.C19_vector_round_trip",
    "Verif.Props.C19_restore_succeeds"
   ],
   "note": ""
  },
  {
   "property": "C20",
   "status": "proved",
   "theorems": [
    "Verif.Props.C20_ranges_aligned"
   ],
   "note": ""
  },
  {
   "property": "C21",
   "status": "proved",
   "theorems": [
    "Verif.Props.C21_accepts_iff",
    "Verif.Props.C21_effect",
    "Verif.Props.C21_idempotent",
    "Verif.Props.C21_array"
   ],
   "note": ""
  },
  {
   "property": "C22",
   "status": "proved",
   "theorems": [
    "Verif.Props.C22_history",
    "Verif.Props.C22_verdict",
    "Verif.Props.C22_search_stops",
    "Verif.Props.C22_run"
   ],
   "note": ""
  },
  {
   "property": "C23",
   "status": "proved",
   "theorems": [
    "Verif.Props.C23_choice",
    "Verif.Props.C23_call",
    "Verif.Props.C23_no_fit_fails"
   ],
   "note": ""
  },
  {
   "property": "C24",
   "status": "proved",
   "theorems": [
    "Verif.Props.C24_symmetric_bounded",
    "Verif.Props.C24_default_jitter",
    "Verif.Props.C24_transpose"
   ],
   "note": ""
  },
  {
   "property": "C25",
   "status": "proved",
   "theorems": [
    "Verif.Props.C25_positive_semidefinite"
   ],
   "note": ""
  },
  {
   "property": "C26",
   "status": "proved",
   "theorems": [
    "Verif.Props.C26_translation",
    "Verif.Props.C26_rescale",
    "Verif.Props.C26_isotropic",
    "Verif.Props.C26_signal",
    "Verif.Props.C26_reindex",
    "Verif.Props.C26_permute",
    "Verif.Props.C26_eq_se"
   ],
   "note": ""
  },
  {
   "property": "C27",
   "status": "proved",
   "theorems": [
    "Verif.Props.C27_decreasing",
    "Verif.Props.C27_vanishes"
   ],
   "note": ""
  },
  {
   "property": "C28",
   "status": "proved",
   "theorems": [
    "Verif.Props.C28_average",
    "Verif.Props.C28_same",
    "Verif.Props.C28_element_order",
    "Verif.Props.C28_singletons"
   ],
   "note": ""
  },
  {
   "property": "C29",
   "status": "partial",
   "theorems": [
    "Verif.Props.C29_ard_partial",
    "Verif.Props.C29_iso_partial",
    "Verif.Props.C29_signal_violated",
    "Verif.Props.C29_order"
   ],
   "note": "Every slice but the diagonal of the signal slice is the true derivative; that diagonal is off by 2*1e-5/signal (C29_signal_violated)."
  },
  {
   "property": "C30",
   "status": "proved",
   "theorems": [
    "Verif.Props.C30_inverse",
    "Verif.Props.C30_with_gradient"
   ],
   "note": ""
  },
  {
   "property": "C31",
   "status": "proved",
   "theorems": [
    "Verif.Props.C31_cholesky",
    "Verif.Props.C31_with_gradient"
   ],
   "note": ""
  },
  {
   "property": "C32",
   "status": "proved",
   "theorems": [
    "Verif.Props.C32_posterior_covariance",
    "Verif.Props.C32_with_cov"
   ],
   "note": ""
  },
  {
   "property": "C33",
   "status": "proved",
   "theorems": [
    "Verif.Props.C33_at_most_prior",
    "Verif.Props.C33_more_data"
   ],
   "note": ""
  },
  {
   "property": "C34",
   "status": "proved",
   "theorems": [
    "Verif.Props.C34_linear",
    "Verif.Props.C34_prior_mean",
    "Verif.Props.C34_shift",
    "Verif.Props.C34_row_order",
    "Verif.Props.C34_test_rows"
   ],
   "note": ""
  },
  {
   "property": "C35",
   "status": "proved",
   "theorems": [
    "Verif.Props.C35_best_linear"
   ],
   "note": ""
  },
  {
   "property": "C36",
   "status": "proved",
   "theorems": [
    "Verif.Props.C36_density",
    "Verif.Props.C36_inverse_path",
    "Verif.Props.C36_cholesky_path",
    "Verif.Props.C36_paths_close"
   ],
   "note": ""
  },
  {
   "property": "C37",
   "status": "partial",
   "theorems": [
    "Verif.Props.C37_ard_partial",
    "Verif.Props.C37_iso_partial",
    "Verif.Props.C37_signal_violated"
   ],
   "note": "Exact for noise and lengthscales; the signal entry is off by a multiple of the jitter (C37_signal_violated)."
  },
  {
   "property": "C38",
   "status": "partial",
   "theorems": [
    "Verif.Props.C38_leave_one_out_partial",
    "Verif.Props.C38_prior_ignored",
    "Verif.Props.C38_prior_violated",
    "Verif.Props.C38_single_lengthscale_fails"
   ],
   "note": "Proved for prior mean zero; false for any other constant prior mean (C38_prior_violated)."
  },
  {
   "property": "C39",
   "status": "proved",
   "theorems": [
    "Verif.Props.C39_predict_with_cov",
    "Verif.Props.C39_predict_with_hyps"
   ],
   "note": ""
  },
  {
   "property": "C40",
   "status": "partial",
   "theorems": [
    "Verif.Props.C40_value",
    "Verif.Props.C40_density",
    "Verif.Props.C40_ard_partial",
    "Verif.Props.C40_iso_partial",
    "Verif.Props.C40_dof_violated"
   ],
   "note": "The entry of the degrees of freedom is never the derivative (C40_dof_violated) and that of the signal is off by a multiple of the jitter; the value and the other entries are exact."
  },
  {
   "property": "C41",
   "status": "proved",
   "theorems": [
    "Verif.Props.C41_probability",
    "Verif.Props.C41_range",
    "Verif.Props.C41_rank_mean",
    "Verif.Props.C41_half",
    "Verif.Props.C41_fails_iff"
   ],
   "note": ""
  },
  {
   "property": "C42",
   "status": "proved",
   "theorems": [
    "Verif.Props.C42_expectation",
    "Verif.Props.C42_positive",
    "Verif.Props.C42_rank_mean",
    "Verif.Props.C42_rank_std"
   ],
   "note": ""
  },
  {
   "property": "C43",
   "status": "partial",
   "theorems": [
    "Verif.Props.C43_negative_value",
    "Verif.Props.C43_lower_bounds_partial"
   ],
   "note": "Violated with the default jitter (C43_negative_value); the bounds that do hold are proved."
  },
  {
   "property": "C44",
   "status": "proved",
   "theorems": [
    "Verif.Props.C44_ucb",
    "Verif.Props.C44_ucb_ranks",
    "Verif.Props.C44_ucb_fails_iff",
    "Verif.Props.C44_pure"
   ],
   "note": ""
  },
  {
   "property": "C45",
   "status": "proved",
   "theorems": [
    "Verif.Props.C45_product",
    "Verif.Props.C45_discount",
    "Verif.Props.C45_abs_le"
   ],
   "note": ""
  },
  {
   "property": "C46",
   "status": "proved",
   "theorems": [
    "Verif.Props.C46_accepts_iff",
    "Verif.Props.C46_only_assertion"
   ],
   "note": ""
  },
  {
   "property": "C47",
   "status": "partial",
   "theorems": [
    "Verif.Props.C47_covers",
    "Verif.Props.C47_exactly_once_partial",
    "Verif.Props.C47_violated",
    "Verif.Props.C47_no_ties"
   ],
   "note": "Violated when a split puts all rows on one side: both children then hold the whole sample (C47_violated). Proved for trees without such a split, and in full for samples without ties."
  },
  {
   "property": "C48",
   "status": "proved",
   "theorems": [
    "Verif.Props.C48_grows",
    "Verif.Props.C48_depth",
    "Verif.Props.C48_no_features",
    "Verif.Props.C48_empty"
   ],
   "note": "num_features = 0 and an empty sample raise (C48_no_features, C48_empty)."
  },
  {
   "property": "C49",
   "status": "proved",
   "theorems": [
    "Verif.Props.C49_routing",
    "Verif.Props.C49_training_input"
   ],
   "note": ""
  },
  {
   "property": "C50",
   "status": "proved",
   "theorems": [
    "Verif.Props.C50_midpoints",
    "Verif.Props.C50_all_midpoints",
    "Verif.Props.C50_random",
    "Verif.Props.C50_first_best",
    "Verif.Props.C50_optimal",
    "Verif.Props.C50_large_responses"
   ],
   "note": ""
  },
  {
   "property": "C51",
   "status": "proved",
   "theorems": [
    "Verif.Props.C51_mixture",
    "Verif.Props.C51_range"
   ],
   "note": ""
  },
  {
   "property": "C52",
   "status": "proved",
   "theorems": [
    "Verif.Props.C52_rowwise",
    "Verif.Props.C52_chunks"
   ],
   "note": ""
  },
  {
   "property": "C53",
   "status": "proved",
   "theorems": [
    "Verif.Props.C53_paired",
    "Verif.Props.C53_generic_trees",
    "Verif.Props.C53_random_forest",
    "Verif.Props.C53_too_few_rows",
    "Verif.Props.C53_rejects",
    "Verif.Props.C53_rejects_parts"
   ],
   "note": ""
  },
  {
   "property": "C54",
   "status": "partial",
   "theorems": [
    "Verif.Props.C54_always_first",
    "Verif.Props.C54_violated",
    "Verif.Props.C54_minimum_partial"
   ],
   "note": "Violated: the first test point is always returned, whatever the sample (C54_always_first, C54_violated)."
  },
  {
   "property": "C55",
   "status": "proved",
   "theorems": [
    "Verif.Props.C55_keeps_data"
   ],
   "note": ""
  },
  {
   "property": "C56",
   "status": "partial",
   "theorems": [
    "Verif.Props.C56_own_checks",
    "Verif.Props.C56_table",
    "Verif.Props.C56_mismatch",
    "Verif.Props.C56_default_forest_violated",
    "Verif.Props.C56_random_search_violated"
   ],
   "note": "Violated as the claim says: 'rf' with the default optimiser and 'random_search' with 'gp'/'tp' pass the wrapper's checks and are refused below (C56_default_forest_violated, C56_random_search_violated). C56_table gives the exact accepted table."
  },
  {
   "property": "C57",
   "status": "proved",
   "theorems": [
    "Verif.Props.C57_fails_iff",
    "Verif.Props.C57_fallback"
   ],
   "note": ""
  },
  {
   "property": "C58",
   "status": "partial",
   "theorems": [
    "Verif.Props.C58_accepted",
    "Verif.Props.C58_gp_always_raises",
    "Verif.Props.C58_gp_unchanged",
    "Verif.Props.C58_tp_always_raises"
   ],
   "note": "The code violates the claim: every call raises (C58_gp_always_raises, C58_tp_always_raises), though the constructor accepts the name (C58_accepted)."
  },
  {
   "property": "C59",
   "status": "partial",
   "theorems": [
    "Verif.Props.C59_fit_raises",
    "Verif.Props.C59_gp_always_raises",
    "Verif.Props.C59_works_partial"
   ],
   "note": "Violated for 'loocv' in two or more dimensions (C59_gp_always_raises); 'ml', and one dimension, work (C59_works_partial)."
  },
  {
   "property": "C60",
   "status": "proved",
   "theorems": [
    "Verif.Props.C60_gp",
    "Verif.Props.C60_tp",
    "Verif.Props.C60_trees"
   ],
   "note": ""
  },
  {
   "property": "C61",
   "status": "proved",
   "theorems": [
    "Verif.Props.C61_gp",
    "Verif.Props.C61_tp",
    "Verif.Props.C61_trees",
    "Verif.Props.C61_converged_not_normalised"
   ],
   "note": "For every mode but 'converged', which never normalises (C61_converged_not_normalised)."
  },
  {
   "property": "C62",
   "status": "partial",
   "theorems": [
    "Verif.Props.C62_count",
    "Verif.Props.C62_violated",
    "Verif.Props.C62_once_partial",
    "Verif.Props.C62_others"
   ],
   "note": "Violated: k calls for a name make every message appear k times (C62_violated); C62_count gives the number for every sequence of calls."
  },
  {
   "property": "C63",
   "status": "proved",
   "theorems": [
    "Verif.Props.C63_structure",
    "Verif.Props.C63_number",
    "Verif.Props.C63_other_ranks",
    "Verif.Props.C63_hyps",
    "Verif.Props.C63_hyps_error"
   ],
   "note": ""
  },
  {
   "property": "C64",
   "status": "proved",
   "theorems": [
    "Verif.Props.C64_bo_step_partition",
    "Verif.Props.C64_fails_iff"
   ],
   "note": ""
  },
  {
   "property": "C65",
   "status": "proved",
   "theorems": [
    "Verif.Props.C65_points_in_bounds"
   ],
   "note": ""
  },
  {
   "property": "C66",
   "status": "proved",
   "theorems": [
    "Verif.Props.C66_check_str_cov"
   ],
   "note": ""
  },
  {
   "property": "C67",
   "status": "proved",
   "theorems": [
    "Verif.Props.C67_prior_exists",
    "Verif.Props.C67_exact_posterior"
   ],
   "note": ""
  },
  {
   "property": "C68",
   "status": "proved",
   "theorems": [
    "Verif.Props.C68_prior_exists",
    "Verif.Props.C68_exact_posterior"
   ],
   "note": ""
  },
  {
   "property": "C69",
   "status": "proved",
   "theorems": [
    "Verif.Props.C69_retry"
   ],
   "note": ""
  },
  {
   "property": "C70",
   "status": "proved",
   "theorems": [
    "Verif.Props.C70_unknown_name",
    "Verif.Props.C70_different_sizes",
    "Verif.Props.C70_wrong_rank",
    "Verif.Props.C70_prior_mean",
    "Verif.Props.C70_mixed_predictions",
    "Verif.Props.C70_mixed_predictions_tp"
   ],
   "note": ""
  },
  {
   "property": "C71",
   "status": "proved",
   "theorems": [
    "Verif.Props.C71_gp",
    "Verif.Props.C71_tp",
    "Verif.Props.C71_trees"
   ],
   "note": ""
  },
  {
   "property": "C72",
   "status": "proved",
   "theorems": [
    "Verif.Props.C72_run"
   ],
   "note": ""
  },
  {
   "property": "C73",
   "status": "proved",
   "theorems": [
    "Verif.Props.C73_run"
   ],
   "note": ""
  },
  {
   "property": "C74",
   "status": "partial",
   "theorems": [
    "Verif.Props.C74_gp_shape_partial",
    "Verif.Props.C74_gp_one_point",
    "Verif.Props.C74_tp_shape_partial",
    "Verif.Props.C74_tp_one_point"
   ],
   "note": "Violated over a single point (C74_gp_one_point, C74_tp_one_point)."
  },
  {
   "property": "C75",
   "status": "partial",
   "theorems": [
    "Verif.Props.C75_law",
    "Verif.Props.C75_violated",
    "Verif.Props.C75_infinite_partial"
   ],
   "note": "Violated for every finite number of degrees of freedom above 2 (C75_law, C75_violated)."
  },
  {
   "property": "C76",
   "status": "proved",
   "theorems": [
    "Verif.Props.C76_data",
    "Verif.Props.C76_run",
    "Verif.Props.C76_constant"
   ],
   "note": ""
  },
  {
   "property": "C77",
   "status": "proved",
   "theorems": [
    "Verif.Props.C77_options",
    "Verif.Props.C77_step"
   ],
   "note": ""
  },
  {
   "property": "C78",
   "status": "proved",
   "theorems": [
    "Verif.Props.C78_residuals",
    "Verif.Props.C78_repeated",
    "Verif.Props.C78_noise_bound"
   ],
   "note": ""
  },
  {
   "property": "C79",
   "status": "proved",
   "theorems": [
    "Verif.Props.C79_update",
    "Verif.Props.C79_one"
   ],
   "note": ""
  },
  {
   "property": "C80",
   "status": "proved",
   "theorems": [
    "Verif.Props.C80_pi",
    "Verif.Props.C80_ei",
    "Verif.Props.C80_rank_mean",
    "Verif.Props.C80_rank_std",
    "Verif.Props.C80_sign",
    "Verif.Props.C80_rank_violated"
   ],
   "note": ""
  },
  {
   "property": "C81",
   "status": "proved",
   "theorems": [
    "Verif.Props.C81_jitter"
   ],
   "note": ""
  },
  {
   "property": "C82",
   "status": "proved",
   "theorems": [
    "Verif.Props.C82_prediction",
    "Verif.Props.C82_prediction_student",
    "Verif.Props.C82_fit",
    "Verif.Props.C82_fit_student",
    "Verif.Props.C82_fit_loocv"
   ],
   "note": ""
  },
  {
   "property": "C83",
   "status": "proved",
   "theorems": [
    "Verif.Props.C83_distances",
    "Verif.Props.C83_units",
    "Verif.Props.C83_coordinates",
    "Verif.Props.C83_rotation",
    "Verif.Props.C83_likelihood"
   ],
   "note": ""
  },
  {
   "property": "C84",
   "status": "proved",
   "theorems": [
    "Verif.Props.C84_selection"
   ],
   "note": ""
  },
  {
   "property": "C85",
   "status": "partial",
   "theorems": [
    "Verif.Props.C85_violated",
    "Verif.Props.C85_response_unit_partial"
   ],
   "note": "Violated because of the fixed 1e-5 on the diagonal (C85_violated); exact when noise variance plus 1e-5 is rescaled."
  },
  {
   "property": "C86",
   "status": "proved",
   "theorems": [
    "Verif.Props.C86_sample",
    "Verif.Props.C86_distribution",
    "Verif.Props.C86_step",
    "Verif.Props.C86_step_acq",
    "Verif.Props.C86_total_sample",
    "Verif.Props.C86_total_distribution",
    "Verif.Props.C86_total_step"
   ],
   "note": ""
  },
  {
   "property": "C87",
   "status": "partial",
   "theorems": [
    "Verif.Props.C87_violated",
    "Verif.Props.C87_regression_partial",
    "Verif.Props.C87_step_partial"
   ],
   "note": "The code violates the claim: the range is that of the test inputs. Proved exactly which training points can be seen."
  },
  {
   "property": "C88",
   "status": "proved",
   "theorems": [
    "Verif.Props.C88_iterations",
    "Verif.Props.C88_time",
    "Verif.Props.C88_rejects_iterations",
    "Verif.Props.C88_rejects_time",
    "Verif.Props.C88_styles",
    "Verif.Props.C88_default_styles",
    "Verif.Props.C88_total_iterations",
    "Verif.Props.C88_total_time"
   ],
   "note": ""
  },
  {
   "property": "C89",
   "status": "partial",
   "theorems": [
    "Verif.Props.C89_iterations_partial",
    "Verif.Props.C89_time_partial",
    "Verif.Props.C89_violated"
   ],
   "note": "The code violates the claim for labels that matplotlib does not show. Proved the exact pairing, and the claim when all labels are shown."
  },
  {
   "property": "C90",
   "status": "partial",
   "theorems": [
    "Verif.Props.C90_main_files_partial",
    "Verif.Props.C90_no_files",
    "Verif.Props.C90_names_violated",
    "Verif.Props.C90_legend_violated"
   ],
   "note": "The code violates the claim for the files with the legends and for postfixes that continue a prefix. Proved for the main files with equal kinds or equal postfixes."
  },
  {
   "property": "C91",
   "status": "partial",
   "theorems": [
    "Verif.Props.C91_initials_partial",
    "Verif.Props.C91_run_partial",
    "Verif.Props.C91_violated"
   ],
   "note": "The code violates the claim: the seed is used for the initial points only. Proved for the initial points, and for whole runs whose steps draw no random numbers (DIRECT, or L-BFGS-B from a grid)."
  },
  {
   "property": "C92",
   "status": "partial",
   "theorems": [
    "Verif.Props.C92_gp_partial",
    "Verif.Props.C92_tp_partial",
    "Verif.Props.C92_forest_partial",
    "Verif.Props.C92_violated",
    "Verif.Props.C92_forest_violated"
   ],
   "note": "The code violates the claim for CMA-ES, which is given no seed, and for forests, which draw from the global generator. Proved for process models with L-BFGS-B or DIRECT, and for the candidates of a forest."
  },
  {
   "property": "C93",
   "status": "proved",
   "theorems": [
    "Verif.Props.C93_predictions",
    "Verif.Props.C93_likelihoods"
   ],
   "note": "Limits in exact arithmetic; the code computes with floats, where large degrees of freedom lose digits."
  },
  {
   "property": "C94",
   "status": "partial",
   "theorems": [
    "Verif.Props.C94_random_forest",
    "Verif.Props.C94_shift",
    "Verif.Props.C94_unit_partial",
    "Verif.Props.C94_violated"
   ],
   "note": "The code violates the claim for large responses: an empty side costs 1e8 in every unit. Proved for shifts, and for units in which the responses have a range below 1e4 times the square root of 2."
  },
  {
   "property": "C95",
   "status": "proved",
   "theorems": [
    "Verif.Props.C95_inputs"
   ],
   "note": "Full claim, in exact arithmetic."
  },
  {
   "property": "C96",
   "status": "proved",
   "theorems": [
    "Verif.Props.C96_totals",
    "Verif.Props.C96_average",
    "Verif.Props.C96_copies"
   ],
   "note": "Full claim, in exact arithmetic."
  },
  {
   "property": "C97",
   "status": "proved",
   "theorems": [
    "Verif.Props.C97_student",
    "Verif.Props.C97_likelihood",
    "Verif.Props.C97_student_likelihood"
   ],
   "note": "Full claim, in exact arithmetic."
  },
  {
   "property": "C98",
   "status": "proved",
   "theorems": [
    "Verif.Props.C98_gp",
    "Verif.Props.C98_tp",
    "Verif.Props.C98_forest"
   ],
   "note": "Full claim; for augmented expected improvement the noise must not be zero (it divides by the noise)."
  },
  {
   "property": "C99",
   "status": "proved",
   "theorems": [
    "Verif.Props.C99_gp",
    "Verif.Props.C99_tp"
   ],
   "note": "Full claim, in exact arithmetic."
  },
  {
   "property": "C100",
   "status": "proved",
   "theorems": [
    "Verif.Props.C100_labels",
    "Verif.Props.C100_shown"
   ],
   "note": "Full claim."
  },
  {
   "property": "C103",
   "status": "proved",
   "theorems": [
    "Verif.Props.C103_in_box",
    "Verif.Props.C103_accepted",
    "Verif.Props.C103_one_escapes",
    "Verif.Props.C103_tiny_grid_escapes"
   ],
   "note": "Full claim. Exponents have no bound here (overflow is C110); both conditions are shown to be needed."
  },
  {
   "property": "C104",
   "status": "proved",
   "theorems": [
    "Verif.Props.C104_normalize",
    "Verif.Props.C104_constant",
    "Verif.Props.C104_merges"
   ],
   "note": "Full claim. Overflow is left out."
  },
  {
   "property": "C105",
   "status": "proved",
   "theorems": [
    "Verif.Props.C105_minima",
    "Verif.Props.C105_minima_accuracy",
    "Verif.Props.C105_time"
   ],
   "note": "Full claim; observations of -inf are excluded for the minima. Overflow is left out."
  },
  {
   "property": "C101",
   "status": "proved",
   "theorems": [
    "Verif.Props.C101_gp",
    "Verif.Props.C101_tp",
    "Verif.Props.C101_attained"
   ],
   "note": "Full claim, in exact arithmetic."
  },
  {
   "property": "C102",
   "status": "proved",
   "theorems": [
    "Verif.Props.C102_factorised",
    "Verif.Props.C102_predictions"
   ],
   "note": "Full claim: the errors are arbitrary within the stated bounds, they are not derived from a model of floating point linear algebra."
  },
  {
   "property": "C106",
   "status": "proved",
   "theorems": [
    "Verif.Props.C106_batches_gp",
    "Verif.Props.C106_batches_tp",
    "Verif.Props.C106_sequence"
   ],
   "note": "Full claim, on the path without Cholesky factor (on the Cholesky path 1e-7 is added inside each logarithm, see C36)."
  },
  {
   "property": "C107",
   "status": "proved",
   "theorems": [
    "Verif.Props.C107_create",
    "Verif.Props.C107_step",
    "Verif.Props.C107_data",
    "Verif.Props.C107_run"
   ],
   "note": "Full claim, for constructor, step, run from given data and whole run. The numerical routines are assumed to work in the moved coordinates as in the original ones."
  },
  {
   "property": "C108",
   "status": "partial",
   "theorems": [
    "Verif.Props.C108_run_partial",
    "Verif.Props.C108_step",
    "Verif.Props.C108_tiny",
    "Verif.Props.C108_violated"
   ],
   "note": "The code violates the claim: proposals are compared with evaluated points by the absolute tolerance 1e-8, so in very large units every candidate counts as a duplicate (C108_tiny, for every surrogate) and the run evaluates its last initial point forever. Proved in full for one step, and for runs whose initial points and candidates have the same pairs below the tolerance in both units."
  },
  {
   "property": "C109",
   "status": "proved",
   "theorems": [
    "Verif.Props.C109_starmap",
    "Verif.Props.C109_ends",
    "Verif.Props.C109_predict",
    "Verif.Props.C109_sequential",
    "Verif.Props.C109_forest"
   ],
   "note": "Full claim, for a model of the pool of CPython (multiprocessing/pool.py) in Model/Pool.lean. Processes that die and failures of pickling are not modelled."
  },
  {
   "property": "C110",
   "status": "partial",
   "theorems": [
    "Verif.Props.C110_same",
    "Verif.Props.C110_in_box_partial",
    "Verif.Props.C110_overflow",
    "Verif.Props.C110_violated",
    "Verif.Props.C110_normalize_partial",
    "Verif.Props.C110_normalize_overflow",
    "Verif.Props.C110_minima_partial",
    "Verif.Props.C110_minima_overflow"
   ],
   "note": "The code violates the claim near the largest doubles: C110_overflow and C110_violated for sampling, C110_normalize_overflow, C110_minima_overflow. Proved when no width, range or sum overflows: C110_same, C110_in_box_partial, C110_normalize_partial, C110_minima_partial. Signs of zeros are left out."
  },
  {
   "property": "C111",
   "status": "proved",
   "theorems": [
    "Verif.Props.C111_uniform",
    "Verif.Props.C111_normal",
    "Verif.Props.C111_sequence",
    "Verif.Props.C111_volume",
    "Verif.Props.C111_search",
    "Verif.Props.C111_search_limit",
    "Verif.Props.C111_ends",
    "Verif.Props.C111_interior"
   ],
   "note": "Full claim. The laws of the draws of the generator are hypotheses (Spec/Chance.lean); that numpy has them is not modelled."
  },
  {
   "property": "C112",
   "status": "proved",
   "theorems": [
    "Verif.Props.C112_place",
    "Verif.Props.C112_left_out",
    "Verif.Props.C112_left_out_without",
    "Verif.Props.C112_limit",
    "Verif.Props.C112_distinct",
    "Verif.Props.C112_no_tree",
    "Verif.Props.C112_unchanged",
    "Verif.Props.C112_forest"
   ],
   "note": "Full claim. The laws of the choices are hypotheses (Spec/Bootstrap.lean); that numpy has them is not modelled."
  },
  {
   "property": "C113",
   "status": "proved",
   "theorems": [
    "Verif.Props.C113_threshold",
    "Verif.Props.C113_separate",
    "Verif.Props.C113_no_empty_side",
    "Verif.Props.C113_as_good",
    "Verif.Props.C113_best"
   ],
   "note": "Full claim. The laws of the draws are hypotheses; that numpy has them is not modelled."
  },
  {
   "property": "C114",
   "status": "proved",
   "theorems": [
    "Verif.Props.C114_information",
    "Verif.Props.C114_step",
    "Verif.Props.C114_regret",
    "Verif.Props.C114_finite",
    "Verif.Props.C114_limit"
   ],
   "note": "Full claim. That true values lie within the confidence bounds is a hypothesis of the regret bounds, as is the quality delta of the choices (the optimiser of the acquisition function is not modelled); hyperparameters are fixed along the sequence."
  },
  {
   "property": "C115",
   "status": "proved",
   "theorems": [
    "Verif.Props.C115_standard",
    "Verif.Props.C115_band",
    "Verif.Props.C115_all",
    "Verif.Props.C115_regret",
    "Verif.Props.C115_figure"
   ],
   "note": "Full claim, under the Gaussian process prior of C67 (C67_prior_exists) with the hyperparameters used for prediction."
  },
  {
   "property": "C116",
   "status": "proved",
   "theorems": [
    "Verif.Props.C116_hit",
    "Verif.Props.C116_limit",
    "Verif.Props.C116_lipschitz",
    "Verif.Props.C116_enough"
   ],
   "note": "Full claim. The law of the draws is a hypothesis; that numpy has it is not modelled. Runs that raise are outside the claim, the event being about every run that returns."
  },
  {
   "property": "C117",
   "status": "partial",
   "theorems": [
    "Verif.Props.C117_reports",
    "Verif.Props.C117_complete",
    "Verif.Props.C117_range",
    "Verif.Props.C117_round_violated",
    "Verif.Props.C117_round_partial"
   ],
   "note": "C117_reports, C117_complete and C117_range are the full claim for the class interface. For run_single_round it is false (use_ard and normalize_Y are not logged): C117_round_violated; C117_round_partial is what remains. The prior mean, a callable, is not logged by either."
  },
  {
   "property": "C118",
   "status": "proved",
   "theorems": [
    "Verif.Props.C118_positional",
    "Verif.Props.C118_keyword_only"
   ],
   "note": "Full claim."
  },
  {
   "property": "C119",
   "status": "proved",
   "theorems": [
    "Verif.Props.C119_normalize",
    "Verif.Props.C119_agrees",
    "Verif.Props.C119_tree",
    "Verif.Props.C119_ensemble",
    "Verif.Props.C119_forest",
    "Verif.Props.C119_chance"
   ],
   "note": "Full claim. Finite numbers are exact reals, so no overflow to an infinity inside the computation."
  },
  {
   "property": "C120",
   "status": "proved",
   "theorems": [
    "Verif.Props.C120_gp_step",
    "Verif.Props.C120_gp_converged",
    "Verif.Props.C120_forest_step",
    "Verif.Props.C120_fresh_draws",
    "Verif.Props.C120_start",
    "Verif.Props.C120_run",
    "Verif.Props.C120_forest_run"
   ],
   "note": "Full claim. A fit by the pseudo-likelihood, a skipped fit and the Student-t process go on with NaN instead of raising and are outside this model; so is what a forest that was fitted goes on to do."
  },
  {
   "property": "C121",
   "status": "proved",
   "theorems": [
    "Verif.Props.C121_near_best",
    "Verif.Props.C121_neighbours",
    "Verif.Props.C121_everywhere"
   ],
   "note": "Greedy guarantee for the information gain, variance near evaluated points, and uniform exploration of bounded regions."
  },
  {
   "property": "C122",
   "status": "proved",
   "theorems": [
    "Verif.Props.C122_bounded"
   ],
   "note": "Fixed weight; the confidence bands are a hypothesis here (C124 derives them from a norm bound)."
  },
  {
   "property": "C123",
   "status": "proved",
   "theorems": [
    "Verif.Props.C123_norm",
    "Verif.Props.C123_error",
    "Verif.Props.C123_sharp"
   ],
   "note": "Deterministic error bound and its sharpness; the norm is characterised by finite combinations of values."
  },
  {
   "property": "C124",
   "status": "proved",
   "theorems": [
    "Verif.Props.C124_explore",
    "Verif.Props.C124_ucb"
   ],
   "note": "Uniform convergence of pure exploration and the upper confidence bound for functions of bounded norm, up to the stated jitter terms."
  },
  {
   "property": "C125",
   "status": "proved",
   "theorems": [
    "Verif.Props.C125_ei",
    "Verif.Props.C125_aei"
   ],
   "note": "Convergence of EI and augmented EI up to an explicit constant from the jitters and the slack."
  },
  {
   "property": "C126",
   "status": "proved",
   "theorems": [
    "Verif.Props.C126_scores",
    "Verif.Props.C126_ei_choice",
    "Verif.Props.C126_pi_choice",
    "Verif.Props.C126_exploit_choice"
   ],
   "note": "Scores are conditional probabilities and expectations; EI, PI and exploitation choose the best next test point on average, up to explicit jitter terms."
  },
  {
   "property": "C127",
   "status": "proved",
   "theorems": [
    "Verif.Props.C127_entries",
    "Verif.Props.C127_exact",
    "Verif.Props.C127_matrix",
    "Verif.Props.C127_predictions",
    "Verif.Props.C127_refuses"
   ],
   "note": "Covariances of plain inputs and the kernel matrix in double precision; inversion and factorisation stay exact (their error is a parameter), overflow left out."
  },
  {
   "property": "C128",
   "status": "partial",
   "theorems": [
    "Verif.Props.C128_fonts",
    "Verif.Props.C128_as_asked_partial",
    "Verif.Props.C128_seen",
    "Verif.Props.C128_open",
    "Verif.Props.C128_tex_stays",
    "Verif.Props.C128_not_held"
   ],
   "note": "Violated: LaTeX and the interactive mode stay on (C128_tex_stays, C128_not_held). C128_fonts, C128_seen and C128_open give the exact dependence on earlier calls; C128_as_asked_partial is what remains of the claim."
  },
  {
   "property": "C129",
   "status": "proved",
   "theorems": [
    "Verif.Props.C129_predictions",
    "Verif.Props.C129_products",
    "Verif.Props.C129_inverse",
    "Verif.Props.C129_typical",
    "Verif.Props.C129_refuses"
   ],
   "note": "Plain inputs; products of matrices and the inverse enter through their errors, overflow left out. Numbers of C129_typical are worst-case bounds, not measured errors."
  },
  {
   "property": "C130",
   "status": "partial",
   "theorems": [
    "Verif.Props.C130_squared_exponential",
    "Verif.Props.C130_squared_exponential_decomposed",
    "Verif.Props.C130_matern_nan",
    "Verif.Props.C130_matern_raises",
    "Verif.Props.C130_finite_partial"
   ],
   "note": "Violated by the Matern covariances (C130_matern_nan, C130_matern_raises). C130_squared_exponential and C130_squared_exponential_decomposed hold for all finite scaled inputs; C130_finite_partial covers all kernels up to 2^200 lengthscales."
  },
  {
   "property": "C131",
   "status": "proved",
   "theorems": [
    "Verif.Props.C131_pi",
    "Verif.Props.C131_pi_order",
    "Verif.Props.C131_ei",
    "Verif.Props.C131_ei_expectation",
    "Verif.Props.C131_ei_choice",
    "Verif.Props.C131_ei_predictions",
    "Verif.Props.C131_ucb",
    "Verif.Props.C131_ucb_order",
    "Verif.Props.C131_aei"
   ],
   "note": "Errors of the library functions are parameters; overflow left out."
  },
  {
   "property": "C132",
   "status": "partial",
   "theorems": [
    "Verif.Props.C132_numbers",
    "Verif.Props.C132_pi_certain",
    "Verif.Props.C132_ei_certain_partial",
    "Verif.Props.C132_ei_certain_violated",
    "Verif.Props.C132_ei_nan_iff",
    "Verif.Props.C132_pi_nan_iff",
    "Verif.Props.C132_ucb_numbers",
    "Verif.Props.C132_infinite",
    "Verif.Props.C132_nan",
    "Verif.Props.C132_aei_certain",
    "Verif.Props.C132_lengths",
    "Verif.Props.C132_ucb_default",
    "Verif.Props.C132_ucb_nan_iff",
    "Verif.Props.C132_limits"
   ],
   "note": "Violated for a certain prediction equal to the best response without jitter (C132_ei_certain_violated); C132_ei_certain_partial covers all other certain predictions, C132_ei_nan_iff says exactly when values are NaN."
  },
  {
   "property": "C133",
   "status": "proved",
   "theorems": [
    "Verif.Props.C133_ml_continuous",
    "Verif.Props.C133_ml_best",
    "Verif.Props.C133_ml_bounded",
    "Verif.Props.C133_loocv_continuous",
    "Verif.Props.C133_loocv_best",
    "Verif.Props.C133_loocv_bounded",
    "Verif.Props.C133_tp_continuous",
    "Verif.Props.C133_tp_best",
    "Verif.Props.C133_tp_unbounded"
   ],
   "note": "Values are those of the real-number model; the optimiser itself is not modelled, only what it is given."
  },
  {
   "property": "C134",
   "status": "proved",
   "theorems": [
    "Verif.Props.C134_cov",
    "Verif.Props.C134_gp_predict",
    "Verif.Props.C134_tp_predict",
    "Verif.Props.C134_ml",
    "Verif.Props.C134_loocv",
    "Verif.Props.C134_tp",
    "Verif.Props.C134_gradient"
   ],
   "note": "The gradient part is for plain inputs (there is no gradient for sets)."
  },
  {
   "property": "C135",
   "status": "proved",
   "theorems": [
    "Verif.Props.C135_outside",
    "Verif.Props.C135_constant",
    "Verif.Props.C135_cells",
    "Verif.Props.C135_acquisitions"
   ],
   "note": ""
  },
  {
   "property": "C136",
   "status": "proved",
   "theorems": [
    "Verif.Props.C136_training",
    "Verif.Props.C136_interpolates",
    "Verif.Props.C136_expected"
   ],
   "note": ""
  },
  {
   "property": "C137",
   "status": "proved",
   "theorems": [
    "Verif.Props.C137_grows",
    "Verif.Props.C137_midpoints",
    "Verif.Props.C137_random",
    "Verif.Props.C137_no_ties",
    "Verif.Props.C137_violated",
    "Verif.Props.C137_sample",
    "Verif.Props.C137_sample_more",
    "Verif.Props.C137_generic_trees",
    "Verif.Props.C137_random_forest",
    "Verif.Props.C137_rejects",
    "Verif.Props.C137_rejects_parts"
   ],
   "note": "Overflow left out."
  },
  {
   "property": "C138",
   "status": "proved",
   "theorems": [
    "Verif.Props.C138_near_best",
    "Verif.Props.C138_optimal"
   ],
   "note": "Overflow left out."
  },
  {
   "property": "C139",
   "status": "proved",
   "theorems": [
    "Verif.Props.C139_leaf",
    "Verif.Props.C139_forest",
    "Verif.Props.C139_rowwise",
    "Verif.Props.C139_leaf_violated",
    "Verif.Props.C139_forest_violated"
   ],
   "note": "Overflow left out."
  },
  {
   "property": "C140",
   "status": "proved",
   "theorems": [
    "Verif.Props.C140_growing",
    "Verif.Props.C140_default",
    "Verif.Props.C140_again"
   ],
   "note": "Hyperparameters are fixed along the choices; C142 lifts this."
  },
  {
   "property": "C141",
   "status": "proved",
   "theorems": [
    "Verif.Props.C141_explore",
    "Verif.Props.C141_learn",
    "Verif.Props.C141_deviation",
    "Verif.Props.C141_weight",
    "Verif.Props.C141_stuck",
    "Verif.Props.C141_gaussian"
   ],
   "note": "The absence of convergence is proved by a general family of functions that keep ucb at its first point (C141_stuck)."
  },
  {
   "property": "C142",
   "status": "proved",
   "theorems": [
    "Verif.Props.C142_refit",
    "Verif.Props.C142_normalized",
    "Verif.Props.C142_range"
   ],
   "note": "Hyperparameters are assumed to stay within bounds; those within get_range_hyps do (C142_range)."
  },
  {
   "property": "C143",
   "status": "proved",
   "theorems": [
    "Verif.Props.C143_agrees",
    "Verif.Props.C143_random_forest",
    "Verif.Props.C143_nonfinite",
    "Verif.Props.C143_far",
    "Verif.Props.C143_width",
    "Verif.Props.C143_midpoint",
    "Verif.Props.C143_nan_deviation",
    "Verif.Props.C143_rejects",
    "Verif.Props.C143_count",
    "Verif.Props.C143_rejects_parts"
   ],
   "note": ""
  },
  {
   "property": "C144",
   "status": "proved",
   "theorems": [
    "Verif.Props.C144_box",
    "Verif.Props.C144_layered",
    "Verif.Props.C144_nearest_leaf",
    "Verif.Props.C144_nearest",
    "Verif.Props.C144_lipschitz",
    "Verif.Props.C144_all_rows"
   ],
   "note": ""
  },
  {
   "property": "C145",
   "status": "proved",
   "theorems": [
    "Verif.Props.C145_ei",
    "Verif.Props.C145_aei",
    "Verif.Props.C145_ei_normalized",
    "Verif.Props.C145_aei_normalized"
   ],
   "note": "Hyperparameters are assumed to stay within bounds; those within get_range_hyps do (C142_range)."
  },
  {
   "property": "C146",
   "status": "proved",
   "theorems": [
    "Verif.Props.C146_step",
    "Verif.Props.C146_run",
    "Verif.Props.C146_optimize"
   ],
   "note": "Under contracts for the numerical routines (FitsIn, FindsLow) and a norm bound for the target in the units of normalised responses; expected improvement only."
  },
  {
   "property": "C147",
   "status": "proved",
   "theorems": [
    "Verif.Props.C147_augmented_run",
    "Verif.Props.C147_augmented",
    "Verif.Props.C147_explore_run",
    "Verif.Props.C147_explore"
   ],
   "note": "Under the contracts of C146. For pure exploration the deviation bound contains the noise of the package, because proposals within 1e-8 of a row are replaced."
  },
  {
   "property": "C148",
   "status": "proved",
   "theorems": [
    "Verif.Props.C148_next",
    "Verif.Props.C148_next_student",
    "Verif.Props.C148_forever",
    "Verif.Props.C148_violated",
    "Verif.Props.C148_greedy",
    "Verif.Props.C148_run",
    "Verif.Props.C148_optimize"
   ],
   "note": "The absence of convergence is proved in general (C148_forever) and with functions of any norm bound (C148_violated). The runs of C148_run assume optimisers that return a best point from every start; with L-BFGS-B from many starts that end elsewhere, the replacement of duplicates would pick another candidate."
  },
  {
   "property": "C149",
   "status": "proved",
   "theorems": [
    "Verif.Props.C149_numbers",
    "Verif.Props.C149_accepted",
    "Verif.Props.C149_refused",
    "Verif.Props.C149_zero",
    "Verif.Props.C149_limit",
    "Verif.Props.C149_likelihood",
    "Verif.Props.C149_likelihood_value"
   ],
   "note": "Finite numbers are exact reals. Inputs of rank 2 and no gradients; what np.linalg.inv returns on infinities and NaN is not modelled."
  },
  {
   "property": "C150",
   "status": "proved",
   "theorems": [
    "Verif.Props.C150_next",
    "Verif.Props.C150_next_student",
    "Verif.Props.C150_forever",
    "Verif.Props.C150_violated",
    "Verif.Props.C150_run",
    "Verif.Props.C150_optimize",
    "Verif.Props.C150_upper_run",
    "Verif.Props.C150_upper"
   ],
   "note": "pure_exploit: next choice (both processes), endless searches, whole runs; ucb: whole runs from given rows and from rows drawn, with the case of a duplicate proposal stated separately"
  },
  {
   "property": "C151",
   "status": "proved",
   "theorems": [
    "Verif.Props.C151_standard",
    "Verif.Props.C151_band",
    "Verif.Props.C151_limit",
    "Verif.Props.C151_many",
    "Verif.Props.C151_all",
    "Verif.Props.C151_regret",
    "Verif.Props.C151_figure"
   ],
   "note": "Full claim, under the Student-t process prior of C68 (C68_prior_exists) with the hyperparameters used for prediction."
  },
  {
   "property": "C152",
   "status": "proved",
   "theorems": [
    "Verif.Props.C152_step",
    "Verif.Props.C152_explore_run",
    "Verif.Props.C152_explore",
    "Verif.Props.C152_stuck_run",
    "Verif.Props.C152_stuck"
   ],
   "note": "Under the contracts of C146 with degrees of freedom above 2 in every fit. The runs of C152_stuck assume optimisers that return a best point from every start. For expected improvement and ucb only the step (C152_step) is stated."
  },
  {
   "property": "C153",
   "status": "proved",
   "theorems": [
    "Verif.Props.C153_object",
    "Verif.Props.C153_same",
    "Verif.Props.C153_rejects",
    "Verif.Props.C153_late",
    "Verif.Props.C153_none",
    "Verif.Props.C153_total",
    "Verif.Props.C153_improve",
    "Verif.Props.C153_stuck"
   ],
   "note": "Full claim. The late rejection (C153_late) is a difference between the two interfaces, recorded in DESIGN.md section 6."
  },
  {
   "property": "C154",
   "status": "partial",
   "theorems": [
    "Verif.Props.C154_overflow",
    "Verif.Props.C154_undefined",
    "Verif.Props.C154_accurate_partial",
    "Verif.Props.C154_gradient",
    "Verif.Props.C154_flat",
    "Verif.Props.C154_few_partial",
    "Verif.Props.C154_between",
    "Verif.Props.C154_fit"
   ],
   "note": "Violated for more than 142 responses: C154_overflow, C154_flat, C154_fit, C154_between, C154_undefined. C154_accurate_partial and C154_few_partial are the claim for the cases where it holds; C154_gradient is about the gradient."
  },
  {
   "property": "C155",
   "status": "proved",
   "theorems": [
    "Verif.Props.C155_first",
    "Verif.Props.C155_blind",
    "Verif.Props.C155_random",
    "Verif.Props.C155_hit",
    "Verif.Props.C155_best"
   ],
   "note": "The claim is about the code as it is; that observations have no influence is the consequence of the violation of C54."
  },
  {
   "property": "C156",
   "status": "proved",
   "theorems": [
    "Verif.Props.C156_likelihood",
    "Verif.Props.C156_typical",
    "Verif.Props.C156_refuses"
   ],
   "note": "Plain inputs, the value without the gradient, and a first factorisation that succeeds; factor, solution, products and logarithms enter through their errors, overflow left out. Numbers of C156_typical are worst-case bounds."
  },
  {
   "property": "C157",
   "status": "proved",
   "theorems": [
    "Verif.Props.C157_predictions",
    "Verif.Props.C157_ei",
    "Verif.Props.C157_pi",
    "Verif.Props.C157_aei",
    "Verif.Props.C157_ucb",
    "Verif.Props.C157_pure",
    "Verif.Props.C157_typical"
   ],
   "note": "All six acquisition functions. Probability of improvement needs deviations bounded away from the error of the computed deviation, since its value jumps as the deviation vanishes; augmented expected improvement needs noise of at least 2^-400. The fit (kernel matrix and inverse) enters through its errors, overflow left out. Numbers of C157_typical are worst-case bounds."
  },
  {
   "property": "C158",
   "status": "proved",
   "theorems": [
    "Verif.Props.C158_refuses",
    "Verif.Props.C158_step",
    "Verif.Props.C158_exact",
    "Verif.Props.C158_value",
    "Verif.Props.C158_choice",
    "Verif.Props.C158_likelihood",
    "Verif.Props.C158_fit",
    "Verif.Props.C158_returns"
   ],
   "note": "Numerical optimisers are arguments (oracles); the accuracy of Cholesky factors, solutions and inverses is asked of the library for kernel matrices of ordinary hyperparameters (Spec.Accurate; a library that rounds exact results is shown to qualify for two responses). C158_returns is for mode regular, likelihood and L-BFGS-B. Gradients and the leave-one-out score are left open. Overflow left out. Bounds are worst-case."
  },
  {
   "property": "C159",
   "status": "proved",
   "theorems": [
    "Verif.Props.C159_refuses",
    "Verif.Props.C159_predictions",
    "Verif.Props.C159_choice",
    "Verif.Props.C159_typical"
   ],
   "note": "Kernel matrix and inverse enter through their errors, as in C129; overflow left out. Acquisition functions of BOwTP are those for normal predictions, so values are stated for a normal variable with the mean and deviation of the Student-t process. Probability of improvement needs deviations bounded away from their error, augmented expected improvement noise of at least 2^-400. Numbers of C159_typical are worst-case bounds."
  },
  {
   "property": "C160",
   "status": "proved",
   "theorems": [
    "Verif.Props.C160_exact",
    "Verif.Props.C160_step",
    "Verif.Props.C160_choice",
    "Verif.Props.C160_returns",
    "Verif.Props.C160_typical"
   ],
   "note": "Random choices, draws and summation orders enter as arguments with contracts; overflow left out. Probability of improvement needs deviations bounded away from their error (hypothesis hpi of C160_choice). C160_typical is for ei, ucb, pure_exploit and pure_explore with normalised responses that are not all equal. C160_returns leaves out the grid."
  },
  {
   "property": "C161",
   "status": "proved",
   "theorems": [
    "Verif.Props.C161_refuses",
    "Verif.Props.C161_step",
    "Verif.Props.C161_exact",
    "Verif.Props.C161_predictions",
    "Verif.Props.C161_value",
    "Verif.Props.C161_choice",
    "Verif.Props.C161_returns"
   ],
   "note": "Numerical optimisers and the computed likelihood are arguments; the error of the likelihood is C162, and nothing is said about the quality of the fit. The accuracy of inverses is asked of the library (Spec.Accurate, as in C158). C161_choice, C161_value and C161_returns are for ei; the prediction in C161_choice is given the computed normalised responses, which are within 6e-15 of the exact ones. Overflow left out. Bounds are worst-case."
  },
  {
   "property": "C162",
   "status": "proved",
   "theorems": [
    "Verif.Props.C162_refuses",
    "Verif.Props.C162_default",
    "Verif.Props.C162_fit",
    "Verif.Props.C162_returns",
    "Verif.Props.C162_exact",
    "Verif.Props.C162_likelihood",
    "Verif.Props.C162_typical"
   ],
   "note": "Plain inputs and the value without the gradient. Inverse, determinant, products, logarithms and the Gamma function enter through their errors; nu + n is at most 340, overflow is left out. Numbers of C162_typical are worst-case bounds. C162_default and C162_fit are for at most 10 normalised responses in at most 2 dimensions and no prior mean."
  }
 ]
}