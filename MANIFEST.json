{
 "claims": [
  {
   "property": "C01",
   "status": "proved",
   "theorems": [
    "Minikalman.C01_mult_any_arithmetic",
    "Minikalman.C01_mult_is_product"
   ],
   "note": ""
  },
  {
   "property": "C02",
   "status": "proved",
   "theorems": [
    "Minikalman.C02_multBuffered_eq_mult",
    "Minikalman.C02_multBuffered_aux_assert",
    "Minikalman.C02_multBuffered_empty_panics"
   ],
   "note": ""
  },
  {
   "property": "C03",
   "status": "proved",
   "theorems": [
    "Minikalman.C03_multRowvector_any_arithmetic",
    "Minikalman.C03_multRowvector_is_mulVec",
    "Minikalman.C03_multRowvector_empty_panics"
   ],
   "note": ""
  },
  {
   "property": "C04",
   "status": "proved",
   "theorems": [
    "Minikalman.C04_multaddRowvector_any_arithmetic",
    "Minikalman.C04_multaddRowvector_adds_mulVec"
   ],
   "note": ""
  },
  {
   "property": "C05",
   "status": "proved",
   "theorems": [
    "Minikalman.C05_multTransb_any_arithmetic",
    "Minikalman.C05_multTransb_is_product",
    "Minikalman.C05_multTransb_eq_mult_transposed"
   ],
   "note": ""
  },
  {
   "property": "C06",
   "status": "proved",
   "theorems": [
    "Minikalman.C06_multaddTransb_any_arithmetic",
    "Minikalman.C06_multaddTransb_adds_product",
    "Minikalman.C06_multscaleTransb_any_arithmetic",
    "Minikalman.C06_multscaleTransb_is_scaled_product"
   ],
   "note": ""
  },
  {
   "property": "C07",
   "status": "proved",
   "theorems": [
    "Minikalman.C07_sub",
    "Minikalman.C07_addInplaceB",
    "Minikalman.C07_subInplaceB",
    "Minikalman.C07_addInplaceA",
    "Minikalman.C07_subInplaceA"
   ],
   "note": ""
  },
  {
   "property": "C08",
   "status": "proved",
   "theorems": [
    "Minikalman.C08_copyTo",
    "Minikalman.C08_copy_copyFrom",
    "Minikalman.C08_copyTo_empty_panics"
   ],
   "note": ""
  },
  {
   "property": "C09",
   "status": "proved",
   "theorems": [
    "Minikalman.C09_getColumnCopy"
   ],
   "note": ""
  },
  {
   "property": "C10",
   "status": "partial",
   "theorems": [
    "Minikalman.C10_getRowCopy_actual",
    "Minikalman.C10_getRowCopy_row0_partial",
    "Minikalman.C10_getRowCopy_wrong"
   ],
   "note": "The property is false of the code for row >= 1 (get_row_copy uses row*(COLS-1)). Proved: the exact behaviour for all inputs, correctness for row 0, and a refutation for every row >= 1 and every shape."
  },
  {
   "property": "C11",
   "status": "proved",
   "theorems": [
    "Minikalman.C11_set_get",
    "Minikalman.C11_setSymmetric",
    "Minikalman.C11_index_eq_get",
    "Minikalman.C11_typed_accessors"
   ],
   "note": ""
  },
  {
   "property": "C12",
   "status": "proved",
   "theorems": [
    "Minikalman.C12_makeComatrix",
    "Minikalman.C12_makeIdentity",
    "Minikalman.C12_makeScalar",
    "Minikalman.C12_setDiagonalToScalar"
   ],
   "note": ""
  },
  {
   "property": "C13",
   "status": "proved",
   "theorems": [
    "Minikalman.C13_setAll",
    "Minikalman.C13_setZero_clear"
   ],
   "note": ""
  },
  {
   "property": "C14",
   "status": "proved",
   "theorems": [
    "Minikalman.C14_cholesky_factor",
    "Minikalman.C14_cholesky_factor_unique"
   ],
   "note": ""
  },
  {
   "property": "C15",
   "status": "proved",
   "theorems": [
    "Minikalman.C15_cholesky_true_iff_posDef",
    "Minikalman.C15_cholesky_empty"
   ],
   "note": ""
  },
  {
   "property": "C16",
   "status": "proved",
   "theorems": [
    "Minikalman.C16_cholesky_upper_only"
   ],
   "note": ""
  },
  {
   "property": "C17",
   "status": "proved",
   "theorems": [
    "Minikalman.C17_invert_is_inverse",
    "Minikalman.C17_cholesky_then_invert",
    "Minikalman.C17_invert_empty_panics"
   ],
   "note": ""
  },
  {
   "property": "C18",
   "status": "proved",
   "theorems": [
    "Minikalman.C18_invert_symmetric"
   ],
   "note": ""
  },
  {
   "property": "C19",
   "status": "proved",
   "theorems": [
    "Minikalman.C19_invert_independent"
   ],
   "note": ""
  },
  {
   "property": "C20",
   "status": "proved",
   "theorems": [
    "Minikalman.C20_mult_ok_iff",
    "Minikalman.C20_multRowvector_ok_iff",
    "Minikalman.C20_multaddRowvector_ok_iff",
    "Minikalman.C20_multTransb_ok_iff",
    "Minikalman.C20_multaddTransb_ok_iff",
    "Minikalman.C20_multscaleTransb_ok_iff",
    "Minikalman.C20_copyTo_ok_iff",
    "Minikalman.C20_sub_ok_iff",
    "Minikalman.C20_inplace_ok_iff",
    "Minikalman.C20_square_ok_iff",
    "Minikalman.C20_cholesky",
    "Minikalman.C20_invert",
    "Minikalman.C20_invert_ok_iff"
   ],
   "note": ""
  },
  {
   "property": "C21",
   "status": "proved",
   "theorems": [
    "Minikalman.C21_predict_any_arithmetic",
    "Minikalman.C21_predict",
    "Minikalman.C21_predict_no_states_panics"
   ],
   "note": ""
  },
  {
   "property": "C22",
   "status": "proved",
   "theorems": [
    "Minikalman.C22_predictTuned",
    "Minikalman.C22_predictTuned_one",
    "Minikalman.C22_predictTuned_panics"
   ],
   "note": ""
  },
  {
   "property": "C23",
   "status": "proved",
   "theorems": [
    "Minikalman.C23_control",
    "Minikalman.C23_control_empty",
    "Minikalman.C23_control_no_states"
   ],
   "note": ""
  },
  {
   "property": "C24",
   "status": "proved",
   "theorems": [
    "Minikalman.C24_correct"
   ],
   "note": ""
  },
  {
   "property": "C25",
   "status": "partial",
   "theorems": [
    "Minikalman.C25_failed_cholesky_corrupts",
    "Minikalman.C25_correct_never_signals",
    "Minikalman.C25_correct_posDef_partial"
   ],
   "note": "The property is false of the code: the Boolean of cholesky_decompose_lower is dropped. Proved: a concrete counterexample run, that correct never signals, and correctness in the positive definite case; C103 proves exactly what is computed in the other case."
  },
  {
   "property": "C26",
   "status": "proved",
   "theorems": [
    "Minikalman.C26_filter_inputs_kept",
    "Minikalman.C26_control_inputs_kept",
    "Minikalman.C26_observation_inputs_kept"
   ],
   "note": ""
  },
  {
   "property": "C27",
   "status": "proved",
   "theorems": [
    "Minikalman.C27_predict_temporaries",
    "Minikalman.C27_predictTuned_temporaries",
    "Minikalman.C27_control_temporaries",
    "Minikalman.C27_correct_temporaries"
   ],
   "note": ""
  },
  {
   "property": "C28",
   "status": "proved",
   "theorems": [
    "Minikalman.C28_covariance_symmetric"
   ],
   "note": ""
  },
  {
   "property": "C29",
   "status": "proved",
   "theorems": [
    "Minikalman.C29_covariance_psd",
    "Minikalman.C29_every_cholesky_succeeds"
   ],
   "note": ""
  },
  {
   "property": "C30",
   "status": "proved",
   "theorems": [
    "Minikalman.C30_correct_reduces_uncertainty",
    "Minikalman.C30_correct_reduces_uncertainty_symmetric"
   ],
   "note": ""
  },
  {
   "property": "C31",
   "status": "proved",
   "theorems": [
    "Minikalman.C31_joseph_form"
   ],
   "note": ""
  },
  {
   "property": "C32",
   "status": "proved",
   "theorems": [
    "Minikalman.C32_gain_optimal"
   ],
   "note": ""
  },
  {
   "property": "C33",
   "status": "proved",
   "theorems": [
    "Minikalman.C33_information_form"
   ],
   "note": ""
  },
  {
   "property": "C34",
   "status": "proved",
   "theorems": [
    "Minikalman.C34_zero_innovation",
    "Minikalman.C34_zero_observation_matrix"
   ],
   "note": ""
  },
  {
   "property": "C35",
   "status": "proved",
   "theorems": [
    "Minikalman.C35_covariance_independent_of_data",
    "Minikalman.C35_gain_independent_of_data"
   ],
   "note": ""
  },
  {
   "property": "C36",
   "status": "proved",
   "theorems": [
    "Minikalman.C36_superposition"
   ],
   "note": ""
  },
  {
   "property": "C37",
   "status": "proved",
   "theorems": [
    "Minikalman.C37_predict_linear",
    "Minikalman.C37_predictTuned_linear",
    "Minikalman.C37_correct_linear",
    "Minikalman.C37_history_linear",
    "Minikalman.C37_history_linear_exists"
   ],
   "note": ""
  },
  {
   "property": "C38",
   "status": "proved",
   "theorems": [
    "Minikalman.C38_predict_calls_once",
    "Minikalman.C38_predictTuned_calls_once",
    "Minikalman.C38_correct_calls_once",
    "Minikalman.C38_unwritten_cell_is_stale",
    "Minikalman.C38_closure_panics",
    "Minikalman.C38_history_call_count"
   ],
   "note": ""
  },
  {
   "property": "C39",
   "status": "proved",
   "theorems": [
    "Minikalman.C39_regular_filter",
    "Minikalman.C39_extended_filter",
    "Minikalman.C39_control",
    "Minikalman.C39_regular_observation",
    "Minikalman.C39_extended_observation",
    "Minikalman.C39_program",
    "Minikalman.C39_extended_program",
    "Minikalman.C39_assembled_filter",
    "Minikalman.C39_assembled_extended_filter",
    "Minikalman.C39_assembled_control",
    "Minikalman.C39_assembled_observation",
    "Minikalman.C39_assembled_extended_observation"
   ],
   "note": ""
  },
  {
   "property": "C40",
   "status": "proved",
   "theorems": [
    "Minikalman.C40_built_program_never_panics",
    "Minikalman.C40_built_program_only_scalar_panics",
    "Minikalman.C40_built_extended_program_never_panics",
    "Minikalman.C40_history_never_panics",
    "Minikalman.C40_history_only_scalar_panics"
   ],
   "note": ""
  },
  {
   "property": "C41",
   "status": "proved",
   "theorems": [
    "Minikalman.C41_isValid_iff_length",
    "Minikalman.C41_isValid_iff_get",
    "Minikalman.C41_isEmpty",
    "Minikalman.C41_slice_accepted",
    "Minikalman.C41_slice_rejected",
    "Minikalman.C41_slice_unchecked",
    "Minikalman.C41_array_accepted",
    "Minikalman.C41_array_rejected",
    "Minikalman.C41_vector_array",
    "Minikalman.C41_checked_storage",
    "Minikalman.C41_matrix_data_new",
    "Minikalman.C41_into_inner"
   ],
   "note": ""
  },
  {
   "property": "C42",
   "status": "proved",
   "theorems": [
    "Minikalman.C42_filter_surplus"
   ],
   "note": ""
  },
  {
   "property": "C43",
   "status": "proved",
   "theorems": [
    "Minikalman.C43_sequential_eq_batch",
    "Minikalman.C43_measurement_permutation"
   ],
   "note": ""
  },
  {
   "property": "C44",
   "status": "proved",
   "theorems": [
    "Minikalman.C44_tuned_inflates"
   ],
   "note": ""
  },
  {
   "property": "C45",
   "status": "proved",
   "theorems": [
    "Minikalman.C45_controls_commute"
   ],
   "note": ""
  },
  {
   "property": "C46",
   "status": "proved",
   "theorems": [
    "Minikalman.C46_sizes",
    "Minikalman.C46_statics",
    "Minikalman.C46_static_objects",
    "Minikalman.C46_sliced_objects",
    "Minikalman.C46_static_program_valid"
   ],
   "note": ""
  },
  {
   "property": "C47",
   "status": "proved",
   "theorems": [
    "Minikalman.C47_get_aliases",
    "Minikalman.C47_get_ok_iff"
   ],
   "note": ""
  },
  {
   "property": "C48",
   "status": "proved",
   "theorems": [
    "Minikalman.C48_nalgebra_get",
    "Minikalman.C48_nalgebra_get_in_bounds",
    "Minikalman.C48_nalgebra_injective",
    "Minikalman.C48_nalgebra_slice_iff",
    "Minikalman.C48_nalgebra_slice_row_major",
    "Minikalman.C48_unchecked_array_out_of_bounds",
    "Minikalman.C48_slice_not_column_major"
   ],
   "note": ""
  },
  {
   "property": "C49",
   "status": "proved",
   "theorems": [
    "Minikalman.C49_buffers_after_correct"
   ],
   "note": ""
  },
  {
   "property": "C50",
   "status": "proved",
   "theorems": [
    "Minikalman.C50_predict_monotone",
    "Minikalman.C50_predictTuned_monotone",
    "Minikalman.C50_control_monotone",
    "Minikalman.C50_correct_monotone"
   ],
   "note": ""
  },
  {
   "property": "C51",
   "status": "proved",
   "theorems": [
    "Minikalman.C51_refines_textbook"
   ],
   "note": ""
  },
  {
   "property": "C52",
   "status": "proved",
   "theorems": [
    "Minikalman.C52_refines_textbook_ekf"
   ],
   "note": ""
  },
  {
   "property": "C53",
   "status": "proved",
   "theorems": [
    "Minikalman.C53_covariance_symmetric",
    "Minikalman.C53_covariance_psd"
   ],
   "note": ""
  },
  {
   "property": "C54",
   "status": "proved",
   "theorems": [
    "Minikalman.C54_covariance_independent_of_functions"
   ],
   "note": ""
  },
  {
   "property": "C55",
   "status": "proved",
   "theorems": [
    "Minikalman.C55_history_only_closure_or_scalar_panics",
    "Minikalman.C55_history_never_panics"
   ],
   "note": ""
  },
  {
   "property": "C56",
   "status": "proved",
   "theorems": [
    "Minikalman.C56_documented_aliasing_is_harmless",
    "Minikalman.C56_sInv_pht_must_differ",
    "Minikalman.C56_hp_khp_must_differ"
   ],
   "note": ""
  },
  {
   "property": "C57",
   "status": "proved",
   "theorems": [
    "Minikalman.C57_sharing_temporaries_is_harmless"
   ],
   "note": ""
  },
  {
   "property": "C58",
   "status": "proved",
   "theorems": [
    "Minikalman.C58_cholesky_never_panics",
    "Minikalman.C58_invert_after_success_never_panics",
    "Minikalman.C58_correct_panics_only_after_failed_cholesky",
    "Minikalman.C58_nonpositive_variance_panics",
    "Minikalman.C58_unset_observation_panics",
    "Minikalman.C58_fixed_point_safe_roots",
    "Minikalman.C58_fixed_point_fresh_filter_panics"
   ],
   "note": ""
  },
  {
   "property": "C59",
   "status": "proved",
   "theorems": [
    "Minikalman.C59_mult_rounding",
    "Minikalman.C59_multTransb_rounding",
    "Minikalman.C59_multRowvector_rounding",
    "Minikalman.C59_multaddRowvector_rounding",
    "Minikalman.C59_predict_rounding",
    "Minikalman.C59_predict_asymmetry",
    "Minikalman.C59_control_rounding",
    "Minikalman.C59_correct_state_rounding"
   ],
   "note": ""
  },
  {
   "property": "C60",
   "status": "proved",
   "theorems": [
    "Minikalman.C60_cholesky_recurrence",
    "Minikalman.C60_cholesky_failure",
    "Minikalman.C60_cholesky_backward_error",
    "Minikalman.C60_cholesky_relative_error"
   ],
   "note": ""
  },
  {
   "property": "C61",
   "status": "proved",
   "theorems": [
    "Minikalman.C61_reported_covariance",
    "Minikalman.C61_unbiased"
   ],
   "note": ""
  },
  {
   "property": "C62",
   "status": "proved",
   "theorems": [
    "Minikalman.C62_conservative"
   ],
   "note": ""
  },
  {
   "property": "C63",
   "status": "proved",
   "theorems": [
    "Minikalman.C63_innovation_covariance",
    "Minikalman.C63_innovations_white"
   ],
   "note": ""
  },
  {
   "property": "C64",
   "status": "proved",
   "theorems": [
    "Minikalman.C64_best_linear_estimate"
   ],
   "note": ""
  },
  {
   "property": "C65",
   "status": "proved",
   "theorems": [
    "Minikalman.C65_exact_tracking"
   ],
   "note": ""
  },
  {
   "property": "C66",
   "status": "proved",
   "theorems": [
    "Minikalman.C66_calls_are_the_steps",
    "Minikalman.C66_restore_after_interruption",
    "Minikalman.C66_catching_panics_is_safe",
    "Minikalman.C66_model_untouched",
    "Minikalman.C66_state_before_covariance"
   ],
   "note": ""
  },
  {
   "property": "C67",
   "status": "proved",
   "theorems": [
    "Minikalman.C67_failed_correct_changes_nothing",
    "Minikalman.C67_failed_correct_exists",
    "Minikalman.C67_predict_control_do_not_fail",
    "Minikalman.C67_failed_predict_tuned_moves_state",
    "Minikalman.C67_failed_closure_in_predict",
    "Minikalman.C67_failed_correct_nonlinear_changes_nothing",
    "Minikalman.C67_calls_are_the_steps",
    "Minikalman.C67_small_lambda_panics",
    "Minikalman.C67_small_lambda_moves_state"
   ],
   "note": ""
  },
  {
   "property": "C68",
   "status": "proved",
   "theorems": [
    "Minikalman.C68_coordinates",
    "Minikalman.C68_part",
    "Minikalman.C68_covariance_scale"
   ],
   "note": ""
  },
  {
   "property": "C69",
   "status": "proved",
   "theorems": [
    "Minikalman.C69_least_squares",
    "Minikalman.C69_covariance_is_curvature",
    "Minikalman.C69_price"
   ],
   "note": ""
  },
  {
   "property": "C70",
   "status": "proved",
   "theorems": [
    "Minikalman.C70_history_monotone",
    "Minikalman.C70_variances"
   ],
   "note": ""
  },
  {
   "property": "C71",
   "status": "proved",
   "theorems": [
    "Minikalman.C71_gravity_test",
    "Minikalman.C71_gravity_tuned_test",
    "Minikalman.C71_gravity_tuned_test_errors",
    "Minikalman.C71_gravity_example",
    "Minikalman.C71_gravity_example_assertion"
   ],
   "note": ""
  },
  {
   "property": "C72",
   "status": "proved",
   "theorems": [
    "Minikalman.C72_predict_nonlinear",
    "Minikalman.C72_predict_tuned_nonlinear",
    "Minikalman.C72_correct_nonlinear",
    "Minikalman.C72_inputs_kept"
   ],
   "note": ""
  },
  {
   "property": "C73",
   "status": "partial",
   "theorems": [
    "Minikalman.C73_transition_closure",
    "Minikalman.C73_transition_jacobian",
    "Minikalman.C73_observation_closure",
    "Minikalman.C73_true_jacobian",
    "Minikalman.C73_observation_jacobian_partial",
    "Minikalman.C73_observation_jacobian_wrong",
    "Minikalman.C73_program_runs"
   ],
   "note": "The property is false of the code for the observation Jacobian. Proved: the true Jacobian, for every entry exactly when the code is right, a refutation at every state for the radar position of the example; the transition Jacobian, the closures and the run of the program are proved in full."
  },
  {
   "property": "C74",
   "status": "proved",
   "theorems": [
    "Minikalman.C74_inverse_recurrence",
    "Minikalman.C74_inverse_residuals",
    "Minikalman.C74_inverse_error",
    "Minikalman.C74_correct_rounding",
    "Minikalman.C74_correct_nonlinear_rounding",
    "Minikalman.C74_bounds_exact"
   ],
   "note": ""
  },
  {
   "property": "C75",
   "status": "proved",
   "theorems": [
    "Minikalman.C75_reordering",
    "Minikalman.C75_measurement_order",
    "Minikalman.C75_control_order",
    "Minikalman.C75_assignment_order"
   ],
   "note": ""
  },
  {
   "property": "C76",
   "status": "proved",
   "theorems": [
    "Minikalman.C76_information_adds_up",
    "Minikalman.C76_fusion",
    "Minikalman.C76_repetition_averages"
   ],
   "note": ""
  },
  {
   "property": "C77",
   "status": "proved",
   "theorems": [
    "Minikalman.C77_correctly_rounded",
    "Minikalman.C77_exceptional",
    "Minikalman.C77_not_finite",
    "Minikalman.C77_signs",
    "Minikalman.C77_rounding_errors",
    "Minikalman.C77_predict_state",
    "Minikalman.C77_predict_covariance",
    "Minikalman.C77_never_panics"
   ],
   "note": ""
  },
  {
   "property": "C78",
   "status": "proved",
   "theorems": [
    "Minikalman.C78_predict",
    "Minikalman.C78_correct",
    "Minikalman.C78_finite_state_history",
    "Minikalman.C78_finite_covariance_history",
    "Minikalman.C78_float_state_history"
   ],
   "note": ""
  },
  {
   "property": "C79",
   "status": "proved",
   "theorems": [
    "Minikalman.C79_infinite_noise"
   ],
   "note": ""
  },
  {
   "property": "C80",
   "status": "proved",
   "theorems": [
    "Minikalman.C80_residual",
    "Minikalman.C80_noise_free"
   ],
   "note": ""
  },
  {
   "property": "C81",
   "status": "proved",
   "theorems": [
    "Minikalman.C81_singular",
    "Minikalman.C81_first_variance"
   ],
   "note": ""
  },
  {
   "property": "C82",
   "status": "proved",
   "theorems": [
    "Minikalman.C82_worst_case_error",
    "Minikalman.C82_mahalanobis",
    "Minikalman.C82_initial_guess",
    "Minikalman.C82_within_iff"
   ],
   "note": ""
  },
  {
   "property": "C83",
   "status": "proved",
   "theorems": [
    "Minikalman.C83_noninterference",
    "Minikalman.C83_uncorrelated"
   ],
   "note": ""
  },
  {
   "property": "C84",
   "status": "proved",
   "theorems": [
    "Minikalman.C84_bounded",
    "Minikalman.C84_decreasing",
    "Minikalman.C84_increasing",
    "Minikalman.C84_unique_limit"
   ],
   "note": ""
  },
  {
   "property": "C85",
   "status": "proved",
   "theorems": [
    "Minikalman.C85_initial_guess_forgotten"
   ],
   "note": ""
  },
  {
   "property": "C86",
   "status": "proved",
   "theorems": [
    "Minikalman.C86_related_runs",
    "Minikalman.C86_related_programs",
    "Minikalman.C86_related_extended_runs",
    "Minikalman.C86_related_extended_programs",
    "Minikalman.C86_homomorphism",
    "Minikalman.C86_related_cholesky",
    "Minikalman.C86_related_invert",
    "Minikalman.C86_counting_changes_nothing"
   ],
   "note": ""
  },
  {
   "property": "C87",
   "status": "proved",
   "theorems": [
    "Minikalman.C87_add_exact",
    "Minikalman.C87_mul_rounds_down",
    "Minikalman.C87_sqrt_rounds_down",
    "Minikalman.C87_panics_iff",
    "Minikalman.C87_recip_error",
    "Minikalman.C87_predict_in_range",
    "Minikalman.C87_predict_in_bounds",
    "Minikalman.C87_control_in_range",
    "Minikalman.C87_watching_changes_nothing",
    "Minikalman.C87_watched_is_rounded"
   ],
   "note": ""
  },
  {
   "property": "C88",
   "status": "proved",
   "theorems": [
    "Minikalman.C88_gravity_fixed",
    "Minikalman.C88_gravity_fixed_no_overflow",
    "Minikalman.C88_gravity_fixed_program"
   ],
   "note": ""
  },
  {
   "property": "C89",
   "status": "proved",
   "theorems": [
    "Minikalman.C89_recorded_gains",
    "Minikalman.C89_record_succeeds",
    "Minikalman.C89_example"
   ],
   "note": ""
  },
  {
   "property": "C90",
   "status": "proved",
   "theorems": [
    "Minikalman.C90_gravity_test",
    "Minikalman.C90_gravity_tuned_test",
    "Minikalman.C90_gravity_tuned_test_errors",
    "Minikalman.C90_car"
   ],
   "note": ""
  },
  {
   "property": "C91",
   "status": "proved",
   "theorems": [
    "Minikalman.C91_regular",
    "Minikalman.C91_extended",
    "Minikalman.C91_regular_panics",
    "Minikalman.C91_extended_panics",
    "Minikalman.C91_built",
    "Minikalman.C91_extended_built",
    "Minikalman.C91_no_measurement"
   ],
   "note": ""
  },
  {
   "property": "C92",
   "status": "proved",
   "theorems": [
    "Minikalman.C92_float",
    "Minikalman.C92_float_rounded",
    "Minikalman.C92_float_covariances",
    "Minikalman.C92_fixed_point",
    "Minikalman.C92_fixed_point_no_overflow",
    "Minikalman.C92_exact",
    "Minikalman.C92_limit",
    "Minikalman.C92_rounded_arithmetics",
    "Minikalman.C92_extended_float",
    "Minikalman.C92_extended_float_covariances",
    "Minikalman.C92_extended_fixed_point",
    "Minikalman.C92_extended_exact",
    "Minikalman.C92_extended_limit"
   ],
   "note": ""
  },
  {
   "property": "C93",
   "status": "proved",
   "theorems": [
    "Minikalman.C93_without_checks",
    "Minikalman.C93_without_checks_extended",
    "Minikalman.C93_with_checks",
    "Minikalman.C93_with_checks_extended",
    "Minikalman.C93_results_agree",
    "Minikalman.C93_results_agree_extended",
    "Minikalman.C93_only_overflow_panics",
    "Minikalman.C93_panics_more",
    "Minikalman.C93_unused_product_panics",
    "Minikalman.C93_gravity_fixed_agrees",
    "Minikalman.C93_gravity_fixed_runs",
    "Minikalman.C93_gravity_fixed",
    "Minikalman.C93_enough_bits",
    "Minikalman.C93_enough_bits_covariances",
    "Minikalman.C93_built_program",
    "Minikalman.C93_operations",
    "Minikalman.C93_no_overflow"
   ],
   "note": ""
  },
  {
   "property": "C94",
   "status": "proved",
   "theorems": [
    "Minikalman.C94_linearised_system",
    "Minikalman.C94_worst_case_error",
    "Minikalman.C94_mahalanobis"
   ],
   "note": ""
  },
  {
   "property": "C95",
   "status": "proved",
   "theorems": [
    "Minikalman.C95_one_transition",
    "Minikalman.C95_repeated_predictions",
    "Minikalman.C95_repeated_tuned_predictions",
    "Minikalman.C95_repeated_control",
    "Minikalman.C95_merged",
    "Minikalman.C95_time_steps",
    "Minikalman.C95_unmeasured_direction",
    "Minikalman.C95_simple_test"
   ],
   "note": ""
  },
  {
   "property": "C96",
   "status": "proved",
   "theorems": [
    "Minikalman.C96_at_rest",
    "Minikalman.C96_extended_at_rest",
    "Minikalman.C96_fixed_point",
    "Minikalman.C96_floating_point",
    "Minikalman.C96_simple_test"
   ],
   "note": ""
  },
  {
   "property": "C97",
   "status": "proved",
   "theorems": [
    "Minikalman.C97_shrinking_error",
    "Minikalman.C97_exponential_convergence",
    "Minikalman.C97_bounded_error",
    "Minikalman.C97_linear_radius"
   ],
   "note": ""
  },
  {
   "property": "C98",
   "status": "proved",
   "theorems": [
    "Minikalman.C98_reduces_uncertainty",
    "Minikalman.C98_information_form",
    "Minikalman.C98_predicted_measurement",
    "Minikalman.C98_residual",
    "Minikalman.C98_gauss_newton",
    "Minikalman.C98_descent",
    "Minikalman.C98_stationary",
    "Minikalman.C98_monotone",
    "Minikalman.C98_overshoot",
    "Minikalman.C98_order_matters"
   ],
   "note": ""
  },
  {
   "property": "C99",
   "status": "proved",
   "theorems": [
    "Minikalman.C99_documented_aliasing_is_harmless",
    "Minikalman.C99_sharing_temporaries_is_harmless",
    "Minikalman.C99_temporaries_do_not_leak",
    "Minikalman.C99_surplus",
    "Minikalman.C99_reading_closure_leaks"
   ],
   "note": ""
  },
  {
   "property": "C100",
   "status": "proved",
   "theorems": [
    "Minikalman.C100_calls_are_the_step",
    "Minikalman.C100_restore_after_interruption",
    "Minikalman.C100_catching_panics_is_safe",
    "Minikalman.C100_model_untouched",
    "Minikalman.C100_state_before_covariance",
    "Minikalman.C100_failed_predict_tuned",
    "Minikalman.C100_transactions",
    "Minikalman.C100_transactions_extended",
    "Minikalman.C100_what_to_restore"
   ],
   "note": ""
  },
  {
   "property": "C101",
   "status": "proved",
   "theorems": [
    "Minikalman.C101_runs_as_on_slices",
    "Minikalman.C101_runs_as_on_slices_extended",
    "Minikalman.C101_storage_independent",
    "Minikalman.C101_crate_storages",
    "Minikalman.C101_wrappers_correct",
    "Minikalman.C101_never_panics",
    "Minikalman.C101_follows_textbook",
    "Minikalman.C101_contract_needed"
   ],
   "note": ""
  },
  {
   "property": "C102",
   "status": "proved",
   "theorems": [
    "Minikalman.C102_first_call",
    "Minikalman.C102_depends_only_on_leftovers",
    "Minikalman.C102_call_keeps",
    "Minikalman.C102_clean_call",
    "Minikalman.C102_with_symmetric_writes",
    "Minikalman.C102_settles",
    "Minikalman.C102_float_calls",
    "Minikalman.C102_float_results",
    "Minikalman.C102_fixed_calls"
   ],
   "note": ""
  },
  {
   "property": "C103",
   "status": "proved",
   "theorems": [
    "Minikalman.C103_stopped_unique",
    "Minikalman.C103_failed_correction",
    "Minikalman.C103_zero_pivot_panics",
    "Minikalman.C103_extended",
    "Minikalman.C103_looks_proper"
   ],
   "note": ""
  },
  {
   "property": "C104",
   "status": "proved",
   "theorems": [
    "Minikalman.C104_variances_never_grow",
    "Minikalman.C104_variances_never_grow_extended",
    "Minikalman.C104_variances_never_grow_fixed",
    "Minikalman.C104_measured_variance_nonnegative",
    "Minikalman.C104_measured_variance_nonnegative_extended",
    "Minikalman.C104_averaging",
    "Minikalman.C104_formats",
    "Minikalman.C104_not_without_conditions"
   ],
   "note": ""
  },
  {
   "property": "C105",
   "status": "proved",
   "theorems": [
    "Minikalman.C105_bounded_iff_determined",
    "Minikalman.C105_observable",
    "Minikalman.C105_bounded_forever",
    "Minikalman.C105_unique_limit",
    "Minikalman.C105_initial_guess_forgotten"
   ],
   "note": ""
  },
  {
   "property": "C106",
   "status": "proved",
   "theorems": [
    "Minikalman.C106_same_covariance",
    "Minikalman.C106_history_monotone",
    "Minikalman.C106_bounded_iff_determined",
    "Minikalman.C106_periodic",
    "Minikalman.C106_bitwise"
   ],
   "note": ""
  },
  {
   "property": "C107",
   "status": "proved",
   "theorems": [
    "Minikalman.C107_correct_in_range",
    "Minikalman.C107_no_overflow",
    "Minikalman.C107_I16F16_correct",
    "Minikalman.C107_I16F16_no_overflow"
   ],
   "note": ""
  },
  {
   "property": "C108",
   "status": "proved",
   "theorems": [
    "Minikalman.C108_runs_forever",
    "Minikalman.C108_after_correction",
    "Minikalman.C108_any_data",
    "Minikalman.C108_formats"
   ],
   "note": ""
  },
  {
   "property": "C109",
   "status": "proved",
   "theorems": [
    "Minikalman.C109_runs_forever",
    "Minikalman.C109_no_overflow",
    "Minikalman.C109_after_correction",
    "Minikalman.C109_any_data",
    "Minikalman.C109_with_overflow_checks",
    "Minikalman.C109_i16f16"
   ],
   "note": ""
  },
  {
   "property": "C110",
   "status": "proved",
   "theorems": [
    "Minikalman.C110_runs_forever",
    "Minikalman.C110_after_correction",
    "Minikalman.C110_any_functions",
    "Minikalman.C110_fixed_runs_forever",
    "Minikalman.C110_fixed_after_correction",
    "Minikalman.C110_fixed_any_functions",
    "Minikalman.C110_with_overflow_checks"
   ],
   "note": ""
  },
  {
   "property": "C111",
   "status": "proved",
   "theorems": [
    "Minikalman.C111_stays_in_range",
    "Minikalman.C111_never_negative",
    "Minikalman.C111_between",
    "Minikalman.C111_fixed_stays_in_range",
    "Minikalman.C111_with_overflow_checks",
    "Minikalman.C111_fixed_between",
    "Minikalman.C111_exact"
   ],
   "note": ""
  },
  {
   "property": "C112",
   "status": "proved",
   "theorems": [
    "Minikalman.C112_parts",
    "Minikalman.C112_panics",
    "Minikalman.C112_noninterference",
    "Minikalman.C112_fixed_point",
    "Minikalman.C112_exact",
    "Minikalman.C112_runs_forever"
   ],
   "note": ""
  },
  {
   "property": "C113",
   "status": "proved",
   "theorems": [
    "Minikalman.C113_parts",
    "Minikalman.C113_panics",
    "Minikalman.C113_noninterference"
   ],
   "note": ""
  },
  {
   "property": "C114",
   "status": "proved",
   "theorems": [
    "Minikalman.C114_coordinates",
    "Minikalman.C114_jacobian"
   ],
   "note": ""
  },
  {
   "property": "C115",
   "status": "proved",
   "theorems": [
    "Minikalman.C115_stays_in_range",
    "Minikalman.C115_between",
    "Minikalman.C115_exact_jacobian_overshoots"
   ],
   "note": ""
  },
  {
   "property": "C116",
   "status": "proved",
   "theorems": [
    "Minikalman.C116_late_measurement",
    "Minikalman.C116_without_noise",
    "Minikalman.C116_expressible"
   ],
   "note": ""
  },
  {
   "property": "C117",
   "status": "proved",
   "theorems": [
    "Minikalman.C117_copy"
   ],
   "note": ""
  },
  {
   "property": "C118",
   "status": "proved",
   "theorems": [
    "Minikalman.C118_known_exactly",
    "Minikalman.C118_never_certain"
   ],
   "note": ""
  }
 ]
}