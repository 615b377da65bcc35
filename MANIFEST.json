{
 "claims": [
  {
   "property": "C01",
   "status": "proved",
   "theorems": [
    "Verif.C01_quantize_in_range",
    "Verif.C01_uint32_counterexample",
    "Verif.C01_quantize_length"
   ],
   "note": ""
  },
  {
   "property": "C02",
   "status": "proved",
   "theorems": [
    "Verif.C02_quantize_monotone"
   ],
   "note": ""
  },
  {
   "property": "C03",
   "status": "proved",
   "theorems": [
    "Verif.C03_quantize_dequantize",
    "Verif.C03_array_roundtrip"
   ],
   "note": ""
  },
  {
   "property": "C04",
   "status": "proved",
   "theorems": [
    "Verif.C04_ties",
    "Verif.C04_quantize_nearest",
    "Verif.C04_error_half_step",
    "Verif.C04_saturates"
   ],
   "note": ""
  },
  {
   "property": "C05",
   "status": "proved",
   "theorems": [
    "Verif.C05_zero_exact"
   ],
   "note": ""
  },
  {
   "property": "C06",
   "status": "proved",
   "theorems": [
    "Verif.C06_policy_neighbours",
    "Verif.C06_base_policy_is_nearest",
    "Verif.C06_bad_shape_ignored",
    "Verif.C06_scalar_policy",
    "Verif.C06_policy_widens",
    "Verif.C06_policy_error_le_step"
   ],
   "note": ""
  },
  {
   "property": "C07",
   "status": "proved",
   "theorems": [
    "Verif.C07_one_entry_per_code",
    "Verif.C07_entry",
    "Verif.C07_entry_nearest",
    "Verif.C07_layer_reads_entry",
    "Verif.C07_missing_fields",
    "Verif.C07_out_of_range"
   ],
   "note": ""
  },
  {
   "property": "C08",
   "status": "proved",
   "theorems": [
    "Verif.C08_accepts_iff",
    "Verif.C08_range",
    "Verif.C08_rejects"
   ],
   "note": ""
  },
  {
   "property": "C09",
   "status": "proved",
   "theorems": [
    "Verif.C09_add_exact",
    "Verif.C09_mul_exact",
    "Verif.C09_sub_exact",
    "Verif.C09_literals",
    "Verif.C09_counterexamples",
    "Verif.C09_broadcast",
    "Verif.C09_negative_unsigned",
    "Verif.C09_64_bit_wraps",
    "Verif.C09_mixed_sign_label"
   ],
   "note": ""
  },
  {
   "property": "C10",
   "status": "proved",
   "theorems": [
    "Verif.C10_helpers_exact"
   ],
   "note": ""
  },
  {
   "property": "C11",
   "status": "proved",
   "theorems": [
    "Verif.C11_reduced_lut_correct",
    "Verif.C11_iter",
    "Verif.C11_index_past_end_returns_last",
    "Verif.C11_negative_index_returns_first"
   ],
   "note": ""
  },
  {
   "property": "C12",
   "status": "proved",
   "theorems": [
    "Verif.C12_roundtrip_lookup",
    "Verif.C12_roundtrip_json",
    "Verif.C12_deserialized_correct",
    "Verif.C12_deserialized_iter_empty"
   ],
   "note": ""
  },
  {
   "property": "C13",
   "status": "proved",
   "theorems": [
    "Verif.C13_asymmetric_exact",
    "Verif.C13_asymmetric_depth_one",
    "Verif.C13_asymmetric_right_iff"
   ],
   "note": ""
  },
  {
   "property": "C14",
   "status": "proved",
   "theorems": [
    "Verif.C14_interval_lists",
    "Verif.C14_partition",
    "Verif.C14_head_maximal"
   ],
   "note": ""
  },
  {
   "property": "C15",
   "status": "proved",
   "theorems": [
    "Verif.C15_rescale_error",
    "Verif.C15_small_factor_is_zero",
    "Verif.C15_wraps"
   ],
   "note": ""
  },
  {
   "property": "C16",
   "status": "proved",
   "theorems": [
    "Verif.C16_build_iff",
    "Verif.C16_build_normalised"
   ],
   "note": ""
  },
  {
   "property": "C17",
   "status": "proved",
   "theorems": [
    "Verif.C17_batches",
    "Verif.C17_output_in_range",
    "Verif.C17_accepts_iff"
   ],
   "note": ""
  },
  {
   "property": "C18",
   "status": "proved",
   "theorems": [
    "Verif.C18_no_overflow",
    "Verif.C18_bounds_of_int8"
   ],
   "note": ""
  },
  {
   "property": "C19",
   "status": "proved",
   "theorems": [
    "Verif.C19_bias_monotone",
    "Verif.C19_rescale_monotone"
   ],
   "note": ""
  },
  {
   "property": "C20",
   "status": "proved",
   "theorems": [
    "Verif.C20_fc_batch",
    "Verif.C20_network",
    "Verif.C20_lut_empty_batch_raises"
   ],
   "note": ""
  },
  {
   "property": "C21",
   "status": "proved",
   "theorems": [
    "Verif.C21_saturation",
    "Verif.C21_dense_accuracy"
   ],
   "note": ""
  },
  {
   "property": "C22",
   "status": "proved",
   "theorems": [
    "Verif.C22_zero_points_differ",
    "Verif.C22_overflow_wraps",
    "Verif.C22_relu_same_params",
    "Verif.C22_relu_rescale_error"
   ],
   "note": ""
  },
  {
   "property": "C23",
   "status": "proved",
   "theorems": [
    "Verif.C23_case_insensitive",
    "Verif.C23_choice_matches",
    "Verif.C23_unknown_iff",
    "Verif.C23_unique_match",
    "Verif.C23_documented",
    "Verif.C23_exact_names",
    "Verif.C23_build_layer",
    "Verif.C23_onnx",
    "Verif.C23_onnx_unknown"
   ],
   "note": ""
  },
  {
   "property": "C24",
   "status": "proved",
   "theorems": [
    "Verif.C24_composition",
    "Verif.C24_intermediate",
    "Verif.C24_last_intermediate",
    "Verif.C24_concat",
    "Verif.C24_load_preserves",
    "Verif.C24_load_fails",
    "Verif.C24_load_succeeds"
   ],
   "note": ""
  },
  {
   "property": "C25",
   "status": "proved",
   "theorems": [
    "Verif.C25_batches",
    "Verif.C25_range",
    "Verif.C25_matmul_accuracy",
    "Verif.C25_add_accuracy"
   ],
   "note": ""
  },
  {
   "property": "C26",
   "status": "proved",
   "theorems": [
    "Verif.C26_states_in_range",
    "Verif.C26_never_raises",
    "Verif.C26_exported_tables_answer"
   ],
   "note": ""
  },
  {
   "property": "C27",
   "status": "proved",
   "theorems": [
    "Verif.C27_batch",
    "Verif.C27_last"
   ],
   "note": ""
  },
  {
   "property": "C28",
   "status": "proved",
   "theorems": [
    "Verif.C28_prefix",
    "Verif.C28_causal"
   ],
   "note": ""
  },
  {
   "property": "C29",
   "status": "proved",
   "theorems": [
    "Verif.C29_valid_parameters",
    "Verif.C29_all_zero"
   ],
   "note": ""
  },
  {
   "property": "C30",
   "status": "proved",
   "theorems": [
    "Verif.C30_half_step",
    "Verif.C30_saturation"
   ],
   "note": ""
  },
  {
   "property": "C31",
   "status": "proved",
   "theorems": [
    "Verif.C31_symmetric",
    "Verif.C31_asymmetric"
   ],
   "note": ""
  },
  {
   "property": "C32",
   "status": "proved",
   "theorems": [
    "Verif.C32_history",
    "Verif.C32_bins",
    "Verif.C32_min_max",
    "Verif.C32_full_slice",
    "Verif.C32_compose",
    "Verif.C32_reversed_bounds",
    "Verif.C32_stop_below_range",
    "Verif.C32_narrow_slice"
   ],
   "note": ""
  },
  {
   "property": "C33",
   "status": "proved",
   "theorems": [
    "Verif.C33_bias_scale",
    "Verif.C33_update_total",
    "Verif.C33_direct_bias_update"
   ],
   "note": ""
  },
  {
   "property": "C34",
   "status": "proved",
   "theorems": [
    "Verif.C34_stored_integers_agree",
    "Verif.C34_float_tensor_constant",
    "Verif.C34_initially_nearest",
    "Verif.C34_no_requantize",
    "Verif.C34_reset_scale_disagrees",
    "Verif.C34_update_loses_nearest",
    "Verif.C34_history_refines"
   ],
   "note": ""
  },
  {
   "property": "C35",
   "status": "proved",
   "theorems": [
    "Verif.C35_dequantized_iff",
    "Verif.C35_dequantized_offset"
   ],
   "note": ""
  },
  {
   "property": "C36",
   "status": "proved",
   "theorems": [
    "Verif.C36_after_construction",
    "Verif.C36_input_history",
    "Verif.C36_stale",
    "Verif.C36_input_update_not_nearest",
    "Verif.C36_output_node_update"
   ],
   "note": ""
  },
  {
   "property": "C37",
   "status": "proved",
   "theorems": [
    "Verif.C37_energy_is_error",
    "Verif.C37_minimiser_iff",
    "Verif.C37_quantized_layer",
    "Verif.C37_saturation",
    "Verif.C37_tie"
   ],
   "note": ""
  },
  {
   "property": "C38",
   "status": "proved",
   "theorems": [
    "Verif.C38_labels_injective",
    "Verif.C38_no_coupling",
    "Verif.C38_nothing_overwritten",
    "Verif.C38_joint_minimum"
   ],
   "note": ""
  },
  {
   "property": "C39",
   "status": "proved",
   "theorems": [
    "Verif.C39_columns",
    "Verif.C39_decode",
    "Verif.C39_optimal_rounding"
   ],
   "note": ""
  },
  {
   "property": "C40",
   "status": "proved",
   "theorems": [
    "Verif.C40_move",
    "Verif.C40_history",
    "Verif.C40_matrix"
   ],
   "note": ""
  },
  {
   "property": "C41",
   "status": "proved",
   "theorems": [
    "Verif.C41_refinement",
    "Verif.C41_never_worse",
    "Verif.C41_returns_policies",
    "Verif.C41_zero_energy_is_lost",
    "Verif.C41_any_energy",
    "Verif.C41_never_worse_nonpositive",
    "Verif.C41_terminates",
    "Verif.C41_adaround_terminates"
   ],
   "note": ""
  },
  {
   "property": "C42",
   "status": "proved",
   "theorems": [
    "Verif.C42_never_worse",
    "Verif.C42_costs_decrease",
    "Verif.C42_terminates",
    "Verif.C42_may_run_forever",
    "Verif.C42_fresh_nodes_consistent"
   ],
   "note": ""
  },
  {
   "property": "C43",
   "status": "proved",
   "theorems": [
    "Verif.C43_scale_step",
    "Verif.C43_scale_history",
    "Verif.C43_step_size",
    "Verif.C43_nonpositive_raises",
    "Verif.C43_zero_point_step",
    "Verif.C43_zero_point_history"
   ],
   "note": ""
  },
  {
   "property": "C44",
   "status": "proved",
   "theorems": [
    "Verif.C44_value",
    "Verif.C44_distinct",
    "Verif.C44_zero_iff",
    "Verif.C44_order",
    "Verif.C44_repeated_weight",
    "Verif.C44_tolerance_value",
    "Verif.C44_rounding_exists",
    "Verif.C44_tolerance_negative"
   ],
   "note": ""
  },
  {
   "property": "C45",
   "status": "proved",
   "theorems": [
    "Verif.C45_operators",
    "Verif.C45_unsupported",
    "Verif.C45_wiring",
    "Verif.C45_layout"
   ],
   "note": ""
  },
  {
   "property": "C46",
   "status": "proved",
   "theorems": [
    "Verif.C46_fields",
    "Verif.C46_idempotent",
    "Verif.C46_defaults",
    "Verif.C46_fixed_iff",
    "Verif.C46_build_plain",
    "Verif.C46_no_loss",
    "Verif.C46_specific_kept",
    "Verif.C46_layer_adaround_fails",
    "Verif.C46_symmetric_kernels"
   ],
   "note": ""
  },
  {
   "property": "C47",
   "status": "proved",
   "theorems": [
    "Verif.C47_faithful",
    "Verif.C47_succeeds_iff",
    "Verif.C47_dense_without_bias",
    "Verif.C47_conv_variants",
    "Verif.C47_not_executable"
   ],
   "note": ""
  },
  {
   "property": "C48",
   "status": "proved",
   "theorems": [
    "Verif.C48_fusion",
    "Verif.C48_consumes_all",
    "Verif.C48_text_prefix",
    "Verif.C48_tanh_fusion",
    "Verif.C48_sigmoid_table",
    "Verif.C48_converted_network",
    "Verif.C48_first_value_info_lost"
   ],
   "note": ""
  },
  {
   "property": "C49",
   "status": "proved",
   "theorems": [
    "Verif.C49_matmul_weights",
    "Verif.C49_matmul_accuracy"
   ],
   "note": ""
  },
  {
   "property": "C50",
   "status": "proved",
   "theorems": [
    "Verif.C50_nothing_lost",
    "Verif.C50_succeeds_iff",
    "Verif.C50_chunk_sizes",
    "Verif.C50_message_round_trip",
    "Verif.C50_dimensions",
    "Verif.C50_dimensions_lost"
   ],
   "note": ""
  },
  {
   "property": "C51",
   "status": "proved",
   "theorems": [
    "Verif.C51_matched",
    "Verif.C51_in_time",
    "Verif.C51_completes",
    "Verif.C51_duplicate_wrong",
    "Verif.C51_late_wrong",
    "Verif.C51_late_signal"
   ],
   "note": ""
  },
  {
   "property": "C52",
   "status": "proved",
   "theorems": [
    "Verif.C52_layout",
    "Verif.C52_loads",
    "Verif.C52_runs",
    "Verif.C52_model",
    "Verif.C52_first_layer"
   ],
   "note": ""
  },
  {
   "property": "C53",
   "status": "proved",
   "theorems": [
    "Verif.C53_softmax_single",
    "Verif.C53_softmax_batch_wrong"
   ],
   "note": ""
  },
  {
   "property": "C54",
   "status": "proved",
   "theorems": [
    "Verif.C54_recurrent_offset",
    "Verif.C54_offset_harmless_iff",
    "Verif.C54_initial_state"
   ],
   "note": ""
  },
  {
   "property": "C55",
   "status": "proved",
   "theorems": [
    "Verif.C55_cell_accuracy",
    "Verif.C55_hidden_accuracy",
    "Verif.C55_gate_accuracy",
    "Verif.C55_saturation",
    "Verif.C55_gate_saturation"
   ],
   "note": ""
  },
  {
   "property": "C56",
   "status": "proved",
   "theorems": [
    "Verif.C56_symmetry_lost"
   ],
   "note": ""
  },
  {
   "property": "C57",
   "status": "proved",
   "theorems": [
    "Verif.C57_handed_on",
    "Verif.C57_relu_unrectified"
   ],
   "note": ""
  },
  {
   "property": "C58",
   "status": "proved",
   "theorems": [
    "Verif.C58_rejected_candidate_stays",
    "Verif.C58_last_not_best",
    "Verif.C58_returned_list",
    "Verif.C58_example"
   ],
   "note": ""
  },
  {
   "property": "C59",
   "status": "proved",
   "theorems": [
    "Verif.C59_quantization_succeeds",
    "Verif.C59_kernel_dtype_fails"
   ],
   "note": ""
  },
  {
   "property": "C60",
   "status": "proved",
   "theorems": [
    "Verif.C60_fused_relu",
    "Verif.C60_fused_relu6",
    "Verif.C60_relu6_lost",
    "Verif.C60_dead_raises"
   ],
   "note": ""
  },
  {
   "property": "C61",
   "status": "proved",
   "theorems": [
    "Verif.C61_loads_iff",
    "Verif.C61_unknown_activation",
    "Verif.C61_log_softmax_lost"
   ],
   "note": ""
  },
  {
   "property": "C62",
   "status": "proved",
   "theorems": [
    "Verif.C62_accuracy",
    "Verif.C62_calibration_samples",
    "Verif.C62_batch"
   ],
   "note": ""
  },
  {
   "property": "C63",
   "status": "proved",
   "theorems": [
    "Verif.C63_layout",
    "Verif.C63_defaults",
    "Verif.C63_narrow_table"
   ],
   "note": ""
  },
  {
   "property": "C64",
   "status": "proved",
   "theorems": [
    "Verif.C64_calibrated"
   ],
   "note": ""
  },
  {
   "property": "C65",
   "status": "proved",
   "theorems": [
    "Verif.C65_float_output",
    "Verif.C65_ranges",
    "Verif.C65_accumulators",
    "Verif.C65_saturates"
   ],
   "note": ""
  },
  {
   "property": "C66",
   "status": "proved",
   "theorems": [
    "Verif.C66_faithful",
    "Verif.C66_converts_iff",
    "Verif.C66_per_channel",
    "Verif.C66_duplicate_names",
    "Verif.C66_fused_activation_ignored"
   ],
   "note": ""
  },
  {
   "property": "C67",
   "status": "proved",
   "theorems": [
    "Verif.C67_loss_matched",
    "Verif.C67_lag"
   ],
   "note": ""
  },
  {
   "property": "C68",
   "status": "proved",
   "theorems": [
    "Verif.C68_build_iff",
    "Verif.C68_product",
    "Verif.C68_flush",
    "Verif.C68_monotone"
   ],
   "note": ""
  },
  {
   "property": "C69",
   "status": "proved",
   "theorems": [
    "Verif.C69_tanh",
    "Verif.C69_logistic",
    "Verif.C69_logistic_error",
    "Verif.C69_relu",
    "Verif.C69_quantize",
    "Verif.C69_dequantize",
    "Verif.C69_qlinear_sigmoid"
   ],
   "note": ""
  },
  {
   "property": "C70",
   "status": "proved",
   "theorems": [
    "Verif.C70_never_worse",
    "Verif.C70_still_loads",
    "Verif.C70_base_is_stepless",
    "Verif.C70_steps",
    "Verif.C70_lstm_raises",
    "Verif.C70_same_structure",
    "Verif.C70_dense_operators",
    "Verif.C70_integers",
    "Verif.C70_adaround_export",
    "Verif.C70_adaround_step"
   ],
   "note": ""
  },
  {
   "property": "C71",
   "status": "proved",
   "theorems": [
    "Verif.C71_activation",
    "Verif.C71_uint8_activation",
    "Verif.C71_fully_connected",
    "Verif.C71_quantize",
    "Verif.C71_requantize_wrong",
    "Verif.C71_dequantize",
    "Verif.C71_softmax_identity",
    "Verif.C71_network"
   ],
   "note": ""
  },
  {
   "property": "C72",
   "status": "proved",
   "theorems": [
    "Verif.C72_correct_rounding",
    "Verif.C72_float_range",
    "Verif.C72_float_monotone",
    "Verif.C72_float_agrees",
    "Verif.C72_float_accuracy",
    "Verif.C72_float_roundtrip",
    "Verif.C72_float_zero",
    "Verif.C72_float_dequantize",
    "Verif.C72_tie_differs"
   ],
   "note": ""
  },
  {
   "property": "C73",
   "status": "proved",
   "theorems": [
    "Verif.C73_float_base_policy",
    "Verif.C73_largest_weight"
   ],
   "note": ""
  },
  {
   "property": "C74",
   "status": "proved",
   "theorems": [
    "Verif.C74_float_valid_parameters",
    "Verif.C74_float_half_step",
    "Verif.C74_float_symmetric"
   ],
   "note": ""
  },
  {
   "property": "C75",
   "status": "proved",
   "theorems": [
    "Verif.C75_float_rescale",
    "Verif.C75_float_dense_saturation",
    "Verif.C75_float_dense_accuracy"
   ],
   "note": ""
  },
  {
   "property": "C76",
   "status": "proved",
   "theorems": [
    "Verif.C76_percent_domain",
    "Verif.C76_percent_collapses",
    "Verif.C76_percent_extremes",
    "Verif.C76_percent_step",
    "Verif.C76_kl_reduce",
    "Verif.C76_kl_drops_top",
    "Verif.C76_kl_keeps_offset"
   ],
   "note": ""
  },
  {
   "property": "C77",
   "status": "proved",
   "theorems": [
    "Verif.C77_lstm_raises",
    "Verif.C77_never_worse",
    "Verif.C77_each_layer",
    "Verif.C77_earlier_layers",
    "Verif.C77_same_structure",
    "Verif.C77_dense_operators",
    "Verif.C77_returns"
   ],
   "note": ""
  },
  {
   "property": "C78",
   "status": "proved",
   "theorems": [
    "Verif.C78_mean_exact",
    "Verif.C78_report",
    "Verif.C78_sum",
    "Verif.C78_other_layers",
    "Verif.C78_names_distinct",
    "Verif.C78_kernel_zero"
   ],
   "note": ""
  },
  {
   "property": "C79",
   "status": "proved",
   "theorems": [
    "Verif.C79_same_qubo",
    "Verif.C79_energy_is_error",
    "Verif.C79_second_pass_wins",
    "Verif.C79_deterministic"
   ],
   "note": ""
  },
  {
   "property": "C80",
   "status": "proved",
   "theorems": [
    "Verif.C80_entries",
    "Verif.C80_quadratic_form",
    "Verif.C80_both_files",
    "Verif.C80_symmetric",
    "Verif.C80_blocks",
    "Verif.C80_printed"
   ],
   "note": ""
  },
  {
   "property": "C81",
   "status": "proved",
   "theorems": [
    "Verif.C81_same_program",
    "Verif.C81_decode",
    "Verif.C81_optimal"
   ],
   "note": ""
  },
  {
   "property": "C82",
   "status": "proved",
   "theorems": [
    "Verif.C82_exact_sampler",
    "Verif.C82_completes",
    "Verif.C82_same_structure",
    "Verif.C82_integers",
    "Verif.C82_optimal",
    "Verif.C82_not_worse",
    "Verif.C82_export",
    "Verif.C82_loss_ignored",
    "Verif.C82_lstm_raises",
    "Verif.C82_activation_worse"
   ],
   "note": ""
  },
  {
   "property": "C83",
   "status": "proved",
   "theorems": [
    "Verif.C83_sequence",
    "Verif.C83_uniform",
    "Verif.C83_calibrated_in_range",
    "Verif.C83_network",
    "Verif.C83_calibration"
   ],
   "note": ""
  },
  {
   "property": "C84",
   "status": "proved",
   "theorems": [
    "Verif.C84_network",
    "Verif.C84_operators",
    "Verif.C84_tensor_sizes",
    "Verif.C84_interface"
   ],
   "note": ""
  },
  {
   "property": "C85",
   "status": "proved",
   "theorems": [
    "Verif.C85_accuracy",
    "Verif.C85_softmax"
   ],
   "note": ""
  },
  {
   "property": "C86",
   "status": "proved",
   "theorems": [
    "Verif.C86_normalize",
    "Verif.C86_counted",
    "Verif.C86_mse",
    "Verif.C86_kl",
    "Verif.C86_kl_counts",
    "Verif.C86_cross_entropy"
   ],
   "note": ""
  },
  {
   "property": "C87",
   "status": "proved",
   "theorems": [
    "Verif.C87_narrow",
    "Verif.C87_start",
    "Verif.C87_result",
    "Verif.C87_cost",
    "Verif.C87_unsigned"
   ],
   "note": ""
  },
  {
   "property": "C88",
   "status": "proved",
   "theorems": [
    "Verif.C88_threshold",
    "Verif.C88_gap"
   ],
   "note": ""
  },
  {
   "property": "C89",
   "status": "proved",
   "theorems": [
    "Verif.C89_roundtrip",
    "Verif.C89_keys",
    "Verif.C89_refused",
    "Verif.C89_sections",
    "Verif.C89_unnamed_optimizer",
    "Verif.C89_named_optimizer",
    "Verif.C89_foreign_entry",
    "Verif.C89_broken_entry",
    "Verif.C89_depth_ignored"
   ],
   "note": ""
  },
  {
   "property": "C90",
   "status": "proved",
   "theorems": [
    "Verif.C90_recurrent_network",
    "Verif.C90_calibration"
   ],
   "note": ""
  },
  {
   "property": "C91",
   "status": "proved",
   "theorems": [
    "Verif.C91_order",
    "Verif.C91_repeats",
    "Verif.C91_lstm_batch_size",
    "Verif.C91_more_data",
    "Verif.C91_relu_repeats_matter"
   ],
   "note": ""
  },
  {
   "property": "C92",
   "status": "proved",
   "theorems": [
    "Verif.C92_accuracy",
    "Verif.C92_table",
    "Verif.C92_relu",
    "Verif.C92_relu_rescale",
    "Verif.C92_functions",
    "Verif.C92_load",
    "Verif.C92_infer"
   ],
   "note": ""
  },
  {
   "property": "C93",
   "status": "proved",
   "theorems": [
    "Verif.C93_dropout",
    "Verif.C93_configuration",
    "Verif.C93_entry",
    "Verif.C93_prefix"
   ],
   "note": ""
  },
  {
   "property": "C94",
   "status": "proved",
   "theorems": [
    "Verif.C94_file"
   ],
   "note": ""
  },
  {
   "property": "C95",
   "status": "proved",
   "theorems": [
    "Verif.C95_file",
    "Verif.C95_drift",
    "Verif.C95_accuracy"
   ],
   "note": ""
  },
  {
   "property": "C96",
   "status": "proved",
   "theorems": [
    "Verif.C96_accuracy",
    "Verif.C96_file",
    "Verif.C96_exported",
    "Verif.C96_network"
   ],
   "note": ""
  },
  {
   "property": "C97",
   "status": "proved",
   "theorems": [
    "Verif.C97_file",
    "Verif.C97_accuracy"
   ],
   "note": ""
  },
  {
   "property": "C98",
   "status": "proved",
   "theorems": [
    "Verif.C98_accuracy",
    "Verif.C98_sigmoid"
   ],
   "note": ""
  },
  {
   "property": "C99",
   "status": "proved",
   "theorems": [
    "Verif.C99_range",
    "Verif.C99_accuracy",
    "Verif.C99_network"
   ],
   "note": ""
  },
  {
   "property": "C100",
   "status": "proved",
   "theorems": [
    "Verif.C100_accuracy"
   ],
   "note": ""
  },
  {
   "property": "C101",
   "status": "proved",
   "theorems": [
    "Verif.C101_dense",
    "Verif.C101_recurrent",
    "Verif.C101_tflite",
    "Verif.C101_onnx"
   ],
   "note": ""
  },
  {
   "property": "C102",
   "status": "proved",
   "theorems": [
    "Verif.C102_rows",
    "Verif.C102_singles"
   ],
   "note": ""
  },
  {
   "property": "C103",
   "status": "proved",
   "theorems": [
    "Verif.C103_codes",
    "Verif.C103_numbers",
    "Verif.C103_name_decides",
    "Verif.C103_tflite_codes",
    "Verif.C103_tflite_numbers"
   ],
   "note": ""
  },
  {
   "property": "C104",
   "status": "proved",
   "theorems": [
    "Verif.C104_argmax",
    "Verif.C104_dense",
    "Verif.C104_recurrent",
    "Verif.C104_tflite",
    "Verif.C104_onnx",
    "Verif.C104_codes",
    "Verif.C104_onnx_codes",
    "Verif.C104_build"
   ],
   "note": ""
  },
  {
   "property": "C105",
   "status": "proved",
   "theorems": [
    "Verif.C105_class",
    "Verif.C105_codes",
    "Verif.C105_numbers",
    "Verif.C105_tflite",
    "Verif.C105_keras"
   ],
   "note": ""
  },
  {
   "property": "C106",
   "status": "proved",
   "theorems": [
    "Verif.C106_codes",
    "Verif.C106_numbers"
   ],
   "note": ""
  },
  {
   "property": "C107",
   "status": "proved",
   "theorems": [
    "Verif.C107_history",
    "Verif.C107_bins",
    "Verif.C107_whole_bins",
    "Verif.C107_partial_kept",
    "Verif.C107_first_bin",
    "Verif.C107_full_slice",
    "Verif.C107_index_sparse",
    "Verif.C107_index_dense"
   ],
   "note": ""
  },
  {
   "property": "C108",
   "status": "proved",
   "theorems": [
    "Verif.C108_file",
    "Verif.C108_onnx",
    "Verif.C108_tflite"
   ],
   "note": ""
  },
  {
   "property": "C109",
   "status": "proved",
   "theorems": [
    "Verif.C109_file",
    "Verif.C109_accuracy"
   ],
   "note": ""
  },
  {
   "property": "C110",
   "status": "proved",
   "theorems": [
    "Verif.C110_model",
    "Verif.C110_approximations",
    "Verif.C110_accuracy",
    "Verif.C110_ranges",
    "Verif.C110_in_range"
   ],
   "note": ""
  },
  {
   "property": "C111",
   "status": "proved",
   "theorems": [
    "Verif.C111_codes",
    "Verif.C111_numbers",
    "Verif.C111_tflite_codes",
    "Verif.C111_tflite_numbers"
   ],
   "note": ""
  },
  {
   "property": "C112",
   "status": "proved",
   "theorems": [
    "Verif.C112_dense",
    "Verif.C112_recurrent",
    "Verif.C112_numbers",
    "Verif.C112_codes",
    "Verif.C112_tflite",
    "Verif.C112_onnx",
    "Verif.C112_tflite_codes",
    "Verif.C112_tflite_numbers"
   ],
   "note": ""
  },
  {
   "property": "C113",
   "status": "proved",
   "theorems": [
    "Verif.C113_recurrent",
    "Verif.C113_margin",
    "Verif.C113_codes",
    "Verif.C113_numbers",
    "Verif.C113_tflite",
    "Verif.C113_keras"
   ],
   "note": ""
  },
  {
   "property": "C114",
   "status": "proved",
   "theorems": [
    "Verif.C114_flags",
    "Verif.C114_infer",
    "Verif.C114_taken_for_numbers",
    "Verif.C114_quantize_operator",
    "Verif.C114_unit_step",
    "Verif.C114_quantized_twice"
   ],
   "note": ""
  }
 ]
}