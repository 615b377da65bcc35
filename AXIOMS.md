# Axioms of the property theorems

Generated by `tools/axioms.sh` (`Lean.collectAxioms`).

| theorem | axioms |
|---|---|
| `Verif.C01_quantize_in_range` | Classical.choice, Quot.sound, propext |
| `Verif.C01_quantize_length` | Classical.choice, Quot.sound, propext |
| `Verif.C01_uint32_counterexample` | Classical.choice, Quot.sound, propext |
| `Verif.C02_quantize_monotone` | Classical.choice, Quot.sound, propext |
| `Verif.C03_array_roundtrip` | Classical.choice, Quot.sound, propext |
| `Verif.C03_quantize_dequantize` | Classical.choice, Quot.sound, propext |
| `Verif.C04_error_half_step` | Classical.choice, Quot.sound, propext |
| `Verif.C04_quantize_nearest` | Classical.choice, Quot.sound, propext |
| `Verif.C04_saturates` | Classical.choice, Quot.sound, propext |
| `Verif.C04_ties` | Classical.choice, Quot.sound, propext |
| `Verif.C05_zero_exact` | Classical.choice, Quot.sound, propext |
| `Verif.C06_bad_shape_ignored` | Classical.choice, Quot.sound, propext |
| `Verif.C06_base_policy_is_nearest` | Classical.choice, Quot.sound, propext |
| `Verif.C06_policy_error_le_step` | Classical.choice, Quot.sound, propext |
| `Verif.C06_policy_neighbours` | Classical.choice, Quot.sound, propext |
| `Verif.C06_policy_widens` | Classical.choice, Quot.sound, propext |
| `Verif.C06_scalar_policy` | Classical.choice, Quot.sound, propext |
| `Verif.C07_entry` | Classical.choice, Quot.sound, propext |
| `Verif.C07_entry_nearest` | Classical.choice, Quot.sound, propext |
| `Verif.C07_layer_reads_entry` | Classical.choice, Quot.sound, propext |
| `Verif.C07_missing_fields` | propext |
| `Verif.C07_one_entry_per_code` | Classical.choice, Quot.sound, propext |
| `Verif.C07_out_of_range` | Classical.choice, Quot.sound, propext |
| `Verif.C08_accepts_iff` | Classical.choice, Quot.sound, propext |
| `Verif.C08_range` | Classical.choice, Quot.sound, propext |
| `Verif.C08_rejects` | Classical.choice, Quot.sound, propext |
| `Verif.C09_64_bit_wraps` | Classical.choice, Quot.sound, propext |
| `Verif.C09_add_exact` | Classical.choice, Quot.sound, propext |
| `Verif.C09_broadcast` | Quot.sound, propext |
| `Verif.C09_counterexamples` | propext |
| `Verif.C09_literals` | propext |
| `Verif.C09_mixed_sign_label` | Classical.choice, Quot.sound, propext |
| `Verif.C09_mul_exact` | Classical.choice, Quot.sound, propext |
| `Verif.C09_negative_unsigned` | Classical.choice, Quot.sound, propext |
| `Verif.C09_sub_exact` | Classical.choice, Quot.sound, propext |
| `Verif.C100_accuracy` | Classical.choice, Quot.sound, propext |
| `Verif.C101_dense` | Classical.choice, Quot.sound, propext |
| `Verif.C101_onnx` | Classical.choice, Quot.sound, propext |
| `Verif.C101_recurrent` | Classical.choice, Quot.sound, propext |
| `Verif.C101_tflite` | Classical.choice, Quot.sound, propext |
| `Verif.C102_rows` | Classical.choice, Quot.sound, propext |
| `Verif.C102_singles` | Classical.choice, Quot.sound, propext |
| `Verif.C103_codes` | Classical.choice, Quot.sound, propext |
| `Verif.C103_name_decides` | Classical.choice, Quot.sound, propext |
| `Verif.C103_numbers` | Classical.choice, Quot.sound, propext |
| `Verif.C103_tflite_codes` | Classical.choice, Quot.sound, propext |
| `Verif.C103_tflite_numbers` | Classical.choice, Quot.sound, propext |
| `Verif.C104_argmax` | Classical.choice, Quot.sound, propext |
| `Verif.C104_build` | Classical.choice, Quot.sound, propext |
| `Verif.C104_codes` | Classical.choice, Quot.sound, propext |
| `Verif.C104_dense` | Classical.choice, Quot.sound, propext |
| `Verif.C104_onnx` | Classical.choice, Quot.sound, propext |
| `Verif.C104_onnx_codes` | Classical.choice, Quot.sound, propext |
| `Verif.C104_recurrent` | Classical.choice, Quot.sound, propext |
| `Verif.C104_tflite` | Classical.choice, Quot.sound, propext |
| `Verif.C105_class` | Classical.choice, Quot.sound, propext |
| `Verif.C105_codes` | Classical.choice, Quot.sound, propext |
| `Verif.C105_keras` | Classical.choice, Quot.sound, propext |
| `Verif.C105_numbers` | Classical.choice, Quot.sound, propext |
| `Verif.C105_tflite` | Classical.choice, Quot.sound, propext |
| `Verif.C106_codes` | Classical.choice, Quot.sound, propext |
| `Verif.C106_numbers` | Classical.choice, Quot.sound, propext |
| `Verif.C107_bins` | Classical.choice, Quot.sound, propext |
| `Verif.C107_first_bin` | Classical.choice, Quot.sound, propext |
| `Verif.C107_full_slice` | Classical.choice, Quot.sound, propext |
| `Verif.C107_history` | Classical.choice, Quot.sound, propext |
| `Verif.C107_index_dense` | Classical.choice, Quot.sound, propext |
| `Verif.C107_index_sparse` | Classical.choice, Quot.sound, propext |
| `Verif.C107_partial_kept` | Classical.choice, Quot.sound, propext |
| `Verif.C107_whole_bins` | Classical.choice, Quot.sound, propext |
| `Verif.C108_file` | Classical.choice, Quot.sound, propext |
| `Verif.C108_onnx` | Classical.choice, Quot.sound, propext |
| `Verif.C108_tflite` | Classical.choice, Quot.sound, propext |
| `Verif.C109_accuracy` | Classical.choice, Quot.sound, propext |
| `Verif.C109_file` | Classical.choice, Quot.sound, propext |
| `Verif.C10_helpers_exact` | Classical.choice, Quot.sound, propext |
| `Verif.C110_accuracy` | Classical.choice, Quot.sound, propext |
| `Verif.C110_approximations` | Classical.choice, Quot.sound, propext |
| `Verif.C110_in_range` | Classical.choice, Quot.sound, propext |
| `Verif.C110_model` | Classical.choice, Quot.sound, propext |
| `Verif.C110_ranges` | Classical.choice, Quot.sound, propext |
| `Verif.C111_codes` | Classical.choice, Quot.sound, propext |
| `Verif.C111_numbers` | Classical.choice, Quot.sound, propext |
| `Verif.C111_tflite_codes` | Classical.choice, Quot.sound, propext |
| `Verif.C111_tflite_numbers` | Classical.choice, Quot.sound, propext |
| `Verif.C112_codes` | Classical.choice, Quot.sound, propext |
| `Verif.C112_dense` | Classical.choice, Quot.sound, propext |
| `Verif.C112_numbers` | Classical.choice, Quot.sound, propext |
| `Verif.C112_onnx` | Classical.choice, Quot.sound, propext |
| `Verif.C112_recurrent` | Classical.choice, Quot.sound, propext |
| `Verif.C112_tflite` | Classical.choice, Quot.sound, propext |
| `Verif.C112_tflite_codes` | Classical.choice, Quot.sound, propext |
| `Verif.C112_tflite_numbers` | Classical.choice, Quot.sound, propext |
| `Verif.C113_codes` | Classical.choice, Quot.sound, propext |
| `Verif.C113_keras` | Classical.choice, Quot.sound, propext |
| `Verif.C113_margin` | Classical.choice, Quot.sound, propext |
| `Verif.C113_numbers` | Classical.choice, Quot.sound, propext |
| `Verif.C113_recurrent` | Classical.choice, Quot.sound, propext |
| `Verif.C113_tflite` | Classical.choice, Quot.sound, propext |
| `Verif.C114_flags` | Classical.choice, Quot.sound, propext |
| `Verif.C114_infer` | Classical.choice, Quot.sound, propext |
| `Verif.C114_quantize_operator` | Classical.choice, Quot.sound, propext |
| `Verif.C114_quantized_twice` | Classical.choice, Quot.sound, propext |
| `Verif.C114_taken_for_numbers` | Classical.choice, Quot.sound, propext |
| `Verif.C114_unit_step` | Classical.choice, Quot.sound, propext |
| `Verif.C11_index_past_end_returns_last` | Classical.choice, Quot.sound, propext |
| `Verif.C11_iter` | Classical.choice, Quot.sound, propext |
| `Verif.C11_negative_index_returns_first` | Classical.choice, Quot.sound, propext |
| `Verif.C11_reduced_lut_correct` | Classical.choice, Quot.sound, propext |
| `Verif.C12_deserialized_correct` | Classical.choice, Quot.sound, propext |
| `Verif.C12_deserialized_iter_empty` | propext |
| `Verif.C12_roundtrip_json` | propext |
| `Verif.C12_roundtrip_lookup` | propext |
| `Verif.C13_asymmetric_depth_one` | Classical.choice, Quot.sound, propext |
| `Verif.C13_asymmetric_exact` | Classical.choice, Quot.sound, propext |
| `Verif.C13_asymmetric_right_iff` | Classical.choice, Quot.sound, propext |
| `Verif.C14_head_maximal` | Classical.choice, Quot.sound, propext |
| `Verif.C14_interval_lists` | Classical.choice, Quot.sound, propext |
| `Verif.C14_partition` | Classical.choice, Quot.sound, propext |
| `Verif.C15_rescale_error` | Classical.choice, Quot.sound, propext |
| `Verif.C15_small_factor_is_zero` | Classical.choice, Quot.sound, propext |
| `Verif.C15_wraps` | Classical.choice, Quot.sound, propext |
| `Verif.C16_build_iff` | Classical.choice, Quot.sound, propext |
| `Verif.C16_build_normalised` | Classical.choice, Quot.sound, propext |
| `Verif.C17_accepts_iff` | propext |
| `Verif.C17_batches` | Quot.sound, propext |
| `Verif.C17_output_in_range` | Quot.sound, propext |
| `Verif.C18_bounds_of_int8` | Classical.choice, Quot.sound, propext |
| `Verif.C18_no_overflow` | Classical.choice, Quot.sound, propext |
| `Verif.C19_bias_monotone` | Classical.choice, Quot.sound, propext |
| `Verif.C19_rescale_monotone` | Classical.choice, Quot.sound, propext |
| `Verif.C20_fc_batch` | Quot.sound, propext |
| `Verif.C20_lut_empty_batch_raises` | Classical.choice, Quot.sound, propext |
| `Verif.C20_network` | Classical.choice, Quot.sound, propext |
| `Verif.C21_dense_accuracy` | Classical.choice, Quot.sound, propext |
| `Verif.C21_saturation` | Classical.choice, Quot.sound, propext |
| `Verif.C22_overflow_wraps` | Classical.choice, Quot.sound, propext |
| `Verif.C22_relu_rescale_error` | Classical.choice, Quot.sound, propext |
| `Verif.C22_relu_same_params` | Classical.choice, Quot.sound, propext |
| `Verif.C22_zero_points_differ` | Classical.choice, Quot.sound, propext |
| `Verif.C23_build_layer` | Classical.choice, Quot.sound, propext |
| `Verif.C23_case_insensitive` | Classical.choice, Quot.sound, propext |
| `Verif.C23_choice_matches` | Classical.choice, Quot.sound, propext |
| `Verif.C23_documented` | Classical.choice, Quot.sound, propext |
| `Verif.C23_exact_names` | Classical.choice, Quot.sound, propext |
| `Verif.C23_onnx` | propext |
| `Verif.C23_onnx_unknown` | Classical.choice, Quot.sound, propext |
| `Verif.C23_unique_match` | Classical.choice, Quot.sound, propext |
| `Verif.C23_unknown_iff` | Classical.choice, Quot.sound, propext |
| `Verif.C24_composition` | Classical.choice, Quot.sound, propext |
| `Verif.C24_concat` | Classical.choice, Quot.sound, propext |
| `Verif.C24_intermediate` | Classical.choice, Quot.sound, propext |
| `Verif.C24_last_intermediate` | Classical.choice, Quot.sound, propext |
| `Verif.C24_load_fails` | Classical.choice, Quot.sound, propext |
| `Verif.C24_load_preserves` | Classical.choice, Quot.sound, propext |
| `Verif.C24_load_succeeds` | Classical.choice, Quot.sound, propext |
| `Verif.C25_add_accuracy` | Classical.choice, Quot.sound, propext |
| `Verif.C25_batches` | Classical.choice, Quot.sound, propext |
| `Verif.C25_matmul_accuracy` | Classical.choice, Quot.sound, propext |
| `Verif.C25_range` | Classical.choice, Quot.sound, propext |
| `Verif.C26_exported_tables_answer` | Classical.choice, Quot.sound, propext |
| `Verif.C26_never_raises` | Classical.choice, Quot.sound, propext |
| `Verif.C26_states_in_range` | Classical.choice, Quot.sound, propext |
| `Verif.C27_batch` | Classical.choice, Quot.sound, propext |
| `Verif.C27_last` | Classical.choice, Quot.sound, propext |
| `Verif.C28_causal` | Classical.choice, Quot.sound, propext |
| `Verif.C28_prefix` | Classical.choice, Quot.sound, propext |
| `Verif.C29_all_zero` | Classical.choice, Quot.sound, propext |
| `Verif.C29_valid_parameters` | Classical.choice, Quot.sound, propext |
| `Verif.C30_half_step` | Classical.choice, Quot.sound, propext |
| `Verif.C30_saturation` | Classical.choice, Quot.sound, propext |
| `Verif.C31_asymmetric` | Classical.choice, Quot.sound, propext |
| `Verif.C31_symmetric` | Classical.choice, Quot.sound, propext |
| `Verif.C32_bins` | Classical.choice, Quot.sound, propext |
| `Verif.C32_compose` | Classical.choice, Quot.sound, propext |
| `Verif.C32_full_slice` | Classical.choice, Quot.sound, propext |
| `Verif.C32_history` | Classical.choice, Quot.sound, propext |
| `Verif.C32_min_max` | Classical.choice, Quot.sound, propext |
| `Verif.C32_narrow_slice` | Classical.choice, Quot.sound, propext |
| `Verif.C32_reversed_bounds` | Classical.choice, Quot.sound, propext |
| `Verif.C32_stop_below_range` | Classical.choice, Quot.sound, propext |
| `Verif.C33_bias_scale` | Classical.choice, Quot.sound, propext |
| `Verif.C33_direct_bias_update` | Classical.choice, Quot.sound, propext |
| `Verif.C33_update_total` | Classical.choice, Quot.sound, propext |
| `Verif.C34_float_tensor_constant` | Classical.choice, Quot.sound, propext |
| `Verif.C34_history_refines` | Classical.choice, Quot.sound, propext |
| `Verif.C34_initially_nearest` | Classical.choice, Quot.sound, propext |
| `Verif.C34_no_requantize` | Classical.choice, Quot.sound, propext |
| `Verif.C34_reset_scale_disagrees` | Classical.choice, Quot.sound, propext |
| `Verif.C34_stored_integers_agree` | Classical.choice, Quot.sound, propext |
| `Verif.C34_update_loses_nearest` | Classical.choice, Quot.sound, propext |
| `Verif.C35_dequantized_iff` | Classical.choice, Quot.sound, propext |
| `Verif.C35_dequantized_offset` | Classical.choice, Quot.sound, propext |
| `Verif.C36_after_construction` | Classical.choice, Quot.sound, propext |
| `Verif.C36_input_history` | Classical.choice, Quot.sound, propext |
| `Verif.C36_input_update_not_nearest` | Classical.choice, Quot.sound, propext |
| `Verif.C36_output_node_update` | Classical.choice, Quot.sound, propext |
| `Verif.C36_stale` | Classical.choice, Quot.sound, propext |
| `Verif.C37_energy_is_error` | Classical.choice, Quot.sound, propext |
| `Verif.C37_minimiser_iff` | Classical.choice, Quot.sound, propext |
| `Verif.C37_quantized_layer` | Classical.choice, Quot.sound, propext |
| `Verif.C37_saturation` | Classical.choice, Quot.sound, propext |
| `Verif.C37_tie` | Classical.choice, Quot.sound, propext |
| `Verif.C38_joint_minimum` | Classical.choice, Quot.sound, propext |
| `Verif.C38_labels_injective` | Classical.choice, Quot.sound, propext |
| `Verif.C38_no_coupling` | Classical.choice, Quot.sound, propext |
| `Verif.C38_nothing_overwritten` | Classical.choice, Quot.sound, propext |
| `Verif.C39_columns` | Classical.choice, Quot.sound, propext |
| `Verif.C39_decode` | Classical.choice, Quot.sound, propext |
| `Verif.C39_optimal_rounding` | Classical.choice, Quot.sound, propext |
| `Verif.C40_history` | Classical.choice, Quot.sound, propext |
| `Verif.C40_matrix` | Classical.choice, Quot.sound, propext |
| `Verif.C40_move` | Classical.choice, Quot.sound, propext |
| `Verif.C41_adaround_terminates` | Classical.choice, Quot.sound, propext |
| `Verif.C41_any_energy` | Classical.choice, Quot.sound, propext |
| `Verif.C41_never_worse` | Classical.choice, Quot.sound, propext |
| `Verif.C41_never_worse_nonpositive` | Classical.choice, Quot.sound, propext |
| `Verif.C41_refinement` | Classical.choice, Quot.sound, propext |
| `Verif.C41_returns_policies` | Classical.choice, Quot.sound, propext |
| `Verif.C41_terminates` | Classical.choice, Quot.sound, propext |
| `Verif.C41_zero_energy_is_lost` | Classical.choice, Quot.sound, propext |
| `Verif.C42_costs_decrease` | Classical.choice, Quot.sound, propext |
| `Verif.C42_fresh_nodes_consistent` | Classical.choice, Quot.sound, propext |
| `Verif.C42_may_run_forever` | Classical.choice, Quot.sound, propext |
| `Verif.C42_never_worse` | Classical.choice, Quot.sound, propext |
| `Verif.C42_terminates` | Classical.choice, Quot.sound, propext |
| `Verif.C43_nonpositive_raises` | Classical.choice, Quot.sound, propext |
| `Verif.C43_scale_history` | Classical.choice, Quot.sound, propext |
| `Verif.C43_scale_step` | Classical.choice, Quot.sound, propext |
| `Verif.C43_step_size` | Classical.choice, Quot.sound, propext |
| `Verif.C43_zero_point_history` | Classical.choice, Quot.sound, propext |
| `Verif.C43_zero_point_step` | Classical.choice, Quot.sound, propext |
| `Verif.C44_distinct` | Classical.choice, Quot.sound, propext |
| `Verif.C44_order` | Classical.choice, Quot.sound, propext |
| `Verif.C44_repeated_weight` | Classical.choice, Quot.sound, propext |
| `Verif.C44_rounding_exists` | Classical.choice, Quot.sound, propext |
| `Verif.C44_tolerance_negative` | Classical.choice, Quot.sound, propext |
| `Verif.C44_tolerance_value` | Classical.choice, Quot.sound, propext |
| `Verif.C44_value` | Classical.choice, Quot.sound, propext |
| `Verif.C44_zero_iff` | Classical.choice, Quot.sound, propext |
| `Verif.C45_layout` | Quot.sound, propext |
| `Verif.C45_operators` | Classical.choice, Quot.sound, propext |
| `Verif.C45_unsupported` | Classical.choice, Quot.sound, propext |
| `Verif.C45_wiring` | Classical.choice, Quot.sound, propext |
| `Verif.C46_build_plain` | Classical.choice, Quot.sound, propext |
| `Verif.C46_defaults` | none |
| `Verif.C46_fields` | none |
| `Verif.C46_fixed_iff` | none |
| `Verif.C46_idempotent` | none |
| `Verif.C46_layer_adaround_fails` | Classical.choice, Quot.sound, propext |
| `Verif.C46_no_loss` | Classical.choice, Quot.sound, propext |
| `Verif.C46_specific_kept` | propext |
| `Verif.C46_symmetric_kernels` | Classical.choice, Quot.sound, propext |
| `Verif.C47_conv_variants` | Classical.choice, Quot.sound, propext |
| `Verif.C47_dense_without_bias` | Classical.choice, Quot.sound, propext |
| `Verif.C47_faithful` | Classical.choice, Quot.sound, propext |
| `Verif.C47_not_executable` | Classical.choice, Quot.sound, propext |
| `Verif.C47_succeeds_iff` | Classical.choice, Quot.sound, propext |
| `Verif.C48_consumes_all` | Classical.choice, Quot.sound, propext |
| `Verif.C48_converted_network` | Classical.choice, Quot.sound, propext |
| `Verif.C48_first_value_info_lost` | Classical.choice, Quot.sound, propext |
| `Verif.C48_fusion` | Classical.choice, Quot.sound, propext |
| `Verif.C48_sigmoid_table` | Classical.choice, Quot.sound, propext |
| `Verif.C48_tanh_fusion` | Classical.choice, Quot.sound, propext |
| `Verif.C48_text_prefix` | Classical.choice, Quot.sound, propext |
| `Verif.C49_matmul_accuracy` | Classical.choice, Quot.sound, propext |
| `Verif.C49_matmul_weights` | Classical.choice, Quot.sound, propext |
| `Verif.C50_chunk_sizes` | Classical.choice, Quot.sound, propext |
| `Verif.C50_dimensions` | Quot.sound, propext |
| `Verif.C50_dimensions_lost` | propext |
| `Verif.C50_message_round_trip` | Quot.sound, propext |
| `Verif.C50_nothing_lost` | Classical.choice, Quot.sound, propext |
| `Verif.C50_succeeds_iff` | Classical.choice, Quot.sound, propext |
| `Verif.C51_completes` | Classical.choice, Quot.sound, propext |
| `Verif.C51_duplicate_wrong` | propext |
| `Verif.C51_in_time` | Quot.sound, propext |
| `Verif.C51_late_signal` | propext |
| `Verif.C51_late_wrong` | propext |
| `Verif.C51_matched` | Classical.choice, Quot.sound, propext |
| `Verif.C52_first_layer` | Classical.choice, Quot.sound, propext |
| `Verif.C52_layout` | Classical.choice, Quot.sound, propext |
| `Verif.C52_loads` | Classical.choice, Quot.sound, propext |
| `Verif.C52_model` | Classical.choice, Quot.sound, propext |
| `Verif.C52_runs` | Classical.choice, Quot.sound, propext |
| `Verif.C53_softmax_batch_wrong` | Classical.choice, Quot.sound, propext |
| `Verif.C53_softmax_single` | Classical.choice, Quot.sound, propext |
| `Verif.C54_initial_state` | Classical.choice, Quot.sound, propext |
| `Verif.C54_offset_harmless_iff` | Classical.choice, Quot.sound, propext |
| `Verif.C54_recurrent_offset` | Classical.choice, Quot.sound, propext |
| `Verif.C55_cell_accuracy` | Classical.choice, Quot.sound, propext |
| `Verif.C55_gate_accuracy` | Classical.choice, Quot.sound, propext |
| `Verif.C55_gate_saturation` | Classical.choice, Quot.sound, propext |
| `Verif.C55_hidden_accuracy` | Classical.choice, Quot.sound, propext |
| `Verif.C55_saturation` | Classical.choice, Quot.sound, propext |
| `Verif.C56_symmetry_lost` | Classical.choice, Quot.sound, propext |
| `Verif.C57_handed_on` | Classical.choice, Quot.sound, propext |
| `Verif.C57_relu_unrectified` | Classical.choice, Quot.sound, propext |
| `Verif.C58_example` | Classical.choice, Quot.sound, propext |
| `Verif.C58_last_not_best` | Classical.choice, Quot.sound, propext |
| `Verif.C58_rejected_candidate_stays` | Classical.choice, Quot.sound, propext |
| `Verif.C58_returned_list` | Classical.choice, Quot.sound, propext |
| `Verif.C59_kernel_dtype_fails` | Classical.choice, Quot.sound, propext |
| `Verif.C59_quantization_succeeds` | Classical.choice, Quot.sound, propext |
| `Verif.C60_dead_raises` | Classical.choice, Quot.sound, propext |
| `Verif.C60_fused_relu` | Classical.choice, Quot.sound, propext |
| `Verif.C60_fused_relu6` | Classical.choice, Quot.sound, propext |
| `Verif.C60_relu6_lost` | Classical.choice, Quot.sound, propext |
| `Verif.C61_loads_iff` | Classical.choice, Quot.sound, propext |
| `Verif.C61_log_softmax_lost` | Classical.choice, Quot.sound, propext |
| `Verif.C61_unknown_activation` | Classical.choice, Quot.sound, propext |
| `Verif.C62_accuracy` | Classical.choice, Quot.sound, propext |
| `Verif.C62_batch` | Classical.choice, Quot.sound, propext |
| `Verif.C62_calibration_samples` | Classical.choice, Quot.sound, propext |
| `Verif.C63_defaults` | Classical.choice, Quot.sound, propext |
| `Verif.C63_layout` | Classical.choice, Quot.sound, propext |
| `Verif.C63_narrow_table` | Classical.choice, Quot.sound, propext |
| `Verif.C64_calibrated` | Classical.choice, Quot.sound, propext |
| `Verif.C65_accumulators` | Classical.choice, Quot.sound, propext |
| `Verif.C65_float_output` | Classical.choice, Quot.sound, propext |
| `Verif.C65_ranges` | Classical.choice, Quot.sound, propext |
| `Verif.C65_saturates` | Classical.choice, Quot.sound, propext |
| `Verif.C66_converts_iff` | Classical.choice, Quot.sound, propext |
| `Verif.C66_duplicate_names` | Classical.choice, Quot.sound, propext |
| `Verif.C66_faithful` | Classical.choice, Quot.sound, propext |
| `Verif.C66_fused_activation_ignored` | Classical.choice, Quot.sound, propext |
| `Verif.C66_per_channel` | Classical.choice, Quot.sound, propext |
| `Verif.C67_lag` | Classical.choice, Quot.sound, propext |
| `Verif.C67_loss_matched` | Quot.sound, propext |
| `Verif.C68_build_iff` | Classical.choice, Quot.sound, propext |
| `Verif.C68_flush` | Classical.choice, Quot.sound, propext |
| `Verif.C68_monotone` | Classical.choice, Quot.sound, propext |
| `Verif.C68_product` | Classical.choice, Quot.sound, propext |
| `Verif.C69_dequantize` | Classical.choice, Quot.sound, propext |
| `Verif.C69_logistic` | Classical.choice, Quot.sound, propext |
| `Verif.C69_logistic_error` | Classical.choice, Quot.sound, propext |
| `Verif.C69_qlinear_sigmoid` | Classical.choice, Quot.sound, propext |
| `Verif.C69_quantize` | Classical.choice, Quot.sound, propext |
| `Verif.C69_relu` | Classical.choice, Quot.sound, propext |
| `Verif.C69_tanh` | Classical.choice, Quot.sound, propext |
| `Verif.C70_adaround_export` | Classical.choice, Quot.sound, propext |
| `Verif.C70_adaround_step` | Classical.choice, Quot.sound, propext |
| `Verif.C70_base_is_stepless` | Classical.choice, Quot.sound, propext |
| `Verif.C70_dense_operators` | Classical.choice, Quot.sound, propext |
| `Verif.C70_integers` | Classical.choice, Quot.sound, propext |
| `Verif.C70_lstm_raises` | Classical.choice, Quot.sound, propext |
| `Verif.C70_never_worse` | Classical.choice, Quot.sound, propext |
| `Verif.C70_same_structure` | Classical.choice, Quot.sound, propext |
| `Verif.C70_steps` | Classical.choice, Quot.sound, propext |
| `Verif.C70_still_loads` | Classical.choice, Quot.sound, propext |
| `Verif.C71_activation` | Classical.choice, Quot.sound, propext |
| `Verif.C71_dequantize` | Classical.choice, Quot.sound, propext |
| `Verif.C71_fully_connected` | Classical.choice, Quot.sound, propext |
| `Verif.C71_network` | Classical.choice, Quot.sound, propext |
| `Verif.C71_quantize` | Classical.choice, Quot.sound, propext |
| `Verif.C71_requantize_wrong` | Classical.choice, Quot.sound, propext |
| `Verif.C71_softmax_identity` | Classical.choice, Quot.sound, propext |
| `Verif.C71_uint8_activation` | Classical.choice, Quot.sound, propext |
| `Verif.C72_correct_rounding` | Classical.choice, Quot.sound, propext |
| `Verif.C72_float_accuracy` | Classical.choice, Quot.sound, propext |
| `Verif.C72_float_agrees` | Classical.choice, Quot.sound, propext |
| `Verif.C72_float_dequantize` | Classical.choice, Quot.sound, propext |
| `Verif.C72_float_monotone` | Classical.choice, Quot.sound, propext |
| `Verif.C72_float_range` | Classical.choice, Quot.sound, propext |
| `Verif.C72_float_roundtrip` | Classical.choice, Quot.sound, propext |
| `Verif.C72_float_zero` | Classical.choice, Quot.sound, propext |
| `Verif.C72_tie_differs` | Classical.choice, Quot.sound, propext |
| `Verif.C73_float_base_policy` | Classical.choice, Quot.sound, propext |
| `Verif.C73_largest_weight` | Classical.choice, Quot.sound, propext |
| `Verif.C74_float_half_step` | Classical.choice, Quot.sound, propext |
| `Verif.C74_float_symmetric` | Classical.choice, Quot.sound, propext |
| `Verif.C74_float_valid_parameters` | Classical.choice, Quot.sound, propext |
| `Verif.C75_float_dense_accuracy` | Classical.choice, Quot.sound, propext |
| `Verif.C75_float_dense_saturation` | Classical.choice, Quot.sound, propext |
| `Verif.C75_float_rescale` | Classical.choice, Quot.sound, propext |
| `Verif.C76_kl_drops_top` | Classical.choice, Quot.sound, propext |
| `Verif.C76_kl_keeps_offset` | Classical.choice, Quot.sound, propext |
| `Verif.C76_kl_reduce` | Classical.choice, Quot.sound, propext |
| `Verif.C76_percent_collapses` | Classical.choice, Quot.sound, propext |
| `Verif.C76_percent_domain` | Classical.choice, Quot.sound, propext |
| `Verif.C76_percent_extremes` | Classical.choice, Quot.sound, propext |
| `Verif.C76_percent_step` | Classical.choice, Quot.sound, propext |
| `Verif.C77_dense_operators` | Classical.choice, Quot.sound, propext |
| `Verif.C77_each_layer` | Classical.choice, Quot.sound, propext |
| `Verif.C77_earlier_layers` | Classical.choice, Quot.sound, propext |
| `Verif.C77_lstm_raises` | Classical.choice, Quot.sound, propext |
| `Verif.C77_never_worse` | Classical.choice, Quot.sound, propext |
| `Verif.C77_returns` | Classical.choice, Quot.sound, propext |
| `Verif.C77_same_structure` | Classical.choice, Quot.sound, propext |
| `Verif.C78_kernel_zero` | Classical.choice, Quot.sound, propext |
| `Verif.C78_mean_exact` | Classical.choice, Quot.sound, propext |
| `Verif.C78_names_distinct` | Classical.choice, Quot.sound, propext |
| `Verif.C78_other_layers` | Classical.choice, Quot.sound, propext |
| `Verif.C78_report` | Classical.choice, Quot.sound, propext |
| `Verif.C78_sum` | propext |
| `Verif.C79_deterministic` | Classical.choice, Quot.sound, propext |
| `Verif.C79_energy_is_error` | Classical.choice, Quot.sound, propext |
| `Verif.C79_same_qubo` | Classical.choice, Quot.sound, propext |
| `Verif.C79_second_pass_wins` | Classical.choice, Quot.sound, propext |
| `Verif.C80_blocks` | Classical.choice, Quot.sound, propext |
| `Verif.C80_both_files` | Classical.choice, Quot.sound, propext |
| `Verif.C80_entries` | Classical.choice, Quot.sound, propext |
| `Verif.C80_printed` | Classical.choice, Quot.sound, propext |
| `Verif.C80_quadratic_form` | Classical.choice, Quot.sound, propext |
| `Verif.C80_symmetric` | Classical.choice, Quot.sound, propext |
| `Verif.C81_decode` | Classical.choice, Quot.sound, propext |
| `Verif.C81_optimal` | Classical.choice, Quot.sound, propext |
| `Verif.C81_same_program` | Classical.choice, Quot.sound, propext |
| `Verif.C82_activation_worse` | Classical.choice, Quot.sound, propext |
| `Verif.C82_completes` | Classical.choice, Quot.sound, propext |
| `Verif.C82_exact_sampler` | Classical.choice, Quot.sound, propext |
| `Verif.C82_export` | Classical.choice, Quot.sound, propext |
| `Verif.C82_integers` | Classical.choice, Quot.sound, propext |
| `Verif.C82_loss_ignored` | Classical.choice, Quot.sound, propext |
| `Verif.C82_lstm_raises` | Classical.choice, Quot.sound, propext |
| `Verif.C82_not_worse` | Classical.choice, Quot.sound, propext |
| `Verif.C82_optimal` | Classical.choice, Quot.sound, propext |
| `Verif.C82_same_structure` | Classical.choice, Quot.sound, propext |
| `Verif.C83_calibrated_in_range` | Classical.choice, Quot.sound, propext |
| `Verif.C83_calibration` | Classical.choice, Quot.sound, propext |
| `Verif.C83_network` | Classical.choice, Quot.sound, propext |
| `Verif.C83_sequence` | Classical.choice, Quot.sound, propext |
| `Verif.C83_uniform` | Classical.choice, Quot.sound, propext |
| `Verif.C84_interface` | Classical.choice, Quot.sound, propext |
| `Verif.C84_network` | Classical.choice, Quot.sound, propext |
| `Verif.C84_operators` | Classical.choice, Quot.sound, propext |
| `Verif.C84_tensor_sizes` | Classical.choice, Quot.sound, propext |
| `Verif.C85_accuracy` | Classical.choice, Quot.sound, propext |
| `Verif.C85_softmax` | Classical.choice, Quot.sound, propext |
| `Verif.C86_counted` | Classical.choice, Quot.sound, propext |
| `Verif.C86_cross_entropy` | Classical.choice, Quot.sound, propext |
| `Verif.C86_kl` | Classical.choice, Quot.sound, propext |
| `Verif.C86_kl_counts` | Classical.choice, Quot.sound, propext |
| `Verif.C86_mse` | Classical.choice, Quot.sound, propext |
| `Verif.C86_normalize` | Classical.choice, Quot.sound, propext |
| `Verif.C87_cost` | Classical.choice, Quot.sound, propext |
| `Verif.C87_narrow` | Classical.choice, Quot.sound, propext |
| `Verif.C87_result` | Classical.choice, Quot.sound, propext |
| `Verif.C87_start` | Classical.choice, Quot.sound, propext |
| `Verif.C87_unsigned` | Classical.choice, Quot.sound, propext |
| `Verif.C88_gap` | Classical.choice, Quot.sound, propext |
| `Verif.C88_threshold` | Classical.choice, Quot.sound, propext |
| `Verif.C89_broken_entry` | Classical.choice, Quot.sound, propext |
| `Verif.C89_depth_ignored` | Classical.choice, Quot.sound, propext |
| `Verif.C89_foreign_entry` | Classical.choice, Quot.sound, propext |
| `Verif.C89_keys` | Classical.choice, Quot.sound, propext |
| `Verif.C89_named_optimizer` | Classical.choice, Quot.sound, propext |
| `Verif.C89_refused` | Classical.choice, Quot.sound, propext |
| `Verif.C89_roundtrip` | Classical.choice, Quot.sound, propext |
| `Verif.C89_sections` | Classical.choice, Quot.sound, propext |
| `Verif.C89_unnamed_optimizer` | Classical.choice, Quot.sound, propext |
| `Verif.C90_calibration` | Classical.choice, Quot.sound, propext |
| `Verif.C90_recurrent_network` | Classical.choice, Quot.sound, propext |
| `Verif.C91_lstm_batch_size` | Classical.choice, Quot.sound, propext |
| `Verif.C91_more_data` | Classical.choice, Quot.sound, propext |
| `Verif.C91_order` | Classical.choice, Quot.sound, propext |
| `Verif.C91_relu_repeats_matter` | Classical.choice, Quot.sound, propext |
| `Verif.C91_repeats` | Classical.choice, Quot.sound, propext |
| `Verif.C92_accuracy` | Classical.choice, Quot.sound, propext |
| `Verif.C92_functions` | Classical.choice, Quot.sound, propext |
| `Verif.C92_infer` | Classical.choice, Quot.sound, propext |
| `Verif.C92_load` | Classical.choice, Quot.sound, propext |
| `Verif.C92_relu` | Classical.choice, Quot.sound, propext |
| `Verif.C92_relu_rescale` | Classical.choice, Quot.sound, propext |
| `Verif.C92_table` | Classical.choice, Quot.sound, propext |
| `Verif.C93_configuration` | Classical.choice, Quot.sound, propext |
| `Verif.C93_dropout` | Classical.choice, Quot.sound, propext |
| `Verif.C93_entry` | Classical.choice, Quot.sound, propext |
| `Verif.C93_prefix` | Classical.choice, Quot.sound, propext |
| `Verif.C94_file` | Classical.choice, Quot.sound, propext |
| `Verif.C95_accuracy` | Classical.choice, Quot.sound, propext |
| `Verif.C95_drift` | Classical.choice, Quot.sound, propext |
| `Verif.C95_file` | Classical.choice, Quot.sound, propext |
| `Verif.C96_accuracy` | Classical.choice, Quot.sound, propext |
| `Verif.C96_exported` | Classical.choice, Quot.sound, propext |
| `Verif.C96_file` | Classical.choice, Quot.sound, propext |
| `Verif.C96_network` | Classical.choice, Quot.sound, propext |
| `Verif.C97_accuracy` | Classical.choice, Quot.sound, propext |
| `Verif.C97_file` | Classical.choice, Quot.sound, propext |
| `Verif.C98_accuracy` | Classical.choice, Quot.sound, propext |
| `Verif.C98_sigmoid` | Classical.choice, Quot.sound, propext |
| `Verif.C99_accuracy` | Classical.choice, Quot.sound, propext |
| `Verif.C99_network` | Classical.choice, Quot.sound, propext |
| `Verif.C99_range` | Classical.choice, Quot.sound, propext |
