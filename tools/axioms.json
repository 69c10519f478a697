{
"OnnxTool.Props.C01_live_disjoint": [
"propext",
"Classical.choice",
"Quot.sound"
],
"OnnxTool.Props.C02_within_pool": [
"propext",
"Classical.choice",
"Quot.sound"
],
"OnnxTool.Props.C03_aligned_and_large_enough": [
"propext",
"Classical.choice",
"Quot.sound"
],
"OnnxTool.Props.C03_every_live_tensor_allocated": [
"propext",
"Classical.choice",
"Quot.sound"
],
"OnnxTool.Props.C04_not_worse_than_no_sharing": [
"propext",
"Classical.choice",
"Quot.sound"
],
"OnnxTool.Props.C04_at_least_peak": [
"propext",
"Classical.choice",
"Quot.sound"
],
"OnnxTool.Props.C05_unread_output_kept_partial": [
"propext",
"Classical.choice",
"Quot.sound"
],
"OnnxTool.Props.C05_output_overwritten": [
"propext"
],
"OnnxTool.Props.C06_plan_accepted": [
"propext",
"Classical.choice",
"Quot.sound"
],
"OnnxTool.Props.C06_get_iff_fits": [
"propext",
"Classical.choice",
"Quot.sound"
],
"OnnxTool.Props.C06_get_batch": [
"propext",
"Classical.choice",
"Quot.sound"
],
"OnnxTool.Props.C06_get_missing": [
"propext"
],
"OnnxTool.Props.C06_no_interference": [
"propext",
"Classical.choice",
"Quot.sound"
],
"OnnxTool.Props.C07_producers_first": [
"propext",
"Classical.choice",
"Quot.sound"
],
"OnnxTool.Props.C07_double_producer_drops_consumer": [],
"OnnxTool.Props.C08_keeps_exactly_acyclic_part": [
"propext",
"Classical.choice",
"Quot.sound"
],
"OnnxTool.Props.C08_acyclic_permutation": [
"propext",
"Classical.choice",
"Quot.sound"
],
"OnnxTool.Props.C08_empty_optional_names_drop_node": [],
"OnnxTool.Props.C09_idempotent": [
"propext",
"Classical.choice",
"Quot.sound"
],
"OnnxTool.Props.C10_update_exact": [
"propext",
"Classical.choice",
"Quot.sound"
],
"OnnxTool.Props.C10_removal_history_exact": [
"propext",
"Classical.choice",
"Quot.sound"
],
"OnnxTool.Props.C10_plain_removals_exact": [
"propext",
"Classical.choice",
"Quot.sound"
],
"OnnxTool.Props.C10_remove_outputs": [
"propext",
"Classical.choice",
"Quot.sound"
],
"OnnxTool.Props.C10_double_producer_raises": [
"propext"
],
"OnnxTool.Props.C11_keeps_exactly_needed_partial": [
"propext",
"Classical.choice",
"Quot.sound"
],
"OnnxTool.Props.C11_nothing_left_behind": [
"propext",
"Quot.sound"
],
"OnnxTool.Props.C11_output_lost": [
"propext",
"Classical.choice",
"Quot.sound"
],
"OnnxTool.Props.C11_unsorted_raises": [
"propext"
],
"OnnxTool.Props.C12_levels_exact": [
"propext",
"Classical.choice",
"Quot.sound"
],
"OnnxTool.Props.C12_partition": [
"propext",
"Classical.choice",
"Quot.sound"
],
"OnnxTool.Props.C13_interface_exact": [
"propext",
"Classical.choice",
"Quot.sound"
],
"OnnxTool.Props.C13_unknown_name": [
"propext"
],
"OnnxTool.Props.C13_internal_graph_output_missing": [],
"OnnxTool.Props.C14_fuse_exact_partial": [
"propext",
"Classical.choice",
"Quot.sound"
],
"OnnxTool.Props.C14_connections_kept": [
"propext",
"Classical.choice",
"Quot.sound"
],
"OnnxTool.Props.C14_graph_output_lost": [
"propext"
],
"OnnxTool.Props.C15_marks_exactly_closure": [
"propext",
"Classical.choice",
"Quot.sound"
],
"OnnxTool.Props.C15_order_independent": [
"propext",
"Classical.choice",
"Quot.sound"
],
"OnnxTool.Props.C15_shape_operands_are_inputs": [
"propext",
"Quot.sound"
],
"OnnxTool.Props.C15_shape_operands": [
"propext"
],
"OnnxTool.Props.C15_other_operators": [
"propext",
"Classical.choice",
"Quot.sound"
],
"OnnxTool.Props.C15_pad_with_axes_not_covered": [
"propext"
],
"OnnxTool.Props.C16_compute_graph_partial": [
"propext",
"Classical.choice",
"Quot.sound"
],
"OnnxTool.Props.C16_source_graph_is_modified": [
"propext"
],
"OnnxTool.Props.C16_dynamics": [
"propext",
"Quot.sound"
],
"OnnxTool.Props.C16_dynamics_misses_output": [
"propext"
],
"OnnxTool.Props.C16_multi_output_lost": [
"propext",
"Classical.choice",
"Quot.sound"
],
"OnnxTool.Props.C16_output_lost": [
"propext"
],
"OnnxTool.Props.C17_constant_iff": [
"propext",
"Classical.choice",
"Quot.sound"
],
"OnnxTool.Props.C18_folding_preserves_values_partial": [
"propext",
"Classical.choice",
"Quot.sound"
],
"OnnxTool.Props.C18_constant_output_lost": [],
"OnnxTool.Props.C18_constant_output_gone": [
"propext",
"Quot.sound"
],
"OnnxTool.Props.C18_read_output_lost": [],
"OnnxTool.Props.C19_broadcast_exact": [
"propext",
"Classical.choice",
"Quot.sound"
],
"OnnxTool.Props.C19_order_independent": [
"propext",
"Classical.choice",
"Quot.sound"
],
"OnnxTool.Props.C19_grouping": [
"propext",
"Classical.choice",
"Quot.sound"
],
"OnnxTool.Props.C19_expand_partial": [
"propext",
"Quot.sound"
],
"OnnxTool.Props.C19_expand_wrong": [
"propext"
],
"OnnxTool.Props.C20_max_shape": [
"propext",
"Quot.sound"
],
"OnnxTool.Props.C20_volume": [
"propext",
"Quot.sound"
],
"OnnxTool.Props.C20_returns_broadcast": [
"propext",
"Classical.choice",
"Quot.sound"
],
"OnnxTool.Props.C20_not_broadcast_in_general": [
"propext"
],
"OnnxTool.Props.C21_conv": [
"propext",
"Classical.choice",
"Quot.sound"
],
"OnnxTool.Props.C21_pool_partial": [
"propext",
"Classical.choice",
"Quot.sound"
],
"OnnxTool.Props.C21_pool3d_wrong": [
"propext",
"Classical.choice",
"Quot.sound"
],
"OnnxTool.Props.C21_conv_not_fitting": [
"propext",
"Classical.choice",
"Quot.sound"
],
"OnnxTool.Props.C21_conv_auto_pad_3d": [
"propext",
"Classical.choice",
"Quot.sound"
],
"OnnxTool.Props.C22_conv_inverts_transpose": [
"propext",
"Quot.sound"
],
"OnnxTool.Props.C22_conv_of_convtranspose_shape": [
"propext",
"Quot.sound"
],
"OnnxTool.Props.C22_valid_is_zero_padding": [
"propext",
"Classical.choice",
"Quot.sound"
],
"OnnxTool.Props.C22_same_is_ceil": [
"propext",
"Quot.sound"
],
"OnnxTool.Props.C22_same_is_explicit": [
"propext",
"Classical.choice",
"Quot.sound"
],
"OnnxTool.Props.C23_slice": [
"propext",
"Classical.choice",
"Quot.sound"
],
"OnnxTool.Props.C23_defaults": [
"propext"
],
"OnnxTool.Props.C23_value_agrees_partial": [
"propext",
"Classical.choice",
"Quot.sound"
],
"OnnxTool.Props.C23_backward_wrong": [
"propext"
],
"OnnxTool.Props.C23_value_ignores_axes": [
"propext"
],
"OnnxTool.Props.C24_reshape_partial": [
"propext",
"Classical.choice",
"Quot.sound"
],
"OnnxTool.Props.C24_reshape_unique": [
"propext",
"Classical.choice",
"Quot.sound"
],
"OnnxTool.Props.C24_reshape_iff": [
"propext",
"Classical.choice",
"Quot.sound"
],
"OnnxTool.Props.C24_undetermined": [
"propext",
"Classical.choice",
"Quot.sound"
],
"OnnxTool.Props.C24_count_preserved": [
"propext"
],
"OnnxTool.Props.C24_wildcards_left": [
"propext"
],
"OnnxTool.Props.C25_split": [
"propext",
"Classical.choice",
"Quot.sound"
],
"OnnxTool.Props.C25_equal_split": [
"propext",
"Classical.choice",
"Quot.sound"
],
"OnnxTool.Props.C25_uneven_split_partial": [
"propext",
"Classical.choice",
"Quot.sound"
],
"OnnxTool.Props.C25_uneven_split_iff": [
"propext",
"Classical.choice",
"Quot.sound"
],
"OnnxTool.Props.C25_uneven_split_wrong": [
"propext"
],
"OnnxTool.Props.C25_concat": [
"propext",
"Classical.choice",
"Quot.sound"
],
"OnnxTool.Props.C25_concat_of_split": [
"propext",
"Classical.choice",
"Quot.sound"
],
"OnnxTool.Props.C26_transpose": [
"propext",
"Quot.sound"
],
"OnnxTool.Props.C26_transpose_inverse": [
"propext",
"Quot.sound"
],
"OnnxTool.Props.C26_transpose_default": [
"propext"
],
"OnnxTool.Props.C26_squeeze": [
"propext",
"Quot.sound"
],
"OnnxTool.Props.C26_unsqueeze_squeeze": [
"propext",
"Classical.choice",
"Quot.sound"
],
"OnnxTool.Props.C26_unsqueeze_returns": [
"propext",
"Classical.choice",
"Quot.sound"
],
"OnnxTool.Props.C26_reduce": [
"propext",
"Quot.sound"
],
"OnnxTool.Props.C26_reduce_all_missing": [],
"OnnxTool.Props.C26_gather": [
"propext",
"Quot.sound"
],
"OnnxTool.Props.C26_onehot": [
"propext",
"Classical.choice",
"Quot.sound"
],
"OnnxTool.Props.C26_pad": [
"propext",
"Quot.sound"
],
"OnnxTool.Props.C26_negative_axes": [
"propext",
"Classical.choice",
"Quot.sound"
],
"OnnxTool.Props.C26_negative_axes_unsqueeze": [
"propext",
"Quot.sound"
],
"OnnxTool.Props.C27_affine": [
"propext",
"Quot.sound"
],
"OnnxTool.Props.C27_ceil_partial": [
"propext",
"Classical.choice",
"Quot.sound"
],
"OnnxTool.Props.C27_floor_partial": [
"propext",
"Classical.choice",
"Quot.sound"
],
"OnnxTool.Props.C27_floor_aligned_wrong": [
"propext",
"Classical.choice",
"Quot.sound"
],
"OnnxTool.Props.C27_ceil_end_wrong": [
"propext"
],
"OnnxTool.Props.C27_wide_enough": [
"propext",
"Classical.choice",
"Quot.sound"
],
"OnnxTool.Props.C28_update_consistent": [
"propext"
],
"OnnxTool.Props.C28_update_idempotent": [
"propext"
],
"OnnxTool.Props.C28_update_deterministic": [
"propext"
],
"OnnxTool.Props.C28_tensorshape": [
"propext",
"Classical.choice",
"Quot.sound"
],
"OnnxTool.Props.C28_history": [
"propext",
"Quot.sound"
],
"OnnxTool.Props.C28_unordered_stale": [],
"OnnxTool.Props.C29_roundtrip": [
"propext",
"Classical.choice",
"Quot.sound"
],
"OnnxTool.Props.C29_injective": [
"propext",
"Classical.choice",
"Quot.sound"
],
"OnnxTool.Props.C29_large_coefficient_lost": [],
"OnnxTool.Props.C29_coefficient_error": [
"propext",
"Classical.choice",
"Quot.sound"
],
"OnnxTool.Props.C29_coefficient_iff": [
"propext",
"Classical.choice",
"Quot.sound"
],
"OnnxTool.Props.C29_dim_overflow": [
"propext",
"Classical.choice",
"Quot.sound"
],
"OnnxTool.Props.C30_roundtrip": [
"propext",
"Classical.choice",
"Quot.sound"
],
"OnnxTool.Props.C30_returns_iff": [
"propext",
"Classical.choice",
"Quot.sound"
],
"OnnxTool.Props.C30_injective": [
"propext",
"Classical.choice",
"Quot.sound"
],
"OnnxTool.Props.C30_nul_name_ambiguous": [
"propext",
"Classical.choice",
"Quot.sound"
],
"OnnxTool.Props.C31_roundtrip": [
"propext",
"Classical.choice",
"Quot.sound"
],
"OnnxTool.Props.C31_returns": [
"propext",
"Classical.choice",
"Quot.sound"
],
"OnnxTool.Props.C31_injective": [
"propext",
"Classical.choice",
"Quot.sound"
],
"OnnxTool.Props.C31_other_attr_lost": [
"propext",
"Classical.choice",
"Quot.sound"
],
"OnnxTool.Props.C31_empty_attr_raises": [
"propext",
"Classical.choice",
"Quot.sound"
],
"OnnxTool.Props.C31_int64_attr_raises": [
"propext",
"Classical.choice",
"Quot.sound"
],
"OnnxTool.Props.C31_scalar_list_alike": [
"propext",
"Classical.choice",
"Quot.sound"
],
"OnnxTool.Props.C32_dtype_roundtrip": [],
"OnnxTool.Props.C32_code_roundtrip": [],
"OnnxTool.Props.C32_roundtrip_partial": [
"propext",
"Classical.choice",
"Quot.sound"
],
"OnnxTool.Props.C32_scalar_small_int_lost": [
"propext"
],
"OnnxTool.Props.C32_roundtrip_iff": [
"propext",
"Classical.choice",
"Quot.sound"
],
"OnnxTool.Props.C32_typed_small_int_read_as_zero": [
"propext"
],
"OnnxTool.Props.C32_unknown_type_read_as_float64": [
"propext",
"Classical.choice",
"Quot.sound"
],
"OnnxTool.Props.C32_typed_values_in_range": [
"propext",
"Classical.choice",
"Quot.sound"
],
"OnnxTool.Props.C33_sym_roundtrip": [
"propext",
"Quot.sound"
],
"OnnxTool.Props.C33_sym_even": [
"propext",
"Quot.sound"
],
"OnnxTool.Props.C33_packed_bytes": [
"propext",
"Quot.sound"
],
"OnnxTool.Props.C33_asym_codes_collide": [
"propext",
"Quot.sound"
],
"OnnxTool.Props.C33_odd_row_loses_last": [
"propext",
"Quot.sound"
],
"OnnxTool.Props.C34_symmetric": [
"propext",
"Classical.choice",
"Quot.sound"
],
"OnnxTool.Props.C34_asymmetric": [
"propext",
"Classical.choice",
"Quot.sound"
],
"OnnxTool.Props.C34_asym_code_overflow": [
"propext",
"Classical.choice",
"Quot.sound"
],
"OnnxTool.Props.C34_wide_saturates": [
"propext",
"Classical.choice",
"Quot.sound"
],
"OnnxTool.Props.C34_quantize": [
"propext",
"Classical.choice",
"Quot.sound"
],
"OnnxTool.Props.C34_zero_row_raises": [
"propext",
"Classical.choice",
"Quot.sound"
],
"OnnxTool.Props.C34_every_element_has_params": [
"propext",
"Classical.choice",
"Quot.sound"
],
"OnnxTool.Props.C35_totals_are_sums": [
"propext",
"Classical.choice",
"Quot.sound"
],
"OnnxTool.Props.C35_order_irrelevant": [
"propext",
"Classical.choice",
"Quot.sound"
],
"OnnxTool.Props.C35_dedup": [
"propext",
"Classical.choice",
"Quot.sound"
],
"OnnxTool.Props.C35_counted_once": [
"propext",
"Classical.choice",
"Quot.sound"
],
"OnnxTool.Props.C35_covered": [
"propext",
"Quot.sound"
],
"OnnxTool.Props.C35_row_params": [
"propext",
"Classical.choice",
"Quot.sound"
],
"OnnxTool.Props.C35_dedup_ignores_exclude": [
"propext",
"Classical.choice",
"Quot.sound"
],
"OnnxTool.Props.C35_scalar_weight_uncounted": [],
"OnnxTool.Props.C35_volume": [
"propext",
"Classical.choice",
"Quot.sound"
],
"OnnxTool.Props.C35_row_memory": [
"propext",
"Quot.sound"
],
"OnnxTool.Props.C36_static": [
"propext",
"Quot.sound"
],
"OnnxTool.Props.C36_monotone": [
"propext",
"Quot.sound"
],
"OnnxTool.Props.C36_capped": [
"propext",
"Classical.choice",
"Quot.sound"
],
"OnnxTool.Props.C36_macs_linear": [
"propext"
],
"OnnxTool.Props.C36_macs_token": [
"propext"
],
"OnnxTool.Props.C37_get_last": [
"propext"
],
"OnnxTool.Props.C37_get": [
"propext"
],
"OnnxTool.Props.C37_index_membership": [
"propext",
"Quot.sound"
],
"OnnxTool.Props.C37_warns": [
"propext",
"Quot.sound"
],
"OnnxTool.Props.C37_others_unchanged": [
"propext"
],
"OnnxTool.Props.C37_iterate": [
"propext",
"Quot.sound"
],
"OnnxTool.Props.C37_create_node": [
"propext"
],
"OnnxTool.Props.C37_needs_suffix": [
"propext"
],
"OnnxTool.Props.C38_terminates": [
"propext",
"Classical.choice",
"Quot.sound"
],
"OnnxTool.Props.C38_matches_genuine": [
"propext",
"Classical.choice",
"Quot.sound"
],
"OnnxTool.Props.C38_entry_conditions": [
"propext",
"Classical.choice",
"Quot.sound"
],
"OnnxTool.Props.C38_nodes_distinct": [
"propext",
"Classical.choice",
"Quot.sound"
],
"OnnxTool.Props.C38_convbn_list": [
"propext",
"Classical.choice",
"Quot.sound"
],
"OnnxTool.Props.C38_convbn_exact": [
"propext",
"Classical.choice",
"Quot.sound"
],
"OnnxTool.Props.C38_conv1d_raises": [
"propext"
],
"OnnxTool.Props.C38_inport_on_input_raises": [
"propext"
],
"OnnxTool.Props.C38_placeholder": [
"propext"
],
"OnnxTool.Props.C38_order_dependent": [
"propext"
],
"OnnxTool.Props.C38_serial_operand_order": [
"propext"
],
"OnnxTool.Props.C38_shipped_coherent": [
"propext"
],
"OnnxTool.Props.C38_convRes_example": [
"propext"
],
"OnnxTool.Props.C38_mhaint8_never": [
"propext"
],
"OnnxTool.Props.C38_overlap": [
"propext"
],
"OnnxTool.Props.C39_fold_algebra": [
"propext",
"Classical.choice",
"Quot.sound"
],
"OnnxTool.Props.C39_fusion_preserves_values_partial": [
"propext",
"Classical.choice",
"Quot.sound"
],
"OnnxTool.Props.C39_bias_raises": [
"propext",
"Classical.choice",
"Quot.sound"
],
"OnnxTool.Props.C39_other_reader_dangles": [
"propext",
"Classical.choice",
"Quot.sound"
],
"OnnxTool.Props.C39_output_lost": [
"propext",
"Classical.choice",
"Quot.sound"
],
"OnnxTool.Props.C39_shared_weight_scaled_twice": [
"propext",
"Classical.choice",
"Quot.sound"
],
"OnnxTool.Props.C39_index_stale": [
"propext",
"Classical.choice",
"Quot.sound"
],
"OnnxTool.Props.C40_remove_shape_ops_partial": [
"propext",
"Classical.choice",
"Quot.sound"
],
"OnnxTool.Props.C40_skip_unread_partial": [
"propext",
"Classical.choice",
"Quot.sound"
],
"OnnxTool.Props.C40_which_ops": [
"propext"
],
"OnnxTool.Props.C40_other_reader_disconnected": [
"propext"
],
"OnnxTool.Props.C40_two_dynamic_operands_disconnected": [
"propext"
],
"OnnxTool.Props.C40_graph_input_disconnected": [
"propext"
],
"OnnxTool.Props.C40_unread_on_input_raises": [
"propext"
],
"OnnxTool.Props.C41_returns_iff": [
"propext",
"Quot.sound"
],
"OnnxTool.Props.C41_single_node_raises": [
"propext"
],
"OnnxTool.Props.C42_gemm_partial": [
"propext",
"Classical.choice",
"Quot.sound"
],
"OnnxTool.Props.C42_gemm_iff": [
"propext",
"Classical.choice",
"Quot.sound"
],
"OnnxTool.Props.C42_rank_checked": [
"propext"
],
"OnnxTool.Props.C42_wrong_batch": [
"propext"
],
"OnnxTool.Props.C43_einsum": [
"propext",
"Classical.choice",
"Quot.sound"
],
"OnnxTool.Props.C43_einsum_ellipsis_raises": [
"propext",
"Classical.choice",
"Quot.sound"
],
"OnnxTool.Props.C43_gemm": [
"propext",
"Classical.choice",
"Quot.sound"
],
"OnnxTool.Props.C43_matvec_undercounted": [
"propext",
"Quot.sound"
],
"OnnxTool.Props.C43_conv": [
"propext",
"Classical.choice",
"Quot.sound"
],
"OnnxTool.Props.C43_convtranspose_overcounted": [
"propext",
"Classical.choice",
"Quot.sound"
],
"OnnxTool.Props.C43_pool": [
"propext",
"Classical.choice",
"Quot.sound"
],
"OnnxTool.Props.C43_pool3d_undercounted": [
"propext"
],
"OnnxTool.Props.C44_sdpa": [
"propext"
],
"OnnxTool.Props.C44_sdpa_cache": [
"propext",
"Quot.sound"
],
"OnnxTool.Props.C44_decode_vs_prefill": [
"propext",
"Quot.sound"
],
"OnnxTool.Props.C44_sdpa_layout_confused": [
"propext"
],
"OnnxTool.Props.C44_mla_linear_in_batch": [
"propext"
],
"OnnxTool.Props.C44_gdn_linear_in_batch": [
"propext"
],
"OnnxTool.Props.C44_mla_kv_bounds": [
"propext",
"Classical.choice",
"Quot.sound"
],
"OnnxTool.Props.C44_mla_overcounts_short": [],
"OnnxTool.Props.C45_letters": [
"propext",
"Classical.choice",
"Quot.sound"
],
"OnnxTool.Props.C45_ellipsis": [
"propext",
"Quot.sound"
],
"OnnxTool.Props.C45_implicit": [
"propext",
"Quot.sound"
],
"OnnxTool.Props.C45_parse": [
"propext"
],
"OnnxTool.Props.C45_parse_implicit": [
"propext"
],
"OnnxTool.Props.C45_two_arrows": [
"propext"
],
"OnnxTool.Props.C45_equation_iff": [
"propext",
"Classical.choice",
"Quot.sound"
],
"OnnxTool.Props.C45_equation_implicit": [
"propext",
"Classical.choice",
"Quot.sound"
],
"OnnxTool.Props.C45_operand_count": [
"propext"
],
"OnnxTool.Props.C45_prefix_letters_lost": [
"propext",
"Classical.choice",
"Quot.sound"
],
"OnnxTool.Props.C45_summed_ellipsis_kept": [
"propext",
"Classical.choice",
"Quot.sound"
],
"OnnxTool.Props.C46_every_read_sees_reference": [
"propext",
"Classical.choice",
"Quot.sound"
],
"OnnxTool.Props.C46_forward_partial": [
"propext",
"Classical.choice",
"Quot.sound"
],
"OnnxTool.Props.C46_contract_satisfiable": [
"propext",
"Classical.choice",
"Quot.sound"
],
"OnnxTool.Props.C46_read_output_is_overwritten": [
"propext"
],
"OnnxTool.Props.C46_wider_run_type_overlaps": [
"propext"
],
"OnnxTool.Props.C46_scalar_output_raises": [
"propext",
"Classical.choice",
"Quot.sound"
],
"OnnxTool.Props.C46_view_of_tensor": [
"propext",
"Quot.sound"
],
"OnnxTool.Props.C47_no_stale_state": [
"propext",
"Classical.choice",
"Quot.sound"
],
"OnnxTool.Props.C47_outputs_are_reference": [
"propext",
"Classical.choice",
"Quot.sound"
],
"OnnxTool.Props.C47_second_input_shape_ignored": [
"propext"
],
"OnnxTool.Props.C47_weight_override_inconsistent": [
"propext"
],
"OnnxTool.Props.C47_last_supplied_value": [
"propext",
"Quot.sound"
],
"OnnxTool.Props.C48_new_shape_recovers": [
"propext",
"Classical.choice",
"Quot.sound"
],
"OnnxTool.Props.C48_same_shape_failures_harmless": [
"propext",
"Classical.choice",
"Quot.sound"
],
"OnnxTool.Props.C48_failed_copy_then_stale_shape": [
"propext"
],
"OnnxTool.Props.C48_failed_kernel_then_index_error": [
"propext"
],
"OnnxTool.Props.C49_cached_attention": [
"propext",
"Classical.choice",
"Quot.sound"
],
"OnnxTool.Props.C49_plain_attention": [
"propext",
"Classical.choice",
"Quot.sound"
],
"OnnxTool.Props.C49_no_lookahead": [
"propext",
"Classical.choice",
"Quot.sound"
],
"OnnxTool.Props.C49_overflow_raises": [
"propext",
"Classical.choice",
"Quot.sound"
],
"OnnxTool.Props.C49_four_dim_decode_raises": [
"propext",
"Quot.sound"
],
"OnnxTool.Props.C49_four_dim_scrambled": [
"propext",
"Quot.sound"
],
"OnnxTool.Props.C50_relative_positions": [
"propext",
"Classical.choice",
"Quot.sound"
],
"OnnxTool.Props.C50_preserves_length": [
"propext",
"Classical.choice",
"Quot.sound"
],
"OnnxTool.Props.C50_tables": [
"propext",
"Classical.choice",
"Quot.sound"
],
"OnnxTool.Props.C50_partial_rotary_rotates_all": [
"propext",
"Quot.sound"
],
"OnnxTool.Props.C51_separate_pools": [
"propext",
"Classical.choice",
"Quot.sound"
],
"OnnxTool.Props.C51_live_disjoint": [
"propext",
"Classical.choice",
"Quot.sound"
],
"OnnxTool.Props.C51_blocks": [
"propext",
"Classical.choice",
"Quot.sound"
],
"OnnxTool.Props.C51_every_live_tensor_allocated": [
"propext",
"Classical.choice",
"Quot.sound"
],
"OnnxTool.Props.C51_cache_block": [
"propext",
"Classical.choice",
"Quot.sound"
],
"OnnxTool.Props.C51_returns_iff": [
"propext",
"Quot.sound"
],
"OnnxTool.Props.C51_duplicate_input_wastes": [
"propext"
],
"OnnxTool.Props.C52_session": [
"propext",
"Classical.choice",
"Quot.sound"
],
"OnnxTool.Props.C52_contract_satisfiable": [
"propext",
"Classical.choice",
"Quot.sound"
],
"OnnxTool.Props.C53_cached_generate_partial": [
"propext",
"Classical.choice",
"Quot.sound"
],
"OnnxTool.Props.C53_plain_generate_partial": [
"propext",
"Classical.choice",
"Quot.sound"
],
"OnnxTool.Props.C53_continuation_unique": [
"propext",
"Quot.sound"
],
"OnnxTool.Props.C53_cache_same_tokens": [
"propext",
"Classical.choice",
"Quot.sound"
],
"OnnxTool.Props.C53_one_token_too_many": [
"propext",
"Quot.sound"
],
"OnnxTool.Props.C53_length_bound": [
"propext",
"Quot.sound"
],
"OnnxTool.Props.C53_long_prompt": [
"propext",
"Classical.choice",
"Quot.sound"
],
"OnnxTool.Props.C53_empty_prompt_raises": [
"propext",
"Classical.choice",
"Quot.sound"
],
"OnnxTool.Props.C53_contract_satisfiable": [
"propext",
"Classical.choice",
"Quot.sound"
],
"OnnxTool.Props.C54_causal": [
"propext",
"Classical.choice",
"Quot.sound"
],
"OnnxTool.Props.C54_cached_engine": [
"propext",
"Classical.choice",
"Quot.sound"
],
"OnnxTool.Props.C54_any_chunking": [
"propext",
"Classical.choice",
"Quot.sound"
],
"OnnxTool.Props.C54_past_context": [
"propext",
"Classical.choice",
"Quot.sound"
],
"OnnxTool.Props.C54_plain_engine": [
"propext",
"Classical.choice",
"Quot.sound"
],
"OnnxTool.Props.C54_generate": [
"propext",
"Classical.choice",
"Quot.sound"
],
"OnnxTool.Props.C55_built_graph_is_valid": [
"propext",
"Classical.choice",
"Quot.sound"
],
"OnnxTool.Props.C55_default_map_ok": [
"propext",
"Classical.choice",
"Quot.sound"
],
"OnnxTool.Props.C55_llama_hypotheses": [
"propext",
"Classical.choice",
"Quot.sound"
],
"OnnxTool.Props.C55_gpt2_hypotheses": [
"propext",
"Classical.choice",
"Quot.sound"
],
"OnnxTool.Props.C55_hybrid_hypotheses": [
"propext",
"Classical.choice",
"Quot.sound"
],
"OnnxTool.Props.C55_default_map_collides": [
"propext"
],
"OnnxTool.Props.C55_position_twice": [
"propext",
"Classical.choice",
"Quot.sound"
],
"OnnxTool.Props.C55_missing_position_name": [
"propext"
],
"OnnxTool.Props.C56_parameter_count": [
"propext",
"Classical.choice",
"Quot.sound"
],
"OnnxTool.Props.C56_llama7b": [
"propext"
],
"OnnxTool.Props.C56_gpt2": [
"propext"
],
"OnnxTool.Props.C57_cache_fits": [
"propext",
"Classical.choice",
"Quot.sound"
],
"OnnxTool.Props.C57_cache_twice": [
"propext",
"Quot.sound"
],
"OnnxTool.Props.C57_kv_params": [
"propext"
],
"OnnxTool.Props.C57_kv_params_hybrid": [
"propext"
],
"OnnxTool.Props.C58_flags_partial": [
"propext",
"Quot.sound"
],
"OnnxTool.Props.C58_other_entries": [
"propext",
"Classical.choice",
"Quot.sound"
],
"OnnxTool.Props.C58_example": [],
"OnnxTool.Props.C58_first": [
"propext",
"Quot.sound"
],
"OnnxTool.Props.C58_flags_leak": [],
"OnnxTool.Props.C58_flags_leak_back": [],
"OnnxTool.Props.C59_built_graph_computes_decoder": [
"propext",
"Classical.choice",
"Quot.sound"
],
"OnnxTool.Props.C59_examples": [
"propext",
"Classical.choice",
"Quot.sound"
],
"OnnxTool.Props.C59_two_layers": [
"propext"
],
"OnnxTool.Props.C59_default_map_wrong": [
"propext"
],
"OnnxTool.Props.C60_checkpoint_linear_partial": [
"propext",
"Classical.choice",
"Quot.sound"
],
"OnnxTool.Props.C60_gemm_partial": [
"propext",
"Classical.choice",
"Quot.sound"
],
"OnnxTool.Props.C60_other_constants_partial": [
"propext",
"Classical.choice",
"Quot.sound"
],
"OnnxTool.Props.C60_not_loaded": [
"propext"
],
"OnnxTool.Props.C60_embedded_matmul_transposed": [
"propext",
"Classical.choice",
"Quot.sound"
],
"OnnxTool.Props.C60_embedded_matmul_wrong": [
"propext",
"Classical.choice",
"Quot.sound"
],
"OnnxTool.Props.C60_dynamic_transB_wrong": [
"propext",
"Classical.choice",
"Quot.sound"
],
"OnnxTool.Props.C60_tied_embedding_raises": [
"propext",
"Classical.choice",
"Quot.sound"
],
"OnnxTool.Props.C60_checkpoint_example": [
"propext",
"Classical.choice",
"Quot.sound"
],
"OnnxTool.Props.C60_gemm_example": [
"propext",
"Classical.choice",
"Quot.sound"
],
"OnnxTool.Props.C60_gemm_bias_transposed": [
"propext"
],
"OnnxTool.Props.C61_flatten": [
"propext",
"Classical.choice",
"Quot.sound"
],
"OnnxTool.Props.C61_reshape": [
"propext",
"Classical.choice",
"Quot.sound"
],
"OnnxTool.Props.C61_unsqueeze_partial": [
"propext",
"Classical.choice",
"Quot.sound"
],
"OnnxTool.Props.C61_squeeze": [
"propext",
"Classical.choice",
"Quot.sound"
],
"OnnxTool.Props.C61_relayout_never_wrong": [
"propext",
"Classical.choice",
"Quot.sound"
],
"OnnxTool.Props.C61_transpose": [
"propext",
"Classical.choice",
"Quot.sound"
],
"OnnxTool.Props.C61_transpose_default": [
"propext",
"Classical.choice",
"Quot.sound"
],
"OnnxTool.Props.C61_gather_vector_partial": [
"propext",
"Classical.choice",
"Quot.sound"
],
"OnnxTool.Props.C61_gather_embedding_partial": [
"propext",
"Classical.choice",
"Quot.sound"
],
"OnnxTool.Props.C61_gather_batch_counterexample": [
"propext",
"Quot.sound"
],
"OnnxTool.Props.C61_gather_negative_counterexample": [
"propext",
"Quot.sound"
],
"OnnxTool.Props.C61_gather_scalar_counterexample": [
"propext",
"Quot.sound"
],
"OnnxTool.Props.C61_pad_exchanged": [
"propext",
"Classical.choice",
"Quot.sound"
],
"OnnxTool.Props.C61_pad_partial": [
"propext",
"Classical.choice",
"Quot.sound"
],
"OnnxTool.Props.C61_unsqueeze_counterexample": [
"propext",
"Quot.sound"
],
"OnnxTool.Props.C61_squeeze_input_counterexample": [
"propext",
"Quot.sound"
],
"OnnxTool.Props.C61_pad_counterexample": [
"propext",
"Classical.choice",
"Quot.sound"
],
"OnnxTool.Props.C62_slice_partial": [
"propext",
"Classical.choice",
"Quot.sound"
],
"OnnxTool.Props.C62_slice_inferred_partial": [
"propext",
"Classical.choice",
"Quot.sound"
],
"OnnxTool.Props.C62_slice_defaults": [
"propext",
"Classical.choice",
"Quot.sound"
],
"OnnxTool.Props.C62_slice_step_counterexample": [
"propext",
"Classical.choice",
"Quot.sound"
],
"OnnxTool.Props.C62_split": [
"propext",
"Classical.choice",
"Quot.sound"
],
"OnnxTool.Props.C62_split_even": [
"propext",
"Classical.choice",
"Quot.sound"
],
"OnnxTool.Props.C62_concat": [
"propext",
"Classical.choice",
"Quot.sound"
],
"OnnxTool.Props.C62_split_concat": [
"propext",
"Classical.choice",
"Quot.sound"
],
"OnnxTool.Props.C62_expand_partial": [
"propext",
"Classical.choice",
"Quot.sound"
],
"OnnxTool.Props.C62_expand_counterexample": [
"propext"
],
"OnnxTool.Props.C62_split_counterexample": [
"propext"
],
"OnnxTool.Props.C63_conv_actual": [
"propext",
"Classical.choice",
"Quot.sound"
],
"OnnxTool.Props.C63_conv_partial": [
"propext",
"Classical.choice",
"Quot.sound"
],
"OnnxTool.Props.C63_maxpool_partial": [
"propext",
"Classical.choice",
"Quot.sound"
],
"OnnxTool.Props.C63_avgpool_actual": [
"propext",
"Classical.choice",
"Quot.sound"
],
"OnnxTool.Props.C63_avgpool_partial": [
"propext",
"Classical.choice",
"Quot.sound"
],
"OnnxTool.Props.C63_conv_counterexample": [
"propext",
"Classical.choice",
"Quot.sound"
],
"OnnxTool.Props.C63_avgpool_counterexample": [
"propext",
"Classical.choice",
"Quot.sound"
],
"OnnxTool.Props.C64_rows": [
"propext",
"Classical.choice",
"Quot.sound"
],
"OnnxTool.Props.C64_heads": [
"propext",
"Classical.choice",
"Quot.sound"
],
"OnnxTool.Props.C64_ragged": [
"propext",
"Classical.choice",
"Quot.sound"
],
"OnnxTool.Props.C64_batchnorm": [
"propext",
"Classical.choice",
"Quot.sound"
],
"OnnxTool.Props.C64_scalar_scale_wrong": [
"propext",
"Classical.choice",
"Quot.sound"
],
"OnnxTool.Props.C64_axis_ignored": [
"propext",
"Classical.choice",
"Quot.sound"
],
"OnnxTool.Props.C64_rms_bias_ignored": [
"propext",
"Classical.choice",
"Quot.sound"
],
"OnnxTool.Props.C65_report": [
"propext",
"Classical.choice",
"Quot.sound"
],
"OnnxTool.Props.C65_no_device": [
"propext",
"Classical.choice",
"Quot.sound"
],
"OnnxTool.Props.C65_memory_split": [
"propext",
"Classical.choice",
"Quot.sound"
],
"OnnxTool.Props.C65_roofline": [
"propext",
"Classical.choice",
"Quot.sound"
],
"OnnxTool.Props.C65_monotone": [
"propext",
"Classical.choice",
"Quot.sound"
],
"OnnxTool.Props.C65_amdahl": [
"propext",
"Classical.choice",
"Quot.sound"
],
"OnnxTool.Props.C65_order": [
"propext",
"Classical.choice",
"Quot.sound"
],
"OnnxTool.Props.C65_fp32_required": [
"propext",
"Classical.choice",
"Quot.sound"
],
"OnnxTool.Props.C65_bandwidth_required": [
"propext",
"Classical.choice",
"Quot.sound"
],
"OnnxTool.Props.C65_zero_bandwidth": [
"propext",
"Classical.choice",
"Quot.sound"
],
"OnnxTool.Props.C65_number_needs_link": [
"propext",
"Classical.choice",
"Quot.sound"
],
"OnnxTool.Props.C65_built_decoder": [
"propext",
"Classical.choice",
"Quot.sound"
],
"OnnxTool.Props.C65_default_configuration": [
"propext",
"Classical.choice",
"Quot.sound"
],
"OnnxTool.Props.C65_latency_in_seconds": [
"propext",
"Classical.choice",
"Quot.sound"
],
"OnnxTool.Props.C66_built_cost": [
"propext",
"Classical.choice",
"Quot.sound"
],
"OnnxTool.Props.C66_cached_cost": [
"propext",
"Classical.choice",
"Quot.sound"
],
"OnnxTool.Props.C66_llama7b": [],
"OnnxTool.Props.C66_cost_per_past_token": [
"propext"
],
"OnnxTool.Props.C66_prefill_and_decode": [
"propext",
"Quot.sound"
],
"OnnxTool.Props.C66_gdn_counted_twice": [
"propext",
"Classical.choice",
"Quot.sound"
],
"OnnxTool.Props.C67_vision_graph": [
"propext",
"Classical.choice",
"Quot.sound"
],
"OnnxTool.Props.C67_example": [],
"OnnxTool.Props.C67_zero_raises": [
"propext",
"Quot.sound"
],
"OnnxTool.Props.C67_whole_patches": [
"propext"
],
"OnnxTool.Props.C67_patch_reshape": [
"propext",
"Classical.choice",
"Quot.sound"
],
"OnnxTool.Props.C67_rows_are_patches_iff": [
"propext",
"Classical.choice",
"Quot.sound"
],
"OnnxTool.Props.C67_first_patch_sees_itself": [
"propext",
"Classical.choice",
"Quot.sound"
],
"OnnxTool.Props.C68_gather": [
"propext",
"Classical.choice",
"Quot.sound"
],
"OnnxTool.Props.C68_gather_refused": [
"propext",
"Classical.choice",
"Quot.sound"
],
"OnnxTool.Props.C68_slice_partial": [
"propext",
"Classical.choice",
"Quot.sound"
],
"OnnxTool.Props.C68_slice_ignored": [
"propext",
"Quot.sound"
],
"OnnxTool.Props.C68_concat": [
"propext",
"Classical.choice",
"Quot.sound"
],
"OnnxTool.Props.C68_split_partial": [
"propext",
"Classical.choice",
"Quot.sound"
],
"OnnxTool.Props.C68_split_tail_counterexample": [
"propext",
"Classical.choice",
"Quot.sound"
],
"OnnxTool.Props.C68_split_equal": [
"propext",
"Classical.choice",
"Quot.sound"
],
"OnnxTool.Props.C68_split_uneven_partial": [
"propext",
"Classical.choice",
"Quot.sound"
],
"OnnxTool.Props.C68_unsqueeze_partial": [
"propext",
"Classical.choice",
"Quot.sound"
],
"OnnxTool.Props.C68_unsqueeze_elements": [
"propext",
"Classical.choice",
"Quot.sound"
],
"OnnxTool.Props.C68_squeeze_partial": [
"propext",
"Classical.choice",
"Quot.sound"
],
"OnnxTool.Props.C68_squeeze_elements": [
"propext",
"Classical.choice",
"Quot.sound"
],
"OnnxTool.Props.C68_squeeze_unsqueeze": [
"propext",
"Classical.choice",
"Quot.sound"
],
"OnnxTool.Props.C68_reshape_partial": [
"propext",
"Classical.choice",
"Quot.sound"
],
"OnnxTool.Props.C68_reshape_elements": [
"propext",
"Quot.sound"
],
"OnnxTool.Props.C68_flatten_partial": [
"propext",
"Quot.sound"
],
"OnnxTool.Props.C68_flatten_default_partial": [
"propext",
"Classical.choice",
"Quot.sound"
],
"OnnxTool.Props.C68_flatten_counterexample": [
"propext",
"Quot.sound"
],
"OnnxTool.Props.C68_transpose": [
"propext",
"Classical.choice",
"Quot.sound"
],
"OnnxTool.Props.C68_transpose_default": [
"propext",
"Classical.choice",
"Quot.sound"
],
"OnnxTool.Props.C68_tile": [
"propext",
"Classical.choice",
"Quot.sound"
],
"OnnxTool.Props.C68_gather_elements_partial": [
"propext",
"Classical.choice",
"Quot.sound"
],
"OnnxTool.Props.C68_gather_nd_partial": [
"propext",
"Classical.choice",
"Quot.sound"
],
"OnnxTool.Props.C68_gather_nd_refused": [
"propext",
"Classical.choice",
"Quot.sound"
],
"OnnxTool.Props.C68_scatter_nd_partial": [
"propext",
"Classical.choice",
"Quot.sound"
],
"OnnxTool.Props.C68_pad_partial": [
"propext",
"Classical.choice",
"Quot.sound"
],
"OnnxTool.Props.C68_pad_counterexample": [
"propext"
],
"OnnxTool.Props.C68_trilu": [
"propext",
"Classical.choice",
"Quot.sound"
],
"OnnxTool.Props.C68_compress": [
"propext",
"Classical.choice",
"Quot.sound"
],
"OnnxTool.Props.C68_compress_flat": [
"propext",
"Classical.choice",
"Quot.sound"
],
"OnnxTool.Props.C68_shape_partial": [
"propext",
"Classical.choice",
"Quot.sound"
],
"OnnxTool.Props.C68_slice_negative_axis_counterexample": [
"propext"
],
"OnnxTool.Props.C68_slice_no_axes_counterexample": [
"propext"
],
"OnnxTool.Props.C68_split_zero_counterexample": [
"propext"
],
"OnnxTool.Props.C68_unsqueeze_counterexample": [
"propext"
],
"OnnxTool.Props.C68_squeeze_counterexample": [
"propext"
],
"OnnxTool.Props.C68_reshape_allowzero_counterexample": [
"propext"
],
"OnnxTool.Props.C68_flatten_negative_counterexample": [
"propext"
],
"OnnxTool.Props.C68_gather_elements_counterexample": [
"propext",
"Classical.choice",
"Quot.sound"
],
"OnnxTool.Props.C68_gather_nd_counterexample": [
"propext"
],
"OnnxTool.Props.C68_scatter_nd_counterexample": [
"propext"
],
"OnnxTool.Props.C68_shape_counterexample": [
"propext"
],
"OnnxTool.Props.C68_unsqueeze_one": [
"propext",
"Classical.choice",
"Quot.sound"
],
"OnnxTool.Props.C68_squeeze_one": [
"propext",
"Classical.choice",
"Quot.sound"
],
"OnnxTool.Props.C69_arithmetic": [
"propext",
"Classical.choice",
"Quot.sound"
],
"OnnxTool.Props.C69_compare": [
"propext",
"Classical.choice",
"Quot.sound"
],
"OnnxTool.Props.C69_logic": [
"propext",
"Classical.choice",
"Quot.sound"
],
"OnnxTool.Props.C69_incompatible": [
"propext",
"Classical.choice",
"Quot.sound"
],
"OnnxTool.Props.C69_div_floors": [
"propext",
"Classical.choice",
"Quot.sound"
],
"OnnxTool.Props.C69_div_agrees_iff": [
"propext",
"Classical.choice",
"Quot.sound"
],
"OnnxTool.Props.C69_div_partial": [
"propext",
"Classical.choice",
"Quot.sound"
],
"OnnxTool.Props.C69_div_float": [
"propext",
"Classical.choice",
"Quot.sound"
],
"OnnxTool.Props.C69_mod_partial": [
"propext",
"Classical.choice",
"Quot.sound"
],
"OnnxTool.Props.C69_pow_partial": [
"propext",
"Classical.choice",
"Quot.sound"
],
"OnnxTool.Props.C69_max": [
"propext",
"Classical.choice",
"Quot.sound"
],
"OnnxTool.Props.C69_sum": [
"propext",
"Classical.choice",
"Quot.sound"
],
"OnnxTool.Props.C69_several_incompatible": [
"propext",
"Classical.choice",
"Quot.sound"
],
"OnnxTool.Props.C69_min_partial": [
"propext",
"Quot.sound"
],
"OnnxTool.Props.C69_min_counterexample": [
"propext",
"Classical.choice",
"Quot.sound"
],
"OnnxTool.Props.C69_min_is_not": [
"propext",
"Classical.choice",
"Quot.sound"
],
"OnnxTool.Props.C69_where": [
"propext",
"Classical.choice",
"Quot.sound"
],
"OnnxTool.Props.C69_expand": [
"propext",
"Classical.choice",
"Quot.sound"
],
"OnnxTool.Props.C69_unary": [
"propext",
"Classical.choice",
"Quot.sound"
],
"OnnxTool.Props.C69_clip_partial": [
"propext",
"Classical.choice",
"Quot.sound"
],
"OnnxTool.Props.C69_clip_counterexample": [
"propext"
],
"OnnxTool.Props.C69_hard_partial": [
"propext",
"Classical.choice",
"Quot.sound"
],
"OnnxTool.Props.C69_hard_counterexample": [
"propext",
"Classical.choice",
"Quot.sound"
],
"OnnxTool.Props.C69_leaky_partial": [
"propext",
"Classical.choice",
"Quot.sound"
],
"OnnxTool.Props.C69_leaky_counterexample": [
"propext",
"Classical.choice",
"Quot.sound"
],
"OnnxTool.Props.C69_range": [
"propext",
"Classical.choice",
"Quot.sound"
],
"OnnxTool.Props.C69_div_counterexample": [
"propext",
"Classical.choice",
"Quot.sound"
],
"OnnxTool.Props.C69_div_int32_counterexample": [
"propext",
"Classical.choice",
"Quot.sound"
],
"OnnxTool.Props.C69_mod_counterexample": [
"propext"
],
"OnnxTool.Props.C69_min_five_seven_counterexample": [
"propext",
"Quot.sound"
],
"OnnxTool.Props.C69_hard_shape_counterexample": [
"propext",
"Classical.choice",
"Quot.sound"
],
"OnnxTool.Props.C70_sum_prod_mean": [
"propext",
"Classical.choice",
"Quot.sound"
],
"OnnxTool.Props.C70_max_min": [
"propext",
"Classical.choice",
"Quot.sound"
],
"OnnxTool.Props.C70_l2": [
"propext",
"Classical.choice",
"Quot.sound"
],
"OnnxTool.Props.C70_sum_input_partial": [
"propext",
"Classical.choice",
"Quot.sound"
],
"OnnxTool.Props.C70_bad_axes": [
"propext",
"Classical.choice",
"Quot.sound"
],
"OnnxTool.Props.C70_input_counterexample": [
"propext",
"Classical.choice",
"Quot.sound"
],
"OnnxTool.Props.C70_empty_axes_counterexample": [
"propext",
"Classical.choice",
"Quot.sound"
],
"OnnxTool.Props.C70_cumsum_partial": [
"propext",
"Classical.choice",
"Quot.sound"
],
"OnnxTool.Props.C70_cumsum_refused": [
"propext",
"Classical.choice",
"Quot.sound"
],
"OnnxTool.Props.C70_nonzero_partial": [
"propext",
"Classical.choice",
"Quot.sound"
],
"OnnxTool.Props.C70_nonzero_counterexample": [
"propext",
"Classical.choice",
"Quot.sound"
],
"OnnxTool.Props.C70_constant_partial": [
"propext",
"Quot.sound"
],
"OnnxTool.Props.C70_constant_counterexample": [
"propext"
],
"OnnxTool.Props.C70_onehot_partial": [
"propext",
"Classical.choice",
"Quot.sound"
],
"OnnxTool.Props.C70_onehot_values_counterexample": [
"propext",
"Quot.sound"
],
"OnnxTool.Props.C70_onehot_wrong": [
"propext",
"Quot.sound"
],
"OnnxTool.Props.C70_argmax_partial": [
"propext",
"Classical.choice",
"Quot.sound"
],
"OnnxTool.Props.C70_onehot_range_counterexample": [
"propext",
"Quot.sound"
],
"OnnxTool.Props.C71_matmul": [
"propext",
"Classical.choice",
"Quot.sound"
],
"OnnxTool.Props.C71_matmul_row": [
"propext",
"Classical.choice",
"Quot.sound"
],
"OnnxTool.Props.C71_matmul_refused": [
"propext",
"Classical.choice",
"Quot.sound"
],
"OnnxTool.Props.C71_matmul_vector_counterexample": [
"propext",
"Classical.choice",
"Quot.sound"
],
"OnnxTool.Props.C71_gemm_partial": [
"propext",
"Classical.choice",
"Quot.sound"
],
"OnnxTool.Props.C71_gemm_counterexample": [
"propext",
"Classical.choice",
"Quot.sound"
],
"OnnxTool.Props.C71_matmul_integer_partial": [
"propext",
"Classical.choice",
"Quot.sound"
],
"OnnxTool.Props.C71_conv_partial": [
"propext",
"Classical.choice",
"Quot.sound"
],
"OnnxTool.Props.C71_conv_rerun_counterexample": [
"propext",
"Classical.choice",
"Quot.sound"
],
"OnnxTool.Props.C71_conv_groups_refused": [
"propext",
"Quot.sound"
],
"OnnxTool.Props.C71_global_average_partial": [
"propext",
"Classical.choice",
"Quot.sound"
],
"OnnxTool.Props.C71_global_average_counterexample": [
"propext",
"Classical.choice",
"Quot.sound"
],
"OnnxTool.Props.C71_batchnorm": [
"propext",
"Classical.choice",
"Quot.sound"
],
"OnnxTool.Props.C71_softmax_partial": [
"propext",
"Classical.choice",
"Quot.sound"
],
"OnnxTool.Props.C71_softmax_counterexample": [
"propext",
"Quot.sound"
],
"OnnxTool.Props.C71_maxpool_partial": [
"propext",
"Classical.choice",
"Quot.sound"
],
"OnnxTool.Props.C71_maxpool_negative_counterexample": [
"propext",
"Classical.choice",
"Quot.sound"
],
"OnnxTool.Props.C71_maxpool_rank": [
"propext",
"Classical.choice",
"Quot.sound"
],
"OnnxTool.Props.C71_maxpool_rerun_counterexample": [
"propext",
"Classical.choice",
"Quot.sound"
],
"OnnxTool.Props.C71_matmul_integer_counterexample": [
"propext",
"Classical.choice",
"Quot.sound"
],
"OnnxTool.Props.C71_conv_same_counterexample": [
"propext",
"Classical.choice",
"Quot.sound"
],
"OnnxTool.Props.C71_maxpool_dilation_counterexample": [
"propext",
"Classical.choice",
"Quot.sound"
],
"OnnxTool.Props.C72_arithmetic": [
"propext",
"Classical.choice",
"Quot.sound"
],
"OnnxTool.Props.C72_division": [
"propext",
"Classical.choice",
"Quot.sound"
],
"OnnxTool.Props.C72_comparison": [
"propext",
"Classical.choice",
"Quot.sound"
],
"OnnxTool.Props.C72_max": [
"propext",
"Classical.choice",
"Quot.sound"
],
"OnnxTool.Props.C72_sum_partial": [
"propext",
"Classical.choice",
"Quot.sound"
],
"OnnxTool.Props.C72_sum_counterexample": [
"propext",
"Classical.choice",
"Quot.sound"
],
"OnnxTool.Props.C72_where": [
"propext",
"Classical.choice",
"Quot.sound"
],
"OnnxTool.Props.C72_min_counterexample": [
"propext",
"Classical.choice",
"Quot.sound"
],
"OnnxTool.Props.C72_unary": [
"propext",
"Classical.choice",
"Quot.sound"
],
"OnnxTool.Props.C72_clip": [
"propext",
"Classical.choice",
"Quot.sound"
],
"OnnxTool.Props.C72_hardsigmoid_counterexample": [
"propext",
"Classical.choice",
"Quot.sound"
],
"OnnxTool.Props.C72_expand_partial": [
"propext",
"Classical.choice",
"Quot.sound"
],
"OnnxTool.Props.C72_expand_counterexample": [
"propext",
"Classical.choice",
"Quot.sound"
],
"OnnxTool.Props.C72_transpose": [
"propext",
"Classical.choice",
"Quot.sound"
],
"OnnxTool.Props.C72_gather": [
"propext",
"Classical.choice",
"Quot.sound"
],
"OnnxTool.Props.C72_concat": [
"propext",
"Classical.choice",
"Quot.sound"
],
"OnnxTool.Props.C72_split_partial": [
"propext",
"Classical.choice",
"Quot.sound"
],
"OnnxTool.Props.C72_split_counterexample": [
"propext",
"Quot.sound"
],
"OnnxTool.Props.C72_slice_partial": [
"propext",
"Classical.choice",
"Quot.sound"
],
"OnnxTool.Props.C72_slice_counterexample": [
"propext",
"Quot.sound"
],
"OnnxTool.Props.C72_squeeze_partial": [
"propext",
"Classical.choice",
"Quot.sound"
],
"OnnxTool.Props.C72_squeeze_counterexample": [
"propext",
"Quot.sound"
],
"OnnxTool.Props.C72_unsqueeze_partial": [
"propext",
"Classical.choice",
"Quot.sound"
],
"OnnxTool.Props.C72_unsqueeze_counterexample": [
"propext",
"Quot.sound"
],
"OnnxTool.Props.C72_gather_nd_defined": [
"propext",
"Quot.sound"
],
"OnnxTool.Props.C72_gather_scatter": [
"propext",
"Quot.sound"
],
"OnnxTool.Props.C72_pad": [
"propext",
"Classical.choice",
"Quot.sound"
],
"OnnxTool.Props.C72_reshape_partial": [
"propext",
"Classical.choice",
"Quot.sound"
],
"OnnxTool.Props.C72_onehot": [
"propext",
"Quot.sound"
],
"OnnxTool.Props.C72_constant_of_shape": [
"propext",
"Quot.sound"
],
"OnnxTool.Props.C72_reduce_partial": [
"propext",
"Classical.choice",
"Quot.sound"
],
"OnnxTool.Props.C72_reduce_counterexample": [
"propext",
"Classical.choice",
"Quot.sound"
],
"OnnxTool.Props.C72_cumsum_partial": [
"propext",
"Classical.choice",
"Quot.sound"
],
"OnnxTool.Props.C72_matmul_partial": [
"propext",
"Classical.choice",
"Quot.sound"
],
"OnnxTool.Props.C72_matmul_counterexample": [
"propext",
"Classical.choice",
"Quot.sound"
],
"OnnxTool.Props.C72_gemm_partial": [
"propext",
"Classical.choice",
"Quot.sound"
],
"OnnxTool.Props.C72_gemm_counterexample": [
"propext",
"Classical.choice",
"Quot.sound"
],
"OnnxTool.Props.C72_conv": [
"propext",
"Classical.choice",
"Quot.sound"
],
"OnnxTool.Props.C72_global_average_counterexample": [
"propext",
"Quot.sound"
],
"OnnxTool.Props.C72_global_average_partial": [
"propext",
"Classical.choice",
"Quot.sound"
],
"OnnxTool.Props.C72_normalisation": [
"propext",
"Classical.choice",
"Quot.sound"
],
"OnnxTool.Props.C72_zeros_flatten": [
"propext"
],
"OnnxTool.Props.C72_zeros_comparison": [
"propext",
"Classical.choice",
"Quot.sound"
],
"OnnxTool.Props.C72_zeros_argmax": [
"propext",
"Classical.choice",
"Quot.sound"
],
"OnnxTool.Props.C72_zeros_shape": [
"propext"
],
"OnnxTool.Props.C72_zeros_nonzero_counterexample": [
"propext",
"Classical.choice",
"Quot.sound"
],
"OnnxTool.Props.C72_zeros_counterexample": [
"propext",
"Quot.sound"
],
"OnnxTool.Props.C73_load_returns": [
"propext",
"Classical.choice",
"Quot.sound"
],
"OnnxTool.Props.C73_load_plain": [
"propext",
"Classical.choice",
"Quot.sound"
],
"OnnxTool.Props.C73_load_folded": [
"propext",
"Classical.choice",
"Quot.sound"
],
"OnnxTool.Props.C73_same_values": [
"propext",
"Classical.choice",
"Quot.sound"
],
"OnnxTool.Props.C73_rename_distinct": [
"propext",
"Classical.choice",
"Quot.sound"
],
"OnnxTool.Props.C73_node_count": [
"propext",
"Classical.choice",
"Quot.sound"
],
"OnnxTool.Props.C73_duplicate_names_lose_nodes": [
"propext"
],
"OnnxTool.Props.C73_generated_name_collides": [
"propext"
],
"OnnxTool.Props.C73_absent_operand_is_input": [
"propext"
],
"OnnxTool.Props.C73_input_order": [
"propext"
],
"OnnxTool.Props.C74_save_same_values": [
"propext",
"Classical.choice",
"Quot.sound"
],
"OnnxTool.Props.C74_saved_file": [
"propext",
"Classical.choice",
"Quot.sound"
],
"OnnxTool.Props.C74_saved_file_folded": [
"propext",
"Classical.choice",
"Quot.sound"
],
"OnnxTool.Props.C74_saved_valid": [
"propext",
"Classical.choice",
"Quot.sound"
],
"OnnxTool.Props.C74_save_again_plain": [
"propext",
"Classical.choice",
"Quot.sound"
],
"OnnxTool.Props.C74_second_save_stable": [
"propext",
"Classical.choice",
"Quot.sound"
],
"OnnxTool.Props.C74_save_again_folded": [
"propext",
"Classical.choice",
"Quot.sound"
],
"OnnxTool.Props.C74_shape_only": [
"propext",
"Classical.choice",
"Quot.sound"
],
"OnnxTool.Props.C74_rename_folded_unstable": [
"propext"
],
"OnnxTool.Props.C76_regress_partial": [
"propext",
"Classical.choice",
"Quot.sound"
],
"OnnxTool.Props.C76_affine_told": [
"propext",
"Quot.sound"
],
"OnnxTool.Props.C76_affine_fitted": [
"propext",
"Classical.choice",
"Quot.sound"
],
"OnnxTool.Props.C76_affine_partial": [
"propext",
"Classical.choice",
"Quot.sound"
],
"OnnxTool.Props.C76_ceil_partial": [
"propext",
"Classical.choice",
"Quot.sound"
],
"OnnxTool.Props.C76_slopes_counterexample": [
"propext",
"Classical.choice",
"Quot.sound"
],
"OnnxTool.Props.C76_product_counterexample": [
"propext",
"Classical.choice",
"Quot.sound"
],
"OnnxTool.Props.C76_hump_counterexample": [
"propext",
"Classical.choice",
"Quot.sound"
],
"OnnxTool.Props.C76_numeric_name_counterexample": [
"propext",
"Classical.choice",
"Quot.sound"
],
"OnnxTool.Props.C76_unproduced_counterexample": [
"propext",
"Classical.choice",
"Quot.sound"
],
"OnnxTool.Props.C75_valid_shape": [
"propext",
"Quot.sound"
],
"OnnxTool.Props.C75_unusable_inputs": [
"propext",
"Quot.sound"
],
"OnnxTool.Props.C75_get_numpy": [
"propext",
"Quot.sound"
],
"OnnxTool.Props.C75_made_up_zeros_invisible": [
"propext",
"Quot.sound"
],
"OnnxTool.Props.C75_solution": [
"propext",
"Classical.choice",
"Quot.sound"
],
"OnnxTool.Props.C75_finds_the_solution": [
"propext",
"Classical.choice",
"Quot.sound"
],
"OnnxTool.Props.C75_state_independent": [
"propext",
"Classical.choice",
"Quot.sound"
],
"OnnxTool.Props.C75_history": [
"propext",
"Classical.choice",
"Quot.sound"
],
"OnnxTool.Props.C75_idempotent": [
"propext",
"Classical.choice",
"Quot.sound"
],
"OnnxTool.Props.C75_node_order": [
"propext",
"Classical.choice",
"Quot.sound"
],
"OnnxTool.Props.C75_value_infer": [
"propext",
"Classical.choice",
"Quot.sound"
],
"OnnxTool.Props.C75_wellFormed_example": [
"propext",
"Classical.choice",
"Quot.sound"
],
"OnnxTool.Props.C75_reduce_without_axes_keeps_the_old_shape": [
"propext"
],
"OnnxTool.Props.C75_unsorted_uses_old_shapes": [
"propext"
],
"OnnxTool.Props.C75_data_dependent_shape": [
"propext"
],
"OnnxTool.Props.C77_fused_node_partial": [
"propext",
"Classical.choice",
"Quot.sound"
],
"OnnxTool.Props.C77_index_exact_iff": [
"propext",
"Classical.choice",
"Quot.sound"
],
"OnnxTool.Props.C77_order_lost": [
"propext",
"Classical.choice",
"Quot.sound"
],
"OnnxTool.Props.C77_attributes": [
"propext",
"Classical.choice",
"Quot.sound"
],
"OnnxTool.Props.C77_no_postops": [
"propext",
"Classical.choice",
"Quot.sound"
],
"OnnxTool.Props.C77_weights_lost": [
"propext"
],
"OnnxTool.Props.C77_graph_output_lost": [
"propext"
],
"OnnxTool.Props.C78_removes_exactly_subtree": [
"propext",
"Classical.choice",
"Quot.sound"
],
"OnnxTool.Props.C78_unknown_name": [
"propext",
"Quot.sound"
],
"OnnxTool.Props.C78_cycle_raises": [
"propext",
"Classical.choice",
"Quot.sound"
],
"OnnxTool.Props.C78_exponential": [
"propext",
"Classical.choice",
"Quot.sound"
],
"OnnxTool.Props.C79_values": [
"propext",
"Classical.choice",
"Quot.sound"
],
"OnnxTool.Props.C79_no_if_left": [
"propext",
"Classical.choice",
"Quot.sound"
],
"OnnxTool.Props.C79_inlined_partial": [
"propext",
"Classical.choice",
"Quot.sound"
],
"OnnxTool.Props.C79_closed_partial": [
"propext",
"Classical.choice",
"Quot.sound"
],
"OnnxTool.Props.C79_unnamed_raises": [
"propext",
"Classical.choice",
"Quot.sound"
],
"OnnxTool.Props.C79_other_output_lost": [
"propext"
],
"OnnxTool.Props.C79_graph_output_lost": [
"propext"
],
"OnnxTool.Props.C79_chained_ifs_raise": [
"propext"
],
"OnnxTool.Props.C79_captured_elsewhere_lost": [
"propext"
],
"OnnxTool.Props.C79_branch_initializer_lost": [
"propext"
],
"OnnxTool.Props.C79_result_read_inside_lost": [
"propext"
],
"OnnxTool.Props.C79_pass_through_lost": [
"propext"
],
"OnnxTool.Props.C80_nodes": [
"propext",
"Classical.choice",
"Quot.sound"
],
"OnnxTool.Props.C80_values": [
"propext",
"Classical.choice",
"Quot.sound"
],
"OnnxTool.Props.C80_closed_partial": [
"propext",
"Classical.choice",
"Quot.sound"
],
"OnnxTool.Props.C80_returns_iff": [
"propext",
"Classical.choice",
"Quot.sound"
],
"OnnxTool.Props.C80_initializer_raises": [
"propext",
"Classical.choice",
"Quot.sound"
],
"OnnxTool.Props.C80_twice_raises": [
"propext"
],
"OnnxTool.Props.C80_other_output_lost": [
"propext"
],
"OnnxTool.Props.C80_topk_feeding_k_raises": [
"propext"
],
"OnnxTool.Props.C81_topk": [
"propext",
"Classical.choice",
"Quot.sound"
],
"OnnxTool.Props.C81_topk_default": [
"propext",
"Classical.choice",
"Quot.sound"
],
"OnnxTool.Props.C81_resize_scales": [
"propext",
"Classical.choice",
"Quot.sound"
],
"OnnxTool.Props.C81_resize_sizes_partial": [
"propext",
"Classical.choice",
"Quot.sound"
],
"OnnxTool.Props.C81_resize_two_sizes_wrong": [
"propext",
"Classical.choice",
"Quot.sound"
],
"OnnxTool.Props.C81_upsample_attribute_raises": [
"propext",
"Classical.choice",
"Quot.sound"
],
"OnnxTool.Props.C81_resize_axes_dropped": [
"propext",
"Classical.choice",
"Quot.sound"
],
"OnnxTool.Props.C81_depthToSpace": [
"propext",
"Quot.sound"
],
"OnnxTool.Props.C81_gridSample": [
"propext"
],
"OnnxTool.Props.C81_gridSample_kinds_raise": [],
"OnnxTool.Props.C81_roiAlign": [
"propext"
],
"OnnxTool.Props.C81_arrayFeature_rows_lost": [
"propext"
],
"OnnxTool.Props.C81_nms_iff": [
"propext",
"Classical.choice",
"Quot.sound"
],
"OnnxTool.Props.C81_nms_one": [
"propext",
"Classical.choice",
"Quot.sound"
],
"OnnxTool.Props.C81_nms_classes_wrong": [
"propext",
"Classical.choice",
"Quot.sound"
],
"OnnxTool.Props.C81_recurrent": [
"propext",
"Classical.choice",
"Quot.sound"
],
"OnnxTool.Props.C81_layout_ignored": [
"propext",
"Classical.choice",
"Quot.sound"
],
"OnnxTool.Props.C81_gru_one_output_raises": [
"propext",
"Quot.sound"
],
"OnnxTool.Props.C81_lstm_macs": [
"propext",
"Quot.sound"
],
"OnnxTool.Props.C81_gru_macs": [
"propext",
"Quot.sound"
],
"OnnxTool.Props.C81_bidirectional_undercounted": [
"propext",
"Quot.sound"
],
"OnnxTool.Props.C81_profile_defaults_raise": [
"propext"
],
"OnnxTool.Props.C81_resize_macs": [
"propext",
"Classical.choice",
"Quot.sound"
],
"OnnxTool.Props.C82_quantize_weights": [
"propext",
"Classical.choice",
"Quot.sound"
],
"OnnxTool.Props.C82_packed_partial": [
"propext",
"Classical.choice",
"Quot.sound"
],
"OnnxTool.Props.C82_packed_asym_lost": [
"propext",
"Quot.sound"
],
"OnnxTool.Props.C82_others_untouched": [
"propext",
"Classical.choice",
"Quot.sound"
],
"OnnxTool.Props.C82_again": [
"propext",
"Classical.choice",
"Quot.sound"
],
"OnnxTool.Props.C82_loop_skips": [
"propext",
"Classical.choice",
"Quot.sound"
],
"OnnxTool.Props.C82_every_second": [
"propext",
"Classical.choice",
"Quot.sound"
],
"OnnxTool.Props.C82_loop_over_copy": [
"propext",
"Classical.choice",
"Quot.sound"
],
"OnnxTool.Props.C82_shared_raises": [
"propext",
"Classical.choice",
"Quot.sound"
],
"OnnxTool.Props.C82_unread_raises": [
"propext",
"Classical.choice",
"Quot.sound"
],
"OnnxTool.Props.C82_zero_channel_raises": [
"propext",
"Classical.choice",
"Quot.sound"
],
"OnnxTool.Props.C82_index_is_text": [
"propext",
"Classical.choice",
"Quot.sound"
],
"OnnxTool.Props.C82_reader_marked": [
"propext",
"Classical.choice",
"Quot.sound"
],
"OnnxTool.Props.C83_ratio": [
"propext",
"Classical.choice",
"Quot.sound"
],
"OnnxTool.Props.C83_ratio_other": [
"propext",
"Classical.choice",
"Quot.sound"
],
"OnnxTool.Props.C83_largest_exist": [
"propext",
"Classical.choice",
"Quot.sound"
],
"OnnxTool.Props.C83_matrix": [
"propext",
"Classical.choice",
"Quot.sound"
],
"OnnxTool.Props.C83_matrix_truthful_partial": [
"propext",
"Classical.choice",
"Quot.sound"
],
"OnnxTool.Props.C83_matrix_overstated": [
"propext",
"Classical.choice",
"Quot.sound"
],
"OnnxTool.Props.C83_conv": [
"propext",
"Classical.choice",
"Quot.sound"
],
"OnnxTool.Props.C83_conv_truthful_partial": [
"propext",
"Classical.choice",
"Quot.sound"
],
"OnnxTool.Props.C83_conv_wrong_axis": [
"propext",
"Classical.choice",
"Quot.sound"
],
"OnnxTool.Props.C83_thresholds": [
"propext",
"Classical.choice",
"Quot.sound"
],
"OnnxTool.Props.C83_other_ranks": [
"propext",
"Classical.choice",
"Quot.sound"
],
"OnnxTool.Props.C84_csv_iff_partial": [
"propext",
"Classical.choice",
"Quot.sound"
],
"OnnxTool.Props.C84_report": [
"propext",
"Classical.choice",
"Quot.sound"
],
"OnnxTool.Props.C84_totals_exact": [
"propext",
"Quot.sound"
],
"OnnxTool.Props.C84_shares": [
"propext",
"Classical.choice",
"Quot.sound"
],
"OnnxTool.Props.C84_totals_close": [
"propext",
"Classical.choice",
"Quot.sound"
],
"OnnxTool.Props.C84_totals_nearest": [
"propext",
"Classical.choice",
"Quot.sound"
],
"OnnxTool.Props.C84_total_differs": [
"propext",
"Classical.choice",
"Quot.sound"
],
"OnnxTool.Props.C84_comma_shifts": [
"propext",
"Classical.choice",
"Quot.sound"
],
"OnnxTool.Props.C85_default_grows_partial": [
"propext",
"Classical.choice",
"Quot.sound"
],
"OnnxTool.Props.C85_leaks": [
"propext",
"Classical.choice",
"Quot.sound"
],
"OnnxTool.Props.C85_pure_calls": [
"propext"
],
"OnnxTool.Props.C85_own_set": [
"propext",
"Quot.sound"
],
"OnnxTool.Props.C85_default_set": [
"propext",
"Quot.sound"
],
"OnnxTool.Props.C85_errors": [
"propext",
"Quot.sound"
],
"OnnxTool.Props.C86_export_partial": [
"propext",
"Classical.choice",
"Quot.sound"
],
"OnnxTool.Props.C86_selection": [
"propext",
"Classical.choice",
"Quot.sound"
],
"OnnxTool.Props.C86_overwrites": [
"propext",
"Classical.choice",
"Quot.sound"
],
"OnnxTool.Props.C86_absolute_path": [
"propext",
"Classical.choice",
"Quot.sound"
],
"OnnxTool.Props.C86_missing_directory": [
"propext",
"Classical.choice",
"Quot.sound"
],
"OnnxTool.Props.C87_set_shape_partial": [
"propext",
"Classical.choice",
"Quot.sound"
],
"OnnxTool.Props.C87_all": [
"propext",
"Classical.choice",
"Quot.sound"
],
"OnnxTool.Props.C87_io": [
"propext",
"Classical.choice",
"Quot.sound"
],
"OnnxTool.Props.C87_rank": [
"propext",
"Classical.choice",
"Quot.sound"
],
"OnnxTool.Props.C87_names_with_x": [
"propext",
"Classical.choice",
"Quot.sound"
],
"OnnxTool.Props.C88_descs": [
"propext",
"Classical.choice",
"Quot.sound"
],
"OnnxTool.Props.C88_unknown_name": [
"propext",
"Quot.sound"
],
"OnnxTool.Props.C88_found": [
"propext",
"Classical.choice",
"Quot.sound"
],
"OnnxTool.Props.C88_only": [
"propext",
"Classical.choice",
"Quot.sound"
],
"OnnxTool.Props.C88_every_match": [
"propext",
"Quot.sound"
],
"OnnxTool.Props.C88_fuse_partial": [
"propext",
"Classical.choice",
"Quot.sound"
],
"OnnxTool.Props.C88_overlap_raises": [
"propext"
],
"OnnxTool.Props.C88_disconnected_raises": [
"propext"
],
"OnnxTool.Props.C88_twin_taken": [
"propext"
],
"OnnxTool.Props.C88_graph_input_raises": [
"propext"
],
"OnnxTool.Props.C88_empty_raises": [
"propext"
],
"OnnxTool.Props.C89_arithmetic": [
"propext",
"Classical.choice",
"Quot.sound"
],
"OnnxTool.Props.C89_compare": [
"propext",
"Classical.choice",
"Quot.sound"
],
"OnnxTool.Props.C89_where": [
"propext",
"Classical.choice",
"Quot.sound"
],
"OnnxTool.Props.C89_incompatible": [
"propext",
"Classical.choice",
"Quot.sound"
],
"OnnxTool.Props.C89_overrun": [
"propext",
"Classical.choice",
"Quot.sound"
],
"OnnxTool.Props.C89_mod": [
"propext",
"Classical.choice",
"Quot.sound"
],
"OnnxTool.Props.C89_unary": [
"propext",
"Classical.choice",
"Quot.sound"
],
"OnnxTool.Props.C89_relu": [
"propext",
"Classical.choice",
"Quot.sound"
],
"OnnxTool.Props.C89_clip": [
"propext",
"Classical.choice",
"Quot.sound"
],
"OnnxTool.Props.C89_clip_attr_partial": [
"propext",
"Classical.choice",
"Quot.sound"
],
"OnnxTool.Props.C89_clip_counterexample": [
"propext",
"Classical.choice",
"Quot.sound"
],
"OnnxTool.Props.C89_clip_bound": [
"propext",
"Classical.choice",
"Quot.sound"
],
"OnnxTool.Props.C89_softmax": [
"propext",
"Classical.choice",
"Quot.sound"
],
"OnnxTool.Props.C89_softmax_axis": [
"propext",
"Classical.choice",
"Quot.sound"
],
"OnnxTool.Props.C89_shape": [
"propext",
"Classical.choice",
"Quot.sound"
],
"OnnxTool.Props.C89_cast": [
"propext",
"Classical.choice",
"Quot.sound"
],
"OnnxTool.Props.C89_cast_codes": [
"propext"
],
"OnnxTool.Props.C89_mean_sum": [
"propext",
"Classical.choice",
"Quot.sound"
],
"OnnxTool.Props.C89_max": [
"propext",
"Classical.choice",
"Quot.sound"
],
"OnnxTool.Props.C89_reduce_counterexample": [
"propext",
"Classical.choice",
"Quot.sound"
],
"OnnxTool.Props.C89_reduce_empty": [
"propext",
"Classical.choice",
"Quot.sound"
],
"OnnxTool.Props.C89_reduce_axes": [
"propext",
"Classical.choice",
"Quot.sound"
],
"OnnxTool.Props.C89_reduce_repeated": [
"propext",
"Classical.choice",
"Quot.sound"
],
"OnnxTool.Props.C89_globalmean_partial": [
"propext",
"Classical.choice",
"Quot.sound"
],
"OnnxTool.Props.C89_globalmean_counterexample": [
"propext",
"Classical.choice",
"Quot.sound"
],
"OnnxTool.Props.C89_globalmean_rank": [
"propext",
"Classical.choice",
"Quot.sound"
],
"OnnxTool.Props.C89_tile": [
"propext",
"Classical.choice",
"Quot.sound"
],
"OnnxTool.Props.C89_tile_front": [
"propext",
"Classical.choice",
"Quot.sound"
],
"OnnxTool.Props.C89_gatherElements_partial": [
"propext",
"Classical.choice",
"Quot.sound"
],
"OnnxTool.Props.C89_gatherElements_counterexample": [
"propext",
"Classical.choice",
"Quot.sound"
],
"OnnxTool.Props.C89_mad": [
"propext",
"Classical.choice",
"Quot.sound"
],
"OnnxTool.Props.C89_rangeGather": [
"propext",
"Classical.choice",
"Quot.sound"
],
"OnnxTool.Props.C89_layernorm": [
"propext",
"Classical.choice",
"Quot.sound"
],
"OnnxTool.Props.C90_elementwise": [
"propext",
"Classical.choice",
"Quot.sound"
],
"OnnxTool.Props.C90_misjudged": [
"propext",
"Classical.choice",
"Quot.sound"
],
"OnnxTool.Props.C90_charged": [
"propext",
"Classical.choice",
"Quot.sound"
],
"OnnxTool.Props.C90_scalar_counterexample": [
"propext",
"Classical.choice",
"Quot.sound"
],
"OnnxTool.Props.C90_sum": [
"propext",
"Classical.choice",
"Quot.sound"
],
"OnnxTool.Props.C90_max_counterexample": [
"propext",
"Classical.choice",
"Quot.sound"
],
"OnnxTool.Props.C90_reduce": [
"propext",
"Classical.choice",
"Quot.sound"
],
"OnnxTool.Props.C90_reduce_l2": [
"propext",
"Classical.choice",
"Quot.sound"
],
"OnnxTool.Props.C90_lrn": [
"propext",
"Classical.choice",
"Quot.sound"
],
"OnnxTool.Props.C90_resample": [
"propext",
"Classical.choice",
"Quot.sound"
],
"OnnxTool.Props.C90_global_average": [
"propext",
"Classical.choice",
"Quot.sound"
],
"OnnxTool.Props.C90_layernorm": [
"propext",
"Classical.choice",
"Quot.sound"
],
"OnnxTool.Props.C90_layernorm_counterexample": [
"propext"
],
"OnnxTool.Props.C90_lstm": [
"propext",
"Classical.choice",
"Quot.sound"
],
"OnnxTool.Props.C90_gru": [
"propext",
"Classical.choice",
"Quot.sound"
],
"OnnxTool.Props.C90_bidirectional_counterexample": [
"propext",
"Classical.choice",
"Quot.sound"
],
"OnnxTool.Props.C90_no_bias_raises": [
"propext",
"Classical.choice",
"Quot.sound"
],
"OnnxTool.Props.C90_qlinear_matmul": [
"propext",
"Classical.choice",
"Quot.sound"
],
"OnnxTool.Props.C90_qlinear_conv": [
"propext",
"Classical.choice",
"Quot.sound"
],
"OnnxTool.Props.C90_qlinear_conv3d_counterexample": [
"propext",
"Classical.choice",
"Quot.sound"
],
"OnnxTool.Props.C90_resize_raises": [
"propext"
],
"OnnxTool.Props.C90_batch": [
"propext",
"Classical.choice",
"Quot.sound"
],
"OnnxTool.Props.C90_batch_recurrent": [
"propext",
"Classical.choice",
"Quot.sound"
],
"OnnxTool.Props.C91_export": [
"propext",
"Classical.choice",
"Quot.sound"
],
"OnnxTool.Props.C91_closed": [
"propext",
"Classical.choice",
"Quot.sound"
],
"OnnxTool.Props.C91_same_values": [
"propext",
"Classical.choice",
"Quot.sound"
],
"OnnxTool.Props.C91_levels": [
"propext",
"Classical.choice",
"Quot.sound"
],
"OnnxTool.Props.C91_pipeline": [
"propext",
"Classical.choice",
"Quot.sound"
],
"OnnxTool.Props.C91_degenerate": [
"propext"
],
"OnnxTool.Props.C91_save_is_export": [
"propext",
"Classical.choice",
"Quot.sound"
],
"OnnxTool.Props.C91_unrelated_input": [
"propext"
],
"OnnxTool.Props.C91_output_lost": [
"propext"
],
"OnnxTool.Props.C91_repeated_name_dropped": [
"propext"
],
"OnnxTool.Props.C92_shape": [
"propext",
"Classical.choice",
"Quot.sound"
],
"OnnxTool.Props.C92_values": [
"propext",
"Classical.choice",
"Quot.sound"
],
"OnnxTool.Props.C92_well_formed": [
"propext",
"Classical.choice",
"Quot.sound"
],
"OnnxTool.Props.C92_no_colon_name": [
"propext",
"Classical.choice",
"Quot.sound"
],
"OnnxTool.Props.C92_other_type": [
"propext",
"Classical.choice",
"Quot.sound"
],
"OnnxTool.Props.C92_short_form": [
"propext",
"Classical.choice",
"Quot.sound"
],
"OnnxTool.Props.C92_scalar": [
"propext",
"Classical.choice",
"Quot.sound"
],
"OnnxTool.Props.C92_last_wins": [
"propext",
"Classical.choice",
"Quot.sound"
],
"OnnxTool.Props.C92_io": [
"propext",
"Quot.sound"
],
"OnnxTool.Props.C92_io_last_wins": [
"propext",
"Quot.sound"
],
"OnnxTool.Props.C92_io_long_form": [
"propext",
"Classical.choice",
"Quot.sound"
],
"OnnxTool.Props.C92_io_sets_shape": [
"propext",
"Classical.choice",
"Quot.sound"
],
"OnnxTool.Props.C92_exclude": [
"propext",
"Quot.sound"
],
"OnnxTool.Props.C93_history": [
"propext",
"Classical.choice",
"Quot.sound"
],
"OnnxTool.Props.C93_fill": [
"propext",
"Classical.choice",
"Quot.sound"
],
"OnnxTool.Props.C93_fill_short": [
"propext",
"Quot.sound"
],
"OnnxTool.Props.C93_live_tensors": [
"propext",
"Classical.choice",
"Quot.sound"
],
"OnnxTool.Props.C93_stale_view": [
"propext"
],
"OnnxTool.Props.C94_outputs": [
"propext",
"Quot.sound"
],
"OnnxTool.Props.C94_calls": [
"propext",
"Classical.choice",
"Quot.sound"
],
"OnnxTool.Props.C94_value_infer": [
"propext",
"Quot.sound"
],
"OnnxTool.Props.C94_dumped_array": [
"propext",
"Quot.sound"
],
"OnnxTool.Props.C94_saved": [
"propext",
"Quot.sound"
],
"OnnxTool.Props.C94_plan_unchanged": [
"propext"
],
"OnnxTool.Props.C94_dump_all_raises": [
"propext",
"Quot.sound"
],
"OnnxTool.Props.C94_dump_overwritten": [
"propext"
],
"OnnxTool.Props.C95_nearest": [
"propext",
"Classical.choice",
"Quot.sound"
],
"OnnxTool.Props.C95_nearest_default_iff": [
"propext",
"Classical.choice",
"Quot.sound"
],
"OnnxTool.Props.C95_linear": [
"propext",
"Classical.choice",
"Quot.sound"
],
"OnnxTool.Props.C95_modes": [
"propext",
"Classical.choice",
"Quot.sound"
],
"OnnxTool.Props.C95_cubic": [
"propext",
"Classical.choice",
"Quot.sound"
],
"OnnxTool.Props.C95_scales": [
"propext",
"Classical.choice",
"Quot.sound"
],
"OnnxTool.Props.C95_nothing_written": [
"propext",
"Classical.choice",
"Quot.sound"
],
"OnnxTool.Props.C95_align_corners_ignored": [
"propext",
"Classical.choice",
"Quot.sound"
],
"OnnxTool.Props.C95_ranks": [
"propext",
"Classical.choice",
"Quot.sound"
],
"OnnxTool.Props.C95_shrink_counterexample": [
"propext",
"Classical.choice",
"Quot.sound"
],
"OnnxTool.Props.C95_align_corners_counterexample": [
"propext",
"Classical.choice",
"Quot.sound"
],
"OnnxTool.Props.C95_scale_counterexample": [
"propext",
"Classical.choice",
"Quot.sound"
],
"OnnxTool.Props.C95_asymmetric_counterexample": [
"propext",
"Classical.choice",
"Quot.sound"
],
"OnnxTool.Props.C96_topk": [
"propext",
"Classical.choice",
"Quot.sound"
],
"OnnxTool.Props.C96_count": [
"propext"
],
"OnnxTool.Props.C96_refuses": [
"propext",
"Quot.sound"
],
"OnnxTool.Props.C96_ties_counterexample": [
"propext",
"Quot.sound"
],
"OnnxTool.Props.C96_position_rounded": [
"propext",
"Quot.sound"
],
"OnnxTool.Props.C97_shape": [
"propext",
"Classical.choice",
"Quot.sound"
],
"OnnxTool.Props.C97_dtype": [
"propext",
"Classical.choice",
"Quot.sound"
],
"OnnxTool.Props.C97_read": [
"propext",
"Classical.choice",
"Quot.sound"
],
"OnnxTool.Props.C97_data_kept_partial": [
"propext",
"Classical.choice",
"Quot.sound"
],
"OnnxTool.Props.C97_data_lost": [
"propext",
"Classical.choice",
"Quot.sound"
],
"OnnxTool.Props.C97_memsize_partial": [
"propext",
"Classical.choice",
"Quot.sound"
],
"OnnxTool.Props.C97_memsize_no_data": [
"propext",
"Classical.choice",
"Quot.sound"
],
"OnnxTool.Props.C97_scalar_has_no_size": [
"propext",
"Classical.choice",
"Quot.sound"
],
"OnnxTool.Props.C97_symbolic_size": [
"propext",
"Classical.choice",
"Quot.sound"
],
"OnnxTool.Props.C97_value_info": [
"propext",
"Quot.sound"
],
"OnnxTool.Props.C97_descriptions_agree": [
"propext",
"Quot.sound"
],
"OnnxTool.Props.C97_dtype_ignored": [
"propext",
"Classical.choice",
"Quot.sound"
],
"OnnxTool.Props.C97_proto": [
"propext"
],
"OnnxTool.Props.C97_create": [
"propext",
"Quot.sound"
],
"OnnxTool.Props.C97_create_tensor_says_float": [
"Quot.sound"
],
"OnnxTool.Props.C97_get_scalar": [
"propext",
"Quot.sound"
],
"OnnxTool.Props.C97_get_scalar_refused": [
"propext"
],
"OnnxTool.Props.C97_of_file": [
"propext",
"Quot.sound"
],
"OnnxTool.Props.C98_roundtrip_partial": [
"propext",
"Classical.choice",
"Quot.sound"
],
"OnnxTool.Props.C98_save_iff": [
"propext",
"Classical.choice",
"Quot.sound"
],
"OnnxTool.Props.C98_empty_list_refused": [
"propext",
"Classical.choice",
"Quot.sound"
],
"OnnxTool.Props.C98_domain_lost": [
"propext",
"Classical.choice",
"Quot.sound"
],
"OnnxTool.Props.C98_parameter_name_refused": [
"propext",
"Classical.choice",
"Quot.sound"
],
"OnnxTool.Props.C98_fields": [
"propext",
"Classical.choice",
"Quot.sound"
],
"OnnxTool.Props.C98_defaults": [
"propext",
"Classical.choice",
"Quot.sound"
],
"OnnxTool.Props.C98_set_attr": [
"propext",
"Classical.choice",
"Quot.sound"
],
"OnnxTool.Props.C98_text_becomes_bytes": [
"propext"
],
"OnnxTool.Props.C98_fuse_copy": [
"propext",
"Quot.sound"
],
"OnnxTool.Props.C98_fuse_refused": [
"propext"
],
"OnnxTool.Props.C98_fuse_forgets": [
"propext"
],
"OnnxTool.Props.C98_fuse_names": [
"propext",
"Quot.sound"
],
"OnnxTool.Props.C98_domain_set": [
"propext",
"Classical.choice",
"Quot.sound"
],
"OnnxTool.Props.C98_header": [],
"OnnxTool.Props.C99_valid": [
"propext",
"Classical.choice",
"Quot.sound"
],
"OnnxTool.Props.C99_each_row_once": [
"propext",
"Classical.choice",
"Quot.sound"
],
"OnnxTool.Props.C99_separated": [
"propext",
"Classical.choice",
"Quot.sound"
],
"OnnxTool.Props.C99_at_most": [
"propext",
"Classical.choice",
"Quot.sound"
],
"OnnxTool.Props.C99_nothing_lost": [
"propext",
"Classical.choice",
"Quot.sound"
],
"OnnxTool.Props.C99_row_order": [
"propext",
"Classical.choice",
"Quot.sound"
],
"OnnxTool.Props.C99_cut_sorted": [
"propext",
"Classical.choice",
"Quot.sound"
],
"OnnxTool.Props.C99_greedy": [
"propext",
"Classical.choice",
"Quot.sound"
],
"OnnxTool.Props.C99_greedy_unique": [
"propext",
"Classical.choice",
"Quot.sound"
],
"OnnxTool.Props.C99_sort_irrelevant": [
"propext",
"Classical.choice",
"Quot.sound"
],
"OnnxTool.Props.C99_again": [
"propext",
"Classical.choice",
"Quot.sound"
],
"OnnxTool.Props.C99_no_suppression": [
"propext",
"Classical.choice",
"Quot.sound"
],
"OnnxTool.Props.C99_iou_cells": [
"propext",
"Classical.choice",
"Quot.sound"
],
"OnnxTool.Props.C99_iou_scale": [
"propext",
"Classical.choice",
"Quot.sound"
],
"OnnxTool.Props.C99_iou_range": [
"propext",
"Classical.choice",
"Quot.sound"
],
"OnnxTool.Props.C99_iou_zero": [
"propext",
"Classical.choice",
"Quot.sound"
],
"OnnxTool.Props.C99_iou_one": [
"propext",
"Classical.choice",
"Quot.sound"
],
"OnnxTool.Props.C99_first_image_only": [
"propext",
"Classical.choice",
"Quot.sound"
],
"OnnxTool.Props.C99_odd_arrays": [
"propext",
"Classical.choice",
"Quot.sound"
],
"OnnxTool.Props.C99_negative_limit": [
"propext",
"Classical.choice",
"Quot.sound"
],
"OnnxTool.Props.C99_not_sorted": [
"propext",
"Classical.choice",
"Quot.sound"
],
"OnnxTool.Props.C99_ties": [
"propext",
"Classical.choice",
"Quot.sound"
],
"OnnxTool.Props.C99_tiny": [
"propext",
"Classical.choice",
"Quot.sound"
],
"OnnxTool.Props.C100_predictions": [
"propext",
"Classical.choice",
"Quot.sound"
],
"OnnxTool.Props.C100_matching_unique": [
"propext",
"Classical.choice",
"Quot.sound"
],
"OnnxTool.Props.C100_class": [
"propext",
"Classical.choice",
"Quot.sound"
],
"OnnxTool.Props.C100_recall": [
"propext",
"Classical.choice",
"Quot.sound"
],
"OnnxTool.Props.C100_class_range": [
"propext",
"Classical.choice",
"Quot.sound"
],
"OnnxTool.Props.C100_perfect": [
"propext",
"Classical.choice",
"Quot.sound"
],
"OnnxTool.Props.C100_below_coco": [
"propext",
"Classical.choice",
"Quot.sound"
],
"OnnxTool.Props.C100_no_match": [
"propext",
"Classical.choice",
"Quot.sound"
],
"OnnxTool.Props.C100_mean": [
"propext",
"Classical.choice",
"Quot.sound"
],
"OnnxTool.Props.C100_map_range": [
"propext",
"Classical.choice",
"Quot.sound"
],
"OnnxTool.Props.C100_metrics": [
"propext",
"Classical.choice",
"Quot.sound"
],
"OnnxTool.Props.C100_image_order": [
"propext",
"Classical.choice",
"Quot.sound"
],
"OnnxTool.Props.C100_unseen_classes": [
"propext",
"Classical.choice",
"Quot.sound"
],
"OnnxTool.Props.C100_large_ids": [
"propext",
"Classical.choice",
"Quot.sound"
],
"OnnxTool.Props.C100_same_text": [
"propext",
"Classical.choice",
"Quot.sound"
],
"OnnxTool.Props.C100_no_threshold": [
"propext",
"Classical.choice",
"Quot.sound"
],
"OnnxTool.Props.C101_letterbox": [
"propext",
"Classical.choice",
"Quot.sound"
],
"OnnxTool.Props.C101_loaded": [
"propext",
"Classical.choice",
"Quot.sound"
],
"OnnxTool.Props.C101_loads": [
"propext",
"Classical.choice",
"Quot.sound"
],
"OnnxTool.Props.C101_way_back": [
"propext",
"Classical.choice",
"Quot.sound"
],
"OnnxTool.Props.C101_same_size": [
"propext",
"Classical.choice",
"Quot.sound"
],
"OnnxTool.Props.C101_limit": [
"propext",
"Quot.sound"
],
"OnnxTool.Props.C101_coco": [
"propext",
"Classical.choice",
"Quot.sound"
],
"OnnxTool.Props.C101_share": [
"propext",
"Classical.choice",
"Quot.sound"
],
"OnnxTool.Props.C101_dir_ids": [
"propext",
"Classical.choice",
"Quot.sound"
],
"OnnxTool.Props.C101_dir_foreign_ids": [
"propext",
"Classical.choice",
"Quot.sound"
],
"OnnxTool.Props.C101_coordinates_mixed": [
"propext",
"Classical.choice",
"Quot.sound"
],
"OnnxTool.Props.C101_class_ids_mixed": [
"propext",
"Classical.choice",
"Quot.sound"
],
"OnnxTool.Props.C101_limit_counts_all": [
"propext",
"Classical.choice",
"Quot.sound"
],
"OnnxTool.Props.C101_thresholds": [
"propext",
"Classical.choice",
"Quot.sound"
],
"OnnxTool.Props.C102_output_type_partial": [
"propext",
"Classical.choice",
"Quot.sound"
],
"OnnxTool.Props.C102_graph_types_partial": [
"propext",
"Classical.choice",
"Quot.sound"
],
"OnnxTool.Props.C102_others_keep_type": [
"propext"
],
"OnnxTool.Props.C102_all_registered": [
"propext",
"Quot.sound"
],
"OnnxTool.Props.C102_specified_registered": [
"propext",
"Classical.choice",
"Quot.sound"
],
"OnnxTool.Props.C102_wrong_types": [
"propext"
],
"OnnxTool.Props.C102_wrong_memory": [
"propext"
],
"OnnxTool.Props.C102_round": [
"propext"
],
"OnnxTool.Props.C102_quantized_convolution": [
"propext",
"Quot.sound"
],
"OnnxTool.Props.C102_legal_failures": [
"propext",
"Quot.sound"
],
"OnnxTool.Props.C102_scan": [
"propext"
],
"OnnxTool.Props.C102_cast_needs_type": [
"propext",
"Quot.sound"
],
"OnnxTool.Props.C103_conv_partial": [
"propext",
"Quot.sound"
],
"OnnxTool.Props.C103_conv_counted": [
"propext",
"Classical.choice",
"Quot.sound"
],
"OnnxTool.Props.C103_conv_empty": [
"propext",
"Classical.choice",
"Quot.sound"
],
"OnnxTool.Props.C103_conv3d_counterexample": [
"propext"
],
"OnnxTool.Props.C103_conv_cost": [
"propext",
"Classical.choice",
"Quot.sound"
],
"OnnxTool.Props.C103_matmul_partial": [
"propext"
],
"OnnxTool.Props.C103_matmul_agrees": [
"propext",
"Classical.choice",
"Quot.sound"
],
"OnnxTool.Props.C103_matmul_counterexample": [
"propext"
],
"OnnxTool.Props.C103_matmul_vector": [
"propext"
],
"OnnxTool.Props.C103_matmul_scalar": [
"propext",
"Quot.sound"
],
"OnnxTool.Props.C103_matmul_integer": [
"propext"
],
"OnnxTool.Props.C104_free_dimensions": [
"propext",
"Classical.choice",
"Quot.sound"
],
"OnnxTool.Props.C104_fixed_dimensions": [
"propext",
"Classical.choice",
"Quot.sound"
],
"OnnxTool.Props.C104_n_past": [
"propext",
"Classical.choice",
"Quot.sound"
],
"OnnxTool.Props.C104_only_understood": [
"propext",
"Classical.choice",
"Quot.sound"
],
"OnnxTool.Props.C104_ranges_match": [
"propext",
"Classical.choice",
"Quot.sound"
],
"OnnxTool.Props.C104_seq_bound": [
"propext",
"Classical.choice",
"Quot.sound"
],
"OnnxTool.Props.C104_fallback": [
"propext",
"Classical.choice",
"Quot.sound"
],
"OnnxTool.Props.C104_limit_ignored": [
"propext"
],
"OnnxTool.Props.C104_input_left_out": [
"propext"
],
"OnnxTool.Props.C104_bound_of_the_other": [
"propext"
],
"OnnxTool.Props.C104_mixed": [
"propext"
],
"OnnxTool.Props.C105_reorder_returns": [
"propext",
"Classical.choice",
"Quot.sound"
],
"OnnxTool.Props.C105_reorder_file": [
"propext",
"Classical.choice",
"Quot.sound"
],
"OnnxTool.Props.C105_reorder_values": [
"propext",
"Classical.choice",
"Quot.sound"
],
"OnnxTool.Props.C105_reorder_again": [
"propext",
"Classical.choice",
"Quot.sound"
],
"OnnxTool.Props.C105_fold_returns": [
"propext",
"Classical.choice",
"Quot.sound"
],
"OnnxTool.Props.C105_fold_file": [
"propext",
"Classical.choice",
"Quot.sound"
],
"OnnxTool.Props.C105_fold_values": [
"propext",
"Classical.choice",
"Quot.sound"
],
"OnnxTool.Props.C105_fold_again": [
"propext",
"Classical.choice",
"Quot.sound"
],
"OnnxTool.Props.C105_reorder_twice_differs": [
"propext",
"Classical.choice",
"Quot.sound"
],
"OnnxTool.Props.C105_constant_model_not_written": [
"propext"
],
"OnnxTool.Props.C105_constant_output_dropped": [
"propext"
],
"OnnxTool.Props.C105_reorder_drops": [
"propext"
],
"OnnxTool.Props.C106_input": [
"propext",
"Classical.choice",
"Quot.sound"
],
"OnnxTool.Props.C106_size": [
"propext",
"Classical.choice",
"Quot.sound"
],
"OnnxTool.Props.C106_pixels": [
"propext",
"Classical.choice",
"Quot.sound"
],
"OnnxTool.Props.C106_keeps": [
"propext",
"Classical.choice",
"Quot.sound"
],
"OnnxTool.Props.C106_repeats": [
"propext",
"Classical.choice",
"Quot.sound"
],
"OnnxTool.Props.C106_padding_unseen": [
"propext",
"Classical.choice",
"Quot.sound"
],
"OnnxTool.Props.C106_range": [
"propext",
"Classical.choice",
"Quot.sound"
],
"OnnxTool.Props.C106_scale": [
"propext",
"Classical.choice",
"Quot.sound"
],
"OnnxTool.Props.C106_scale_misread": [
"propext",
"Classical.choice",
"Quot.sound"
],
"OnnxTool.Props.C106_cut_off": [
"propext",
"Classical.choice",
"Quot.sound"
],
"OnnxTool.Props.C106_too_small": [
"propext",
"Classical.choice",
"Quot.sound"
],
"OnnxTool.Props.C106_rounds_down": [
"propext",
"Classical.choice",
"Quot.sound"
],
"OnnxTool.Props.C106_rounding": [
"propext",
"Classical.choice",
"Quot.sound"
],
"OnnxTool.Props.C106_rounding_large": [
"propext",
"Classical.choice",
"Quot.sound"
],
"OnnxTool.Props.C107_fields": [
"propext"
],
"OnnxTool.Props.C107_default_iff": [
"propext",
"Classical.choice",
"Quot.sound"
],
"OnnxTool.Props.C107_given": [
"propext"
],
"OnnxTool.Props.C107_leave_out_partial": [
"propext",
"Classical.choice",
"Quot.sound"
],
"OnnxTool.Props.C107_others": [
"propext"
],
"OnnxTool.Props.C107_missing_raises": [
"propext"
],
"OnnxTool.Props.C107_wrong_defaults": [
"propext"
],
"OnnxTool.Props.C107_optional": [
"propext"
],
"OnnxTool.Props.C107_superclass_first": [
"propext"
],
"OnnxTool.Props.C108_values": [
"propext",
"Classical.choice",
"Quot.sound"
],
"OnnxTool.Props.C108_upper_bound_partial": [
"propext",
"Classical.choice",
"Quot.sound"
],
"OnnxTool.Props.C108_attained_partial": [
"propext",
"Classical.choice",
"Quot.sound"
],
"OnnxTool.Props.C108_one_token_partial": [
"propext",
"Classical.choice",
"Quot.sound"
],
"OnnxTool.Props.C108_within_total_partial": [
"propext",
"Classical.choice",
"Quot.sound"
],
"OnnxTool.Props.C108_total_counts_tables_repeatedly": [
"propext",
"Classical.choice",
"Quot.sound"
],
"OnnxTool.Props.C108_monotone": [
"propext",
"Classical.choice",
"Quot.sound"
],
"OnnxTool.Props.C108_small_moe": [
"propext",
"Classical.choice",
"Quot.sound"
],
"OnnxTool.Props.C108_llama7b_total": [
"propext",
"Classical.choice",
"Quot.sound"
],
"OnnxTool.Props.C108_exceeds_total": [
"propext",
"Classical.choice",
"Quot.sound"
],
"OnnxTool.Props.C109_found": [
"propext",
"Quot.sound"
],
"OnnxTool.Props.C109_kept": [
"propext",
"Quot.sound"
],
"OnnxTool.Props.C109_map": [
"propext",
"Classical.choice",
"Quot.sound"
],
"OnnxTool.Props.C109_decoder": [
"propext",
"Classical.choice",
"Quot.sound"
],
"OnnxTool.Props.C109_linear": [
"propext",
"Classical.choice",
"Quot.sound"
],
"OnnxTool.Props.C109_as_stored": [
"propext",
"Classical.choice",
"Quot.sound"
],
"OnnxTool.Props.C109_file_exists": [
"propext",
"Classical.choice",
"Quot.sound"
],
"OnnxTool.Props.C109_example": [
"propext"
],
"OnnxTool.Props.C109_tied_needs_map": [
"propext",
"Classical.choice",
"Quot.sound"
],
"OnnxTool.Props.C109_conv1d_counterexample": [
"propext"
],
"OnnxTool.Props.C109_shared_counterexample": [
"propext"
],
"OnnxTool.Props.C110_times": [
"propext",
"Classical.choice",
"Quot.sound"
],
"OnnxTool.Props.C110_totals": [
"propext",
"Classical.choice",
"Quot.sound"
],
"OnnxTool.Props.C110_table": [
"propext",
"Classical.choice",
"Quot.sound"
],
"OnnxTool.Props.C110_percentages": [
"propext",
"Classical.choice",
"Quot.sound"
],
"OnnxTool.Props.C110_printable": [
"propext",
"Classical.choice",
"Quot.sound"
],
"OnnxTool.Props.C110_zero_total": [
"propext",
"Classical.choice",
"Quot.sound"
],
"OnnxTool.Props.C110_elapsed": [
"propext",
"Classical.choice",
"Quot.sound"
],
"OnnxTool.Props.C110_slowest": [
"propext",
"Classical.choice",
"Quot.sound"
],
"OnnxTool.Props.C110_overlap": [
"propext",
"Classical.choice",
"Quot.sound"
],
"OnnxTool.Props.C110_same_operand": [
"propext",
"Quot.sound"
],
"OnnxTool.Props.C110_counts": [
"propext",
"Quot.sound"
],
"OnnxTool.Props.C110_largest": [
"propext",
"Quot.sound"
],
"OnnxTool.Props.C110_compare": [
"propext",
"Classical.choice",
"Quot.sound"
],
"OnnxTool.Props.C110_compare_self": [
"propext",
"Classical.choice",
"Quot.sound"
],
"OnnxTool.Props.C110_compare_asymmetric": [
"propext",
"Classical.choice",
"Quot.sound"
],
"OnnxTool.Props.C110_compare_empty": [
"propext",
"Classical.choice",
"Quot.sound"
],
"OnnxTool.Props.C111_after_removals": [
"propext",
"Classical.choice",
"Quot.sound"
],
"OnnxTool.Props.C111_removals_return": [
"propext",
"Classical.choice",
"Quot.sound"
],
"OnnxTool.Props.C111_list_link_subtree": [
"propext"
],
"OnnxTool.Props.C111_list_link_dangling": [
"propext",
"Quot.sound"
],
"OnnxTool.Props.C111_after_fusion": [
"propext",
"Classical.choice",
"Quot.sound"
],
"OnnxTool.Props.C111_after_postop": [
"propext",
"Classical.choice",
"Quot.sound"
],
"OnnxTool.Props.C111_stale_subtree": [
"propext",
"Classical.choice",
"Quot.sound"
],
"OnnxTool.Props.C111_kept_is_linked": [
"propext",
"Quot.sound"
],
"OnnxTool.Props.C111_after_skipping": [
"propext",
"Classical.choice",
"Quot.sound"
],
"OnnxTool.Props.C111_needed_node_removed": [
"propext"
],
"OnnxTool.Props.C111_fused_name": [
"propext"
],
"OnnxTool.Props.C111_fused_dangling": [
"propext"
],
"OnnxTool.Props.C111_reload": [
"propext",
"Quot.sound"
],
"OnnxTool.Props.C112_run": [
"propext",
"Classical.choice",
"Quot.sound"
],
"OnnxTool.Props.C112_nodes": [
"propext",
"Classical.choice",
"Quot.sound"
],
"OnnxTool.Props.C112_builds": [
"propext",
"Classical.choice",
"Quot.sound"
],
"OnnxTool.Props.C112_one_node": [
"propext"
],
"OnnxTool.Props.C112_shape_value_as_data": [
"propext"
],
"OnnxTool.Props.C113_built_cost": [
"propext",
"Classical.choice",
"Quot.sound"
],
"OnnxTool.Props.C113_cached_cost": [
"propext",
"Classical.choice",
"Quot.sound"
],
"OnnxTool.Props.C113_standard": [
"propext"
],
"OnnxTool.Props.C113_reads_all_weights": [
"propext"
],
"OnnxTool.Props.C113_sparse_is_sparse": [
"propext",
"Quot.sound"
],
"OnnxTool.Props.C113_short_sequences_cost_more": [
"propext",
"Quot.sound"
],
"OnnxTool.Props.C113_latent_cache_not_counted": [
"propext",
"Quot.sound"
],
"OnnxTool.Props.C113_linear_in_batch": [
"propext"
],
"OnnxTool.Props.C113_monotone": [
"propext",
"Classical.choice",
"Quot.sound"
],
"OnnxTool.Props.C114_plan": [
"propext",
"Classical.choice",
"Quot.sound"
],
"OnnxTool.Props.C114_plan_kv": [
"propext",
"Classical.choice",
"Quot.sound"
],
"OnnxTool.Props.C114_registry": [
"propext",
"Quot.sound"
],
"OnnxTool.Props.C114_formula": [
"propext",
"Quot.sound"
],
"OnnxTool.Props.C114_raw_data": [
"propext",
"Quot.sound"
],
"OnnxTool.Props.C114_gatherND": [
"propext",
"Quot.sound"
],
"OnnxTool.Props.C114_maxShape": [
"propext",
"Quot.sound"
],
"OnnxTool.Props.C114_constantOfShape": [
"propext",
"Quot.sound"
],
"OnnxTool.Props.C114_pad": [
"propext",
"Classical.choice",
"Quot.sound"
],
"OnnxTool.Props.C114_auto_pad": [
"propext"
],
"OnnxTool.Props.C114_globalAverage": [
"propext",
"Classical.choice",
"Quot.sound"
],
"OnnxTool.Props.C114_gemm": [
"propext",
"Classical.choice",
"Quot.sound"
],
"OnnxTool.Props.C114_remove_unknown": [
"propext"
],
"OnnxTool.Props.C114_remove_broken": [
"propext",
"Quot.sound"
],
"OnnxTool.Props.C114_skip_unknown": [
"propext"
],
"OnnxTool.Props.C114_skip_unlisted": [
"propext",
"Quot.sound"
],
"OnnxTool.Props.C114_skip_read": [
"propext",
"Classical.choice",
"Quot.sound"
],
"OnnxTool.Props.C114_skip_unread": [
"propext",
"Quot.sound"
],
"OnnxTool.Props.C114_fuse_unknown": [
"propext",
"Quot.sound"
],
"OnnxTool.Props.C114_fuse_missing": [
"propext",
"Quot.sound"
],
"OnnxTool.Props.C114_fuse_empty": [
"propext"
],
"OnnxTool.Props.C115_engine": [
"propext",
"Classical.choice",
"Quot.sound"
],
"OnnxTool.Props.C115_engine_variables": [
"propext",
"Classical.choice",
"Quot.sound"
],
"OnnxTool.Props.C115_from_model_partial": [
"propext",
"Classical.choice",
"Quot.sound"
],
"OnnxTool.Props.C115_one_variable": [
"propext",
"Classical.choice",
"Quot.sound"
],
"OnnxTool.Props.C115_disjoint": [
"propext",
"Classical.choice",
"Quot.sound"
],
"OnnxTool.Props.C115_two_variables_counterexample": [
"propext",
"Classical.choice",
"Quot.sound"
],
"OnnxTool.Props.C115_falling_counterexample": [
"propext",
"Classical.choice",
"Quot.sound"
],
"OnnxTool.Props.C116_network": [
"propext",
"Quot.sound"
],
"OnnxTool.Props.C116_shape_infer": [
"propext",
"Classical.choice",
"Quot.sound"
],
"OnnxTool.Props.C116_generated": [
"propext",
"Quot.sound"
],
"OnnxTool.Props.C116_grows": [
"propext",
"Classical.choice",
"Quot.sound"
],
"OnnxTool.Props.C116_pool": [
"propext",
"Classical.choice",
"Quot.sound"
],
"OnnxTool.Props.C116_broadcast": [
"propext",
"Classical.choice",
"Quot.sound"
],
"OnnxTool.Props.C116_expand": [
"propext"
],
"OnnxTool.Props.C116_transpose": [
"propext",
"Classical.choice",
"Quot.sound"
],
"OnnxTool.Props.C116_gather": [
"propext"
],
"OnnxTool.Props.C116_squeeze": [],
"OnnxTool.Props.C116_unsqueeze": [],
"OnnxTool.Props.C116_reduce": [
"propext"
],
"OnnxTool.Props.C116_pad": [
"propext",
"Classical.choice",
"Quot.sound"
],
"OnnxTool.Props.C116_concat": [
"propext",
"Classical.choice",
"Quot.sound"
],
"OnnxTool.Props.C116_oneHot": [
"propext"
],
"OnnxTool.Props.C116_conv": [
"propext",
"Classical.choice",
"Quot.sound"
],
"OnnxTool.Props.C116_pooling": [
"propext",
"Classical.choice",
"Quot.sound"
],
"OnnxTool.Props.C116_convTranspose": [
"propext",
"Classical.choice",
"Quot.sound"
],
"OnnxTool.Props.C116_gemm": [
"propext",
"Classical.choice",
"Quot.sound"
],
"OnnxTool.Props.C116_gemm_batched": [
"propext",
"Classical.choice",
"Quot.sound"
],
"OnnxTool.Props.C116_gemm_same_batch": [
"propext",
"Classical.choice",
"Quot.sound"
],
"OnnxTool.Props.C116_matmul_falls": [
"propext",
"Quot.sound"
],
"OnnxTool.Props.C116_split": [
"propext",
"Classical.choice",
"Quot.sound"
],
"OnnxTool.Props.C116_resize": [
"propext",
"Classical.choice",
"Quot.sound"
],
"OnnxTool.Props.C116_depthToSpace": [
"propext"
],
"OnnxTool.Props.C116_slice": [
"propext",
"Classical.choice",
"Quot.sound"
],
"OnnxTool.Props.C116_reshape": [
"propext",
"Classical.choice",
"Quot.sound"
],
"OnnxTool.Props.C116_topk": [
"propext",
"Classical.choice",
"Quot.sound"
],
"OnnxTool.Props.C116_by_shape": [
"propext",
"Classical.choice",
"Quot.sound"
],
"OnnxTool.Props.C116_shape": [
"propext",
"Classical.choice",
"Quot.sound"
],
"OnnxTool.Props.C116_slice_falls": [
"propext"
],
"OnnxTool.Props.C116_split_falls": [
"propext"
],
"OnnxTool.Props.C116_largest_operand_falls": [],
"OnnxTool.Props.C116_slice_pool_counterexample": [
"propext",
"Classical.choice",
"Quot.sound"
],
"OnnxTool.Props.C116_residual_rising": [
"propext",
"Classical.choice",
"Quot.sound"
],
"OnnxTool.Props.C116_residual_wellFormed": [
"propext",
"Quot.sound"
],
"OnnxTool.Props.C116_residual_pool": [
"propext",
"Classical.choice",
"Quot.sound"
],
"OnnxTool.Props.C117_succeeds": [
"propext",
"Classical.choice",
"Quot.sound"
],
"OnnxTool.Props.C117_thresholds": [
"propext",
"Classical.choice",
"Quot.sound"
],
"OnnxTool.Props.C117_count": [
"propext",
"Classical.choice",
"Quot.sound"
],
"OnnxTool.Props.C117_falling": [
"propext",
"Classical.choice",
"Quot.sound"
],
"OnnxTool.Props.C117_value": [
"propext",
"Classical.choice",
"Quot.sound"
],
"OnnxTool.Props.C117_range": [
"propext",
"Classical.choice",
"Quot.sound"
],
"OnnxTool.Props.C117_share": [
"propext",
"Classical.choice",
"Quot.sound"
],
"OnnxTool.Props.C117_example": [
"propext",
"Classical.choice",
"Quot.sound"
],
"OnnxTool.Props.C117_not_suppressed": [
"propext",
"Classical.choice",
"Quot.sound"
],
"OnnxTool.Props.C117_coordinates_mixed": [
"propext",
"Classical.choice",
"Quot.sound"
],
"OnnxTool.Props.C117_narrow": [
"propext",
"Classical.choice",
"Quot.sound"
],
"OnnxTool.Props.C118_provenance": [
"propext"
],
"OnnxTool.Props.C118_threads_end": [
"propext",
"Classical.choice",
"Quot.sound"
],
"OnnxTool.Props.C118_result": [
"propext",
"Quot.sound"
],
"OnnxTool.Props.C118_saved": [
"propext",
"Classical.choice",
"Quot.sound"
],
"OnnxTool.Props.C118_stale": [
"propext",
"Classical.choice",
"Quot.sound"
],
"OnnxTool.Props.C118_safe_iff": [
"propext",
"Classical.choice",
"Quot.sound"
],
"OnnxTool.Props.C118_failure_keeps_old": [
"propext",
"Classical.choice",
"Quot.sound"
],
"OnnxTool.Props.C118_unreadable_renames": [
"propext",
"Classical.choice",
"Quot.sound"
],
"OnnxTool.Props.C118_race": [
"propext",
"Classical.choice",
"Quot.sound"
],
"OnnxTool.Props.C118_race_bicubic": [
"propext",
"Classical.choice",
"Quot.sound"
],
"OnnxTool.Props.C119_selected": [
"propext",
"Classical.choice",
"Quot.sound"
],
"OnnxTool.Props.C119_end": [
"propext",
"Classical.choice",
"Quot.sound"
],
"OnnxTool.Props.C119_succeeds": [
"propext",
"Classical.choice",
"Quot.sound"
],
"OnnxTool.Props.C119_crash": [
"propext",
"Classical.choice",
"Quot.sound"
],
"OnnxTool.Props.C119_error": [
"propext",
"Classical.choice",
"Quot.sound"
],
"OnnxTool.Props.C119_end_batch": [
"propext",
"Classical.choice",
"Quot.sound"
],
"OnnxTool.Props.C119_example": [
"propext",
"Classical.choice",
"Quot.sound"
],
"OnnxTool.Props.C119_same_stem": [
"propext",
"Classical.choice",
"Quot.sound"
],
"OnnxTool.Props.C119_bad_file": [
"propext",
"Classical.choice",
"Quot.sound"
],
"OnnxTool.Props.C119_error_example": [
"propext",
"Classical.choice",
"Quot.sound"
],
"OnnxTool.Props.C120_shape_infer": [
"propext",
"Classical.choice",
"Quot.sound"
],
"OnnxTool.Props.C120_profile": [
"propext",
"Classical.choice",
"Quot.sound"
],
"OnnxTool.Props.C120_samples": [
"propext",
"Classical.choice",
"Quot.sound"
],
"OnnxTool.Props.C120_node_macs": [
"propext",
"Classical.choice",
"Quot.sound"
],
"OnnxTool.Props.C120_gather": [
"propext",
"Quot.sound"
],
"OnnxTool.Props.C120_embedding": [
"propext",
"Quot.sound"
],
"OnnxTool.Props.C120_squeeze": [
"propext",
"Quot.sound"
],
"OnnxTool.Props.C120_unsqueeze": [
"propext",
"Quot.sound"
],
"OnnxTool.Props.C120_oneHot": [
"propext",
"Quot.sound"
],
"OnnxTool.Props.C120_split": [
"propext",
"Quot.sound"
],
"OnnxTool.Props.C120_slice": [
"propext",
"Quot.sound"
],
"OnnxTool.Props.C120_depthToSpace": [
"propext"
],
"OnnxTool.Props.C120_resize": [
"propext",
"Classical.choice",
"Quot.sound"
],
"OnnxTool.Props.C120_topk": [
"propext",
"Classical.choice",
"Quot.sound"
],
"OnnxTool.Props.C120_resize_by_sizes": [
"propext",
"Classical.choice",
"Quot.sound"
],
"OnnxTool.Props.C120_by_shape": [
"propext",
"Classical.choice",
"Quot.sound"
],
"OnnxTool.Props.C120_data_operand": [
"propext",
"Classical.choice",
"Quot.sound"
],
"OnnxTool.Props.C120_elementwise": [
"propext",
"Classical.choice",
"Quot.sound"
],
"OnnxTool.Props.C120_residual_block": [
"propext",
"Classical.choice",
"Quot.sound"
],
"OnnxTool.Props.C120_flatten_one_sample": [
"propext",
"Classical.choice",
"Quot.sound"
],
"OnnxTool.Props.C120_gram": [
"propext",
"Classical.choice",
"Quot.sound"
],
"OnnxTool.Props.C120_conv": [
"propext",
"Quot.sound"
],
"OnnxTool.Props.C120_pool": [
"propext",
"Quot.sound"
],
"OnnxTool.Props.C120_conv_transpose": [
"propext",
"Quot.sound"
],
"OnnxTool.Props.C120_broadcast": [
"propext",
"Classical.choice",
"Quot.sound"
],
"OnnxTool.Props.C120_concat": [
"propext",
"Quot.sound"
],
"OnnxTool.Props.C120_transpose": [
"propext",
"Classical.choice",
"Quot.sound"
],
"OnnxTool.Props.C120_reduce": [
"propext",
"Quot.sound"
],
"OnnxTool.Props.C120_pad": [
"propext"
],
"OnnxTool.Props.C120_gemm": [
"propext"
],
"OnnxTool.Props.C120_matmul": [
"propext",
"Classical.choice",
"Quot.sound"
],
"OnnxTool.Props.C120_matmul_stacks": [
"propext",
"Quot.sound"
],
"OnnxTool.Props.C120_reshape": [
"propext",
"Classical.choice",
"Quot.sound"
],
"OnnxTool.Props.C120_reshape_minus_one": [
"propext",
"Classical.choice",
"Quot.sound"
],
"OnnxTool.Props.C121_returned": [
"propext"
],
"OnnxTool.Props.C121_result_overwritten": [
"propext",
"Classical.choice",
"Quot.sound"
],
"OnnxTool.Props.C121_result_overwritten_in_part": [
"propext",
"Classical.choice",
"Quot.sound"
],
"OnnxTool.Props.C121_feedback_partial": [
"propext",
"Quot.sound"
],
"OnnxTool.Props.C121_own_tensors": [
"propext",
"Quot.sound"
],
"OnnxTool.Props.C121_two_states_mixed": [
"propext"
],
"OnnxTool.Props.C122_alone": [
"propext",
"Classical.choice",
"Quot.sound"
],
"OnnxTool.Props.C122_locked_partial": [
"propext",
"Classical.choice",
"Quot.sound"
],
"OnnxTool.Props.C122_own_engines": [
"propext",
"Classical.choice",
"Quot.sound"
],
"OnnxTool.Props.C122_overlap_wrong": [
"propext"
],
"OnnxTool.Props.C122_overlap_leaves_engine_wrong": [
"propext"
],
"OnnxTool.Props.C123_report": [
"propext",
"Classical.choice",
"Quot.sound"
],
"OnnxTool.Props.C123_max": [
"propext",
"Classical.choice",
"Quot.sound"
],
"OnnxTool.Props.C123_nan": [
"propext",
"Classical.choice",
"Quot.sound"
],
"OnnxTool.Props.C123_zero": [
"propext",
"Classical.choice",
"Quot.sound"
],
"OnnxTool.Props.C123_mean": [
"propext",
"Classical.choice",
"Quot.sound"
],
"OnnxTool.Props.C123_mean_is_not_the_mean": [
"propext",
"Classical.choice",
"Quot.sound"
],
"OnnxTool.Props.C123_cosine": [
"propext",
"Classical.choice",
"Quot.sound"
],
"OnnxTool.Props.C123_cosine_zero": [
"propext",
"Classical.choice",
"Quot.sound"
],
"OnnxTool.Props.C123_cosine_scale": [
"propext",
"Classical.choice",
"Quot.sound"
],
"OnnxTool.Props.C123_batches": [
"propext",
"Classical.choice",
"Quot.sound"
],
"OnnxTool.Props.C123_last_batch": [
"propext",
"Quot.sound"
],
"OnnxTool.Props.C123_predictions": [
"propext",
"Classical.choice",
"Quot.sound"
],
"OnnxTool.Props.C123_prediction_flip": [
"propext",
"Classical.choice",
"Quot.sound"
],
"OnnxTool.Props.C123_worst": [
"propext",
"Classical.choice",
"Quot.sound"
],
"OnnxTool.Props.C123_worst_hides_nan": [
"propext",
"Classical.choice",
"Quot.sound"
],
"OnnxTool.Props.C123_verdict": [
"propext",
"Classical.choice",
"Quot.sound"
],
"OnnxTool.Props.C123_verdict_asymmetric": [
"propext",
"Classical.choice",
"Quot.sound"
],
"OnnxTool.Props.C123_all_pass": [
"propext",
"Classical.choice",
"Quot.sound"
],
"OnnxTool.Props.C123_all_pass_ignores": [
"propext",
"Classical.choice",
"Quot.sound"
],
"OnnxTool.Props.C123_resolutions": [
"propext",
"Classical.choice",
"Quot.sound"
],
"OnnxTool.Props.C124_time": [
"propext",
"Classical.choice",
"Quot.sound"
],
"OnnxTool.Props.C124_flops_small": [
"propext",
"Classical.choice",
"Quot.sound"
],
"OnnxTool.Props.C124_flops_label": [
"propext",
"Classical.choice",
"Quot.sound"
],
"OnnxTool.Props.C124_gemm": [
"propext",
"Classical.choice",
"Quot.sound"
],
"OnnxTool.Props.C124_no_time": [
"propext",
"Classical.choice",
"Quot.sound"
],
"OnnxTool.Props.C124_conv": [
"propext",
"Classical.choice",
"Quot.sound"
],
"OnnxTool.Props.C124_overhead": [
"propext",
"Classical.choice",
"Quot.sound"
],
"OnnxTool.Props.C124_shares": [
"propext",
"Classical.choice",
"Quot.sound"
],
"OnnxTool.Props.C124_plot": [
"propext",
"Classical.choice",
"Quot.sound"
],
"OnnxTool.Props.C124_plot_axis": [
"propext",
"Classical.choice",
"Quot.sound"
],
"OnnxTool.Props.C124_plot_zero": [
"propext",
"Classical.choice",
"Quot.sound"
],
"OnnxTool.Props.C125_file": [
"propext",
"Classical.choice",
"Quot.sound"
],
"OnnxTool.Props.C125_preferred": [
"propext",
"Classical.choice",
"Quot.sound"
],
"OnnxTool.Props.C125_local": [
"propext",
"Classical.choice",
"Quot.sound"
],
"OnnxTool.Props.C125_newest": [
"propext",
"Classical.choice",
"Quot.sound"
],
"OnnxTool.Props.C125_cached": [
"propext",
"Classical.choice",
"Quot.sound"
],
"OnnxTool.Props.C125_from_dir": [
"propext",
"Classical.choice",
"Quot.sound"
],
"OnnxTool.Props.C125_nothing": [
"propext",
"Classical.choice",
"Quot.sound"
],
"OnnxTool.Props.C125_listing_order": [
"propext",
"Classical.choice",
"Quot.sound"
],
"OnnxTool.Props.C125_one_shard_counterexample": [
"propext",
"Classical.choice",
"Quot.sound"
],
"OnnxTool.Props.C125_basename": [
"propext",
"Classical.choice",
"Quot.sound"
],
"OnnxTool.Props.C125_architecture": [
"propext",
"Classical.choice",
"Quot.sound"
],
"OnnxTool.Props.C125_directory_config": [
"propext",
"Classical.choice",
"Quot.sound"
],
"OnnxTool.Props.C125_named": [
"propext",
"Classical.choice",
"Quot.sound"
],
"OnnxTool.Props.C125_weights": [
"propext",
"Classical.choice",
"Quot.sound"
],
"OnnxTool.Props.C125_given_onnx": [
"propext",
"Classical.choice",
"Quot.sound"
],
"OnnxTool.Props.C125_directory_onnx": [
"propext",
"Classical.choice",
"Quot.sound"
],
"OnnxTool.Props.C125_cwd_onnx": [
"propext",
"Classical.choice",
"Quot.sound"
],
"OnnxTool.Props.C125_errors": [
"propext",
"Classical.choice",
"Quot.sound"
],
"OnnxTool.Props.C125_directory_case": [
"propext",
"Classical.choice",
"Quot.sound"
],
"OnnxTool.Props.C125_named_case": [
"propext",
"Classical.choice",
"Quot.sound"
],
"OnnxTool.Props.C125_wrong_weights_counterexample": [
"propext",
"Classical.choice",
"Quot.sound"
],
"OnnxTool.Props.C125_wrong_onnx_counterexample": [
"propext",
"Classical.choice",
"Quot.sound"
],
"OnnxTool.Props.C125_same_cache_counterexample": [
"propext",
"Classical.choice",
"Quot.sound"
],
"OnnxTool.Props.C125_cache_key": [
"propext",
"Classical.choice",
"Quot.sound"
],
"OnnxTool.Props.C126_series": [
"propext",
"Quot.sound"
],
"OnnxTool.Props.C126_forgets": [
"propext",
"Quot.sound"
],
"OnnxTool.Props.C126_series_partial": [
"propext",
"Quot.sound"
],
"OnnxTool.Props.C126_history": [
"propext",
"Classical.choice",
"Quot.sound"
],
"OnnxTool.Props.C126_topk_shape": [
"propext",
"Classical.choice",
"Quot.sound"
],
"OnnxTool.Props.C126_topk_outputs": [
"propext"
],
"OnnxTool.Props.C126_topk_exact": [
"propext",
"Quot.sound"
],
"OnnxTool.Props.C126_topk_counterexample": [
"propext"
],
"OnnxTool.Props.C126_case": [
"propext"
],
"OnnxTool.Props.C127_every_message": [
"propext",
"Quot.sound"
],
"OnnxTool.Props.C127_only_errors_fail": [
"propext"
],
"OnnxTool.Props.C127_too_late": [
"propext"
],
"OnnxTool.Props.C127_order": [
"propext"
],
"OnnxTool.Props.C127_success": [
"propext",
"Quot.sound"
],
"OnnxTool.Props.C127_successful_work": [
"propext",
"Quot.sound"
],
"OnnxTool.Props.C127_process": [
"propext",
"Quot.sound"
],
"OnnxTool.Props.C127_batch": [
"propext",
"Quot.sound"
],
"OnnxTool.Props.C127_error_lost": [
"propext"
],
"OnnxTool.Props.C127_batch_error_lost": [
"propext",
"Quot.sound"
],
"OnnxTool.Props.C128_exact": [
"propext",
"Classical.choice",
"Quot.sound"
],
"OnnxTool.Props.C128_bytes_partial": [
"propext",
"Classical.choice",
"Quot.sound"
],
"OnnxTool.Props.C128_one_weight_iff": [
"propext",
"Classical.choice",
"Quot.sound"
],
"OnnxTool.Props.C128_byte_weight_counterexample": [
"propext",
"Quot.sound"
],
"OnnxTool.Props.C128_topk_counterexample": [
"propext",
"Quot.sound"
],
"OnnxTool.Props.C128_gather_row": [
"propext",
"Quot.sound"
],
"OnnxTool.Props.C128_gather_macs": [
"propext",
"Quot.sound"
],
"OnnxTool.Props.C128_gather_iff": [
"propext",
"Classical.choice",
"Quot.sound"
],
"OnnxTool.Props.C128_embedding": [
"propext",
"Classical.choice",
"Quot.sound"
],
"OnnxTool.Props.C128_embedding_exceeds_iff": [
"propext",
"Classical.choice",
"Quot.sound"
],
"OnnxTool.Props.C128_gather_counterexample": [],
"OnnxTool.Props.C128_gather_activation_counterexample": [
"propext",
"Quot.sound"
],
"OnnxTool.Props.C128_gather_scalar_counterexample": [],
"OnnxTool.Props.C129_scan_shapes": [
"propext",
"Classical.choice",
"Quot.sound"
],
"OnnxTool.Props.C129_scan_iff": [
"propext",
"Classical.choice",
"Quot.sound"
],
"OnnxTool.Props.C129_scan_few": [
"propext",
"Classical.choice",
"Quot.sound"
],
"OnnxTool.Props.C129_scan_few_operands": [
"propext",
"Quot.sound"
],
"OnnxTool.Props.C129_scan_two": [
"propext",
"Classical.choice",
"Quot.sound"
],
"OnnxTool.Props.C129_scan_counterexample": [
"propext"
],
"OnnxTool.Props.C129_scan_states_counterexample": [
"propext"
],
"OnnxTool.Props.C129_zipmap_iff": [
"propext"
],
"OnnxTool.Props.C129_zipmap_counterexample": [
"propext"
],
"OnnxTool.Props.C129_gegelu": [
"propext"
],
"OnnxTool.Props.C129_gegelu_iff": [
"propext",
"Quot.sound"
],
"OnnxTool.Props.C129_gegelu_rank": [
"propext",
"Quot.sound"
],
"OnnxTool.Props.C129_gegelu_fails_iff": [
"propext",
"Quot.sound"
],
"OnnxTool.Props.C129_gegelu_counterexample": [],
"OnnxTool.Props.C130_toInt": [
"propext",
"Classical.choice",
"Quot.sound"
],
"OnnxTool.Props.C130_drawn_iff": [
"propext",
"Classical.choice",
"Quot.sound"
],
"OnnxTool.Props.C130_rect": [
"propext",
"Classical.choice",
"Quot.sound"
],
"OnnxTool.Props.C130_inside": [
"propext",
"Classical.choice",
"Quot.sound"
],
"OnnxTool.Props.C130_roundtrip": [
"propext",
"Classical.choice",
"Quot.sound"
],
"OnnxTool.Props.C130_thin_counterexample": [
"propext",
"Classical.choice",
"Quot.sound"
],
"OnnxTool.Props.C130_order": [
"propext"
],
"OnnxTool.Props.C130_gt": [
"propext",
"Classical.choice",
"Quot.sound"
],
"OnnxTool.Props.C130_dashes": [
"propext",
"Classical.choice",
"Quot.sound"
],
"OnnxTool.Props.C130_coco_names": [],
"OnnxTool.Props.C130_coco_order": [],
"OnnxTool.Props.C130_coco_numbers": [
"propext"
],
"OnnxTool.Props.C130_names_default": [
"propext",
"Classical.choice",
"Quot.sound"
],
"OnnxTool.Props.C130_names_categories": [
"propext",
"Quot.sound"
],
"OnnxTool.Props.C130_names_partial": [
"propext",
"Classical.choice",
"Quot.sound"
],
"OnnxTool.Props.C130_names_shifted": [
"propext",
"Classical.choice",
"Quot.sound"
],
"OnnxTool.Props.C130_bicycle_counterexample": [
"propext",
"Classical.choice",
"Quot.sound"
],
"OnnxTool.Props.C130_color_iff": [
"propext",
"Classical.choice",
"Quot.sound"
],
"OnnxTool.Props.C130_color_shifted": [
"propext",
"Classical.choice",
"Quot.sound"
],
"OnnxTool.Props.C130_label_iff": [
"propext",
"Classical.choice",
"Quot.sound"
],
"OnnxTool.Props.C130_label_back": [
"propext",
"Classical.choice",
"Quot.sound"
],
"OnnxTool.Props.C130_label_counterexample": [],
"OnnxTool.Props.C131_row": [
"propext",
"Classical.choice",
"Quot.sound"
],
"OnnxTool.Props.C131_table": [
"propext",
"Classical.choice",
"Quot.sound"
],
"OnnxTool.Props.C131_first_error": [
"propext",
"Classical.choice",
"Quot.sound"
],
"OnnxTool.Props.C131_small_decoder": [
"propext",
"Classical.choice",
"Quot.sound"
],
"OnnxTool.Props.C131_ratio": [
"propext",
"Classical.choice",
"Quot.sound"
],
"OnnxTool.Props.C131_total": [
"propext",
"Classical.choice",
"Quot.sound"
],
"OnnxTool.Props.C131_rounding": [
"propext",
"Classical.choice",
"Quot.sound"
],
"OnnxTool.Props.C131_patches_are_tokens": [
"propext",
"Classical.choice",
"Quot.sound"
],
"OnnxTool.Props.C131_decoder": [
"propext",
"Classical.choice",
"Quot.sound"
],
"OnnxTool.Props.C131_larger_image": [
"propext",
"Classical.choice",
"Quot.sound"
],
"OnnxTool.Props.C131_comparison": [
"propext",
"Classical.choice",
"Quot.sound"
],
"OnnxTool.Props.C131_comparison_tokens": [
"propext",
"Classical.choice",
"Quot.sound"
],
"OnnxTool.Props.C132_one_by_one_partial": [
"propext",
"Classical.choice",
"Quot.sound"
],
"OnnxTool.Props.C132_nested_partial": [
"propext",
"Classical.choice",
"Quot.sound"
],
"OnnxTool.Props.C132_every_line": [
"propext",
"Classical.choice",
"Quot.sound"
],
"OnnxTool.Props.C132_overlap_counterexample": [
"propext",
"Classical.choice",
"Quot.sound"
],
"OnnxTool.Props.C132_silent": [
"propext"
],
"OnnxTool.Props.C132_foreign_line_counterexample": [
"propext",
"Classical.choice",
"Quot.sound"
]
}