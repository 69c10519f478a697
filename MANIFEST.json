{
 "claims": [
  {
   "property": "C01",
   "status": "proved",
   "theorems": [
    "OnnxTool.Props.C01_live_disjoint"
   ],
   "note": ""
  },
  {
   "property": "C02",
   "status": "proved",
   "theorems": [
    "OnnxTool.Props.C02_within_pool"
   ],
   "note": ""
  },
  {
   "property": "C03",
   "status": "proved",
   "theorems": [
    "OnnxTool.Props.C03_aligned_and_large_enough",
    "OnnxTool.Props.C03_every_live_tensor_allocated"
   ],
   "note": ""
  },
  {
   "property": "C04",
   "status": "proved",
   "theorems": [
    "OnnxTool.Props.C04_not_worse_than_no_sharing",
    "OnnxTool.Props.C04_at_least_peak"
   ],
   "note": ""
  },
  {
   "property": "C05",
   "status": "partial",
   "theorems": [
    "OnnxTool.Props.C05_unread_output_kept_partial",
    "OnnxTool.Props.C05_output_overwritten"
   ],
   "note": "False as stated (C05_output_overwritten is a kernel-checked counterexample); proved for outputs that no node reads."
  },
  {
   "property": "C06",
   "status": "proved",
   "theorems": [
    "OnnxTool.Props.C06_plan_accepted",
    "OnnxTool.Props.C06_get_iff_fits",
    "OnnxTool.Props.C06_get_batch",
    "OnnxTool.Props.C06_get_missing",
    "OnnxTool.Props.C06_no_interference"
   ],
   "note": ""
  },
  {
   "property": "C07",
   "status": "proved",
   "theorems": [
    "OnnxTool.Props.C07_producers_first",
    "OnnxTool.Props.C07_double_producer_drops_consumer"
   ],
   "note": ""
  },
  {
   "property": "C08",
   "status": "proved",
   "theorems": [
    "OnnxTool.Props.C08_keeps_exactly_acyclic_part",
    "OnnxTool.Props.C08_acyclic_permutation",
    "OnnxTool.Props.C08_empty_optional_names_drop_node"
   ],
   "note": ""
  },
  {
   "property": "C09",
   "status": "proved",
   "theorems": [
    "OnnxTool.Props.C09_idempotent"
   ],
   "note": ""
  },
  {
   "property": "C10",
   "status": "proved",
   "theorems": [
    "OnnxTool.Props.C10_update_exact",
    "OnnxTool.Props.C10_removal_history_exact",
    "OnnxTool.Props.C10_plain_removals_exact",
    "OnnxTool.Props.C10_remove_outputs",
    "OnnxTool.Props.C10_double_producer_raises"
   ],
   "note": ""
  },
  {
   "property": "C11",
   "status": "partial",
   "theorems": [
    "OnnxTool.Props.C11_keeps_exactly_needed_partial",
    "OnnxTool.Props.C11_nothing_left_behind",
    "OnnxTool.Props.C11_output_lost",
    "OnnxTool.Props.C11_unsorted_raises"
   ],
   "note": "False for graphs whose output is also read by a dangling node (C11_output_lost) and raises on unsorted graphs (C11_unsorted_raises); proved exactly otherwise."
  },
  {
   "property": "C12",
   "status": "proved",
   "theorems": [
    "OnnxTool.Props.C12_levels_exact",
    "OnnxTool.Props.C12_partition"
   ],
   "note": ""
  },
  {
   "property": "C13",
   "status": "proved",
   "theorems": [
    "OnnxTool.Props.C13_interface_exact",
    "OnnxTool.Props.C13_unknown_name",
    "OnnxTool.Props.C13_internal_graph_output_missing"
   ],
   "note": ""
  },
  {
   "property": "C14",
   "status": "partial",
   "theorems": [
    "OnnxTool.Props.C14_fuse_exact_partial",
    "OnnxTool.Props.C14_connections_kept",
    "OnnxTool.Props.C14_graph_output_lost"
   ],
   "note": "False when a graph output is produced inside the fused set and only read inside it (C14_graph_output_lost); exact otherwise."
  },
  {
   "property": "C15",
   "status": "proved",
   "theorems": [
    "OnnxTool.Props.C15_marks_exactly_closure",
    "OnnxTool.Props.C15_order_independent",
    "OnnxTool.Props.C15_shape_operands_are_inputs",
    "OnnxTool.Props.C15_shape_operands",
    "OnnxTool.Props.C15_other_operators",
    "OnnxTool.Props.C15_pad_with_axes_not_covered"
   ],
   "note": ""
  },
  {
   "property": "C16",
   "status": "partial",
   "theorems": [
    "OnnxTool.Props.C16_compute_graph_partial",
    "OnnxTool.Props.C16_source_graph_is_modified",
    "OnnxTool.Props.C16_dynamics",
    "OnnxTool.Props.C16_dynamics_misses_output",
    "OnnxTool.Props.C16_multi_output_lost",
    "OnnxTool.Props.C16_output_lost"
   ],
   "note": "False for multi-output producers and for outputs read only by shape nodes (C16_multi_output_lost, C16_output_lost); proved otherwise; also C16_source_graph_is_modified."
  },
  {
   "property": "C17",
   "status": "proved",
   "theorems": [
    "OnnxTool.Props.C17_constant_iff"
   ],
   "note": ""
  },
  {
   "property": "C18",
   "status": "partial",
   "theorems": [
    "OnnxTool.Props.C18_folding_preserves_values_partial",
    "OnnxTool.Props.C18_constant_output_lost",
    "OnnxTool.Props.C18_constant_output_gone",
    "OnnxTool.Props.C18_read_output_lost"
   ],
   "note": "Value preservation proved for every tensor the folded graph reads or produces, with the output names kept (remove_dangling, the default). False part: an output computed from constants only has no tensor any more, so it is lost when saving (C18_constant_output_gone, C18_constant_output_lost); without remove_dangling outputs that some node reads are dropped too (C18_read_output_lost)."
  },
  {
   "property": "C19",
   "status": "partial",
   "theorems": [
    "OnnxTool.Props.C19_broadcast_exact",
    "OnnxTool.Props.C19_order_independent",
    "OnnxTool.Props.C19_grouping",
    "OnnxTool.Props.C19_expand_partial",
    "OnnxTool.Props.C19_expand_wrong"
   ],
   "note": "_broadcast_shape (elementwise operators) proved exact for all operand lists; Expand proved on the domain where the target broadcasts the input (C19_expand_partial), wrong outside it (C19_expand_wrong)."
  },
  {
   "property": "C20",
   "status": "proved",
   "theorems": [
    "OnnxTool.Props.C20_max_shape",
    "OnnxTool.Props.C20_volume",
    "OnnxTool.Props.C20_returns_broadcast",
    "OnnxTool.Props.C20_not_broadcast_in_general"
   ],
   "note": "Also proved that the result is not the broadcast shape in general (C20_not_broadcast_in_general)."
  },
  {
   "property": "C21",
   "status": "partial",
   "theorems": [
    "OnnxTool.Props.C21_conv",
    "OnnxTool.Props.C21_pool_partial",
    "OnnxTool.Props.C21_pool3d_wrong",
    "OnnxTool.Props.C21_conv_not_fitting",
    "OnnxTool.Props.C21_conv_auto_pad_3d"
   ],
   "note": "Conv exact; pooling proved for explicit pads (C21_pool_partial). Wrong for 3-D pooling ceil/auto-pad paths (C21_pool3d_wrong, C21_conv_auto_pad_3d)."
  },
  {
   "property": "C22",
   "status": "proved",
   "theorems": [
    "OnnxTool.Props.C22_conv_inverts_transpose",
    "OnnxTool.Props.C22_conv_of_convtranspose_shape",
    "OnnxTool.Props.C22_valid_is_zero_padding",
    "OnnxTool.Props.C22_same_is_ceil",
    "OnnxTool.Props.C22_same_is_explicit"
   ],
   "note": ""
  },
  {
   "property": "C23",
   "status": "partial",
   "theorems": [
    "OnnxTool.Props.C23_slice",
    "OnnxTool.Props.C23_defaults",
    "OnnxTool.Props.C23_value_agrees_partial",
    "OnnxTool.Props.C23_backward_wrong",
    "OnnxTool.Props.C23_value_ignores_axes"
   ],
   "note": "Shape inference proved exact for all inputs with non-zero steps (C23_slice); agreement with the computed value only for non-negative axes given as an input (C23_value_agrees_partial), false otherwise (C23_backward_wrong, C23_value_ignores_axes)."
  },
  {
   "property": "C24",
   "status": "partial",
   "theorems": [
    "OnnxTool.Props.C24_reshape_partial",
    "OnnxTool.Props.C24_reshape_unique",
    "OnnxTool.Props.C24_reshape_iff",
    "OnnxTool.Props.C24_undetermined",
    "OnnxTool.Props.C24_count_preserved",
    "OnnxTool.Props.C24_wildcards_left"
   ],
   "note": "C24_reshape_iff: exact (iff) for every input with at least one dimension, zero sizes included, and every target with at most one -1, unless a -1 stands beside a copied zero dimension, where the tool returns a negative dimension (C24_undetermined). Also false: several wildcards and scalars (C24_wildcards_left)."
  },
  {
   "property": "C25",
   "status": "partial",
   "theorems": [
    "OnnxTool.Props.C25_split",
    "OnnxTool.Props.C25_equal_split",
    "OnnxTool.Props.C25_uneven_split_partial",
    "OnnxTool.Props.C25_uneven_split_iff",
    "OnnxTool.Props.C25_uneven_split_wrong",
    "OnnxTool.Props.C25_concat",
    "OnnxTool.Props.C25_concat_of_split"
   ],
   "note": "Explicit splits, equal splits, concatenation and rejoining proved for all shapes; the default uneven split is right exactly when the first n-1 parts fit (C25_uneven_split_iff), else the last part is negative (C25_uneven_split_wrong)."
  },
  {
   "property": "C26",
   "status": "proved",
   "theorems": [
    "OnnxTool.Props.C26_transpose",
    "OnnxTool.Props.C26_transpose_inverse",
    "OnnxTool.Props.C26_transpose_default",
    "OnnxTool.Props.C26_squeeze",
    "OnnxTool.Props.C26_unsqueeze_squeeze",
    "OnnxTool.Props.C26_unsqueeze_returns",
    "OnnxTool.Props.C26_reduce",
    "OnnxTool.Props.C26_reduce_all_missing",
    "OnnxTool.Props.C26_gather",
    "OnnxTool.Props.C26_onehot",
    "OnnxTool.Props.C26_pad",
    "OnnxTool.Props.C26_negative_axes",
    "OnnxTool.Props.C26_negative_axes_unsqueeze"
   ],
   "note": "Reduce without axes and Squeeze of a dimension other than 1 are findings (C26_reduce_all_missing); the statement concerns named axes."
  },
  {
   "property": "C27",
   "status": "partial",
   "theorems": [
    "OnnxTool.Props.C27_affine",
    "OnnxTool.Props.C27_ceil_partial",
    "OnnxTool.Props.C27_floor_partial",
    "OnnxTool.Props.C27_floor_aligned_wrong",
    "OnnxTool.Props.C27_ceil_end_wrong",
    "OnnxTool.Props.C27_wide_enough"
   ],
   "note": "Proved exact for all x for affine dimensions, and for rounded quotients under explicit conditions on the samples; the conditions are needed (C27_floor_aligned_wrong for every aligned range, C27_ceil_end_wrong)."
  },
  {
   "property": "C28",
   "status": "proved",
   "theorems": [
    "OnnxTool.Props.C28_update_consistent",
    "OnnxTool.Props.C28_update_idempotent",
    "OnnxTool.Props.C28_update_deterministic",
    "OnnxTool.Props.C28_tensorshape",
    "OnnxTool.Props.C28_history",
    "OnnxTool.Props.C28_unordered_stale"
   ],
   "note": ""
  },
  {
   "property": "C29",
   "status": "partial",
   "theorems": [
    "OnnxTool.Props.C29_roundtrip",
    "OnnxTool.Props.C29_injective",
    "OnnxTool.Props.C29_large_coefficient_lost",
    "OnnxTool.Props.C29_coefficient_error",
    "OnnxTool.Props.C29_coefficient_iff",
    "OnnxTool.Props.C29_dim_overflow"
   ],
   "note": "Proved for engines with NUL-free names, 32-bit dimensions and coefficients single precision holds: the writer returns and an independent reader recovers everything; two engines with equal bytes are equal; a coefficient survives if and only if single precision holds it (C29_coefficient_iff). Missing because false: other 32-bit coefficients are rounded (C29_large_coefficient_lost). Variable values are not stored by design of the format."
  },
  {
   "property": "C30",
   "status": "proved",
   "theorems": [
    "OnnxTool.Props.C30_roundtrip",
    "OnnxTool.Props.C30_returns_iff",
    "OnnxTool.Props.C30_injective",
    "OnnxTool.Props.C30_nul_name_ambiguous"
   ],
   "note": "Reader recovers size, blocks and maximum shapes whenever the writer returns; it returns exactly when all numbers fit 64 bits; C30_nul_name_ambiguous shows the NUL-free hypothesis is needed."
  },
  {
   "property": "C31",
   "status": "partial",
   "theorems": [
    "OnnxTool.Props.C31_roundtrip",
    "OnnxTool.Props.C31_returns",
    "OnnxTool.Props.C31_injective",
    "OnnxTool.Props.C31_other_attr_lost",
    "OnnxTool.Props.C31_empty_attr_raises",
    "OnnxTool.Props.C31_int64_attr_raises",
    "OnnxTool.Props.C31_scalar_list_alike"
   ],
   "note": "Proved for graphs with NUL-free names, attributes that are non-empty homogeneous lists (or single values) of int/float/str/bytes, 32-bit ints and the six supported dtypes, up to identification of a single value with a list of one and a string with its UTF-8 bytes. Not claimed because false: tensor-valued attributes are dropped (C31_other_attr_lost), empty lists raise, 64-bit ints raise. A float attribute is modelled by its 32-bit pattern."
  },
  {
   "property": "C32",
   "status": "partial",
   "theorems": [
    "OnnxTool.Props.C32_dtype_roundtrip",
    "OnnxTool.Props.C32_code_roundtrip",
    "OnnxTool.Props.C32_roundtrip_partial",
    "OnnxTool.Props.C32_scalar_small_int_lost",
    "OnnxTool.Props.C32_roundtrip_iff",
    "OnnxTool.Props.C32_typed_small_int_read_as_zero",
    "OnnxTool.Props.C32_unknown_type_read_as_float64",
    "OnnxTool.Props.C32_typed_values_in_range"
   ],
   "note": "Exact characterisation (C32_roundtrip_iff): every array of rank >= 1, every float, int32 and int64 scalar; scalars of small integer types and bool come back as 0, typed small-int protos are read as zeros, unsupported types as float64 (findings)."
  },
  {
   "property": "C33",
   "status": "partial",
   "theorems": [
    "OnnxTool.Props.C33_sym_roundtrip",
    "OnnxTool.Props.C33_sym_even",
    "OnnxTool.Props.C33_packed_bytes",
    "OnnxTool.Props.C33_asym_codes_collide",
    "OnnxTool.Props.C33_odd_row_loses_last"
   ],
   "note": "Lossless packing is proved for symmetric codes in rows of even length; false for asymmetric codes (8..15 collide with 0..7) and the last code of an odd row is dropped: both proved as findings."
  },
  {
   "property": "C34",
   "status": "partial",
   "theorems": [
    "OnnxTool.Props.C34_symmetric",
    "OnnxTool.Props.C34_asymmetric",
    "OnnxTool.Props.C34_asym_code_overflow",
    "OnnxTool.Props.C34_wide_saturates",
    "OnnxTool.Props.C34_quantize",
    "OnnxTool.Props.C34_zero_row_raises",
    "OnnxTool.Props.C34_every_element_has_params"
   ],
   "note": "Half-step error, own-group parameters and code range proved for every matrix, grouping and width 2..8 (sym) / 1..8 (asym) with no all-zero group, over exact rationals. 'Codes stay within the bit range' is false for asymmetric codes by one (C34_asym_code_overflow), widths above 8 saturate (C34_wide_saturates) and an all-zero row raises ValueError (C34_zero_row_raises)."
  },
  {
   "property": "C35",
   "status": "partial",
   "theorems": [
    "OnnxTool.Props.C35_totals_are_sums",
    "OnnxTool.Props.C35_order_irrelevant",
    "OnnxTool.Props.C35_dedup",
    "OnnxTool.Props.C35_counted_once",
    "OnnxTool.Props.C35_covered",
    "OnnxTool.Props.C35_row_params",
    "OnnxTool.Props.C35_dedup_ignores_exclude",
    "OnnxTool.Props.C35_scalar_weight_uncounted",
    "OnnxTool.Props.C35_volume",
    "OnnxTool.Props.C35_row_memory"
   ],
   "note": "Totals, order independence, row contents and coverage proved for every exclude set; the Params/Dedup_Params/shared-size identity is proved for no exclude list and false with one (C35_dedup_ignores_exclude)."
  },
  {
   "property": "C36",
   "status": "proved",
   "theorems": [
    "OnnxTool.Props.C36_static",
    "OnnxTool.Props.C36_monotone",
    "OnnxTool.Props.C36_capped",
    "OnnxTool.Props.C36_macs_linear",
    "OnnxTool.Props.C36_macs_token"
   ],
   "note": ""
  },
  {
   "property": "C37",
   "status": "proved",
   "theorems": [
    "OnnxTool.Props.C37_get_last",
    "OnnxTool.Props.C37_get",
    "OnnxTool.Props.C37_index_membership",
    "OnnxTool.Props.C37_warns",
    "OnnxTool.Props.C37_others_unchanged",
    "OnnxTool.Props.C37_iterate",
    "OnnxTool.Props.C37_create_node",
    "OnnxTool.Props.C37_needs_suffix"
   ],
   "note": ""
  },
  {
   "property": "C38",
   "status": "partial",
   "theorems": [
    "OnnxTool.Props.C38_terminates",
    "OnnxTool.Props.C38_matches_genuine",
    "OnnxTool.Props.C38_entry_conditions",
    "OnnxTool.Props.C38_nodes_distinct",
    "OnnxTool.Props.C38_convbn_list",
    "OnnxTool.Props.C38_convbn_exact",
    "OnnxTool.Props.C38_conv1d_raises",
    "OnnxTool.Props.C38_inport_on_input_raises",
    "OnnxTool.Props.C38_placeholder",
    "OnnxTool.Props.C38_order_dependent",
    "OnnxTool.Props.C38_serial_operand_order",
    "OnnxTool.Props.C38_shipped_coherent",
    "OnnxTool.Props.C38_convRes_example",
    "OnnxTool.Props.C38_mhaint8_never",
    "OnnxTool.Props.C38_overlap"
   ],
   "note": "Proved for all graphs and patterns with distinct names: termination, every reported entry is a node meeting its position's conditions, distinct nodes, connected by the pattern's edges; exact characterisation for ConvBN. The 'every position is filled / every match is found' reading is false of the code: counterexamples C38_placeholder, C38_order_dependent, C38_serial_operand_order, C38_mhaint8_never, C38_overlap, C38_conv1d_raises, C38_inport_on_input_raises."
  },
  {
   "property": "C39",
   "status": "partial",
   "theorems": [
    "OnnxTool.Props.C39_fold_algebra",
    "OnnxTool.Props.C39_fusion_preserves_values_partial",
    "OnnxTool.Props.C39_bias_raises",
    "OnnxTool.Props.C39_other_reader_dangles",
    "OnnxTool.Props.C39_output_lost",
    "OnnxTool.Props.C39_shared_weight_scaled_twice",
    "OnnxTool.Props.C39_index_stale"
   ],
   "note": "Algebra proved for every field, geometry, input (C39_fold_algebra); graph-level value preservation for all foldable pairs (C39_fusion_preserves_values_partial). False without the conditions: bias -> KeyError, second reader dangles, graph output lost, shared weight scaled twice (counterexample theorems). Exact field instead of floats."
  },
  {
   "property": "C40",
   "status": "partial",
   "theorems": [
    "OnnxTool.Props.C40_remove_shape_ops_partial",
    "OnnxTool.Props.C40_skip_unread_partial",
    "OnnxTool.Props.C40_which_ops",
    "OnnxTool.Props.C40_other_reader_disconnected",
    "OnnxTool.Props.C40_two_dynamic_operands_disconnected",
    "OnnxTool.Props.C40_graph_input_disconnected",
    "OnnxTool.Props.C40_unread_on_input_raises"
   ],
   "note": "Proved for shape operators with one data operand whose output is read, and for an unread output whose operand has no other reader; false otherwise (C40_other_reader_disconnected, C40_two_dynamic_operands_disconnected, C40_graph_input_disconnected, C40_unread_on_input_raises)."
  },
  {
   "property": "C41",
   "status": "partial",
   "theorems": [
    "OnnxTool.Props.C41_returns_iff",
    "OnnxTool.Props.C41_single_node_raises"
   ],
   "note": "False as stated: C41_returns_iff characterises exactly when it returns; C41_single_node_raises is the counterexample (ZeroDivisionError)."
  },
  {
   "property": "C42",
   "status": "partial",
   "theorems": [
    "OnnxTool.Props.C42_gemm_partial",
    "OnnxTool.Props.C42_gemm_iff",
    "OnnxTool.Props.C42_rank_checked",
    "OnnxTool.Props.C42_wrong_batch"
   ],
   "note": "C42_gemm_iff: for operands whose batches broadcast, the inferred shape is right if and only if the broadcast batch is that of the first operand, or that of the second and the first has none or one of another size. False otherwise (C42_wrong_batch)."
  },
  {
   "property": "C43",
   "status": "partial",
   "theorems": [
    "OnnxTool.Props.C43_einsum",
    "OnnxTool.Props.C43_einsum_ellipsis_raises",
    "OnnxTool.Props.C43_gemm",
    "OnnxTool.Props.C43_matvec_undercounted",
    "OnnxTool.Props.C43_conv",
    "OnnxTool.Props.C43_convtranspose_overcounted",
    "OnnxTool.Props.C43_pool",
    "OnnxTool.Props.C43_pool3d_undercounted"
   ],
   "note": "Proved for Gemm, MatMul of rank >= 2, Conv, 1-d/2-d pooling and Einsum without ellipsis; false for MatMul by a vector, ConvTranspose, 3-d pooling (wrong counts) and Einsum with ellipsis (IndexError): proved as findings."
  },
  {
   "property": "C44",
   "status": "partial",
   "theorems": [
    "OnnxTool.Props.C44_sdpa",
    "OnnxTool.Props.C44_sdpa_cache",
    "OnnxTool.Props.C44_decode_vs_prefill",
    "OnnxTool.Props.C44_sdpa_layout_confused",
    "OnnxTool.Props.C44_mla_linear_in_batch",
    "OnnxTool.Props.C44_gdn_linear_in_batch",
    "OnnxTool.Props.C44_mla_kv_bounds",
    "OnnxTool.Props.C44_mla_overcounts_short"
   ],
   "note": "Proved for three-dimensional queries; for the 4-d query layout the head count is taken for the sequence length (C44_sdpa_layout_confused)."
  },
  {
   "property": "C45",
   "status": "partial",
   "theorems": [
    "OnnxTool.Props.C45_letters",
    "OnnxTool.Props.C45_ellipsis",
    "OnnxTool.Props.C45_implicit",
    "OnnxTool.Props.C45_parse",
    "OnnxTool.Props.C45_parse_implicit",
    "OnnxTool.Props.C45_two_arrows",
    "OnnxTool.Props.C45_equation_iff",
    "OnnxTool.Props.C45_equation_implicit",
    "OnnxTool.Props.C45_operand_count",
    "OnnxTool.Props.C45_prefix_letters_lost",
    "OnnxTool.Props.C45_summed_ellipsis_kept"
   ],
   "note": "Proved from the text of the equation (spaces, commas, arrow, implicit mode) to the shape, for every number of operands with leading ellipses and broadcasting letters; exactly right iff the result mentions the ellipsis or it stands for nothing (C45_equation_iff). False, with theorems: letters before an ellipsis are lost, a summed ellipsis is kept, missing operands are not noticed."
  },
  {
   "property": "C46",
   "status": "partial",
   "theorems": [
    "OnnxTool.Props.C46_every_read_sees_reference",
    "OnnxTool.Props.C46_forward_partial",
    "OnnxTool.Props.C46_contract_satisfiable",
    "OnnxTool.Props.C46_read_output_is_overwritten",
    "OnnxTool.Props.C46_wider_run_type_overlaps",
    "OnnxTool.Props.C46_scalar_output_raises",
    "OnnxTool.Props.C46_view_of_tensor"
   ],
   "note": "Proved for every plan of compress_memory: each operand read by each kernel equals the reference value, and forward returns the reference outputs for outputs live at the end. Missing (false of the code): outputs that are read by a later node may be overwritten (C46_read_output_is_overwritten), bool tensors are planned with 1 byte per element but viewed with the run type (C46_wider_run_type_overlaps), 0-dim intermediates raise (C46_scalar_output_raises). Kernels are arbitrary functions of the operand bytes (contract RunOk)."
  },
  {
   "property": "C47",
   "status": "proved",
   "theorems": [
    "OnnxTool.Props.C47_no_stale_state",
    "OnnxTool.Props.C47_outputs_are_reference",
    "OnnxTool.Props.C47_second_input_shape_ignored",
    "OnnxTool.Props.C47_weight_override_inconsistent",
    "OnnxTool.Props.C47_last_supplied_value"
   ],
   "note": "Proved for every model whose named dimensions are determined by the first input (Fits); C47_second_input_shape_ignored shows that with several differently-sized inputs only the first tensor's shape is used, C47_weight_override_inconsistent that tensors passed under a weight's name are treated inconsistently."
  },
  {
   "property": "C48",
   "status": "partial",
   "theorems": [
    "OnnxTool.Props.C48_new_shape_recovers",
    "OnnxTool.Props.C48_same_shape_failures_harmless",
    "OnnxTool.Props.C48_failed_copy_then_stale_shape",
    "OnnxTool.Props.C48_failed_kernel_then_index_error"
   ],
   "note": "False in general: C48_failed_copy_then_stale_shape (silently wrong output), C48_failed_kernel_then_index_error. Proved: after any history, failures included, a call with new dimensions behaves as fresh (C48_new_shape_recovers); failures of calls repeating the dimensions of a call that returned are harmless (C48_same_shape_failures_harmless)."
  },
  {
   "property": "C49",
   "status": "partial",
   "theorems": [
    "OnnxTool.Props.C49_cached_attention",
    "OnnxTool.Props.C49_plain_attention",
    "OnnxTool.Props.C49_no_lookahead",
    "OnnxTool.Props.C49_overflow_raises",
    "OnnxTool.Props.C49_four_dim_decode_raises",
    "OnnxTool.Props.C49_four_dim_scrambled"
   ],
   "note": "Proved for three-dimensional inputs (the layout the LLM builder emits) over exact field arithmetic with an arbitrary exponential, for every history of calls. For four-dimensional inputs with a cache the property is false: C49_four_dim_decode_raises, C49_four_dim_scrambled. The attribute attn_logit_softcapping is ignored by the kernel."
  },
  {
   "property": "C50",
   "status": "partial",
   "theorems": [
    "OnnxTool.Props.C50_relative_positions",
    "OnnxTool.Props.C50_preserves_length",
    "OnnxTool.Props.C50_tables",
    "OnnxTool.Props.C50_partial_rotary_rotates_all"
   ],
   "note": "Relative positions and length preservation proved in full (C50_tables gives the tables of cosines and sines the hypotheses). The clause about rotary_dim is false: C50_partial_rotary_rotates_all."
  },
  {
   "property": "C51",
   "status": "proved",
   "theorems": [
    "OnnxTool.Props.C51_separate_pools",
    "OnnxTool.Props.C51_live_disjoint",
    "OnnxTool.Props.C51_blocks",
    "OnnxTool.Props.C51_every_live_tensor_allocated",
    "OnnxTool.Props.C51_cache_block",
    "OnnxTool.Props.C51_returns_iff",
    "OnnxTool.Props.C51_duplicate_input_wastes"
   ],
   "note": "Both plans, their sizes and the exact condition for returning are proved. The empty name (absent optional input) must have no size. C51_duplicate_input_wastes is a finding outside the statement (an input listed twice)."
  },
  {
   "property": "C52",
   "status": "proved",
   "theorems": [
    "OnnxTool.Props.C52_session",
    "OnnxTool.Props.C52_contract_satisfiable"
   ],
   "note": "Refinement of the reference session for outputs no node reads (others: see C46). Kernels are any in-place memory transformers meeting the contract Updates (C52_contract_satisfiable shows it can be met for every function); which kernels of kernels.py meet it is not modelled except for the attention arithmetic (C49)."
  },
  {
   "property": "C53",
   "status": "partial",
   "theorems": [
    "OnnxTool.Props.C53_cached_generate_partial",
    "OnnxTool.Props.C53_plain_generate_partial",
    "OnnxTool.Props.C53_continuation_unique",
    "OnnxTool.Props.C53_cache_same_tokens",
    "OnnxTool.Props.C53_one_token_too_many",
    "OnnxTool.Props.C53_length_bound",
    "OnnxTool.Props.C53_long_prompt",
    "OnnxTool.Props.C53_empty_prompt_raises",
    "OnnxTool.Props.C53_contract_satisfiable"
   ],
   "note": "Everything but the length limit is proved (for engines meeting a contract, see C54 for decoder graphs). 'At most max_length tokens' is false: C53_one_token_too_many (max_length+1). Findings: prompt longer than max_length raises when verbose; empty prompt raises. The tokenizer is not modelled."
  },
  {
   "property": "C54",
   "status": "proved",
   "theorems": [
    "OnnxTool.Props.C54_causal",
    "OnnxTool.Props.C54_cached_engine",
    "OnnxTool.Props.C54_any_chunking",
    "OnnxTool.Props.C54_past_context",
    "OnnxTool.Props.C54_plain_engine",
    "OnnxTool.Props.C54_generate"
   ],
   "note": "C54_any_chunking, C54_causal, C54_past_context, C54_cached_engine, C54_plain_engine, C54_generate. Values are elements of a field (no rounding); the attention node is the 3-D path of SDPAKernel (the 4-D path is wrong, C49); position-wise operators are arbitrary functions."
  },
  {
   "property": "C55",
   "status": "proved",
   "theorems": [
    "OnnxTool.Props.C55_built_graph_is_valid",
    "OnnxTool.Props.C55_default_map_ok",
    "OnnxTool.Props.C55_llama_hypotheses",
    "OnnxTool.Props.C55_gpt2_hypotheses",
    "OnnxTool.Props.C55_hybrid_hypotheses",
    "OnnxTool.Props.C55_default_map_collides",
    "OnnxTool.Props.C55_position_twice",
    "OnnxTool.Props.C55_missing_position_name"
   ],
   "note": "Proved for all configurations and weight maps under explicit conditions; counterexamples show the conditions are needed: default WeightMap + post_attn_norm collides and makes a cycle, learned positions + rotary lists 'position' twice, default WeightMap has no 'pos' (KeyError). Vision encoder not modelled."
  },
  {
   "property": "C56",
   "status": "proved",
   "theorems": [
    "OnnxTool.Props.C56_parameter_count",
    "OnnxTool.Props.C56_llama7b",
    "OnnxTool.Props.C56_gpt2"
   ],
   "note": "Count of initializer elements; the linear-attention layer of the code has no output projection, convolution or gate weights, so its spec entry lists only what exists. Llama-2-7B instance gives 6738415616 + tables."
  },
  {
   "property": "C57",
   "status": "proved",
   "theorems": [
    "OnnxTool.Props.C57_cache_fits",
    "OnnxTool.Props.C57_cache_twice",
    "OnnxTool.Props.C57_kv_params",
    "OnnxTool.Props.C57_kv_params_hybrid"
   ],
   "note": "kv_params also counts layers without attention (C57_kv_params_hybrid); calling add_kv_cache twice breaks validity (C57_cache_twice)."
  },
  {
   "property": "C58",
   "status": "partial",
   "theorems": [
    "OnnxTool.Props.C58_flags_partial",
    "OnnxTool.Props.C58_other_entries",
    "OnnxTool.Props.C58_example",
    "OnnxTool.Props.C58_first",
    "OnnxTool.Props.C58_flags_leak",
    "OnnxTool.Props.C58_flags_leak_back"
   ],
   "note": "Holds when each key is set by the configuration itself or by no earlier one with the same entry; the unrestricted claim is false (C58_flags_leak, C58_flags_leak_back): arch_config aliases the module table."
  },
  {
   "property": "C59",
   "status": "proved",
   "theorems": [
    "OnnxTool.Props.C59_built_graph_computes_decoder",
    "OnnxTool.Props.C59_examples",
    "OnnxTool.Props.C59_two_layers",
    "OnnxTool.Props.C59_default_map_wrong"
   ],
   "note": "For all configurations satisfying C55's hypotheses; operators are uninterpreted (the meaning of SDPA, Rope, MoE, MLA and GDN nodes is not modelled here; C49/C50/C54 treat SDPA and Rope). C59_default_map_wrong shows the distinct-names hypothesis is needed."
  },
  {
   "property": "C60",
   "status": "partial",
   "theorems": [
    "OnnxTool.Props.C60_checkpoint_linear_partial",
    "OnnxTool.Props.C60_gemm_partial",
    "OnnxTool.Props.C60_other_constants_partial",
    "OnnxTool.Props.C60_not_loaded",
    "OnnxTool.Props.C60_embedded_matmul_transposed",
    "OnnxTool.Props.C60_embedded_matmul_wrong",
    "OnnxTool.Props.C60_dynamic_transB_wrong",
    "OnnxTool.Props.C60_tied_embedding_raises",
    "OnnxTool.Props.C60_checkpoint_example",
    "OnnxTool.Props.C60_gemm_example",
    "OnnxTool.Props.C60_gemm_bias_transposed"
   ],
   "note": "Proved for checkpoint projections first read by a MatMul, for Gemm weights first read by a Gemm with the same transB, and for all other constants first read by other operators (and all vectors). The rest of the property is false of the code, each case with a theorem: weights embedded in the ONNX file are transposed for MatMul (raises, or silently multiplies with the transpose when square), Gemm ignores transB when its second operand is computed, the first reader of a shared constant decides for all (tied embeddings raise), a matrix C of a transposing Gemm is transposed, data of Constant nodes without folding is never loaded."
  },
  {
   "property": "C61",
   "status": "partial",
   "theorems": [
    "OnnxTool.Props.C61_flatten",
    "OnnxTool.Props.C61_reshape",
    "OnnxTool.Props.C61_unsqueeze_partial",
    "OnnxTool.Props.C61_squeeze",
    "OnnxTool.Props.C61_relayout_never_wrong",
    "OnnxTool.Props.C61_transpose",
    "OnnxTool.Props.C61_transpose_default",
    "OnnxTool.Props.C61_gather_vector_partial",
    "OnnxTool.Props.C61_gather_embedding_partial",
    "OnnxTool.Props.C61_gather_batch_counterexample",
    "OnnxTool.Props.C61_gather_negative_counterexample",
    "OnnxTool.Props.C61_gather_scalar_counterexample",
    "OnnxTool.Props.C61_pad_exchanged",
    "OnnxTool.Props.C61_pad_partial",
    "OnnxTool.Props.C61_unsqueeze_counterexample",
    "OnnxTool.Props.C61_squeeze_input_counterexample",
    "OnnxTool.Props.C61_pad_counterexample"
   ],
   "note": "Flatten, Reshape, Squeeze (attribute), Transpose proved for all inputs; Unsqueeze for non-negative axes, Gather for vectors and 1x..x1xn ids with non-negative indices, Pad for symmetric pads. The code falsifies the rest: negative Unsqueeze axes raise, Squeeze axes given as input are ignored (raises), Gather with a batch, a scalar or a negative index raises, Pad exchanges begins and ends (C61_pad_exchanged). C61_relayout_never_wrong: the relayout kernels never write wrong data."
  },
  {
   "property": "C62",
   "status": "partial",
   "theorems": [
    "OnnxTool.Props.C62_slice_partial",
    "OnnxTool.Props.C62_slice_inferred_partial",
    "OnnxTool.Props.C62_slice_defaults",
    "OnnxTool.Props.C62_slice_step_counterexample",
    "OnnxTool.Props.C62_split",
    "OnnxTool.Props.C62_split_even",
    "OnnxTool.Props.C62_concat",
    "OnnxTool.Props.C62_split_concat",
    "OnnxTool.Props.C62_expand_partial",
    "OnnxTool.Props.C62_expand_counterexample",
    "OnnxTool.Props.C62_split_counterexample"
   ],
   "note": "Split (sizes and even), Concat and their composition proved for all inputs; Slice for positive steps (also composed with shape inference), Expand for one-sided broadcasting. The code falsifies the rest: negative Slice steps always raise, Expand to a smaller target raises, Split into more outputs than torch.chunk makes leaves outputs unwritten."
  },
  {
   "property": "C63",
   "status": "partial",
   "theorems": [
    "OnnxTool.Props.C63_conv_actual",
    "OnnxTool.Props.C63_conv_partial",
    "OnnxTool.Props.C63_maxpool_partial",
    "OnnxTool.Props.C63_avgpool_actual",
    "OnnxTool.Props.C63_avgpool_partial",
    "OnnxTool.Props.C63_conv_counterexample",
    "OnnxTool.Props.C63_avgpool_counterexample"
   ],
   "note": "Proved for four equal pads (Conv with all groups, strides, dilations; MaxPool; AveragePool for count_include_pad) and AveragePool without padding. The code falsifies the rest: the kernels read pads[0] and pads[2] as height and width padding (C63_conv_actual; silent wrong result in C63_conv_counterexample) and AveragePool counts padding (C63_avgpool_counterexample); auto_pad, ceil_mode and pooling dilations are ignored."
  },
  {
   "property": "C64",
   "status": "partial",
   "theorems": [
    "OnnxTool.Props.C64_rows",
    "OnnxTool.Props.C64_heads",
    "OnnxTool.Props.C64_ragged",
    "OnnxTool.Props.C64_batchnorm",
    "OnnxTool.Props.C64_scalar_scale_wrong",
    "OnnxTool.Props.C64_axis_ignored",
    "OnnxTool.Props.C64_rms_bias_ignored"
   ],
   "note": "Proved for every shape: whole rows, heads, refusal of a ragged weight, BatchNormalization. Where the code departs from ONNX: the axis attribute is not read (C64_axis_ignored), a scale of shape [1] is taken for heads of length one and annihilates the result (C64_scalar_scale_wrong), rms ignores a bias (C64_rms_bias_ignored)."
  },
  {
   "property": "C65",
   "status": "proved",
   "theorems": [
    "OnnxTool.Props.C65_report",
    "OnnxTool.Props.C65_no_device",
    "OnnxTool.Props.C65_memory_split",
    "OnnxTool.Props.C65_roofline",
    "OnnxTool.Props.C65_monotone",
    "OnnxTool.Props.C65_amdahl",
    "OnnxTool.Props.C65_order",
    "OnnxTool.Props.C65_fp32_required",
    "OnnxTool.Props.C65_bandwidth_required",
    "OnnxTool.Props.C65_zero_bandwidth",
    "OnnxTool.Props.C65_number_needs_link",
    "OnnxTool.Props.C65_built_decoder",
    "OnnxTool.Props.C65_default_configuration",
    "OnnxTool.Props.C65_latency_in_seconds"
   ],
   "note": "On exact rationals. Device errors (no FP32, no Bandwidth, bandwidth 0) and the unit (seconds although print_profile labels ms) are separate theorems."
  },
  {
   "property": "C66",
   "status": "proved",
   "theorems": [
    "OnnxTool.Props.C66_built_cost",
    "OnnxTool.Props.C66_cached_cost",
    "OnnxTool.Props.C66_llama7b",
    "OnnxTool.Props.C66_cost_per_past_token",
    "OnnxTool.Props.C66_prefill_and_decode",
    "OnnxTool.Props.C66_gdn_counted_twice"
   ],
   "note": "All sums for every standard configuration, with and without cache (C66_built_cost, C66_cached_cost), for the model of the profile methods; per-past-token cost, prefill against decoding. Layers with gated delta nets or latent attention are outside the statement; C66_gdn_counted_twice shows double counting there."
  },
  {
   "property": "C67",
   "status": "partial",
   "theorems": [
    "OnnxTool.Props.C67_vision_graph",
    "OnnxTool.Props.C67_example",
    "OnnxTool.Props.C67_zero_raises",
    "OnnxTool.Props.C67_whole_patches",
    "OnnxTool.Props.C67_patch_reshape",
    "OnnxTool.Props.C67_rows_are_patches_iff",
    "OnnxTool.Props.C67_first_patch_sees_itself"
   ],
   "note": "C67_vision_graph proves validity, shapes, parameter count, output and the computed function for all configurations with heads, patch > 0 (C67_zero_raises: otherwise ZeroDivisionError). The last sentence is false of the code: patch_reshape relays the feature planes without a transpose, so rows are patches only when there is one patch or one feature (C67_patch_reshape, C67_rows_are_patches_iff), and the attention kernel is always causal (C67_first_patch_sees_itself)."
  },
  {
   "property": "C68",
   "status": "partial",
   "theorems": [
    "OnnxTool.Props.C68_gather",
    "OnnxTool.Props.C68_gather_refused",
    "OnnxTool.Props.C68_slice_partial",
    "OnnxTool.Props.C68_slice_ignored",
    "OnnxTool.Props.C68_concat",
    "OnnxTool.Props.C68_split_partial",
    "OnnxTool.Props.C68_split_tail_counterexample",
    "OnnxTool.Props.C68_split_equal",
    "OnnxTool.Props.C68_split_uneven_partial",
    "OnnxTool.Props.C68_unsqueeze_partial",
    "OnnxTool.Props.C68_unsqueeze_elements",
    "OnnxTool.Props.C68_squeeze_partial",
    "OnnxTool.Props.C68_squeeze_elements",
    "OnnxTool.Props.C68_squeeze_unsqueeze",
    "OnnxTool.Props.C68_reshape_partial",
    "OnnxTool.Props.C68_reshape_elements",
    "OnnxTool.Props.C68_flatten_partial",
    "OnnxTool.Props.C68_flatten_default_partial",
    "OnnxTool.Props.C68_flatten_counterexample",
    "OnnxTool.Props.C68_transpose",
    "OnnxTool.Props.C68_transpose_default",
    "OnnxTool.Props.C68_tile",
    "OnnxTool.Props.C68_gather_elements_partial",
    "OnnxTool.Props.C68_gather_nd_partial",
    "OnnxTool.Props.C68_gather_nd_refused",
    "OnnxTool.Props.C68_scatter_nd_partial",
    "OnnxTool.Props.C68_pad_partial",
    "OnnxTool.Props.C68_pad_counterexample",
    "OnnxTool.Props.C68_trilu",
    "OnnxTool.Props.C68_compress",
    "OnnxTool.Props.C68_compress_flat",
    "OnnxTool.Props.C68_shape_partial",
    "OnnxTool.Props.C68_slice_negative_axis_counterexample",
    "OnnxTool.Props.C68_slice_no_axes_counterexample",
    "OnnxTool.Props.C68_split_zero_counterexample",
    "OnnxTool.Props.C68_unsqueeze_counterexample",
    "OnnxTool.Props.C68_squeeze_counterexample",
    "OnnxTool.Props.C68_reshape_allowzero_counterexample",
    "OnnxTool.Props.C68_flatten_negative_counterexample",
    "OnnxTool.Props.C68_gather_elements_counterexample",
    "OnnxTool.Props.C68_gather_nd_counterexample",
    "OnnxTool.Props.C68_scatter_nd_counterexample",
    "OnnxTool.Props.C68_shape_counterexample",
    "OnnxTool.Props.C68_unsqueeze_one",
    "OnnxTool.Props.C68_squeeze_one"
   ],
   "note": "Proved for every input where the code follows ONNX; counterexample theorems show where it does not: Slice with negative axes / axes above 4 / without axes, Split with zero tails, Unsqueeze and Squeeze with negative or unsorted axes, Flatten with negative axis, Pad without mode attribute, GatherElements on non-integers, batch_dims, reduction, allowzero and start/end attributes ignored."
  },
  {
   "property": "C69",
   "status": "partial",
   "theorems": [
    "OnnxTool.Props.C69_arithmetic",
    "OnnxTool.Props.C69_compare",
    "OnnxTool.Props.C69_logic",
    "OnnxTool.Props.C69_incompatible",
    "OnnxTool.Props.C69_div_floors",
    "OnnxTool.Props.C69_div_agrees_iff",
    "OnnxTool.Props.C69_div_partial",
    "OnnxTool.Props.C69_div_float",
    "OnnxTool.Props.C69_mod_partial",
    "OnnxTool.Props.C69_pow_partial",
    "OnnxTool.Props.C69_max",
    "OnnxTool.Props.C69_sum",
    "OnnxTool.Props.C69_several_incompatible",
    "OnnxTool.Props.C69_min_partial",
    "OnnxTool.Props.C69_min_counterexample",
    "OnnxTool.Props.C69_min_is_not",
    "OnnxTool.Props.C69_where",
    "OnnxTool.Props.C69_expand",
    "OnnxTool.Props.C69_unary",
    "OnnxTool.Props.C69_clip_partial",
    "OnnxTool.Props.C69_clip_counterexample",
    "OnnxTool.Props.C69_hard_partial",
    "OnnxTool.Props.C69_hard_counterexample",
    "OnnxTool.Props.C69_leaky_partial",
    "OnnxTool.Props.C69_leaky_counterexample",
    "OnnxTool.Props.C69_range",
    "OnnxTool.Props.C69_div_counterexample",
    "OnnxTool.Props.C69_div_int32_counterexample",
    "OnnxTool.Props.C69_mod_counterexample",
    "OnnxTool.Props.C69_min_five_seven_counterexample",
    "OnnxTool.Props.C69_hard_shape_counterexample"
   ],
   "note": "Proved for every operand where the code follows ONNX (exact arithmetic). Counterexample theorems show where it does not: Min of two or more inputs (Python's not), Div of negative int64 and of int32, Mod with fmod, Pow with negative exponents, Clip with fewer than three inputs, HardSigmoid, HardSwish and LeakyRelu on more than one element."
  },
  {
   "property": "C70",
   "status": "partial",
   "theorems": [
    "OnnxTool.Props.C70_sum_prod_mean",
    "OnnxTool.Props.C70_max_min",
    "OnnxTool.Props.C70_l2",
    "OnnxTool.Props.C70_sum_input_partial",
    "OnnxTool.Props.C70_bad_axes",
    "OnnxTool.Props.C70_input_counterexample",
    "OnnxTool.Props.C70_empty_axes_counterexample",
    "OnnxTool.Props.C70_cumsum_partial",
    "OnnxTool.Props.C70_cumsum_refused",
    "OnnxTool.Props.C70_nonzero_partial",
    "OnnxTool.Props.C70_nonzero_counterexample",
    "OnnxTool.Props.C70_constant_partial",
    "OnnxTool.Props.C70_constant_counterexample",
    "OnnxTool.Props.C70_onehot_partial",
    "OnnxTool.Props.C70_onehot_values_counterexample",
    "OnnxTool.Props.C70_onehot_wrong",
    "OnnxTool.Props.C70_argmax_partial",
    "OnnxTool.Props.C70_onehot_range_counterexample"
   ],
   "note": "Proved for every operand, axis list and keepdims where the code follows ONNX. Counterexample theorems show where it does not: axes as second input (TypeError except ReduceSum), ReduceSum with an empty axes input, NonZero of an all-zero tensor, ConstantOfShape without value, OneHot ignoring values and wrapping indices out of range; CumSum exclusive/reverse are refused; ArgMax select_last_index is not read."
  },
  {
   "property": "C71",
   "status": "partial",
   "theorems": [
    "OnnxTool.Props.C71_matmul",
    "OnnxTool.Props.C71_matmul_row",
    "OnnxTool.Props.C71_matmul_refused",
    "OnnxTool.Props.C71_matmul_vector_counterexample",
    "OnnxTool.Props.C71_gemm_partial",
    "OnnxTool.Props.C71_gemm_counterexample",
    "OnnxTool.Props.C71_matmul_integer_partial",
    "OnnxTool.Props.C71_conv_partial",
    "OnnxTool.Props.C71_conv_rerun_counterexample",
    "OnnxTool.Props.C71_conv_groups_refused",
    "OnnxTool.Props.C71_global_average_partial",
    "OnnxTool.Props.C71_global_average_counterexample",
    "OnnxTool.Props.C71_batchnorm",
    "OnnxTool.Props.C71_softmax_partial",
    "OnnxTool.Props.C71_softmax_counterexample",
    "OnnxTool.Props.C71_maxpool_partial",
    "OnnxTool.Props.C71_maxpool_negative_counterexample",
    "OnnxTool.Props.C71_maxpool_rank",
    "OnnxTool.Props.C71_maxpool_rerun_counterexample",
    "OnnxTool.Props.C71_matmul_integer_counterexample",
    "OnnxTool.Props.C71_conv_same_counterexample",
    "OnnxTool.Props.C71_maxpool_dilation_counterexample"
   ],
   "note": "Proved for MatMul (operands with two or more axes, or a vector on the left), Gemm with alpha = beta = 1, MatMulInteger without zero points, Conv with one group and explicit pads evaluated once (or with bias), MaxPool of non-negative numbers evaluated once without dilations, BatchNormalization, Softmax with the axis attribute. The full property is false of the code: counterexample theorems show MatMul by a vector raises, alpha is ignored, MatMulInteger adds the zero point, Conv without bias accumulates over runs, auto_pad SAME is misplaced, GlobalAveragePool drops the spatial axes, MaxPool starts from 0 or the old value and ignores dilations, Softmax without axis raises."
  },
  {
   "property": "C72",
   "status": "partial",
   "theorems": [
    "OnnxTool.Props.C72_arithmetic",
    "OnnxTool.Props.C72_division",
    "OnnxTool.Props.C72_comparison",
    "OnnxTool.Props.C72_max",
    "OnnxTool.Props.C72_sum_partial",
    "OnnxTool.Props.C72_sum_counterexample",
    "OnnxTool.Props.C72_where",
    "OnnxTool.Props.C72_min_counterexample",
    "OnnxTool.Props.C72_unary",
    "OnnxTool.Props.C72_clip",
    "OnnxTool.Props.C72_hardsigmoid_counterexample",
    "OnnxTool.Props.C72_expand_partial",
    "OnnxTool.Props.C72_expand_counterexample",
    "OnnxTool.Props.C72_transpose",
    "OnnxTool.Props.C72_gather",
    "OnnxTool.Props.C72_concat",
    "OnnxTool.Props.C72_split_partial",
    "OnnxTool.Props.C72_split_counterexample",
    "OnnxTool.Props.C72_slice_partial",
    "OnnxTool.Props.C72_slice_counterexample",
    "OnnxTool.Props.C72_squeeze_partial",
    "OnnxTool.Props.C72_squeeze_counterexample",
    "OnnxTool.Props.C72_unsqueeze_partial",
    "OnnxTool.Props.C72_unsqueeze_counterexample",
    "OnnxTool.Props.C72_gather_nd_defined",
    "OnnxTool.Props.C72_gather_scatter",
    "OnnxTool.Props.C72_pad",
    "OnnxTool.Props.C72_reshape_partial",
    "OnnxTool.Props.C72_onehot",
    "OnnxTool.Props.C72_constant_of_shape",
    "OnnxTool.Props.C72_reduce_partial",
    "OnnxTool.Props.C72_reduce_counterexample",
    "OnnxTool.Props.C72_cumsum_partial",
    "OnnxTool.Props.C72_matmul_partial",
    "OnnxTool.Props.C72_matmul_counterexample",
    "OnnxTool.Props.C72_gemm_partial",
    "OnnxTool.Props.C72_gemm_counterexample",
    "OnnxTool.Props.C72_conv",
    "OnnxTool.Props.C72_global_average_counterexample",
    "OnnxTool.Props.C72_global_average_partial",
    "OnnxTool.Props.C72_normalisation",
    "OnnxTool.Props.C72_zeros_flatten",
    "OnnxTool.Props.C72_zeros_comparison",
    "OnnxTool.Props.C72_zeros_argmax",
    "OnnxTool.Props.C72_zeros_shape",
    "OnnxTool.Props.C72_zeros_nonzero_counterexample",
    "OnnxTool.Props.C72_zeros_counterexample"
   ],
   "note": "Proved for every operand: Add, Sub, Mul, Div, Mod, Pow, comparisons, logical operators, Max, Where, unary operators, Clip (scalar bounds), Transpose, Gather, Concat, GatherND, GatherElements, ScatterND, Trilu, Pad, OneHot, ConstantOfShape, Conv, MaxPool, BatchNormalization, Softmax, Flatten, ArgMax, ReduceL2, Equal, Greater, GreaterOrEqual, Shape. Partial with stated hypotheses: Sum, Expand, Split, Slice, Squeeze, Unsqueeze, Reshape, Reduce*, CumSum, MatMul, Gemm. Falsified by *_counterexample theorems: Min and HardSigmoid of one element, Sum, Expand with zero sizes, Split with empty last part, Slice with negative axes, Squeeze/Unsqueeze with unsorted axes, Reduce* without axes, MatMul broadcast on both sides, Gemm with a widening bias, GlobalAveragePool (every operand), NonZero (every mixed operand), Range/Tile/Compress with unknown values."
  },
  {
   "property": "C73",
   "status": "proved",
   "theorems": [
    "OnnxTool.Props.C73_load_returns",
    "OnnxTool.Props.C73_load_plain",
    "OnnxTool.Props.C73_load_folded",
    "OnnxTool.Props.C73_same_values",
    "OnnxTool.Props.C73_rename_distinct",
    "OnnxTool.Props.C73_node_count",
    "OnnxTool.Props.C73_duplicate_names_lose_nodes",
    "OnnxTool.Props.C73_generated_name_collides",
    "OnnxTool.Props.C73_absent_operand_is_input",
    "OnnxTool.Props.C73_input_order"
   ],
   "note": "For valid files with distinct node names. Findings: repeated names (also a generated name equal to a given one) silently lose nodes (C73_node_count, C73_duplicate_names_lose_nodes, C73_generated_name_collides); an absent operand becomes the graph input '' without folding; inputs are ordered by first use and unread ones are dropped."
  },
  {
   "property": "C74",
   "status": "proved",
   "theorems": [
    "OnnxTool.Props.C74_save_same_values",
    "OnnxTool.Props.C74_saved_file",
    "OnnxTool.Props.C74_saved_file_folded",
    "OnnxTool.Props.C74_saved_valid",
    "OnnxTool.Props.C74_save_again_plain",
    "OnnxTool.Props.C74_second_save_stable",
    "OnnxTool.Props.C74_save_again_folded",
    "OnnxTool.Props.C74_shape_only",
    "OnnxTool.Props.C74_rename_folded_unstable"
   ],
   "note": "Findings in the exact characterisation: initializers read by no node are written as graph inputs, outputs read or produced by no node (pass-through, or constant with folding) are not written; with folding and node_rename names change on every save (C74_rename_folded_unstable)."
  },
  {
   "property": "C76",
   "status": "partial",
   "theorems": [
    "OnnxTool.Props.C76_regress_partial",
    "OnnxTool.Props.C76_affine_told",
    "OnnxTool.Props.C76_affine_fitted",
    "OnnxTool.Props.C76_affine_partial",
    "OnnxTool.Props.C76_ceil_partial",
    "OnnxTool.Props.C76_slopes_counterexample",
    "OnnxTool.Props.C76_product_counterexample",
    "OnnxTool.Props.C76_hump_counterexample",
    "OnnxTool.Props.C76_numeric_name_counterexample",
    "OnnxTool.Props.C76_unproduced_counterexample"
   ],
   "note": "False in general (C76_slopes_counterexample, C76_product_counterexample, C76_hump_counterexample, C76_numeric_name_counterexample, C76_unproduced_counterexample). C76_regress_partial: exact for every network whose dimensions are functions of one variable told apart and fitted by the three samples; C76_affine_partial and C76_ceil_partial instantiate it for affine dimensions with slopes dividing one another and for chains of rounded-up strides. The shape inference itself is a parameter."
  },
  {
   "property": "C75",
   "status": "partial",
   "theorems": [
    "OnnxTool.Props.C75_valid_shape",
    "OnnxTool.Props.C75_unusable_inputs",
    "OnnxTool.Props.C75_get_numpy",
    "OnnxTool.Props.C75_made_up_zeros_invisible",
    "OnnxTool.Props.C75_solution",
    "OnnxTool.Props.C75_finds_the_solution",
    "OnnxTool.Props.C75_state_independent",
    "OnnxTool.Props.C75_history",
    "OnnxTool.Props.C75_idempotent",
    "OnnxTool.Props.C75_node_order",
    "OnnxTool.Props.C75_value_infer",
    "OnnxTool.Props.C75_wellFormed_example",
    "OnnxTool.Props.C75_reduce_without_axes_keeps_the_old_shape",
    "OnnxTool.Props.C75_unsorted_uses_old_shapes",
    "OnnxTool.Props.C75_data_dependent_shape"
   ],
   "note": "Proved for every graph whose nodes set all their outputs and read only the documented operands. Without that condition the claim is false of the code: ReduceMean without axes sets nothing and keeps the old shape (C75_reduce_without_axes_keeps_the_old_shape), data-dependent shapes use made-up zeros or values of earlier runs (C75_data_dependent_shape), unsorted nodes use old shapes (C75_unsorted_uses_old_shapes)."
  },
  {
   "property": "C77",
   "status": "partial",
   "theorems": [
    "OnnxTool.Props.C77_fused_node_partial",
    "OnnxTool.Props.C77_index_exact_iff",
    "OnnxTool.Props.C77_order_lost",
    "OnnxTool.Props.C77_attributes",
    "OnnxTool.Props.C77_no_postops",
    "OnnxTool.Props.C77_weights_lost",
    "OnnxTool.Props.C77_graph_output_lost"
   ],
   "note": "The full claim is false of the code: tensors that only the fused node reads (weights) drop out of the consumer index (C77_index_exact_iff characterises exactly when, C77_weights_lost), graph outputs produced by the set are lost (C77_graph_output_lost), and the fused node is appended last so the order is lost whenever anyone reads it (C77_order_lost). Proved: node set, interface, producer index, attributes for every history."
  },
  {
   "property": "C78",
   "status": "proved",
   "theorems": [
    "OnnxTool.Props.C78_removes_exactly_subtree",
    "OnnxTool.Props.C78_unknown_name",
    "OnnxTool.Props.C78_cycle_raises",
    "OnnxTool.Props.C78_exponential"
   ],
   "note": "Acyclic graphs within the recursion limit; cycles raise RecursionError (C78_cycle_raises). Finding: the search keeps no visited set and makes exponentially many calls (C78_exponential)."
  },
  {
   "property": "C79",
   "status": "partial",
   "theorems": [
    "OnnxTool.Props.C79_values",
    "OnnxTool.Props.C79_no_if_left",
    "OnnxTool.Props.C79_inlined_partial",
    "OnnxTool.Props.C79_closed_partial",
    "OnnxTool.Props.C79_unnamed_raises",
    "OnnxTool.Props.C79_other_output_lost",
    "OnnxTool.Props.C79_graph_output_lost",
    "OnnxTool.Props.C79_chained_ifs_raise",
    "OnnxTool.Props.C79_captured_elsewhere_lost",
    "OnnxTool.Props.C79_branch_initializer_lost",
    "OnnxTool.Props.C79_result_read_inside_lost",
    "OnnxTool.Props.C79_pass_through_lost"
   ],
   "note": "Values and absence of If are proved without side conditions (for calls that return). Which nodes remain and closedness are proved under Usual (one If, single-output condition chain, outputs of the chain not graph outputs, result of the branch computed in the branch and not read elsewhere). The full claim is false of the code; each dropped condition has a counterexample theorem: unnamed branch nodes raise KeyError, a second output of a condition node or a graph output computed on the way to the condition is lost, chained Ifs raise, a tensor captured by a second If is lost, branch initializers are lost, a result that is also read inside the branch or passed through from outside is lost."
  },
  {
   "property": "C80",
   "status": "partial",
   "theorems": [
    "OnnxTool.Props.C80_nodes",
    "OnnxTool.Props.C80_values",
    "OnnxTool.Props.C80_closed_partial",
    "OnnxTool.Props.C80_returns_iff",
    "OnnxTool.Props.C80_initializer_raises",
    "OnnxTool.Props.C80_twice_raises",
    "OnnxTool.Props.C80_other_output_lost",
    "OnnxTool.Props.C80_topk_feeding_k_raises"
   ],
   "note": "Nodes and values are proved for every call that returns, and the calls that return are characterised (acyclic graphs in which no TopK serves only the K of another). Closedness is proved when the dropped nodes have one output each, not a graph output. The full claim is false of the code: a K that is an initializer or graph input read once raises KeyError, a second call (update_graph) raises, a dropped node's other outputs and graph outputs are lost, a TopK feeding the K of a later one raises."
  },
  {
   "property": "C81",
   "status": "partial",
   "theorems": [
    "OnnxTool.Props.C81_topk",
    "OnnxTool.Props.C81_topk_default",
    "OnnxTool.Props.C81_resize_scales",
    "OnnxTool.Props.C81_resize_sizes_partial",
    "OnnxTool.Props.C81_resize_two_sizes_wrong",
    "OnnxTool.Props.C81_upsample_attribute_raises",
    "OnnxTool.Props.C81_resize_axes_dropped",
    "OnnxTool.Props.C81_depthToSpace",
    "OnnxTool.Props.C81_gridSample",
    "OnnxTool.Props.C81_gridSample_kinds_raise",
    "OnnxTool.Props.C81_roiAlign",
    "OnnxTool.Props.C81_arrayFeature_rows_lost",
    "OnnxTool.Props.C81_nms_iff",
    "OnnxTool.Props.C81_nms_one",
    "OnnxTool.Props.C81_nms_classes_wrong",
    "OnnxTool.Props.C81_recurrent",
    "OnnxTool.Props.C81_layout_ignored",
    "OnnxTool.Props.C81_gru_one_output_raises",
    "OnnxTool.Props.C81_lstm_macs",
    "OnnxTool.Props.C81_gru_macs",
    "OnnxTool.Props.C81_bidirectional_undercounted",
    "OnnxTool.Props.C81_profile_defaults_raise",
    "OnnxTool.Props.C81_resize_macs"
   ],
   "note": "The full claim is false of the code: TopK without axis raises unless the tensor is one-dimensional (and then pins axis 0), Resize of a matrix by sizes adds the sizes to the dimensions, Upsample with attribute scales raises, Resize with axes drops dimensions, GridSample raises when one shape is a list and the other a tuple, RoiAlign has no defaults, ArrayFeatureExtractor loses the rows, NonMaxSuppression reads the per-class bound as the total (exact iff proved), LSTM and GRU ignore layout=1, GRU with one output raises, profiling without bias or mode raises, bidirectional layers are undercounted. Proved: the prescribed shapes and costs on the remaining cases, and each of these findings for all shapes."
  },
  {
   "property": "C82",
   "status": "partial",
   "theorems": [
    "OnnxTool.Props.C82_quantize_weights",
    "OnnxTool.Props.C82_packed_partial",
    "OnnxTool.Props.C82_packed_asym_lost",
    "OnnxTool.Props.C82_others_untouched",
    "OnnxTool.Props.C82_again",
    "OnnxTool.Props.C82_loop_skips",
    "OnnxTool.Props.C82_every_second",
    "OnnxTool.Props.C82_loop_over_copy",
    "OnnxTool.Props.C82_shared_raises",
    "OnnxTool.Props.C82_unread_raises",
    "OnnxTool.Props.C82_zero_channel_raises",
    "OnnxTool.Props.C82_index_is_text",
    "OnnxTool.Props.C82_reader_marked"
   ],
   "note": "Proved for a weight read once by one node: initializers, rewiring, error bound of the stored codes (8-bit rounding of the codes included, scales in half precision through an arbitrary rounding function), everything else untouched, repeated calls harmless. The full claim is false of the code and refuted by theorem: a weight read more than once raises AttributeError half-way (C82_shared_raises), an unread one KeyError, a zero channel ValueError; the documented 'for key in g.initials' loop skips the initializer after each quantized one (C82_loop_skips, C82_every_second) while a loop over a copy handles all (C82_loop_over_copy); asymmetric 4-bit codes lose their top bit (C82_packed_asym_lost); the consumer index of the new tensors holds text (C82_index_is_text)."
  },
  {
   "property": "C83",
   "status": "partial",
   "theorems": [
    "OnnxTool.Props.C83_ratio",
    "OnnxTool.Props.C83_ratio_other",
    "OnnxTool.Props.C83_largest_exist",
    "OnnxTool.Props.C83_matrix",
    "OnnxTool.Props.C83_matrix_truthful_partial",
    "OnnxTool.Props.C83_matrix_overstated",
    "OnnxTool.Props.C83_conv",
    "OnnxTool.Props.C83_conv_truthful_partial",
    "OnnxTool.Props.C83_conv_wrong_axis",
    "OnnxTool.Props.C83_conv_wrong_axis",
    "OnnxTool.Props.C83_thresholds",
    "OnnxTool.Props.C83_other_ranks"
   ],
   "note": "The report is characterised completely for every array (C83_matrix, C83_conv), and exactly when it is true (C83_matrix_truthful_partial, C83_conv_truthful_partial, both iff). The full claim is false of the code and refuted: a matrix with zero blocks of s x 1 and 1 x s but not of squares is reported as having zero squares (C83_matrix_overstated); a convolution weight pruned along one axis only is reported with blocks along the other axis, which need not even tile it (C83_conv_wrong_axis, C83_conv_wrong_axis')."
  },
  {
   "property": "C84",
   "status": "partial",
   "theorems": [
    "OnnxTool.Props.C84_csv_iff_partial",
    "OnnxTool.Props.C84_report",
    "OnnxTool.Props.C84_totals_exact",
    "OnnxTool.Props.C84_shares",
    "OnnxTool.Props.C84_totals_close",
    "OnnxTool.Props.C84_totals_nearest",
    "OnnxTool.Props.C84_total_differs",
    "OnnxTool.Props.C84_comma_shifts"
   ],
   "note": "C84_csv_iff_partial: reading back works exactly if no cell contains a comma or a line break; C84_report: then every row and the totals are stated as claimed. The full claim is false of the code: nothing is quoted (C84_comma_shifts), and totals above 2^53 are rounded (C84_total_differs; exact below: C84_totals_exact; error bound: C84_totals_close)."
  },
  {
   "property": "C85",
   "status": "partial",
   "theorems": [
    "OnnxTool.Props.C85_default_grows_partial",
    "OnnxTool.Props.C85_leaks",
    "OnnxTool.Props.C85_pure_calls",
    "OnnxTool.Props.C85_own_set",
    "OnnxTool.Props.C85_default_set",
    "OnnxTool.Props.C85_errors"
   ],
   "note": "The default set of hidden operators after any history is characterised exactly (C85_default_grows_partial). The full claim is false of the code: exclude_ops is added to the module's own default set, so later calls without arguments hide these operators too (C85_leaks); calls with a set of the caller's own do not leak but change that set (C85_own_set); lists raise AttributeError (C85_errors)."
  },
  {
   "property": "C86",
   "status": "partial",
   "theorems": [
    "OnnxTool.Props.C86_export_partial",
    "OnnxTool.Props.C86_selection",
    "OnnxTool.Props.C86_overwrites",
    "OnnxTool.Props.C86_absolute_path",
    "OnnxTool.Props.C86_missing_directory"
   ],
   "note": "Proved for names without backslashes that stay different when separators are replaced. The full claim is false of the code and refuted: colliding names overwrite each other (C86_overwrites), a name with a leading slash and a backslash is written to an absolute path outside the folder (C86_absolute_path), a name with both separators needs a directory that is not created and stops the export (C86_missing_directory)."
  },
  {
   "property": "C87",
   "status": "partial",
   "theorems": [
    "OnnxTool.Props.C87_set_shape_partial",
    "OnnxTool.Props.C87_all",
    "OnnxTool.Props.C87_io",
    "OnnxTool.Props.C87_rank",
    "OnnxTool.Props.C87_names_with_x"
   ],
   "note": "C87_set_shape_partial characterises (iff) the shapes that can be given; C87_io covers all inputs and outputs. The full claim is false of the code: dimension names containing the letter x are refused (C87_names_with_x) or cut in pieces (example)."
  },
  {
   "property": "C88",
   "status": "partial",
   "theorems": [
    "OnnxTool.Props.C88_descs",
    "OnnxTool.Props.C88_unknown_name",
    "OnnxTool.Props.C88_found",
    "OnnxTool.Props.C88_only",
    "OnnxTool.Props.C88_every_match",
    "OnnxTool.Props.C88_fuse_partial",
    "OnnxTool.Props.C88_overlap_raises",
    "OnnxTool.Props.C88_disconnected_raises",
    "OnnxTool.Props.C88_twin_taken",
    "OnnxTool.Props.C88_graph_input_raises",
    "OnnxTool.Props.C88_empty_raises"
   ],
   "note": "Proved for every graph: the pattern states exactly the operators and tensors of the region; a connected region without twins is found whenever the search returns; with an operator of its own at its first node the call fuses exactly the region. False in general: counterexamples for overlapping matches (KeyError), disconnected regions (placeholder 'a', KeyError), twins (another node is taken), candidates reading a graph input (KeyError), empty regions (IndexError). Attributes of fused nodes are not modelled."
  },
  {
   "property": "C89",
   "status": "partial",
   "theorems": [
    "OnnxTool.Props.C89_arithmetic",
    "OnnxTool.Props.C89_compare",
    "OnnxTool.Props.C89_where",
    "OnnxTool.Props.C89_incompatible",
    "OnnxTool.Props.C89_overrun",
    "OnnxTool.Props.C89_mod",
    "OnnxTool.Props.C89_unary",
    "OnnxTool.Props.C89_relu",
    "OnnxTool.Props.C89_clip",
    "OnnxTool.Props.C89_clip_attr_partial",
    "OnnxTool.Props.C89_clip_counterexample",
    "OnnxTool.Props.C89_clip_bound",
    "OnnxTool.Props.C89_softmax",
    "OnnxTool.Props.C89_softmax_axis",
    "OnnxTool.Props.C89_shape",
    "OnnxTool.Props.C89_cast",
    "OnnxTool.Props.C89_cast_codes",
    "OnnxTool.Props.C89_mean_sum",
    "OnnxTool.Props.C89_max",
    "OnnxTool.Props.C89_reduce_counterexample",
    "OnnxTool.Props.C89_reduce_empty",
    "OnnxTool.Props.C89_reduce_axes",
    "OnnxTool.Props.C89_reduce_repeated",
    "OnnxTool.Props.C89_globalmean_partial",
    "OnnxTool.Props.C89_globalmean_counterexample",
    "OnnxTool.Props.C89_globalmean_rank",
    "OnnxTool.Props.C89_tile",
    "OnnxTool.Props.C89_tile_front",
    "OnnxTool.Props.C89_gatherElements_partial",
    "OnnxTool.Props.C89_gatherElements_counterexample",
    "OnnxTool.Props.C89_mad",
    "OnnxTool.Props.C89_rangeGather",
    "OnnxTool.Props.C89_layernorm"
   ],
   "note": "Proved for all operands: binary kernels, Where, Mod, unary kernels, Clip with bounds as inputs, Softmax, Shape, Cast, ReduceMean/Sum/Max with axes, Tile, Mad, RangeGather, fused layer norm (eps fixed at 1e-5). Falsified: Clip without bounds cuts at 3.4e38 (C89_clip_counterexample); reductions without axes raise TypeError (C89_reduce_counterexample), with an empty list of axes the total is repeated over the operand's shape (C89_reduce_empty); GlobalAveragePool of three axes averages the channels too (C89_globalmean_counterexample), of five axes raises; GatherElements refuses negative indices; the slot's shape is not checked by kernels that use out= (C89_overrun). Exact arithmetic; exp, erf, tanh, \u2026 are parameters. Not modelled: TopK, Resize."
  },
  {
   "property": "C90",
   "status": "partial",
   "theorems": [
    "OnnxTool.Props.C90_elementwise",
    "OnnxTool.Props.C90_misjudged",
    "OnnxTool.Props.C90_charged",
    "OnnxTool.Props.C90_scalar_counterexample",
    "OnnxTool.Props.C90_sum",
    "OnnxTool.Props.C90_max_counterexample",
    "OnnxTool.Props.C90_reduce",
    "OnnxTool.Props.C90_reduce_l2",
    "OnnxTool.Props.C90_lrn",
    "OnnxTool.Props.C90_resample",
    "OnnxTool.Props.C90_global_average",
    "OnnxTool.Props.C90_layernorm",
    "OnnxTool.Props.C90_layernorm_counterexample",
    "OnnxTool.Props.C90_lstm",
    "OnnxTool.Props.C90_gru",
    "OnnxTool.Props.C90_bidirectional_counterexample",
    "OnnxTool.Props.C90_no_bias_raises",
    "OnnxTool.Props.C90_qlinear_matmul",
    "OnnxTool.Props.C90_qlinear_conv",
    "OnnxTool.Props.C90_qlinear_conv3d_counterexample",
    "OnnxTool.Props.C90_resize_raises",
    "OnnxTool.Props.C90_batch",
    "OnnxTool.Props.C90_batch_recurrent"
   ],
   "note": "Holds for the listed elementwise operators, Sum, reductions, global average pooling, one-axis LayerNormalization, one-directional LSTM/GRU with bias, QLinearMatMul, 1-D/2-D QLinearConv/ConvInteger; batch additivity for every operator. Refuted by the code (theorems): Sigmoid/Silu/LogitSoftCapping/BatchNormalization undercounted, Tanh doubled, scalars charged nothing, Max of n operands charged once, LayerNormalization over several axes, second direction of LSTM, 3-D quantised convolutions, Resize without mode and LSTM without bias raise. Not compared with a program: Softmax row sums, Abs/Ceil/Mod/Sign, Atan, Gelu, Rope, InstanceNormalization, LRN."
  },
  {
   "property": "C91",
   "status": "partial",
   "theorems": [
    "OnnxTool.Props.C91_export",
    "OnnxTool.Props.C91_closed",
    "OnnxTool.Props.C91_same_values",
    "OnnxTool.Props.C91_levels",
    "OnnxTool.Props.C91_pipeline",
    "OnnxTool.Props.C91_degenerate",
    "OnnxTool.Props.C91_save_is_export",
    "OnnxTool.Props.C91_unrelated_input",
    "OnnxTool.Props.C91_output_lost",
    "OnnxTool.Props.C91_repeated_name_dropped"
   ],
   "note": "Contents, validity, values and the three-level pipeline are proved. False parts, with counterexamples: every initializer of the whole model that the exported nodes do not read becomes an input of the export (C91_export, C91_unrelated_input); a model output read only inside the set is not an output (C91_output_lost); a repeated name silently drops its node (C91_repeated_name_dropped). get_subgraph and model_subgraph themselves raise TypeError after the export (Graph(...) without its second argument)."
  },
  {
   "property": "C92",
   "status": "partial",
   "theorems": [
    "OnnxTool.Props.C92_shape",
    "OnnxTool.Props.C92_values",
    "OnnxTool.Props.C92_well_formed",
    "OnnxTool.Props.C92_no_colon_name",
    "OnnxTool.Props.C92_other_type",
    "OnnxTool.Props.C92_short_form",
    "OnnxTool.Props.C92_scalar",
    "OnnxTool.Props.C92_last_wins",
    "OnnxTool.Props.C92_io",
    "OnnxTool.Props.C92_io_last_wins",
    "OnnxTool.Props.C92_io_long_form",
    "OnnxTool.Props.C92_io_sets_shape",
    "OnnxTool.Props.C92_exclude"
   ],
   "note": "Proved for names without a colon and the two documented types. False: names with a colon can never be given (C92_no_colon_name); any other type name silently gives float64 zeros (C92_other_type); the short form of the help text raises IndexError when profiling (C92_short_form), the long form sets 'f32' as the shape in io_modify mode (C92_io_long_form); scalars cannot be given (C92_scalar)."
  },
  {
   "property": "C93",
   "status": "proved",
   "theorems": [
    "OnnxTool.Props.C93_history",
    "OnnxTool.Props.C93_fill",
    "OnnxTool.Props.C93_fill_short",
    "OnnxTool.Props.C93_live_tensors",
    "OnnxTool.Props.C93_stale_view"
   ],
   "note": "Findings: surplus values of fill_tensor are dropped silently, a single value is broadcast to the whole tensor, and a view obtained before to() of another device silently writes nowhere (C93_stale_view)."
  },
  {
   "property": "C94",
   "status": "partial",
   "theorems": [
    "OnnxTool.Props.C94_outputs",
    "OnnxTool.Props.C94_calls",
    "OnnxTool.Props.C94_value_infer",
    "OnnxTool.Props.C94_dumped_array",
    "OnnxTool.Props.C94_saved",
    "OnnxTool.Props.C94_plan_unchanged",
    "OnnxTool.Props.C94_dump_all_raises",
    "OnnxTool.Props.C94_dump_overwritten"
   ],
   "note": "Everything but the last clause is proved for all graphs. The last clause is false of the code: the plan ignores outputs (C94_plan_unchanged), so a dumped tensor may be overwritten (C94_dump_overwritten), and dumping all intermediates makes compress_memory raise ZeroDivisionError for every graph (C94_dump_all_raises)."
  },
  {
   "property": "C95",
   "status": "partial",
   "theorems": [
    "OnnxTool.Props.C95_nearest",
    "OnnxTool.Props.C95_nearest_default_iff",
    "OnnxTool.Props.C95_linear",
    "OnnxTool.Props.C95_modes",
    "OnnxTool.Props.C95_cubic",
    "OnnxTool.Props.C95_scales",
    "OnnxTool.Props.C95_nothing_written",
    "OnnxTool.Props.C95_align_corners_ignored",
    "OnnxTool.Props.C95_ranks",
    "OnnxTool.Props.C95_shrink_counterexample",
    "OnnxTool.Props.C95_align_corners_counterexample",
    "OnnxTool.Props.C95_scale_counterexample",
    "OnnxTool.Props.C95_asymmetric_counterexample"
   ],
   "note": "Proved over exact rationals for nearest, linear and the choice of the mode, with sizes or whole-number scales, with an iff for the agreement of nearest with ONNX's default rounding; cubic is torch's own (a parameter). Findings: nearest ignores nearest_mode and coordinate_transformation_mode, align_corners of a file (bytes) is ignored, fractional scales are replaced by the ratio of the sizes, linear works only on four axes."
  },
  {
   "property": "C96",
   "status": "partial",
   "theorems": [
    "OnnxTool.Props.C96_topk",
    "OnnxTool.Props.C96_count",
    "OnnxTool.Props.C96_refuses",
    "OnnxTool.Props.C96_ties_counterexample",
    "OnnxTool.Props.C96_position_rounded"
   ],
   "note": "Proved for every torch.topk that does what its documentation says. Missing: with equal elements ONNX's lower position is not guaranteed (counterexample), positions are rounded when the pool is float16 (proved for any conversion), sorted=0 leaves the order unspecified."
  },
  {
   "property": "C97",
   "status": "partial",
   "theorems": [
    "OnnxTool.Props.C97_shape",
    "OnnxTool.Props.C97_dtype",
    "OnnxTool.Props.C97_read",
    "OnnxTool.Props.C97_data_kept_partial",
    "OnnxTool.Props.C97_data_lost",
    "OnnxTool.Props.C97_memsize_partial",
    "OnnxTool.Props.C97_memsize_no_data",
    "OnnxTool.Props.C97_scalar_has_no_size",
    "OnnxTool.Props.C97_symbolic_size",
    "OnnxTool.Props.C97_value_info",
    "OnnxTool.Props.C97_descriptions_agree",
    "OnnxTool.Props.C97_dtype_ignored",
    "OnnxTool.Props.C97_proto",
    "OnnxTool.Props.C97_create",
    "OnnxTool.Props.C97_create_tensor_says_float",
    "OnnxTool.Props.C97_get_scalar",
    "OnnxTool.Props.C97_get_scalar_refused",
    "OnnxTool.Props.C97_of_file"
   ],
   "note": "Shape and dtype are the last ones set; get_numpy succeeds exactly for known shapes, returns an array of the reported shape and is idempotent; data survives as long as it is not read under another shape (exact condition). False, with theorems: reading under another known shape replaces the data by zeros for good; scalars report 0 bytes; symbolic shapes give a text or TypeError as size; update_dtype does not reach data that is held; update_tensor keeps the old proto; create_tensor's proto always says float32."
  },
  {
   "property": "C98",
   "status": "partial",
   "theorems": [
    "OnnxTool.Props.C98_roundtrip_partial",
    "OnnxTool.Props.C98_save_iff",
    "OnnxTool.Props.C98_empty_list_refused",
    "OnnxTool.Props.C98_domain_lost",
    "OnnxTool.Props.C98_parameter_name_refused",
    "OnnxTool.Props.C98_fields",
    "OnnxTool.Props.C98_defaults",
    "OnnxTool.Props.C98_set_attr",
    "OnnxTool.Props.C98_text_becomes_bytes",
    "OnnxTool.Props.C98_fuse_copy",
    "OnnxTool.Props.C98_fuse_refused",
    "OnnxTool.Props.C98_fuse_forgets",
    "OnnxTool.Props.C98_fuse_names",
    "OnnxTool.Props.C98_domain_set",
    "OnnxTool.Props.C98_header"
   ],
   "note": "Operator, name, inputs, outputs and all attributes (type and value) survive, for distinct names that are not parameters of make_node and no empty lists; saving succeeds exactly without empty lists. False, with theorems: the domain (and documentation) of every node is lost; empty-list attributes make saving raise; attributes called name/op_type/inputs/outputs make saving raise; graph and string-list attributes read as None; texts come back as bytes; fusion refuses graph, string-list and empty-list attributes, turns tensors into lists and forgets set_attr; local functions and metadata are lost; Graph.save_model without rawmodel writes the newest operator set."
  },
  {
   "property": "C99",
   "status": "partial",
   "theorems": [
    "OnnxTool.Props.C99_valid",
    "OnnxTool.Props.C99_each_row_once",
    "OnnxTool.Props.C99_separated",
    "OnnxTool.Props.C99_at_most",
    "OnnxTool.Props.C99_nothing_lost",
    "OnnxTool.Props.C99_row_order",
    "OnnxTool.Props.C99_cut_sorted",
    "OnnxTool.Props.C99_greedy",
    "OnnxTool.Props.C99_greedy_unique",
    "OnnxTool.Props.C99_sort_irrelevant",
    "OnnxTool.Props.C99_again",
    "OnnxTool.Props.C99_no_suppression",
    "OnnxTool.Props.C99_iou_cells",
    "OnnxTool.Props.C99_iou_scale",
    "OnnxTool.Props.C99_iou_range",
    "OnnxTool.Props.C99_iou_zero",
    "OnnxTool.Props.C99_iou_one",
    "OnnxTool.Props.C99_first_image_only",
    "OnnxTool.Props.C99_odd_arrays",
    "OnnxTool.Props.C99_negative_limit",
    "OnnxTool.Props.C99_not_sorted",
    "OnnxTool.Props.C99_ties",
    "OnnxTool.Props.C99_tiny"
   ],
   "note": "Proved for every array and every sort by falling confidence: detections are valid candidates, each row once, separated within a class, nothing lost without a reason, at most max_det, greedy choice unique and independent of the sort for distinct confidences, idempotent; overlap = common cells over all cells. Refuted parts: only the first image of a stack is decoded, detections are sorted only when the limit cuts, equal confidences depend on the sort, boxes under 1e-7 are never suppressed, a negative limit drops boxes. Floats are exact rationals."
  },
  {
   "property": "C100",
   "status": "partial",
   "theorems": [
    "OnnxTool.Props.C100_predictions",
    "OnnxTool.Props.C100_matching_unique",
    "OnnxTool.Props.C100_class",
    "OnnxTool.Props.C100_recall",
    "OnnxTool.Props.C100_class_range",
    "OnnxTool.Props.C100_perfect",
    "OnnxTool.Props.C100_below_coco",
    "OnnxTool.Props.C100_no_match",
    "OnnxTool.Props.C100_mean",
    "OnnxTool.Props.C100_map_range",
    "OnnxTool.Props.C100_metrics",
    "OnnxTool.Props.C100_image_order",
    "OnnxTool.Props.C100_unseen_classes",
    "OnnxTool.Props.C100_large_ids",
    "OnnxTool.Props.C100_same_text",
    "OnnxTool.Props.C100_no_threshold"
   ],
   "note": "Proved: the value of a class is the 101-point average precision of the unique greedy matching, recall <= 1, values in [0, 100/101], mean over annotated classes, one entry per threshold, independence of image order for distinct scores. Refuted: an errorless detector gets 100/101 (searchsorted side='right'), categories not below num_classes are ignored, thresholds with the same two-decimal text collapse, no threshold gives NaN. Exact rationals."
  },
  {
   "property": "C101",
   "status": "partial",
   "theorems": [
    "OnnxTool.Props.C101_letterbox",
    "OnnxTool.Props.C101_loaded",
    "OnnxTool.Props.C101_loads",
    "OnnxTool.Props.C101_way_back",
    "OnnxTool.Props.C101_same_size",
    "OnnxTool.Props.C101_limit",
    "OnnxTool.Props.C101_coco",
    "OnnxTool.Props.C101_share",
    "OnnxTool.Props.C101_dir_ids",
    "OnnxTool.Props.C101_dir_foreign_ids",
    "OnnxTool.Props.C101_coordinates_mixed",
    "OnnxTool.Props.C101_class_ids_mixed",
    "OnnxTool.Props.C101_limit_counts_all",
    "OnnxTool.Props.C101_thresholds"
   ],
   "note": "Proved: the letterbox (scale maximal, sizes, borders, pixels), when loading fails, the exact way back, ids of the compared images, and a bound by the share of annotations in evaluated images. Refuted: metrics compare letterbox coordinates with original coordinates and class numbers with category ids (an errorless network gets 0), annotations of unevaluated images count as missed, evaluate_image_dir numbers files 0,1,2,... instead of using the annotated ids. Exact rationals; OpenCV branch only."
  },
  {
   "property": "C102",
   "status": "partial",
   "theorems": [
    "OnnxTool.Props.C102_output_type_partial",
    "OnnxTool.Props.C102_graph_types_partial",
    "OnnxTool.Props.C102_others_keep_type",
    "OnnxTool.Props.C102_all_registered",
    "OnnxTool.Props.C102_specified_registered",
    "OnnxTool.Props.C102_wrong_types",
    "OnnxTool.Props.C102_wrong_memory",
    "OnnxTool.Props.C102_round",
    "OnnxTool.Props.C102_quantized_convolution",
    "OnnxTool.Props.C102_legal_failures",
    "OnnxTool.Props.C102_scan",
    "OnnxTool.Props.C102_cast_needs_type"
   ],
   "note": "False of the code; exact condition proved (an output gets its ONNX type iff the node is Reliable for it), lifted to sorted graphs. Findings: Round reports bool; QLinearConv without bias reports the type of the scale (float32); MaxPool indices, BatchNormalization and LayerNormalization extra outputs, and reductions without axes are never typed; Cast to uint32/uint64/bfloat16 gives None (billed at 8 bytes); ReduceL2 of integers gives float64; QuantizeLinear without zero point, GRU with one output and Scan with fewer than five outputs always raise. Types of value_infer for shape-computing nodes are a premise."
  },
  {
   "property": "C103",
   "status": "partial",
   "theorems": [
    "OnnxTool.Props.C103_conv_partial",
    "OnnxTool.Props.C103_conv_counted",
    "OnnxTool.Props.C103_conv_empty",
    "OnnxTool.Props.C103_conv3d_counterexample",
    "OnnxTool.Props.C103_conv_cost",
    "OnnxTool.Props.C103_matmul_partial",
    "OnnxTool.Props.C103_matmul_agrees",
    "OnnxTool.Props.C103_matmul_counterexample",
    "OnnxTool.Props.C103_matmul_vector",
    "OnnxTool.Props.C103_matmul_scalar",
    "OnnxTool.Props.C103_matmul_integer"
   ],
   "note": "False of the code, exact conditions proved: a quantized convolution has Conv's shape iff auto_pad is not VALID and there are not three spatial axes (else it silently gets the empty shape and costs 0 MACs); QLinearMatMul has the right shape iff the batch of the result is that of the data, and is always wrong for a weight of rank one; MatMulInteger is charged a bias if it has exactly one zero point."
  },
  {
   "property": "C104",
   "status": "partial",
   "theorems": [
    "OnnxTool.Props.C104_free_dimensions",
    "OnnxTool.Props.C104_fixed_dimensions",
    "OnnxTool.Props.C104_n_past",
    "OnnxTool.Props.C104_only_understood",
    "OnnxTool.Props.C104_ranges_match",
    "OnnxTool.Props.C104_seq_bound",
    "OnnxTool.Props.C104_fallback",
    "OnnxTool.Props.C104_limit_ignored",
    "OnnxTool.Props.C104_input_left_out",
    "OnnxTool.Props.C104_bound_of_the_other",
    "OnnxTool.Props.C104_mixed"
   ],
   "note": "Proved: exact descriptions and ranges in the three outcomes, ranges and variables match, n_past, fallback. False of the code and refuted: that max_seq_len bounds the sequence (fixed shapes), that every fed input is described, that each input's own size bounds it (shared seq), that one free dimension leaves the others variable."
  },
  {
   "property": "C105",
   "status": "partial",
   "theorems": [
    "OnnxTool.Props.C105_reorder_returns",
    "OnnxTool.Props.C105_reorder_file",
    "OnnxTool.Props.C105_reorder_values",
    "OnnxTool.Props.C105_reorder_again",
    "OnnxTool.Props.C105_fold_returns",
    "OnnxTool.Props.C105_fold_file",
    "OnnxTool.Props.C105_fold_values",
    "OnnxTool.Props.C105_fold_again",
    "OnnxTool.Props.C105_reorder_twice_differs",
    "OnnxTool.Props.C105_constant_model_not_written",
    "OnnxTool.Props.C105_constant_output_dropped",
    "OnnxTool.Props.C105_reorder_drops"
   ],
   "note": "Proved: both tools return on every valid file, the exact nodes/initializers/inputs/outputs written, that values are kept, folding is idempotent, reordering is idempotent from the second run on. False of the code and refuted: a second reorder writes the same file (inputs listed in another order, unread initializers become inputs and then vanish); a fully constant model is not written; a constant graph output is dropped; nodes behind two empty-named outputs are silently lost."
  },
  {
   "property": "C106",
   "status": "partial",
   "theorems": [
    "OnnxTool.Props.C106_input",
    "OnnxTool.Props.C106_size",
    "OnnxTool.Props.C106_pixels",
    "OnnxTool.Props.C106_keeps",
    "OnnxTool.Props.C106_repeats",
    "OnnxTool.Props.C106_padding_unseen",
    "OnnxTool.Props.C106_range",
    "OnnxTool.Props.C106_scale",
    "OnnxTool.Props.C106_scale_misread",
    "OnnxTool.Props.C106_cut_off",
    "OnnxTool.Props.C106_too_small",
    "OnnxTool.Props.C106_rounds_down",
    "OnnxTool.Props.C106_rounding",
    "OnnxTool.Props.C106_rounding_large"
   ],
   "note": "Proved: what the network is given, size, place and value of every pixel, lossless conversion in exact arithmetic, float32 and float16, padding unseen away from the border, exact condition on the maximum size. False of the code and refuted: every image of the promised size is in range (only if the maximum is a multiple of four), the scale is the model's (read from any digit next to an x in the file name; then the result is cut off or too small), nearest step (rounded down)."
  },
  {
   "property": "C107",
   "status": "partial",
   "theorems": [
    "OnnxTool.Props.C107_fields",
    "OnnxTool.Props.C107_default_iff",
    "OnnxTool.Props.C107_given",
    "OnnxTool.Props.C107_leave_out_partial",
    "OnnxTool.Props.C107_others",
    "OnnxTool.Props.C107_missing_raises",
    "OnnxTool.Props.C107_wrong_defaults",
    "OnnxTool.Props.C107_optional",
    "OnnxTool.Props.C107_superclass_first"
   ],
   "note": "Exact condition proved (C107_default_iff: which missing attributes mean ONNX's default, for every rank). False of the code and refuted: Split, Softmax, TopK (rank > 1), Resize/Upsample, Pad, RoiAlign and attribute-style Slice raise when they rely on a default; Squeeze without axes drops the first axis; LayerNormalization's epsilon default is set under a misspelt name; pooling and transposed convolution defaults are too short for three spatial axes."
  },
  {
   "property": "C108",
   "status": "partial",
   "theorems": [
    "OnnxTool.Props.C108_values",
    "OnnxTool.Props.C108_upper_bound_partial",
    "OnnxTool.Props.C108_attained_partial",
    "OnnxTool.Props.C108_one_token_partial",
    "OnnxTool.Props.C108_within_total_partial",
    "OnnxTool.Props.C108_total_counts_tables_repeatedly",
    "OnnxTool.Props.C108_monotone",
    "OnnxTool.Props.C108_small_moe",
    "OnnxTool.Props.C108_llama7b_total",
    "OnnxTool.Props.C108_exceeds_total"
   ],
   "note": "All kinds of layers. Proved: both numbers in closed form, upper bound over all routings and ids, attained by a round-robin routing, exact for one token, monotone, within the total when tokens <= vocabulary. The claim fails as follows, all proved: the gates of shared experts are not counted, rotary tables are counted four times per rotating layer both in activated and in total (total exceeds the parameters of C56), embedding rows are not capped at the table so that activated exceeds total for more tokens than words."
  },
  {
   "property": "C109",
   "status": "partial",
   "theorems": [
    "OnnxTool.Props.C109_found",
    "OnnxTool.Props.C109_kept",
    "OnnxTool.Props.C109_map",
    "OnnxTool.Props.C109_decoder",
    "OnnxTool.Props.C109_linear",
    "OnnxTool.Props.C109_as_stored",
    "OnnxTool.Props.C109_file_exists",
    "OnnxTool.Props.C109_example",
    "OnnxTool.Props.C109_tied_needs_map",
    "OnnxTool.Props.C109_conv1d_counterexample",
    "OnnxTool.Props.C109_shared_counterexample"
   ],
   "note": "Proved for the Qwen family with the default weight map (C109_decoder, C109_linear, C109_as_stored) and in general for the update loop (C109_found, C109_kept). Refuted beyond it: checkpoints stored input x output (GPT-2 Conv1D) are turned the wrong way (C109_conv1d_counterexample), one tensor shared by embedding and head keeps the embedding's layout (C109_shared_counterexample), a tied head is never found without the name map (C109_tied_needs_map)."
  },
  {
   "property": "C110",
   "status": "partial",
   "theorems": [
    "OnnxTool.Props.C110_times",
    "OnnxTool.Props.C110_totals",
    "OnnxTool.Props.C110_table",
    "OnnxTool.Props.C110_percentages",
    "OnnxTool.Props.C110_printable",
    "OnnxTool.Props.C110_zero_total",
    "OnnxTool.Props.C110_elapsed",
    "OnnxTool.Props.C110_slowest",
    "OnnxTool.Props.C110_overlap",
    "OnnxTool.Props.C110_same_operand",
    "OnnxTool.Props.C110_counts",
    "OnnxTool.Props.C110_largest",
    "OnnxTool.Props.C110_compare",
    "OnnxTool.Props.C110_compare_self",
    "OnnxTool.Props.C110_compare_asymmetric",
    "OnnxTool.Props.C110_compare_empty"
   ],
   "note": "Times, counts, totals, percentages, table order, slowest nodes, elapsed-time bound, overlap check, summary counts and comparison verdict are proved for all runs. Refuted as stated: C110_zero_total (printing fails with a total of 0), C110_same_operand (false alarm), C110_compare_asymmetric, C110_compare_empty, C110_largest (fails without pooled tensors). Exact rationals instead of floats."
  },
  {
   "property": "C111",
   "status": "partial",
   "theorems": [
    "OnnxTool.Props.C111_after_removals",
    "OnnxTool.Props.C111_removals_return",
    "OnnxTool.Props.C111_list_link_subtree",
    "OnnxTool.Props.C111_list_link_dangling",
    "OnnxTool.Props.C111_after_fusion",
    "OnnxTool.Props.C111_after_postop",
    "OnnxTool.Props.C111_stale_subtree",
    "OnnxTool.Props.C111_kept_is_linked",
    "OnnxTool.Props.C111_after_skipping",
    "OnnxTool.Props.C111_needed_node_removed",
    "OnnxTool.Props.C111_fused_name",
    "OnnxTool.Props.C111_fused_dangling",
    "OnnxTool.Props.C111_reload"
   ],
   "note": "Proved: C111_after_removals, C111_removals_return (all histories of removals), C111_kept_is_linked, C111_reload. Refuted: C111_after_fusion (every fusion in the middle of a graph makes remove_subtree of the fused node raise AttributeError and remove_dangling_nodes fail), C111_list_link_subtree, C111_list_link_dangling, C111_after_skipping, C111_needed_node_removed, C111_stale_subtree, C111_fused_name."
  },
  {
   "property": "C112",
   "status": "partial",
   "theorems": [
    "OnnxTool.Props.C112_run",
    "OnnxTool.Props.C112_nodes",
    "OnnxTool.Props.C112_builds",
    "OnnxTool.Props.C112_one_node",
    "OnnxTool.Props.C112_shape_value_as_data"
   ],
   "note": "C112_run covers outputs that a kept node produces and none reads (a read output may be overwritten: C05, C46); C112_one_node and C112_shape_value_as_data show that the unrestricted claim is false of the code. No checkpoint (C109) and no kv_cache (C51, C52)."
  },
  {
   "property": "C113",
   "status": "partial",
   "theorems": [
    "OnnxTool.Props.C113_built_cost",
    "OnnxTool.Props.C113_cached_cost",
    "OnnxTool.Props.C113_standard",
    "OnnxTool.Props.C113_reads_all_weights",
    "OnnxTool.Props.C113_sparse_is_sparse",
    "OnnxTool.Props.C113_short_sequences_cost_more",
    "OnnxTool.Props.C113_latent_cache_not_counted",
    "OnnxTool.Props.C113_linear_in_batch",
    "OnnxTool.Props.C113_monotone"
   ],
   "note": "Totals proved for all configurations and mixtures of layers. Shown false where the code departs from what a reader expects: the delta net's projections are counted twice (C66_gdn_counted_twice), compressed latent attention costs more than full attention on sequences within the window (C113_short_sequences_cost_more), and a latent-attention model reads no cached elements while kv_params counts a cache (C113_latent_cache_not_counted). Compressor and indexer weights are neither registered nor counted by the code."
  },
  {
   "property": "C114",
   "status": "proved",
   "theorems": [
    "OnnxTool.Props.C114_plan",
    "OnnxTool.Props.C114_plan_kv",
    "OnnxTool.Props.C114_registry",
    "OnnxTool.Props.C114_formula",
    "OnnxTool.Props.C114_raw_data",
    "OnnxTool.Props.C114_gatherND",
    "OnnxTool.Props.C114_maxShape",
    "OnnxTool.Props.C114_constantOfShape",
    "OnnxTool.Props.C114_pad",
    "OnnxTool.Props.C114_auto_pad",
    "OnnxTool.Props.C114_globalAverage",
    "OnnxTool.Props.C114_gemm",
    "OnnxTool.Props.C114_remove_unknown",
    "OnnxTool.Props.C114_remove_broken",
    "OnnxTool.Props.C114_skip_unknown",
    "OnnxTool.Props.C114_skip_unlisted",
    "OnnxTool.Props.C114_skip_read",
    "OnnxTool.Props.C114_skip_unread",
    "OnnxTool.Props.C114_fuse_unknown",
    "OnnxTool.Props.C114_fuse_missing",
    "OnnxTool.Props.C114_fuse_empty"
   ],
   "note": "Exact correspondence (iff, no other exception) for planning memory, registries, formulas, raw data, GatherND, ConstantOfShape, global average, padding, Gemm, max shape, skipping a node whose result is read; for broken indices the exception of the first broken entry."
  },
  {
   "property": "C115",
   "status": "partial",
   "theorems": [
    "OnnxTool.Props.C115_engine",
    "OnnxTool.Props.C115_engine_variables",
    "OnnxTool.Props.C115_from_model_partial",
    "OnnxTool.Props.C115_one_variable",
    "OnnxTool.Props.C115_disjoint",
    "OnnxTool.Props.C115_two_variables_counterexample",
    "OnnxTool.Props.C115_falling_counterexample"
   ],
   "note": "Proved for GraphInfer's pool and tensors whose size grows with the variables (C115_engine), for the pool of a model file with one variable (C115_one_variable) or sizes that are largest where it plans (C115_from_model_partial). False otherwise: with two variables create_memory_pool_from_model plans for the last at its largest and the others at their smallest value, and refuses the largest image (C115_two_variables_counterexample); a size that falls while the input grows is not served (C115_falling_counterexample)."
  },
  {
   "property": "C116",
   "status": "partial",
   "theorems": [
    "OnnxTool.Props.C116_network",
    "OnnxTool.Props.C116_shape_infer",
    "OnnxTool.Props.C116_generated",
    "OnnxTool.Props.C116_grows",
    "OnnxTool.Props.C116_pool",
    "OnnxTool.Props.C116_broadcast",
    "OnnxTool.Props.C116_expand",
    "OnnxTool.Props.C116_transpose",
    "OnnxTool.Props.C116_gather",
    "OnnxTool.Props.C116_squeeze",
    "OnnxTool.Props.C116_unsqueeze",
    "OnnxTool.Props.C116_reduce",
    "OnnxTool.Props.C116_pad",
    "OnnxTool.Props.C116_concat",
    "OnnxTool.Props.C116_oneHot",
    "OnnxTool.Props.C116_conv",
    "OnnxTool.Props.C116_pooling",
    "OnnxTool.Props.C116_convTranspose",
    "OnnxTool.Props.C116_gemm",
    "OnnxTool.Props.C116_gemm_batched",
    "OnnxTool.Props.C116_gemm_same_batch",
    "OnnxTool.Props.C116_matmul_falls",
    "OnnxTool.Props.C116_split",
    "OnnxTool.Props.C116_resize",
    "OnnxTool.Props.C116_depthToSpace",
    "OnnxTool.Props.C116_slice",
    "OnnxTool.Props.C116_reshape",
    "OnnxTool.Props.C116_topk",
    "OnnxTool.Props.C116_by_shape",
    "OnnxTool.Props.C116_shape",
    "OnnxTool.Props.C116_slice_falls",
    "OnnxTool.Props.C116_split_falls",
    "OnnxTool.Props.C116_largest_operand_falls",
    "OnnxTool.Props.C116_slice_pool_counterexample",
    "OnnxTool.Props.C116_residual_rising",
    "OnnxTool.Props.C116_residual_wellFormed",
    "OnnxTool.Props.C116_residual_pool"
   ],
   "note": "Proved for networks of rising nodes and for each listed operator; batched MatMul/Gemm when the operands' batches agree or the result has their true broadcast. Missing because the code falsifies it: Slice with a start from the end and an end from the front, uneven Split without sizes, _max_shape operators and batched MatMul in general fall (theorems C116_*_falls, C116_slice_pool_counterexample); not covered: Reshape of empty tensors, operators whose shape depends on data (NonZero, NMS)."
  },
  {
   "property": "C117",
   "status": "proved",
   "theorems": [
    "OnnxTool.Props.C117_succeeds",
    "OnnxTool.Props.C117_thresholds",
    "OnnxTool.Props.C117_count",
    "OnnxTool.Props.C117_falling",
    "OnnxTool.Props.C117_value",
    "OnnxTool.Props.C117_range",
    "OnnxTool.Props.C117_share",
    "OnnxTool.Props.C117_example",
    "OnnxTool.Props.C117_not_suppressed",
    "OnnxTool.Props.C117_coordinates_mixed",
    "OnnxTool.Props.C117_narrow"
   ],
   "note": "Exact rational arithmetic; network outputs are a parameter; images of the used slice have distinct ids in C117_value."
  },
  {
   "property": "C118",
   "status": "partial",
   "theorems": [
    "OnnxTool.Props.C118_provenance",
    "OnnxTool.Props.C118_threads_end",
    "OnnxTool.Props.C118_result",
    "OnnxTool.Props.C118_saved",
    "OnnxTool.Props.C118_stale",
    "OnnxTool.Props.C118_safe_iff",
    "OnnxTool.Props.C118_failure_keeps_old",
    "OnnxTool.Props.C118_unreadable_renames",
    "OnnxTool.Props.C118_race",
    "OnnxTool.Props.C118_race_bicubic"
   ],
   "note": "The full claim (every schedule) is false of the code: C118_stale, C118_race, C118_race_bicubic; C118_safe_iff gives the exact condition. Also false: C118_failure_keeps_old, C118_unreadable_renames. Overlapping engine calls each give their own result in the model."
  },
  {
   "property": "C119",
   "status": "partial",
   "theorems": [
    "OnnxTool.Props.C119_selected",
    "OnnxTool.Props.C119_end",
    "OnnxTool.Props.C119_succeeds",
    "OnnxTool.Props.C119_crash",
    "OnnxTool.Props.C119_error",
    "OnnxTool.Props.C119_end_batch",
    "OnnxTool.Props.C119_example",
    "OnnxTool.Props.C119_same_stem",
    "OnnxTool.Props.C119_bad_file",
    "OnnxTool.Props.C119_error_example"
   ],
   "note": "Proved: which files are taken, success exactly when every image works, the files at the end (last image of each stem), every crash point for images of distinct stems, and errors. The unrestricted claim (every image has its result) is false of the code: C119_same_stem, C119_bad_file. Not modelled: failing writes, the two-thread use of the engine."
  },
  {
   "property": "C120",
   "status": "partial",
   "theorems": [
    "OnnxTool.Props.C120_shape_infer",
    "OnnxTool.Props.C120_profile",
    "OnnxTool.Props.C120_samples",
    "OnnxTool.Props.C120_node_macs",
    "OnnxTool.Props.C120_gather",
    "OnnxTool.Props.C120_embedding",
    "OnnxTool.Props.C120_squeeze",
    "OnnxTool.Props.C120_unsqueeze",
    "OnnxTool.Props.C120_oneHot",
    "OnnxTool.Props.C120_split",
    "OnnxTool.Props.C120_slice",
    "OnnxTool.Props.C120_depthToSpace",
    "OnnxTool.Props.C120_resize",
    "OnnxTool.Props.C120_topk",
    "OnnxTool.Props.C120_resize_by_sizes",
    "OnnxTool.Props.C120_by_shape",
    "OnnxTool.Props.C120_data_operand",
    "OnnxTool.Props.C120_elementwise",
    "OnnxTool.Props.C120_residual_block",
    "OnnxTool.Props.C120_flatten_one_sample",
    "OnnxTool.Props.C120_gram",
    "OnnxTool.Props.C120_conv",
    "OnnxTool.Props.C120_pool",
    "OnnxTool.Props.C120_conv_transpose",
    "OnnxTool.Props.C120_broadcast",
    "OnnxTool.Props.C120_concat",
    "OnnxTool.Props.C120_transpose",
    "OnnxTool.Props.C120_reduce",
    "OnnxTool.Props.C120_pad",
    "OnnxTool.Props.C120_gemm",
    "OnnxTool.Props.C120_matmul",
    "OnnxTool.Props.C120_matmul_stacks",
    "OnnxTool.Props.C120_reshape",
    "OnnxTool.Props.C120_reshape_minus_one"
   ],
   "note": "for networks whose nodes work sample by sample; the operators shown to do so are those of the statement (normalisations and the fused operators are not, but their costs are covered by C120_node_macs; Split has several outputs, so its theorem is about the list of them); the claim fails for a Reshape to [1, -1] (C120_flatten_one_sample: batch moved into the features, the MatMul behind it accepts it and costs one sample), for a Resize by sizes (C120_resize_by_sizes: the batch is that of the file), for products of samples (C120_gram), and for LSTM and GRU (batch on the second axis, C90)"
  },
  {
   "property": "C121",
   "status": "partial",
   "theorems": [
    "OnnxTool.Props.C121_returned",
    "OnnxTool.Props.C121_result_overwritten",
    "OnnxTool.Props.C121_result_overwritten_in_part",
    "OnnxTool.Props.C121_feedback_partial",
    "OnnxTool.Props.C121_own_tensors",
    "OnnxTool.Props.C121_two_states_mixed"
   ],
   "note": "That the results are views, that a later call overwrites them (same dimensions: entirely; other dimensions: as far as both go) is proved over all histories; feeding back is proved equal to passing copies under FeedsBack. Missing because the code falsifies it: feeding back any results (C121_two_states_mixed: two states are mixed up by the pool plan). Views given for inputs outside the pool are not covered."
  },
  {
   "property": "C122",
   "status": "partial",
   "theorems": [
    "OnnxTool.Props.C122_alone",
    "OnnxTool.Props.C122_locked_partial",
    "OnnxTool.Props.C122_own_engines",
    "OnnxTool.Props.C122_overlap_wrong",
    "OnnxTool.Props.C122_overlap_leaves_engine_wrong"
   ],
   "note": "Proved for every schedule in which calls on one engine do not overlap, and for engines of their own; the steps are proved equal to C47's call. Missing because the code falsifies it: overlapping calls on one engine, as the window's threads make them (C122_overlap_wrong, C122_overlap_leaves_engine_wrong)."
  },
  {
   "property": "C123",
   "status": "proved",
   "theorems": [
    "OnnxTool.Props.C123_report",
    "OnnxTool.Props.C123_max",
    "OnnxTool.Props.C123_nan",
    "OnnxTool.Props.C123_zero",
    "OnnxTool.Props.C123_mean",
    "OnnxTool.Props.C123_mean_is_not_the_mean",
    "OnnxTool.Props.C123_cosine",
    "OnnxTool.Props.C123_cosine_zero",
    "OnnxTool.Props.C123_cosine_scale",
    "OnnxTool.Props.C123_batches",
    "OnnxTool.Props.C123_last_batch",
    "OnnxTool.Props.C123_predictions",
    "OnnxTool.Props.C123_prediction_flip",
    "OnnxTool.Props.C123_worst",
    "OnnxTool.Props.C123_worst_hides_nan",
    "OnnxTool.Props.C123_verdict",
    "OnnxTool.Props.C123_verdict_asymmetric",
    "OnnxTool.Props.C123_all_pass",
    "OnnxTool.Props.C123_all_pass_ignores",
    "OnnxTool.Props.C123_resolutions"
   ],
   "note": "floats are exact rationals or NaN (no rounding, no infinities). Further findings, proved: mean_diff is the mean of the samples' maxima (C123_mean_is_not_the_mean), the cosine of equal zero outputs is 0 (C123_cosine_zero) and does not see a factor (C123_cosine_scale), a small difference can flip a prediction (C123_prediction_flip), a NaN sample is listed last among the worst (C123_worst_hides_nan), the verdict of compare.py is not symmetric (C123_verdict_asymmetric) and passes whatever the GPU computes if its two programs agree (C123_all_pass_ignores); the last batch may be smaller than the engine was made for (C123_last_batch)"
  },
  {
   "property": "C124",
   "status": "partial",
   "theorems": [
    "OnnxTool.Props.C124_time",
    "OnnxTool.Props.C124_flops_small",
    "OnnxTool.Props.C124_flops_label",
    "OnnxTool.Props.C124_gemm",
    "OnnxTool.Props.C124_no_time",
    "OnnxTool.Props.C124_conv",
    "OnnxTool.Props.C124_overhead",
    "OnnxTool.Props.C124_shares",
    "OnnxTool.Props.C124_plot",
    "OnnxTool.Props.C124_plot_axis",
    "OnnxTool.Props.C124_plot_zero"
   ],
   "note": "times are exact rationals. The claim about the shown rate fails: from 1000 operations per second on format_flops shows a billion times the rate (C124_flops_label; the TFLOPS column is right); compare.py ends in a ZeroDivisionError if there was no overhead, the plot if no memory was used (C124_shares, C124_plot_zero)"
  },
  {
   "property": "C125",
   "status": "partial",
   "theorems": [
    "OnnxTool.Props.C125_file",
    "OnnxTool.Props.C125_preferred",
    "OnnxTool.Props.C125_local",
    "OnnxTool.Props.C125_newest",
    "OnnxTool.Props.C125_cached",
    "OnnxTool.Props.C125_from_dir",
    "OnnxTool.Props.C125_nothing",
    "OnnxTool.Props.C125_listing_order",
    "OnnxTool.Props.C125_one_shard_counterexample",
    "OnnxTool.Props.C125_basename",
    "OnnxTool.Props.C125_architecture",
    "OnnxTool.Props.C125_directory_config",
    "OnnxTool.Props.C125_named",
    "OnnxTool.Props.C125_weights",
    "OnnxTool.Props.C125_given_onnx",
    "OnnxTool.Props.C125_directory_onnx",
    "OnnxTool.Props.C125_cwd_onnx",
    "OnnxTool.Props.C125_errors",
    "OnnxTool.Props.C125_directory_case",
    "OnnxTool.Props.C125_named_case",
    "OnnxTool.Props.C125_wrong_weights_counterexample",
    "OnnxTool.Props.C125_wrong_onnx_counterexample",
    "OnnxTool.Props.C125_same_cache_counterexample",
    "OnnxTool.Props.C125_cache_key"
   ],
   "note": "Proved for every disk, command line and configuration: which weights, configuration and ONNX file are used, exactly when none is found, and which errors there are; listing order is irrelevant if there is model.safetensors or at most one file. False in general: of a sharded checkpoint only the shard listed first is used (C125_one_shard_counterexample), a directory without weights silently gets the cached weights of the model named in its configuration (C125_wrong_weights_counterexample), and any ONNX file of the working directory may be loaded for a supported name (C125_wrong_onnx_counterexample). Not modelled: the tokenizer, the download itself, and what exporting does when the given directory does not exist."
  },
  {
   "property": "C126",
   "status": "partial",
   "theorems": [
    "OnnxTool.Props.C126_series",
    "OnnxTool.Props.C126_forgets",
    "OnnxTool.Props.C126_series_partial",
    "OnnxTool.Props.C126_history",
    "OnnxTool.Props.C126_topk_shape",
    "OnnxTool.Props.C126_topk_outputs",
    "OnnxTool.Props.C126_topk_exact",
    "OnnxTool.Props.C126_topk_counterexample",
    "OnnxTool.Props.C126_case"
   ],
   "note": "Proved for every graph whose TopK nodes have the attribute axis, every series of calls (C126_series_partial), and combined with C75 (C126_history). Without the attribute it is false: TopK keeps axis 0 from the first vector it sees; C126_topk_exact says exactly for which series the calls agree with new objects, C126_topk_counterexample shows a matrix after a vector."
  },
  {
   "property": "C127",
   "status": "partial",
   "theorems": [
    "OnnxTool.Props.C127_every_message",
    "OnnxTool.Props.C127_only_errors_fail",
    "OnnxTool.Props.C127_too_late",
    "OnnxTool.Props.C127_order",
    "OnnxTool.Props.C127_success",
    "OnnxTool.Props.C127_successful_work",
    "OnnxTool.Props.C127_process",
    "OnnxTool.Props.C127_batch",
    "OnnxTool.Props.C127_error_lost",
    "OnnxTool.Props.C127_batch_error_lost"
   ],
   "note": "Proved for every schedule: every message once, only messages about exceptions can fail, order and last message of one piece of work, batches. The last sentence is false of the code: the callbacks of the except branches use the variable e, which is deleted when the branch ends; after that the error is never shown (C127_too_late), so whether it is depends on the schedule (C127_error_lost), for batches of every length (C127_batch_error_lost)."
  },
  {
   "property": "C128",
   "status": "partial",
   "theorems": [
    "OnnxTool.Props.C128_exact",
    "OnnxTool.Props.C128_bytes_partial",
    "OnnxTool.Props.C128_one_weight_iff",
    "OnnxTool.Props.C128_byte_weight_counterexample",
    "OnnxTool.Props.C128_topk_counterexample",
    "OnnxTool.Props.C128_gather_row",
    "OnnxTool.Props.C128_gather_macs",
    "OnnxTool.Props.C128_gather_iff",
    "OnnxTool.Props.C128_embedding",
    "OnnxTool.Props.C128_embedding_exceeds_iff",
    "OnnxTool.Props.C128_gather_counterexample",
    "OnnxTool.Props.C128_gather_activation_counterexample",
    "OnnxTool.Props.C128_gather_scalar_counterexample"
   ],
   "note": "Proved for all nodes: the exact difference between the charge and the bytes of outputs and weights (C128_exact); equality when the outputs share one element size and the weights share that of the first operand (C128_bytes_partial); with one weight exactly then (C128_one_weight_iff). Gather: what is charged, and an equivalence for the charge to be the elements looked up (C128_gather_iff); true of every embedding (C128_embedding), where it may exceed the table. False of the code: an int8 weight read by a node whose first operand is float is charged four bytes an element; positions of TopK are charged like its values; Gather over other axes or of a vector charges more than is looked up, of an activation charges weights that are not there, of a scalar index charges nothing."
  },
  {
   "property": "C129",
   "status": "partial",
   "theorems": [
    "OnnxTool.Props.C129_scan_shapes",
    "OnnxTool.Props.C129_scan_iff",
    "OnnxTool.Props.C129_scan_few",
    "OnnxTool.Props.C129_scan_few_operands",
    "OnnxTool.Props.C129_scan_two",
    "OnnxTool.Props.C129_scan_counterexample",
    "OnnxTool.Props.C129_scan_states_counterexample",
    "OnnxTool.Props.C129_zipmap_iff",
    "OnnxTool.Props.C129_zipmap_counterexample",
    "OnnxTool.Props.C129_gegelu",
    "OnnxTool.Props.C129_gegelu_iff",
    "OnnxTool.Props.C129_gegelu_rank",
    "OnnxTool.Props.C129_gegelu_fails_iff",
    "OnnxTool.Props.C129_gegelu_counterexample"
   ],
   "note": "Proved: what Scan's shape inference writes, an equivalence for when this is right (C129_scan_iff), and that every Scan with fewer than five outputs or four operands fails (C129_scan_few, C129_scan_few_operands; ONNX asks for one of each); ZipMap is right exactly for matrices and vectors of one element (C129_zipmap_iff); GeGelu is right exactly for a last axis of even length, keeps all other axes, and fails exactly for scalars and names (C129_gegelu_iff, C129_gegelu_rank, C129_gegelu_fails_iff). False of the code: all other Scan nodes, ZipMap of a vector, GeGelu of an odd axis (not refused)."
  },
  {
   "property": "C130",
   "status": "partial",
   "theorems": [
    "OnnxTool.Props.C130_toInt",
    "OnnxTool.Props.C130_drawn_iff",
    "OnnxTool.Props.C130_rect",
    "OnnxTool.Props.C130_inside",
    "OnnxTool.Props.C130_roundtrip",
    "OnnxTool.Props.C130_thin_counterexample",
    "OnnxTool.Props.C130_order",
    "OnnxTool.Props.C130_gt",
    "OnnxTool.Props.C130_dashes",
    "OnnxTool.Props.C130_coco_names",
    "OnnxTool.Props.C130_coco_order",
    "OnnxTool.Props.C130_coco_numbers",
    "OnnxTool.Props.C130_names_default",
    "OnnxTool.Props.C130_names_categories",
    "OnnxTool.Props.C130_names_partial",
    "OnnxTool.Props.C130_names_shifted",
    "OnnxTool.Props.C130_bicycle_counterexample",
    "OnnxTool.Props.C130_color_iff",
    "OnnxTool.Props.C130_color_shifted",
    "OnnxTool.Props.C130_label_iff",
    "OnnxTool.Props.C130_label_back",
    "OnnxTool.Props.C130_label_counterexample"
   ],
   "note": "Proved for all sizes and boxes: when a detection is drawn (C130_drawn_iff), that its rectangle encloses exactly the pixels of the box inside the image (C130_rect, C130_inside), the way back from the letterbox for boxes of whole pixels (C130_roundtrip), order (C130_order), which annotations are drawn (C130_gt) and every pixel of their dashes (C130_dashes), names without categories (C130_names_default) and with categories numbered from 0 (C130_names_partial), colours (C130_color_iff), labels (C130_label_iff). False of the code: boxes one pixel wide or in the last column are not drawn; with categories numbered from 1, as in COCO, every detected class gets the name of the class before it (C130_names_shifted, C130_bicycle_counterexample) and another colour than its annotation; labels of boxes at the upper edge are outside the image."
  },
  {
   "property": "C131",
   "status": "partial",
   "theorems": [
    "OnnxTool.Props.C131_row",
    "OnnxTool.Props.C131_table",
    "OnnxTool.Props.C131_first_error",
    "OnnxTool.Props.C131_small_decoder",
    "OnnxTool.Props.C131_ratio",
    "OnnxTool.Props.C131_total",
    "OnnxTool.Props.C131_rounding",
    "OnnxTool.Props.C131_patches_are_tokens",
    "OnnxTool.Props.C131_decoder",
    "OnnxTool.Props.C131_larger_image",
    "OnnxTool.Props.C131_comparison",
    "OnnxTool.Props.C131_comparison_tokens"
   ],
   "note": "Missing because the code falsifies it: decoders below a thousand million operations stop the program (C131_small_decoder), the sum of rounded figures can be 1 below the rounded sum and the percentage far off for small figures (C131_rounding, bounds C131_ratio, C131_total), with different patch sizes the comparison prints the first model's tokens only (C131_comparison_tokens). Floating point is exact here; the text with one decimal is not modelled; decoders with linear attention are covered for any profile, the closed form only for ordinary attention."
  },
  {
   "property": "C132",
   "status": "partial",
   "theorems": [
    "OnnxTool.Props.C132_one_by_one_partial",
    "OnnxTool.Props.C132_nested_partial",
    "OnnxTool.Props.C132_every_line",
    "OnnxTool.Props.C132_overlap_counterexample",
    "OnnxTool.Props.C132_silent",
    "OnnxTool.Props.C132_foreign_line_counterexample"
   ],
   "note": "Proved for threads that run one after another in any order (C132_one_by_one_partial), for a profile that begins and ends while another prints (C132_nested_partial), and for every schedule that no line is lost or doubled (C132_every_line). False of the code when profiles overlap otherwise: the windows get the wrong or no report and the standard output stays in a buffer (C132_overlap_counterexample), after which nothing reaches the console (C132_silent); lines of other threads land in the window (C132_foreign_line_counterexample)."
  }
 ]
}