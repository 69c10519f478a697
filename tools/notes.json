{
 "C05": {
  "status": "partial",
  "note": "False as stated (C05_output_overwritten is a kernel-checked counterexample); proved for outputs that no node reads."
 },
 "C11": {
  "status": "partial",
  "note": "False for graphs whose output is also read by a dangling node (C11_output_lost) and raises on unsorted graphs (C11_unsorted_raises); proved exactly otherwise."
 },
 "C41": {
  "status": "partial",
  "note": "False as stated: C41_returns_iff characterises exactly when it returns; C41_single_node_raises is the counterexample (ZeroDivisionError)."
 },
 "C14": {
  "status": "partial",
  "note": "False when a graph output is produced inside the fused set and only read inside it (C14_graph_output_lost); exact otherwise."
 },
 "C16": {
  "status": "partial",
  "note": "False for multi-output producers and for outputs read only by shape nodes (C16_multi_output_lost, C16_output_lost); proved otherwise; also C16_source_graph_is_modified."
 },
 "C18": {
  "status": "partial",
  "note": "Value preservation proved for every tensor the folded graph reads or produces, with the output names kept (remove_dangling, the default). False part: an output computed from constants only has no tensor any more, so it is lost when saving (C18_constant_output_gone, C18_constant_output_lost); without remove_dangling outputs that some node reads are dropped too (C18_read_output_lost)."
 },
 "C40": {
  "status": "partial",
  "note": "Proved for shape operators with one data operand whose output is read, and for an unread output whose operand has no other reader; false otherwise (C40_other_reader_disconnected, C40_two_dynamic_operands_disconnected, C40_graph_input_disconnected, C40_unread_on_input_raises)."
 },
 "C19": {
  "status": "partial",
  "note": "_broadcast_shape (elementwise operators) proved exact for all operand lists; Expand proved on the domain where the target broadcasts the input (C19_expand_partial), wrong outside it (C19_expand_wrong)."
 },
 "C20": {
  "status": "proved",
  "note": "Also proved that the result is not the broadcast shape in general (C20_not_broadcast_in_general)."
 },
 "C21": {
  "status": "partial",
  "note": "Conv exact; pooling proved for explicit pads (C21_pool_partial). Wrong for 3-D pooling ceil/auto-pad paths (C21_pool3d_wrong, C21_conv_auto_pad_3d)."
 },
 "C42": {
  "status": "partial",
  "note": "C42_gemm_iff: for operands whose batches broadcast, the inferred shape is right if and only if the broadcast batch is that of the first operand, or that of the second and the first has none or one of another size. False otherwise (C42_wrong_batch)."
 },
 "C23": {
  "status": "partial",
  "note": "Shape inference proved exact for all inputs with non-zero steps (C23_slice); agreement with the computed value only for non-negative axes given as an input (C23_value_agrees_partial), false otherwise (C23_backward_wrong, C23_value_ignores_axes)."
 },
 "C24": {
  "status": "partial",
  "note": "C24_reshape_iff: exact (iff) for every input with at least one dimension, zero sizes included, and every target with at most one -1, unless a -1 stands beside a copied zero dimension, where the tool returns a negative dimension (C24_undetermined). Also false: several wildcards and scalars (C24_wildcards_left)."
 },
 "C25": {
  "status": "partial",
  "note": "Explicit splits, equal splits, concatenation and rejoining proved for all shapes; the default uneven split is right exactly when the first n-1 parts fit (C25_uneven_split_iff), else the last part is negative (C25_uneven_split_wrong)."
 },
 "C26": {
  "status": "proved",
  "note": "Reduce without axes and Squeeze of a dimension other than 1 are findings (C26_reduce_all_missing); the statement concerns named axes."
 },
 "C27": {
  "status": "partial",
  "note": "Proved exact for all x for affine dimensions, and for rounded quotients under explicit conditions on the samples; the conditions are needed (C27_floor_aligned_wrong for every aligned range, C27_ceil_end_wrong)."
 },
 "C29": {
  "status": "partial",
  "note": "Proved for engines with NUL-free names, 32-bit dimensions and coefficients single precision holds: the writer returns and an independent reader recovers everything; two engines with equal bytes are equal; a coefficient survives if and only if single precision holds it (C29_coefficient_iff). Missing because false: other 32-bit coefficients are rounded (C29_large_coefficient_lost). Variable values are not stored by design of the format."
 },
 "C30": {
  "status": "proved",
  "note": "Reader recovers size, blocks and maximum shapes whenever the writer returns; it returns exactly when all numbers fit 64 bits; C30_nul_name_ambiguous shows the NUL-free hypothesis is needed."
 },
 "C31": {
  "status": "partial",
  "note": "Proved for graphs with NUL-free names, attributes that are non-empty homogeneous lists (or single values) of int/float/str/bytes, 32-bit ints and the six supported dtypes, up to identification of a single value with a list of one and a string with its UTF-8 bytes. Not claimed because false: tensor-valued attributes are dropped (C31_other_attr_lost), empty lists raise, 64-bit ints raise. A float attribute is modelled by its 32-bit pattern."
 },
 "C32": {
  "status": "partial",
  "note": "Exact characterisation (C32_roundtrip_iff): every array of rank >= 1, every float, int32 and int64 scalar; scalars of small integer types and bool come back as 0, typed small-int protos are read as zeros, unsupported types as float64 (findings)."
 },
 "C33": {
  "status": "partial",
  "note": "Lossless packing is proved for symmetric codes in rows of even length; false for asymmetric codes (8..15 collide with 0..7) and the last code of an odd row is dropped: both proved as findings."
 },
 "C34": {
  "status": "partial",
  "note": "Half-step error, own-group parameters and code range proved for every matrix, grouping and width 2..8 (sym) / 1..8 (asym) with no all-zero group, over exact rationals. 'Codes stay within the bit range' is false for asymmetric codes by one (C34_asym_code_overflow), widths above 8 saturate (C34_wide_saturates) and an all-zero row raises ValueError (C34_zero_row_raises)."
 },
 "C35": {
  "status": "partial",
  "note": "Totals, order independence, row contents and coverage proved for every exclude set; the Params/Dedup_Params/shared-size identity is proved for no exclude list and false with one (C35_dedup_ignores_exclude)."
 },
 "C43": {
  "status": "partial",
  "note": "Proved for Gemm, MatMul of rank >= 2, Conv, 1-d/2-d pooling and Einsum without ellipsis; false for MatMul by a vector, ConvTranspose, 3-d pooling (wrong counts) and Einsum with ellipsis (IndexError): proved as findings."
 },
 "C44": {
  "status": "partial",
  "note": "Proved for three-dimensional queries; for the 4-d query layout the head count is taken for the sequence length (C44_sdpa_layout_confused)."
 },
 "C45": {
  "status": "partial",
  "note": "Proved from the text of the equation (spaces, commas, arrow, implicit mode) to the shape, for every number of operands with leading ellipses and broadcasting letters; exactly right iff the result mentions the ellipsis or it stands for nothing (C45_equation_iff). False, with theorems: letters before an ellipsis are lost, a summed ellipsis is kept, missing operands are not noticed."
 },
 "C38": {
  "status": "partial",
  "note": "Proved for all graphs and patterns with distinct names: termination, every reported entry is a node meeting its position's conditions, distinct nodes, connected by the pattern's edges; exact characterisation for ConvBN. The 'every position is filled / every match is found' reading is false of the code: counterexamples C38_placeholder, C38_order_dependent, C38_serial_operand_order, C38_mhaint8_never, C38_overlap, C38_conv1d_raises, C38_inport_on_input_raises."
 },
 "C39": {
  "status": "partial",
  "note": "Algebra proved for every field, geometry, input (C39_fold_algebra); graph-level value preservation for all foldable pairs (C39_fusion_preserves_values_partial). False without the conditions: bias -> KeyError, second reader dangles, graph output lost, shared weight scaled twice (counterexample theorems). Exact field instead of floats."
 },
 "C46": {
  "status": "partial",
  "note": "Proved for every plan of compress_memory: each operand read by each kernel equals the reference value, and forward returns the reference outputs for outputs live at the end. Missing (false of the code): outputs that are read by a later node may be overwritten (C46_read_output_is_overwritten), bool tensors are planned with 1 byte per element but viewed with the run type (C46_wider_run_type_overlaps), 0-dim intermediates raise (C46_scalar_output_raises). Kernels are arbitrary functions of the operand bytes (contract RunOk)."
 },
 "C47": {
  "status": "proved",
  "note": "Proved for every model whose named dimensions are determined by the first input (Fits); C47_second_input_shape_ignored shows that with several differently-sized inputs only the first tensor's shape is used, C47_weight_override_inconsistent that tensors passed under a weight's name are treated inconsistently."
 },
 "C48": {
  "status": "partial",
  "note": "False in general: C48_failed_copy_then_stale_shape (silently wrong output), C48_failed_kernel_then_index_error. Proved: after any history, failures included, a call with new dimensions behaves as fresh (C48_new_shape_recovers); failures of calls repeating the dimensions of a call that returned are harmless (C48_same_shape_failures_harmless)."
 },
 "C49": {
  "status": "partial",
  "note": "Proved for three-dimensional inputs (the layout the LLM builder emits) over exact field arithmetic with an arbitrary exponential, for every history of calls. For four-dimensional inputs with a cache the property is false: C49_four_dim_decode_raises, C49_four_dim_scrambled. The attribute attn_logit_softcapping is ignored by the kernel."
 },
 "C50": {
  "status": "partial",
  "note": "Relative positions and length preservation proved in full (C50_tables gives the tables of cosines and sines the hypotheses). The clause about rotary_dim is false: C50_partial_rotary_rotates_all."
 },
 "C51": {
  "status": "proved",
  "note": "Both plans, their sizes and the exact condition for returning are proved. The empty name (absent optional input) must have no size. C51_duplicate_input_wastes is a finding outside the statement (an input listed twice)."
 },
 "C52": {
  "status": "proved",
  "note": "Refinement of the reference session for outputs no node reads (others: see C46). Kernels are any in-place memory transformers meeting the contract Updates (C52_contract_satisfiable shows it can be met for every function); which kernels of kernels.py meet it is not modelled except for the attention arithmetic (C49)."
 },
 "C53": {
  "status": "partial",
  "note": "Everything but the length limit is proved (for engines meeting a contract, see C54 for decoder graphs). 'At most max_length tokens' is false: C53_one_token_too_many (max_length+1). Findings: prompt longer than max_length raises when verbose; empty prompt raises. The tokenizer is not modelled."
 },
 "C54": {
  "status": "proved",
  "note": "C54_any_chunking, C54_causal, C54_past_context, C54_cached_engine, C54_plain_engine, C54_generate. Values are elements of a field (no rounding); the attention node is the 3-D path of SDPAKernel (the 4-D path is wrong, C49); position-wise operators are arbitrary functions."
 },
 "C55": {
  "status": "proved",
  "note": "Proved for all configurations and weight maps under explicit conditions; counterexamples show the conditions are needed: default WeightMap + post_attn_norm collides and makes a cycle, learned positions + rotary lists 'position' twice, default WeightMap has no 'pos' (KeyError). Vision encoder not modelled."
 },
 "C56": {
  "status": "proved",
  "note": "Count of initializer elements; the linear-attention layer of the code has no output projection, convolution or gate weights, so its spec entry lists only what exists. Llama-2-7B instance gives 6738415616 + tables."
 },
 "C57": {
  "status": "proved",
  "note": "kv_params also counts layers without attention (C57_kv_params_hybrid); calling add_kv_cache twice breaks validity (C57_cache_twice)."
 },
 "C58": {
  "status": "partial",
  "note": "Holds when each key is set by the configuration itself or by no earlier one with the same entry; the unrestricted claim is false (C58_flags_leak, C58_flags_leak_back): arch_config aliases the module table."
 },
 "C59": {
  "status": "proved",
  "note": "For all configurations satisfying C55's hypotheses; operators are uninterpreted (the meaning of SDPA, Rope, MoE, MLA and GDN nodes is not modelled here; C49/C50/C54 treat SDPA and Rope). C59_default_map_wrong shows the distinct-names hypothesis is needed."
 },
 "C60": {
  "status": "partial",
  "note": "Proved for checkpoint projections first read by a MatMul, for Gemm weights first read by a Gemm with the same transB, and for all other constants first read by other operators (and all vectors). The rest of the property is false of the code, each case with a theorem: weights embedded in the ONNX file are transposed for MatMul (raises, or silently multiplies with the transpose when square), Gemm ignores transB when its second operand is computed, the first reader of a shared constant decides for all (tied embeddings raise), a matrix C of a transposing Gemm is transposed, data of Constant nodes without folding is never loaded."
 },
 "C61": {
  "status": "partial",
  "note": "Flatten, Reshape, Squeeze (attribute), Transpose proved for all inputs; Unsqueeze for non-negative axes, Gather for vectors and 1x..x1xn ids with non-negative indices, Pad for symmetric pads. The code falsifies the rest: negative Unsqueeze axes raise, Squeeze axes given as input are ignored (raises), Gather with a batch, a scalar or a negative index raises, Pad exchanges begins and ends (C61_pad_exchanged). C61_relayout_never_wrong: the relayout kernels never write wrong data."
 },
 "C62": {
  "status": "partial",
  "note": "Split (sizes and even), Concat and their composition proved for all inputs; Slice for positive steps (also composed with shape inference), Expand for one-sided broadcasting. The code falsifies the rest: negative Slice steps always raise, Expand to a smaller target raises, Split into more outputs than torch.chunk makes leaves outputs unwritten."
 },
 "C63": {
  "status": "partial",
  "note": "Proved for four equal pads (Conv with all groups, strides, dilations; MaxPool; AveragePool for count_include_pad) and AveragePool without padding. The code falsifies the rest: the kernels read pads[0] and pads[2] as height and width padding (C63_conv_actual; silent wrong result in C63_conv_counterexample) and AveragePool counts padding (C63_avgpool_counterexample); auto_pad, ceil_mode and pooling dilations are ignored."
 },
 "C64": {
  "status": "partial",
  "note": "Proved for every shape: whole rows, heads, refusal of a ragged weight, BatchNormalization. Where the code departs from ONNX: the axis attribute is not read (C64_axis_ignored), a scale of shape [1] is taken for heads of length one and annihilates the result (C64_scalar_scale_wrong), rms ignores a bias (C64_rms_bias_ignored)."
 },
 "C66": {
  "status": "proved",
  "note": "All sums for every standard configuration, with and without cache (C66_built_cost, C66_cached_cost), for the model of the profile methods; per-past-token cost, prefill against decoding. Layers with gated delta nets or latent attention are outside the statement; C66_gdn_counted_twice shows double counting there."
 },
 "C65": {
  "status": "proved",
  "note": "On exact rationals. Device errors (no FP32, no Bandwidth, bandwidth 0) and the unit (seconds although print_profile labels ms) are separate theorems."
 },
 "C67": {
  "status": "partial",
  "note": "C67_vision_graph proves validity, shapes, parameter count, output and the computed function for all configurations with heads, patch > 0 (C67_zero_raises: otherwise ZeroDivisionError). The last sentence is false of the code: patch_reshape relays the feature planes without a transpose, so rows are patches only when there is one patch or one feature (C67_patch_reshape, C67_rows_are_patches_iff), and the attention kernel is always causal (C67_first_patch_sees_itself)."
 },
 "C68": {
  "status": "partial",
  "note": "Proved for every input where the code follows ONNX; counterexample theorems show where it does not: Slice with negative axes / axes above 4 / without axes, Split with zero tails, Unsqueeze and Squeeze with negative or unsorted axes, Flatten with negative axis, Pad without mode attribute, GatherElements on non-integers, batch_dims, reduction, allowzero and start/end attributes ignored."
 },
 "C69": {
  "status": "partial",
  "note": "Proved for every operand where the code follows ONNX (exact arithmetic). Counterexample theorems show where it does not: Min of two or more inputs (Python's not), Div of negative int64 and of int32, Mod with fmod, Pow with negative exponents, Clip with fewer than three inputs, HardSigmoid, HardSwish and LeakyRelu on more than one element."
 },
 "C70": {
  "status": "partial",
  "note": "Proved for every operand, axis list and keepdims where the code follows ONNX. Counterexample theorems show where it does not: axes as second input (TypeError except ReduceSum), ReduceSum with an empty axes input, NonZero of an all-zero tensor, ConstantOfShape without value, OneHot ignoring values and wrapping indices out of range; CumSum exclusive/reverse are refused; ArgMax select_last_index is not read."
 },
 "C71": {
  "status": "partial",
  "note": "Proved for MatMul (operands with two or more axes, or a vector on the left), Gemm with alpha = beta = 1, MatMulInteger without zero points, Conv with one group and explicit pads evaluated once (or with bias), MaxPool of non-negative numbers evaluated once without dilations, BatchNormalization, Softmax with the axis attribute. The full property is false of the code: counterexample theorems show MatMul by a vector raises, alpha is ignored, MatMulInteger adds the zero point, Conv without bias accumulates over runs, auto_pad SAME is misplaced, GlobalAveragePool drops the spatial axes, MaxPool starts from 0 or the old value and ignores dilations, Softmax without axis raises."
 },
 "C72": {
  "status": "partial",
  "note": "Proved for every operand: Add, Sub, Mul, Div, Mod, Pow, comparisons, logical operators, Max, Where, unary operators, Clip (scalar bounds), Transpose, Gather, Concat, GatherND, GatherElements, ScatterND, Trilu, Pad, OneHot, ConstantOfShape, Conv, MaxPool, BatchNormalization, Softmax, Flatten, ArgMax, ReduceL2, Equal, Greater, GreaterOrEqual, Shape. Partial with stated hypotheses: Sum, Expand, Split, Slice, Squeeze, Unsqueeze, Reshape, Reduce*, CumSum, MatMul, Gemm. Falsified by *_counterexample theorems: Min and HardSigmoid of one element, Sum, Expand with zero sizes, Split with empty last part, Slice with negative axes, Squeeze/Unsqueeze with unsorted axes, Reduce* without axes, MatMul broadcast on both sides, Gemm with a widening bias, GlobalAveragePool (every operand), NonZero (every mixed operand), Range/Tile/Compress with unknown values."
 },
 "C73": {
  "status": "proved",
  "note": "For valid files with distinct node names. Findings: repeated names (also a generated name equal to a given one) silently lose nodes (C73_node_count, C73_duplicate_names_lose_nodes, C73_generated_name_collides); an absent operand becomes the graph input '' without folding; inputs are ordered by first use and unread ones are dropped."
 },
 "C74": {
  "status": "proved",
  "note": "Findings in the exact characterisation: initializers read by no node are written as graph inputs, outputs read or produced by no node (pass-through, or constant with folding) are not written; with folding and node_rename names change on every save (C74_rename_folded_unstable)."
 },
 "C76": {
  "status": "partial",
  "note": "False in general (C76_slopes_counterexample, C76_product_counterexample, C76_hump_counterexample, C76_numeric_name_counterexample, C76_unproduced_counterexample). C76_regress_partial: exact for every network whose dimensions are functions of one variable told apart and fitted by the three samples; C76_affine_partial and C76_ceil_partial instantiate it for affine dimensions with slopes dividing one another and for chains of rounded-up strides. The shape inference itself is a parameter."
 },
 "C75": {
  "status": "partial",
  "note": "Proved for every graph whose nodes set all their outputs and read only the documented operands. Without that condition the claim is false of the code: ReduceMean without axes sets nothing and keeps the old shape (C75_reduce_without_axes_keeps_the_old_shape), data-dependent shapes use made-up zeros or values of earlier runs (C75_data_dependent_shape), unsorted nodes use old shapes (C75_unsorted_uses_old_shapes)."
 },
 "C77": {
  "status": "partial",
  "note": "The full claim is false of the code: tensors that only the fused node reads (weights) drop out of the consumer index (C77_index_exact_iff characterises exactly when, C77_weights_lost), graph outputs produced by the set are lost (C77_graph_output_lost), and the fused node is appended last so the order is lost whenever anyone reads it (C77_order_lost). Proved: node set, interface, producer index, attributes for every history."
 },
 "C78": {
  "status": "proved",
  "note": "Acyclic graphs within the recursion limit; cycles raise RecursionError (C78_cycle_raises). Finding: the search keeps no visited set and makes exponentially many calls (C78_exponential)."
 },
 "C79": {
  "status": "partial",
  "note": "Values and absence of If are proved without side conditions (for calls that return). Which nodes remain and closedness are proved under Usual (one If, single-output condition chain, outputs of the chain not graph outputs, result of the branch computed in the branch and not read elsewhere). The full claim is false of the code; each dropped condition has a counterexample theorem: unnamed branch nodes raise KeyError, a second output of a condition node or a graph output computed on the way to the condition is lost, chained Ifs raise, a tensor captured by a second If is lost, branch initializers are lost, a result that is also read inside the branch or passed through from outside is lost."
 },
 "C80": {
  "status": "partial",
  "note": "Nodes and values are proved for every call that returns, and the calls that return are characterised (acyclic graphs in which no TopK serves only the K of another). Closedness is proved when the dropped nodes have one output each, not a graph output. The full claim is false of the code: a K that is an initializer or graph input read once raises KeyError, a second call (update_graph) raises, a dropped node's other outputs and graph outputs are lost, a TopK feeding the K of a later one raises."
 },
 "C81": {
  "status": "partial",
  "note": "The full claim is false of the code: TopK without axis raises unless the tensor is one-dimensional (and then pins axis 0), Resize of a matrix by sizes adds the sizes to the dimensions, Upsample with attribute scales raises, Resize with axes drops dimensions, GridSample raises when one shape is a list and the other a tuple, RoiAlign has no defaults, ArrayFeatureExtractor loses the rows, NonMaxSuppression reads the per-class bound as the total (exact iff proved), LSTM and GRU ignore layout=1, GRU with one output raises, profiling without bias or mode raises, bidirectional layers are undercounted. Proved: the prescribed shapes and costs on the remaining cases, and each of these findings for all shapes."
 },
 "C82": {
  "status": "partial",
  "note": "Proved for a weight read once by one node: initializers, rewiring, error bound of the stored codes (8-bit rounding of the codes included, scales in half precision through an arbitrary rounding function), everything else untouched, repeated calls harmless. The full claim is false of the code and refuted by theorem: a weight read more than once raises AttributeError half-way (C82_shared_raises), an unread one KeyError, a zero channel ValueError; the documented 'for key in g.initials' loop skips the initializer after each quantized one (C82_loop_skips, C82_every_second) while a loop over a copy handles all (C82_loop_over_copy); asymmetric 4-bit codes lose their top bit (C82_packed_asym_lost); the consumer index of the new tensors holds text (C82_index_is_text)."
 },
 "C83": {
  "status": "partial",
  "note": "The report is characterised completely for every array (C83_matrix, C83_conv), and exactly when it is true (C83_matrix_truthful_partial, C83_conv_truthful_partial, both iff). The full claim is false of the code and refuted: a matrix with zero blocks of s x 1 and 1 x s but not of squares is reported as having zero squares (C83_matrix_overstated); a convolution weight pruned along one axis only is reported with blocks along the other axis, which need not even tile it (C83_conv_wrong_axis, C83_conv_wrong_axis')."
 },
 "C84": {
  "status": "partial",
  "note": "C84_csv_iff_partial: reading back works exactly if no cell contains a comma or a line break; C84_report: then every row and the totals are stated as claimed. The full claim is false of the code: nothing is quoted (C84_comma_shifts), and totals above 2^53 are rounded (C84_total_differs; exact below: C84_totals_exact; error bound: C84_totals_close)."
 },
 "C85": {
  "status": "partial",
  "note": "The default set of hidden operators after any history is characterised exactly (C85_default_grows_partial). The full claim is false of the code: exclude_ops is added to the module's own default set, so later calls without arguments hide these operators too (C85_leaks); calls with a set of the caller's own do not leak but change that set (C85_own_set); lists raise AttributeError (C85_errors)."
 },
 "C86": {
  "status": "partial",
  "note": "Proved for names without backslashes that stay different when separators are replaced. The full claim is false of the code and refuted: colliding names overwrite each other (C86_overwrites), a name with a leading slash and a backslash is written to an absolute path outside the folder (C86_absolute_path), a name with both separators needs a directory that is not created and stops the export (C86_missing_directory)."
 },
 "C87": {
  "status": "partial",
  "note": "C87_set_shape_partial characterises (iff) the shapes that can be given; C87_io covers all inputs and outputs. The full claim is false of the code: dimension names containing the letter x are refused (C87_names_with_x) or cut in pieces (example)."
 },
 "C88": {
  "status": "partial",
  "note": "Proved for every graph: the pattern states exactly the operators and tensors of the region; a connected region without twins is found whenever the search returns; with an operator of its own at its first node the call fuses exactly the region. False in general: counterexamples for overlapping matches (KeyError), disconnected regions (placeholder 'a', KeyError), twins (another node is taken), candidates reading a graph input (KeyError), empty regions (IndexError). Attributes of fused nodes are not modelled."
 },
 "C89": {
  "status": "partial",
  "note": "Proved for all operands: binary kernels, Where, Mod, unary kernels, Clip with bounds as inputs, Softmax, Shape, Cast, ReduceMean/Sum/Max with axes, Tile, Mad, RangeGather, fused layer norm (eps fixed at 1e-5). Falsified: Clip without bounds cuts at 3.4e38 (C89_clip_counterexample); reductions without axes raise TypeError (C89_reduce_counterexample), with an empty list of axes the total is repeated over the operand's shape (C89_reduce_empty); GlobalAveragePool of three axes averages the channels too (C89_globalmean_counterexample), of five axes raises; GatherElements refuses negative indices; the slot's shape is not checked by kernels that use out= (C89_overrun). Exact arithmetic; exp, erf, tanh, \u2026 are parameters. Not modelled: TopK, Resize."
 },
 "C90": {
  "status": "partial",
  "note": "Holds for the listed elementwise operators, Sum, reductions, global average pooling, one-axis LayerNormalization, one-directional LSTM/GRU with bias, QLinearMatMul, 1-D/2-D QLinearConv/ConvInteger; batch additivity for every operator. Refuted by the code (theorems): Sigmoid/Silu/LogitSoftCapping/BatchNormalization undercounted, Tanh doubled, scalars charged nothing, Max of n operands charged once, LayerNormalization over several axes, second direction of LSTM, 3-D quantised convolutions, Resize without mode and LSTM without bias raise. Not compared with a program: Softmax row sums, Abs/Ceil/Mod/Sign, Atan, Gelu, Rope, InstanceNormalization, LRN."
 },
 "C91": {
  "status": "partial",
  "note": "Contents, validity, values and the three-level pipeline are proved. False parts, with counterexamples: every initializer of the whole model that the exported nodes do not read becomes an input of the export (C91_export, C91_unrelated_input); a model output read only inside the set is not an output (C91_output_lost); a repeated name silently drops its node (C91_repeated_name_dropped). get_subgraph and model_subgraph themselves raise TypeError after the export (Graph(...) without its second argument)."
 },
 "C92": {
  "status": "partial",
  "note": "Proved for names without a colon and the two documented types. False: names with a colon can never be given (C92_no_colon_name); any other type name silently gives float64 zeros (C92_other_type); the short form of the help text raises IndexError when profiling (C92_short_form), the long form sets 'f32' as the shape in io_modify mode (C92_io_long_form); scalars cannot be given (C92_scalar)."
 },
 "C93": {
  "status": "proved",
  "note": "Findings: surplus values of fill_tensor are dropped silently, a single value is broadcast to the whole tensor, and a view obtained before to() of another device silently writes nowhere (C93_stale_view)."
 },
 "C94": {
  "status": "partial",
  "note": "Everything but the last clause is proved for all graphs. The last clause is false of the code: the plan ignores outputs (C94_plan_unchanged), so a dumped tensor may be overwritten (C94_dump_overwritten), and dumping all intermediates makes compress_memory raise ZeroDivisionError for every graph (C94_dump_all_raises)."
 },
 "C95": {
  "status": "partial",
  "note": "Proved over exact rationals for nearest, linear and the choice of the mode, with sizes or whole-number scales, with an iff for the agreement of nearest with ONNX's default rounding; cubic is torch's own (a parameter). Findings: nearest ignores nearest_mode and coordinate_transformation_mode, align_corners of a file (bytes) is ignored, fractional scales are replaced by the ratio of the sizes, linear works only on four axes."
 },
 "C96": {
  "status": "partial",
  "note": "Proved for every torch.topk that does what its documentation says. Missing: with equal elements ONNX's lower position is not guaranteed (counterexample), positions are rounded when the pool is float16 (proved for any conversion), sorted=0 leaves the order unspecified."
 },
 "C97": {
  "status": "partial",
  "note": "Shape and dtype are the last ones set; get_numpy succeeds exactly for known shapes, returns an array of the reported shape and is idempotent; data survives as long as it is not read under another shape (exact condition). False, with theorems: reading under another known shape replaces the data by zeros for good; scalars report 0 bytes; symbolic shapes give a text or TypeError as size; update_dtype does not reach data that is held; update_tensor keeps the old proto; create_tensor's proto always says float32."
 },
 "C98": {
  "status": "partial",
  "note": "Operator, name, inputs, outputs and all attributes (type and value) survive, for distinct names that are not parameters of make_node and no empty lists; saving succeeds exactly without empty lists. False, with theorems: the domain (and documentation) of every node is lost; empty-list attributes make saving raise; attributes called name/op_type/inputs/outputs make saving raise; graph and string-list attributes read as None; texts come back as bytes; fusion refuses graph, string-list and empty-list attributes, turns tensors into lists and forgets set_attr; local functions and metadata are lost; Graph.save_model without rawmodel writes the newest operator set."
 },
 "C99": {
  "status": "partial",
  "note": "Proved for every array and every sort by falling confidence: detections are valid candidates, each row once, separated within a class, nothing lost without a reason, at most max_det, greedy choice unique and independent of the sort for distinct confidences, idempotent; overlap = common cells over all cells. Refuted parts: only the first image of a stack is decoded, detections are sorted only when the limit cuts, equal confidences depend on the sort, boxes under 1e-7 are never suppressed, a negative limit drops boxes. Floats are exact rationals."
 },
 "C100": {
  "status": "partial",
  "note": "Proved: the value of a class is the 101-point average precision of the unique greedy matching, recall <= 1, values in [0, 100/101], mean over annotated classes, one entry per threshold, independence of image order for distinct scores. Refuted: an errorless detector gets 100/101 (searchsorted side='right'), categories not below num_classes are ignored, thresholds with the same two-decimal text collapse, no threshold gives NaN. Exact rationals."
 },
 "C101": {
  "status": "partial",
  "note": "Proved: the letterbox (scale maximal, sizes, borders, pixels), when loading fails, the exact way back, ids of the compared images, and a bound by the share of annotations in evaluated images. Refuted: metrics compare letterbox coordinates with original coordinates and class numbers with category ids (an errorless network gets 0), annotations of unevaluated images count as missed, evaluate_image_dir numbers files 0,1,2,... instead of using the annotated ids. Exact rationals; OpenCV branch only."
 },
 "C102": {
  "status": "partial",
  "note": "False of the code; exact condition proved (an output gets its ONNX type iff the node is Reliable for it), lifted to sorted graphs. Findings: Round reports bool; QLinearConv without bias reports the type of the scale (float32); MaxPool indices, BatchNormalization and LayerNormalization extra outputs, and reductions without axes are never typed; Cast to uint32/uint64/bfloat16 gives None (billed at 8 bytes); ReduceL2 of integers gives float64; QuantizeLinear without zero point, GRU with one output and Scan with fewer than five outputs always raise. Types of value_infer for shape-computing nodes are a premise."
 },
 "C103": {
  "status": "partial",
  "note": "False of the code, exact conditions proved: a quantized convolution has Conv's shape iff auto_pad is not VALID and there are not three spatial axes (else it silently gets the empty shape and costs 0 MACs); QLinearMatMul has the right shape iff the batch of the result is that of the data, and is always wrong for a weight of rank one; MatMulInteger is charged a bias if it has exactly one zero point."
 },
 "C104": {
  "status": "partial",
  "note": "Proved: exact descriptions and ranges in the three outcomes, ranges and variables match, n_past, fallback. False of the code and refuted: that max_seq_len bounds the sequence (fixed shapes), that every fed input is described, that each input's own size bounds it (shared seq), that one free dimension leaves the others variable."
 },
 "C105": {
  "status": "partial",
  "note": "Proved: both tools return on every valid file, the exact nodes/initializers/inputs/outputs written, that values are kept, folding is idempotent, reordering is idempotent from the second run on. False of the code and refuted: a second reorder writes the same file (inputs listed in another order, unread initializers become inputs and then vanish); a fully constant model is not written; a constant graph output is dropped; nodes behind two empty-named outputs are silently lost."
 },
 "C106": {
  "status": "partial",
  "note": "Proved: what the network is given, size, place and value of every pixel, lossless conversion in exact arithmetic, float32 and float16, padding unseen away from the border, exact condition on the maximum size. False of the code and refuted: every image of the promised size is in range (only if the maximum is a multiple of four), the scale is the model's (read from any digit next to an x in the file name; then the result is cut off or too small), nearest step (rounded down)."
 },
 "C107": {
  "status": "partial",
  "note": "Exact condition proved (C107_default_iff: which missing attributes mean ONNX's default, for every rank). False of the code and refuted: Split, Softmax, TopK (rank > 1), Resize/Upsample, Pad, RoiAlign and attribute-style Slice raise when they rely on a default; Squeeze without axes drops the first axis; LayerNormalization's epsilon default is set under a misspelt name; pooling and transposed convolution defaults are too short for three spatial axes."
 },
 "C108": {
  "status": "partial",
  "note": "All kinds of layers. Proved: both numbers in closed form, upper bound over all routings and ids, attained by a round-robin routing, exact for one token, monotone, within the total when tokens <= vocabulary. The claim fails as follows, all proved: the gates of shared experts are not counted, rotary tables are counted four times per rotating layer both in activated and in total (total exceeds the parameters of C56), embedding rows are not capped at the table so that activated exceeds total for more tokens than words."
 },
 "C109": {
  "status": "partial",
  "note": "Proved for the Qwen family with the default weight map (C109_decoder, C109_linear, C109_as_stored) and in general for the update loop (C109_found, C109_kept). Refuted beyond it: checkpoints stored input x output (GPT-2 Conv1D) are turned the wrong way (C109_conv1d_counterexample), one tensor shared by embedding and head keeps the embedding's layout (C109_shared_counterexample), a tied head is never found without the name map (C109_tied_needs_map)."
 },
 "C110": {
  "status": "partial",
  "note": "Times, counts, totals, percentages, table order, slowest nodes, elapsed-time bound, overlap check, summary counts and comparison verdict are proved for all runs. Refuted as stated: C110_zero_total (printing fails with a total of 0), C110_same_operand (false alarm), C110_compare_asymmetric, C110_compare_empty, C110_largest (fails without pooled tensors). Exact rationals instead of floats."
 },
 "C111": {
  "status": "partial",
  "note": "Proved: C111_after_removals, C111_removals_return (all histories of removals), C111_kept_is_linked, C111_reload. Refuted: C111_after_fusion (every fusion in the middle of a graph makes remove_subtree of the fused node raise AttributeError and remove_dangling_nodes fail), C111_list_link_subtree, C111_list_link_dangling, C111_after_skipping, C111_needed_node_removed, C111_stale_subtree, C111_fused_name."
 },
 "C112": {
  "status": "partial",
  "note": "C112_run covers outputs that a kept node produces and none reads (a read output may be overwritten: C05, C46); C112_one_node and C112_shape_value_as_data show that the unrestricted claim is false of the code. No checkpoint (C109) and no kv_cache (C51, C52)."
 },
 "C113": {
  "status": "partial",
  "note": "Totals proved for all configurations and mixtures of layers. Shown false where the code departs from what a reader expects: the delta net's projections are counted twice (C66_gdn_counted_twice), compressed latent attention costs more than full attention on sequences within the window (C113_short_sequences_cost_more), and a latent-attention model reads no cached elements while kv_params counts a cache (C113_latent_cache_not_counted). Compressor and indexer weights are neither registered nor counted by the code."
 },
 "C114": {
  "status": "proved",
  "note": "Exact correspondence (iff, no other exception) for planning memory, registries, formulas, raw data, GatherND, ConstantOfShape, global average, padding, Gemm, max shape, skipping a node whose result is read; for broken indices the exception of the first broken entry."
 },
 "C115": {
  "status": "partial",
  "note": "Proved for GraphInfer's pool and tensors whose size grows with the variables (C115_engine), for the pool of a model file with one variable (C115_one_variable) or sizes that are largest where it plans (C115_from_model_partial). False otherwise: with two variables create_memory_pool_from_model plans for the last at its largest and the others at their smallest value, and refuses the largest image (C115_two_variables_counterexample); a size that falls while the input grows is not served (C115_falling_counterexample)."
 },
 "C116": {
  "status": "partial",
  "note": "Proved for networks of rising nodes and for each listed operator; batched MatMul/Gemm when the operands' batches agree or the result has their true broadcast. Missing because the code falsifies it: Slice with a start from the end and an end from the front, uneven Split without sizes, _max_shape operators and batched MatMul in general fall (theorems C116_*_falls, C116_slice_pool_counterexample); not covered: Reshape of empty tensors, operators whose shape depends on data (NonZero, NMS)."
 },
 "C117": {
  "status": "proved",
  "note": "Exact rational arithmetic; network outputs are a parameter; images of the used slice have distinct ids in C117_value."
 },
 "C118": {
  "status": "partial",
  "note": "The full claim (every schedule) is false of the code: C118_stale, C118_race, C118_race_bicubic; C118_safe_iff gives the exact condition. Also false: C118_failure_keeps_old, C118_unreadable_renames. Overlapping engine calls each give their own result in the model."
 },
 "C119": {
  "status": "partial",
  "note": "Proved: which files are taken, success exactly when every image works, the files at the end (last image of each stem), every crash point for images of distinct stems, and errors. The unrestricted claim (every image has its result) is false of the code: C119_same_stem, C119_bad_file. Not modelled: failing writes, the two-thread use of the engine."
 },
 "C120": {
  "status": "partial",
  "note": "for networks whose nodes work sample by sample; the operators shown to do so are those of the statement (normalisations and the fused operators are not, but their costs are covered by C120_node_macs; Split has several outputs, so its theorem is about the list of them); the claim fails for a Reshape to [1, -1] (C120_flatten_one_sample: batch moved into the features, the MatMul behind it accepts it and costs one sample), for a Resize by sizes (C120_resize_by_sizes: the batch is that of the file), for products of samples (C120_gram), and for LSTM and GRU (batch on the second axis, C90)"
 },
 "C121": {
  "status": "partial",
  "note": "That the results are views, that a later call overwrites them (same dimensions: entirely; other dimensions: as far as both go) is proved over all histories; feeding back is proved equal to passing copies under FeedsBack. Missing because the code falsifies it: feeding back any results (C121_two_states_mixed: two states are mixed up by the pool plan). Views given for inputs outside the pool are not covered."
 },
 "C122": {
  "status": "partial",
  "note": "Proved for every schedule in which calls on one engine do not overlap, and for engines of their own; the steps are proved equal to C47's call. Missing because the code falsifies it: overlapping calls on one engine, as the window's threads make them (C122_overlap_wrong, C122_overlap_leaves_engine_wrong)."
 },
 "C123": {
  "status": "proved",
  "note": "floats are exact rationals or NaN (no rounding, no infinities). Further findings, proved: mean_diff is the mean of the samples' maxima (C123_mean_is_not_the_mean), the cosine of equal zero outputs is 0 (C123_cosine_zero) and does not see a factor (C123_cosine_scale), a small difference can flip a prediction (C123_prediction_flip), a NaN sample is listed last among the worst (C123_worst_hides_nan), the verdict of compare.py is not symmetric (C123_verdict_asymmetric) and passes whatever the GPU computes if its two programs agree (C123_all_pass_ignores); the last batch may be smaller than the engine was made for (C123_last_batch)"
 },
 "C124": {
  "status": "partial",
  "note": "times are exact rationals. The claim about the shown rate fails: from 1000 operations per second on format_flops shows a billion times the rate (C124_flops_label; the TFLOPS column is right); compare.py ends in a ZeroDivisionError if there was no overhead, the plot if no memory was used (C124_shares, C124_plot_zero)"
 },
 "C125": {
  "status": "partial",
  "note": "Proved for every disk, command line and configuration: which weights, configuration and ONNX file are used, exactly when none is found, and which errors there are; listing order is irrelevant if there is model.safetensors or at most one file. False in general: of a sharded checkpoint only the shard listed first is used (C125_one_shard_counterexample), a directory without weights silently gets the cached weights of the model named in its configuration (C125_wrong_weights_counterexample), and any ONNX file of the working directory may be loaded for a supported name (C125_wrong_onnx_counterexample). Not modelled: the tokenizer, the download itself, and what exporting does when the given directory does not exist."
 },
 "C126": {
  "status": "partial",
  "note": "Proved for every graph whose TopK nodes have the attribute axis, every series of calls (C126_series_partial), and combined with C75 (C126_history). Without the attribute it is false: TopK keeps axis 0 from the first vector it sees; C126_topk_exact says exactly for which series the calls agree with new objects, C126_topk_counterexample shows a matrix after a vector."
 },
 "C127": {
  "status": "partial",
  "note": "Proved for every schedule: every message once, only messages about exceptions can fail, order and last message of one piece of work, batches. The last sentence is false of the code: the callbacks of the except branches use the variable e, which is deleted when the branch ends; after that the error is never shown (C127_too_late), so whether it is depends on the schedule (C127_error_lost), for batches of every length (C127_batch_error_lost)."
 },
 "C128": {
  "status": "partial",
  "note": "Proved for all nodes: the exact difference between the charge and the bytes of outputs and weights (C128_exact); equality when the outputs share one element size and the weights share that of the first operand (C128_bytes_partial); with one weight exactly then (C128_one_weight_iff). Gather: what is charged, and an equivalence for the charge to be the elements looked up (C128_gather_iff); true of every embedding (C128_embedding), where it may exceed the table. False of the code: an int8 weight read by a node whose first operand is float is charged four bytes an element; positions of TopK are charged like its values; Gather over other axes or of a vector charges more than is looked up, of an activation charges weights that are not there, of a scalar index charges nothing."
 },
 "C129": {
  "status": "partial",
  "note": "Proved: what Scan's shape inference writes, an equivalence for when this is right (C129_scan_iff), and that every Scan with fewer than five outputs or four operands fails (C129_scan_few, C129_scan_few_operands; ONNX asks for one of each); ZipMap is right exactly for matrices and vectors of one element (C129_zipmap_iff); GeGelu is right exactly for a last axis of even length, keeps all other axes, and fails exactly for scalars and names (C129_gegelu_iff, C129_gegelu_rank, C129_gegelu_fails_iff). False of the code: all other Scan nodes, ZipMap of a vector, GeGelu of an odd axis (not refused)."
 },
 "C130": {
  "status": "partial",
  "note": "Proved for all sizes and boxes: when a detection is drawn (C130_drawn_iff), that its rectangle encloses exactly the pixels of the box inside the image (C130_rect, C130_inside), the way back from the letterbox for boxes of whole pixels (C130_roundtrip), order (C130_order), which annotations are drawn (C130_gt) and every pixel of their dashes (C130_dashes), names without categories (C130_names_default) and with categories numbered from 0 (C130_names_partial), colours (C130_color_iff), labels (C130_label_iff). False of the code: boxes one pixel wide or in the last column are not drawn; with categories numbered from 1, as in COCO, every detected class gets the name of the class before it (C130_names_shifted, C130_bicycle_counterexample) and another colour than its annotation; labels of boxes at the upper edge are outside the image."
 },
 "C131": {
  "status": "partial",
  "note": "Missing because the code falsifies it: decoders below a thousand million operations stop the program (C131_small_decoder), the sum of rounded figures can be 1 below the rounded sum and the percentage far off for small figures (C131_rounding, bounds C131_ratio, C131_total), with different patch sizes the comparison prints the first model's tokens only (C131_comparison_tokens). Floating point is exact here; the text with one decimal is not modelled; decoders with linear attention are covered for any profile, the closed form only for ordinary attention."
 },
 "C132": {
  "status": "partial",
  "note": "Proved for threads that run one after another in any order (C132_one_by_one_partial), for a profile that begins and ends while another prints (C132_nested_partial), and for every schedule that no line is lost or doubled (C132_every_line). False of the code when profiles overlap otherwise: the windows get the wrong or no report and the standard output stays in a buffer (C132_overlap_counterexample), after which nothing reaches the console (C132_silent); lines of other threads land in the window (C132_foreign_line_counterexample)."
 }
}