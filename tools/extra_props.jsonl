{"id": "C41", "title": "compress_memory always returns a plan", "statement": "compress_memory() returns for every graph; it never raises.", "quantifier": "every graph with any tensor sizes", "why_tests_cant": "depends on which tensors exist and their sizes, for all graphs", "anchors": ["onnx_tool/graph.py:Graph.compress_memory"]}
{"id":"C42","title":"Matrix product shape inference broadcasts the batch dimensions","statement":"Gemm/MatMul shape inference returns the broadcast of the batch dimensions followed by [M,N] (after the transposes of Gemm), and raises when the inner dimensions differ or an operand has fewer than two dimensions.","quantifier":"all operand shapes of any rank, all transpose flags","why_tests_cant":"unbounded ranks and dimensions","anchors":["onnx_tool/node.py:GemmNode.shape_infer","onnx_tool/node.py:MatMulNode"]}
{"id": "C43", "title": "Reported MACs are the multiplications of the operator's definition", "statement": "For MatMul, Gemm (any transpose flags), Conv of any dimension, pooling and two-operand Einsum, the reported MACs equal the number of scalar products in the operator's defining sum (plus one addition per output element for a bias).", "quantifier": "all shapes, channel and kernel sizes, flags, letter assignments", "why_tests_cant": "unbounded shapes and ranks", "anchors": ["onnx_tool/node.py:GemmNode._profile_core", "onnx_tool/node.py:ConvNode._profile_core", "onnx_tool/node.py:ConvTransposeNode._profile_core", "onnx_tool/node.py:PoolBase._profile_core", "onnx_tool/node.py:EinsumNode._profile_core"]}
{"id": "C44", "title": "Attention cost model", "statement": "SDPA cost is that of scores, softmax and weighted sum over all query/key pairs; a cache only adds past positions and overflow of the context is refused; token-by-token decoding adds up to the causal half of prefill; MLA and GDN costs are proportional to the batch and their weights independent of it.", "quantifier": "all head counts, sizes, batch and sequence lengths, cache lengths", "why_tests_cant": "unbounded integers", "anchors": ["onnx_tool/node.py:SDPANode._profile_core", "onnx_tool/node.py:MLANode.profile", "onnx_tool/node.py:GDNNode.profile"]}
{"id": "C45", "title": "Einsum output shape follows the equation", "statement": "For an equation with leading ellipses and operands agreeing with the letter sizes up to broadcasting, the result shape is the broadcast of the ellipsis dimensions followed by the sizes of the output letters; in implicit mode the output letters are exactly those occurring once, sorted.", "quantifier": "all equations, ranks and sizes", "why_tests_cant": "unbounded equations", "anchors": ["onnx_tool/node.py:EinsumNode._parse_equation", "onnx_tool/node.py:EinsumNode.shape_infer"]}
{"id": "C46", "title": "Running in the shared activation pool gives the reference result", "statement": "When GraphInfer runs a planned graph, every kernel reads, for each of its operands, exactly the bytes the producer of that operand (or the caller) wrote, although all activations share one pool whose areas are reused; hence every output that is still live at the end has the value that an execution giving every tensor its own buffer would compute.", "quantifier": "all graphs in topological order with single assignment, all plans the planner returns, all kernels, all inputs and all prior pool contents", "why_tests_cant": "unbounded graphs and all reuse patterns of the pool", "anchors": ["inference/infer.py:GraphInfer.forward", "inference/infer.py:GraphInfer._create_tensor_views", "onnx_tool/graph.py:Graph.compress_memory"]}
{"id": "C47", "title": "forward uses the shapes of the current call only", "statement": "Over any sequence of forward calls that returned, with any input sizes in any order, each call behaves as on a freshly built engine given the current dimensions: no shape, tensor view or kernel argument list cached by an earlier call is used, values of tensors kept outside the pool (n_past) are the last supplied ones, and outputs equal the reference outputs.", "quantifier": "all histories of calls, all input sizes within range, all models whose named dimensions occur in the first input", "why_tests_cant": "the cached state depends on the whole history of shapes", "anchors": ["inference/infer.py:GraphInfer.forward", "inference/infer.py:GraphInfer._update_shape_from_input", "inference/infer.py:GraphInfer.get_tensor_shape"]}
{"id": "C48", "title": "A failed forward does not affect later calls", "statement": "After a forward call that raised (while copying inputs or inside any kernel), later calls with good inputs return what they would on a freshly built engine.", "quantifier": "all histories of calls, failing at any point", "why_tests_cant": "every crash point of every history", "anchors": ["inference/infer.py:GraphInfer.forward", "inference/infer.py:GraphInfer._update_shape_from_input"]}
{"id": "C49", "title": "Cached attention equals full causal attention", "statement": "Feeding a token stream to the attention kernel in any chunks (prompt, then decode steps, even rewinding the past), through a key/value cache, returns for every new token the grouped-query causal attention over the whole stream so far; layers do not disturb each other, later tokens never influence earlier outputs, and a call that does not fit the context raises.", "quantifier": "all head counts, widths, layers, cache contents, token streams and ways of cutting them into calls", "why_tests_cant": "all histories of calls on the shared cache and all values", "anchors": ["inference/kernels.py:SDPAKernel.run"]}
{"id": "C50", "title": "Rotary embedding encodes relative positions", "statement": "The rotary kernel rotates each head so that the dot product of a rotated query and key depends on the positions only through their difference, and lengths are preserved; only the first rotary_dim columns of a head are rotated.", "quantifier": "all tensors, positions, shifts and angle tables", "why_tests_cant": "for every position and vector", "anchors": ["inference/kernels.py:RopeKernel.run", "onnx_tool/llm.py:Builder.add_rope"]}
{"id": "C51", "title": "Memory plan with a key/value cache: the cache has a pool of its own", "statement": "When a graph has a kv_cache input, the planner returns two plans: kv_cache alone in a pool that is exactly its padded size, and everything else in the activation pool, where tensors live at the same node are disjoint, aligned, inside the pool, large enough and all present.", "quantifier": "all graphs, tensor sizes and paddings for which the function returns, and exactly when it does", "why_tests_cant": "for every graph and size assignment", "anchors": ["benchmark/llm_test.py:compress_memory_with_kv_cache", "inference/infer.py:GraphInfer.__init__"]}
{"id": "C52", "title": "The key/value cache persists exactly, over a session of forward calls", "statement": "In a session of forward calls on a graph with a kv_cache input, each call's results are those of a reference session in which every tensor has storage of its own and the only things carried from call to call are the cache, as the calls so far left it, and the last value of inputs outside the pool; activations of no call disturb the cache.", "quantifier": "all graphs, plans, kernels meeting their contract (updating the cache in place or not), and all histories of calls of any dimensions", "why_tests_cant": "for every history and every memory plan", "anchors": ["inference/infer.py:GraphInfer.__init__", "inference/infer.py:GraphInfer.forward", "benchmark/llm_test.py:compress_memory_with_kv_cache"]}
{"id": "C53", "title": "Text generation is autoregressive", "statement": "generate returns the prompt followed by tokens each chosen from the model's logits for the prompt and all tokens before it, stopping after the end token, with at most max_length tokens in all; with a cache every step is given the right token, position and n_past, the warm-up and earlier generations leave no trace, and the tokens are those of the same model without a cache.", "quantifier": "all language models, correct engines, token choices (greedy or sampled), prompts, limits and earlier engine states", "why_tests_cant": "for every model, prompt and limit", "anchors": ["inference/llm_infer.py:LLMInfer.generate"]}
{"id": "C54", "title": "Decoding in chunks with a KV cache equals recomputing the whole sequence", "statement": "For a decoder graph made of an embedding lookup, position-wise operators and SDPA nodes that each own a cache layer, run LLM-style: after any sequence of forward calls, each given a further non-empty chunk of tokens with its positions and n_past, the logits of every call are exactly those obtained from the whole token sequence so far computed from scratch with no cache, whatever the cache contained before; values at a position never depend on later tokens; a call that would pass the cache's context raises. Hence LLMInfer.generate on the graph with a cache and on the graph without one follow the same language model.", "quantifier": "all such graphs (any number of layers, any position-wise functions, any field of values), all cut-ups of all token sequences into chunks, all initial cache contents", "why_tests_cant": "A test compares a few generations of one model; a stale or misplaced cache row can change only logits of long or unusual chunkings.", "anchors": ["inference/llm_infer.py:LLMInfer.generate", "inference/kernels.py:SDPAKernel.run", "onnx_tool/llm.py:Builder"]}
{"id": "C55", "title": "Builder.build_graph produces a valid, shape-consistent graph", "statement": "For every decoder configuration that has the entries its methods look up, and every weight map that gives different names to different parts, build_graph succeeds; every node operand is a graph input, an initializer or the output of an earlier node; no tensor or node name is used twice; every initializer is read and recorded static, everything else dynamic; each node's declared output shape is what its operator gives on the declared operand shapes; the graph output is the last node's result with shape batch x sequence x vocabulary.", "quantifier": "all configurations (sizes, flags, number and kinds of layers: attention, gated attention, linear attention, latent attention, dense or mixture-of-experts feed-forward) and weight maps", "why_tests_cant": "the combinations of flags and layer kinds and the number of layers are unbounded; a name clash or a wrong width shows only for particular combinations", "anchors": ["onnx_tool/llm.py:Builder.build_graph", "onnx_tool/llm.py:Builder.add_layers", "onnx_tool/llm.py:WeightMap"]}
{"id": "C56", "title": "The built graph has exactly the parameters of the architecture", "statement": "The total number of elements of all initializers of the graph made by build_graph equals the parameter count given by the architecture: embeddings, per layer the projections with their biases, norms and feed-forward or expert matrices, final norm and output head, plus the slice bounds of fused projections and the rotary tables once.", "quantifier": "all configurations and weight maps as in C55", "why_tests_cant": "a bias or norm counted twice or left out changes the total only for particular flags and layer counts", "anchors": ["onnx_tool/llm.py:Builder.build_graph", "onnx_tool/llm.py:Builder.add_mm", "onnx_tool/llm.py:Builder.add_moe", "onnx_tool/llm.py:Builder.add_mla"]}
{"id": "C57", "title": "add_kv_cache gives every attention layer its own fitting cache slots", "statement": "After build_graph and add_kv_cache the graph is still valid; there is exactly one attention node per layer with ordinary attention, in layer order; each reads query, key, value, n_past and kv_cache; the two slots 2i and 2i+1 of layer i exist; a cache row has exactly the width of the layer's keys and values; kv_params is the size of the used rows of the cache.", "quantifier": "all configurations, weight maps and context lengths", "why_tests_cant": "must hold for every number and mix of layers and every head layout", "anchors": ["onnx_tool/llm.py:Builder.add_kv_cache", "onnx_tool/llm.py:Builder.add_mha"]}
{"id": "C58", "title": "Builders do not disturb each other", "statement": "The architecture flags a Builder uses for its graph are those its own configuration asks for (defaults of its architecture overridden by its attention_bias and mlp_bias), whatever other builders were constructed before or after it.", "quantifier": "all histories of Builder constructions", "why_tests_cant": "depends on the history of constructions in the process, which tests fix", "anchors": ["onnx_tool/llm.py:Builder.__init__", "onnx_tool/llm.py:ArchMap"]}
{"id": "C59", "title": "A graph built from a configuration computes the decoder the configuration describes", "statement": "Executing the graph that Builder.build_graph creates, node by node in its own order, yields exactly the decoder described by the configuration: embedded ids (plus learned positions), for each layer in order x + mix(norm x) followed by h + ffn(norm h) with the configured projections, per-head norms, rotary embedding, gates, optional post-norms or experts, then final norm, output head and optional capping, with each parameter read under its checkpoint name - whatever the operators mean and whatever the inputs and weights are.", "quantifier": "all configurations and weight maps with distinct names; all interpretations of the operators over any value type; all inputs and weights", "why_tests_cant": "A test runs one configuration on one set of weights and compares numbers; a wrong wire that is harmless for that configuration, or a mistake in an unexercised flag combination or at another depth, is not seen.", "anchors": ["onnx_tool/llm.py:Builder.build_graph", "onnx_tool/llm.py:Builder.add_layers", "onnx_tool/llm.py:Builder.add_qkv", "onnx_tool/llm.py:Builder.add_qkv_gated", "onnx_tool/llm.py:Builder.add_mlp", "onnx_tool/llm.py:Builder.add_moe", "onnx_tool/llm.py:Builder.add_gdn", "onnx_tool/llm.py:Builder.add_lm_head"]}
{"id": "C60", "title": "Weights reach the kernels in the layout the node means", "statement": "In a GraphInfer, every MatMul or Gemm node with a constant operand computes on it what the model says: the ONNX product with the stored matrix for weights embedded in the file, the checkpoint's linear layer (weight stored output x input) for weights taken from a safetensors file directly or through the name map, Gemm with its transA/transB/alpha/beta/C; and every other constant operand has exactly its stored value.", "quantifier": "all graphs, constants, sources, name maps, operand sizes and values (exact arithmetic)", "why_tests_cant": "the layout depends on the source of the constant, on the first node that reads it and on attributes; tests fix one model", "anchors": ["inference/infer.py:GraphInfer._preload_constants", "inference/infer.py:GraphInfer._transpose_safetensors_tensor", "inference/kernels.py:GemmKernel", "inference/kernels.py:MatMulKernel"]}
{"id": "C61", "title": "Kernels that move data deliver the ONNX result", "statement": "The inference kernels for Flatten, Reshape, Squeeze, Unsqueeze, Transpose, Gather and Pad write into their output exactly the tensor the ONNX operator defines: same elements in row-major order with the operator's output shape, permuted axes, selected rows, constant border on the requested side; and when they cannot, they raise instead of writing something else.", "quantifier": "all operand shapes, element values, axes (negative too), targets, indices and pads", "why_tests_cant": "ranks, sizes, axes and values are unbounded; mistakes show only for particular combinations such as asymmetric pads, negative axes or batches", "anchors": ["inference/kernels.py:FlattenKernel", "inference/kernels.py:ReshapeKernel", "inference/kernels.py:SqueezeKernel", "inference/kernels.py:UnsqueezeKernel", "inference/kernels.py:TransposeKernel", "inference/kernels.py:GatherKernel", "inference/kernels.py:PadKernel"]}
{"id": "C62", "title": "Kernels that cut and join tensors deliver the ONNX result", "statement": "The inference kernels for Slice, Split, Concat and Expand write exactly the tensors the ONNX operators define, into outputs of the shapes shape inference gives: Slice selects first + i*step on every named axis, every output of Split is written with its consecutive part (given sizes, or even parts with a smaller last one), Concat puts its operands after each other so that Split followed by Concat is the identity, Expand broadcasts.", "quantifier": "all shapes, element values, axes (negative too), bounds, steps, sizes and numbers of parts", "why_tests_cant": "ranks, sizes, bounds and values are unbounded; mistakes show only for particular combinations such as negative steps or indivisible sizes", "anchors": ["inference/kernels.py:SliceKernel", "inference/kernels.py:SplitKernel", "inference/kernels.py:ConcatKernel", "inference/kernels.py:ExpandKernel", "onnx_tool/node.py:SliceNode.shape_infer"]}
{"id": "C63", "title": "Conv and pooling kernels deliver the ONNX result", "statement": "The inference kernels for Conv, MaxPool and AveragePool write the ONNX result: the grouped, dilated, strided convolution of the zero-padded operand plus bias; the largest element of each window; the mean over each window with the divisor the attributes ask for - for every pads = [top, left, bottom, right].", "quantifier": "all operand sizes, element values (exact arithmetic), kernel sizes, strides, dilations, groups and pads", "why_tests_cant": "sizes and values are unbounded; a misread pad shows only for unequal pads and may be masked by broadcasting", "anchors": ["inference/kernels.py:ConvKernel", "inference/kernels.py:MaxPoolKernel", "inference/kernels.py:AveragePoolKernel"]}
{"id": "C64", "title": "Normalisation kernels deliver the documented result", "statement": "The inference kernels for LayerNormalization (type layer or rms) and BatchNormalization write the documented result: each row - or each head of the row when the weight has the length of a head - is centred and divided by its deviation (rms: scaled by its inverse root mean square), multiplied by the weight and shifted by the bias; a weight that does not divide the row is refused; BatchNormalization applies the stored statistics channel by channel.", "quantifier": "all operand shapes and values (exact arithmetic, arbitrary square root), weights, biases, epsilons and numbers of heads", "why_tests_cant": "ranks, sizes, head counts and values are unbounded; whether rows or heads are normalised depends on the relation of two sizes", "anchors": ["inference/kernels.py:LayerNormKernel", "inference/kernels.py:BatchNormalizationKernel"]}
{"id": "C65", "title": "Projected memory and latency are the roofline of the nodes", "statement": "Builder.profile(Config, Device) reports operations, bytes and latency that are the sums over the nodes: each node needs 2 x MACs operations and the bytes of its result plus its weights, constants or cached keys/values at the configured bit widths; its time is the larger of computing (at the rate configured for its class, FP32 where the device does not list it) and loading, divided by the number of devices for matrix products, fused blocks and attention, plus the exchange of their result over the link. context_mem lists weights, cache, other constants and their sum; memory is that sum plus the activations. Hence the latency is never below operations/peak or bytes/bandwidth, never rises with faster hardware, follows Amdahl's law in the number of devices, does not depend on the order of the nodes; without a device only the latency is missing. For a built decoder operations and memory are the closed forms of the architecture.", "quantifier": "every graph, configuration of keys and bit widths, device dictionary with positive rates, number of devices; every decoder configuration for the closed forms", "why_tests_cant": "the bounds and the scaling law quantify over all rates, numbers of devices and graphs; tests evaluate single devices", "anchors": ["onnx_tool/llm.py: Builder.profile, DefaultCfg", "onnx_tool/device.py: Devices"]}
{"id": "C66", "title": "Profile of a built decoder is the cost of the architecture", "statement": "For every decoder configuration whose layers have ordinary attention (any combination of fused or gated projections, biases, query/key norms, rotary or learned positions, gated, plain or GeGLU feed-forward blocks or mixture of experts, extra norms, soft-capping), building the graph and calling graph.profile() succeeds, and the sums over the nodes are closed forms: MACs = tokens x matrix weights + attention over all keys + pointwise work; the MACs of the MatMul nodes are tokens x their weights and biases; activations written, weights read, constants read; the cached keys and values read are the builder's kv_params. With add_kv_cache the number of keys is n_past + seq.", "quantifier": "every configuration, weight map with distinct names, batch size, sequence length, cache size and number of past tokens that fits", "why_tests_cant": "tests compare a handful of published models; the sums must be right for all flag combinations and sizes at once", "anchors": ["onnx_tool/llm.py: Builder.build_graph, add_kv_cache", "onnx_tool/graph.py: Graph.profile", "onnx_tool/node.py: GemmNode, SDPANode, LayerNormalizationNode, RopeNode, MoENode, PWNode, GatherNode profile methods"]}
{"id": "C67", "title": "build_vision_graph builds the vision transformer it describes", "statement": "For every image size and vision configuration with at least one head and patches of at least one pixel, Builder.build_vision_graph returns a valid graph (every operand produced earlier, all names distinct) with the single input pixel_values and one output [1, number of whole patches, LLM hidden size]; every declared shape is the one its operator gives; the initializers hold exactly the encoder's parameters; and executing the graph is: patch embedding, position embedding, all blocks in order with both residual connections, last norm, projector. Each row fed to the blocks is the feature vector of one patch, and every patch attends to all patches.", "quantifier": "all image sizes, patch sizes, hidden sizes, numbers of layers and heads, both projector types, all meanings of the operators and all parameter values", "why_tests_cant": "the number of layers, sizes and parameter values are unbounded; name collisions and shape mismatches depend on the whole configuration", "anchors": ["onnx_tool/llm.py: Builder.build_vision_graph, add_vision_encoder, add_vision_transformer_layer, add_vision_attention, add_vision_mlp, add_vision_conv2d, add_vision_layernorm, add_vision_mm", "inference/kernels.py: ReshapeKernel, SDPAKernel"]}
{"id": "C68", "title": "Value inference of data-moving operators follows ONNX", "statement": "When all inputs of a Gather, Slice, Concat, Split, Unsqueeze, Squeeze, Reshape, Flatten, Transpose, Tile, GatherElements, GatherND, ScatterND, Pad, Trilu, Compress or Shape node are known, the value the node computes for its output (used to fold constants and to evaluate shape computations) has the shape and, element by element, the contents that the ONNX specification gives for these inputs and attributes; invalid indices raise instead of yielding a value.", "quantifier": "every operand shape and contents, every axis, index tensor, bounds, sizes, permutation and attribute value accepted by ONNX", "why_tests_cant": "the elements of the result are a function of unboundedly many shapes, axes (of both signs, in any order), bounds and index tensors; tests cover a few small shapes", "anchors": ["onnx_tool/node.py: GatherNode.value_infer, SliceNode.value_infer, ConcatNode.value_infer, SplitNode.value_infer, UnsqueezeNode.value_infer, SqueezeNode.value_infer, ReshapeNode.value_infer, FlattenNode.value_infer, TransposeNode.value_infer, TileNode.value_infer, GatherElementsNode.value_infer, gather_nd_impl, scatter_nd_impl, PadNode.value_infer, TriluNode.value_infer, CompressNode.value_infer, ShapeNode.value_infer"]}
{"id": "C69", "title": "Value inference of arithmetic operators follows ONNX", "statement": "When all inputs of an Add, Sub, Mul, Div, Mod, Pow, Less, LessOrEqual, Greater, GreaterOrEqual, Equal, And, Or, Xor, Not, Min, Max, Sum, Neg, Abs, Ceil, Floor, Sign, Relu, Clip, HardSigmoid, HardSwish, LeakyRelu, Range, Where, Expand or Cast node are known, the value the node computes has the broadcast shape of the operands and every element is the operator applied to the matching elements of the operands, as the ONNX specification says; operands that do not broadcast raise.", "quantifier": "every number, shape and contents of operands, every attribute value", "why_tests_cant": "the elements of the result are a function of unboundedly many shapes and numbers of both signs; tests cover a few small shapes and mostly positive numbers", "anchors": ["onnx_tool/node.py: AddNode, SubNode, MulNode, DivNode, ModNode, PowNode, MinNode, MaxNode, SumNode, WhereNode, ExpandNode, ClipNode, HardSigmoidNode, HardSwishNode, LeakyReluNode, RangeNode (value_infer)"]}
{"id": "C70", "title": "Value inference of reductions and tensor-building operators follows ONNX", "statement": "When all inputs of a ReduceSum, ReduceProd, ReduceMean, ReduceMax, ReduceMin, ReduceL2, CumSum, NonZero, ConstantOfShape, OneHot or ArgMax node are known, the value the node computes has the shape the ONNX specification gives, and every element combines exactly the elements of the operand that agree with its position on the axes that are not reduced (running sums, positions of nonzero elements, first largest element, one-hot rows respectively); invalid axes raise.", "quantifier": "every operand shape and contents, every list of axes (negative, in any order, absent), both values of keepdims, every depth and index tensor", "why_tests_cant": "ranks, shapes, axis lists and contents are unbounded; tests cover one or two axes of small operands", "anchors": ["onnx_tool/node.py: ReduceMeanNode, ReduceProdNode, ReduceSumNode, ReduceMinNode, ReduceMaxNode, ReduceL2Node, CumSumNode, NonZeroNode, ConstantOfShapeNode, OneHotNode, one_hot, ArgMaxNode, argmax_use_numpy (value_infer)"]}
{"id": "C71", "title": "Value inference of MatMul, Gemm, Conv, pooling and normalisation", "statement": "value_infer of MatMul, Gemm, Conv, MaxPool, GlobalAveragePool, BatchNormalization and Softmax gives the tensor the ONNX operator defines, whatever the operand shapes and attributes, and evaluating a node again gives the same tensor.", "quantifier": "all operand tensors over any field (all ranks and sizes for MatMul and Softmax, matrices for Gemm, four axes for Conv and pooling), all pads, strides, dilations and transpositions, all functions for sqrt and exp, and any value left in the output tensor by an earlier run", "why_tests_cant": "Numerical agreement must hold for every shape, padding and stride; tests compare a handful of models and run each node once.", "anchors": ["onnx_tool/node.py:GemmNode.value_infer", "onnx_tool/node.py:ConvNode.value_infer", "onnx_tool/node.py:MaxPoolNode.value_infer", "onnx_tool/node.py:GlobalAveragePoolNode.value_infer", "onnx_tool/node.py:BatchNormalizationNode.value_infer", "onnx_tool/node.py:SoftmaxNode.value_infer", "onnx_tool/tensor.py:get_numpy"]}
{"id": "C72", "title": "Shape inference without values agrees with value inference", "statement": "For an operator that can both infer its output shape and compute its output value, the shape inferred from the input shapes (and attributes) equals the shape of the value computed from the inputs, whenever that value can be computed. Operators without a shape inference of their own run value inference on made-up zeros; the shape obtained must be the shape of the real value.", "quantifier": "every operator with both methods, every operand shape and value, every attribute value", "why_tests_cant": "Shape and value are computed by two independent pieces of code per operator; agreement is a statement about every shape, rank, axis list and value, and a test only samples a few of each.", "anchors": ["/repo/onnx_tool/node.py: shape_infer and value_infer of the node classes", "/repo/onnx_tool/tensor.py: get_numpy", "/repo/onnx_tool/graph.py: shape_infer, valuegraph"]}
{"id": "C73", "title": "Loading a model keeps its nodes, interface and values", "statement": "For every valid model file without cyclic dependencies and with distinct node names (given, or generated as operator_position), Graph(...) returns; without constant folding the graph has exactly the nodes of the file in order, exact producer/consumer indexes, all initializers with their values, and its inputs are exactly, each once, the tensors some node reads that no node produces and no initializer supplies; with constant folding it has exactly the non-constant nodes and the static tensors they read; and in both cases every tensor of the loaded graph has the same value as in the file, for all inputs and any operator semantics. With node_rename names are always distinct; with repeated names nodes are lost.", "quantifier": "all model files (any number and order of nodes, initializers, declared inputs and outputs), all configurations of constant_folding, node_rename and remove_dangling, all operator semantics, all input values", "why_tests_cant": "Graph size, node order, naming and operator semantics are unbounded; tests load a few example models.", "anchors": ["onnx_tool/graph.py:Graph.__init__", "onnx_tool/graph.py:Graph.__init_graph_from_onnxproto__", "onnx_tool/graph.py:Graph.__update_nodes_tensors__", "onnx_tool/utils.py:ModelConfig"]}
{"id": "C74", "title": "Saving a loaded model preserves what it computes and is stable", "statement": "For every valid model file, load it (with or without constant folding) and save it: the saved file is a valid model with distinct non-empty node names, the nodes of the graph, exactly the initializers they read with their values, the declared outputs that have a tensor; every tensor it reads, produces or outputs has the same value as in the original for all inputs; loading and saving it again writes exactly the same file (without folding: from the second save on, or at once if every initializer is read). With shape_only all initializers become inputs. Initializers no node reads are written as graph inputs; outputs that no node reads or produces are not written.", "quantifier": "all model files, configurations, operator semantics and input values; any number of load/save rounds", "why_tests_cant": "Must hold for every graph and every history of load/save rounds.", "anchors": ["onnx_tool/graph.py:Graph.save_model", "onnx_tool/graph.py:Graph.make_graph_onnx", "onnx_tool/graph.py:Graph.get_initials_from_nodenames", "onnx_tool/graph.py:Graph.__init__"]}
{"id": "C76", "title": "Shape regression predicts the shapes shape inference computes", "statement": "If every dynamic dimension is a number or a function of one variable of the input description, and smallest, middle and largest value of each variable determine these functions and the fitted expressions (affine functions on multiples of a unit with slopes dividing one another; rounded-up quotients by strides that only grow by factors along the graph, with wide ranges ending at a common multiple), shape_regress returns an engine which, for all values of the variables in their domains (not only the sampled ones) and after any number of earlier update rounds, returns for every described input and dynamic tensor the shape shape_infer computes. Outside: slopes that do not divide one another give wrong (even negative) dimensions, a dimension that depends on two variables follows only the last one, equal values at both ends raise ZeroDivisionError, numeric variable names and undescribed unproduced tensors raise KeyError.", "quantifier": "all graphs, shape inference functions, input descriptions, ranges, later values of the variables and histories of updates", "why_tests_cant": "The prediction must be right for every value of every variable, while only three values per variable are sampled.", "anchors": ["onnx_tool/graph.py:Graph.shape_regress", "onnx_tool/graph.py:ShapeEngine", "onnx_tool/graph.py:ValueExpr"]}
{"id": "C75", "title": "Shape inference is independent of history and node order", "statement": "On a loaded, sorted graph whose nodes read what the operand table says, shape_infer(inputs) either raises ValueError (valid_shape stays False) or leaves tensors that satisfy every node's shape equation (and value equation for shape-computing nodes); this solution is unique, so the outcome does not depend on earlier successful or failed calls, on stale shapes or values of intermediate tensors, on the sorted order of the nodes, and a second call changes nothing. value_infer(inputs) likewise returns the same arrays whatever the intermediate tensors held. Symbolic or negative graph-input dimensions raise ValueError before any node runs.", "quantifier": "all graphs, all node behaviours that read only the documented operands, all input maps, all prior states and call histories (including failures), all topological orders", "why_tests_cant": "the tensors keep state between calls, so a test would have to enumerate every history of calls and every sorted order; a stale shape or a stale value is only visible after particular histories", "anchors": ["onnx_tool/graph.py:Graph.shape_infer", "onnx_tool/graph.py:Graph.value_infer", "onnx_tool/graph.py:Graph.update_input_by_map", "onnx_tool/graph.py:Graph.check_inputs", "onnx_tool/tensor.py:Tensor.get_numpy", "onnx_tool/tensor.py:Tensor.update_tensor"]}
{"id": "C77", "title": "Fusing post-ops keeps the graph", "statement": "fuse_postop_node_names(nodenames) replaces the named nodes by one node that keeps the name and operator of the first, reads exactly what the set reads from outside and writes exactly what outsiders (or the graph outputs) use; the other nodes, the producer/consumer indexes, the graph outputs and the producers-first order stay right; with append_attr the attributes record every fused post-op under consecutive numbers, across any sequence of fusions.", "quantifier": "every graph with distinct node names and unique producers, every non-empty list of existing node names, every attribute table", "why_tests_cant": "Depends on which tensors of the set are shared with the rest of the graph and on the history of earlier fusions; both are unbounded.", "anchors": ["onnx_tool/graph.py:Graph.fuse_postop_node_names"]}
{"id": "C78", "title": "remove_subtree removes exactly the descendants", "statement": "remove_subtree(name) removes the named node and exactly the nodes that depend on it directly or transitively, whatever order Python iterates its set in, leaving all other nodes, the indexes, and the other graph outputs as they were.", "quantifier": "every acyclic graph (possibly already shrunk since it was loaded), every node, every set iteration order, every recursion limit larger than the graph", "why_tests_cant": "Set iteration order is not controllable from a test, and the claim is about all graphs.", "anchors": ["onnx_tool/graph.py:Graph.remove_subtree"]}
{"id": "C79", "title": "Fixing the branch of If nodes keeps the graph", "statement": "Loading a model with if_fixed_branch set replaces every If node by the nodes of the selected branch: the new graph contains no If, its tensors have the values the old graph gives them when every If takes the selected branch, exactly the nodes that served only the condition are dropped, and every tensor that is still read, and every graph output, is still computed.", "quantifier": "every graph, any number of If nodes nested to any depth, every branch body, every assignment of values and every semantics of the other operators", "why_tests_cant": "Which nodes are dropped depends on how the condition's ancestors are shared with the rest of the graph and with the branch; the value claim ranges over all operators and inputs.", "anchors": ["onnx_tool/graph.py:Graph.__remove_if__", "onnx_tool/graph.py:Graph.__add_node_from_proto__", "onnx_tool/utils.py:ModelConfig.if_fixed_branch"]}
{"id": "C80", "title": "Fixing the K of TopK nodes keeps the graph", "statement": "Loading a model with fixed_topk = k makes every TopK node read its K from a new initializer holding k: every other node keeps its inputs and outputs, exactly the nodes that served only a K are dropped, the graph computes what it computed with K replaced by k, every tensor that is still read and every graph output is still computed, the call returns on every valid model and can be repeated.", "quantifier": "every graph with distinct node names and unique producers, any number of TopK nodes, every way their K is computed, every semantics of the operators", "why_tests_cant": "Which nodes are dropped, and whether the call raises, depends on how the tensors on the way to each K are shared with the rest of the graph.", "anchors": ["onnx_tool/graph.py:Graph.__set_fixed_topk", "onnx_tool/graph.py:Graph.update_graph", "onnx_tool/graph.py:Graph.add_initial"]}
{"id": "C81", "title": "Shapes of selecting, resampling and recurrent operators", "statement": "shape_infer predicts the shapes ONNX prescribes for TopK, Resize, Upsample, DepthToSpace, GridSample, RoiAlign, NonMaxSuppression (an upper bound that holds for every result), ArrayFeatureExtractor, LSTM and GRU, with every attribute and optional operand, and the cost of LSTM, GRU and Resize counts every multiplication of every direction.", "quantifier": "every shape, axis, scale, size, number of boxes and classes, every possible selection, any number of steps, directions and units", "why_tests_cant": "The defaults and the ways of giving sizes interact with ranks: the prediction is right for the common 4-D case and wrong for others; the bound for a data-dependent number of rows must hold for all data.", "anchors": ["onnx_tool/node.py:TopKNode.shape_infer", "onnx_tool/node.py:ResizeNode.shape_infer", "onnx_tool/node.py:DepthToSpaceNode.shape_infer", "onnx_tool/node.py:GridSampleNode.shape_infer", "onnx_tool/node.py:RoiAlignNode.shape_infer", "onnx_tool/node.py:NonMaxSuppressionNode.shape_infer", "onnx_tool/node.py:ArrayFeatureExtractorNode.shape_infer", "onnx_tool/node.py:LSTMNode", "onnx_tool/node.py:GRUNode"]}
{"id": "C82", "title": "graph_quantize replaces a weight by codes and scales that decode to it", "statement": "Calling graph_quantize(graph, t, block, type, bits) for a float matrix initializer t removes t from the initializers, adds t's codes, scales (and zero points for asymmetric quantization), rewires every reader of t to the new tensors, and the stored codes and scales decode to t, transposed exactly when the reader multiplies by t, with an error of at most half a scale; every other tensor and node is left alone, repeating the call does nothing, and the documented loop over graph.initials quantizes every weight.", "quantifier": "all graphs, all initializers, all matrix shapes and values, all block sizes, both quantization types, all bit widths, all call sequences", "why_tests_cant": "A test tries a few weight matrices with one reader; the claim is about every matrix, reader pattern and sequence of calls, and it fails for shared weights, for zero channels and for the documented loop.", "anchors": ["onnx_tool/quantization.py:graph_quantize", "benchmark/examples.py:graph_quantize loop"]}
{"id": "C83", "title": "Reported weight sparsity is the fraction of zero blocks of the reported size", "statement": "Loading a constant of two or four dimensions with more than 4096 elements records its sparsity: 'ratio' is the fraction of its elements that are zero (128 for uint8), and if that exceeds 40 %, 'blocksize' is a size that tiles the array and whose blocks are zero less than 10 % more rarely than the elements \u2014 the largest power of two along one axis, or square \u2014 and 'blockratio' is the fraction of the blocks of exactly that size that are zero.", "quantifier": "all matrices and four-dimensional weights, all values, all element types, all thresholds", "why_tests_cant": "A test checks a few pruned matrices; the report depends on the interplay of both axes, and is wrong for almost every convolution weight that is pruned along one axis only.", "anchors": ["onnx_tool/tensor.py:narray_calc_sparsity", "onnx_tool/tensor.py:search_sparse_blocksize", "onnx_tool/tensor.py:Tensor.sparsity_search"]}
{"id": "C84", "title": "The CSV profile report can be read back and its totals are exact", "statement": "print_node_map to a .csv file writes a table from which every node's name, operator, MACs (FLOPs: twice that), memory, parameters and shapes, and the totals, can be read back by splitting lines at commas; the totals equal the exact sums of the rows.", "quantifier": "all graphs, all node names and operators, all counts and shapes, both metrics, with and without sparsity columns", "why_tests_cant": "A test reads a few reports; names with separators and totals above 2^53 need not occur in it.", "anchors": ["onnx_tool/graph.py:Graph.print_node_map", "onnx_tool/utils.py:print_table", "onnx_tool/utils.py:tuple2str", "onnx_tool/utils.py:num2str"]}
{"id": "C85", "title": "model_profile calls are independent of each other", "statement": "Which operators a call of model_profile leaves out depends only on the arguments of that call: the hidden operators and the excluded ones; no call changes what another one reports.", "quantifier": "all sequences of calls with all combinations of exclude_ops and hidden_ops", "why_tests_cant": "A test calls model_profile once per process; the leak needs a history of calls.", "anchors": ["onnx_tool/__init__.py:model_profile", "onnx_tool/__init__.py:NoMacsOps"]}
{"id": "C86", "title": "Exporting tensors writes each initializer to its own file in the folder", "statement": "model_export_tensors_numpy(m, savefolder=f) writes every initializer (or every named one that exists) to exactly one file in the folder f, named after the tensor, holding its array (cast to float16 if asked and if it is float32 or float64), and touches no other file.", "quantifier": "all sets of initializers, all tensor names, all folders, all file systems", "why_tests_cant": "A test exports models with ordinary names; names that collide after replacing separators, or that contain both separators, do not occur in it.", "anchors": ["onnx_tool/__init__.py:model_export_tensors_numpy"]}
{"id": "C87", "title": "model_io_modify sets exactly the given shapes", "statement": "model_io_modify(m, out, {name: 'AxBxC'}) sets the dimensions of the graph inputs and outputs with these names to the given numbers and symbols and leaves all others alone; a text of another rank raises AssertionError.", "quantifier": "all inputs and outputs, all ranks, all shape texts", "why_tests_cant": "A test uses a few texts; the separator is a letter that occurs in dimension names.", "anchors": ["onnx_tool/__init__.py:model_io_modify"]}
{"id": "C88", "title": "Fusing the nodes between two sets of tensors fuses exactly these nodes", "statement": "Graph.fuse_subgraph_iotensors(inputs, outputs, op) describes the nodes between the tensors as a pattern that states exactly their operators and the tensors they exchange, finds these nodes again in the graph, and replaces them (and other occurrences of the same pattern) by one node each.", "quantifier": "all graphs, all input and output tensor sets, all names", "why_tests_cant": "A test fuses one region of one model; whether a region is found again depends on the shape of the region and on every other node of the graph that reads one of its tensors.", "anchors": ["onnx_tool/graph.py:fuse_subgraph_iotensors", "onnx_tool/fusion.py:create_descs_from_nodenames", "onnx_tool/fusion.py:FusionPattern.search_pattern"]}
{"id": "C89", "title": "Elementwise, reducing and selecting kernels fill exactly their slot of the memory pool", "statement": "When GraphInfer runs the kernel of Add, Sub, Mul, Div, Pow, Equal, Greater, Less, Where, Mod, Relu, Sigmoid, Tanh, LeakyRelu, Neg, Sqrt, Erf, Identity, Gelu, Silu, Clip, Cast, Softmax, Shape, ReduceMean, ReduceSum, ReduceMax, GlobalAveragePool, Tile, GatherElements, Mad, RangeGather or the fused Layernrom with an output slot of the inferred shape, the slot afterwards holds ONNX's result in row-major order and no other element of the pool has changed; operands ONNX does not allow are refused before anything is written.", "quantifier": "all operands (every rank, every size, every broadcast), all attributes, every address of the slot, every content of the pool", "why_tests_cant": "Broadcasting, axes and positions range over all shapes; a write outside the slot shows up only when another live tensor happens to lie there.", "anchors": ["inference/kernels.py: AddKernel, SubKernel, MulKernel, DivKernel, ReluKernel, LeakyReluKernel, ClipKernel, GlobalAveragePoolKernel, SoftmaxKernel, ShapeKernel, CastKernel, TileKernel, WhereKernel, EqualKernel, GreaterKernel, LessKernel, PowKernel, ErfKernel, ReduceMeanKernel, ReduceSumKernel, LayerNormKernel, MadKernel, RangeGatherKernel, GatherElementsKernel, ModKernel, ReduceMaxKernel", "onnx_tool/node.py: _broadcast_shape, ReduceMeanNode.shape_infer"]}
{"id": "C90", "title": "Reported MACs of elementwise, normalising, reducing, recurrent and quantised operators are those of their definition", "statement": "The MACs profile() reports for an elementwise operator are the documented unit costs of evaluating its function, once for every element of the output (for Sum: once for every further operand); for reductions, global pooling, layer normalisation, LSTM, GRU, QLinearMatMul, QLinearConv and ConvInteger they are the operations of the operator's definition; and they are additive in the batch size.", "quantifier": "all operators of the tables, shapes, numbers of operands, attributes, batch sizes and sequence lengths", "why_tests_cant": "unbounded shapes, ranks and numbers of operands; the cost must be the one of a program that computes the function for every real argument", "anchors": ["onnx_tool/node.py:PWNode._profile_core", "onnx_tool/node.py:NpMathBase._profile_core", "onnx_tool/node.py:SumNode", "onnx_tool/node.py:TanhNode", "onnx_tool/node.py:LayerNormalizationNode._profile_core", "onnx_tool/node.py:LSTMNode._profile_core", "onnx_tool/node.py:GRUNode._profile_core", "onnx_tool/node.py:QLinearMatMulNode._profile_core", "onnx_tool/node.py:QLinearConvNode._profile_core", "onnx_tool/node.py:ConvIntegerNode._profile_core", "onnx_tool/node.py:ResizeNode._profile_core"]}
{"id": "C91", "title": "Exporting part of a graph gives a model that computes the same values", "statement": "get_onnxgraph_by_nodenames(names) returns a valid model with exactly the named nodes, producers first, the initializers they read and as interface exactly the tensors that cross the border of the set (and the model's outputs); run on the values its inputs have in the whole model it computes the same values. Exporting the three levels of a split at given tensors and running them one after the other computes every tensor of the whole model.", "quantifier": "all valid model files, load configurations, node lists in any order, boundary tensors, input values and operator semantics", "why_tests_cant": "sets of nodes and graphs are unbounded; that nothing needed by a later part is missing from an earlier part's declared outputs must hold for every graph", "anchors": ["onnx_tool/graph.py:Graph.get_onnxgraph_by_nodenames", "onnx_tool/graph.py:Graph.make_graph_onnx", "onnx_tool/graph.py:Graph.get_initials_from_nodenames", "onnx_tool/graph.py:Graph.get_iotensors", "onnx_tool/graph.py:Graph.topsort_nodes", "onnx_tool/graph.py:Graph.get_subgraph", "onnx_tool/__init__.py:model_subgraph"]}
{"id": "C92", "title": "Command line arguments denote the tensors they describe", "statement": "For python -m onnx_tool, --dynamic_shapes name:type:AxBxC gives the zero tensor of that type and shape under that name, name:type:AxBxC:v1xv2x... the tensor with these values in row-major order, a wrong number of values is refused, the last argument for a name counts, name:shape sets exactly that shape in io_modify mode, and --exclude-ops a,b excludes exactly these operator types.", "quantifier": "all names, types, ranks, sizes, values and argument lists", "why_tests_cant": "texts, ranks and sizes are unbounded", "anchors": ["onnx_tool/__main__.py:__str2numpytype__", "onnx_tool/__main__.py:__str2list__", "onnx_tool/__main__.py:__args2dynamicshapes__", "onnx_tool/__main__.py:__args2strshapes__", "onnx_tool/__init__.py:model_io_modify"]}
{"id": "C93", "title": "A memory pool behaves like a set of independent tensors over its whole history", "statement": "For a pool whose blocks do not overlap, after any sequence of get, writes through views obtained earlier, fill_tensor, zero_ and to: every call raises exactly when the specification says so and every tensor holds the bytes last written to it (by fill_tensor or through a view obtained since the last device change) or zero after zero_. fill_tensor stores exactly the first numel values in order, never touches another tensor that is live at the same node in a plan of compress_memory, and refuses (without effect) too few values other than one.", "quantifier": "all plans, pool contents, element sizes, histories of operations", "why_tests_cant": "histories and plans are unbounded", "anchors": ["inference/memory_pool.py:MemoryPool.get", "inference/memory_pool.py:MemoryPool.fill_tensor", "inference/memory_pool.py:MemoryPool.zero_", "inference/memory_pool.py:MemoryPool.to"]}
{"id": "C94", "title": "Dumped tensors are additional outputs", "statement": "add_dump_tensors(names) appends exactly the named existing tensors that are no outputs yet, each once, in order of mention; several calls are one call. value_infer then returns the same arrays as before followed by the array each dumped tensor got from its node in this call; saving writes the same nodes, initializers, inputs and values with the dumped tensors as further outputs; and the memory plan and inference engine return the dumped values too.", "quantifier": "all graphs, lists of names, node behaviours, inputs and tensor states", "why_tests_cant": "graphs and name lists are unbounded", "anchors": ["onnx_tool/graph.py:Graph.add_dump_tensors", "onnx_tool/graph.py:Graph.value_infer", "onnx_tool/graph.py:Graph.make_graph_onnx", "onnx_tool/graph.py:Graph.compress_memory"]}
{"id": "C95", "title": "The Resize kernel resamples as its attributes say", "statement": "Running a Resize node of the inference engine fills the output with the input resampled to the planned shape: nearest takes the element at floor(index * in/out) of every axis (ONNX's default nearest exactly when, on every axis, the size is kept or multiplied as characterised), linear interpolates between half-pixel neighbours (aligned corners only for a str attribute), scales with whole results are the same as sizes, unsupported ranks raise without writing.", "quantifier": "all operands of any shape and content, all output sizes, modes and coordinate attributes", "why_tests_cant": "sizes, contents and scale ratios are unbounded", "anchors": ["inference/kernels.py:ResizeKernel"]}
{"id": "C96", "title": "The TopK kernel returns the k best elements and their positions", "statement": "Running a TopK node of the inference engine fills the first output with the k largest (or smallest) elements of every fibre along the axis in order and the second output, if any, with positions that hold these elements, which are ONNX's positions when no two elements of a fibre are equal; everything outside both slots is unchanged; a wrong axis, a wrong k or a K input that is not one number raises.", "quantifier": "all operands, axes, k, attributes and every behaviour of torch.topk its documentation allows", "why_tests_cant": "shapes, contents and k are unbounded, and torch may choose among equal elements as it likes", "anchors": ["inference/kernels.py:TopKKernel"]}
{"id": "C97", "title": "A tensor describes the data it holds", "statement": "After any sequence of update_tensor, update_proto, update_shape, update_dtype and get_numpy calls on a Tensor, the shape, element type and memory size it reports, and the value info and tensor proto it writes, are those of the data it holds; get_numpy returns the data put in last, in the reported shape, and reading changes nothing.", "quantifier": "every tensor (made by name, from a value info, a tensor proto or one of the create functions), every array, every sequence of calls", "why_tests_cant": "the state after a call depends on the whole history (shape, dtype and data are set independently); tests check single calls", "anchors": ["onnx_tool/tensor.py:Tensor", "onnx_tool/tensor.py:create_tensor", "onnx_tool/tensor.py:create_initial_Tensor", "onnx_tool/tensor.py:create_dynamic_Tensor", "onnx_tool/tensor.py:volume"]}
{"id": "C98", "title": "Nodes and their attributes survive loading and saving", "statement": "Loading a model and saving it keeps of every node the operator, its domain, name, inputs, outputs and all attributes with type and value; attributes set with set_attr are written, defaults are not; fusing nodes carries their attributes over under prefixed names; the saved file has the format version and operator sets of the loaded one. node.attr and the fields of a node give the values of the file, defaults only for absent attributes.", "quantifier": "every node, every list of attributes of every type, every sequence of set_attr and add_default_value calls", "why_tests_cant": "the values are re-typed by inference from Python values when written; tests use the attributes of a few models and no empty lists, foreign domains or unusual names", "anchors": ["onnx_tool/node.py:Node", "onnx_tool/node.py:Node.make_nodeproto", "onnx_tool/tensor.py:get_attribute_data", "onnx_tool/graph.py:Graph.fuse_subgraph_node_names", "onnx_tool/graph.py:Graph.save_model", "onnx_tool/model.py:Model.save_model"]}
{"id": "C99", "title": "Detections of an image", "statement": "yolo_postprocess returns exactly the greedy per-class choice: every detection is the part inside the image of a row surer than conf_thres and not empty, no row gives two, two detections of one class overlap by at most iou_thres, every other candidate overlaps a detection of its class that is at least as sure by more than iou_thres (or the max_det limit is reached and all detections are at least as sure), there are at most max_det, and giving the detections back returns them unchanged. The overlap is the area of the intersection over the area of the union.", "quantifier": "every output array (any number of rows, any values), image size, thresholds, limit, and every sort by falling confidence", "why_tests_cant": "greedy suppression depends on the whole order of confidences and on all pairwise overlaps; a test checks a few images", "anchors": ["inference/yolo_eval.py: yolo_postprocess, _nms_per_class, _box_iou"]}
{"id": "C100", "title": "Average precision of detections", "statement": "compute_coco_metrics gives, for each IoU threshold, the mean over the annotated classes of the 101-point average precision of the greedy matching: predictions of a class in order of falling score each take the free annotation of their class and image that overlaps most, if the overlap reaches the threshold, so that no annotation is taken twice, recall is at most one and the value lies between 0 and 1; the overall value is the mean over the thresholds; an errorless detector gets 1; the order of images does not matter.", "quantifier": "every list of images with detections, every list of annotations, number of classes, and list of thresholds", "why_tests_cant": "the metric depends on the whole order of scores and on all overlaps; a test checks a handful of boxes", "anchors": ["inference/yolo_eval.py: compute_coco_metrics, _compute_ap"]}
{"id": "C101", "title": "Evaluating a detector on images", "statement": "load_image gives an array of exactly the network's input size with the image scaled by one largest factor in the middle, grey around and values divided by 255; the boxes drawn on the original image are the detections taken back exactly; evaluate_coco and evaluate_image_dir compare each image's detections with that image's annotations, in the same coordinates and classes, over the images evaluated, so that an errorless network gets the full value.", "quantifier": "every image size and input size, every list of images, annotations and network outputs", "why_tests_cant": "a test fixes image sizes, ids and classes; the coordinate systems and id spaces agree only for special ones", "anchors": ["inference/yolo_eval.py: load_image, YOLOEvaluator.evaluate_coco, YOLOEvaluator.evaluate_image_dir, YOLOEvaluator._save_annotated_image"]}
{"id": "C102", "title": "Element types after shape inference", "statement": "After shape_infer() every tensor of the graph has the element type ONNX gives it: for every operator and every output, the reported type is the one the ONNX operator documentation derives from the types of the node's inputs and its attributes; tensors no node produces keep their type; memory figures follow from these types.", "quantifier": "every registered operator, every input type, attribute and number of outputs; every sorted graph", "why_tests_cant": "about 150 operators times input types times optional inputs and outputs times arbitrary graphs; the element type of an intermediate tensor is visible only in memory figures, and tests look at shapes", "anchors": ["onnx_tool/node.py:Node.shape_infer", "onnx_tool/node.py:LessNode", "onnx_tool/node.py:RoundNode", "onnx_tool/node.py:QLinearConvNode", "onnx_tool/node.py:CastNode", "onnx_tool/node.py:ReduceMeanNode", "onnx_tool/tensor.py:onnxdtype2npdtype", "onnx_tool/graph.py:Graph.shape_infer"]}
{"id": "C103", "title": "Quantized operators have the shape and cost of the operators they replace", "statement": "shape_infer() gives QLinearConv and ConvInteger the output shape a Conv with the same attributes, data and weight gets, and QLinearMatMul and MatMulInteger that of the MatMul of the same operands; profile() charges them the same MACs (with a bias if there is one).", "quantifier": "all attributes (padding, strides, dilations, auto_pad), all shapes of data and weight of any rank, all optional operands", "why_tests_cant": "unbounded shapes and attribute combinations; quantized models in the test set use two-dimensional convolutions with explicit padding and unbatched weights", "anchors": ["onnx_tool/node.py:QLinearConvNode", "onnx_tool/node.py:ConvIntegerNode", "onnx_tool/node.py:QLinearMatMulNode", "onnx_tool/node.py:MatMulIntegerNode", "onnx_tool/node.py:ConvNode"]}
{"id": "C104", "title": "What an LLM session tells the engine about the model's inputs", "statement": "LLMInfer(onnx_path, max_seq_len) describes the model's inputs to the engine: every fed input named ids, position or kv_cache with a declared shape is described with its rank; known sizes are kept and unknown sizes become variables; every variable of a description has a range and every range belongs to a variable in use; n_past is a scalar. With unknown sizes the ranges go from 1 to max_seq_len (32 times that for the cache); with fixed shapes only the last dimension of the token inputs becomes the variable seq, bounded by the declared size of the token input listed last, and max_seq_len plays no role. Inputs under other names are not described (except by the two-input fallback when no name is understood).", "quantifier": "all lists of model inputs and constants, all declared shapes (numbers, symbolic or unknown dimensions, any rank), all values of max_seq_len", "why_tests_cant": "the outcome depends on the combination of names, order and declared shapes of all inputs of an arbitrary model", "anchors": ["inference/llm_infer.py: LLMInfer.__init__", "onnx_tool/tensor.py: shape_of_tensor"]}
{"id": "C105", "title": "Reordering and constant folding a model file", "statement": "model_reorder_nodes(m, path) and model_constant_folding(m, path) write a valid model that computes the same outputs: reordering keeps every node, puts producers before consumers, and keeps the values of all tensors; folding removes exactly the nodes whose results do not depend on an input, stores their results as initializers where they are still read, and keeps the other nodes in order; a further run of either tool on its own result changes nothing.", "quantifier": "all acyclic model files with distinct node names, in any node order, with or without unnamed nodes, unread initializers and optional operands; any operator semantics that does not look at node names", "why_tests_cant": "The two tools are compositions of load, sort or fold, and save; a test sees one file, but node loss, lost outputs and non-idempotence depend on the shape of the whole graph.", "anchors": ["onnx_tool/__init__.py: model_reorder_nodes, model_constant_folding, loadmodel", "onnx_tool/model.py: Model.save_model", "onnx_tool/graph.py: graph_reorder_nodes, save_model, make_graph_onnx"]}
{"id": "C106", "title": "Super-resolution of images of any size", "statement": "SREngine.process returns, for every RGB image up to the size given to initialize, the network's enlargement of that image: the result has scale times the width and height, no pixel is moved, changed or lost by padding, conversion and cropping (a network that only repeats pixels gives the image with repeated pixels), padding is not seen away from the border, pixels are the network's values in the nearest of 256 steps, and the scale is the model's.", "quantifier": "all image sizes and contents, all networks, float32 and float16, all file names and maximum sizes", "why_tests_cant": "Padding and cropping depend on the residues of height and width, conversion on every one of 256 values and the rounding of the element type, the scale on arbitrary file names.", "anchors": ["inference/sr_gui.py: SREngine.process, SREngine._detect_scale, SREngine.initialize, tensor_to_image, image_to_tensor", "inference/test_super_resolution.py: get_model_info"]}
{"id": "C107", "title": "Attributes that are left out have ONNX's defaults", "statement": "A node that leaves out an optional attribute is treated exactly as one on which ONNX's default value is written down, for every operator, number of axes and combination of the other attributes; an attribute that is given is used as given.", "quantifier": "all registered operators with optional attributes the tool reads, all ranks, all sets of other attributes", "why_tests_cant": "Most exporters write defaults explicitly, so tests rarely leave attributes out, and never in all combinations and ranks.", "anchors": ["onnx_tool/node.py: Node.__init__, Node.add_default_value, constructors of all node classes, SplitNode.shape_infer, TopKNode.shape_infer, SoftmaxNode.value_infer, ResizeNode._profile_core, PadNode.value_infer"]}
{"id": "C108", "title": "Activated parameters are the worst-case weights a forward pass reads, and never exceed the model's parameters", "statement": "For a decoder built from a configuration, the activated parameter count (sum of the nodes' static parameters after profiling) is the largest number of distinct weights that a forward pass over batch x seq tokens can read, over all token ids and all choices of k different experts per token and layer; it is exact for one token, grows with the sequence, and is at most the total parameter count, which is the number of parameters of the architecture.", "quantifier": "every configuration (ordinary, latent attention, delta nets), every weight map with distinct names, batch size, sequence length, number of experts and experts per token, every assignment of tokens to experts in every layer and every token ids", "why_tests_cant": "the set of possible expert choices is exponential in tokens and layers, and configurations are unbounded; the benchmark prints figures for four models", "anchors": ["benchmark/moe_activated_params.py: get_activated_params", "onnx_tool/node.py: MoENode.profile, GatherNode.profile, RopeNode.profile", "onnx_tool/graph.py: Graph.profile", "onnx_tool/llm.py: Builder.build_graph"]}
{"id": "C109", "title": "A checkpoint is loaded completely into the decoder built for it", "statement": "Reading the safetensors checkpoint of a Qwen-style model (with or without tied embeddings, projection biases, query/key norms) into the decoder graph the builder makes for the same configuration gives every weight the shape it was built with and marks it for loading; nothing else changes; afterwards every projection computes x\u00b7W\u1d40+b with the stored weight and bias, and the embedding and norm scales reach the kernels as stored. In general, a tensor of unknown shape gets the shape of its checkpoint entry with rows and columns exchanged exactly when it is first read by a matrix product.", "quantifier": "all configurations of the family (any sizes, any number of layers), all checkpoints with the right entries, all node orders of the loaded file; for the general part all graphs, checkpoints and name maps", "why_tests_cant": "Tests load one published model; the claim is about every size, every layer count and every optional part.", "anchors": ["inference/infer.py:_update_weight_shapes_from_safetensors", "inference/infer.py:_transpose_safetensors_shape", "inference/llm_infer.py:get_qwen3_weight_map", "onnx_tool/llm.py:Builder.build_graph"]}
{"id": "C110", "title": "Profiles, overlap warnings and comparisons describe the run that happened", "statement": "For every profiled run of the inference engine: the time and count shown for an operator are those of exactly its nodes; operator times add up to the kernel total, counts to the number of nodes, the three parts of the overhead to the overhead, and kernel and overhead percentages to 100; the table has one line per operator in descending order; the slowest-nodes list holds the ten slowest nodes; and with a clock that never runs backwards the total is at most the elapsed time. Printing a profile never fails. The overlap check warns exactly when two different tensors of a node share memory. The summary's operator counts and largest tensor are those of the graph. compare_outputs accepts two outputs exactly when they agree within the tolerances, whichever is passed first. (Refuted parts: a total of 0 raises ZeroDivisionError; a node reading one tensor twice is reported as overlapping; the tolerance is relative to the second array only; equal empty outputs raise ValueError; a summary without pooled tensors raises ValueError.)", "quantifier": "all runs (any number of nodes, operators and clock readings), all block tables and nodes, all pairs of arrays and tolerances", "why_tests_cant": "Clock readings, graphs and arrays are unbounded; a test sees a few runs on one machine.", "anchors": ["inference/infer.py:forward", "inference/infer.py:print_profile", "inference/infer.py:_check_overlap", "inference/infer.py:print_summary", "inference/compare.py:compare_outputs"]}
{"id": "C111", "title": "Removals work after other edits", "statement": "After any sequence of editing calls on a loaded graph (remove_node, remove_subtree, remove_dangling_nodes, skip_node/removeShapeOps, fuse_subgraph_node_names, fuse_postop_node_names, update_tensor_relations), remove_subtree(name) returns and removes exactly the named node and the nodes that depend on it in the graph as it is then, and remove_dangling_nodes() returns and keeps exactly the nodes that the graph outputs need. (Proved for sequences of removals; refuted after a fusion, which leaves lists in the links that both calls follow, and after skip_node, which does not update the links: a needed node is then removed and readers of a removed node are kept.)", "quantifier": "all graphs, all histories of editing calls, all iteration orders of Python sets", "why_tests_cant": "The calls are tested one at a time on a freshly loaded model; the claim is about every combination and order of calls on every graph.", "anchors": ["onnx_tool/graph.py:remove_subtree", "onnx_tool/graph.py:remove_dangling_nodes", "onnx_tool/graph.py:fuse_subgraph_node_names", "onnx_tool/graph.py:fuse_postop_node_names", "onnx_tool/graph.py:skip_node", "onnx_tool/fusion.py:removeShapeOps"]}
{"id": "C112", "title": "Running a model file end to end", "statement": "Building an inference engine from a model file and calling it returns, for every declared output that a node of the engine produces and no node reads, exactly the value that the file itself computes for the given inputs: constant folding, reordering, removal of the shape computation, memory reuse and earlier contents of the pool make no difference. Which nodes run: none that only compute shapes, and (single outputs, no output read) all others an output needs. The constructor fails only when there is no intermediate tensor.", "quantifier": "all valid files with distinct node names, all operator semantics, all tensor sizes, all supplied inputs, all orders in which the set of shape tensors is visited, all earlier contents of the pool", "why_tests_cant": "Each stage is tested alone at best; the composition over all graphs, sizes and pool histories cannot be enumerated", "anchors": ["inference/infer.py:GraphInfer.__init__", "inference/infer.py:GraphInfer.forward", "onnx_tool/graph.py:Graph.__init__", "onnx_tool/graph.py:Graph.get_compute_graph", "onnx_tool/graph.py:Graph.compress_memory"]}
{"id": "C113", "title": "Profile of decoders with latent attention and gated delta nets", "statement": "Profiling the graph built from any decoder configuration, each layer being ordinary attention, multi-head latent attention (with or without key/value compression and indexer) or a gated delta net, with dense or expert feed-forward blocks, with or without a key/value cache, succeeds, and the totals of MACs, of matrix-product MACs, of weights read, of other constants read, of elements written and of cached elements are the closed forms of the architecture: stage by stage for latent attention, all weights of fused blocks whatever the sequence length. MACs are proportional to the batch, never fall when the sequence grows, and agree with the forms for ordinary decoders.", "quantifier": "all configurations and weight maps with distinct names, all batch sizes, sequence lengths, numbers of layers and mixtures of layer kinds, all node attributes (compression ratio, window, indexer, kernel), all cache sizes that fit", "why_tests_cant": "The kinds of layers combine freely with every flag and size; no finite set of configurations covers the formulas, and no reference figures exist for such models", "anchors": ["onnx_tool/node.py:MLANode.profile", "onnx_tool/node.py:GDNNode.profile", "onnx_tool/llm.py:Builder.add_mla", "onnx_tool/llm.py:Builder.add_gdn", "onnx_tool/llm.py:Builder.add_layers", "onnx_tool/graph.py:Graph.profile"]}
{"id": "C114", "title": "The exception tells the cause", "statement": "For a set of calls whose failures are total functions of their arguments, the exceptions raised and their causes are in exact correspondence: planning memory (with and without a key/value cache) raises ZeroDivisionError exactly for size_padding 0 with something to place or when the internal tensors occupy 0 bytes, KeyError exactly when an internal tensor is missing from tensormap; a registry lookup raises KeyError exactly for unknown names; evaluating a dimension formula raises only for a division by 0; raw tensor data is refused with ValueError exactly when its length is no multiple of the item size; shape and value computations (GatherND, ConstantOfShape, global average, padding, Gemm, max shape, unknown auto_pad) raise the documented exception exactly for the documented arguments; removing an unknown node is a no-op while skipping one raises KeyError; skipping, removing and fusing on broken indices raise the exception of the first broken entry.", "quantifier": "all graphs, memory sizes, paddings, registries, formulas, byte strings, shapes and tensors; for edits, all graphs with the stated defect", "why_tests_cant": "Callers branch on the exception type; a test sees one failing argument and one type, not that no other argument raises it and no other type is ever raised.", "anchors": ["onnx_tool/graph.py:compress_memory", "onnx_tool/graph.py:remove_node", "onnx_tool/graph.py:skip_node", "onnx_tool/utils.py:Registry", "onnx_tool/node.py", "onnx_tool/fusion.py:ConvBNFusion", "onnx_tool/tensor.py", "inference/kernels.py", "inference/memory_pool.py"]}
{"id": "C115", "title": "A pool made for a range of sizes serves every size in it", "statement": "create_memory_pool_from_model and GraphInfer take an input description with variables and a range for each; the pool they create hands out every planned tensor in the size it has for any values of the variables within the ranges, and tensors live at the same node never share bytes, whatever sizes are asked for.", "quantifier": "all graphs, shape functions, input descriptions, ranges, values within them, tensors and element sizes", "why_tests_cant": "A test runs a few sizes of one model; whether the planned slots suffice depends on which values of several variables the plan was made for and on every size in the ranges.", "anchors": ["inference/memory_pool.py:create_memory_pool_from_model", "inference/infer.py:GraphInfer.__init__", "onnx_tool/graph.py:shape_regress", "onnx_tool/graph.py:compress_memory"]}
{"id": "C116", "title": "Larger inputs never make a tensor smaller", "statement": "Running shape inference on the same network twice, the second time with inputs that are nowhere smaller, gives tensors that are nowhere smaller, provided every operator of the network is one that rises: broadcasting elementwise operators, Expand, Transpose, Gather, Squeeze/Unsqueeze, reductions with axes, Pad, Concat, OneHot, Conv/ConvTranspose/pooling with positive strides, MatMul/Gemm, Split by given sizes, Resize by scales, DepthToSpace, Reshape to a given target, TopK with a given k, and Slice unless its start counts from the end while its end counts from the front. Consequently the memory pool an inference engine plans for the largest value of every variable hands out every tensor for every size in the announced ranges. Slice [-3:2], an uneven default Split and operators that take the largest operand's shape do not rise, and with such a Slice the engine's pool refuses smaller inputs.", "quantifier": "every sorted network of rising nodes, every pair of input sizes one fitting into the other, every announced range of sizes, every attribute of the operators", "why_tests_cant": "a test runs shape inference for a few sizes; that the plan for the largest size suffices for every size is a statement about all pairs of sizes and all networks", "anchors": ["onnx_tool/graph.py:shape_infer", "onnx_tool/graph.py:shape_regress", "onnx_tool/node.py", "inference/infer.py:GraphInfer.__init__", "inference/memory_pool.py:MemoryPool"]}
{"id": "C117", "title": "The exported curve of a detector has one correct point per threshold and never rises", "statement": "export_pr_curve writes exactly num_thresholds points, whose thresholds are equally spaced and strictly rising from 0.01 to 0.99. The num_detections of a point is the number of output rows, over all images that are run, whose score is at least the threshold. Its mAP@0.5 is the mean, over the classes below 80 that have an annotation, of the average precision of the greedy matching at overlap 0.5 of the rows at or above the threshold, ranked by score with ties in their original order. Along the curve neither number ever rises, and every value lies in [0, 100/101]. The export fails exactly when an output that is looked at has rows of fewer than six columns or an empty batch (IndexError), or num_thresholds is negative. Findings: annotations of images beyond max_images count as missed, which bounds the whole curve by their share; rows are judged without suppression and in letterbox coordinates, so repeated boxes lower the value and an errorless network gets zero on images of other sizes; a narrow output raises although evaluate_coco takes it as empty; the file contains neither precision nor recall.", "quantifier": "every network output (matrix or stack, any number of rows, any scores and boxes), every list of images with or without files, every set of annotations, every max_images and num_thresholds", "why_tests_cant": "that the value falls along the curve for all outputs needs the greedy matching of a shorter list to be the front part of that of the longer one for every tie pattern; tests see single data sets", "anchors": ["inference/yolo_eval.py: export_pr_curve", "inference/yolo_eval.py: compute_coco_metrics"]}
{"id": "C118", "title": "The window of the super-resolution tool shows and saves the result of the image that was opened, under every schedule of its threads", "statement": "After any history of opened files and any interleaving of the background threads, the image shown is that of the last readable file and every stored result is the result of one of the opened images. Every thread ends after at most four steps. If an image is opened while no thread is inside the network, then under every schedule, once all threads have ended, the stored result is that of this image, and (no thread being inside the bicubic enlargement) the comparison is its comparison, and Save proposes its name. Findings: if a thread is inside the network when the next image is opened, there is a schedule that ends with the new image, the old result, and Save writing the old result under the new name (exact condition); if the network fails on an image the previous result stays and is saved under the new name; a file that cannot be read changes only the name under which the previous result is saved.", "quantifier": "every history of opened files (readable or not), every number of threads, every interleaving of their steps, every tool (reader, network, enlargement)", "why_tests_cant": "races depend on the interleaving of threads; a test sees one schedule, and the failing ones need a precise overlap", "anchors": ["inference/sr_gui.py: SRApp._on_open, _process_in_thread, _on_save"]}
{"id": "C119", "title": "Super-resolution of a folder gives every image its result, and a batch that is cut off leaves only finished files", "statement": "The images taken from a folder are exactly its files with one of the six endings in lower or upper case that do not begin with a dot, each once, in the order of their names. A batch ends without an exception exactly when every image can be read, processed and compared; then every image that is the last of its stem has its result and comparison in the output folder and no other file there has changed. Wherever the program ends (images of distinct stems): all images up to some place of the order have both files right, the next one's comparison is untouched and its result untouched or right, and everything later and every other file is as before. An image that cannot be read or processed ends the batch with that exception, the images before it finished and those after it untouched. (Two images that differ only in their ending overwrite each other's files while the batch reports success; one bad file stops the rest; endings in mixed case are left out.)", "quantifier": "every folder, every old content of the output folder, every reading, network and comparison function, and every crash point", "why_tests_cant": "it ranges over all folders and over every moment at which the program may be ended", "anchors": ["inference/sr_gui.py: SRApp._on_batch"]}
{"id": "C120", "title": "The cost of a batch", "statement": "A network whose nodes work sample by sample (Conv, ConvTranspose, pooling, Gemm and MatMul with weights, MatMul of stacks, element-wise operators, Concat, Transpose, Reduce, Pad, Reshape, Gather, Squeeze, Unsqueeze, OneHot, Split, Slice, DepthToSpace, Resize by factors and TopK that leave the batch in front), profiled with one batch size: with every other batch size shape inference and profile succeed too, every tensor has the same shape but for the batch, the parameters are the same, and the MACs are a fixed part (the nodes that do not see the batch) plus a cost per sample times the batch size; profiled with one sample, they are the batch size times those of the sample.", "quantifier": "every sorted graph of such nodes, every pair of positive batch sizes, every shape of a sample, all attributes of the operators", "why_tests_cant": "a test profiles a few models with a few batch sizes; that the cost is proportional to the batch for every model and every batch size (what users assume when they scale a profile of one sample) is a statement about all of them", "anchors": ["onnx_tool/graph.py: Graph.shape_infer, Graph.profile", "onnx_tool/node.py: Node.profile, ConvNode, PoolBase, GemmNode, MatMulNode, ReshapeNode, ConcatNode, TransposeNode, ReduceMeanNode, PadNode, _broadcast_shape"]}
{"id": "C121", "title": "How long a result is valid", "statement": "forward returns views of the memory pool, not copies: at return they hold the outputs, and after any later call with the same dimensions a kept result shows the outputs of the later call (with other dimensions, their beginning). Results may be fed back as inputs exactly as copies of them, provided no given tensor lies where an input that precedes it in the dict is stored and none overlaps its own input in part; otherwise states are mixed up without an exception.", "quantifier": "all engines in the state of any history of calls (failed ones included), all pairs of calls, all memory contents; for feeding back: all engines, all states and all calls that give own tensors or views of pooled inputs", "why_tests_cant": "whether a kept result survives depends on the plan of the pool and on every call made later; a test reads the result at once", "anchors": ["inference/infer.py: GraphInfer.forward, GraphInfer.get_tensor, GraphInfer._tensor_views", "onnx_tool/graph.py: Graph.compress_memory"]}
{"id": "C122", "title": "Calls from several threads", "statement": "forward may be called from several threads if calls on one engine do not overlap: then, whatever the schedule and however many engines, each call that ends has the result of the call made alone after the calls on its engine that began before it; with an engine per thread it has the result it has alone. If calls on one engine overlap, a call can return another call's result or a wrong number of elements, raise IndexError, or leave the engine returning wrong results from then on.", "quantifier": "all schedules (interleavings of the steps of forward), any number of threads and engines, all engine states, all kernels, inputs and failures", "why_tests_cant": "the result depends on where the scheduler switches; a test sees one interleaving", "anchors": ["inference/infer.py: GraphInfer.forward, GraphInfer._update_shape_from_input, GraphInfer._last_node_tensors", "inference/sr_gui.py: SRApp._process_in_thread, SRApp._on_batch, SRApp._on_profile"]}
{"id": "C123", "title": "The accuracy reports", "statement": "test_accuracy.py: max_diff is 0 exactly when the engine's outputs are the reference's, a reported number bounds the difference of every element and is reached, and it is NaN exactly when there is a NaN; mean_diff lies between the mean difference and max_diff; a cosine is between -1 and 1; running in batches of any positive size gives the outputs of the images one by one; if the reference prefers one class by more than twice max_diff the predictions are the same; no sample that is not listed among the worst has a larger difference. compare.py: a comparison passes exactly for outputs of one shape within the tolerances, and all tests pass exactly if the four comparisons on one device pass. test_multi_resolution.py: the outputs match exactly if all differences of all images are below 1e-4.", "quantifier": "all outputs of both networks (any number of samples and elements, NaN included), all batch sizes and numbers of images, all orders numpy may sort ties in, all tolerances", "why_tests_cant": "these scripts are the tests: what their verdict means, and what it lets through, is a statement about all outputs they may be given", "anchors": ["inference/test_accuracy.py: compare_outputs, print_worst_samples, main", "inference/compare.py: compare_outputs, main", "inference/test_multi_resolution.py: main"]}
{"id": "C124", "title": "The numbers of the benchmarks", "statement": "benchmark_xpu.py: the rate times the time of an iteration is twice the MACs the profiler counts for the same MatMul or convolution (whose output size is the inferred one), the TFLOPS column is the rate in units of 10^12, and a shown time is the time. The shown rate should be the rate. compare.py: totals, percentages and the average per node of the engine's overhead are those of the profiled run, and the printed shares add up to 100. plot_xpu_memory.py: every value is drawn inside the chart, in proportion to it.", "quantifier": "all sizes of matrices and convolutions whose kernel fits, all positive strides, all measured times, iterations and rates, all profiled runs, all memory values", "why_tests_cant": "timings differ from run to run; that what is printed follows from what was measured is a statement about all of them", "anchors": ["inference/benchmark_xpu.py: format_flops, format_time, benchmark_gemm, benchmark_conv2d", "inference/compare.py: profile_graphinfer_overhead, main", "inference/plot_xpu_memory.py: main"]}
{"id": "C125", "title": "What the LLM command loads", "statement": "The LLM command (inference/llm_infer.py) decides from its options and the disk what it loads. Weights: a model directory with a safetensors file supplies them, model.safetensors first, whatever the cache has; else the snapshot with the greatest name among those of the named model that have weights, then of the name with -Base; nothing is found exactly when none of these places has such a file. Configuration: a model directory's config.json, with head_dim filled in, and without a directory only the two supported names with the built-in one; only the three supported architectures start. ONNX: the path that is given, else the alphabetically first of the model directory, else (only without a directory) one of the working directory, kvcache models first, else an exported one. A command that does not start fails before loading. The files that are used belong to one model and do not depend on the order in which directories are listed.", "quantifier": "every command line, directory content and listing order, cache content, configuration, and state of the cache after a download", "why_tests_cant": "a test has one machine's directories, cache and listing order; the order of os.listdir and glob and what else lies in the cache or the working directory differ per machine", "anchors": ["inference/llm_infer.py: get_safetensors_path, main, SUPPORTED_MODELS"]}
{"id": "C126", "title": "Calls on one graph object do not depend on the calls before: node objects", "statement": "Node objects are kept between calls of shape_infer and value_infer, and Squeeze and TopK write to themselves while inferring. Nevertheless every series of such calls on one graph object, with whatever inputs and also if some of them fail, leaves the tensors and raises the exceptions it would with node objects made anew for every call; so a later shape_infer has the result it would have on the graph as loaded.", "quantifier": "every graph, every table of attributes, every finite series of calls with arbitrary inputs (including failing calls), every starting state of the tensors, and every behaviour of the stateless operators", "why_tests_cant": "the state a node carries shows only for particular sequences of input shapes; tests infer each model once or twice", "anchors": ["onnx_tool/node.py: SqueezeNode, TopKNode", "onnx_tool/graph.py: Graph.shape_infer, Graph.value_infer"]}
{"id": "C127", "title": "The window says how its work ended", "statement": "The window of the super-resolution tool does its work in threads that report by messages in the status line. However threads and window interleave, every message has its turn exactly once; what one piece of work says appears in the order it was said; a batch shows its files in order and then its end; work that succeeds ends with its last message in the status line. When work fails, the window shows the error.", "quantifier": "every number of threads and every program of messages, every error text and list of files, every interleaving of threads and main loop", "why_tests_cant": "whether a message of an except branch arrives depends on whether the main loop runs between two instructions of the thread; a test sees one interleaving", "anchors": ["inference/sr_gui.py: SRApp._process_in_thread, SRApp._on_batch, SRApp._on_profile"]}
{"id": "C128", "title": "The memory a node is charged", "statement": "The memory column of the profile is, for each node, the number of bytes its outputs occupy plus the bytes of the weights it reads; for a lookup (Gather), only the weights that are looked up.", "quantifier": "every node and operator, every tensor table, all element sizes and shapes, every axis and index shape of a lookup", "why_tests_cant": "the charge uses one element size for all operands and outputs and one dimension of the table for every lookup, so whether it is right depends on the types and shapes of all operands together; a test sees a few of them", "anchors": ["onnx_tool/node.py: Node.profile, GatherNode.profile", "onnx_tool/graph.py: Graph.profile"]}
{"id": "C129", "title": "Shapes of Scan, ZipMap and GeGelu", "statement": "After shape inference the outputs of a Scan node have the shapes of its initial states and of the stacked results of its steps, ZipMap's output has one entry per row, and GeGelu's output is one of two equal halves of the last axis, all other axes (names included) unchanged.", "quantifier": "every number of operands and outputs, every shape with numbers and names", "why_tests_cant": "the shapes written for Scan are those of one exported network, so a test with that network passes; which other nodes are right is a statement about all of them", "anchors": ["onnx_tool/node.py: ScanNode.shape_infer, ZipMapNode.shape_infer, GeGeluNode.shape_infer"]}
{"id": "C130", "title": "Images with the detections drawn in", "statement": "On a saved image every detection that reaches the threshold and has a visible part is drawn once, in order, as the part of its box that lies in the image, with the name and colour of its class; a box given in original pixels comes back through the letterbox to the same pixels. With annotations, exactly those of the image are drawn, and an annotation and a detection of the same thing carry the same name.", "quantifier": "every image and letterbox size, list of detections and annotations, category list, threshold and text size", "why_tests_cant": "where a box ends up depends on the sizes of image and letterbox and on its corners, which name it gets on the numbering of the categories; a test looks at a few pictures", "anchors": ["inference/yolo_eval.py: get_class_name, draw_detections, draw_gt_boxes, YOLOEvaluator._save_annotated_image"]}
{"id": "C131", "title": "Vision encoder and language model in one table", "statement": "The table that compares the cost of a vision encoder with that of its language model has one row for every resolution, in order: the number of whole patches in the image, which is the number of tokens the encoder's graph returns, plus the text tokens; the operations of the encoder for that image and of the decoder for those tokens in whole thousand millions, their percentage and their sum. For ordinary decoders the figure is the closed form of the architecture and never falls when the image grows. The comparison of two models has one line per resolution with the figures of both rows.", "quantifier": "every list of resolutions, patch size, text length, encoder and decoder", "why_tests_cant": "rows depend on sizes, patch remainders and two rounded figures; errors of rounding and division by a rounded zero show for particular costs only", "anchors": ["benchmark/vision_llm_compare.py: profile_vision_vs_llm, profile_both_models"]}
{"id": "C132", "title": "The profile window shows the profile and leaves the console alone", "statement": "Each click on the profile button opens a window with exactly the report of that run; afterwards, also after an exception, what the program prints appears on the console again, and no report line is on the console nor any other line in a window. Every line printed appears exactly once.", "quantifier": "every number of profiling and printing threads, every report, every interleaving", "why_tests_cant": "the standard output is one variable that every thread exchanges; whether it is put back and whose lines go where depends on how the threads overlap", "anchors": ["inference/sr_gui.py: SRApp._on_profile"]}
