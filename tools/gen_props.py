import json
P=[]
def p(i,title,statement,quant,why,anchors):
    P.append(dict(id=i,title=title,statement=statement,quantifier=quant,why_tests_cant=why,anchors=anchors))
G="onnx_tool/graph.py"; N="onnx_tool/node.py"; T="onnx_tool/tensor.py"; S="onnx_tool/serialization.py"; Q="onnx_tool/quantization.py"; F="onnx_tool/fusion.py"; M="inference/memory_pool.py"; U="onnx_tool/utils.py"
p("C01","Live activations never share memory","For the offset map returned by compress_memory(), at every node of the graph any two distinct tensors that are both live there (already available as a graph input or as the output of this or an earlier node, and either produced here, still to be read by this or a later node, or never read at all) occupy disjoint byte ranges.","every graph whose tensors are each produced once and not re-produced, every node position, every pair of live tensor names, every size and padding","the allocator's free-list state depends on the whole history of releases, merges and splits (with a list mutated while it is iterated); tests only sample a few models",[G+":Graph.compress_memory"])
p("C02","Every offset lies inside the reported pool","Every [offset,size] returned by compress_memory() satisfies 0 <= offset and offset+size <= compress_size, including blocks whose tensor was released and merged long before the end.","every graph and every history of allocations, releases, merges and splits","the pool size is computed only from the final free list, so an earlier block could outgrow it for some history",[G+":Graph.compress_memory"])
p("C03","Blocks are aligned and large enough","Every block returned by compress_memory(size_padding=p) has offset and size divisible by p and size at least the tensor's byte size; every tensor that is ever in memory and has a positive size gets a block.","every graph, every padding p>0 dividing the split threshold arithmetic, every tensor","alignment of an offset is a property of all sizes allocated before it",[G+":Graph.compress_memory"])
p("C04","Compression never costs more than no sharing and never less than the peak","compress_size is at most the sum of the padded sizes of all allocated tensors and at least the total padded size of the tensors live at any single node.","every graph in which each tensor is produced once, every node","it bounds all interleavings of lifetimes",[G+":Graph.compress_memory"])
p("C05","Graph outputs stay allocated to the end","A graph output's bytes are not handed to a later tensor before the last node has run.","every graph","only shows up for graphs in which a graph output is also consumed inside and a later tensor fits its block; the code only warns",[G+":Graph.compress_memory"])
p("C06","Memory pool views are in bounds, never alias while live, and never rejected","A MemoryPool built from a compress_memory() result is accepted by its own validation; get(name, shape) succeeds exactly when shape needs at most size//elementsize elements, and returns a view inside that tensor's block, so views of simultaneously live tensors never share a byte.","every compress_memory result, every tensor, every requested shape","depends on every allocator result and shape",[M+":MemoryPool._validate",M+":MemoryPool.get",M+":MemoryPool.get_batch"])
p("C07","Reordering puts every producer before its consumers","In the node order left by graph_reorder_nodes(), every node comes after the producers of all its inputs, and no node appears twice.","every graph (any node order, cycles allowed) in which no tensor name is produced twice","must hold for every DAG and input order",[G+":Graph.topsort_nodes",G+":Graph.graph_reorder_nodes"])
p("C08","Reordering loses no node of an acyclic graph","graph_reorder_nodes() keeps exactly the nodes that do not depend on a cycle; for an acyclic graph with uniquely produced tensors it returns a permutation of the nodes.","every graph with uniquely produced tensor names","a dropped node is silent; tests only see the shapes they try",[G+":Graph.topsort_nodes",G+":Graph.graph_reorder_nodes"])
p("C09","Reordering is idempotent","Reordering an already reordered graph changes nothing.","every graph with uniquely produced tensor names","all graphs",[G+":Graph.topsort_nodes"])
p("C10","Producer and consumer indexes are exact","After update_tensor_relations(), consumedby[t] / producedby[t] list exactly the nodes having t as an input / output, in node order with multiplicity, and any later sequence of remove_node calls keeps them exact and never raises.","every graph, every sequence of remove_node calls","quantifies over operation histories",[G+":Graph.__update_consumer_producer__",G+":Graph.update_tensor_relations",G+":Graph.remove_node"])
p("C11","Removing dangling nodes never removes a needed node","remove_dangling_nodes() removes only nodes none of whose outputs is a graph output or is read by a remaining node, leaves no such node behind, and leaves the graph outputs unchanged.","every graph","the cascade depends on the whole graph",[G+":Graph.remove_dangling_nodes",G+":Graph.remove_node"])
p("C12","Subgraph split is an exact partition","Given boundary tensors, the three levels used by get_subgraph()/fuse_subgraph_iotensors() are disjoint and cover all nodes; level 2 is exactly the nodes reachable from the output tensors, level 1 exactly the nodes reachable from the input tensors that are not in level 2.","every graph (cycles included) and every choice of boundary tensors","reachability over all graphs",[G+":Graph.__get_subnodes_byio__",G+":Graph.get_subgraph"])
p("C13","Subgraph interface is exact","The inputs of an extracted node set are exactly the non-empty tensors read inside and not produced only inside (minus initializers), the outputs exactly the tensors produced inside that are read by an outside node or by nobody; each listed once.","every graph and node set","all graphs and node subsets",[G+":Graph.get_iotensors"])
p("C14","Fusing a node set keeps the graph's connections","After fuse_subgraph_node_names(nodes, op, name) the graph contains the other nodes unchanged plus one node whose inputs/outputs are the set's interface, the producer/consumer indexes are exact, and the graph outputs are unchanged.","every graph and node set","all graphs and node subsets",[G+":Graph.fuse_subgraph_node_names",G+":Graph.get_iotensors",G+":Graph.remove_node"])
p("C15","Shape-calculation marking is the exact backward closure","After loading, a node is marked as shape calculation iff a shape-defining input of some node depends on it through non-initializer tensors without passing through another Shape node; the result does not depend on set iteration order, and the search terminates on every graph.","every graph, every iteration order of the set of shape tensors","string-hash randomisation makes the iteration order differ from run to run",[G+":Graph.__find_shape_tensors__",G+":_contains_shape_tensor"])
p("C16","The compute graph keeps what the outputs need","get_compute_graph() drops all shape-calculation nodes, and keeps every node that some graph output needs through a path with no shape-calculation node.","every graph","all graphs",[G+":Graph.get_compute_graph"])
p("C17","Constant detection is exact","After loading, a node is marked constant iff it is not DequantizeLinear and each of its inputs is static or is an output of a constant node, whatever the node order.","every acyclic graph in any node order","fixpoint over arbitrary DAGs and node orders",[G+":Graph.__constant_search__",G+":Graph.__is_node_constant__"])
p("C18","Constant folding preserves the computed function","Evaluating the constant-folded graph on any input gives, for every graph output it still has, the same value as the original graph; no graph output disappears.","every acyclic graph, every operator semantics, every input","all graphs and inputs",[G+":Graph.__constant_search__",G+":Graph.__update_nodes_tensors__","onnx_tool/__init__.py:model_constant_folding"])
p("C19","Broadcast shape inference matches multidirectional broadcasting","Shape inference of elementwise operators returns a shape iff the inputs are broadcast-compatible under the ONNX/numpy rule and then returns exactly the broadcast shape; the result does not depend on argument order or grouping.","all lists of shapes of any rank with any non-negative dimensions","unbounded ranks, dims and operand counts",[N+":_broadcast_shape",N+":NpMathBase.shape_infer"])
p("C20","Pointwise shape inference returns the broadcast shape whenever an operand already has it","For pointwise operators the inferred shape is one of the operand shapes, of maximal element count; if all dimensions are positive and one operand already has the broadcast shape, that shape is returned.","all non-empty lists of shapes","unbounded",[N+":_max_shape",N+":PWNode.shape_infer"])
p("C21","Convolution and pooling output size counts the window positions","The inferred spatial size of Conv/Pool is the number of window positions that fit into the padded input (floor mode), for every size, kernel, stride, dilation and padding with the kernel fitting; ceil mode adds one exactly when a partial window remains.","all sizes, kernels, strides>0, dilations, paddings","unbounded integers",[N+":_conv_output_shape",N+":_pooling_shape_calc",N+":ConvNode.shape_infer",N+":PoolBase.shape_infer"])
p("C22","Transposed convolution inverts convolution, auto-pad agrees with explicit pad","Conv applied to the inferred ConvTranspose size (output_padding < stride) gives back the original size; VALID equals zero padding; SAME gives ceil(x/stride).","all sizes, kernels, strides, dilations, paddings","unbounded integers",[N+":_convtranspose_output_shape",N+":_auto_pad_valid_shape_calc",N+":_auto_pad_same_shape_calc",N+":ConvTransposeNode.shape_infer"])
p("C23","Slice shape inference counts the selected elements","For every axis the inferred size equals the number of indices selected by starts/ends/steps (negative, out-of-range and huge values included), untouched axes keep their size, and it agrees with the shape of the computed value.","all shapes, starts, ends, non-zero steps","unbounded integers of both signs",[N+":SliceNode.shape_infer",N+":SliceNode.value_infer"])
p("C24","Reshape preserves the element count","If Reshape shape inference returns, the element count is unchanged; 0 copies the input dimension and a single -1 is replaced by the remaining factor, giving non-negative dims.","all input shapes and target shape vectors","unbounded",[N+":ReshapeNode.shape_infer",T+":volume"])
p("C25","Split parts add up and Concat rejoins them","The inferred Split sizes along the axis add up to the input size and are non-negative, other axes are unchanged, and Concat of the parts on the same axis has the original shape.","all shapes, axes, split lists and output counts","unbounded",[N+":SplitNode.shape_infer",N+":ConcatNode.shape_infer"])
p("C26","Axis-rearranging shape inference is lossless","Transpose preserves the element count and is undone by the inverse permutation; Unsqueeze followed by Squeeze on the same axes is the identity; Gather/Reduce replace exactly the addressed axes; negative axes mean the same as their positive form.","all shapes, permutations and axes lists","unbounded",[N+":TransposeNode.shape_infer",N+":SqueezeNode.shape_infer",N+":UnsqueezeNode.shape_infer",N+":GatherNode.shape_infer",N+":ReduceMeanNode.shape_infer",N+":_axes_neg2pos"])
p("C27","Shape regression extrapolates exactly","If a dimension depends on an input variable as a*x+b (integer a>=1), or as ceil/floor(x/a)+b, the expression fitted from the samples at min, middle and max reproduces it for every x, not only for the samples.","all a, b, ranges and all x","samples at three points must determine all values",[G+":ValueExpr.build_expr",G+":ValueExpr.__call__",G+":Graph.shape_regress"])
p("C28","Shape engine variables are consistent after an update","After setting input variables and update_variables(), every derived variable equals its expression applied to its source variable, get_tensorshape substitutes every symbolic dim, and a second update changes nothing.","every engine whose expressions are added after their source, every assignment, every sequence of updates","histories of updates",[G+":ShapeEngine.update_variables",G+":ShapeEngine.add_expr",G+":ShapeEngine.get_tensorshape"])
p("C29","Serialized shape engine can be decoded without loss","The bytes written by serialize_shape_engine determine the variables, tensor descriptions and expressions uniquely: a reader of the format recovers them.","every engine whose names contain no NUL and whose ints fit 32 bits","all contents and lengths",[S+":serialize_shape_engine",S+":__write_int2buf",S+":__write_str2buf",S+":__write_data"])
p("C30","Serialized memory plan can be decoded without loss","The bytes written by serialize_memory_compression determine pool size, every tensor's offset and size, and the maximum shapes uniquely.","every plan with NUL-free names and 64-bit values","all contents and lengths",[S+":serialize_memory_compression"])
p("C31","Serialized graph can be decoded without loss","The bytes written by serialize_graph determine nodes, inputs, outputs, attributes and initializers uniquely.","every graph with NUL-free names, 32-bit ints and supported dtypes","all contents and lengths",[S+":serialize_graph",S+":__write_ndarray",S+":__write_data_type"])
p("C32","Saving and reloading an initializer keeps its data","Converting an in-memory initializer to a tensor proto and loading it back gives the same dtype, shape and data; dtype codes map one to one.","every dtype, shape and data","all dtypes x shapes x storage forms",[T+":tensorproto2ndarray",T+":Tensor.make_tensor_proto",T+":onnxdtype2npdtype",T+":npdtype2onnxdtype"])
p("C33","4-bit packing is lossless","pack_4bits stores every quantized value so that it can be recovered from its nibble.","every array of in-range values","all values and lengths",[Q+":pack_4bits",Q+":graph_quantize"])
p("C34","Quantization error is bounded by the scale","Dequantizing a quantized value differs from the original by at most half a scale step (symmetric) or less than one step (asymmetric); per-channel/per-block quantization uses for each element the scale of its own group; codes stay within the bit range.","all non-zero weight groups, block sizes, bit widths","all real values (modelled over rationals)",[Q+":quantize",Q+":find_min_max",Q+":get_symmetric_parameter",Q+":get_asymmetric_u8_parameter",Q+":symmetric_quant",Q+":asymmetric_quant"])
p("C35","Profile totals are the sums of the node rows and count shared weights once in the dedup row","profile() totals for MACs, memory and params are the sums over the covered nodes independent of iteration order; Params minus Dedup_Params equals the reported shared weight size.","every graph, every set iteration order, every exclude set","set iteration order and arbitrary sharing",[G+":Graph.profile",G+":Graph.print_node_map"])
p("C36","Expert-activation parameters are monotone and capped","MoE activated parameters never decrease with batch*sequence length, never exceed the full expert count, and reach it exactly when batch*seq*k >= experts; MACs are proportional to batch*seq.","all sizes","unbounded integers",[N+":MoENode.profile"])
p("C37","Operator registry behaves as a map","After any sequence of registrations a lookup returns the last object registered under that name, get() returns None and indexing raises for unregistered names, membership agrees with lookup.","every sequence of registrations and lookups","histories",[U+":Registry",N+":create_node"])
p("C38","Pattern search returns only genuine matches","Every node reported by search_pattern for a pattern position satisfies that position's operator and attribute conditions, and one match never uses a node for two positions.","every pattern and graph","recursion over arbitrary graphs and patterns",[F+":FusionPattern.search_pattern",F+":FusionPattern.search_node",F+":NodeCondition.is_node"])
p("C39","Conv+BatchNorm folding preserves the function","For every input the folded convolution (scaled weights and new bias) gives the same result as convolution followed by batch normalisation.","every weight, bias, statistics and input over an exact field","all values",[F+":ConvBNFusion"])
p("C40","Skipping a shape-only node keeps the graph connected","skip_node/removeShapeOps rewires every consumer of the removed node to its data input, so every remaining input is still produced, and evaluation with the node read as identity is unchanged.","every graph and every single-data-input node","all graphs",[G+":Graph.skip_node",F+":removeShapeOps"])
if __name__=="__main__":
    import os
    extra=os.path.join(os.path.dirname(__file__),"extra_props.jsonl")
    with open("/verif/properties.jsonl","w") as f:
        for x in P: f.write(json.dumps(x)+"\n")
        if os.path.exists(extra): f.write(open(extra).read())
