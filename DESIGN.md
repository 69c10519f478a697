# Formal model of onnx-tool in Lean 4 — design

Source read: `/repo` (ThanatosShinji/onnx-tool, pinned commit).  Nothing of it is executed here.
Properties: `properties.jsonl`.  Verdict per property: `MANIFEST.json`.  Wrong programs tried against the theorems: `seeded/LOG.jsonl`.
This file is written by `tools/gen_design.py` (hand-written text in that script, tables from the other files).

## 1. Layout

* `lean/Verif/Model/*.lean`  – the model: total, computable functions mirroring the Python functions branch by branch.  Every definition cites the
  file and lines it models, and says where it simplifies.  Python exceptions are values (`Except PyErr`).
* `lean/Verif/Spec/*.lean`   – small independent specifications.  They use the data types of the model (a graph, a shape, a tensor), not its
  algorithms.
* `lean/Verif/Proofs/*.lean` – helper lemmas.
* `lean/Verif/Props/*.lean`  – the theorems `Cnn_...` of the properties, each with concrete cases meeting the hypotheses and, where the code
  violates the property, a theorem proving the violation on a concrete witness.

Naming: a theorem `Cnn_..._partial` proves part of the property and says what is missing; names ending in `_wrong`, `_raises`, `_lost`,
`_counterexample` and the like are refutations of the unrestricted claim.  A property whose unrestricted claim is refuted is `partial` in the
manifest, even where the remaining cases are characterised exactly.

## 2. Trusted base

* Lean 4.33.0's kernel.  `vcheck` rebuilds the last commit and replays the declarations in the kernel.
* Axioms: only `propext`, `Classical.choice` and `Quot.sound`; no axiom of our own, no compiled evaluation (`native_decide`, `bv_decide`).  The
  axioms of every theorem are listed in section 7.
* Mathlib modules imported one by one (`Logic.Relation`, `Data.List.*`, `Data.Rat.*`, `Algebra.*`, tactics).  They are checked by the same kernel.
* The faithfulness of the hand translation Python → Lean.  It was made by reading; the code was not run.
* Python built-ins are read as follows: `dict` = association list in insertion order; `list.remove` = remove the first occurrence (`ValueError` if
  missing); `int` = unbounded integer; `//` = floor division; `sorted`/`list.sort` = stable; `round` = round half to even; iterating over a
  `set` = arbitrary order (theorems quantify over it); a recursion deeper than the model's bound is `RecursionError`.
* numpy, torch, onnx, protobuf and struct are not part of the repository.  What their calls are taken to do is stated as definitions in
  `Model/Torch`, `Model/ValueMove`, `Model/ValueMath`, `Model/ValueReduce`, `Model/Predict`, `Model/TensorProto`, `Model/Serial` and
  is trusted like the translation.
* Floating point is exact (rationals or an arbitrary field; exponential, square root, sine and cosine are arbitrary functions with the laws used
  as hypotheses), except where the code's rounding matters and is modelled: single-precision coefficients (C29), 53-bit totals (C84), half
  precision scales (C82, an arbitrary rounding function).  So no theorem bounds a floating-point rounding error of the numeric kernels.
* Data types, devices, timing, logging and warnings are left out except where a property is about them.

## 3. What is modelled

One entry per model module, from its own header.

* **Activated** – Activated and total parameters (`/repo/benchmark/moe_activated_params.py` 20-28).  `get_activated_params` builds the decoder, profiles it and returns the sum of the nodes' `static_params` and `graph.params`.
* **Arch** – `Builder.__init__`: the architecture table (`/repo/onnx_tool/llm.py` 19-185, 250-258).  `arch_config` is the entry of the module-level `ArchMap` itself, not a copy, and the constructor writes into it.  Only the three flags it writes are kept; an entry is identified by its key, which is what makes the aliasing visible.
* **Axes** – Reshape, Split, Concat and the axis-rearranging operators.  Models the `shape_infer` methods of `/repo/onnx_tool/node.py`: Transpose (840-849), Gather (955-966), Concat (1040-1047), OneHot (1103-1112), Unsqueeze (1269-1286), Squeeze (1305-1317), Pad (1575-1588), Reduce (1914-1933), Reshape (2740-2763), Split (2924-2956).  Input dimensions are non-negative integers; data types are not modelled.
* **Batch** – The cost of a network after shape inference.  Models `Node.profile` (`/repo/onnx_tool/node.py` 216-231) with the `_profile_core` of all operators of `Verif.Model.Macs` (Conv, ConvTranspose, pooling, Gemm, MatMul) and `Verif.Model.MacsOps`, and the tensors `Graph.profile` (`/repo/onnx_tool/graph.py` 1433-1495) reads after `shape_infer`.  The fused operators (SDPA, MoE, GDN, MLA, Rope, Gather), which have their own `profile`, are in `Verif.Model.LlmCost`. Simplified: element sizes and the kind of a tensor are tables by name; MACs are exact.
* **Benchmark** – Benchmarks.  Models the numbers of `/repo/inference/benchmark_xpu.py` (`format_flops` 25-31, `format_time` 34-39, `benchmark_gemm` 46-88, `benchmark_conv2d` 95-158, the TFLOPS column 213 and 234), `profile_graphinfer_overhead` and what `main` divides by in `/repo/inference/compare.py` (121-165, 363-367), and the axis of the plot of `/repo/inference/plot_xpu_memory.py` (114-120). Simplified: times are given, exact rationals; a text is the number that is rounded and its unit.
* **Branch** – Replacing `If` nodes by one of their branches.  Models `Graph.__remove_if__` (`/repo/onnx_tool/graph.py` 333-385), with `__add_node_from_proto__` (416-434), which `Graph.__init__` calls when `if_fixed_branch` is set (181-182). `Graph.__set_fixed_topk` is in `Model/TopK`. Simplified: the selected branch of an `If` is looked up by the name of the node; `prevnodes` / `nextnodes` (366-376, 422) are left out; `self.tensormap` gets an entry for every tensor of a new node (368-373), as in `Load.tensorKeys`.
* **Broadcast** – Broadcasting and element counts.  Models `_broadcast_shape` (`/repo/onnx_tool/node.py` 125-162), `_max_shape` (80-91), `volume` (`/repo/onnx_tool/tensor.py` 145-151), `ExpandNode.shape_infer` (node.py 1535-1560) and `GemmNode.shape_infer` (863-894). Dimensions are non-negative integers.
* **Builder** – `Builder`: decoder graphs from a configuration (`/repo/onnx_tool/llm.py` 187-1284).  Every `add_*` method creates one node, its output tensor and the initializers it needs; the model describes this by a record `Emit` and lets each method return its output tensor together with the list of records in order (`W`).  `applyEmits` carries out the updates of `graph.nodemap`, `initials`, `tensormap` and `input`.  Simplifications: data types, attributes other than `layer_i` and the slice bounds, and tensor contents are dropped; the order in which one method fills `tensormap` is not kept (initializers first); a method that raises is an `Emit` with an error; optional configuration entries have been replaced by their defaults; the vision encoder is not modelled.
* **Checkpoint** – Loading a checkpoint into a built decoder.  `get_qwen3_weight_map` (`/repo/inference/llm_infer.py` 507-543) and `_update_weight_shapes_from_safetensors` (`/repo/inference/infer.py` 501-577).  Left out: printing, and reading the safetensors file itself (a dictionary from names to shapes). An unknown shape is the empty list: `if tm.get_shape()` (564) does not tell it from the shape of a scalar.
* **Cli** – Command line arguments.  Models the argument texts of `python -m onnx_tool` (`/repo/onnx_tool/__main__.py` 57-103): `__str2numpytype__`, `__str2list__`, `__args2dynamicshapes__`, `__args2strshapes__` and the `--exclude-ops` list. Simplified: texts are sequences of characters; the numbers given as dimensions contain no blanks, underscores or digits other than `0`-`9` (Python's `int` accepts those too); what `numpy.float32(text)` and `numpy.int32(text)` do with one element is a parameter.  `argparse` itself is not modelled.
* **Compare** – The accuracy reports.  Models what the scripts say about the engine beside a reference: `compare_outputs`, `print_worst_samples` and the loops of `main` of `/repo/inference/test_accuracy.py` (112-154, 168-177, 249-276, 287-291), `compare_outputs` and the verdict of `main` of `/repo/inference/compare.py` (168-197, 322-351, 392-393) and the numerical part of `/repo/inference/test_multi_resolution.py` (162-175). Simplified: a float is an exact rational or NaN (`none`), infinities and rounding are left out; an output is the list of its samples, each the list of its elements; samples of different sizes, which numpy would broadcast in a subtraction and then refuse in `np.dot`, raise `ValueError`; what the networks compute is a parameter, as are timing and memory.
* **ComputeGraph** – The compute graph.  Models `Graph.get_compute_graph` (`/repo/onnx_tool/graph.py` 1383-1431).
* **ConstFold** – Constant search and constant folding.  Models `Graph.__is_node_constant__` (`/repo/onnx_tool/graph.py` 266-274), `Graph.__constant_search__` (276-313) and `Graph.__update_nodes_tensors__` (202-264). `V` is the type of tensor values; `f n vs k` is the value of output number `k` of node `n` on operand values `vs` (what `node.value_infer` computes).  A tensor is `STATIC` iff the environment has a value for it.  Not modelled: warnings, timers, and the difference between a static tensor with and without a `numpy` value (`V` can include a "shape only" value).
* **Conv** – Convolution and pooling shapes.  Models `_conv_output_shape` .. `_pooling_shape_calc` (`/repo/onnx_tool/node.py` 47-67), `ConvNode.shape_infer` (2143-2181), `PoolBase.shape_infer` (1399-1444) and `ConvTransposeNode.shape_infer` (2686-2722). Python's `/` on integers is modelled as exact division (the float quotient has the same integer part as long as all quantities are below 2^52).
* **ConvBN** – Folding a batch normalisation into a convolution.  Models `ConvBNFusion` of `/repo/onnx_tool/fusion.py` (462-498). Simplifications: numbers are elements of a field `K` (exact arithmetic; the code uses float32 arrays and float64 scalars), `math.sqrt` is an arbitrary function `sqrt : K → K`; `env` holds the tensors of `tensormap` that carry data; `update_proto` keeps shape and data.
* **DTypes** – What shape inference says about element types.  Models the `update_dtype` (and, for nodes without a `shape_infer`, the type of the array handed to `update_tensor`) of every registered node class of `/repo/onnx_tool/node.py` 236-3232, `onnxdtype2npdtype` (`/repo/onnx_tool/tensor.py` 37-59) and the loop of `Graph.shape_infer` (`/repo/onnx_tool/graph.py` 1036-1051). Simplified: shapes and values are left out, a shape computation that raises is the flag `shapeFails`; an array read by a node has the type its tensor reports (`C97`); a node marked `shape_calc` runs `value_infer`, whose types are a parameter.
* **Decoder** – A decoder graph run by the engine, token chunk by token chunk.  The graphs `Builder` makes (`/repo/onnx_tool/llm.py`) consist of an embedding lookup, operators that treat every position on its own (normalisation, projections by a weight, activations, additions, rotary embedding) and attention nodes (`SDPA`) with the shared cache. This is one call of `forward` on such a graph at the level of values: the memory pool is the subject of C46 and C52.  Simplifications: one result per node; a node refers to its inputs by the index of the node that produces them; a position-wise operator is any function of the position and the rows at that position; attention is `Sdpa.run3`/`Sdpa.runPlain`; all attention nodes have the same sizes; an element outside the columns of an attention result is 0.
* **Defaults** – The values of attributes a file leaves out.  Models the constructors of the node classes of `/repo/onnx_tool/node.py` as far as they set attributes: `Node.__init__` (172-196) sets the attributes of the file, `add_default_value` (202-204) the missing ones; the calls are listed per operator in the order they run (a subclass calls its superclass first).  `use` is how the methods then read an attribute: what they do with `None`.  Left out: attributes that no method reads, and the fused operators GDN, MoE and MLA (3014-3228).
* **Diagnostics** – Diagnostics of the engine (`/repo/inference/infer.py` 290-300, 380-400, 425-499, 764-815) and of the comparison script.  (`/repo/inference/compare.py` 168-197) Times and array elements are exact rationals (the code uses floats).  Left out: the formatting of the printed lines, the mean difference and the cosine similarity (printed only).
* **Draw** – Images with the detections drawn in.  Models `get_class_name`, `draw_detections`, `draw_gt_boxes` (`/repo/inference/yolo_eval.py` 337-485) and `_save_annotated_image` (824-883): which rectangles are drawn, where, in which colour and with which name. Simplified: numbers are exact rationals; the size of a text in pixels is a parameter; what OpenCV paints for a rectangle is not modelled, nor is the width of lines; a detection has its seven numbers (396); the letterbox is known (852; both callers pass it); the confidence in the label is the number, not its two decimals.
* **Dump** – Dumping intermediate tensors.  Models `Graph.add_dump_tensors` (`/repo/onnx_tool/graph.py` 1076-1080).
* **Edit** – Post-op fusion and removing a subtree.  Models `Graph.fuse_postop_node_names` (`/repo/onnx_tool/graph.py` 774-821) and `Graph.remove_subtree` (677-695).
* **Einsum** – Einsum.  Models `EinsumNode` (`/repo/onnx_tool/node.py` 1140-1260): `_parse_equation` (1145-1175), `_get_non_ellipsis_labels` (1180-1185) and `shape_infer` (1192-1247). Simplification: an operand with an ellipsis and fewer dimensions than letters after it would be read with negative indices; here it is an `IndexError`.
* **Export** – Exporting a set of nodes as a model of its own.  Models `Graph.get_onnxgraph_by_nodenames` (`/repo/onnx_tool/graph.py` 833-839) with the general `make_graph_onnx` (859-914) and `get_initials_from_nodenames` (626-636). As in `Model/Load.lean`, attributes, shapes and data types are left out and every initializer has data.
* **FileTools** – From file to file: `model_reorder_nodes` and `model_constant_folding` (`/repo/onnx_tool/__init__.py` 110-118).  `loadmodel` (17-22) and `Model.__init__` (`model.py` 11-27) parse the file (`exit(-1)` if it is not a model) and build the graph (`Model/Load.lean`); `Model.save_model` (`model.py` 29-30) is `Graph.save_model` (`graph.py` 841-857) with initializers and shapes.  The file header is in `Model/NodeAttr.lean` (C98), attributes and shapes are left out as in `Model/Load.lean`.
* **FixedShapes** – Operators whose shape inference guesses: Scan, ZipMap, GeGelu.  Models `ScanNode.shape_infer`, `ZipMapNode.shape_infer` and `GeGeluNode.shape_infer` (`/repo/onnx_tool/node.py` 2037-2053, 1700-1702, 658-662). A shape is a list of dimensions, numbers or names (`get_shape`, `/repo/onnx_tool/tensor.py` 427-434: always a fresh list). Left out: the element types (C102).
* **Generate** – `LLMInfer.generate` (`/repo/inference/llm_infer.py` 222-416).  The engine is any state machine from feeds to logits (`GraphInfer.forward` is modelled in `Model/InferState.lean`); choosing a token from the logits (357-369, `argmax` or sampling) is any function of the step and the logits, which may raise.  Token numbers are naturals. Dropped: timing, profiling, printing (except the division in the last verbose line) and the tokenizer: the model works on the token lists before decoding.  An empty prompt: its empty warm-up feed is given to the engine, then `input_ids[0]` raises.
* **Graph** – The graph object: nodes, producer and consumer indexes.  Models `class Graph` of `/repo/onnx_tool/graph.py` (fields: lines 162-176) and the nodes of `/repo/onnx_tool/node.py` (class `Node`: name, op_type, input, output).
* **GraphQuant** – Quantizing the weights of a graph.  Models `graph_quantize` (`/repo/onnx_tool/quantization.py` 124-187) and the loop over `g.initials` in which it is used (`/repo/benchmark/examples.py` 53-75). Simplified: exact rationals for floats, as in `Model/Quant`; the cast of 4-bit scales to float16 (line 159) is an arbitrary function `half`; `type` is `'sym'` or `'asym'`; an array is a two-dimensional float matrix or something else (`other`); producers, dynamics and graph inputs and outputs are left out, because they are not touched.
* **Grow** – Shape inference on generated inputs.  Models one probe of `shape_regress`: `generate_input` (`/repo/onnx_tool/graph.py` 155-160) followed by `shape_infer` (1025-1058), as the function from the shapes of the described inputs to the shapes of all tensors that `Model/Regress.lean` and `Model/RangePool.lean` take as a parameter.
* **Infer** – `GraphInfer` (`/repo/inference/infer.py`): one forward pass over the shared memory pool.  The torch storage is a function from byte addresses to bytes (as in `Model/Pool.lean`), a tensor view is a byte range `(offset, bytes)`.  A kernel is any function on the memory: it receives its arguments and the output views and returns the new memory or an exception; nothing is assumed about it here.  Simplifications: single pool (no `kv_cache` tensor); shapes are lists of naturals; the shape of each tensor in this call is given (`shape`; how it is found is `Model/InferShape.lean`); a name that is both a preloaded constant and a pooled tensor is treated as the constant; synchronisation and timing are dropped.
* **InferKv** – `GraphInfer` with a key/value cache (`/repo/inference/infer.py` 82-130).  Two torch allocations, the pool and the pool of `kv_cache`, are modelled as one address space: the second starts where the first ends (two allocations never overlap; their distance does not matter).
* **InferState** – `GraphInfer` across calls (`/repo/inference/infer.py`).  `forward` keeps state between calls: the shape engine's variables, the values they were last given (`_last_var_values`), the shape cache (`_tensor_shape_cache`), the argument lists built for each node (`_last_node_tensors`), the inputs kept aside (`_dynamic_inputs`) and the pool.  A call can fail at any of its stages; the state it leaves behind is modelled.  Simplifications: a kernel that raises leaves the memory `crash` given with the call (any contents); the cache entries `get_tensor_shape` adds for names outside the pool are not kept (they are never read by a call that returns); `next(iter({}))` (StopIteration) is a RuntimeError; see also `Model/Infer.lean`.
* **Kernels** – Kernels that move data (`/repo/inference/kernels.py`).  Each kernel gets its operands, attributes and the shape `os` of the output tensor it has to fill.
* **KernelsConv** – Conv and pooling kernels (`/repo/inference/kernels.py` 109-139, 344-383).  Exact arithmetic.  Attributes are read as the kernels read them: `auto_pad`, `ceil_mode` and `count_include_pad` are never looked at, pooling does not look at `dilations` either.
* **KernelsCut** – Kernels that cut and join tensors (`/repo/inference/kernels.py`): Slice, Split, Concat, Expand.
* **KernelsElem** – Elementwise, reducing and selecting kernels (`/repo/inference/kernels.py`).  A kernel gets its operands and the place of its output: the elements of the memory pool from `off` on, read with the planned shape `os`.  The pool is a function from element addresses to numbers (one data type for the whole pool, as in `GraphInfer`); numbers are exact, functions such as `exp`, `erf`, `tanh` are parameters.  Torch is not part of the repository: what its calls do is defined here.
* **KernelsNorm** – Normalisation kernels (`/repo/inference/kernels.py`).  Exact arithmetic in a field; square root and inverse square root are the functions `sqrt` and `rsqrt` (no property of them is used).
* **KernelsResize** – The Resize kernel (`/repo/inference/kernels.py` 726-752).  Torch is not part of the repository: `interpolate` says what `torch.nn.functional.interpolate` is taken to do (exact arithmetic, so the scale `in/out` is not rounded; the bicubic interpolation is a parameter).  String attributes of a model read from a file are `bytes` (`onnx.helper.get_attribute_value`), those of a model built in Python may be `str`.
* **KernelsTopK** – The TopK kernel (`/repo/inference/kernels.py` 1155-1175).  Torch is not part of the repository; `torch.topk` documents which elements it returns but not which of several equal ones, so it is a parameter here, with the documented behaviour as its specification (`Spec/KernelsTopK.lean`).
* **KvPlan** – `compress_memory_with_kv_cache` (`/repo/benchmark/llm_test.py` 9-171).  The memory plan `GraphInfer` uses for graphs with a tensor named `kv_cache`: the lifetimes and the allocator of `compress_memory`, run once for `kv_cache` alone and once for all the other tensors.
* **Links** – Edits after edits: the links between nodes.  `remove_subtree` and `remove_dangling_nodes` follow `node.nextnodes`, which is filled when a graph is loaded (`/repo/onnx_tool/graph.py` 494-503) and when a fusion makes a node (764-771, 813-820), and by nothing else.  A fusion appends the list `self.consumedby[o]` itself instead of the nodes in it.  `prevnodes` is never read and is left out. Simplified: a link holds the name of the node object it refers to (only `.name` of it is ever used); the attributes of a fused node are left out.
* **LlmCli** – What the LLM command loads.  Models `/repo/inference/llm_infer.py`: `get_safetensors_path` (473-504), `SUPPORTED_MODELS` (37-60) and the part of `main` (546-690) that decides which configuration, weights and ONNX file are used. Simplified: a disk is a listing for each directory (in the order the system gives); a file exists in a directory iff it is listed; a snapshot is a directory; of a configuration only the entries `main` reads are kept, with values of their right types; printing, building and saving an exported model are left out; a path is a directory and a file name.
* **LlmCost** – Figures of the nodes of a built decoder (`Graph.profile`, `/repo/onnx_tool/graph.py` 1433-1495, on the graphs of `/repo/onnx_tool/llm.py`).  `graph.profile()` stores `macs`, `io_params`, `static_params` (and `kv_size` for attention) on every node.  The model computes them from the node, its operands' shapes and static flags, as `graph.tensormap` has them.  Left out: sparsity, element sizes, the test `name != ''` (the builder gives no empty names).
* **LlmInit** – `LLMInfer.__init__`: the description of the model's inputs (`/repo/inference/llm_infer.py` 126-207).  From the inputs, constants and declared shapes of the loaded graph to the `input_desc` / `input_range` given to `GraphInfer`. Dropped: the tokenizer, printing, and the construction of `GraphInfer` itself (`Model/Infer.lean`).  A declared dimension is an integer or a symbolic name (`shape_of_tensor`, `/repo/onnx_tool/tensor.py` 15-26); they are Python `int`s, so `isinstance(s, int)` is true exactly for the integers.
* **LlmProfile** – `Builder.profile` (`/repo/onnx_tool/llm.py` 1100-1193): memory and projected latency.  Works on the figures `graph.profile()` has stored (`Row`).  Simplifications: floating-point numbers are exact rationals; `node.macs` is a number (the branch for lists, 1130, is not reached by the builder's operators).
* **Load** – Reading a model file into a graph and writing it back.  Models `Graph.__init__` (`/repo/onnx_tool/graph.py` 162-187), `__init_graph_from_onnxproto__` (436-511), `__update_nodes_tensors__` (202-264), `get_initials_from_nodenames` (626-636) and `make_graph_onnx` (859-914). `V` is the type of initializer values.  Simplified: attributes, shapes and data types are left out (for them see C31, C32); `if_fixed_branch` and `fixed_topk` have their defaults; every initializer has a name and data (its bytes are read, C32); warnings, timers and the sparsity search are left out.
* **Macs** – MAC counts of operators.  Models the MAC constants (`/repo/onnx_tool/node.py` 19-37), `GemmNode._profile_core` (915-932), `ConvNode._profile_core` (2219-2230), `ConvTransposeNode._profile_core` (2724-2735), `PoolBase._profile_core` (1446-1452), `EinsumNode._profile_core` (1249-1260), `SDPANode` (2868-2904), `MoENode.profile` (3121-3187), `GDNNode.profile` (3022-3084) and `MLANode.profile` (3234-3372). Simplification: all sizes are natural numbers (known, non-negative dimensions).
* **MacsOps** – MACs of the other operators (`/repo/onnx_tool/node.py`).  `_profile_core` of elementwise, comparing, normalising, reducing, resampling, recurrent and quantised operators.  Shapes are those `get_shape()` returns (a fresh list, so `tshape[axis] = 1` in LayerNormalization does not touch the tensor).  Costs of Gemm, MatMul, Conv, pooling, Einsum and attention are in `Verif.Model.Macs`.
* **Memory** – `Graph.compress_memory` (`/repo/onnx_tool/graph.py` 1183-1381).
* **NodeAttr** – Attributes of nodes, and the header of a model file.  Models `get_attribute_data` (`/repo/onnx_tool/tensor.py` 124-142), `Node.__init__`, `set_attr`, `add_default_value`, `make_nodeproto` (`/repo/onnx_tool/node.py` 172-208), the copying of attributes in `Graph.fuse_subgraph_node_names` (`/repo/onnx_tool/graph.py` 743-754) and the header written by `Graph.save_model` (841-857) and `Model.save_model` (`/repo/onnx_tool/model.py` 28-29). Of the `onnx` package: `helper.get_attribute_value`, `helper.make_attribute`, `helper.make_node` and `helper.make_model`, as documented (a list of no elements has no type and is refused; `None` is skipped by `make_node`, refused by `make_attribute`; the parameters of `make_node` take keyword arguments of their name; the value of `overload` is dropped here). Simplified: an attribute called like a field the constructor sets itself (`input`, `output`, `attr`, `proto`, `nextnodes`, `prevnodes`, `shape_calc`, `static_inputs`, `dynamic_inputs`) is kept apart from that field; references to function attributes (`ref_attr_name`) are left out.  `F`: floating-point numbers; `M`: messages (tensors, graphs, …); `A`: numpy arrays.
* **NodeMemory** – The memory a node is charged.  Models `Node.profile` (`/repo/onnx_tool/node.py` 213-229) and `GatherNode.profile` (968-976), whose second and third number `Graph.profile` turns into `node.memory` (`/repo/onnx_tool/graph.py` 1457-1468, in `Model/Profile`). Simplified: dimensions are natural numbers; the MACs are a parameter.
* **NodeState** – Nodes that remember.  The loop of `Model/ShapeInfer` with node objects that have a state.  Models `SqueezeNode` (`/repo/onnx_tool/node.py` 1299-1327: `self.axes` is overwritten) and `TopKNode.shape_infer` (2010-2027: `self.axis` is set once) inside `Graph.shape_infer` / `value_infer` (`/repo/onnx_tool/graph.py` 1025-1074).  These are the only nodes whose inference methods assign to `self` something they read again. Simplified: what `SqueezeNode.value_infer` computes is a parameter; a second operand of Squeeze without dimensions leaves `self.axes` as it was (it cannot be iterated; the call fails); all other nodes are a parameter without state.
* **Overlap** – Calls of `forward` that overlap in time (`/repo/inference/infer.py` 232-445, `/repo/inference/sr_gui.py` 359-383, 409-436, 484-518).  The window starts a thread for every image, batch and profile; each calls `forward` of the one engine, without a lock.  A call is cut into steps: taking the dimensions and refreshing the cache, copying the inputs, each node, collecting the outputs.  Between two steps any other thread may run.  Simplified: the interpreter may also switch inside a step; that gives more schedules, for which only the theorems about calls that do not overlap say something.
* **Pattern** – Pattern search.  Models `/repo/onnx_tool/fusion.py`: `AttrExpr` (220-249), `NodeCondition` (252-272), `FusionPattern.search_node` (314-438) and `FusionPattern.search_pattern` (440-459). Simplifications: attributes are integers or lists of integers (`hasattr` is membership in the attribute table `attrs node name`); a port index is `none` for -1 and a natural number otherwise (other negative indices do not occur); the recursion carries fuel, and running out of it is `PyErr.recursion` (C38_terminates shows that this never happens).
* **PatternMake** – A pattern made from nodes of the graph.  Models `/repo/onnx_tool/fusion.py`: `create_descs_from_nodenames` (275-302), and `/repo/onnx_tool/graph.py`: `Graph.fuse_subgraph_iotensors` (823-832). Simplifications: as in `Verif.Model.Pattern`.  Attributes are not used by the patterns made here (`'attrs': []`), so the attribute table is empty.  A dictionary of positions keeps the last of two positions with one name, the model the first: the node names given are taken to be distinct where it matters.
* **Pipeline** – From a model file to an engine: `GraphInfer.__init__` (`/repo/inference/infer.py` 30-180).  The steps of the constructor are modelled in their own modules; here they are put together.  Simplified: no checkpoint file (51-53, see C109) and no tensor called `kv_cache` (86-90, see C51, C52); `tm` are the shapes and element sizes that `shape_regress` and `shape_infer` leave in the tensor map at the largest sizes (58-77, see C75, C76); `shape_regress` and `shape_infer` change no node and no connection.
* **Pool** – `MemoryPool` (`/repo/inference/memory_pool.py`).  The torch storage is modelled as a function from byte addresses to bytes; a tensor view is a byte range.
* **PoolState** – The memory pool as an object with a history.  Models `MemoryPool` (`/repo/inference/memory_pool.py` 19-213) as a state machine: `get`, writing through a view that was returned earlier, `fill_tensor`, `zero_` and `to`. Simplified: torch storages are byte maps in a heap, addressed by the order of their allocation; `enc` is the conversion of one value to the element type of the pool; the cache `_tensors` is never read by the code and left out.
* **PrCurve** – The exported curve of a detector.  Models `export_pr_curve` (`/repo/inference/yolo_eval.py` 890-973). Simplified as in `Model/YoloMetrics` and `Model/YoloEval`: numbers are exact rationals, what the network says about a file is a parameter, `none` when there is no such file (an image that is there can be read); the written JSON is the list of its points; the name of the model in it is left out.
* **Predict** – Shape inference of the operators not yet modelled, and shape inference by value inference (`/repo/onnx_tool/node.py`).  `Node.shape_infer` (209-210) of an operator without a method of its own runs `value_infer`; operands without a value are read as zeros of the known shape (`Tensor.get_numpy`, `tensor.py` 436-441).  Data types are left out.
* **Preload** – Constants of a runtime (`GraphInfer._preload_constants`, `/repo/inference/infer.py` 502-534, 579-664) and the matrix kernels.  Modelled: the choice of the names to load, where the value comes from (checkpoint under its own name, checkpoint through the name map, data embedded in the model), the transposition for MatMul and the `preprocess_weight` hook of the first consumer; `MatMulKernel` with a matrix as second operand and `GemmKernel` (`/repo/inference/kernels.py` 274-318).  Arithmetic is exact in a commutative ring. Left out: dtype conversion; the fallback of 601-606 when nothing is loaded otherwise.
* **Profile** – Profiling: node rows and totals.  Models `Graph.profile` (`/repo/onnx_tool/graph.py` 1433-1495), the shared-weight size of `print_node_map` (1514-1520) and `volume` (`/repo/onnx_tool/tensor.py` 145-151). Simplifications: numbers are exact (the code accumulates MACs in a float that starts at `0.0`).  The per-operator formula `node.profile(itensors, otensors)` is a parameter `prof` that sees the node and its tensors; the sparsity columns and the shape columns are not modelled.
* **Py** – Python values used by the model.  `Dict` is a Python `dict` with string keys: an association list in insertion order. `PyErr` are the exceptions the modelled code can raise (exceptions are values here).
* **Quant** – Weight quantization.  Models `/repo/onnx_tool/quantization.py`: `find_min_max` (16-37), `get_symmetric_parameter` (40-43), `get_asymmetric_u8_parameter` (46-52), `symmetric_quant` (55-56), `asymmetric_quant` (59-60), the dequantizers (63-68), `quantize` (71-104) for two-dimensional weights (the only ones `graph_quantize` passes) and `pack_4bits` (106-128). Simplifications: float32 arithmetic is modelled by exact rationals.  A matrix is its size and a function of row and column.  A zero scale makes numpy produce a NaN, whose `round` raises `ValueError`.
* **QuantOps** – Shapes of the quantized operators.  Models `QLinearConvNode.shape_infer` (`/repo/onnx_tool/node.py` 2591-2612), `ConvIntegerNode.shape_infer` (2635-2656, the same text with the weight as second input), `QLinearMatMulNode.shape_infer` (2560-2576) and `MatMulIntegerNode.shape_infer` (2548-2550). Element types are in `Model/DTypes`, costs in `Model/MacsOps`.
* **RangePool** – A pool for a range of sizes.  Models `create_memory_pool_from_model` (`/repo/inference/memory_pool.py` 209-249) and the corresponding part of `GraphInfer.__init__` (`/repo/inference/infer.py` 60-94), which differ in the sizes the plan is made for: the first plans right after `shape_regress`, i.e. for the shapes its last probe left in the tensor map; the second sets all variables to their largest values first.  As in `Model/Regress.lean`, `infer` is what `shape_infer` computes from the shapes of the described inputs.  Simplified: `esize t` are the bytes of one element of `t` (the type does not depend on the sizes); loading and reordering (C73, C07) happen before, shape regression changes no node.
* **Registry** – The operator registry.  Models `class Registry` of `/repo/onnx_tool/utils.py` (103-152) and `create_node` of `/repo/onnx_tool/node.py` (3375-3382). Simplifications: an object is its `__name__` and an opaque value of type `α` (the class); warnings are recorded as a flag.
* **Regress** – Shape regression.  Models `Graph.shape_regress` (`/repo/onnx_tool/graph.py` 1082-1181). What `self.shape_infer(inputs)` leaves in the dynamic tensors is a parameter: `infer` maps the shapes of the described inputs to the shapes of all dynamic tensors, or raises. (So a call depends on its inputs only, not on earlier calls; for the loop of `shape_infer` itself see C75.)  `self.dynamics` has no repetitions.  Simplified: the warnings, and `str.isnumeric` is modelled for ASCII digits.
* **Remove** – Removing nodes.  Models `Graph.remove_node` (`/repo/onnx_tool/graph.py` 638-675) and `Graph.remove_dangling_nodes` (697-717). `Graph.remove_subtree` is modelled in `Model/Edit`.
* **Report** – The profile report.  Models `print_node_map` (`/repo/onnx_tool/graph.py` 1497-1595) for a `.csv` file, `tuple2str`, `num2str` and the CSV branch of `print_table` (`/repo/onnx_tool/utils.py` 32-69), and the way `model_profile` (`/repo/onnx_tool/__init__.py` 78-103) treats its `exclude_ops` and `hidden_ops`. Simplified: MACs of a node are natural numbers; the percentages are texts produced by a function `pct`, which stands for `'{:.2%}'.format` of the quotient; floats are exact except where the code rounds the totals, which is modelled (`f64`); the overflow of `float(n)` for `n ≥ 2 ^ 1024` is not.  The table printed to the screen and `.txt` files (`tabulate`) are not modelled.
* **Resample** – Shape inference of selecting, resampling and recurrent operators (`/repo/onnx_tool/node.py`).  TopK (2005-2027), Resize / Upsample (1338-1364, 1383-1384), DepthToSpace (1070-1078), GridSample (1058-1066), RoiAlign (2303-2319), NonMaxSuppression (733-746), ArrayFeatureExtractor (1692-1695), LSTM (2080-2130) and GRU (2800-2834) with their cost. Simplified: dimensions, sizes and counts are natural numbers, scales are exact rationals; data types are left out.  The values of tensors that have none are made up by `get_numpy` (see `Model/Predict`).
* **ResultViews** – What `forward` returns: views of the pool (`/repo/inference/infer.py` 216-230, 264-283, 417-424).  `Model/InferState` reads the results at the end of the call.  Here the views themselves are kept, as a caller does who holds the returned dict, and calls whose tensors are such views (results that are fed back). Simplified: `input_tensor.to(device=…, dtype=…)` (277) returns the tensor itself if device and type are those of the engine, and a copy otherwise; a tensor that is copied is an own tensor of the caller. `torch.Tensor.copy_` between tensors of one storage does nothing if they are the same range, copies if the ranges are apart, and raises RuntimeError if they overlap in part.  A view given for an input outside the pool (281) is read when it is passed; only the theorems about pooled inputs say something about it.
* **Sdpa** – Attention and rotary kernels (`/repo/inference/kernels.py`).  Models `SDPAKernel.run` (881-988) and `RopeKernel.run` (993-1059).  Numbers are elements of a field `F` (exact arithmetic); the exponential of the softmax is an arbitrary function `ex`, a masked score (`-inf`) has weight 0 and `head_dim ** 0.5` is an arbitrary `scale`; torch's softmax subtracts the row maximum first, which does not change the exact quotient.  A tensor is a function of its indices together with its sizes; only elements inside the sizes are meaningful.
* **Serial** – Binary serialization.  Models `/repo/onnx_tool/serialization.py`: `__write_*` (8-64), `__write_ndarray` (67-90), `serialize_shape_engine` (93-124), `serialize_graph` (127-173) and `serialize_memory_compression` (176-192).  The written file is the returned byte list. Simplifications: a Python `str` is a Lean `String` (no lone surrogates); a Python float attribute is represented by its 32-bit pattern (`struct.pack('f', ·)` of a value that came from an ONNX float attribute is exact); `float(expr.alpha)` for integers is rounded once to 24 significant bits; an attribute value of any other type (tensors, graphs, ...) is `other`.
* **ShapeCalc** – Marking the shape-calculation part of a graph.  Models `_SHAPE_TENSORS`, `_contains_shape_tensor` and `Graph.__find_shape_tensors__` (`/repo/onnx_tool/graph.py` 23-56 and 513-536).
* **ShapeEngine** – ValueExpr and ShapeEngine.  Models `ValueExpr` (`/repo/onnx_tool/graph.py` 59-104) and `ShapeEngine` (107-160).  Dimension values are integers; Python's float quotients are modelled as exact rationals (their rounding, ceiling and floor agree while all values are below 2^52).
* **ShapeInfer** – The loop of shape inference.  Models `Graph.shape_infer`, `Graph.value_infer`, `update_input_by_map` and `check_inputs` (`/repo/onnx_tool/graph.py` 1003-1074) and the state of a `Tensor` they change (`/repo/onnx_tool/tensor.py` 397-414, 436-441). What the nodes do is a parameter `run`: it gets the operands and the old outputs as the node can see them.  Simplified: every tensor of a node has an entry in `tensormap` (true after loading, C73); `get_numpy` stores the zeros it makes up in the operand, which no reader can tell apart (`C75_made_up_zeros_invisible`), so it is left out; timing and logging.
* **Skip** – Skipping nodes.  Models `Graph.skip_node` (`/repo/onnx_tool/graph.py` 719-741) and `removeShapeOps` (`/repo/onnx_tool/fusion.py` 187-196).
* **Slice** – Slice.  Models `_axes_neg2pos` (`/repo/onnx_tool/node.py` 70-77), `SliceNode.shape_infer` (1711-1843) on concrete integer shapes and the shape of the array computed by `SliceNode.value_infer` (1845-1904). Simplifications: dimensions are non-negative integers (symbolic dimensions are not modelled); `math.ceil(span / float(st))` is exact division (the float quotient has the same ceiling while `span < 2^53`).  In `value_infer` only the shape of the result is modelled.
* **Sparsity** – Sparsity of weights.  Models `narray_calc_sparsity`, `narray_zero_flag`, `search_sparse_blocksize` (`/repo/onnx_tool/tensor.py` 160-179, 251-365) and `Tensor.sparsity_search` (461-473). Simplified: ratios are exact rationals instead of float64; an array is given by its shape, its element type and the function from positions to the values; the last two dimensions of a four-dimensional array are one dimension (`inner`), as every function here treats them alike; arrays that are searched are not empty.
* **SrApp** – The window of the super-resolution tool and its background threads.  Models the state of `SRApp` and the threads that change it (`/repo/inference/sr_gui.py` 220-228, 338-380, 438-466), as a transition system: the user opens images, and the threads started for them run in any interleaving. Simplified: images and results are values of types `I` and `R`; reading a file, the network and the bicubic enlargement are parameters (what they do is the subject of C106); a read or an assignment of an attribute is one step, and so is Save (its dialog is modal; it reads the attributes when it writes). Each call of the engine gives its own result: calls that overlap in time inside one `GraphInfer` are in `Model/Overlap`. Messages, the drawing, `_on_profile` and closing the window are left out; `_on_batch` is `Model/SrBatch`.
* **SrBatch** – Super-resolution of a folder.  Models `_on_batch` (`/repo/inference/sr_gui.py` 385-439). Simplified: a folder is the list of the names in it (distinct, without separators), its output folder a map from names to contents; reading a file, the network, the enlargement and the comparison are parameters; writing a file is one step that does not fail; `glob` and file names are those of a file system that tells upper and lower case apart; times and messages are left out.
* **SrEngine** – The super-resolution engine (`/repo/inference/sr_gui.py` 54-76, 121-208).  `SREngine.process` from an image to an image.  The network is a parameter (`GraphInfer.forward`, `Model/Infer.lean`), numbers are exact rationals followed by roundings of the element type (parameters: `rin` of the division and conversion in `image_to_tensor`, `rout` of the product in `tensor_to_image`; `roundBits` is the one of IEEE types with `p` significant bits).  Left out: the window, files, timing, NaN.
* **SrProfile** – The profile window and the standard output.  Models `SRApp._on_profile` (`/repo/inference/sr_gui.py` 486-518) as far as its text is concerned: the thread keeps `sys.stdout`, puts a new text buffer there, prints the report, puts back what it kept and takes the text of its buffer.  `sys.stdout` is one variable for all threads, read anew by every `print`; a click on the button starts another thread.  Other threads print. Simplified: what a report says is a list of lines (its content is `Model/Diagnostics`); the messages of the status line are `Model/SrStatus`; a `print` is one step.
* **SrStatus** – The status line of the super-resolution window.  Models what the threads of `SRApp` report (`/repo/inference/sr_gui.py`): `_process_in_thread` (359-382), `_on_batch` (401-436) and `_on_profile` (492-518), as a transition system: threads take steps in any order, and the main loop runs the callbacks of `root.after(0, …)` in the order in which they were posted. A callback of an `except Exception as e` branch (378, 430, 516) uses the variable `e`, which Python deletes when the branch ends; a callback that runs later raises `NameError`, which Tk prints, and the status line stays as it is.  The callbacks of successful work use variables that are not deleted. Simplified: what work a thread does is left out, only its messages are kept; `_update_status` from a thread takes effect at once; a callback posted by `after` is never dropped; drawing and message boxes are left out.
* **Subgraph** – Splitting and fusing node sets.  Models `Graph.__get_subnodes_byio__` (`/repo/onnx_tool/graph.py` 538-572), `Graph.get_iotensors` (965-1001) and `Graph.fuse_subgraph_node_names` (743-772).
* **Tensor** – The `Tensor` object.  Models class `Tensor` (`/repo/onnx_tool/tensor.py` 367-504) without its sparsity (see `Model/Sparsity`), `shape_of_tensor` (15-26), `same_shape` (242-248), `volume` (145-151) and the functions `create_initial_Tensor`, `create_dynamic_Tensor`, `create_tensor` (507-533). Arrays and tensor protos are those of `Model/TensorProto`; `dtype = none` is Python's `None` (an ONNX type without numpy counterpart), which numpy reads as float64. Simplified: `update_tensor` gets an array of one of the ten types (not a list that it converts); string arrays are left out; a dimension fits 64 bits.
* **TensorProto** – Initializers and tensor protos.  Models `onnxdtype2npdtype` (`/repo/onnx_tool/tensor.py` 37-59), `npdtype2onnxdtype` (66-90), `tensorproto2ndarray` (93-121) and `Tensor.make_tensor_proto` (489-504). An element is its bit pattern, a natural number below `256 ^ itemsize`.  Simplifications: `numpy.bytes_` (STRING) arrays and external data are not modelled; `onnx.helper.make_tensor` stores the values it is given in the typed field ONNX prescribes for the type (`float_data`, `double_data`, `int64_data`, and `int32_data` for all smaller types, float16 as its 16-bit pattern); converting a float to a Python float and back (`.item()`) keeps the pattern; `numpy.frombuffer` of no bytes is an empty array.
* **Tools** – Exporting weights to files and changing the shapes of graph inputs.  Models `model_export_tensors_numpy` and `model_io_modify` (`/repo/onnx_tool/__init__.py` 30-64, 127-170), and `posixpath.join` for two arguments. Simplified: a file system is a map from paths to contents with a set of directories; a path is not normalised (so `a/../b` and `b` are different paths); `numpy.save` fails exactly if the directory before the last `/` of the path does not exist; texts are sequences of characters; the texts given to `model_io_modify` contain no digits other than `0`-`9` (for others `isnumeric` and `int` disagree).  The model that `model_io_modify` writes afterwards is that of `Model/Load`.
* **TopK** – Fixing the `K` of `TopK` nodes.  Models `Graph.__set_fixed_topk` (`/repo/onnx_tool/graph.py` 387-414), which `Graph.__init__` (183-184) and `Graph.update_graph` (192-193) call when `fixed_topk` is positive. Simplified: the value of the new initializer (`numpy.array([fixed_k])`, line 412) appears in the specification only; `self.tensormap` is left out.
* **Topsort** – `topsort_nodes` and `graph_reorder_nodes` (`/repo/onnx_tool/graph.py` 916-963).
* **Torch** – Torch tensors used by the kernels (`/repo/inference/kernels.py`).  Torch itself is not part of the repository: these definitions say what the torch calls made by the kernels are taken to do (element semantics with exact arithmetic; dtype and device are left out).  A tensor is its shape and a function of the multi-index; only indices inside the shape are meaningful.
* **ValueConv** – Value inference of MatMul, Gemm, Conv, pooling and normalisation (`/repo/onnx_tool/node.py`, methods `value_infer`).  Exact arithmetic in a field; `sqrt` and `exp` are arbitrary functions.  `Conv` and `MaxPool` write into the array the output tensor already has, so their value depends on `old`, the value left by an earlier run.
* **ValueMath** – Value inference of the arithmetic operators (`/repo/onnx_tool/node.py`, methods `value_infer`).  Numbers are exact: wrap-around of int64 and rounding of floats are left out, data types appear only where the method branches on them (Div). numpy is not part of the repository: what its broadcasting, `clip`, `arange`, `where` and the truth value of an array do is defined here.
* **ValueMove** – Value inference of the operators that move data (`/repo/onnx_tool/node.py`, methods `value_infer`).  These methods run when all inputs of a node are known: they evaluate shape computations and fold constants.  Arrays are the tensors of `Model/Torch.lean` (a shape and a function of the multi-index); numpy itself is not part of the repository, so the numpy calls made by the methods are defined here by what they do to the elements.  Data types are left out except where the method changes them (GatherElements).  `Tensor.get_numpy` is taken to return the known value.
* **ValueReduce** – Value inference of reductions and of operators that build tensors (`/repo/onnx_tool/node.py`, methods `value_infer`).  Numbers are exact.  numpy is not part of the repository: what its reductions, `cumsum`, `nonzero`, `argmax` and `arange` do is defined here. Reductions of arrays without axes are modelled for `axes=None` only.
* **Vision** – The vision encoder of `Builder` (`/repo/onnx_tool/llm.py` 766-989).  Same conventions as `Model/Builder.lean`: one record `Emit` per `add_*` call.  Simplifications: data types and attributes other than the slice bounds are dropped; the optional attributes have been replaced by their defaults, except that the default of `vision_head_dim` is evaluated even when it is not used (906-907).
* **VisionTable** – The table that compares a vision encoder with its language model (`/repo/benchmark/vision_llm_compare.py`).  `vis` and `llm` stand for building and profiling the two graphs (58-62, 66-72): the MACs of the encoder for an image, those of the decoder for a number of tokens (the models C67 and C66 are put in for them in the theorems).  Simplifications: floating point numbers are exact; the ratio is kept as a number, not as the text with one decimal; the parameter counts (64, 74) are computed but never used, and not modelled; printing is left out.
* **Yolo** – Turning the output of a YOLO model into detections.  Models `yolo_postprocess` (`/repo/inference/yolo_eval.py` 59-139), `_nms_per_class` (142-168) and `_box_iou` (171-183). Simplified: numbers are exact rationals (no rounding, no NaN or infinity). `np.argsort` is not stable, so the place of equal confidences is not fixed by the code: the order it gives is the parameter `order`, of which the theorems assume only that it permutes its list and puts the higher confidence first.
* **YoloEval** – Evaluating a detector on images.  Models the letterbox of `load_image` (`/repo/inference/yolo_eval.py` 498-553, the branch with OpenCV), the way back in `_save_annotated_image` (848-859), and `evaluate_coco` (630-729) and `evaluate_image_dir` (731-822) without timing, drawing and printing. Simplified: numbers are exact rationals (in floats `int(H * scale)` can be one less); `cv2.resize` is a parameter that is only told the new size; a pixel is a function of row, column and channel; the branch with PIL is left out; what the model says about a file is a parameter, `none` when there is no such file; a listing is a list of names and the test of the extension a parameter.
* **YoloMetrics** – Average precision of the detections of many images.  Models `compute_coco_metrics` (`/repo/inference/yolo_eval.py` 190-314) and `_compute_ap` (317-329). Simplified: numbers are exact rationals, so `np.linspace(0, 1, 101)` is exactly the hundredths; the detections of an image are a list of `Det` of `Model/Yolo` (the callers pass three columns of that array); the text `f'mAP@{iou_thr:.2f}'` is a parameter `label`; ids are integers. `np.searchsorted` is only called on a rising array, where its binary search finds the number of entries at the front that are not greater.

## 4. What is not modelled

* `onnx_tool/__main__.py` beyond its option parsing (C92), `model.py`, `__init__.py` wrappers that only call a modelled method (`model_shape_infer`,
  `model_constant_folding`, `model_reorder_nodes`, `model_shape_regress`, `loadmodel`); `model_subgraph` and `Graph.get_subgraph` (they always
  raise `TypeError`: `Graph(x)` lacks its second argument), `model_opfusion` (wrong keyword, always `TypeError`).
* `graph.py`: `get_dynamic_tensors`, `prevnodes`/`nextnodes` links, screen tables.
* `node.py`: the profile formulas of operators not named in section 3, and the value inference of operators without one
  (they raise).  `TmpNodeProto`, Scan, ZipMap, CategoryMapper and Hardmax.
* `tensor.py`: external data files, string tensors.
* `llm.py`: `model_configs.py` (data), saving, printing.
* `inference/`: dtype and device handling, checkpoint file reading, tokenizers, the scripts (`compare`, the drawing and command line of `yolo_eval`, `sr_gui`,
  `benchmark_xpu`, …).  Kernels are modelled as far as section 3 says.
* `benchmark/` except `compress_memory_with_kv_cache` and the quantization loop of `examples.py`; `tests/`, `data/`.
* Concurrency: the code has none.  Crash points: exceptions are modelled as results with the state they leave (C48, C82, C86); a killed process is not.

## 5. Plan per property

| id | property | model | how it is proved | status |
|----|----------|-------|------------------|--------|
| C01 | Live activations never share memory | Memory | State machine over the node order; invariant: the blocks tile [0, total) and every tensor in memory owns the block recorded for it. Induction over the nodes. | proved |
| C02 | Every offset lies inside the reported pool | Memory | Same invariant: recorded offsets lie in blocks, the blocks end at the reported size. | proved |
| C03 | Blocks are aligned and large enough | Memory | Same invariant, with the aligned size kept as a field of each block. | proved |
| C04 | Compression never costs more than no sharing and never less than the peak | Memory | Upper bound: the pool grows only by the size of the tensor placed; lower bound: disjoint live blocks lie in the pool. | proved |
| C05 | Graph outputs stay allocated to the end | Memory | Counterexample on a concrete graph (kernel computation); positive part for outputs no node reads from the invariant of C01. | partial |
| C06 | Memory pool views are in bounds, never alias while live, and never rejected | Pool | Byte-addressed store; bounds and non-aliasing from C01-C03 through the validity check of the constructor. | proved |
| C07 | Reordering puts every producer before its consumers | Topsort | Level-wise Kahn loop with fuel = number of nodes; invariant: emitted prefix is closed under producers. | proved |
| C08 | Reordering loses no node of an acyclic graph | Topsort | Permutation from progress of the loop on acyclic graphs (some node is always ready). | proved |
| C09 | Reordering is idempotent | Topsort | The loop on its own output emits the same levels. | proved |
| C10 | Producer and consumer indexes are exact | Graph, Remove | Refinement: index = list of consumers / producers read off the node list; preserved by every removal, hence by every history. | proved |
| C100 | Average precision of detections | YoloMetrics | the matching loop computes the unique greedy matching (induction on the predictions with the set of taken annotations); counting by an injection into the annotations; the average by the running maximum of a rising curve | partial |
| C101 | Evaluating a detector on images | YoloEval | exact arithmetic of the letterbox; the loops by induction on the images; the bound by restricting the annotations to the evaluated images; counterexamples by kernel computation | partial |
| C102 | Element types after shape inference | DTypes | the rule of every node class as a table and the ONNX signature as an independent table; case analysis over all operators for the exact condition, induction over the sorted node list for graphs | partial |
| C103 | Quantized operators have the shape and cost of the operators they replace | QuantOps | exact conditions (iff) against the model of Conv and MatMul shapes and costs; window counting through C21, broadcasting through C42 | partial |
| C104 | What an LLM session tells the engine about the model's inputs | LlmInit | closed form of the two loops (dictionary folds), correction for the cache shown to change nothing, case analysis on the three outcomes; counterexamples for max_seq_len ignored, inputs left out, shared bound, mixed shapes | partial |
| C105 | Reordering and constant folding a model file | FileTools | composition of the load (C73), topological sort (C07), constant folding (C17/C18) and save (C74) theorems; idempotence by a fixed-point lemma for the sort on sorted lists | partial |
| C106 | Super-resolution of images of any size | SrEngine | case analysis of the padding arithmetic, reflection formula, floor arithmetic over exact rationals; all 256 steps by kernel computation with IEEE rounding | partial |
| C107 | Attributes that are left out have ONNX's defaults | Defaults | fold lemma for add_default_value (first value wins); comparison of the tool's table with ONNX's table entry by entry with a symbolic rank | partial |
| C108 | Activated parameters are the worst-case weights a forward pass reads, and never exceed the model's parameters | Activated | second traversal of the builder for node.params (constants of every node); routing bound by counting distinct experts, attained by a round-robin routing; closed forms of C66 for static_params | partial |
| C109 | A checkpoint is loaded completely into the decoder built for it | Checkpoint | the weights of a built decoder are computed as an explicit list by traversal of the builder; every weight is read by one node (distinct names), so any node order gives the same first reader; the update loop is characterised by induction over the tensor names; values follow from C60. | partial |
| C11 | Removing dangling nodes never removes a needed node | Remove | Fixed point of the removal loop characterised by an inductive "needed" predicate; counterexamples. | partial |
| C110 | Profiles, overlap warnings and comparisons describe the run that happened | Diagnostics | A run is a list of clock readings. Induction over the run for the accumulated dictionaries (their sums and per-key values), telescoping sums for the elapsed time, permutation and sortedness of a stable sort, and interval arithmetic for the overlap check. Times and elements are exact rationals. | partial |
| C111 | Removals work after other edits | Links | The graph is extended by the links (nextnodes) of every node, a link being a node or, after a fusion, a list of names. Histories are lists of calls; invariants (well-formed indexes, shrinking node list, unchanged links) by induction over the history reduce a removal history to C78; links with lists make both calls fail (induction over link paths and over the pass); stale links are followed exactly. | partial |
| C112 | Running a model file end to end | Pipeline | composition of the models of C73 (load, folding), C07-C09 (reorder), C15/C16 (compute graph), C01-C03 (plan) and C46 (forward); the value of every tensor is tracked through the stages by induction over the executed prefix | partial |
| C113 | Profile of decoders with latent attention and gated delta nets | HybridCost | closed forms per layer kind summed over the layers by the monadic cost calculus of C66, with the mixer of each layer chosen by its kind | partial |
| C114 | The exception tells the cause | Raises | Each call is unfolded and its result compared with a list of (exception, cause) pairs: it raises e exactly when a pair (e, true cause) is listed (`Fails`); causes are written in terms of the arguments only. | proved |
| C115 | A pool made for a range of sizes serves every size in it | RangePool | The loop of shape_regress is followed to the shapes its last probe leaves in the tensor map (invariant: user variables and input descriptions survive each step); the slot bound of C03 and the access rule of C06 then give the claim for tensors that grow with the variables. Two variables refute it for the model-file pool. | partial |
| C116 | Larger inputs never make a tensor smaller | Grow | monotonicity of each shape function by induction on the shape; for networks by induction over the topological order on two solutions of the node equations (C75), then C115 | partial |
| C117 | The exported curve of a detector has one correct point per threshold and never rises | PrCurve | a stable sort is determined by the entries of each score, so sorting commutes with filtering; the rows above a threshold are a front part of the ranking; the matching of a list is the matching of its front parts; average precision is monotone in the number of predictions judged | proved |
| C118 | The window of the super-resolution tool shows and saves the result of the image that was opened, under every schedule of its threads | SrApp | transition system over events; invariants kept by every step after an image has been opened; for the converse an explicit schedule that runs all other threads first | partial |
| C119 | Super-resolution of a folder gives every image its result, and a batch that is cut off leaves only finished files | SrBatch | The batch is the list of its writes; a prefix of that list is split, by induction over the images, into the writes of finished images and at most one of the next; file names of different stems are shown different, so that the last write to each name is known. | partial |
| C12 | Subgraph split is an exact partition | Subgraph | BFS closure = inductive reachability. | proved |
| C120 | The cost of a batch | Batch | shape inference is run side by side for two batch sizes with an invariant on every tensor (same shape but for the first axis); each operator is shown to keep the batch without looking at it, and each cost to be linear in it; the totals follow by C35 | partial |
| C121 | How long a result is valid | ResultViews | `outputViews` keeps the views `forward` returns; `collect` is their contents (induction over the outputs). With C47's invariant the views depend on the dimensions only, so a kept dict of views reads what the later call's dict reads. Feeding back: induction over the inputs, the memory agrees with the memory before the call on all views still to be read. Findings: `C121_result_overwritten`, `C121_two_states_mixed` (the real plan of a two-state graph). | partial |
| C122 | Calls from several threads | Overlap | `forward` as a small-step machine over the state of `Model/InferState` (dimensions and cache; copy; each node; outputs). `finish` is the big step from any point; every step preserves it, so the machine run alone is C47's `call`. Invariant over schedules: for each engine the state is that of the calls begun so far, the last one possibly in progress. Findings by concrete schedules: `C122_overlap_wrong`, `C122_overlap_leaves_engine_wrong`. | partial |
| C123 | The accuracy reports | Compare | lists of samples of rationals or NaN; maxima by induction on the list, the cosine over the reals by an inductive Cauchy-Schwarz, batches by taking and dropping, argmax by its running maximum; the findings by computation or for all outputs | proved |
| C124 | The numbers of the benchmarks | Benchmark | exact rationals; linked with the model of the profiler's MACs (C43) and of convolution shapes (C21), and with the profiled run of C110; the unit loop by cases | partial |
| C125 | What the LLM command loads | LlmCli | a disk is a listing per directory and the snapshots per cache key; find over the sorted snapshots gives the greatest usable one (a sorted list's first hit); permutations of a listing; case analysis of main for each part of the plan and for each error; counterexamples evaluated: shards, weights of another model, an unrelated ONNX file in the working directory | partial |
| C126 | Calls on one graph object do not depend on the calls before: node objects | NodeState | the loop of C75 with a state per node name; an invariant per node under which an object behaves like a new one and which its steps keep; induction over the nodes of a call and over the calls; combined with C75_history; for TopK without axis an exact condition on the series of operand ranks and an evaluated counterexample | partial |
| C127 | The window says how its work ended | SrStatus | a transition system of threads, the queue of callbacks and what is seen; the multiset of all messages is invariant, for one thread also their order; a callback that uses the exception variable fails once the except branch has ended (invariant: an unbound variable stays unbound); both outcomes of a failing thread shown to exist, the lost one for batches of every length | partial |
| C128 | The memory a node is charged | NodeMemory | the exact difference between the charge and the bytes as a sum over outputs and weights, for all nodes; equality when the element sizes agree, an equivalence for one weight; for Gather the charge is compared with the output elements via the product of the table's dimensions, an equivalence in shape, axis and indices | partial |
| C129 | Shapes of Scan, ZipMap and GeGelu | FixedShapes | the sequence of writes with the first failure ending it; equivalence with ONNX's shapes for five outputs, failure for every smaller node by cases; ZipMap and GeGelu by equivalences in the shape | partial |
| C13 | Subgraph interface is exact | Subgraph | Membership characterisation of both lists from the exact index. | proved |
| C130 | Images with the detections drawn in | Draw | what is drawn as data (rectangle, colour, name); an equivalence for being drawn and one for the pixels enclosed, by integer arithmetic on the clipped corners; the way through the letterbox from C101; dashes by an equivalence per pixel; names by uniqueness of ids, for both numberings of the categories | partial |
| C131 | Vision encoder and language model in one table | VisionTable | a row as an equivalence with a separate description (patches by the grid, figures by rounding bounds), the table by induction; the encoder's graph from C67, the decoder's cost from C66; bounds of ratio and total by arithmetic; counterexamples for rounding, small decoders and different patch sizes | partial |
| C132 | The profile window shows the profile and leaves the console alone | SrProfile | a transition system of threads over one standard output; runs one after another by induction over the threads in any order; conservation of lines by an invariant over every schedule; counterexamples for all reports and schedules that overlap, and an invariant for the console that stays silent | partial |
| C14 | Fusing a node set keeps the graph's connections | Subgraph | Composition of C10 (removals) and C13 (interface); counterexample for graph outputs. | partial |
| C15 | Shape-calculation marking is the exact backward closure | ShapeCalc | Marking loop = inductive dependency closure. | proved |
| C16 | The compute graph keeps what the outputs need | ComputeGraph | Set characterisation of the kept nodes; counterexamples. | partial |
| C17 | Constant detection is exact | ConstFold | Fixed point = least set closed under "all operands constant". | proved |
| C18 | Constant folding preserves the computed function | ConstFold | Evaluator with arbitrary operator semantics; evaluation of the folded graph equals evaluation of the original, by induction over the order. | partial |
| C19 | Broadcast shape inference matches multidirectional broadcasting | Broadcast | Equality with an element-wise specification of numpy broadcasting (iff for success). | partial |
| C20 | Pointwise shape inference returns the broadcast shape whenever an operand already has it | Broadcast | Maximality of the volume identifies the broadcast operand. | proved |
| C21 | Convolution and pooling output size counts the window positions | Conv | Output size = number of window positions that fit (counting specification), all strides, pads, dilations. | partial |
| C22 | Transposed convolution inverts convolution, auto-pad agrees with explicit pad | Conv | Integer arithmetic with floor/ceil. | proved |
| C23 | Slice shape inference counts the selected elements | Slice | Length = number of indices selected by the ONNX rule; proved per axis and lifted to lists. | partial |
| C24 | Reshape preserves the element count | Axes | Volume arithmetic; iff for the accepted targets; counterexamples. | partial |
| C25 | Split parts add up and Concat rejoins them | Axes | Sum of parts; Concat of Split is the identity on shapes. | partial |
| C26 | Axis-rearranging shape inference is lossless | Axes | Inverse laws between Squeeze/Unsqueeze, Transpose/Transpose, volume preservation. | proved |
| C27 | Shape regression extrapolates exactly | ShapeEngine | Exact rationals; the affine fit is exact at every x; rounded quotients under explicit conditions. | partial |
| C28 | Shape engine variables are consistent after an update | ShapeEngine | Invariant after update_variables; independence of the order of variables. | proved |
| C29 | Serialized shape engine can be decoded without loss | Serial | Independent reader; decode (encode x ++ rest) = (x, rest); injectivity. | partial |
| C30 | Serialized memory plan can be decoded without loss | Serial | As C29. | proved |
| C31 | Serialized graph can be decoded without loss | Serial | As C29, over nodes, attributes and tensors. | partial |
| C32 | Saving and reloading an initializer keeps its data | TensorProto | Bit patterns through byte encoding, all element counts; finite tables only for dtype codes (the whole domain). | partial |
| C33 | 4-bit packing is lossless | Quant | Unpacking specification; injectivity for all rows of even length; counterexamples. | partial |
| C34 | Quantization error is bounded by the scale | Quant | Exact rationals: |dequant(quant x) - x| ≤ scale/2 for every element and grouping. | partial |
| C35 | Profile totals are the sums of the node rows and count shared weights once in the dedup row | Profile | Totals as sums, permutation invariance, dedup counts each initializer once. | partial |
| C36 | Expert-activation parameters are monotone and capped | Macs | Monotonicity and cap of the parameter formula. | proved |
| C37 | Operator registry behaves as a map | Registry | Refinement to a finite map over all histories of registrations. | proved |
| C38 | Pattern search returns only genuine matches | Pattern | Soundness invariant over the backtracking search with its mutable list; termination measure; exact answer for ConvBN. | partial |
| C39 | Conv+BatchNorm folding preserves the function | ConvBN | Field algebra for one pair; graph-level evaluation invariance over the list of matches. | partial |
| C40 | Skipping a shape-only node keeps the graph connected | Skip | Rewiring lemma over the exact index. | partial |
| C41 | compress_memory always returns a plan | Memory | iff characterisation of returning; counterexample. | partial |
| C42 | Matrix product shape inference broadcasts the batch dimensions | Broadcast | Shape equality with the ONNX matmul rule. | partial |
| C43 | Reported MACs are the multiplications of the operator's definition | Macs, Einsum | MACs = cardinality of the multiplications in the defining sum. | partial |
| C44 | Attention cost model | Macs | As C43 for the two attention products. | partial |
| C45 | Einsum output shape follows the equation | Einsum | Label environment = the unique assignment of sizes; output read off it. | partial |
| C46 | Running in the shared activation pool gives the reference result | Infer | Refinement: pool execution simulates the reference environment; uses C01-C03 for the plan. | partial |
| C47 | forward uses the shapes of the current call only | InferState | Invariant over all histories of calls: the state is a function of the last dimensions. | proved |
| C48 | A failed forward does not affect later calls | InferState | As C47 with failure points; counterexamples. | partial |
| C49 | Cached attention equals full causal attention | Sdpa | Induction over the history of calls: cache contents = keys/values of all past positions. | partial |
| C50 | Rotary embedding encodes relative positions | Sdpa | Rotation algebra in a field with sine/cosine laws as hypotheses. | partial |
| C51 | Memory plan with a key/value cache: the cache has a pool of its own | KvPlan | Two runs of the allocator of C01. | proved |
| C52 | The key/value cache persists exactly, over a session of forward calls | InferKv | Refinement of a session: the cache pool is untouched by activations. | proved |
| C53 | Text generation is autoregressive | Generate | Loop over an abstract engine; trace characterisation. | partial |
| C54 | Decoding in chunks with a KV cache equals recomputing the whole sequence | Decoder | Induction over chunks and nodes: chunked run = one run. | proved |
| C55 | Builder.build_graph produces a valid, shape-consistent graph | Builder | Induction over the list of emitted records; fresh names, SSA, order, shapes. | proved |
| C56 | The built graph has exactly the parameters of the architecture | Builder | Sum over emitted initializers = closed form. | proved |
| C57 | add_kv_cache gives every attention layer its own fitting cache slots | Builder | Slots of attention nodes are disjoint and sized. | proved |
| C58 | Builders do not disturb each other | Arch | Aliasing of the table modelled by key; history of constructors. | partial |
| C59 | A graph built from a configuration computes the decoder the configuration describes | Builder | Evaluation of the built graph with uninterpreted operators = the decoder term. | proved |
| C60 | Weights reach the kernels in the layout the node means | Preload | Layout of constants against the node's meaning over a commutative ring. | partial |
| C61 | Kernels that move data deliver the ONNX result | Kernels, Torch | Element-wise equality with the ONNX definition, all shapes. | partial |
| C62 | Kernels that cut and join tensors deliver the ONNX result | KernelsCut, Torch | As C61. | partial |
| C63 | Conv and pooling kernels deliver the ONNX result | KernelsConv, Torch | As C61, sums over windows. | partial |
| C64 | Normalisation kernels deliver the documented result | KernelsNorm, Torch | As C61 in a field. | partial |
| C65 | Projected memory and latency are the roofline of the nodes | LlmProfile | Rational arithmetic: roofline per node, sums. | proved |
| C66 | Profile of a built decoder is the cost of the architecture | LlmCost | Sum over the emitted nodes of every configuration = closed form. | proved |
| C67 | build_vision_graph builds the vision transformer it describes | Vision | As C55/C56/C59 for the encoder; index arithmetic for patches. | partial |
| C68 | Value inference of data-moving operators follows ONNX | ValueMove | Element-wise equality with ONNX, all shapes and ranks. | partial |
| C69 | Value inference of arithmetic operators follows ONNX | ValueMath | As C68. | partial |
| C70 | Value inference of reductions and tensor-building operators follows ONNX | ValueReduce | As C68. | partial |
| C71 | Value inference of MatMul, Gemm, Conv, pooling and normalisation | ValueConv | As C68 in a field. | partial |
| C72 | Shape inference without values agrees with value inference | Predict | Shape of the computed value = inferred shape, operator by operator. | partial |
| C73 | Loading a model keeps its nodes, interface and values | Load | Evaluation of the loaded graph = evaluation of the file, both folding modes. | proved |
| C74 | Saving a loaded model preserves what it computes and is stable | Load | As C73 for the written file; second save equals the first. | proved |
| C75 | Shape inference is independent of history and node order | ShapeInfer | Two runs from different histories agree; counterexamples. | partial |
| C76 | Shape regression predicts the shapes shape inference computes | Regress | Invariant of the loop over dynamic tensors relating stored expressions to the network's shape functions. | partial |
| C77 | Fusing post-ops keeps the graph | Edit | Node set, interface and index after fusion; iff for exactness of the index. | partial |
| C78 | remove_subtree removes exactly the descendants | Edit | Recursion = inductive descendants. | proved |
| C79 | Fixing the branch of If nodes keeps the graph | Branch | Evaluation of the graph after inlining = evaluation with the branch taken. | partial |
| C80 | Fixing the K of TopK nodes keeps the graph | TopK | As C79 with the K of each TopK fixed. | partial |
| C81 | Shapes of selecting, resampling and recurrent operators | Resample | Equality with per-operator shape specifications. | partial |
| C82 | graph_quantize replaces a weight by codes and scales that decode to it | GraphQuant | Composition of C33, C34 with the graph edit; loop over the mutated list. | partial |
| C83 | Reported weight sparsity is the fraction of zero blocks of the reported size | Sparsity | Complete characterisation of the search result; iff for truthfulness. | partial |
| C84 | The CSV profile report can be read back and its totals are exact | Report | Independent CSV reader; iff; rounding of totals to 53 bits modelled. | partial |
| C85 | model_profile calls are independent of each other | Report | History of calls with the shared default set. | partial |
| C86 | Exporting tensors writes each initializer to its own file in the folder | Tools | File-system map; path injectivity. | partial |
| C87 | model_io_modify sets exactly the given shapes | Tools | Split/join laws for the dimension text; iff. | partial |
| C88 | Fusing the nodes between two sets of tensors fuses exactly these nodes | PatternMake | Description exact by induction over the two loops; DFS completeness invariant (new nodes are closed under neighbours) for the search. | partial |
| C89 | Elementwise, reducing and selecting kernels fill exactly their slot of the memory pool | KernelsElem, Torch | Stores at element addresses: the slot is read back element by element and every other address is framed; results against the specifications of C69 and C70. | partial |
| C90 | Reported MACs of elementwise, normalising, reducing, recurrent and quantised operators are those of their definition | MacsOps | straight-line programs over the reals: each table entry is evaluated, its cost compared with the table of the classes; counts by multi-index lists, case analysis over the operator for additivity | partial |
| C91 | Exporting part of a graph gives a model that computes the same values | Export | interface and sorting lemmas of C07, C08, C13 on the selected nodes; evaluation of an export against the loaded graph by induction on the evaluation, then C73 to the file; levels by reachability | partial |
| C92 | Command line arguments denote the tensors they describe | Cli | splitting an intercalated list, digits of a number, induction over the lists of elements and arguments | partial |
| C93 | A memory pool behaves like a set of independent tensors over its whole history | PoolState | simulation of the heap of storages by independent tensors, induction over the history; composed with C01 | proved |
| C94 | Dumped tensors are additional outputs | Dump | induction over the names and over the nodes before and after the producer; composed with the models of value inference, saving, memory planning and forward | partial |
| C95 | The Resize kernel resamples as its attributes say | Props/KernelsResize | `torch.interpolate` written out over rationals (nearest, bilinear; bicubic a parameter), compared with ONNX's coordinate rules in Spec/KernelsResize; per-axis characterisation of the agreement | partial |
| C96 | The TopK kernel returns the k best elements and their positions | Props/KernelsTopK | `torch.topk` is a parameter constrained by its documentation; from its answer a sorted permutation of every fibre is constructed | partial |
| C97 | A tensor describes the data it holds | Tensor | induction over the sequence of calls: what was set last, invariants of the data held between two writes | partial |
| C98 | Nodes and their attributes survive loading and saving | NodeAttr | induction over attribute lists; writing respects permutations (sorting by name) | partial |
| C99 | Detections of an image | Yolo | the suppression loop by induction on the number of boxes left; the choice is unique by induction on the number of surer boxes; the overlap against counted cells | partial |

All properties of the list can be expressed in the model; none is `not_applicable`.

## 6. Status and findings per property

What is proved, and in which cases the code violates the property (each violation has a theorem).

* **C01** (proved, 1 theorems).  The property as stated.
* **C02** (proved, 1 theorems).  The property as stated.
* **C03** (proved, 2 theorems).  The property as stated.
* **C04** (proved, 2 theorems).  The property as stated.
* **C05** (partial, 2 theorems).  False as stated (C05_output_overwritten is a kernel-checked counterexample); proved for outputs that no node reads.
* **C06** (proved, 5 theorems).  The property as stated.
* **C07** (proved, 2 theorems).  The property as stated.
* **C08** (proved, 3 theorems).  The property as stated.
* **C09** (proved, 1 theorems).  The property as stated.
* **C10** (proved, 5 theorems).  The property as stated.
* **C100** (partial, 16 theorems).  Proved: the value of a class is the 101-point average precision of the unique greedy matching, recall <= 1, values in [0, 100/101], mean over annotated classes, one entry per threshold, independence of image order for distinct scores. Refuted: an errorless detector gets 100/101 (searchsorted side='right'), categories not below num_classes are ignored, thresholds with the same two-decimal text collapse, no threshold gives NaN. Exact rationals.
* **C101** (partial, 14 theorems).  Proved: the letterbox (scale maximal, sizes, borders, pixels), when loading fails, the exact way back, ids of the compared images, and a bound by the share of annotations in evaluated images. Refuted: metrics compare letterbox coordinates with original coordinates and class numbers with category ids (an errorless network gets 0), annotations of unevaluated images count as missed, evaluate_image_dir numbers files 0,1,2,... instead of using the annotated ids. Exact rationals; OpenCV branch only.
* **C102** (partial, 12 theorems).  False of the code; exact condition proved (an output gets its ONNX type iff the node is Reliable for it), lifted to sorted graphs. Findings: Round reports bool; QLinearConv without bias reports the type of the scale (float32); MaxPool indices, BatchNormalization and LayerNormalization extra outputs, and reductions without axes are never typed; Cast to uint32/uint64/bfloat16 gives None (billed at 8 bytes); ReduceL2 of integers gives float64; QuantizeLinear without zero point, GRU with one output and Scan with fewer than five outputs always raise. Types of value_infer for shape-computing nodes are a premise.
* **C103** (partial, 11 theorems).  False of the code, exact conditions proved: a quantized convolution has Conv's shape iff auto_pad is not VALID and there are not three spatial axes (else it silently gets the empty shape and costs 0 MACs); QLinearMatMul has the right shape iff the batch of the result is that of the data, and is always wrong for a weight of rank one; MatMulInteger is charged a bias if it has exactly one zero point.
* **C104** (partial, 11 theorems).  Proved: exact descriptions and ranges in the three outcomes, ranges and variables match, n_past, fallback. False of the code and refuted: that max_seq_len bounds the sequence (fixed shapes), that every fed input is described, that each input's own size bounds it (shared seq), that one free dimension leaves the others variable.
* **C105** (partial, 12 theorems).  Proved: both tools return on every valid file, the exact nodes/initializers/inputs/outputs written, that values are kept, folding is idempotent, reordering is idempotent from the second run on. False of the code and refuted: a second reorder writes the same file (inputs listed in another order, unread initializers become inputs and then vanish); a fully constant model is not written; a constant graph output is dropped; nodes behind two empty-named outputs are silently lost.
* **C106** (partial, 14 theorems).  Proved: what the network is given, size, place and value of every pixel, lossless conversion in exact arithmetic, float32 and float16, padding unseen away from the border, exact condition on the maximum size. False of the code and refuted: every image of the promised size is in range (only if the maximum is a multiple of four), the scale is the model's (read from any digit next to an x in the file name; then the result is cut off or too small), nearest step (rounded down).
* **C107** (partial, 9 theorems).  Exact condition proved (C107_default_iff: which missing attributes mean ONNX's default, for every rank). False of the code and refuted: Split, Softmax, TopK (rank > 1), Resize/Upsample, Pad, RoiAlign and attribute-style Slice raise when they rely on a default; Squeeze without axes drops the first axis; LayerNormalization's epsilon default is set under a misspelt name; pooling and transposed convolution defaults are too short for three spatial axes.
* **C108** (partial, 10 theorems).  All kinds of layers. Proved: both numbers in closed form, upper bound over all routings and ids, attained by a round-robin routing, exact for one token, monotone, within the total when tokens <= vocabulary. The claim fails as follows, all proved: the gates of shared experts are not counted, rotary tables are counted four times per rotating layer both in activated and in total (total exceeds the parameters of C56), embedding rows are not capped at the table so that activated exceeds total for more tokens than words.
* **C109** (partial, 11 theorems).  Proved for the Qwen family with the default weight map (C109_decoder, C109_linear, C109_as_stored) and in general for the update loop (C109_found, C109_kept). Refuted beyond it: checkpoints stored input x output (GPT-2 Conv1D) are turned the wrong way (C109_conv1d_counterexample), one tensor shared by embedding and head keeps the embedding's layout (C109_shared_counterexample), a tied head is never found without the name map (C109_tied_needs_map).
* **C11** (partial, 4 theorems).  False for graphs whose output is also read by a dangling node (C11_output_lost) and raises on unsorted graphs (C11_unsorted_raises); proved exactly otherwise.
* **C110** (partial, 16 theorems).  Times, counts, totals, percentages, table order, slowest nodes, elapsed-time bound, overlap check, summary counts and comparison verdict are proved for all runs. Refuted as stated: C110_zero_total (printing fails with a total of 0), C110_same_operand (false alarm), C110_compare_asymmetric, C110_compare_empty, C110_largest (fails without pooled tensors). Exact rationals instead of floats.
* **C111** (partial, 13 theorems).  Proved: C111_after_removals, C111_removals_return (all histories of removals), C111_kept_is_linked, C111_reload. Refuted: C111_after_fusion (every fusion in the middle of a graph makes remove_subtree of the fused node raise AttributeError and remove_dangling_nodes fail), C111_list_link_subtree, C111_list_link_dangling, C111_after_skipping, C111_needed_node_removed, C111_stale_subtree, C111_fused_name.
* **C112** (partial, 5 theorems).  C112_run covers outputs that a kept node produces and none reads (a read output may be overwritten: C05, C46); C112_one_node and C112_shape_value_as_data show that the unrestricted claim is false of the code. No checkpoint (C109) and no kv_cache (C51, C52).
* **C113** (partial, 9 theorems).  Totals proved for all configurations and mixtures of layers. Shown false where the code departs from what a reader expects: the delta net's projections are counted twice (C66_gdn_counted_twice), compressed latent attention costs more than full attention on sequences within the window (C113_short_sequences_cost_more), and a latent-attention model reads no cached elements while kv_params counts a cache (C113_latent_cache_not_counted). Compressor and indexer weights are neither registered nor counted by the code.
* **C114** (proved, 21 theorems).  Exact correspondence (iff, no other exception) for planning memory, registries, formulas, raw data, GatherND, ConstantOfShape, global average, padding, Gemm, max shape, skipping a node whose result is read; for broken indices the exception of the first broken entry.
* **C115** (partial, 7 theorems).  Proved for GraphInfer's pool and tensors whose size grows with the variables (C115_engine), for the pool of a model file with one variable (C115_one_variable) or sizes that are largest where it plans (C115_from_model_partial). False otherwise: with two variables create_memory_pool_from_model plans for the last at its largest and the others at their smallest value, and refuses the largest image (C115_two_variables_counterexample); a size that falls while the input grows is not served (C115_falling_counterexample).
* **C116** (partial, 37 theorems).  Proved for networks of rising nodes and for each listed operator; batched MatMul/Gemm when the operands' batches agree or the result has their true broadcast. Missing because the code falsifies it: Slice with a start from the end and an end from the front, uneven Split without sizes, _max_shape operators and batched MatMul in general fall (theorems C116_*_falls, C116_slice_pool_counterexample); not covered: Reshape of empty tensors, operators whose shape depends on data (NonZero, NMS).
* **C117** (proved, 11 theorems).  Exact rational arithmetic; network outputs are a parameter; images of the used slice have distinct ids in C117_value.
* **C118** (partial, 10 theorems).  The full claim (every schedule) is false of the code: C118_stale, C118_race, C118_race_bicubic; C118_safe_iff gives the exact condition. Also false: C118_failure_keeps_old, C118_unreadable_renames. Overlapping engine calls each give their own result in the model.
* **C119** (partial, 10 theorems).  Proved: which files are taken, success exactly when every image works, the files at the end (last image of each stem), every crash point for images of distinct stems, and errors. The unrestricted claim (every image has its result) is false of the code: C119_same_stem, C119_bad_file. Not modelled: failing writes, the two-thread use of the engine.
* **C12** (proved, 2 theorems).  The property as stated.
* **C120** (partial, 34 theorems).  for networks whose nodes work sample by sample; the operators shown to do so are those of the statement (normalisations and the fused operators are not, but their costs are covered by C120_node_macs; Split has several outputs, so its theorem is about the list of them); the claim fails for a Reshape to [1, -1] (C120_flatten_one_sample: batch moved into the features, the MatMul behind it accepts it and costs one sample), for a Resize by sizes (C120_resize_by_sizes: the batch is that of the file), for products of samples (C120_gram), and for LSTM and GRU (batch on the second axis, C90)
* **C121** (partial, 6 theorems).  That the results are views, that a later call overwrites them (same dimensions: entirely; other dimensions: as far as both go) is proved over all histories; feeding back is proved equal to passing copies under FeedsBack. Missing because the code falsifies it: feeding back any results (C121_two_states_mixed: two states are mixed up by the pool plan). Views given for inputs outside the pool are not covered.
* **C122** (partial, 5 theorems).  Proved for every schedule in which calls on one engine do not overlap, and for engines of their own; the steps are proved equal to C47's call. Missing because the code falsifies it: overlapping calls on one engine, as the window's threads make them (C122_overlap_wrong, C122_overlap_leaves_engine_wrong).
* **C123** (proved, 20 theorems).  floats are exact rationals or NaN (no rounding, no infinities). Further findings, proved: mean_diff is the mean of the samples' maxima (C123_mean_is_not_the_mean), the cosine of equal zero outputs is 0 (C123_cosine_zero) and does not see a factor (C123_cosine_scale), a small difference can flip a prediction (C123_prediction_flip), a NaN sample is listed last among the worst (C123_worst_hides_nan), the verdict of compare.py is not symmetric (C123_verdict_asymmetric) and passes whatever the GPU computes if its two programs agree (C123_all_pass_ignores); the last batch may be smaller than the engine was made for (C123_last_batch)
* **C124** (partial, 11 theorems).  times are exact rationals. The claim about the shown rate fails: from 1000 operations per second on format_flops shows a billion times the rate (C124_flops_label; the TFLOPS column is right); compare.py ends in a ZeroDivisionError if there was no overhead, the plot if no memory was used (C124_shares, C124_plot_zero)
* **C125** (partial, 24 theorems).  Proved for every disk, command line and configuration: which weights, configuration and ONNX file are used, exactly when none is found, and which errors there are; listing order is irrelevant if there is model.safetensors or at most one file. False in general: of a sharded checkpoint only the shard listed first is used (C125_one_shard_counterexample), a directory without weights silently gets the cached weights of the model named in its configuration (C125_wrong_weights_counterexample), and any ONNX file of the working directory may be loaded for a supported name (C125_wrong_onnx_counterexample). Not modelled: the tokenizer, the download itself, and what exporting does when the given directory does not exist.
* **C126** (partial, 9 theorems).  Proved for every graph whose TopK nodes have the attribute axis, every series of calls (C126_series_partial), and combined with C75 (C126_history). Without the attribute it is false: TopK keeps axis 0 from the first vector it sees; C126_topk_exact says exactly for which series the calls agree with new objects, C126_topk_counterexample shows a matrix after a vector.
* **C127** (partial, 10 theorems).  Proved for every schedule: every message once, only messages about exceptions can fail, order and last message of one piece of work, batches. The last sentence is false of the code: the callbacks of the except branches use the variable e, which is deleted when the branch ends; after that the error is never shown (C127_too_late), so whether it is depends on the schedule (C127_error_lost), for batches of every length (C127_batch_error_lost).
* **C128** (partial, 13 theorems).  Proved for all nodes: the exact difference between the charge and the bytes of outputs and weights (C128_exact); equality when the outputs share one element size and the weights share that of the first operand (C128_bytes_partial); with one weight exactly then (C128_one_weight_iff). Gather: what is charged, and an equivalence for the charge to be the elements looked up (C128_gather_iff); true of every embedding (C128_embedding), where it may exceed the table. False of the code: an int8 weight read by a node whose first operand is float is charged four bytes an element; positions of TopK are charged like its values; Gather over other axes or of a vector charges more than is looked up, of an activation charges weights that are not there, of a scalar index charges nothing.
* **C129** (partial, 14 theorems).  Proved: what Scan's shape inference writes, an equivalence for when this is right (C129_scan_iff), and that every Scan with fewer than five outputs or four operands fails (C129_scan_few, C129_scan_few_operands; ONNX asks for one of each); ZipMap is right exactly for matrices and vectors of one element (C129_zipmap_iff); GeGelu is right exactly for a last axis of even length, keeps all other axes, and fails exactly for scalars and names (C129_gegelu_iff, C129_gegelu_rank, C129_gegelu_fails_iff). False of the code: all other Scan nodes, ZipMap of a vector, GeGelu of an odd axis (not refused).
* **C13** (proved, 3 theorems).  The property as stated.
* **C130** (partial, 22 theorems).  Proved for all sizes and boxes: when a detection is drawn (C130_drawn_iff), that its rectangle encloses exactly the pixels of the box inside the image (C130_rect, C130_inside), the way back from the letterbox for boxes of whole pixels (C130_roundtrip), order (C130_order), which annotations are drawn (C130_gt) and every pixel of their dashes (C130_dashes), names without categories (C130_names_default) and with categories numbered from 0 (C130_names_partial), colours (C130_color_iff), labels (C130_label_iff). False of the code: boxes one pixel wide or in the last column are not drawn; with categories numbered from 1, as in COCO, every detected class gets the name of the class before it (C130_names_shifted, C130_bicycle_counterexample) and another colour than its annotation; labels of boxes at the upper edge are outside the image.
* **C131** (partial, 12 theorems).  Missing because the code falsifies it: decoders below a thousand million operations stop the program (C131_small_decoder), the sum of rounded figures can be 1 below the rounded sum and the percentage far off for small figures (C131_rounding, bounds C131_ratio, C131_total), with different patch sizes the comparison prints the first model's tokens only (C131_comparison_tokens). Floating point is exact here; the text with one decimal is not modelled; decoders with linear attention are covered for any profile, the closed form only for ordinary attention.
* **C132** (partial, 6 theorems).  Proved for threads that run one after another in any order (C132_one_by_one_partial), for a profile that begins and ends while another prints (C132_nested_partial), and for every schedule that no line is lost or doubled (C132_every_line). False of the code when profiles overlap otherwise: the windows get the wrong or no report and the standard output stays in a buffer (C132_overlap_counterexample), after which nothing reaches the console (C132_silent); lines of other threads land in the window (C132_foreign_line_counterexample).
* **C14** (partial, 3 theorems).  False when a graph output is produced inside the fused set and only read inside it (C14_graph_output_lost); exact otherwise.
* **C15** (proved, 6 theorems).  The property as stated.
* **C16** (partial, 6 theorems).  False for multi-output producers and for outputs read only by shape nodes (C16_multi_output_lost, C16_output_lost); proved otherwise; also C16_source_graph_is_modified.
* **C17** (proved, 1 theorems).  The property as stated.
* **C18** (partial, 4 theorems).  Value preservation proved for every tensor the folded graph reads or produces, with the output names kept (remove_dangling, the default). False part: an output computed from constants only has no tensor any more, so it is lost when saving (C18_constant_output_gone, C18_constant_output_lost); without remove_dangling outputs that some node reads are dropped too (C18_read_output_lost).
* **C19** (partial, 5 theorems).  _broadcast_shape (elementwise operators) proved exact for all operand lists; Expand proved on the domain where the target broadcasts the input (C19_expand_partial), wrong outside it (C19_expand_wrong).
* **C20** (proved, 4 theorems).  Also proved that the result is not the broadcast shape in general (C20_not_broadcast_in_general).
* **C21** (partial, 5 theorems).  Conv exact; pooling proved for explicit pads (C21_pool_partial). Wrong for 3-D pooling ceil/auto-pad paths (C21_pool3d_wrong, C21_conv_auto_pad_3d).
* **C22** (proved, 5 theorems).  The property as stated.
* **C23** (partial, 5 theorems).  Shape inference proved exact for all inputs with non-zero steps (C23_slice); agreement with the computed value only for non-negative axes given as an input (C23_value_agrees_partial), false otherwise (C23_backward_wrong, C23_value_ignores_axes).
* **C24** (partial, 6 theorems).  C24_reshape_iff: exact (iff) for every input with at least one dimension, zero sizes included, and every target with at most one -1, unless a -1 stands beside a copied zero dimension, where the tool returns a negative dimension (C24_undetermined). Also false: several wildcards and scalars (C24_wildcards_left).
* **C25** (partial, 7 theorems).  Explicit splits, equal splits, concatenation and rejoining proved for all shapes; the default uneven split is right exactly when the first n-1 parts fit (C25_uneven_split_iff), else the last part is negative (C25_uneven_split_wrong).
* **C26** (proved, 13 theorems).  Reduce without axes and Squeeze of a dimension other than 1 are findings (C26_reduce_all_missing); the statement concerns named axes.
* **C27** (partial, 6 theorems).  Proved exact for all x for affine dimensions, and for rounded quotients under explicit conditions on the samples; the conditions are needed (C27_floor_aligned_wrong for every aligned range, C27_ceil_end_wrong).
* **C28** (proved, 6 theorems).  The property as stated.
* **C29** (partial, 6 theorems).  Proved for engines with NUL-free names, 32-bit dimensions and coefficients single precision holds: the writer returns and an independent reader recovers everything; two engines with equal bytes are equal; a coefficient survives if and only if single precision holds it (C29_coefficient_iff). Missing because false: other 32-bit coefficients are rounded (C29_large_coefficient_lost). Variable values are not stored by design of the format.
* **C30** (proved, 4 theorems).  Reader recovers size, blocks and maximum shapes whenever the writer returns; it returns exactly when all numbers fit 64 bits; C30_nul_name_ambiguous shows the NUL-free hypothesis is needed.
* **C31** (partial, 7 theorems).  Proved for graphs with NUL-free names, attributes that are non-empty homogeneous lists (or single values) of int/float/str/bytes, 32-bit ints and the six supported dtypes, up to identification of a single value with a list of one and a string with its UTF-8 bytes. Not claimed because false: tensor-valued attributes are dropped (C31_other_attr_lost), empty lists raise, 64-bit ints raise. A float attribute is modelled by its 32-bit pattern.
* **C32** (partial, 8 theorems).  Exact characterisation (C32_roundtrip_iff): every array of rank >= 1, every float, int32 and int64 scalar; scalars of small integer types and bool come back as 0, typed small-int protos are read as zeros, unsupported types as float64 (findings).
* **C33** (partial, 5 theorems).  Lossless packing is proved for symmetric codes in rows of even length; false for asymmetric codes (8..15 collide with 0..7) and the last code of an odd row is dropped: both proved as findings.
* **C34** (partial, 7 theorems).  Half-step error, own-group parameters and code range proved for every matrix, grouping and width 2..8 (sym) / 1..8 (asym) with no all-zero group, over exact rationals. 'Codes stay within the bit range' is false for asymmetric codes by one (C34_asym_code_overflow), widths above 8 saturate (C34_wide_saturates) and an all-zero row raises ValueError (C34_zero_row_raises).
* **C35** (partial, 10 theorems).  Totals, order independence, row contents and coverage proved for every exclude set; the Params/Dedup_Params/shared-size identity is proved for no exclude list and false with one (C35_dedup_ignores_exclude).
* **C36** (proved, 5 theorems).  The property as stated.
* **C37** (proved, 8 theorems).  The property as stated.
* **C38** (partial, 15 theorems).  Proved for all graphs and patterns with distinct names: termination, every reported entry is a node meeting its position's conditions, distinct nodes, connected by the pattern's edges; exact characterisation for ConvBN. The 'every position is filled / every match is found' reading is false of the code: counterexamples C38_placeholder, C38_order_dependent, C38_serial_operand_order, C38_mhaint8_never, C38_overlap, C38_conv1d_raises, C38_inport_on_input_raises.
* **C39** (partial, 7 theorems).  Algebra proved for every field, geometry, input (C39_fold_algebra); graph-level value preservation for all foldable pairs (C39_fusion_preserves_values_partial). False without the conditions: bias -> KeyError, second reader dangles, graph output lost, shared weight scaled twice (counterexample theorems). Exact field instead of floats.
* **C40** (partial, 7 theorems).  Proved for shape operators with one data operand whose output is read, and for an unread output whose operand has no other reader; false otherwise (C40_other_reader_disconnected, C40_two_dynamic_operands_disconnected, C40_graph_input_disconnected, C40_unread_on_input_raises).
* **C41** (partial, 2 theorems).  False as stated: C41_returns_iff characterises exactly when it returns; C41_single_node_raises is the counterexample (ZeroDivisionError).
* **C42** (partial, 4 theorems).  C42_gemm_iff: for operands whose batches broadcast, the inferred shape is right if and only if the broadcast batch is that of the first operand, or that of the second and the first has none or one of another size. False otherwise (C42_wrong_batch).
* **C43** (partial, 8 theorems).  Proved for Gemm, MatMul of rank >= 2, Conv, 1-d/2-d pooling and Einsum without ellipsis; false for MatMul by a vector, ConvTranspose, 3-d pooling (wrong counts) and Einsum with ellipsis (IndexError): proved as findings.
* **C44** (partial, 8 theorems).  Proved for three-dimensional queries; for the 4-d query layout the head count is taken for the sequence length (C44_sdpa_layout_confused).
* **C45** (partial, 11 theorems).  Proved from the text of the equation (spaces, commas, arrow, implicit mode) to the shape, for every number of operands with leading ellipses and broadcasting letters; exactly right iff the result mentions the ellipsis or it stands for nothing (C45_equation_iff). False, with theorems: letters before an ellipsis are lost, a summed ellipsis is kept, missing operands are not noticed.
* **C46** (partial, 7 theorems).  Proved for every plan of compress_memory: each operand read by each kernel equals the reference value, and forward returns the reference outputs for outputs live at the end. Missing (false of the code): outputs that are read by a later node may be overwritten (C46_read_output_is_overwritten), bool tensors are planned with 1 byte per element but viewed with the run type (C46_wider_run_type_overlaps), 0-dim intermediates raise (C46_scalar_output_raises). Kernels are arbitrary functions of the operand bytes (contract RunOk).
* **C47** (proved, 5 theorems).  Proved for every model whose named dimensions are determined by the first input (Fits); C47_second_input_shape_ignored shows that with several differently-sized inputs only the first tensor's shape is used, C47_weight_override_inconsistent that tensors passed under a weight's name are treated inconsistently.
* **C48** (partial, 4 theorems).  False in general: C48_failed_copy_then_stale_shape (silently wrong output), C48_failed_kernel_then_index_error. Proved: after any history, failures included, a call with new dimensions behaves as fresh (C48_new_shape_recovers); failures of calls repeating the dimensions of a call that returned are harmless (C48_same_shape_failures_harmless).
* **C49** (partial, 6 theorems).  Proved for three-dimensional inputs (the layout the LLM builder emits) over exact field arithmetic with an arbitrary exponential, for every history of calls. For four-dimensional inputs with a cache the property is false: C49_four_dim_decode_raises, C49_four_dim_scrambled. The attribute attn_logit_softcapping is ignored by the kernel.
* **C50** (partial, 4 theorems).  Relative positions and length preservation proved in full (C50_tables gives the tables of cosines and sines the hypotheses). The clause about rotary_dim is false: C50_partial_rotary_rotates_all.
* **C51** (proved, 7 theorems).  Both plans, their sizes and the exact condition for returning are proved. The empty name (absent optional input) must have no size. C51_duplicate_input_wastes is a finding outside the statement (an input listed twice).
* **C52** (proved, 2 theorems).  Refinement of the reference session for outputs no node reads (others: see C46). Kernels are any in-place memory transformers meeting the contract Updates (C52_contract_satisfiable shows it can be met for every function); which kernels of kernels.py meet it is not modelled except for the attention arithmetic (C49).
* **C53** (partial, 9 theorems).  Everything but the length limit is proved (for engines meeting a contract, see C54 for decoder graphs). 'At most max_length tokens' is false: C53_one_token_too_many (max_length+1). Findings: prompt longer than max_length raises when verbose; empty prompt raises. The tokenizer is not modelled.
* **C54** (proved, 6 theorems).  C54_any_chunking, C54_causal, C54_past_context, C54_cached_engine, C54_plain_engine, C54_generate. Values are elements of a field (no rounding); the attention node is the 3-D path of SDPAKernel (the 4-D path is wrong, C49); position-wise operators are arbitrary functions.
* **C55** (proved, 8 theorems).  Proved for all configurations and weight maps under explicit conditions; counterexamples show the conditions are needed: default WeightMap + post_attn_norm collides and makes a cycle, learned positions + rotary lists 'position' twice, default WeightMap has no 'pos' (KeyError). Vision encoder not modelled.
* **C56** (proved, 3 theorems).  Count of initializer elements; the linear-attention layer of the code has no output projection, convolution or gate weights, so its spec entry lists only what exists. Llama-2-7B instance gives 6738415616 + tables.
* **C57** (proved, 4 theorems).  kv_params also counts layers without attention (C57_kv_params_hybrid); calling add_kv_cache twice breaks validity (C57_cache_twice).
* **C58** (partial, 6 theorems).  Holds when each key is set by the configuration itself or by no earlier one with the same entry; the unrestricted claim is false (C58_flags_leak, C58_flags_leak_back): arch_config aliases the module table.
* **C59** (proved, 4 theorems).  For all configurations satisfying C55's hypotheses; operators are uninterpreted (the meaning of SDPA, Rope, MoE, MLA and GDN nodes is not modelled here; C49/C50/C54 treat SDPA and Rope). C59_default_map_wrong shows the distinct-names hypothesis is needed.
* **C60** (partial, 11 theorems).  Proved for checkpoint projections first read by a MatMul, for Gemm weights first read by a Gemm with the same transB, and for all other constants first read by other operators (and all vectors). The rest of the property is false of the code, each case with a theorem: weights embedded in the ONNX file are transposed for MatMul (raises, or silently multiplies with the transpose when square), Gemm ignores transB when its second operand is computed, the first reader of a shared constant decides for all (tied embeddings raise), a matrix C of a transposing Gemm is transposed, data of Constant nodes without folding is never loaded.
* **C61** (partial, 17 theorems).  Flatten, Reshape, Squeeze (attribute), Transpose proved for all inputs; Unsqueeze for non-negative axes, Gather for vectors and 1x..x1xn ids with non-negative indices, Pad for symmetric pads. The code falsifies the rest: negative Unsqueeze axes raise, Squeeze axes given as input are ignored (raises), Gather with a batch, a scalar or a negative index raises, Pad exchanges begins and ends (C61_pad_exchanged). C61_relayout_never_wrong: the relayout kernels never write wrong data.
* **C62** (partial, 11 theorems).  Split (sizes and even), Concat and their composition proved for all inputs; Slice for positive steps (also composed with shape inference), Expand for one-sided broadcasting. The code falsifies the rest: negative Slice steps always raise, Expand to a smaller target raises, Split into more outputs than torch.chunk makes leaves outputs unwritten.
* **C63** (partial, 7 theorems).  Proved for four equal pads (Conv with all groups, strides, dilations; MaxPool; AveragePool for count_include_pad) and AveragePool without padding. The code falsifies the rest: the kernels read pads[0] and pads[2] as height and width padding (C63_conv_actual; silent wrong result in C63_conv_counterexample) and AveragePool counts padding (C63_avgpool_counterexample); auto_pad, ceil_mode and pooling dilations are ignored.
* **C64** (partial, 7 theorems).  Proved for every shape: whole rows, heads, refusal of a ragged weight, BatchNormalization. Where the code departs from ONNX: the axis attribute is not read (C64_axis_ignored), a scale of shape [1] is taken for heads of length one and annihilates the result (C64_scalar_scale_wrong), rms ignores a bias (C64_rms_bias_ignored).
* **C65** (proved, 14 theorems).  On exact rationals. Device errors (no FP32, no Bandwidth, bandwidth 0) and the unit (seconds although print_profile labels ms) are separate theorems.
* **C66** (proved, 6 theorems).  All sums for every standard configuration, with and without cache (C66_built_cost, C66_cached_cost), for the model of the profile methods; per-past-token cost, prefill against decoding. Layers with gated delta nets or latent attention are outside the statement; C66_gdn_counted_twice shows double counting there.
* **C67** (partial, 7 theorems).  C67_vision_graph proves validity, shapes, parameter count, output and the computed function for all configurations with heads, patch > 0 (C67_zero_raises: otherwise ZeroDivisionError). The last sentence is false of the code: patch_reshape relays the feature planes without a transpose, so rows are patches only when there is one patch or one feature (C67_patch_reshape, C67_rows_are_patches_iff), and the attention kernel is always causal (C67_first_patch_sees_itself).
* **C68** (partial, 45 theorems).  Proved for every input where the code follows ONNX; counterexample theorems show where it does not: Slice with negative axes / axes above 4 / without axes, Split with zero tails, Unsqueeze and Squeeze with negative or unsorted axes, Flatten with negative axis, Pad without mode attribute, GatherElements on non-integers, batch_dims, reduction, allowzero and start/end attributes ignored.
* **C69** (partial, 31 theorems).  Proved for every operand where the code follows ONNX (exact arithmetic). Counterexample theorems show where it does not: Min of two or more inputs (Python's not), Div of negative int64 and of int32, Mod with fmod, Pow with negative exponents, Clip with fewer than three inputs, HardSigmoid, HardSwish and LeakyRelu on more than one element.
* **C70** (partial, 18 theorems).  Proved for every operand, axis list and keepdims where the code follows ONNX. Counterexample theorems show where it does not: axes as second input (TypeError except ReduceSum), ReduceSum with an empty axes input, NonZero of an all-zero tensor, ConstantOfShape without value, OneHot ignoring values and wrapping indices out of range; CumSum exclusive/reverse are refused; ArgMax select_last_index is not read.
* **C71** (partial, 22 theorems).  Proved for MatMul (operands with two or more axes, or a vector on the left), Gemm with alpha = beta = 1, MatMulInteger without zero points, Conv with one group and explicit pads evaluated once (or with bias), MaxPool of non-negative numbers evaluated once without dilations, BatchNormalization, Softmax with the axis attribute. The full property is false of the code: counterexample theorems show MatMul by a vector raises, alpha is ignored, MatMulInteger adds the zero point, Conv without bias accumulates over runs, auto_pad SAME is misplaced, GlobalAveragePool drops the spatial axes, MaxPool starts from 0 or the old value and ignores dilations, Softmax without axis raises.
* **C72** (partial, 47 theorems).  Proved for every operand: Add, Sub, Mul, Div, Mod, Pow, comparisons, logical operators, Max, Where, unary operators, Clip (scalar bounds), Transpose, Gather, Concat, GatherND, GatherElements, ScatterND, Trilu, Pad, OneHot, ConstantOfShape, Conv, MaxPool, BatchNormalization, Softmax, Flatten, ArgMax, ReduceL2, Equal, Greater, GreaterOrEqual, Shape. Partial with stated hypotheses: Sum, Expand, Split, Slice, Squeeze, Unsqueeze, Reshape, Reduce*, CumSum, MatMul, Gemm. Falsified by *_counterexample theorems: Min and HardSigmoid of one element, Sum, Expand with zero sizes, Split with empty last part, Slice with negative axes, Squeeze/Unsqueeze with unsorted axes, Reduce* without axes, MatMul broadcast on both sides, Gemm with a widening bias, GlobalAveragePool (every operand), NonZero (every mixed operand), Range/Tile/Compress with unknown values.
* **C73** (proved, 10 theorems).  For valid files with distinct node names. Findings: repeated names (also a generated name equal to a given one) silently lose nodes (C73_node_count, C73_duplicate_names_lose_nodes, C73_generated_name_collides); an absent operand becomes the graph input '' without folding; inputs are ordered by first use and unread ones are dropped.
* **C74** (proved, 9 theorems).  Findings in the exact characterisation: initializers read by no node are written as graph inputs, outputs read or produced by no node (pass-through, or constant with folding) are not written; with folding and node_rename names change on every save (C74_rename_folded_unstable).
* **C75** (partial, 15 theorems).  Proved for every graph whose nodes set all their outputs and read only the documented operands. Without that condition the claim is false of the code: ReduceMean without axes sets nothing and keeps the old shape (C75_reduce_without_axes_keeps_the_old_shape), data-dependent shapes use made-up zeros or values of earlier runs (C75_data_dependent_shape), unsorted nodes use old shapes (C75_unsorted_uses_old_shapes).
* **C76** (partial, 10 theorems).  False in general (C76_slopes_counterexample, C76_product_counterexample, C76_hump_counterexample, C76_numeric_name_counterexample, C76_unproduced_counterexample). C76_regress_partial: exact for every network whose dimensions are functions of one variable told apart and fitted by the three samples; C76_affine_partial and C76_ceil_partial instantiate it for affine dimensions with slopes dividing one another and for chains of rounded-up strides. The shape inference itself is a parameter.
* **C77** (partial, 7 theorems).  The full claim is false of the code: tensors that only the fused node reads (weights) drop out of the consumer index (C77_index_exact_iff characterises exactly when, C77_weights_lost), graph outputs produced by the set are lost (C77_graph_output_lost), and the fused node is appended last so the order is lost whenever anyone reads it (C77_order_lost). Proved: node set, interface, producer index, attributes for every history.
* **C78** (proved, 4 theorems).  Acyclic graphs within the recursion limit; cycles raise RecursionError (C78_cycle_raises). Finding: the search keeps no visited set and makes exponentially many calls (C78_exponential).
* **C79** (partial, 12 theorems).  Values and absence of If are proved without side conditions (for calls that return). Which nodes remain and closedness are proved under Usual (one If, single-output condition chain, outputs of the chain not graph outputs, result of the branch computed in the branch and not read elsewhere). The full claim is false of the code; each dropped condition has a counterexample theorem: unnamed branch nodes raise KeyError, a second output of a condition node or a graph output computed on the way to the condition is lost, chained Ifs raise, a tensor captured by a second If is lost, branch initializers are lost, a result that is also read inside the branch or passed through from outside is lost.
* **C80** (partial, 8 theorems).  Nodes and values are proved for every call that returns, and the calls that return are characterised (acyclic graphs in which no TopK serves only the K of another). Closedness is proved when the dropped nodes have one output each, not a graph output. The full claim is false of the code: a K that is an initializer or graph input read once raises KeyError, a second call (update_graph) raises, a dropped node's other outputs and graph outputs are lost, a TopK feeding the K of a later one raises.
* **C81** (partial, 23 theorems).  The full claim is false of the code: TopK without axis raises unless the tensor is one-dimensional (and then pins axis 0), Resize of a matrix by sizes adds the sizes to the dimensions, Upsample with attribute scales raises, Resize with axes drops dimensions, GridSample raises when one shape is a list and the other a tuple, RoiAlign has no defaults, ArrayFeatureExtractor loses the rows, NonMaxSuppression reads the per-class bound as the total (exact iff proved), LSTM and GRU ignore layout=1, GRU with one output raises, profiling without bias or mode raises, bidirectional layers are undercounted. Proved: the prescribed shapes and costs on the remaining cases, and each of these findings for all shapes.
* **C82** (partial, 13 theorems).  Proved for a weight read once by one node: initializers, rewiring, error bound of the stored codes (8-bit rounding of the codes included, scales in half precision through an arbitrary rounding function), everything else untouched, repeated calls harmless. The full claim is false of the code and refuted by theorem: a weight read more than once raises AttributeError half-way (C82_shared_raises), an unread one KeyError, a zero channel ValueError; the documented 'for key in g.initials' loop skips the initializer after each quantized one (C82_loop_skips, C82_every_second) while a loop over a copy handles all (C82_loop_over_copy); asymmetric 4-bit codes lose their top bit (C82_packed_asym_lost); the consumer index of the new tensors holds text (C82_index_is_text).
* **C83** (partial, 12 theorems).  The report is characterised completely for every array (C83_matrix, C83_conv), and exactly when it is true (C83_matrix_truthful_partial, C83_conv_truthful_partial, both iff). The full claim is false of the code and refuted: a matrix with zero blocks of s x 1 and 1 x s but not of squares is reported as having zero squares (C83_matrix_overstated); a convolution weight pruned along one axis only is reported with blocks along the other axis, which need not even tile it (C83_conv_wrong_axis, C83_conv_wrong_axis').
* **C84** (partial, 8 theorems).  C84_csv_iff_partial: reading back works exactly if no cell contains a comma or a line break; C84_report: then every row and the totals are stated as claimed. The full claim is false of the code: nothing is quoted (C84_comma_shifts), and totals above 2^53 are rounded (C84_total_differs; exact below: C84_totals_exact; error bound: C84_totals_close).
* **C85** (partial, 6 theorems).  The default set of hidden operators after any history is characterised exactly (C85_default_grows_partial). The full claim is false of the code: exclude_ops is added to the module's own default set, so later calls without arguments hide these operators too (C85_leaks); calls with a set of the caller's own do not leak but change that set (C85_own_set); lists raise AttributeError (C85_errors).
* **C86** (partial, 5 theorems).  Proved for names without backslashes that stay different when separators are replaced. The full claim is false of the code and refuted: colliding names overwrite each other (C86_overwrites), a name with a leading slash and a backslash is written to an absolute path outside the folder (C86_absolute_path), a name with both separators needs a directory that is not created and stops the export (C86_missing_directory).
* **C87** (partial, 5 theorems).  C87_set_shape_partial characterises (iff) the shapes that can be given; C87_io covers all inputs and outputs. The full claim is false of the code: dimension names containing the letter x are refused (C87_names_with_x) or cut in pieces (example).
* **C88** (partial, 11 theorems).  Proved for every graph: the pattern states exactly the operators and tensors of the region; a connected region without twins is found whenever the search returns; with an operator of its own at its first node the call fuses exactly the region. False in general: counterexamples for overlapping matches (KeyError), disconnected regions (placeholder 'a', KeyError), twins (another node is taken), candidates reading a graph input (KeyError), empty regions (IndexError). Attributes of fused nodes are not modelled.
* **C89** (partial, 33 theorems).  Proved for all operands: binary kernels, Where, Mod, unary kernels, Clip with bounds as inputs, Softmax, Shape, Cast, ReduceMean/Sum/Max with axes, Tile, Mad, RangeGather, fused layer norm (eps fixed at 1e-5). Falsified: Clip without bounds cuts at 3.4e38 (C89_clip_counterexample); reductions without axes raise TypeError (C89_reduce_counterexample), with an empty list of axes the total is repeated over the operand's shape (C89_reduce_empty); GlobalAveragePool of three axes averages the channels too (C89_globalmean_counterexample), of five axes raises; GatherElements refuses negative indices; the slot's shape is not checked by kernels that use out= (C89_overrun). Exact arithmetic; exp, erf, tanh, … are parameters. Not modelled: TopK, Resize.
* **C90** (partial, 23 theorems).  Holds for the listed elementwise operators, Sum, reductions, global average pooling, one-axis LayerNormalization, one-directional LSTM/GRU with bias, QLinearMatMul, 1-D/2-D QLinearConv/ConvInteger; batch additivity for every operator. Refuted by the code (theorems): Sigmoid/Silu/LogitSoftCapping/BatchNormalization undercounted, Tanh doubled, scalars charged nothing, Max of n operands charged once, LayerNormalization over several axes, second direction of LSTM, 3-D quantised convolutions, Resize without mode and LSTM without bias raise. Not compared with a program: Softmax row sums, Abs/Ceil/Mod/Sign, Atan, Gelu, Rope, InstanceNormalization, LRN.
* **C91** (partial, 10 theorems).  Contents, validity, values and the three-level pipeline are proved. False parts, with counterexamples: every initializer of the whole model that the exported nodes do not read becomes an input of the export (C91_export, C91_unrelated_input); a model output read only inside the set is not an output (C91_output_lost); a repeated name silently drops its node (C91_repeated_name_dropped). get_subgraph and model_subgraph themselves raise TypeError after the export (Graph(...) without its second argument).
* **C92** (partial, 13 theorems).  Proved for names without a colon and the two documented types. False: names with a colon can never be given (C92_no_colon_name); any other type name silently gives float64 zeros (C92_other_type); the short form of the help text raises IndexError when profiling (C92_short_form), the long form sets 'f32' as the shape in io_modify mode (C92_io_long_form); scalars cannot be given (C92_scalar).
* **C93** (proved, 5 theorems).  Findings: surplus values of fill_tensor are dropped silently, a single value is broadcast to the whole tensor, and a view obtained before to() of another device silently writes nowhere (C93_stale_view).
* **C94** (partial, 8 theorems).  Everything but the last clause is proved for all graphs. The last clause is false of the code: the plan ignores outputs (C94_plan_unchanged), so a dumped tensor may be overwritten (C94_dump_overwritten), and dumping all intermediates makes compress_memory raise ZeroDivisionError for every graph (C94_dump_all_raises).
* **C95** (partial, 13 theorems).  Proved over exact rationals for nearest, linear and the choice of the mode, with sizes or whole-number scales, with an iff for the agreement of nearest with ONNX's default rounding; cubic is torch's own (a parameter). Findings: nearest ignores nearest_mode and coordinate_transformation_mode, align_corners of a file (bytes) is ignored, fractional scales are replaced by the ratio of the sizes, linear works only on four axes.
* **C96** (partial, 5 theorems).  Proved for every torch.topk that does what its documentation says. Missing: with equal elements ONNX's lower position is not guaranteed (counterexample), positions are rounded when the pool is float16 (proved for any conversion), sorted=0 leaves the order unspecified.
* **C97** (partial, 18 theorems).  Shape and dtype are the last ones set; get_numpy succeeds exactly for known shapes, returns an array of the reported shape and is idempotent; data survives as long as it is not read under another shape (exact condition). False, with theorems: reading under another known shape replaces the data by zeros for good; scalars report 0 bytes; symbolic shapes give a text or TypeError as size; update_dtype does not reach data that is held; update_tensor keeps the old proto; create_tensor's proto always says float32.
* **C98** (partial, 15 theorems).  Operator, name, inputs, outputs and all attributes (type and value) survive, for distinct names that are not parameters of make_node and no empty lists; saving succeeds exactly without empty lists. False, with theorems: the domain (and documentation) of every node is lost; empty-list attributes make saving raise; attributes called name/op_type/inputs/outputs make saving raise; graph and string-list attributes read as None; texts come back as bytes; fusion refuses graph, string-list and empty-list attributes, turns tensors into lists and forgets set_attr; local functions and metadata are lost; Graph.save_model without rawmodel writes the newest operator set.
* **C99** (partial, 23 theorems).  Proved for every array and every sort by falling confidence: detections are valid candidates, each row once, separated within a class, nothing lost without a reason, at most max_det, greedy choice unique and independent of the sort for distinct confidences, idempotent; overlap = common cells over all cells. Refuted parts: only the first image of a stack is decoded, detections are sorted only when the limit cuts, equal confidences depend on the sort, boxes under 1e-7 are never suppressed, a negative limit drops boxes. Floats are exact rationals.

Further observations made while reading, not turned into properties:

* `Graph.get_subgraph`, `model_subgraph` and `model_opfusion` always raise `TypeError`.
* Fusions append lists of names (not nodes) to `nextnodes`/`prevnodes`; later walks over these links fail with `AttributeError`.
* After `__remove_if__` the `nextnodes` links are not updated.
* `Tensor.sparsity` is not refreshed by `update_tensor`.
* `SDPAKernel` ignores `attn_logit_softcapping`; no kernel is registered for gated delta nets.
* `Builder.print_profile` labels seconds as milliseconds.
* `'.csv'` anywhere in the file name selects the CSV report.
* The GELU kernel computes the exact error function although the documentation says tanh.

## 7. Axioms of each theorem


**no axioms** (28 theorems): C07_double_producer_drops_consumer, C08_empty_optional_names_drop_node, C116_largest_operand_falls, C116_squeeze, C116_unsqueeze, C128_gather_counterexample, C128_gather_scalar_counterexample, C129_gegelu_counterexample, C130_coco_names, C130_coco_order, C130_label_counterexample, C13_internal_graph_output_missing, C18_constant_output_lost, C18_read_output_lost, C26_reduce_all_missing, C28_unordered_stale, C29_large_coefficient_lost, C32_code_roundtrip, C32_dtype_roundtrip, C35_scalar_weight_uncounted, C44_mla_overcounts_short, C58_example, C58_flags_leak, C58_flags_leak_back, C66_llama7b, C67_example, C81_gridSample_kinds_raise, C98_header.

**propext** (212 theorems): C05_output_overwritten, C06_get_missing, C102_others_keep_type, C102_round, C102_scan, C102_wrong_memory, C102_wrong_types, C103_conv3d_counterexample, C103_matmul_counterexample, C103_matmul_integer, C103_matmul_partial, C103_matmul_vector, C104_bound_of_the_other, C104_input_left_out, C104_limit_ignored, C104_mixed, C105_constant_model_not_written, C105_constant_output_dropped, C105_reorder_drops, C107_fields, C107_given, C107_missing_raises, C107_optional, C107_others, C107_superclass_first, C107_wrong_defaults, C109_conv1d_counterexample, C109_example, C109_shared_counterexample, C10_double_producer_raises, C111_fused_dangling, C111_fused_name, C111_list_link_subtree, C111_needed_node_removed, C112_one_node, C112_shape_value_as_data, C113_linear_in_batch, C113_reads_all_weights, C113_standard, C114_auto_pad, C114_fuse_empty, C114_remove_unknown, C114_skip_unknown, C116_depthToSpace, C116_expand, C116_gather, C116_oneHot, C116_reduce, C116_slice_falls, C116_split_falls, C118_provenance, C11_unsorted_raises, C120_depthToSpace, C120_gemm, C120_pad, C121_returned, C121_two_states_mixed, C122_overlap_leaves_engine_wrong, C122_overlap_wrong, C126_case, C126_topk_counterexample, C126_topk_outputs, C127_error_lost, C127_only_errors_fail, C127_order, C127_too_late, C129_gegelu, C129_scan_counterexample, C129_scan_states_counterexample, C129_zipmap_counterexample, C129_zipmap_iff, C130_coco_numbers, C130_order, C132_silent, C13_unknown_name, C14_graph_output_lost, C15_pad_with_axes_not_covered, C15_shape_operands, C16_dynamics_misses_output, C16_output_lost, C16_source_graph_is_modified, C19_expand_wrong, C20_not_broadcast_in_general, C23_backward_wrong, C23_defaults, C23_value_ignores_axes, C24_count_preserved, C24_wildcards_left, C25_uneven_split_wrong, C26_transpose_default, C27_ceil_end_wrong, C28_update_consistent, C28_update_deterministic, C28_update_idempotent, C32_scalar_small_int_lost, C32_typed_small_int_read_as_zero, C36_macs_linear, C36_macs_token, C37_create_node, C37_get, C37_get_last, C37_needs_suffix, C37_others_unchanged, C38_conv1d_raises, C38_convRes_example, C38_inport_on_input_raises, C38_mhaint8_never, C38_order_dependent, C38_overlap, C38_placeholder, C38_serial_operand_order, C38_shipped_coherent, C40_graph_input_disconnected, C40_other_reader_disconnected, C40_two_dynamic_operands_disconnected, C40_unread_on_input_raises, C40_which_ops, C41_single_node_raises, C42_rank_checked, C42_wrong_batch, C43_pool3d_undercounted, C44_gdn_linear_in_batch, C44_mla_linear_in_batch, C44_sdpa, C44_sdpa_layout_confused, C45_operand_count, C45_parse, C45_parse_implicit, C45_two_arrows, C46_read_output_is_overwritten, C46_wider_run_type_overlaps, C47_second_input_shape_ignored, C47_weight_override_inconsistent, C48_failed_copy_then_stale_shape, C48_failed_kernel_then_index_error, C51_duplicate_input_wastes, C55_default_map_collides, C55_missing_position_name, C56_gpt2, C56_llama7b, C57_kv_params, C57_kv_params_hybrid, C59_default_map_wrong, C59_two_layers, C60_gemm_bias_transposed, C60_not_loaded, C62_expand_counterexample, C62_split_counterexample, C66_cost_per_past_token, C67_whole_patches, C68_flatten_negative_counterexample, C68_gather_nd_counterexample, C68_pad_counterexample, C68_reshape_allowzero_counterexample, C68_scatter_nd_counterexample, C68_shape_counterexample, C68_slice_negative_axis_counterexample, C68_slice_no_axes_counterexample, C68_split_zero_counterexample, C68_squeeze_counterexample, C68_unsqueeze_counterexample, C69_clip_counterexample, C69_mod_counterexample, C70_constant_counterexample, C72_zeros_flatten, C72_zeros_shape, C73_absent_operand_is_input, C73_duplicate_names_lose_nodes, C73_generated_name_collides, C73_input_order, C74_rename_folded_unstable, C75_data_dependent_shape, C75_reduce_without_axes_keeps_the_old_shape, C75_unsorted_uses_old_shapes, C77_graph_output_lost, C77_weights_lost, C79_branch_initializer_lost, C79_captured_elsewhere_lost, C79_chained_ifs_raise, C79_graph_output_lost, C79_other_output_lost, C79_pass_through_lost, C79_result_read_inside_lost, C80_other_output_lost, C80_topk_feeding_k_raises, C80_twice_raises, C81_arrayFeature_rows_lost, C81_gridSample, C81_profile_defaults_raise, C81_roiAlign, C85_pure_calls, C88_disconnected_raises, C88_empty_raises, C88_graph_input_raises, C88_overlap_raises, C88_twin_taken, C89_cast_codes, C90_layernorm_counterexample, C90_resize_raises, C91_degenerate, C91_output_lost, C91_repeated_name_dropped, C91_unrelated_input, C93_stale_view, C94_dump_overwritten, C94_plan_unchanged, C96_count, C97_get_scalar_refused, C97_proto, C98_fuse_forgets, C98_fuse_refused, C98_text_becomes_bytes.

**Quot.sound** (1 theorems): C97_create_tensor_says_float.

**Quot.sound, propext** (185 theorems): C101_limit, C102_all_registered, C102_cast_needs_type, C102_legal_failures, C102_quantized_convolution, C103_conv_partial, C103_matmul_scalar, C109_found, C109_kept, C110_counts, C110_largest, C110_same_operand, C111_kept_is_linked, C111_list_link_dangling, C111_reload, C113_latent_cache_not_counted, C113_short_sequences_cost_more, C113_sparse_is_sparse, C114_constantOfShape, C114_formula, C114_fuse_missing, C114_fuse_unknown, C114_gatherND, C114_maxShape, C114_raw_data, C114_registry, C114_remove_broken, C114_skip_unlisted, C114_skip_unread, C116_generated, C116_matmul_falls, C116_network, C116_residual_wellFormed, C118_result, C11_nothing_left_behind, C120_concat, C120_conv, C120_conv_transpose, C120_embedding, C120_gather, C120_matmul_stacks, C120_oneHot, C120_pool, C120_reduce, C120_slice, C120_split, C120_squeeze, C120_unsqueeze, C121_feedback_partial, C121_own_tensors, C123_last_batch, C126_forgets, C126_series, C126_series_partial, C126_topk_exact, C127_batch, C127_batch_error_lost, C127_every_message, C127_process, C127_success, C127_successful_work, C128_byte_weight_counterexample, C128_gather_activation_counterexample, C128_gather_macs, C128_gather_row, C128_topk_counterexample, C129_gegelu_fails_iff, C129_gegelu_iff, C129_gegelu_rank, C129_scan_few_operands, C130_names_categories, C15_shape_operands_are_inputs, C16_dynamics, C18_constant_output_gone, C19_expand_partial, C20_max_shape, C20_volume, C22_conv_inverts_transpose, C22_conv_of_convtranspose_shape, C22_same_is_ceil, C26_gather, C26_negative_axes_unsqueeze, C26_pad, C26_reduce, C26_squeeze, C26_transpose, C26_transpose_inverse, C27_affine, C28_history, C33_asym_codes_collide, C33_odd_row_loses_last, C33_packed_bytes, C33_sym_even, C33_sym_roundtrip, C35_covered, C35_row_memory, C36_monotone, C36_static, C37_index_membership, C37_iterate, C37_warns, C41_returns_iff, C43_matvec_undercounted, C44_decode_vs_prefill, C44_sdpa_cache, C45_ellipsis, C45_implicit, C46_view_of_tensor, C47_last_supplied_value, C49_four_dim_decode_raises, C49_four_dim_scrambled, C50_partial_rotary_rotates_all, C51_returns_iff, C53_continuation_unique, C53_length_bound, C53_one_token_too_many, C57_cache_twice, C58_first, C58_flags_partial, C61_gather_batch_counterexample, C61_gather_negative_counterexample, C61_gather_scalar_counterexample, C61_squeeze_input_counterexample, C61_unsqueeze_counterexample, C66_prefill_and_decode, C67_zero_raises, C68_flatten_counterexample, C68_flatten_partial, C68_reshape_elements, C68_slice_ignored, C69_min_five_seven_counterexample, C69_min_partial, C70_constant_partial, C70_onehot_range_counterexample, C70_onehot_values_counterexample, C70_onehot_wrong, C71_conv_groups_refused, C71_softmax_counterexample, C72_constant_of_shape, C72_gather_nd_defined, C72_gather_scatter, C72_global_average_counterexample, C72_onehot, C72_slice_counterexample, C72_split_counterexample, C72_squeeze_counterexample, C72_unsqueeze_counterexample, C72_zeros_counterexample, C75_get_numpy, C75_made_up_zeros_invisible, C75_unusable_inputs, C75_valid_shape, C76_affine_told, C78_unknown_name, C81_bidirectional_undercounted, C81_depthToSpace, C81_gru_macs, C81_gru_one_output_raises, C81_lstm_macs, C82_packed_asym_lost, C84_totals_exact, C85_default_set, C85_errors, C85_own_set, C88_every_match, C88_unknown_name, C92_exclude, C92_io, C92_io_last_wins, C93_fill_short, C94_dump_all_raises, C94_dumped_array, C94_outputs, C94_saved, C94_value_infer, C96_position_rounded, C96_refuses, C96_ties_counterexample, C97_create, C97_descriptions_agree, C97_get_scalar, C97_of_file, C97_value_info, C98_fuse_copy, C98_fuse_names.

**Classical.choice, Quot.sound, propext** (897 theorems): C01_live_disjoint, C02_within_pool, C03_aligned_and_large_enough, C03_every_live_tensor_allocated, C04_at_least_peak, C04_not_worse_than_no_sharing, C05_unread_output_kept_partial, C06_get_batch, C06_get_iff_fits, C06_no_interference, C06_plan_accepted, C07_producers_first, C08_acyclic_permutation, C08_keeps_exactly_acyclic_part, C09_idempotent, C100_below_coco, C100_class, C100_class_range, C100_image_order, C100_large_ids, C100_map_range, C100_matching_unique, C100_mean, C100_metrics, C100_no_match, C100_no_threshold, C100_perfect, C100_predictions, C100_recall, C100_same_text, C100_unseen_classes, C101_class_ids_mixed, C101_coco, C101_coordinates_mixed, C101_dir_foreign_ids, C101_dir_ids, C101_letterbox, C101_limit_counts_all, C101_loaded, C101_loads, C101_same_size, C101_share, C101_thresholds, C101_way_back, C102_graph_types_partial, C102_output_type_partial, C102_specified_registered, C103_conv_cost, C103_conv_counted, C103_conv_empty, C103_matmul_agrees, C104_fallback, C104_fixed_dimensions, C104_free_dimensions, C104_n_past, C104_only_understood, C104_ranges_match, C104_seq_bound, C105_fold_again, C105_fold_file, C105_fold_returns, C105_fold_values, C105_reorder_again, C105_reorder_file, C105_reorder_returns, C105_reorder_twice_differs, C105_reorder_values, C106_cut_off, C106_input, C106_keeps, C106_padding_unseen, C106_pixels, C106_range, C106_repeats, C106_rounding, C106_rounding_large, C106_rounds_down, C106_scale, C106_scale_misread, C106_size, C106_too_small, C107_default_iff, C107_leave_out_partial, C108_attained_partial, C108_exceeds_total, C108_llama7b_total, C108_monotone, C108_one_token_partial, C108_small_moe, C108_total_counts_tables_repeatedly, C108_upper_bound_partial, C108_values, C108_within_total_partial, C109_as_stored, C109_decoder, C109_file_exists, C109_linear, C109_map, C109_tied_needs_map, C10_plain_removals_exact, C10_removal_history_exact, C10_remove_outputs, C10_update_exact, C110_compare, C110_compare_asymmetric, C110_compare_empty, C110_compare_self, C110_elapsed, C110_overlap, C110_percentages, C110_printable, C110_slowest, C110_table, C110_times, C110_totals, C110_zero_total, C111_after_fusion, C111_after_postop, C111_after_removals, C111_after_skipping, C111_removals_return, C111_stale_subtree, C112_builds, C112_nodes, C112_run, C113_built_cost, C113_cached_cost, C113_monotone, C114_gemm, C114_globalAverage, C114_pad, C114_plan, C114_plan_kv, C114_skip_read, C115_disjoint, C115_engine, C115_engine_variables, C115_falling_counterexample, C115_from_model_partial, C115_one_variable, C115_two_variables_counterexample, C116_broadcast, C116_by_shape, C116_concat, C116_conv, C116_convTranspose, C116_gemm, C116_gemm_batched, C116_gemm_same_batch, C116_grows, C116_pad, C116_pool, C116_pooling, C116_reshape, C116_residual_pool, C116_residual_rising, C116_resize, C116_shape, C116_shape_infer, C116_slice, C116_slice_pool_counterexample, C116_split, C116_topk, C116_transpose, C117_coordinates_mixed, C117_count, C117_example, C117_falling, C117_narrow, C117_not_suppressed, C117_range, C117_share, C117_succeeds, C117_thresholds, C117_value, C118_failure_keeps_old, C118_race, C118_race_bicubic, C118_safe_iff, C118_saved, C118_stale, C118_threads_end, C118_unreadable_renames, C119_bad_file, C119_crash, C119_end, C119_end_batch, C119_error, C119_error_example, C119_example, C119_same_stem, C119_selected, C119_succeeds, C11_keeps_exactly_needed_partial, C11_output_lost, C120_broadcast, C120_by_shape, C120_data_operand, C120_elementwise, C120_flatten_one_sample, C120_gram, C120_matmul, C120_node_macs, C120_profile, C120_reshape, C120_reshape_minus_one, C120_residual_block, C120_resize, C120_resize_by_sizes, C120_samples, C120_shape_infer, C120_topk, C120_transpose, C121_result_overwritten, C121_result_overwritten_in_part, C122_alone, C122_locked_partial, C122_own_engines, C123_all_pass, C123_all_pass_ignores, C123_batches, C123_cosine, C123_cosine_scale, C123_cosine_zero, C123_max, C123_mean, C123_mean_is_not_the_mean, C123_nan, C123_prediction_flip, C123_predictions, C123_report, C123_resolutions, C123_verdict, C123_verdict_asymmetric, C123_worst, C123_worst_hides_nan, C123_zero, C124_conv, C124_flops_label, C124_flops_small, C124_gemm, C124_no_time, C124_overhead, C124_plot, C124_plot_axis, C124_plot_zero, C124_shares, C124_time, C125_architecture, C125_basename, C125_cache_key, C125_cached, C125_cwd_onnx, C125_directory_case, C125_directory_config, C125_directory_onnx, C125_errors, C125_file, C125_from_dir, C125_given_onnx, C125_listing_order, C125_local, C125_named, C125_named_case, C125_newest, C125_nothing, C125_one_shard_counterexample, C125_preferred, C125_same_cache_counterexample, C125_weights, C125_wrong_onnx_counterexample, C125_wrong_weights_counterexample, C126_history, C126_topk_shape, C128_bytes_partial, C128_embedding, C128_embedding_exceeds_iff, C128_exact, C128_gather_iff, C128_one_weight_iff, C129_scan_few, C129_scan_iff, C129_scan_shapes, C129_scan_two, C12_levels_exact, C12_partition, C130_bicycle_counterexample, C130_color_iff, C130_color_shifted, C130_dashes, C130_drawn_iff, C130_gt, C130_inside, C130_label_back, C130_label_iff, C130_names_default, C130_names_partial, C130_names_shifted, C130_rect, C130_roundtrip, C130_thin_counterexample, C130_toInt, C131_comparison, C131_comparison_tokens, C131_decoder, C131_first_error, C131_larger_image, C131_patches_are_tokens, C131_ratio, C131_rounding, C131_row, C131_small_decoder, C131_table, C131_total, C132_every_line, C132_foreign_line_counterexample, C132_nested_partial, C132_one_by_one_partial, C132_overlap_counterexample, C13_interface_exact, C14_connections_kept, C14_fuse_exact_partial, C15_marks_exactly_closure, C15_order_independent, C15_other_operators, C16_compute_graph_partial, C16_multi_output_lost, C17_constant_iff, C18_folding_preserves_values_partial, C19_broadcast_exact, C19_grouping, C19_order_independent, C20_returns_broadcast, C21_conv, C21_conv_auto_pad_3d, C21_conv_not_fitting, C21_pool3d_wrong, C21_pool_partial, C22_same_is_explicit, C22_valid_is_zero_padding, C23_slice, C23_value_agrees_partial, C24_reshape_iff, C24_reshape_partial, C24_reshape_unique, C24_undetermined, C25_concat, C25_concat_of_split, C25_equal_split, C25_split, C25_uneven_split_iff, C25_uneven_split_partial, C26_negative_axes, C26_onehot, C26_unsqueeze_returns, C26_unsqueeze_squeeze, C27_ceil_partial, C27_floor_aligned_wrong, C27_floor_partial, C27_wide_enough, C28_tensorshape, C29_coefficient_error, C29_coefficient_iff, C29_dim_overflow, C29_injective, C29_roundtrip, C30_injective, C30_nul_name_ambiguous, C30_returns_iff, C30_roundtrip, C31_empty_attr_raises, C31_injective, C31_int64_attr_raises, C31_other_attr_lost, C31_returns, C31_roundtrip, C31_scalar_list_alike, C32_roundtrip_iff, C32_roundtrip_partial, C32_typed_values_in_range, C32_unknown_type_read_as_float64, C34_asym_code_overflow, C34_asymmetric, C34_every_element_has_params, C34_quantize, C34_symmetric, C34_wide_saturates, C34_zero_row_raises, C35_counted_once, C35_dedup, C35_dedup_ignores_exclude, C35_order_irrelevant, C35_row_params, C35_totals_are_sums, C35_volume, C36_capped, C38_convbn_exact, C38_convbn_list, C38_entry_conditions, C38_matches_genuine, C38_nodes_distinct, C38_terminates, C39_bias_raises, C39_fold_algebra, C39_fusion_preserves_values_partial, C39_index_stale, C39_other_reader_dangles, C39_output_lost, C39_shared_weight_scaled_twice, C40_remove_shape_ops_partial, C40_skip_unread_partial, C42_gemm_iff, C42_gemm_partial, C43_conv, C43_convtranspose_overcounted, C43_einsum, C43_einsum_ellipsis_raises, C43_gemm, C43_pool, C44_mla_kv_bounds, C45_equation_iff, C45_equation_implicit, C45_letters, C45_prefix_letters_lost, C45_summed_ellipsis_kept, C46_contract_satisfiable, C46_every_read_sees_reference, C46_forward_partial, C46_scalar_output_raises, C47_no_stale_state, C47_outputs_are_reference, C48_new_shape_recovers, C48_same_shape_failures_harmless, C49_cached_attention, C49_no_lookahead, C49_overflow_raises, C49_plain_attention, C50_preserves_length, C50_relative_positions, C50_tables, C51_blocks, C51_cache_block, C51_every_live_tensor_allocated, C51_live_disjoint, C51_separate_pools, C52_contract_satisfiable, C52_session, C53_cache_same_tokens, C53_cached_generate_partial, C53_contract_satisfiable, C53_empty_prompt_raises, C53_long_prompt, C53_plain_generate_partial, C54_any_chunking, C54_cached_engine, C54_causal, C54_generate, C54_past_context, C54_plain_engine, C55_built_graph_is_valid, C55_default_map_ok, C55_gpt2_hypotheses, C55_hybrid_hypotheses, C55_llama_hypotheses, C55_position_twice, C56_parameter_count, C57_cache_fits, C58_other_entries, C59_built_graph_computes_decoder, C59_examples, C60_checkpoint_example, C60_checkpoint_linear_partial, C60_dynamic_transB_wrong, C60_embedded_matmul_transposed, C60_embedded_matmul_wrong, C60_gemm_example, C60_gemm_partial, C60_other_constants_partial, C60_tied_embedding_raises, C61_flatten, C61_gather_embedding_partial, C61_gather_vector_partial, C61_pad_counterexample, C61_pad_exchanged, C61_pad_partial, C61_relayout_never_wrong, C61_reshape, C61_squeeze, C61_transpose, C61_transpose_default, C61_unsqueeze_partial, C62_concat, C62_expand_partial, C62_slice_defaults, C62_slice_inferred_partial, C62_slice_partial, C62_slice_step_counterexample, C62_split, C62_split_concat, C62_split_even, C63_avgpool_actual, C63_avgpool_counterexample, C63_avgpool_partial, C63_conv_actual, C63_conv_counterexample, C63_conv_partial, C63_maxpool_partial, C64_axis_ignored, C64_batchnorm, C64_heads, C64_ragged, C64_rms_bias_ignored, C64_rows, C64_scalar_scale_wrong, C65_amdahl, C65_bandwidth_required, C65_built_decoder, C65_default_configuration, C65_fp32_required, C65_latency_in_seconds, C65_memory_split, C65_monotone, C65_no_device, C65_number_needs_link, C65_order, C65_report, C65_roofline, C65_zero_bandwidth, C66_built_cost, C66_cached_cost, C66_gdn_counted_twice, C67_first_patch_sees_itself, C67_patch_reshape, C67_rows_are_patches_iff, C67_vision_graph, C68_compress, C68_compress_flat, C68_concat, C68_flatten_default_partial, C68_gather, C68_gather_elements_counterexample, C68_gather_elements_partial, C68_gather_nd_partial, C68_gather_nd_refused, C68_gather_refused, C68_pad_partial, C68_reshape_partial, C68_scatter_nd_partial, C68_shape_partial, C68_slice_partial, C68_split_equal, C68_split_partial, C68_split_tail_counterexample, C68_split_uneven_partial, C68_squeeze_elements, C68_squeeze_one, C68_squeeze_partial, C68_squeeze_unsqueeze, C68_tile, C68_transpose, C68_transpose_default, C68_trilu, C68_unsqueeze_elements, C68_unsqueeze_one, C68_unsqueeze_partial, C69_arithmetic, C69_clip_partial, C69_compare, C69_div_agrees_iff, C69_div_counterexample, C69_div_float, C69_div_floors, C69_div_int32_counterexample, C69_div_partial, C69_expand, C69_hard_counterexample, C69_hard_partial, C69_hard_shape_counterexample, C69_incompatible, C69_leaky_counterexample, C69_leaky_partial, C69_logic, C69_max, C69_min_counterexample, C69_min_is_not, C69_mod_partial, C69_pow_partial, C69_range, C69_several_incompatible, C69_sum, C69_unary, C69_where, C70_argmax_partial, C70_bad_axes, C70_cumsum_partial, C70_cumsum_refused, C70_empty_axes_counterexample, C70_input_counterexample, C70_l2, C70_max_min, C70_nonzero_counterexample, C70_nonzero_partial, C70_onehot_partial, C70_sum_input_partial, C70_sum_prod_mean, C71_batchnorm, C71_conv_partial, C71_conv_rerun_counterexample, C71_conv_same_counterexample, C71_gemm_counterexample, C71_gemm_partial, C71_global_average_counterexample, C71_global_average_partial, C71_matmul, C71_matmul_integer_counterexample, C71_matmul_integer_partial, C71_matmul_refused, C71_matmul_row, C71_matmul_vector_counterexample, C71_maxpool_dilation_counterexample, C71_maxpool_negative_counterexample, C71_maxpool_partial, C71_maxpool_rank, C71_maxpool_rerun_counterexample, C71_softmax_partial, C72_arithmetic, C72_clip, C72_comparison, C72_concat, C72_conv, C72_cumsum_partial, C72_division, C72_expand_counterexample, C72_expand_partial, C72_gather, C72_gemm_counterexample, C72_gemm_partial, C72_global_average_partial, C72_hardsigmoid_counterexample, C72_matmul_counterexample, C72_matmul_partial, C72_max, C72_min_counterexample, C72_normalisation, C72_pad, C72_reduce_counterexample, C72_reduce_partial, C72_reshape_partial, C72_slice_partial, C72_split_partial, C72_squeeze_partial, C72_sum_counterexample, C72_sum_partial, C72_transpose, C72_unary, C72_unsqueeze_partial, C72_where, C72_zeros_argmax, C72_zeros_comparison, C72_zeros_nonzero_counterexample, C73_load_folded, C73_load_plain, C73_load_returns, C73_node_count, C73_rename_distinct, C73_same_values, C74_save_again_folded, C74_save_again_plain, C74_save_same_values, C74_saved_file, C74_saved_file_folded, C74_saved_valid, C74_second_save_stable, C74_shape_only, C75_finds_the_solution, C75_history, C75_idempotent, C75_node_order, C75_solution, C75_state_independent, C75_value_infer, C75_wellFormed_example, C76_affine_fitted, C76_affine_partial, C76_ceil_partial, C76_hump_counterexample, C76_numeric_name_counterexample, C76_product_counterexample, C76_regress_partial, C76_slopes_counterexample, C76_unproduced_counterexample, C77_attributes, C77_fused_node_partial, C77_index_exact_iff, C77_no_postops, C77_order_lost, C78_cycle_raises, C78_exponential, C78_removes_exactly_subtree, C79_closed_partial, C79_inlined_partial, C79_no_if_left, C79_unnamed_raises, C79_values, C80_closed_partial, C80_initializer_raises, C80_nodes, C80_returns_iff, C80_values, C81_layout_ignored, C81_nms_classes_wrong, C81_nms_iff, C81_nms_one, C81_recurrent, C81_resize_axes_dropped, C81_resize_macs, C81_resize_scales, C81_resize_sizes_partial, C81_resize_two_sizes_wrong, C81_topk, C81_topk_default, C81_upsample_attribute_raises, C82_again, C82_every_second, C82_index_is_text, C82_loop_over_copy, C82_loop_skips, C82_others_untouched, C82_packed_partial, C82_quantize_weights, C82_reader_marked, C82_shared_raises, C82_unread_raises, C82_zero_channel_raises, C83_conv, C83_conv_truthful_partial, C83_conv_wrong_axis, C83_largest_exist, C83_matrix, C83_matrix_overstated, C83_matrix_truthful_partial, C83_other_ranks, C83_ratio, C83_ratio_other, C83_thresholds, C84_comma_shifts, C84_csv_iff_partial, C84_report, C84_shares, C84_total_differs, C84_totals_close, C84_totals_nearest, C85_default_grows_partial, C85_leaks, C86_absolute_path, C86_export_partial, C86_missing_directory, C86_overwrites, C86_selection, C87_all, C87_io, C87_names_with_x, C87_rank, C87_set_shape_partial, C88_descs, C88_found, C88_fuse_partial, C88_only, C89_arithmetic, C89_cast, C89_clip, C89_clip_attr_partial, C89_clip_bound, C89_clip_counterexample, C89_compare, C89_gatherElements_counterexample, C89_gatherElements_partial, C89_globalmean_counterexample, C89_globalmean_partial, C89_globalmean_rank, C89_incompatible, C89_layernorm, C89_mad, C89_max, C89_mean_sum, C89_mod, C89_overrun, C89_rangeGather, C89_reduce_axes, C89_reduce_counterexample, C89_reduce_empty, C89_reduce_repeated, C89_relu, C89_shape, C89_softmax, C89_softmax_axis, C89_tile, C89_tile_front, C89_unary, C89_where, C90_batch, C90_batch_recurrent, C90_bidirectional_counterexample, C90_charged, C90_elementwise, C90_global_average, C90_gru, C90_layernorm, C90_lrn, C90_lstm, C90_max_counterexample, C90_misjudged, C90_no_bias_raises, C90_qlinear_conv, C90_qlinear_conv3d_counterexample, C90_qlinear_matmul, C90_reduce, C90_reduce_l2, C90_resample, C90_scalar_counterexample, C90_sum, C91_closed, C91_export, C91_levels, C91_pipeline, C91_same_values, C91_save_is_export, C92_io_long_form, C92_io_sets_shape, C92_last_wins, C92_no_colon_name, C92_other_type, C92_scalar, C92_shape, C92_short_form, C92_values, C92_well_formed, C93_fill, C93_history, C93_live_tensors, C94_calls, C95_align_corners_counterexample, C95_align_corners_ignored, C95_asymmetric_counterexample, C95_cubic, C95_linear, C95_modes, C95_nearest, C95_nearest_default_iff, C95_nothing_written, C95_ranks, C95_scale_counterexample, C95_scales, C95_shrink_counterexample, C96_topk, C97_data_kept_partial, C97_data_lost, C97_dtype, C97_dtype_ignored, C97_memsize_no_data, C97_memsize_partial, C97_read, C97_scalar_has_no_size, C97_shape, C97_symbolic_size, C98_defaults, C98_domain_lost, C98_domain_set, C98_empty_list_refused, C98_fields, C98_parameter_name_refused, C98_roundtrip_partial, C98_save_iff, C98_set_attr, C99_again, C99_at_most, C99_cut_sorted, C99_each_row_once, C99_first_image_only, C99_greedy, C99_greedy_unique, C99_iou_cells, C99_iou_one, C99_iou_range, C99_iou_scale, C99_iou_zero, C99_negative_limit, C99_no_suppression, C99_not_sorted, C99_nothing_lost, C99_odd_arrays, C99_row_order, C99_separated, C99_sort_irrelevant, C99_ties, C99_tiny, C99_valid.

