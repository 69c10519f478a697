#!/usr/bin/env python3
"""Writes DESIGN.md from the hand-written text below, the doc comments of the model modules, properties.jsonl, MANIFEST.json and tools/axioms.json
(the output of `#print axioms` for every theorem of the manifest, see tools/gen_axioms.sh)."""
import json, glob, os, re
root = os.path.dirname(os.path.dirname(os.path.abspath(__file__)))
os.chdir(root)
props = [json.loads(l) for l in open('properties.jsonl')]
props.sort(key=lambda d: d['id'])
man = {c['property']: c for c in json.load(open('MANIFEST.json'))['claims']}
ax = json.load(open('tools/axioms.json'))

PLAN = {
'C01': ('Memory', 'State machine over the node order; invariant: the blocks tile [0, total) and every tensor in memory owns the block recorded for it. Induction over the nodes.'),
'C02': ('Memory', 'Same invariant: recorded offsets lie in blocks, the blocks end at the reported size.'),
'C03': ('Memory', 'Same invariant, with the aligned size kept as a field of each block.'),
'C04': ('Memory', 'Upper bound: the pool grows only by the size of the tensor placed; lower bound: disjoint live blocks lie in the pool.'),
'C05': ('Memory', 'Counterexample on a concrete graph (kernel computation); positive part for outputs no node reads from the invariant of C01.'),
'C06': ('Pool', 'Byte-addressed store; bounds and non-aliasing from C01-C03 through the validity check of the constructor.'),
'C07': ('Topsort', 'Level-wise Kahn loop with fuel = number of nodes; invariant: emitted prefix is closed under producers.'),
'C08': ('Topsort', 'Permutation from progress of the loop on acyclic graphs (some node is always ready).'),
'C09': ('Topsort', 'The loop on its own output emits the same levels.'),
'C10': ('Graph, Remove', 'Refinement: index = list of consumers / producers read off the node list; preserved by every removal, hence by every history.'),
'C11': ('Remove', 'Fixed point of the removal loop characterised by an inductive "needed" predicate; counterexamples.'),
'C12': ('Subgraph', 'BFS closure = inductive reachability.'),
'C13': ('Subgraph', 'Membership characterisation of both lists from the exact index.'),
'C14': ('Subgraph', 'Composition of C10 (removals) and C13 (interface); counterexample for graph outputs.'),
'C15': ('ShapeCalc', 'Marking loop = inductive dependency closure.'),
'C16': ('ComputeGraph', 'Set characterisation of the kept nodes; counterexamples.'),
'C17': ('ConstFold', 'Fixed point = least set closed under "all operands constant".'),
'C18': ('ConstFold', 'Evaluator with arbitrary operator semantics; evaluation of the folded graph equals evaluation of the original, by induction over the order.'),
'C19': ('Broadcast', 'Equality with an element-wise specification of numpy broadcasting (iff for success).'),
'C20': ('Broadcast', 'Maximality of the volume identifies the broadcast operand.'),
'C21': ('Conv', 'Output size = number of window positions that fit (counting specification), all strides, pads, dilations.'),
'C22': ('Conv', 'Integer arithmetic with floor/ceil.'),
'C23': ('Slice', 'Length = number of indices selected by the ONNX rule; proved per axis and lifted to lists.'),
'C24': ('Axes', 'Volume arithmetic; iff for the accepted targets; counterexamples.'),
'C25': ('Axes', 'Sum of parts; Concat of Split is the identity on shapes.'),
'C26': ('Axes', 'Inverse laws between Squeeze/Unsqueeze, Transpose/Transpose, volume preservation.'),
'C27': ('ShapeEngine', 'Exact rationals; the affine fit is exact at every x; rounded quotients under explicit conditions.'),
'C28': ('ShapeEngine', 'Invariant after update_variables; independence of the order of variables.'),
'C29': ('Serial', 'Independent reader; decode (encode x ++ rest) = (x, rest); injectivity.'),
'C30': ('Serial', 'As C29.'),
'C31': ('Serial', 'As C29, over nodes, attributes and tensors.'),
'C32': ('TensorProto', 'Bit patterns through byte encoding, all element counts; finite tables only for dtype codes (the whole domain).'),
'C33': ('Quant', 'Unpacking specification; injectivity for all rows of even length; counterexamples.'),
'C34': ('Quant', 'Exact rationals: |dequant(quant x) - x| ≤ scale/2 for every element and grouping.'),
'C35': ('Profile', 'Totals as sums, permutation invariance, dedup counts each initializer once.'),
'C36': ('Macs', 'Monotonicity and cap of the parameter formula.'),
'C37': ('Registry', 'Refinement to a finite map over all histories of registrations.'),
'C38': ('Pattern', 'Soundness invariant over the backtracking search with its mutable list; termination measure; exact answer for ConvBN.'),
'C39': ('ConvBN', 'Field algebra for one pair; graph-level evaluation invariance over the list of matches.'),
'C40': ('Skip', 'Rewiring lemma over the exact index.'),
'C41': ('Memory', 'iff characterisation of returning; counterexample.'),
'C42': ('Broadcast', 'Shape equality with the ONNX matmul rule.'),
'C43': ('Macs, Einsum', 'MACs = cardinality of the multiplications in the defining sum.'),
'C44': ('Macs', 'As C43 for the two attention products.'),
'C45': ('Einsum', 'Label environment = the unique assignment of sizes; output read off it.'),
'C46': ('Infer', 'Refinement: pool execution simulates the reference environment; uses C01-C03 for the plan.'),
'C47': ('InferState', 'Invariant over all histories of calls: the state is a function of the last dimensions.'),
'C48': ('InferState', 'As C47 with failure points; counterexamples.'),
'C49': ('Sdpa', 'Induction over the history of calls: cache contents = keys/values of all past positions.'),
'C50': ('Sdpa', 'Rotation algebra in a field with sine/cosine laws as hypotheses.'),
'C51': ('KvPlan', 'Two runs of the allocator of C01.'),
'C52': ('InferKv', 'Refinement of a session: the cache pool is untouched by activations.'),
'C53': ('Generate', 'Loop over an abstract engine; trace characterisation.'),
'C54': ('Decoder', 'Induction over chunks and nodes: chunked run = one run.'),
'C55': ('Builder', 'Induction over the list of emitted records; fresh names, SSA, order, shapes.'),
'C56': ('Builder', 'Sum over emitted initializers = closed form.'),
'C57': ('Builder', 'Slots of attention nodes are disjoint and sized.'),
'C58': ('Arch', 'Aliasing of the table modelled by key; history of constructors.'),
'C59': ('Builder', 'Evaluation of the built graph with uninterpreted operators = the decoder term.'),
'C60': ('Preload', 'Layout of constants against the node\'s meaning over a commutative ring.'),
'C61': ('Kernels, Torch', 'Element-wise equality with the ONNX definition, all shapes.'),
'C62': ('KernelsCut, Torch', 'As C61.'),
'C63': ('KernelsConv, Torch', 'As C61, sums over windows.'),
'C64': ('KernelsNorm, Torch', 'As C61 in a field.'),
'C65': ('LlmProfile', 'Rational arithmetic: roofline per node, sums.'),
'C66': ('LlmCost', 'Sum over the emitted nodes of every configuration = closed form.'),
'C67': ('Vision', 'As C55/C56/C59 for the encoder; index arithmetic for patches.'),
'C68': ('ValueMove', 'Element-wise equality with ONNX, all shapes and ranks.'),
'C69': ('ValueMath', 'As C68.'),
'C70': ('ValueReduce', 'As C68.'),
'C71': ('ValueConv', 'As C68 in a field.'),
'C72': ('Predict', 'Shape of the computed value = inferred shape, operator by operator.'),
'C73': ('Load', 'Evaluation of the loaded graph = evaluation of the file, both folding modes.'),
'C74': ('Load', 'As C73 for the written file; second save equals the first.'),
'C75': ('ShapeInfer', 'Two runs from different histories agree; counterexamples.'),
'C76': ('Regress', 'Invariant of the loop over dynamic tensors relating stored expressions to the network\'s shape functions.'),
'C77': ('Edit', 'Node set, interface and index after fusion; iff for exactness of the index.'),
'C78': ('Edit', 'Recursion = inductive descendants.'),
'C79': ('Branch', 'Evaluation of the graph after inlining = evaluation with the branch taken.'),
'C80': ('TopK', 'As C79 with the K of each TopK fixed.'),
'C81': ('Resample', 'Equality with per-operator shape specifications.'),
'C82': ('GraphQuant', 'Composition of C33, C34 with the graph edit; loop over the mutated list.'),
'C83': ('Sparsity', 'Complete characterisation of the search result; iff for truthfulness.'),
'C84': ('Report', 'Independent CSV reader; iff; rounding of totals to 53 bits modelled.'),
'C85': ('Report', 'History of calls with the shared default set.'),
'C86': ('Tools', 'File-system map; path injectivity.'),
'C87': ('Tools', 'Split/join laws for the dimension text; iff.'),
'C88': ('PatternMake', 'Description exact by induction over the two loops; DFS completeness invariant (new nodes are closed under neighbours) for the search.'),
'C89': ('KernelsElem, Torch', 'Stores at element addresses: the slot is read back element by element and every other address is framed; results against the specifications of C69 and C70.'),
 'C90': ('MacsOps', 'straight-line programs over the reals: each table entry is evaluated, its cost compared with the table of the classes; counts by multi-index lists, case analysis over the operator for additivity'),
 'C91': ('Export', 'interface and sorting lemmas of C07, C08, C13 on the selected nodes; evaluation of an export against the loaded graph by induction on the evaluation, then C73 to the file; levels by reachability'),
 'C92': ('Cli', 'splitting an intercalated list, digits of a number, induction over the lists of elements and arguments'),
 'C93': ('PoolState', 'simulation of the heap of storages by independent tensors, induction over the history; composed with C01'),
 'C94': ('Dump', 'induction over the names and over the nodes before and after the producer; composed with the models of value inference, saving, memory planning and forward'),
 'C95': ('Props/KernelsResize', "`torch.interpolate` written out over rationals (nearest, bilinear; bicubic a parameter), compared with ONNX's coordinate rules in Spec/KernelsResize; per-axis characterisation of the agreement"),
 'C96': ('Props/KernelsTopK', '`torch.topk` is a parameter constrained by its documentation; from its answer a sorted permutation of every fibre is constructed'),
 'C97': ('Tensor', 'induction over the sequence of calls: what was set last, invariants of the data held between two writes'),
 'C98': ('NodeAttr', 'induction over attribute lists; writing respects permutations (sorting by name)'),
 'C99': ('Yolo', 'the suppression loop by induction on the number of boxes left; the choice is unique by induction on the number of surer boxes; the overlap against counted cells'),
 'C100': ('YoloMetrics', 'the matching loop computes the unique greedy matching (induction on the predictions with the set of taken annotations); counting by an injection into the annotations; the average by the running maximum of a rising curve'),
 'C101': ('YoloEval', 'exact arithmetic of the letterbox; the loops by induction on the images; the bound by restricting the annotations to the evaluated images; counterexamples by kernel computation'),
 'C102': ('DTypes', 'the rule of every node class as a table and the ONNX signature as an independent table; case analysis over all operators for the exact condition, induction over the sorted node list for graphs'),
 'C103': ('QuantOps', 'exact conditions (iff) against the model of Conv and MatMul shapes and costs; window counting through C21, broadcasting through C42'),
 'C104': ('LlmInit', 'closed form of the two loops (dictionary folds), correction for the cache shown to change nothing, case analysis on the three outcomes; counterexamples for max_seq_len ignored, inputs left out, shared bound, mixed shapes'),
 'C105': ('FileTools', 'composition of the load (C73), topological sort (C07), constant folding (C17/C18) and save (C74) theorems; idempotence by a fixed-point lemma for the sort on sorted lists'),
 'C106': ('SrEngine', 'case analysis of the padding arithmetic, reflection formula, floor arithmetic over exact rationals; all 256 steps by kernel computation with IEEE rounding'),
 'C107': ('Defaults', "fold lemma for add_default_value (first value wins); comparison of the tool's table with ONNX's table entry by entry with a symbolic rank"),
 'C108': ('Activated', 'second traversal of the builder for node.params (constants of every node); routing bound by counting distinct experts, attained by a round-robin routing; closed forms of C66 for static_params'),
 'C109': ('Checkpoint', 'the weights of a built decoder are computed as an explicit list by traversal of the builder; every weight is read by one node (distinct names), so any node order gives the same first reader; the update loop is characterised by induction over the tensor names; values follow from C60.'),
 'C110': ('Diagnostics', 'A run is a list of clock readings. Induction over the run for the accumulated dictionaries (their sums and per-key values), telescoping sums for the elapsed time, permutation and sortedness of a stable sort, and interval arithmetic for the overlap check. Times and elements are exact rationals.'),
 'C111': ('Links', 'The graph is extended by the links (nextnodes) of every node, a link being a node or, after a fusion, a list of names. Histories are lists of calls; invariants (well-formed indexes, shrinking node list, unchanged links) by induction over the history reduce a removal history to C78; links with lists make both calls fail (induction over link paths and over the pass); stale links are followed exactly.'),
 'C112': ('Pipeline', 'composition of the models of C73 (load, folding), C07-C09 (reorder), C15/C16 (compute graph), C01-C03 (plan) and C46 (forward); the value of every tensor is tracked through the stages by induction over the executed prefix'),
 'C113': ('HybridCost', 'closed forms per layer kind summed over the layers by the monadic cost calculus of C66, with the mixer of each layer chosen by its kind'),
 'C114': ('Raises', 'Each call is unfolded and its result compared with a list of (exception, cause) pairs: it raises e exactly when a pair (e, true cause) is listed (`Fails`); causes are written in terms of the arguments only.'),
 'C115': ('RangePool', 'The loop of shape_regress is followed to the shapes its last probe leaves in the tensor map (invariant: user variables and input descriptions survive each step); the slot bound of C03 and the access rule of C06 then give the claim for tensors that grow with the variables. Two variables refute it for the model-file pool.'),
 'C116': ('Grow', 'monotonicity of each shape function by induction on the shape; for networks by induction over the topological order on two solutions of the node equations (C75), then C115'),
 'C117': ('PrCurve', 'a stable sort is determined by the entries of each score, so sorting commutes with filtering; the rows above a threshold are a front part of the ranking; the matching of a list is the matching of its front parts; average precision is monotone in the number of predictions judged'),
 'C118': ('SrApp', 'transition system over events; invariants kept by every step after an image has been opened; for the converse an explicit schedule that runs all other threads first'),
 'C119': ('SrBatch', 'The batch is the list of its writes; a prefix of that list is split, by induction over the images, into the writes of finished images and at most one of the next; file names of different stems are shown different, so that the last write to each name is known.'),
 'C120': ('Batch', 'shape inference is run side by side for two batch sizes with an invariant on every tensor (same shape but for the first axis); each operator is shown to keep the batch without looking at it, and each cost to be linear in it; the totals follow by C35'),
 'C121': ('ResultViews', "`outputViews` keeps the views `forward` returns; `collect` is their contents (induction over the outputs). With C47's invariant the views depend on the dimensions only, so a kept dict of views reads what the later call's dict reads. Feeding back: induction over the inputs, the memory agrees with the memory before the call on all views still to be read. Findings: `C121_result_overwritten`, `C121_two_states_mixed` (the real plan of a two-state graph)."),
 'C122': ('Overlap', "`forward` as a small-step machine over the state of `Model/InferState` (dimensions and cache; copy; each node; outputs). `finish` is the big step from any point; every step preserves it, so the machine run alone is C47's `call`. Invariant over schedules: for each engine the state is that of the calls begun so far, the last one possibly in progress. Findings by concrete schedules: `C122_overlap_wrong`, `C122_overlap_leaves_engine_wrong`."),
 'C123': ('Compare', 'lists of samples of rationals or NaN; maxima by induction on the list, the cosine over the reals by an inductive Cauchy-Schwarz, batches by taking and dropping, argmax by its running maximum; the findings by computation or for all outputs'),
 'C124': ('Benchmark', "exact rationals; linked with the model of the profiler's MACs (C43) and of convolution shapes (C21), and with the profiled run of C110; the unit loop by cases"),
 'C125': ('LlmCli', "a disk is a listing per directory and the snapshots per cache key; find over the sorted snapshots gives the greatest usable one (a sorted list's first hit); permutations of a listing; case analysis of main for each part of the plan and for each error; counterexamples evaluated: shards, weights of another model, an unrelated ONNX file in the working directory"),
 'C126': ('NodeState', 'the loop of C75 with a state per node name; an invariant per node under which an object behaves like a new one and which its steps keep; induction over the nodes of a call and over the calls; combined with C75_history; for TopK without axis an exact condition on the series of operand ranks and an evaluated counterexample'),
 'C127': ('SrStatus', 'a transition system of threads, the queue of callbacks and what is seen; the multiset of all messages is invariant, for one thread also their order; a callback that uses the exception variable fails once the except branch has ended (invariant: an unbound variable stays unbound); both outcomes of a failing thread shown to exist, the lost one for batches of every length'),
 'C128': ('NodeMemory', "the exact difference between the charge and the bytes as a sum over outputs and weights, for all nodes; equality when the element sizes agree, an equivalence for one weight; for Gather the charge is compared with the output elements via the product of the table's dimensions, an equivalence in shape, axis and indices"),
 'C129': ('FixedShapes', "the sequence of writes with the first failure ending it; equivalence with ONNX's shapes for five outputs, failure for every smaller node by cases; ZipMap and GeGelu by equivalences in the shape"),
 'C130': ('Draw', 'what is drawn as data (rectangle, colour, name); an equivalence for being drawn and one for the pixels enclosed, by integer arithmetic on the clipped corners; the way through the letterbox from C101; dashes by an equivalence per pixel; names by uniqueness of ids, for both numberings of the categories'),
 'C131': ('VisionTable', "a row as an equivalence with a separate description (patches by the grid, figures by rounding bounds), the table by induction; the encoder's graph from C67, the decoder's cost from C66; bounds of ratio and total by arithmetic; counterexamples for rounding, small decoders and different patch sizes"),
 'C132': ('SrProfile', 'a transition system of threads over one standard output; runs one after another by induction over the threads in any order; conservation of lines by an invariant over every schedule; counterexamples for all reports and schedules that overlap, and an invariant for the console that stays silent'),
}

def doc(path):
    s = open(path).read()
    m = re.search(r'/-!(.*?)-/', s, re.S)
    return m.group(1).strip() if m else ''

out = []
w = out.append
w('''# Formal model of onnx-tool in Lean 4 — design

Source read: `/repo` (ThanatosShinji/onnx-tool, pinned commit).  Nothing of it is executed here.
Properties: `properties.jsonl`.  Verdict per property: `MANIFEST.json`.  Wrong programs tried against the theorems: `seeded/LOG.jsonl`.
This file is written by `tools/gen_design.py` (hand-written text in that script, tables from the other files).

## 1. Layout

* `lean/Verif/Model/*.lean`  – the model: total, computable functions mirroring the Python functions branch by branch.  Every definition cites the
  file and lines it models, and says where it simplifies.  Python exceptions are values (`Except PyErr`).
* `lean/Verif/Spec/*.lean`   – small independent specifications.  They use the data types of the model (a graph, a shape, a tensor), not its
  algorithms.
* `lean/Verif/Proofs/*.lean` – helper lemmas.
* `lean/Verif/Props/*.lean`  – the theorems `Cnn_...` of the properties, each with concrete cases meeting the hypotheses and, where the code
  violates the property, a theorem proving the violation on a concrete witness.

Naming: a theorem `Cnn_..._partial` proves part of the property and says what is missing; names ending in `_wrong`, `_raises`, `_lost`,
`_counterexample` and the like are refutations of the unrestricted claim.  A property whose unrestricted claim is refuted is `partial` in the
manifest, even where the remaining cases are characterised exactly.

## 2. Trusted base

* Lean 4.33.0's kernel.  `vcheck` rebuilds the last commit and replays the declarations in the kernel.
* Axioms: only `propext`, `Classical.choice` and `Quot.sound`; no axiom of our own, no compiled evaluation (`native_decide`, `bv_decide`).  The
  axioms of every theorem are listed in section 7.
* Mathlib modules imported one by one (`Logic.Relation`, `Data.List.*`, `Data.Rat.*`, `Algebra.*`, tactics).  They are checked by the same kernel.
* The faithfulness of the hand translation Python → Lean.  It was made by reading; the code was not run.
* Python built-ins are read as follows: `dict` = association list in insertion order; `list.remove` = remove the first occurrence (`ValueError` if
  missing); `int` = unbounded integer; `//` = floor division; `sorted`/`list.sort` = stable; `round` = round half to even; iterating over a
  `set` = arbitrary order (theorems quantify over it); a recursion deeper than the model's bound is `RecursionError`.
* numpy, torch, onnx, protobuf and struct are not part of the repository.  What their calls are taken to do is stated as definitions in
  `Model/Torch`, `Model/ValueMove`, `Model/ValueMath`, `Model/ValueReduce`, `Model/Predict`, `Model/TensorProto`, `Model/Serial` and
  is trusted like the translation.
* Floating point is exact (rationals or an arbitrary field; exponential, square root, sine and cosine are arbitrary functions with the laws used
  as hypotheses), except where the code's rounding matters and is modelled: single-precision coefficients (C29), 53-bit totals (C84), half
  precision scales (C82, an arbitrary rounding function).  So no theorem bounds a floating-point rounding error of the numeric kernels.
* Data types, devices, timing, logging and warnings are left out except where a property is about them.

## 3. What is modelled

One entry per model module, from its own header.
''')
for f in sorted(glob.glob('lean/Verif/Model/*.lean')):
    d = doc(f)
    lines = d.split('\n')
    title = lines[0].lstrip('# ').strip()
    body = ' '.join(x.strip() for x in lines[1:] if x.strip())
    w(f'* **{os.path.basename(f)[:-5]}** – {title}.  {body}'.rstrip())
w('''
## 4. What is not modelled

* `onnx_tool/__main__.py` beyond its option parsing (C92), `model.py`, `__init__.py` wrappers that only call a modelled method (`model_shape_infer`,
  `model_constant_folding`, `model_reorder_nodes`, `model_shape_regress`, `loadmodel`); `model_subgraph` and `Graph.get_subgraph` (they always
  raise `TypeError`: `Graph(x)` lacks its second argument), `model_opfusion` (wrong keyword, always `TypeError`).
* `graph.py`: `get_dynamic_tensors`, `prevnodes`/`nextnodes` links, screen tables.
* `node.py`: the profile formulas of operators not named in section 3, and the value inference of operators without one
  (they raise).  `TmpNodeProto`, Scan, ZipMap, CategoryMapper and Hardmax.
* `tensor.py`: external data files, string tensors.
* `llm.py`: `model_configs.py` (data), saving, printing.
* `inference/`: dtype and device handling, checkpoint file reading, tokenizers, the scripts (`compare`, the drawing and command line of `yolo_eval`, `sr_gui`,
  `benchmark_xpu`, …).  Kernels are modelled as far as section 3 says.
* `benchmark/` except `compress_memory_with_kv_cache` and the quantization loop of `examples.py`; `tests/`, `data/`.
* Concurrency: the code has none.  Crash points: exceptions are modelled as results with the state they leave (C48, C82, C86); a killed process is not.

## 5. Plan per property

| id | property | model | how it is proved | status |
|----|----------|-------|------------------|--------|''')
for d in props:
    mod, how = PLAN[d['id']]
    st = man.get(d['id'], {}).get('status', '-')
    w(f"| {d['id']} | {d['title']} | {mod} | {how} | {st} |")
w('''
All properties of the list can be expressed in the model; none is `not_applicable`.

## 6. Status and findings per property

What is proved, and in which cases the code violates the property (each violation has a theorem).
''')
for d in props:
    c = man.get(d['id'])
    if c and c.get('note'):
        w(f"* **{d['id']}** ({c['status']}, {len(c['theorems'])} theorems).  {c['note']}")
    elif c:
        w(f"* **{d['id']}** ({c['status']}, {len(c['theorems'])} theorems).  The property as stated.")
w('''
Further observations made while reading, not turned into properties:

* `Graph.get_subgraph`, `model_subgraph` and `model_opfusion` always raise `TypeError`.
* Fusions append lists of names (not nodes) to `nextnodes`/`prevnodes`; later walks over these links fail with `AttributeError`.
* After `__remove_if__` the `nextnodes` links are not updated.
* `Tensor.sparsity` is not refreshed by `update_tensor`.
* `SDPAKernel` ignores `attn_logit_softcapping`; no kernel is registered for gated delta nets.
* `Builder.print_profile` labels seconds as milliseconds.
* `'.csv'` anywhere in the file name selects the CSV report.
* The GELU kernel computes the exact error function although the documentation says tanh.

## 7. Axioms of each theorem

''')
groups = {}
for d in props:
    for t in man.get(d['id'], {}).get('theorems', []):
        groups.setdefault(tuple(sorted(ax.get(t, ['?']))), []).append(t.replace('OnnxTool.Props.', ''))
for k in sorted(groups, key=len):
    names = sorted(dict.fromkeys(groups[k]))
    w(f"**{', '.join(k) if k else 'no axioms'}** ({len(names)} theorems): {', '.join(names)}.\n")
open('DESIGN.md', 'w').write('\n'.join(out) + '\n')
print('DESIGN.md', len(out))
