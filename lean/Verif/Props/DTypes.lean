import Verif.Proofs.DTypes
/-!
# C102: element types after shape inference

After `shape_infer()` every tensor has the element type ONNX gives it.

False of the code, and the exceptions are known exactly: an output gets its ONNX type if and only if the node is `Reliable` for it (`Spec/DTypes`). Round reports bool
(its class derives from Less), QLinearConv without bias reports the type of the scale, second outputs of MaxPool, BatchNormalization and LayerNormalization and the output of
a reduction without axes are never typed, casts to uint32, uint64 and bfloat16 give no type, ReduceL2 of integers gives float64.
-/
namespace OnnxTool.Props
open OnnxTool OnnxTool.DTypes

/-- **C102** for one node: when `shape_infer` of a legal node returns, output `k`, to which ONNX gives the type `t`, is given the type `t` if and only if the node is
reliable for this output. -/
theorem C102_output_type_partial {n : TNode} {ins ts : List Known} {k : Nat} {t : DType} (hleg : Legal n ins) (hk : k < n.outputs.length)
    (hi : n.op = "TopK" ∨ n.op = "Dropout" → ∃ x, nth ins 0 = some x)
    (hrun : effects n ins = .ok ts) (ht : onnxType n ins k = some t) : ts[k]? = some (some t) ↔ Reliable n ins k :=
  effects_iff hleg hk hi hrun ht

/-- two convolutions with 8 and 9 inputs: the first reports float32, the second int8 -/
def qconv (b : List String) : TNode :=
  { op := "QLinearConv", inputs := ["x", "xs", "xz", "w", "ws", "wz", "ys", "yz"] ++ b, outputs := ["y"] }

/-- the types of the operands of a quantized convolution -/
def qtypes : List Known :=
  [some .int8, some .float32, some .int8, some .int8, some .float32, some .int8, some .float32, some .int8]

example : Legal (qconv ["b"]) (qtypes ++ [some .int32]) ∧ Reliable (qconv ["b"]) (qtypes ++ [some .int32]) 0 ∧
    effects (qconv ["b"]) (qtypes ++ [some .int32]) = .ok [some .int8] ∧ onnxType (qconv ["b"]) (qtypes ++ [some .int32]) 0 = some .int8 := by
  refine ⟨?_, ?_, rfl, by decide⟩
  · constructor <;> simp [qconv, qtypes, nth]
  · constructor <;> simp [qconv, qtypes]

/-- **C102** for a graph: in a sorted graph, when `shape_infer()` returns, every output of every reliable node has its ONNX type, computed from the types of the node's inputs
after the run. (For nodes whose values are computed, the type of the array `value_infer` gives is the premise.) -/
theorem C102_graph_types_partial {values : TNode → List Known → Except PyErr (List Known)} {nodes : List TNode} {before after : Types}
    (hrun : inferTypes values nodes before = .ok after)
    (hself : ∀ n ∈ nodes, ∀ x ∈ n.inputs, x ∉ n.outputs)
    (hsorted : nodes.Pairwise fun a b => (∀ x ∈ a.inputs, x ∉ b.outputs) ∧ (∀ x ∈ a.outputs, x ∉ b.outputs))
    (hdistinct : ∀ n ∈ nodes, n.outputs.Nodup)
    {n : TNode} (hn : n ∈ nodes) {k : Nat} {o : String} {t : DType} (ho : n.outputs[k]? = some o)
    (hshape : n.shapeCalc = false → Legal n (n.inputs.map after) ∧ Reliable n (n.inputs.map after) k ∧
      (n.op = "TopK" ∨ n.op = "Dropout" → ∃ x, nth (n.inputs.map after) 0 = some x))
    (hvalue : n.shapeCalc = true → ∀ ts, values n (n.inputs.map after) = .ok ts → ts[k]? = some (some t))
    (ht : onnxType n (n.inputs.map after) k = some t) : after o = some t := by
  obtain ⟨ts, hts, hset⟩ := infer_node hrun hself hsorted hn
  refine hset (hdistinct n hn) k o _ ho ?_
  cases hc : n.shapeCalc with
  | true =>
    rw [hc] at hts
    exact hvalue hc ts hts
  | false =>
    rw [hc] at hts
    obtain ⟨hl, hr, hi⟩ := hshape hc
    have hk : k < n.outputs.length := (List.getElem?_eq_some_iff.1 ho).1
    exact (effects_iff hl hk hi hts ht).2 hr

/-- names that no node produces keep their type -/
theorem C102_others_keep_type {values : TNode → List Known → Except PyErr (List Known)} {nodes : List TNode} {before after : Types}
    (hrun : inferTypes values nodes before = .ok after) {x : String} (hx : ∀ n ∈ nodes, x ∉ n.outputs) : after x = before x :=
  infer_other hrun hx

/-- A run that returns means that every node ran on the final types of its inputs; in particular every operator is registered and no shape computation raised. -/
theorem C102_all_registered {values : TNode → List Known → Except PyErr (List Known)} {nodes : List TNode} {before after : Types}
    (hrun : inferTypes values nodes before = .ok after)
    (hself : ∀ n ∈ nodes, ∀ x ∈ n.inputs, x ∉ n.outputs)
    (hsorted : nodes.Pairwise fun a b => (∀ x ∈ a.inputs, x ∉ b.outputs) ∧ (∀ x ∈ a.outputs, x ∉ b.outputs))
    {n : TNode} (hn : n ∈ nodes) (hc : n.shapeCalc = false) : (ruleOf n.op).isSome ∧ n.shapeFails = false := by
  obtain ⟨ts, hts, -⟩ := infer_node hrun hself hsorted hn
  rw [hc] at hts
  simp only [Bool.false_eq_true, if_false, effects] at hts
  split at hts
  · cases hts
  · rename_i hf
    split at hts
    · rename_i r hr
      exact ⟨by simp [hr], by simpa using hf⟩
    · cases hts

/-- every operator of the specification is registered -/
theorem C102_specified_registered (n : TNode) (ins : List Known) (k : Nat) (t : DType) (h : onnxType n ins k = some t) : (ruleOf n.op).isSome := by
  have hlist : ∀ o ∈ likeFirst ++ likeBool ++ likeInt64 ++ ["Where", "OneHot", "DequantizeLinear", "QuantizeLinear", "QLinearConv", "QLinearMatMul", "ConvInteger",
      "MatMulInteger", "Split", "LSTM", "GRU", "TopK", "MaxPool", "Dropout", "BatchNormalization", "LayerNormalization", "Cast", "RandomUniformLike",
      "RandomNormalLike", "Constant", "ConstantOfShape", "CategoryMapper"], (ruleOf o).isSome := by decide +kernel
  refine Classical.byContradiction fun hno => ?_
  have hm : ¬ (n.op ∈ likeFirst ++ likeBool ++ likeInt64 ++ ["Where", "OneHot", "DequantizeLinear", "QuantizeLinear", "QLinearConv", "QLinearMatMul", "ConvInteger",
      "MatMulInteger", "Split", "LSTM", "GRU", "TopK", "MaxPool", "Dropout", "BatchNormalization", "LayerNormalization", "Cast", "RandomUniformLike",
      "RandomNormalLike", "Constant", "ConstantOfShape", "CategoryMapper"]) := fun hm => hno (hlist n.op hm)
  simp only [List.mem_append, List.mem_cons, List.not_mem_nil, or_false, not_or] at hm
  unfold onnxType at h
  obtain ⟨⟨⟨a1, a2⟩, a3⟩, b1, b2, b3, b4, b5, b6, b7, b8, b9, b10, b11, b12, b13, b14, b15, b16, b17, b18, b19, b20, b21, b22⟩ := hm
  rw [if_neg a1, if_neg a2, if_neg a3, if_neg b1, if_neg b2, if_neg b3, if_neg b4, if_neg b5, if_neg b6, if_neg (not_or.2 ⟨b7, b8⟩), if_neg b9, if_neg b10,
    if_neg b11, if_neg b12, if_neg b13, if_neg b14, if_neg b15, if_neg b16, if_neg b17, if_neg (not_or.2 ⟨b18, b19⟩), if_neg b20, if_neg b21, if_neg b22] at h
  cases h

/-- a small typed graph: a convolution without bias, a rounding, a maximum pooling with indices, a mean over everything -/
def typedGraph : List TNode :=
  [qconv [],
   { op := "DequantizeLinear", inputs := ["y", "ys", "yz"], outputs := ["d"] },
   { op := "Round", inputs := ["d"], outputs := ["r"] },
   { op := "MaxPool", inputs := ["d"], outputs := ["p", "pi"] },
   { op := "ReduceSum", inputs := ["counts"], outputs := ["total"], hasAxes := false },
   { op := "Cast", inputs := ["total"], outputs := ["u"], castTo := some (code .uint32) },
   { op := "Greater", inputs := ["d", "p"], outputs := ["g"] }]

/-- the types of the inputs and weights; a fresh tensor is a float32 -/
def typedStart : Types := fun x =>
  if x ∈ ["x", "xz", "w", "wz", "yz"] then some .int8 else if x = "counts" then some .int64 else some .float32

/-- **C102** is false of the code: the first tensor is int8 in ONNX and reported float32, the rounded tensor is float32 and reported bool, the indices are int64, the total
is int64 and reported float32, the cast gives uint32 and no type is reported; only the dequantized, the pooled and the compared tensor are right. -/
theorem C102_wrong_types : ∃ after, inferTypes (fun _ _ => .error .notImplemented) typedGraph typedStart = .ok after ∧
    after "y" = some .float32 ∧ onnxType (qconv []) (List.map after (qconv []).inputs) 0 = some .int8 ∧
    after "r" = some .bool ∧ after "d" = some .float32 ∧ after "pi" = some .float32 ∧ after "total" = some .float32 ∧ after "u" = none ∧
    after "g" = some .bool ∧ after "p" = some .float32 := by
  refine ⟨_, rfl, ?_⟩
  decide

/-- memory: the rounded tensor is billed at one byte per element instead of four, the tensor without a type at eight instead of four, the int8 convolution at four instead
of one -/
theorem C102_wrong_memory : ∃ after, inferTypes (fun _ _ => .error .notImplemented) typedGraph typedStart = .ok after ∧
    bytes (after "r") = 1 ∧ bytes (some .float32) = 4 ∧ bytes (after "u") = 8 ∧ bytes (some .uint32) = 4 ∧ bytes (after "y") = 4 ∧ bytes (some .int8) = 1 := by
  refine ⟨_, rfl, ?_⟩
  decide

/-- Rounding always loses its type. -/
theorem C102_round {n : TNode} {ins ts : List Known} (hop : n.op = "Round") (hrun : effects n ins = .ok ts) : ts = [some .bool] := by
  unfold effects at hrun
  split at hrun
  · cases hrun
  · have e : ruleOf n.op = some (.const .bool) := by rw [hop]; decide
    rw [e] at hrun
    exact (give_ok hrun).1

/-- A quantized convolution reports the type of the operand before the last one, whatever it is. -/
theorem C102_quantized_convolution {n : TNode} {ins ts : List Known} (hop : n.op = "QLinearConv") (hlen : ins.length = 8) (hrun : effects n ins = .ok ts) :
    ts[0]? = ins[6]? := by
  unfold effects at hrun
  split at hrun
  · cases hrun
  · have e : ruleOf n.op = some (.fromEnd 2) := by rw [hop]; decide
    rw [e] at hrun
    simp only [runRule] at hrun
    have h6 : ins[6]? = some ins[6] := List.getElem?_eq_getElem (by omega)
    rw [fromEnd_of (i := 6) (by omega) h6] at hrun
    rw [(give_ok hrun).1, h6]; rfl

/-- Legal nodes for which shape inference always fails: QuantizeLinear without zero point, GRU with one output, Scan with fewer than five. -/
theorem C102_legal_failures {n : TNode} {ins : List Known}
    (h : (n.op = "QuantizeLinear" ∧ ins.length = 2) ∨ (n.op = "GRU" ∧ n.outputs.length = 1) ∨ (n.op = "Scan" ∧ n.outputs.length < 5)) :
    ∃ e, effects n ins = .error e := by
  unfold effects
  split
  · exact ⟨_, rfl⟩
  rcases h with ⟨ho, hl⟩ | ⟨ho, hl⟩ | ⟨ho, hl⟩
  · have e : ruleOf n.op = some (.input 2) := by rw [ho]; decide
    rw [e]
    have : inputAt ins 2 = .error .indexError := by rw [inputAt, List.getElem?_eq_none (by omega)]
    simp [runRule, this]
  · have e : ruleOf n.op = some .gru := by rw [ho]; decide
    rw [e]
    simp only [runRule]
    split
    · rw [hl]; exact ⟨_, rfl⟩
    · exact ⟨_, rfl⟩
  · have e : ruleOf n.op = some .scan := by rw [ho]; decide
    rw [e]
    simp only [runRule]
    split
    · rw [give, if_neg (by simp; omega)]; exact ⟨_, rfl⟩
    · exact ⟨_, rfl⟩

/-- A Scan that is accepted has five outputs at least, and gives the first five the type of its fourth operand, whatever the body computes. -/
theorem C102_scan {n : TNode} {ins ts : List Known} (hop : n.op = "Scan") (hrun : effects n ins = .ok ts) :
    5 ≤ n.outputs.length ∧ ∃ t, ins[3]? = some t ∧ ts = [t, t, t, t, t] := by
  unfold effects at hrun
  split at hrun
  · cases hrun
  · have e : ruleOf n.op = some .scan := by rw [hop]; decide
    rw [e] at hrun
    simp only [runRule, inputAt] at hrun
    cases h : ins[3]? with
    | none => rw [h] at hrun; cases hrun
    | some t =>
      rw [h] at hrun
      exact ⟨by simpa using (give_ok hrun).2, t, rfl, (give_ok hrun).1⟩

/-- A Cast without target type is refused. -/
theorem C102_cast_needs_type {n : TNode} {ins : List Known} (hop : n.op = "Cast") (hto : n.castTo = none) : ∃ e, effects n ins = .error e := by
  unfold effects
  split
  · exact ⟨_, rfl⟩
  · have e : ruleOf n.op = some .cast := by rw [hop]; decide
    rw [e]
    simp only [runRule, hto]
    exact ⟨_, rfl⟩

/-- the premises of the graph theorem hold of a graph of reliable nodes -/
def reliableGraph : List TNode :=
  [{ op := "Conv", inputs := ["x", "w"], outputs := ["c"] }, { op := "Relu", inputs := ["c"], outputs := ["r"] },
   { op := "TopK", inputs := ["r", "k"], outputs := ["v", "i"] }, { op := "Cast", inputs := ["i"], outputs := ["f"], castTo := some (code .float16) },
   { op := "Less", inputs := ["v", "r"], outputs := ["l"] }]

example : (∀ n ∈ reliableGraph, ∀ x ∈ n.inputs, x ∉ n.outputs) ∧
    (reliableGraph.Pairwise fun a b => (∀ x ∈ a.inputs, x ∉ b.outputs) ∧ (∀ x ∈ a.outputs, x ∉ b.outputs)) ∧ (∀ n ∈ reliableGraph, n.outputs.Nodup) ∧
    ∃ after, inferTypes (fun _ _ => .error .notImplemented) reliableGraph (fun _ => some .float64) = .ok after ∧
      after "r" = some .float64 ∧ after "i" = some .int64 ∧ after "f" = some .float16 ∧ after "l" = some .bool := by
  refine ⟨by decide, by decide, by decide, _, rfl, ?_⟩
  decide
end OnnxTool.Props
