import Verif.Model.DTypes
/-!
# Element types of ONNX operators

The element type the ONNX operator documentation gives each output. Independent of the classes of `node.py`: operators are grouped by their ONNX signature.
-/
namespace OnnxTool.DTypes
open OnnxTool

/-- the code of a type in `onnx.TensorProto.DataType` -/
def code : DType → Nat
  | .float32 => 1
  | .uint8 => 2
  | .int8 => 3
  | .uint16 => 4
  | .int16 => 5
  | .int32 => 6
  | .int64 => 7
  | .string => 8
  | .bool => 9
  | .float16 => 10
  | .float64 => 11
  | .uint32 => 12
  | .uint64 => 13
  | .bfloat16 => 16

/-- the type with a code -/
def typeWithCode (c : Nat) : Option DType :=
  [DType.float32, .uint8, .int8, .uint16, .int16, .int32, .int64, .string, .bool, .float16, .float64, .uint32, .uint64, .bfloat16].find? fun t => code t = c

/-- operators with one output, of the type of the first input -/
def likeFirst : List String :=
  -- arithmetic
  ["Abs", "Add", "Ceil", "Clip", "CumSum", "Div", "Erf", "Exp", "Floor", "Log", "Max", "Min", "Mod", "Mul", "Neg", "Pow", "Reciprocal", "Round", "Sign",
   "Sqrt", "Sub", "Sum", "Sin", "Cos", "Atan", "Einsum", "Gemm", "MatMul",
   -- activations and normalisations
   "Elu", "Gelu", "HardSigmoid", "HardSwish", "Hardmax", "LRN", "LeakyRelu", "LogSoftmax", "LpNormalization", "InstanceNormalization", "PRelu", "Relu", "Sigmoid", "Softmax",
   "Softplus", "Tanh",
   -- movement of data
   "ArrayFeatureExtractor", "Compress", "Concat", "DepthToSpace", "Expand", "Flatten", "Gather", "GatherElements", "GatherND", "Identity", "Pad", "Range",
   "Reshape", "ScatterElements", "ScatterND", "Slice", "Squeeze", "Tile", "Transpose", "Trilu", "Unsqueeze",
   -- images
   "AveragePool", "Conv", "ConvTranspose", "GlobalAveragePool", "GridSample", "Resize", "RoiAlign", "Upsample",
   -- reductions
   "ReduceL2", "ReduceMax", "ReduceMean", "ReduceMin", "ReduceProd", "ReduceSum",
   -- operators of onnx-tool's own and of older domains
   "GDN", "GQA", "GeGelu", "ImageScaler", "LogitSoftCapping", "MLA", "MQA", "MoE", "Relu6", "Rope", "SDPA", "Silu"]

/-- operators with one output, of type bool -/
def likeBool : List String := ["And", "Equal", "Greater", "GreaterOrEqual", "Less", "LessOrEqual", "Not", "Or", "Xor"]

/-- operators with one output, of type int64 -/
def likeInt64 : List String := ["ArgMax", "NonMaxSuppression", "NonZero", "Shape"]

/-- the `k`-th of a list of known types -/
def nth (ts : List Known) (k : Nat) : Option DType := (ts[k]?).join

/-- **the element type ONNX gives output `k`** of a node whose inputs have the types `ins`; `none`: ONNX says nothing that this specification covers
(no such output, or an operator whose types depend on a subgraph) -/
def onnxType (n : TNode) (ins : List Known) (k : Nat) : Option DType :=
  if n.op ∈ likeFirst then nth [nth ins 0] k
  else if n.op ∈ likeBool then nth [some .bool] k
  else if n.op ∈ likeInt64 then nth [some .int64] k
  else if n.op = "Where" then nth [nth ins 1] k
  else if n.op = "OneHot" then nth [nth ins 2] k
  else if n.op = "DequantizeLinear" then nth [nth ins 1] k
  else if n.op = "QuantizeLinear" then nth [if ins.length = 2 then some .uint8 else nth ins 2] k
  else if n.op = "QLinearConv" then nth [nth ins 7] k
  else if n.op = "QLinearMatMul" then nth [nth ins 7] k
  else if n.op = "ConvInteger" ∨ n.op = "MatMulInteger" then nth [some .int32] k
  else if n.op = "Split" then nth ins 0
  else if n.op = "LSTM" then nth [nth ins 0, nth ins 0, nth ins 0] k
  else if n.op = "GRU" then nth [nth ins 0, nth ins 0] k
  else if n.op = "TopK" then nth [nth ins 0, some .int64] k
  else if n.op = "MaxPool" then nth [nth ins 0, some .int64] k
  else if n.op = "Dropout" then nth [nth ins 0, some .bool] k
  else if n.op = "BatchNormalization" then nth [nth ins 0, nth ins 3, nth ins 4] k
  else if n.op = "LayerNormalization" then nth [nth ins 0, some .float32, some .float32] k
  else if n.op = "Cast" then nth [n.castTo.bind typeWithCode] k
  else if n.op = "RandomUniformLike" ∨ n.op = "RandomNormalLike" then
    nth [match n.likeType with | some c => typeWithCode c | none => nth ins 0] k
  else if n.op = "Constant" then nth [n.value] k
  else if n.op = "ConstantOfShape" then nth [some (n.value.getD .float32)] k
  else if n.op = "CategoryMapper" then
    nth [match nth ins 0 with | some .string => some .int64 | some .int64 => some .string | _ => none] k
  else none

/-- float types of ReduceL2 (it also takes integers) -/
def isFloat (t : DType) : Bool := t = .float32 ∨ t = .float16 ∨ t = .float64

/-- what ONNX requires of a node, where it matters: the number of inputs of the quantized operators, a scale is a float and a zero point an 8 bit integer,
Round takes floats, an operator with a fixed number of outputs has no more of them -/
structure Legal (n : TNode) (ins : List Known) : Prop where
  round : n.op = "Round" → ∀ t, nth ins 0 = some t → t ≠ .bool
  conv : n.op = "QLinearConv" → (ins.length = 8 ∨ ins.length = 9) ∧ ∀ s z, nth ins 6 = some s → nth ins 7 = some z → s ≠ z
  scales : n.op = "QLinearConv" → ∃ s, nth ins 6 = some s
  matmul : n.op = "QLinearMatMul" → ins.length = 8
  split : n.op = "Split" → 0 < n.outputs.length
  dropout : n.op = "Dropout" ∨ n.op = "TopK" → n.outputs.length ≤ 2

/-- **the nodes whose output `k` gets its right type** -/
structure Reliable (n : TNode) (ins : List Known) (k : Nat) : Prop where
  /-- Round is a subclass of Less -/
  round : n.op ≠ "Round"
  mapper : n.op ≠ "CategoryMapper"
  /-- without a bias the second input from the end is the scale -/
  conv : n.op = "QLinearConv" → ins.length = 9
  /-- only the first output is handled -/
  extra : n.op = "MaxPool" ∨ n.op = "BatchNormalization" ∨ n.op = "LayerNormalization" → k = 0
  /-- a reduction over everything, with axes left out, is skipped -/
  axes : n.op ∈ ["ReduceMax", "ReduceMean", "ReduceMin", "ReduceProd", "ReduceSum"] → n.hasAxes = true
  pieces : n.op = "Split" → k < n.pieces
  /-- the types without numpy counterpart in the table -/
  cast : n.op = "Cast" → ∀ t, n.castTo.bind typeWithCode = some t → t ≠ .uint32 ∧ t ≠ .uint64 ∧ t ≠ .bfloat16
  like : n.op = "RandomUniformLike" ∨ n.op = "RandomNormalLike" → ∀ c t, n.likeType = some c → typeWithCode c = some t → t ≠ .uint32 ∧ t ≠ .uint64 ∧ t ≠ .bfloat16
  /-- integers become float64 -/
  l2 : n.op = "ReduceL2" → ∀ t, nth ins 0 = some t → isFloat t = true
end OnnxTool.DTypes
