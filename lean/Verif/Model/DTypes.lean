import Verif.Model.Py
/-!
# What shape inference says about element types

Models the `update_dtype` (and, for nodes without a `shape_infer`, the type of the array handed to `update_tensor`) of every registered node class of
`/repo/onnx_tool/node.py` 236-3232, `onnxdtype2npdtype` (`/repo/onnx_tool/tensor.py` 37-59) and the loop of `Graph.shape_infer` (`/repo/onnx_tool/graph.py` 1036-1051).

Simplified: shapes and values are left out, a shape computation that raises is the flag `shapeFails`; an array read by a node has the type its tensor reports
(`C97`); a node marked `shape_calc` runs `value_infer`, whose types are a parameter.
-/
namespace OnnxTool.DTypes
open OnnxTool

/-- element types of ONNX tensors -/
inductive DType where
  | float32 | uint8 | int8 | uint16 | int16 | int32 | int64 | string | bool | float16 | float64 | uint32 | uint64 | bfloat16
  deriving DecidableEq, Repr

/-- `Tensor.dtype`: a numpy type, or Python's `None` -/
abbrev Known := Option DType

/-- `onnxdtype2npdtype` (tensor.py 37-59): unsigned 32 and 64 bit, bfloat16 and everything else fall through to `None` -/
def ofCode : Nat → Known
  | 1 => some .float32
  | 11 => some .float64
  | 10 => some .float16
  | 6 => some .int32
  | 5 => some .int16
  | 7 => some .int64
  | 3 => some .int8
  | 2 => some .uint8
  | 4 => some .uint16
  | 9 => some .bool
  | 8 => some .string
  | _ => none

/-- the attributes of a node that its types depend on -/
structure TNode where
  op : String
  inputs : List String
  outputs : List String
  /-- attribute `to` of Cast -/
  castTo : Option Nat := none
  /-- attribute `dtype` of RandomUniformLike / RandomNormalLike -/
  likeType : Option Nat := none
  /-- element type of the attribute `value` of Constant / ConstantOfShape -/
  value : Option DType := none
  /-- a reduction is told its axes, by attribute or by second input (`axes is not None`) -/
  hasAxes : Bool := true
  /-- number of pieces of Split: `len(split)` (2924-2938) -/
  pieces : Nat := 1
  /-- NonMaxSuppression has at least three inputs, RoiAlign a rank-4 input, …: the shape computation raises -/
  shapeFails : Bool := false
  /-- `shape_calc`: the node's values are computed -/
  shapeCalc : Bool := false

/-- how a class sets the types of its outputs -/
inductive Rule where
  /-- `outtensors[0].update_dtype(intensors[k].dtype)` -/
  | input (k : Nat)
  /-- `outtensors[0].update_dtype(intensors[-k].dtype)` -/
  | fromEnd (k : Nat)
  /-- `outtensors[0].update_dtype(t)` -/
  | const (t : DType)
  /-- ReduceMean and its subclasses (1914-1933): nothing at all without axes -/
  | reduce
  /-- ReduceL2 (2241-2244): the type of `numpy.sqrt(numpy.sum(x * x))` -/
  | sqrtSum
  /-- Split (2924-2956): every piece -/
  | split
  /-- LSTM (2087-2103) -/
  | lstm
  /-- GRU (2802-2812): always two outputs -/
  | gru
  /-- TopK (2010-2027) and Dropout (1494-1499): a second output, if there are exactly two, of the given type -/
  | second (t : DType)
  /-- Scan (2037-2053): five outputs, all of the type of input 3 -/
  | scan
  /-- Constant (1031-1033) -/
  | constant
  /-- ConstantOfShape (2843-2848) -/
  | constantOfShape
  /-- Cast (2859-2861) -/
  | cast
  /-- RandomUniformLike, RandomNormalLike (2472-2477) -/
  | like
  deriving DecidableEq

/-- Sub … Ceil: `NpMathBase.shape_infer` (273-280) -/
def npMath : List String := ["Sub", "Add", "Min", "Max", "Neg", "Div", "Mod", "Mul", "Abs", "Ceil"]

/-- the classes that inherit `PWNode.shape_infer` (254-259) -/
def pointwise : List String :=
  ["Exp", "Softmax", "Softplus", "Log", "ImageScaler", "InstanceNormalization", "LpNormalization", "Sqrt", "Sin", "Cos", "Sigmoid", "Tanh", "LogSoftmax",
   "Atan", "Sign", "HardSigmoid", "HardSwish", "Relu", "Elu", "Silu", "Gelu", "LogitSoftCapping", "PRelu", "LeakyRelu", "Sum", "LRN", "Clip", "Reciprocal",
   "Relu6", "Hardmax", "CategoryMapper", "CumSum"]

/-- the classes that inherit `FusedBase.shape_infer` (237-239) -/
def fusedBase : List String := ["Trilu", "Identity", "Erf", "BatchNormalization", "Floor"]

/-- the classes with a `shape_infer` of their own that ends with `outtensors[0].update_dtype(intensors[0].dtype)`: Pow 481, GeGelu 658, Rope 671,
Transpose 840, Gemm/MatMul 863, Gather 955, Concat 1041, GridSample 1062, DepthToSpace 1074, Einsum 1143, Unsqueeze 1269, Squeeze 1305, Resize/Upsample 1339,
AveragePool/MaxPool 1399, GlobalAveragePool 1504, Expand 1537, Pad 1575, ArrayFeatureExtractor 1693, ZipMap 1700, Slice 1711, Conv 2143, RoiAlign 2307,
ScatterElements 2327, ScatterND 2409, GatherND 2422, LayerNormalization 2521, ConvTranspose 2686, Reshape 2740, GatherElements 2784, SDPA/GQA/MQA 2872,
GDN 3022, MoE 3117, MLA 3230; and the arrays of Tile 942, Flatten 1658, Compress 2062, Range 524 -/
def own : List String :=
  ["Pow", "GeGelu", "Rope", "Transpose", "Gemm", "MatMul", "Gather", "Concat", "GridSample", "DepthToSpace", "Einsum", "Unsqueeze", "Squeeze", "Resize",
   "Upsample", "AveragePool", "MaxPool", "GlobalAveragePool", "Expand", "Pad", "ArrayFeatureExtractor", "ZipMap", "Slice", "Conv", "RoiAlign",
   "ScatterElements", "ScatterND", "GatherND", "LayerNormalization", "ConvTranspose", "Reshape", "GatherElements", "SDPA", "GQA", "MQA", "GDN", "MoE", "MLA",
   "Tile", "Flatten", "Compress", "Range"]

/-- `LessNode.shape_infer` (764-768) and its subclasses -/
def lessNodes : List String := ["Less", "LessOrEqual", "Round", "Not", "And", "Or", "Xor"]

/-- comparisons without a `shape_infer`: the array is of type bool (2284-2286, 2487-2499) -/
def comparisons : List String := ["Equal", "Greater", "GreaterOrEqual"]

/-- Shape 1332-1334, ArgMax 1671-1688, NonZero 2270-2276, NonMaxSuppression 734-746 -/
def int64s : List String := ["Shape", "ArgMax", "NonZero", "NonMaxSuppression"]

/-- ReduceMean, ReduceProd, ReduceSum, ReduceMin, ReduceMax (1908-2001) -/
def reductions : List String := ["ReduceMean", "ReduceProd", "ReduceSum", "ReduceMin", "ReduceMax"]

/-- the class a registered operator gets; `none`: not registered -/
def ruleOf (op : String) : Option Rule :=
  if op ∈ npMath ∨ op ∈ pointwise ∨ op ∈ fusedBase ∨ op ∈ own then some (.input 0)
  else if op ∈ lessNodes ∨ op ∈ comparisons then some (.const .bool)
  else if op ∈ int64s then some (.const .int64)
  else if op ∈ reductions then some .reduce
  else if op = "ReduceL2" then some .sqrtSum
  else if op = "Where" ∨ op = "DequantizeLinear" then some (.input 1)
  else if op = "OneHot" ∨ op = "QuantizeLinear" then some (.input 2)
  else if op = "QLinearMatMul" then some (.fromEnd 1)
  else if op = "QLinearConv" then some (.fromEnd 2)
  else if op = "MatMulInteger" ∨ op = "ConvInteger" then some (.const .int32)
  else if op = "Split" then some .split
  else if op = "LSTM" then some .lstm
  else if op = "GRU" then some .gru
  else if op = "TopK" then some (.second .int64)
  else if op = "Dropout" then some (.second .bool)
  else if op = "Scan" then some .scan
  else if op = "Constant" then some .constant
  else if op = "ConstantOfShape" then some .constantOfShape
  else if op = "Cast" then some .cast
  else if op = "RandomUniformLike" ∨ op = "RandomNormalLike" then some .like
  else none

/-- `intensors[k].dtype` -/
def inputAt (ins : List Known) (k : Nat) : Except PyErr Known :=
  match ins[k]? with
  | some t => .ok t
  | none => .error .indexError

/-- `intensors[-k].dtype` -/
def inputFromEnd (ins : List Known) (k : Nat) : Except PyErr Known :=
  if k ≤ ins.length then inputAt ins (ins.length - k) else .error .indexError

/-- the type of `numpy.sqrt(numpy.sum(x * x))`: floats stay, integers become float64 -/
def npSqrtSum : DType → DType
  | .float32 => .float32
  | .float16 => .float16
  | _ => .float64

/-- the first outputs get the given types, in order; `IndexError` if there are fewer outputs -/
def give (nout : Nat) (ts : List Known) : Except PyErr (List Known) :=
  if ts.length ≤ nout then .ok ts else .error .indexError

/-- what a rule gives the first outputs (the others keep what they had) -/
def runRule (n : TNode) (ins : List Known) (nout : Nat) : Rule → Except PyErr (List Known)
  | .input k => match inputAt ins k with
    | .ok t => give nout [t]
    | .error e => .error e
  | .fromEnd k => match inputFromEnd ins k with
    | .ok t => give nout [t]
    | .error e => .error e
  | .const t => give nout [some t]
  | .reduce => if n.hasAxes then match inputAt ins 0 with
      | .ok t => give nout [t]
      | .error e => .error e
    else .ok []
  | .sqrtSum => match inputAt ins 0 with
    | .ok t => give nout [t.map npSqrtSum]
    | .error e => .error e
  | .split => match inputAt ins 0 with
    | .ok t => give nout (List.replicate n.pieces t)
    | .error e => .error e
  | .lstm => match inputAt ins 0 with
    | .ok t => give nout (List.replicate (if 2 < nout then 3 else if 1 < nout then 2 else 1) t)
    | .error e => .error e
  | .gru => match inputAt ins 0 with
    | .ok t => give nout [t, t]
    | .error e => .error e
  | .second s => match inputAt ins 0 with
    | .ok t => if nout = 2 then .ok [t, some s] else give nout [t]
    | .error e => .error e
  | .scan => match inputAt ins 3 with
    | .ok t => give nout (List.replicate 5 t)
    | .error e => .error e
  | .constant => match n.value with
    | some t => give nout [some t]
    | none => .error .attributeError
  | .constantOfShape => give nout [some (n.value.getD .float32)]
  | .cast => match n.castTo with
    | some c => give nout [ofCode c]
    | none => .error .attributeError
  | .like => match n.likeType with
    | some c => give nout [ofCode c]
    | none => match inputAt ins 0 with
      | .ok t => give nout [t]
      | .error e => .error e

/-- `node.shape_infer(itensors, otensors)`: the types of the outputs it sets -/
def effects (n : TNode) (ins : List Known) : Except PyErr (List Known) :=
  if n.shapeFails then .error .valueError
  else match ruleOf n.op with
    | some r => runRule n ins n.outputs.length r
    | none => .error .notImplemented

/-- the types of the tensors, by name -/
abbrev Types := String → Known

/-- one `update_dtype` -/
def put (env : Types) (o : String) (t : Known) : Types := fun x => if x = o then t else env x

/-- the updates of a node, in order -/
def assign : List String → List Known → Types → Types
  | o :: os, t :: ts, env => assign os ts (put env o t)
  | _, _, env => env

/-- the body of the loop of `Graph.shape_infer` (1036-1051); `values` gives the types of `value_infer` -/
def step (values : TNode → List Known → Except PyErr (List Known)) (n : TNode) (env : Types) : Except PyErr Types :=
  match (if n.shapeCalc then values n (n.inputs.map env) else effects n (n.inputs.map env)) with
  | .ok ts => .ok (assign n.outputs ts env)
  | .error _ => .error .valueError

/-- the loop of `Graph.shape_infer` (1036-1051) -/
def inferTypes (values : TNode → List Known → Except PyErr (List Known)) : List TNode → Types → Except PyErr Types
  | [], env => .ok env
  | n :: rest, env => match step values n env with
    | .ok e => inferTypes values rest e
    | .error e => .error e

/-- `numpy_dtype2bytes` (tensor.py 238-239 via `Tensor.get_elementsize` 453-456): `numpy.dtype(None)` is float64 -/
def bytes : Known → Nat
  | some .float32 | some .int32 | some .uint32 => 4
  | some .float16 | some .int16 | some .uint16 | some .bfloat16 => 2
  | some .uint8 | some .int8 | some .bool => 1
  | some .string => 0
  | some .float64 | some .int64 | some .uint64 | none => 8
end OnnxTool.DTypes
