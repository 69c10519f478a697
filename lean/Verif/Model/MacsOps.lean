import Verif.Model.Macs
/-!
# MACs of the other operators (`/repo/onnx_tool/node.py`)

`_profile_core` of elementwise, comparing, normalising, reducing, resampling, recurrent and quantised operators.  Shapes are those `get_shape()` returns
(a fresh list, so `tshape[axis] = 1` in LayerNormalization does not touch the tensor).  Costs of Gemm, MatMul, Conv, pooling, Einsum and attention are in
`Verif.Model.Macs`.
-/
namespace OnnxTool.Macs
open OnnxTool OnnxTool.Shape

/-- node.py 26, 30, 34, 36, 37 -/
def LOG : Nat := 43
def TANHM : Nat := EXP + 2 * ADD + DIV
def ATAN : Nat := SQRT + 3 * MUL + MUL + DIV
def LINEAR : Nat := 4
def CUBIC : Nat := 8

/-- `(ratio, op_mac)` of the classes whose `_profile_core` is that of `PWNode` (261-264), `NpMathBase` (282-285) or `PowNode` (491-494).  Where the constructor
of the class sets no ratio, it is `max(1, len(self.input) - 1)` (252, 271) of the still empty list (181): 1.  `nin` is the number of inputs of the protobuf
node, which only `SumNode` uses (723). -/
def pwCost (op : String) (nin : Nat) : Option (Int × Nat) :=
  match op with
  | "Sub" => some (1, ADD) | "Add" => some (1, ADD) | "Min" => some (1, CMP) | "Max" => some (1, ADD) | "Neg" => some (1, CMP)
  | "Div" => some (1, DIV) | "Mod" => some (1, ADD) | "Mul" => some (1, MUL) | "Abs" => some (1, CMP) | "Ceil" => some (1, ADD)
  | "Exp" => some (1, EXP) | "Softmax" => some (1, EXP + DIV) | "Softplus" => some (1, EXP + ADD + LOG) | "Log" => some (1, LOG)
  | "ImageScaler" => some (1, ADD + MUL) | "InstanceNormalization" => some (1, ADD + MUL + ADD + DIV) | "LpNormalization" => some (1, EXP + ADD)
  | "Sqrt" => some (1, SQRT) | "Pow" => some (1, EXP) | "Sin" => some (1, SIN) | "Cos" => some (1, COS) | "Sigmoid" => some (1, EXP)
  | "Tanh" => some (2, TANHM) | "LogSoftmax" => some (1, EXP + DIV + ADD + LOG) | "Atan" => some (2, ATAN) | "Sign" => some (1, CMP)
  | "HardSigmoid" => some (1, MUL + ADD + CMP * 2) | "HardSwish" => some (1, MUL * 2 + ADD + CMP * 2) | "Relu" => some (1, CMP)
  | "Elu" => some (1, CMP + EXP + ADD + MUL) | "Silu" => some (1, EXP + MUL) | "Gelu" => some (1, EXP + MUL * 2)
  | "LogitSoftCapping" => some (1, TANHM + MUL + DIV) | "GeGelu" => some (1, EXP + MUL * 2) | "Rope" => some (1, COS + SIN + MUL * 2)
  | "PRelu" => some (1, CMP + MUL) | "LeakyRelu" => some (1, MUL + CMP) | "Sum" => some ((nin : Int) - 1, ADD) | "Clip" => some (1, CMP * 2)
  | "Reciprocal" => some (1, DIV) | "Relu6" => some (1, CMP * 2) | "Hardmax" => some (1, ADD) | "CategoryMapper" => some (1, 0)
  | "CumSum" => some (1, ADD) | "DequantizeLinear" => some (1, MUL + ADD) | "QuantizeLinear" => some (1, MUL + ADD)
  | _ => none

/-- cost per element of the output: `LessNode` (774-775) and its subclasses, `NonZeroNode` (2278), `EqualNode` (2288), `FloorNode` (2298), `GreaterNode` (2491-2493),
`BatchNormalizationNode` (1646-1649) -/
def outCost (op : String) : Option Nat :=
  match op with
  | "Less" => some CMP | "LessOrEqual" => some CMP | "Round" => some CMP | "Not" => some CMP | "And" => some CMP | "Or" => some CMP | "Xor" => some CMP
  | "NonZero" => some CMP | "Equal" => some CMP | "Floor" => some CMP | "Greater" => some CMP | "GreaterOrEqual" => some CMP
  | "BatchNormalization" => some (ADD + SQRT + DIV + ADD + MUL)
  | _ => none

/-- cost per element of the first input: `ReduceMeanNode` (1943-1945), `ReduceProdNode` (1958-1961), `ReduceMinNode` (1986-1989), `ReduceL2Node` (2246-2248) -/
def inCost (op : String) : Option Nat :=
  match op with
  | "ReduceMean" => some ADD | "ReduceSum" => some ADD | "ReduceProd" => some MUL | "ReduceMin" => some CMP | "ReduceMax" => some CMP
  | "ReduceL2" => some (ADD + SQRT)
  | _ => none

/-- attributes the costs depend on; an attribute that is not set makes Python raise AttributeError -/
structure CostAttrs where
  size : Option Nat := none
  mode : Option String := none
  axis : Int := -1
  hidden : Option Nat := none
  deriving Repr

/-- `LRNNode._profile_core` (754-759) -/
def lrnMacs (size : Option Nat) (y : Shp) : Except PyErr Nat :=
  match size with
  | none => .error .attributeError
  | some s => .ok (volume y * (DIV + EXP + ADD + s * MUL))

/-- `ResizeNode._profile_core` (1369-1379): a mode that is none of the three costs one unit per element -/
def resizeMacs (mode : Option String) (y : Shp) : Except PyErr Nat :=
  match mode with
  | none => .error .attributeError
  | some m => .ok (volume y * (if m = "nearest" then 0 else if m = "linear" then LINEAR else if m = "cubic" then CUBIC else 1))

/-- `GlobalAveragePoolNode._profile_core` (1526-1530) -/
def globalAvgMacs (x y : Shp) : Nat := volume x * ADD + volume y * DIV

/-- Python's `l[axis] = 1` for the axis after `_axes_neg2pos` (70-77) -/
def setOne (t : Shp) (axis : Int) : Except PyErr Shp :=
  let a := if axis < 0 then (t.length : Int) + axis else axis
  if -(t.length : Int) ≤ a ∧ a < t.length then .ok (t.set (if a < 0 then a + t.length else a).toNat 1) else .error .indexError

/-- `LayerNormalizationNode._profile_core` (2525-2531) -/
def layerNormMacs (axis : Int) (t : Shp) : Except PyErr Nat :=
  match setOne t axis with
  | .error e => .error e
  | .ok t' => .ok (volume t * (MUL * 3 + ADD * 4) + volume t' * (ADD + SQRT + DIV))

/-- `LSTMNode._profile_core` (2105-2130) -/
def lstmMacs (hidden : Option Nat) (ins : List Shp) : Except PyErr Nat :=
  match ins with
  | (seq :: batch :: _) :: (nd :: h4 :: wr) :: r :: b :: _ =>
    let h := h4 / 4
    if hidden.getD h ≠ h then .error .assertion
    else
      let ht := volume [batch, seq, h]
      .ok ((volume (nd :: h4 :: wr) + volume r) * batch * seq + volume b * ADD * batch * seq + ht * EXP * 3 + ht * TANHM * 2 + ht * (ADD + MUL + MUL + MUL) +
        ht * ADD * 4)
  | _ => .error .indexError

/-- `GRUNode._profile_core` (2814-2834) -/
def gruMacs (ins : List Shp) : Except PyErr Nat :=
  match ins with
  | (seq :: batch :: _) :: (nd :: h3 :: wr) :: r :: b :: _ =>
    let ht := volume [batch, seq, h3 / 3]
    .ok ((volume (nd :: h3 :: wr) + volume r) * batch * seq + volume b * ADD * batch * seq + ht * ADD * 3 + ht * EXP * 2 + ht * TANHM +
      ht * (ADD + MUL + MUL + ADD + MUL))
  | _ => .error .indexError

/-- `QLinearMatMulNode._profile_core` (2578-2586): `self.__class__ == GemmNode` is never true here -/
def qmatmulMacs (ins : List Shp) : Except PyErr Nat :=
  match ins with
  | x :: _ :: _ :: w :: _ => match w.getLast? with
    | none => .error .indexError
    | some n => .ok (volume x * n)
  | _ => .error .indexError

/-- the products of `QLinearConvNode._profile_core` (2620-2627) and `ConvIntegerNode._profile_core` (2664-2671) -/
def qconvProducts (w y : Shp) : Except PyErr Nat :=
  match w with
  | _ :: a :: b :: c :: _ => .ok (volume y * a * b * c)
  | [_, a, b] => .ok (volume y * a * b)
  | _ => .error .notImplemented

/-- `QLinearConvNode._profile_core` (2614-2630): the bias is the ninth input -/
def qlinearConvMacs (ins outs : List Shp) : Except PyErr Nat :=
  match outs with
  | [] => .error .indexError
  | [y] => match ins[3]? with
    | none => .error .indexError
    | some w => match qconvProducts w y with
      | .error e => .error e
      | .ok m => .ok (m + if ins.length = 9 then volume y * ADD else 0)
  | _ => .ok 0

/-- `ConvIntegerNode._profile_core` (2658-2673) -/
def convIntegerMacs (ins outs : List Shp) : Except PyErr Nat :=
  match outs with
  | [] => .error .indexError
  | [y] => match ins[1]? with
    | none => .error .indexError
    | some w => qconvProducts w y
  | _ => .ok 0

/-- the first tensor of a list; `IndexError` if there is none -/
def first (l : List Shp) : Except PyErr Shp :=
  match l with
  | [] => .error .indexError
  | s :: _ => .ok s

/-- `_profile_core` of a class with its own body that is none of the tables above -/
def ownMacs (op : String) (a : CostAttrs) (ins : List Shp) (outs : List Shp) (x y : Except PyErr Shp) : Except PyErr Int :=
  match op with
  | "LRN" => y.bind fun y => (lrnMacs a.size y).map fun n : Nat => (n : Int)
  | "Resize" => y.bind fun y => (resizeMacs a.mode y).map fun n : Nat => (n : Int)
  | "Upsample" => y.bind fun y => (resizeMacs a.mode y).map fun n : Nat => (n : Int)
  | "GlobalAveragePool" => x.bind fun x => y.bind fun y => .ok (globalAvgMacs x y : Int)
  | "LayerNormalization" => x.bind fun x => (layerNormMacs a.axis x).map fun n : Nat => (n : Int)
  | "LSTM" => (lstmMacs a.hidden ins).map fun n : Nat => (n : Int)
  | "GRU" => (gruMacs ins).map fun n : Nat => (n : Int)
  | "QLinearMatMul" => (qmatmulMacs ins).map fun n : Nat => (n : Int)
  | "QLinearConv" => (qlinearConvMacs ins outs).map fun n : Nat => (n : Int)
  | "ConvInteger" => (convIntegerMacs ins outs).map fun n : Nat => (n : Int)
  | _ => .ok 0

/-- `_profile_core` of the node `create_node` makes (3375-3382) for the operators of this file and for all operators without a cost of their own (moving data,
unregistered operators: 0) -/
def opMacs (op : String) (nin : Nat) (a : CostAttrs) (ins outs : List Shp) : Except PyErr Int :=
  match pwCost op nin with
  | some (r, m) => (first outs).map fun y => (volume y : Int) * r * m
  | none =>
    match outCost op with
    | some m => (first outs).map fun y => ((volume y * m : Nat) : Int)
    | none =>
      match inCost op with
      | some m => (first ins).map fun x => ((volume x * m : Nat) : Int)
      | none => ownMacs op a ins outs (first ins) (first outs)

end OnnxTool.Macs
