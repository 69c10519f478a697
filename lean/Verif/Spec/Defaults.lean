import Verif.Model.Defaults
/-!
# ONNX's defaults

`onnx` lists, for the registered operators, the optional attributes that the tool reads and what ONNX says they are if left out (operator sets 13 to 17; `Slice` and `Pad` with
attributes: operator sets 1 and 2; `alpha` and `beta` of HardSwish are the constants of its definition; two attributes of BatchNormalization and of
RandomUniformLike are set but never read), as a function of the number `n` of axes (spatial axes for convolutions and pooling, axes of the data otherwise).  For `axes` of Squeeze and Slice
and `axis` of Compress, `none` stands for "not restricted to certain axes", for `dtype` of the random operators for "that of the input".  The `axes` of reductions are not listed:
what happens without them is in C75 and C102.
-/
namespace OnnxTool.Defaults
open OnnxTool

abbrev Entry := String × String × (Nat → AVal)

def ones (n : Nat) : AVal := .ints (List.replicate n 1)
def zeros (n : Nat) : AVal := .ints (List.replicate n 0)

/-- the optional attributes that all convolutions and poolings share -/
def spatial (op : String) : List Entry :=
  [(op, "pads", fun n => zeros (2 * n)), (op, "strides", ones), (op, "dilations", ones)]

def onnx : List Entry :=
  spatial "Conv" ++ spatial "QLinearConv" ++ spatial "ConvInteger" ++ spatial "ConvTranspose" ++ spatial "AveragePool" ++ spatial "MaxPool" ++
  [("Conv", "auto_pad", fun _ => .bytes "NOTSET"), ("Conv", "group", fun _ => .int 1),
   ("QLinearConv", "auto_pad", fun _ => .bytes "NOTSET"), ("QLinearConv", "group", fun _ => .int 1),
   ("ConvInteger", "auto_pad", fun _ => .bytes "NOTSET"), ("ConvInteger", "group", fun _ => .int 1),
   ("AveragePool", "auto_pad", fun _ => .bytes "NOTSET"), ("AveragePool", "ceil_mode", fun _ => .int 0),
   ("MaxPool", "auto_pad", fun _ => .bytes "NOTSET"), ("MaxPool", "ceil_mode", fun _ => .int 0),
   ("ConvTranspose", "output_padding", zeros), ("ConvTranspose", "group", fun _ => .int 1),
   ("HardSigmoid", "alpha", fun _ => .real 1 5), ("HardSigmoid", "beta", fun _ => .real 1 2),
   ("HardSwish", "alpha", fun _ => .real 1 6), ("HardSwish", "beta", fun _ => .real 1 2),
   ("LeakyRelu", "alpha", fun _ => .real 1 100),
   ("Elu", "alpha", fun _ => .real 1 1),
   ("Softmax", "axis", fun _ => .int (-1)),
   ("Transpose", "perm", fun n => .ints ((List.range n).reverse.map fun i : Nat => (i : Int))),
   ("Gemm", "transA", fun _ => .int 0), ("Gemm", "transB", fun _ => .int 0),
   ("Gather", "axis", fun _ => .int 0),
   ("GatherElements", "axis", fun _ => .int 0),
   ("OneHot", "axis", fun _ => .int (-1)),
   ("Trilu", "upper", fun _ => .int 1),
   ("Squeeze", "axes", fun _ => .none),
   ("Slice", "axes", fun _ => .none),
   ("Resize", "mode", fun _ => .bytes "nearest"),
   ("Upsample", "mode", fun _ => .bytes "nearest"),
   ("Pad", "mode", fun _ => .bytes "constant"), ("Pad", "value", fun _ => .int 0),
   ("BatchNormalization", "epsilon", fun _ => .real 1 100000), ("BatchNormalization", "momentum", fun _ => .real 9 10),
   ("BatchNormalization", "training_mode", fun _ => .int 0),
   ("LayerNormalization", "axis", fun _ => .int (-1)), ("LayerNormalization", "epsilon", fun _ => .real 1 100000),
   ("LayerNormalization", "stash_type", fun _ => .int 1),
   ("Flatten", "axis", fun _ => .int 1),
   ("ArgMax", "axis", fun _ => .int 0), ("ArgMax", "keepdims", fun _ => .int 1),
   ("ReduceMean", "keepdims", fun _ => .int 1), ("ReduceProd", "keepdims", fun _ => .int 1), ("ReduceSum", "keepdims", fun _ => .int 1),
   ("ReduceMin", "keepdims", fun _ => .int 1), ("ReduceMax", "keepdims", fun _ => .int 1), ("ReduceL2", "keepdims", fun _ => .int 1),
   ("TopK", "axis", fun _ => .int (-1)),
   ("Split", "axis", fun _ => .int 0),
   ("Compress", "axis", fun _ => .none),
   ("CumSum", "exclusive", fun _ => .int 0), ("CumSum", "reverse", fun _ => .int 0),
   ("RoiAlign", "output_height", fun _ => .int 1), ("RoiAlign", "output_width", fun _ => .int 1),
   ("RandomUniformLike", "high", fun _ => .real 1 1), ("RandomUniformLike", "low", fun _ => .real 0 1), ("RandomUniformLike", "dtype", fun _ => .none), ("RandomNormalLike", "dtype", fun _ => .none)]

/-- the same for a computation over `n` axes: equal; or axes that are equal counted from the front; or a list of which only a beginning is needed -/
def Means (n : Nat) (u v : AVal) : Prop :=
  u = v ∨ (∃ i j : Int, u = .int i ∧ v = .int j ∧ j < 0 ∧ i = j + n) ∨ (∃ l m : List Int, u = .ints l ∧ v = .ints m ∧ m <+: l)

/-- where leaving the attribute out does not mean ONNX's default -/
def Wrong (op k : String) (n : Nat) : Prop :=
  (op = "Softmax" ∧ k = "axis") ∨ (op = "Split" ∧ k = "axis") ∨ (op = "TopK" ∧ k = "axis" ∧ n ≠ 1) ∨ (op = "Squeeze" ∧ k = "axes") ∨ (op = "Slice" ∧ k = "axes") ∨
  (op ∈ ["Resize", "Upsample", "Pad"] ∧ k = "mode") ∨ (op = "RoiAlign" ∧ k ∈ ["output_height", "output_width"]) ∨ (op = "LayerNormalization" ∧ k = "epsilon") ∨
  (op ∈ ["AveragePool", "MaxPool", "ConvTranspose"] ∧ k ∈ ["pads", "strides", "dilations"] ∧ 2 < n) ∨
  (op ∈ ["Conv", "QLinearConv", "ConvInteger"] ∧ k ∈ ["pads", "strides", "dilations"] ∧ 3 < n) ∨
  (op = "ConvTranspose" ∧ k = "output_padding" ∧ 4 < n)

end OnnxTool.Defaults
