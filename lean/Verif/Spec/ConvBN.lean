import Mathlib.Algebra.Field.Defs
import Mathlib.Algebra.BigOperators.Group.List.Basic
import Verif.Model.ConvBN
import Verif.Spec.Macs
import Verif.Spec.ConstFold
/-!
# Specification: convolution, batch normalisation, value of a graph

`convSem` is any convolution-like operator: every output element is the sum, over the kernel's indices, of a weight times an input value
chosen by an arbitrary function `tap` (which encodes strides, padding, dilation and groups), plus the channel's bias.
`bnSem` is batch normalisation in inference mode as in `BatchNormalizationNode.value_infer` (`/repo/onnx_tool/node.py` 1629-1643).
-/
namespace OnnxTool.ConvBN
open OnnxTool

variable {K : Type} [Field K]

/-- `idx` is a multi-index of a tensor of this shape -/
def inBounds (shape idx : List Nat) : Bool := idx.length == shape.length && (List.zipWith (fun a b => decide (a < b)) idx shape).all id

/-- a tensor with the given elements; zero outside the shape (so that equal elements mean equal tensors) -/
def Tensor.ofFn (shape : List Nat) (f : List Nat → K) : Tensor K := ⟨shape, fun idx => if inBounds shape idx then f idx else 0⟩

/-- operator-specific data of a convolution: which input element a kernel index meets, and the output's spatial shape -/
structure Conv (K : Type) where
  tap : Tensor K → List Nat → List Nat → K
  spatial : List Nat → List Nat → List Nat

/-- convolution with weights `w` and bias `b` -/
def convSem (c : Conv K) (x w : Tensor K) (b : Nat → K) : Tensor K :=
  Tensor.ofFn (x.shape.headD 0 :: w.shape.headD 0 :: c.spatial x.shape w.shape) fun idx =>
    (((indices (w.shape.drop 1)).map fun r => w.val (idx.getD 1 0 :: r) * c.tap x idx r).sum) + b (idx.getD 1 0)

/-- batch normalisation (inference): `(y - mean) * (gamma / sqrt(var + eps)) + beta`, per channel (second index) -/
def bnSem (sqrt : K → K) (eps : K) (y gamma beta mean var : Tensor K) : Tensor K :=
  Tensor.ofFn y.shape fun idx =>
    let ch := [idx.getD 1 0]
    (y.val idx - mean.val ch) * (gamma.val ch / sqrt (var.val ch + eps)) + beta.val ch

/-- the value of each operator: convolutions and batch normalisations as above, anything else arbitrary -/
def sem (conv : String → Conv K) (sqrt : K → K) (eps : String → K) (other : Node → List (Tensor K) → Nat → Tensor K) :
    Node → List (Tensor K) → Nat → Tensor K := fun n vs k =>
  if n.op = "Conv" then
    match vs with
    | [x, w] => convSem (conv n.name) x w fun _ => 0
    | [x, w, b] => convSem (conv n.name) x w fun i => b.val [i]
    | _ => other n vs k
  else if n.op = "BatchNormalization" then
    match vs with
    | [y, g, b, m, v] => bnSem sqrt (eps n.name) y g b m v
    | _ => other n vs k
  else other n vs k

end OnnxTool.ConvBN
