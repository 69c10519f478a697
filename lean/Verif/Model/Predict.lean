import Verif.Model.Broadcast
import Verif.Model.ValueConv
import Verif.Model.ValueMove
/-!
# Shape inference of the operators not yet modelled, and shape inference by value inference (`/repo/onnx_tool/node.py`)

`Node.shape_infer` (209-210) of an operator without a method of its own runs `value_infer`; operands without a value are read as zeros of the known
shape (`Tensor.get_numpy`, `tensor.py` 436-441).  Data types are left out.
-/
namespace OnnxTool.Values
open OnnxTool OnnxTool.Torch

variable {V : Type}

/-- what `get_numpy` (`tensor.py` 436-441) makes up for a tensor without a value -/
def zerosOf [Zero V] (s : List Nat) : Tensor V := ⟨s, fun _ => 0⟩

/-- the shape of a computed value -/
def shapeOf (r : Except PyErr (Tensor V)) : Except PyErr (List Nat) :=
  match r with
  | .error e => .error e
  | .ok y => .ok y.shape

/-- `GlobalAveragePoolNode.shape_infer` (1504-1510) -/
def globalAveragePoolShape (x : List Nat) : List Nat := x.take 2 ++ List.replicate (x.length - 2) 1

/-- `GatherNDNode.shape_infer` (2422-2454), `batch_dims` is 0 -/
def gatherNDShape (x ids : List Nat) : Except PyErr (List Nat) :=
  match ids.reverse with
  | [] => .error .indexError
  | q :: rest => if q ≤ x.length then (if q = x.length then .ok rest.reverse else .ok (rest.reverse ++ x.drop q)) else .error .assertion

/-- `GatherElementsNode.shape_infer` (2784-2786) -/
def gatherElementsShape (_x ids : List Nat) : List Nat := ids

/-- `ScatterNDNode.shape_infer` (2409-2411); also `FusedBase.shape_infer` (237-239), `CastNode` (2859-2861), `DropoutNode` (1494-1496) -/
def firstShape (x : List Nat) (_others : List (List Nat)) : List Nat := x

/-- `ConstantOfShapeNode.shape_infer` (2843-2848): the value of the operand -/
def constantOfShapeShape (shape : List Int) : List Int := shape

end OnnxTool.Values
