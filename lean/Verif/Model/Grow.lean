import Verif.Model.ShapeInfer
import Verif.Model.Regress
import Verif.Model.Conv
import Verif.Model.Broadcast
import Verif.Model.Slice
/-!
# Shape inference on generated inputs

Models one probe of `shape_regress`: `generate_input` (`/repo/onnx_tool/graph.py` 155-160) followed by `shape_infer` (1025-1058), as the function from the shapes of the described
inputs to the shapes of all tensors that `Model/Regress.lean` and `Model/RangePool.lean` take as a parameter.
-/
namespace OnnxTool.Grow
open OnnxTool OnnxTool.Engine OnnxTool.ShapeInfer OnnxTool.Regress

/-- `numpy.zeros(shape)` (159): a negative dimension is a `ValueError` -/
def zeros (s : List Int) : Except PyErr (Arr Int) :=
  if s.any fun d => decide (d < 0) then .error .valueError
  else .ok { shape := s.map Int.toNat, dtype := "float64", data := List.replicate (s.map Int.toNat).prod 0 }

/-- `generate_input` (155-160) for given shapes -/
def generated : List (String × List Int) → Except PyErr (Dict (Arr Int))
  | [] => .ok []
  | (k, s) :: rest =>
    match zeros s with
    | .error e => .error e
    | .ok a =>
      match generated rest with
      | .error e => .error e
      | .ok d => .ok ((k, a) :: d)

/-- the number in a dimension (0 for a name, which no tensor has after a successful inference) -/
def number : Dim → Int
  | .num n => n
  | .var _ => 0

/-- the shapes in the tensor map after `shape_infer(generate_input())`; `m` is the tensor map before -/
def inferShapes (run : Run Int) (g : Graph) (M : List String) (m : TMap Int) (inputs : List (String × List Int)) : Except PyErr Shapes :=
  match generated inputs with
  | .error e => .error e
  | .ok d =>
    match shapeInfer run g M d m with
    | (_, some e, _) => .error e
    | (r, none, _) => .ok fun t => (r t).shape.map number

/-! ### some nodes, for the examples -/

/-- the shapes of the operands -/
def shapesOf : List (Seen Int) → Option (List (List Nat))
  | [] => some []
  | x :: xs =>
    match concrete x.shape, shapesOf xs with
    | some s, some ss => some (s :: ss)
    | _, _ => none

/-- a node whose `shape_infer` computes the shape of its output from those of its operands -/
def byShape (f : List (List Nat) → Except PyErr (List Int)) (ins : List (Seen Int)) : Except PyErr (List (Upd Int)) :=
  match shapesOf ins with
  | none => .error .valueError
  | some ss =>
    match f ss with
    | .error e => .error e
    | .ok s => .ok [.shape (s.map Dim.num) (ins.head?.map (·.dtype))]

/-- attributes of a convolution with a 3×3 kernel that keeps the size -/
def padded : Conv.Attrs := { pads := [1, 1, 1, 1], strides := [1, 1], dilations := [1, 1] }

/-- attributes of a 2×2 pooling with stride 2 -/
def halved : Conv.Attrs := { kernel := [2, 2], pads := [0, 0, 0, 0], strides := [2, 2], dilations := [1, 1] }

/-- Conv (`/repo/onnx_tool/node.py` 2143-2181), MaxPool (1399-1444), Relu (254-259), Add (273-280) and Slice `x[-300:200]` with fixed attributes -/
def blockRun : Run Int := fun _ n ins _ =>
  match n.op with
  | "Conv" => byShape (fun ss => match ss with
      | [x, w] => Conv.convShape padded (x.map Int.ofNat) (w.map Int.ofNat)
      | _ => .error .indexError) ins
  | "MaxPool" => byShape (fun ss => match ss with
      | [x] => Conv.poolShape halved (x.map Int.ofNat)
      | _ => .error .indexError) ins
  | "Relu" => byShape (fun ss => match ss with
      | [x] => .ok (x.map Int.ofNat)
      | _ => .error .indexError) ins
  | "Add" => byShape (fun ss => (Shape.broadcastShape ss).map fun s => s.map Int.ofNat) ins
  | "Slice" => byShape (fun ss => match ss with
      | [x] => (Slice.sliceShape x [-300] [200] (some [0]) none).map fun s => s.map Int.ofNat
      | _ => .error .indexError) ins
  | _ => .error .notImplemented

end OnnxTool.Grow
