import Verif.Model.Conv
import Verif.Model.MacsOps
/-!
# Shapes of the quantized operators

Models `QLinearConvNode.shape_infer` (`/repo/onnx_tool/node.py` 2591-2612), `ConvIntegerNode.shape_infer` (2635-2656, the same text with the weight as second input),
`QLinearMatMulNode.shape_infer` (2560-2576) and `MatMulIntegerNode.shape_infer` (2548-2550). Element types are in `Model/DTypes`, costs in `Model/MacsOps`.
-/
namespace OnnxTool.QuantOps
open OnnxTool OnnxTool.Conv OnnxTool.Shape

/-- `shape = […, …, ceil(x / stride)]` and, for rank 4, another axis (2595-2599, 2639-2643) -/
def sameSizes (a : Attrs) (x w : List Int) : Except PyErr (List Int) := do
  let s := [← idx x 0, ← idx w 0, ← autoSame (← idx x 2) (← idx a.strides 0)]
  if x.length = 4 then return s ++ [← autoSame (← idx x 3) (← idx a.strides 1)] else return s

/-- `QLinearConvNode.shape_infer` (2591-2612), `ConvIntegerNode.shape_infer` (2635-2656): `x` the shape of the data, `w` of the weight. There is no branch for `VALID`, no
`else` for other values and none for three spatial axes: `shape` stays `[]`. -/
def qconvShape (a : Attrs) (x w : List Int) : Except PyErr (List Int) :=
  match a.autoPad with
  | some .same => sameSizes a x w
  | some _ => .ok []
  | none =>
    if x.length = 4 then do
      return [← idx x 0, ← idx w 0, ← convAxis a x w 0 0 2, ← convAxis a x w 1 1 3]
    else if x.length = 3 then do
      return [← idx x 0, ← idx w 0, ← convAxis a x w 0 0 1]
    else .ok []

/-- `QLinearMatMulNode.shape_infer` (2560-2576); the class is never `GemmNode`, so line 2574 runs: `xshape[:-1] + [wshape[-1]]` -/
def qmatmulShape (x w : Shp) : Except PyErr Shp :=
  match w.getLast? with
  | some n => .ok (x.dropLast ++ [n])
  | none => .error .indexError

/-- `MatMulIntegerNode.shape_infer` (2548-2550): that of `GemmNode` for another class -/
def matmulIntegerShape (a b : Shp) : Except PyErr Shp := gemmShape false false false a b
end OnnxTool.QuantOps
