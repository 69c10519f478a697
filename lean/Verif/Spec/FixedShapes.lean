import Verif.Model.ShapeEngine
/-!
# What Scan, ZipMap and GeGelu deliver
-/
namespace OnnxTool.FixedShapes
open OnnxTool OnnxTool.Engine

/-- ONNX Scan: the final states have the shapes of the initial states; a scan output stacks, along a new first axis, what each of the `length` steps delivers. -/
def scanShapes (states : List (List Dim)) (length : Dim) (perStep : List (List Dim)) : List (List Dim) := states ++ perStep.map (length :: ·)

/-- ONNX ZipMap: one map for each row of a matrix, one map for a vector -/
def mapsOf : List Dim → Option Dim
  | [rows, _] => some rows
  | [_] => some (.num 1)
  | _ => none

/-- GeGLU: the last axis is cut in two equal halves, one gates the other -/
def HalfOf (s out : List Dim) : Prop := ∃ (front : List Dim) (h : Int), s = front ++ [.num (2 * h)] ∧ out = front ++ [.num h]

end OnnxTool.FixedShapes
