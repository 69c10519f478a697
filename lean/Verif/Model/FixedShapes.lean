import Verif.Model.ShapeEngine
/-!
# Operators whose shape inference guesses: Scan, ZipMap, GeGelu

Models `ScanNode.shape_infer`, `ZipMapNode.shape_infer` and `GeGeluNode.shape_infer` (`/repo/onnx_tool/node.py` 2037-2053, 1700-1702, 658-662).
A shape is a list of dimensions, numbers or names (`get_shape`, `/repo/onnx_tool/tensor.py` 427-434: always a fresh list).
Left out: the element types (C102).
-/
namespace OnnxTool.FixedShapes
open OnnxTool OnnxTool.Engine

/-- the argument of an `update_shape` in `ScanNode.shape_infer` (2037-2053): a literal, or `intensors[3].get_shape()` -/
inductive Source where
  | literal (s : List Int)
  | third
  deriving DecidableEq, Repr

/-- the `update_shape` calls of `ScanNode.shape_infer` (2037-2053), in order, for a node of `n` outputs; the first `if` falls through -/
def scanWrites (n : Nat) : List (Nat × Source) :=
  (if n = 2 then [(0, .third), (1, .third)] else []) ++
    [(0, .literal [1, 1]), (1, .literal [1, 1]), (2, .literal [1]), (3, .third), (4, .third)]

/-- these calls on the shapes of the outputs; each is followed by `update_dtype(intensors[3].dtype)`, which fails without a fourth operand.
What was written before an exception stays. -/
def scanRun (ins : List (List Dim)) : List (Nat × Source) → List (List Dim) → List (List Dim) × Option PyErr
  | [], outs => (outs, none)
  | (k, src) :: ws, outs =>
    if outs.length ≤ k then (outs, some .indexError)
    else match src, ins[3]? with
      | .literal s, some _ => scanRun ins ws (outs.set k (s.map Dim.num))
      | .literal s, none => (outs.set k (s.map Dim.num), some .indexError)
      | .third, some t => scanRun ins ws (outs.set k t)
      | .third, none => (outs, some .indexError)

/-- `ScanNode.shape_infer` (2037-2053): operands and old shapes of the outputs -/
def scan (ins outs : List (List Dim)) : List (List Dim) × Option PyErr := scanRun ins (scanWrites outs.length) outs

/-- `ZipMapNode.shape_infer` (1700-1702) -/
def zipMap (s : List Dim) : Except PyErr (List Dim) :=
  match s with
  | d :: _ => .ok [d]
  | [] => .error .indexError

/-- `GeGeluNode.shape_infer` (658-662): `ishape[-1] // 2`; a name has no `//` -/
def geGelu (s : List Dim) : Except PyErr (List Dim) :=
  match s.getLast? with
  | some (.num n) => .ok (s.dropLast ++ [.num (n / 2)])
  | some (.var _) => .error .typeError
  | none => .error .indexError

end OnnxTool.FixedShapes
