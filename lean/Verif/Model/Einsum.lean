import Verif.Model.Broadcast
/-!
# Einsum

Models `EinsumNode` (`/repo/onnx_tool/node.py` 1140-1260): `_parse_equation` (1145-1175), `_get_non_ellipsis_labels` (1180-1185) and
`shape_infer` (1192-1247).

Simplification: an operand with an ellipsis and fewer dimensions than letters after it would be read with negative indices; here it is an
`IndexError`.
-/
namespace OnnxTool.Einsum
open OnnxTool OnnxTool.Shape

/-- `eq.split(',')` -/
def splitComma : List Char → List (List Char)
  | [] => [[]]
  | c :: cs =>
    if c = ',' then [] :: splitComma cs
    else match splitComma cs with
      | t :: ts => (c :: t) :: ts
      | [] => [[c]]

/-- the text before and after the first `->`, if there is one -/
def splitArrow : List Char → Option (List Char × List Char)
  | '-' :: '>' :: cs => some ([], cs)
  | c :: cs => (splitArrow cs).map fun p => (c :: p.1, p.2)
  | [] => none

/-- insertion of a letter in a sorted list: `sorted` (1175) -/
def insertSorted (c : Char) : List Char → List Char
  | [] => [c]
  | d :: ds => if c.toNat ≤ d.toNat then c :: d :: ds else d :: insertSorted c ds

/-- implicit mode (1166-1175): letters occurring exactly once, sorted -/
def implicitOut (all : List Char) : List Char :=
  (all.filter fun c => c ≠ '.' && all.count c == 1).foldr insertSorted []

/-- `_parse_equation` (1145-1175): input labels and output label string.  `lhs, rhs = eq.split('->')` raises with more than one arrow. -/
def parse (eq : List Char) : Except PyErr (List (List Char) × List Char) :=
  let eq := eq.filter (· ≠ ' ')
  match splitArrow eq with
  | some (lhs, rhs) => if (splitArrow rhs).isSome then .error .valueError else .ok (splitComma lhs, rhs)
  | none => .ok (splitComma eq, implicitOut (splitComma eq).flatten)

/-- the text after the first `...`, if there is one (1177-1185) -/
def afterEllipsis : List Char → Option (List Char)
  | '.' :: '.' :: '.' :: cs => some cs
  | _ :: cs => afterEllipsis cs
  | [] => none

/-- the letter/dimension pairs of one operand (1212-1218): `IndexError` when there are fewer dimensions than letters -/
def readLabels (sh : Shp) : List Char → Nat → Except PyErr (List (Char × Nat))
  | [], _ => .ok []
  | c :: cs, i =>
    if c = '.' then readLabels sh cs (i + 1)
    else match sh[i]? with
      | none => .error .indexError
      | some d => match readLabels sh cs (i + 1) with
        | .error e => .error e
        | .ok r => .ok ((c, d) :: r)

/-- one operand (1198-1218): its ellipsis dimensions, if any, and its letter/dimension pairs -/
def operand (labels : List Char) (sh : Shp) : Except PyErr (Option Shp × List (Char × Nat)) :=
  match afterEllipsis labels with
  | some rest =>
    if sh.length < rest.length then .error .indexError
    else match readLabels sh rest (sh.length - rest.length) with
      | .error e => .error e
      | .ok r => .ok (some (sh.take (sh.length - rest.length)), r)
  | none => match readLabels sh labels 0 with
    | .error e => .error e
    | .ok r => .ok (none, r)

/-- the loop over the operands (1198-1218); more operands than terms is an `IndexError` -/
def operands : List (List Char) → List Shp → Except PyErr (List Shp × List (Char × Nat))
  | _, [] => .ok ([], [])
  | [], _ :: _ => .error .indexError
  | l :: ls, s :: ss =>
    match operand l s with
    | .error e => .error e
    | .ok (el, ps) => match operands ls ss with
      | .error e => .error e
      | .ok (els, qs) => .ok (el.toList ++ els, ps ++ qs)

/-- left-padding with ones and element-wise maximum (1221-1232) -/
def ellipsisShape (els : List Shp) : Shp :=
  let n := (els.map List.length).foldl max 0
  (List.range n).map fun i => (els.map fun d => (List.replicate (n - d.length) 1 ++ d).getD i 0).foldl max 0

/-- `max(label_to_dims[ch])`, or 1 for a letter of no operand (1238-1245) -/
def labelDim (ps : List (Char × Nat)) (c : Char) : Nat :=
  let ds := (ps.filter fun p => p.1 = c).map (·.2)
  if ds = [] then 1 else ds.foldl max 0

/-- `EinsumNode.shape_infer` (1192-1247) -/
def shapeInfer (ins : List (List Char)) (out : List Char) (shapes : List Shp) : Except PyErr Shp :=
  match operands ins shapes with
  | .error e => .error e
  | .ok (els, ps) => .ok (ellipsisShape els ++ (out.filter (· ≠ '.')).map (labelDim ps))

/-- the constructor (1141-1143) and then `shape_infer`: from the text of the equation and the shapes of the operands -/
def inferEq (eq : List Char) (shapes : List Shp) : Except PyErr Shp :=
  match parse eq with
  | .error e => .error e
  | .ok (ins, out) => shapeInfer ins out shapes

end OnnxTool.Einsum
