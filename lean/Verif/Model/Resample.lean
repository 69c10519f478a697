import Verif.Model.Macs
import Verif.Model.Slice
/-!
# Shape inference of selecting, resampling and recurrent operators (`/repo/onnx_tool/node.py`)

TopK (2005-2027), Resize / Upsample (1338-1364, 1383-1384), DepthToSpace (1070-1078), GridSample (1058-1066), RoiAlign (2303-2319), NonMaxSuppression (733-746),
ArrayFeatureExtractor (1692-1695), LSTM (2080-2130) and GRU (2800-2834) with their cost.

Simplified: dimensions, sizes and counts are natural numbers, scales are exact rationals; data types are left out.  The values of tensors that have none are made up by
`get_numpy` (see `Model/Predict`).
-/
namespace OnnxTool.Resample
open OnnxTool OnnxTool.Shape OnnxTool.Slice OnnxTool.Macs

/-- `TopKNode.shape_infer` (2010-2027): `axis` is `self.axis`, `None` if the node has no such attribute; returns the new `self.axis` and the shape of both outputs -/
def topkShape (axis : Option Int) (x : List Nat) (k : Nat) : Except PyErr (Option Int × List Nat) :=
  match (if x.length = 1 ∧ axis = none then some 0 else axis) with
  | none => .error .typeError
  | some a => .ok (some a, x.mapIdx fun i d => if [(i : Int)] = axesNeg2Pos x.length [a] then k else d)

/-- `a + b` of a list and a one-dimensional array (numpy broadcasting) with two elements -/
def addTwo : List Nat → Nat × Nat → Except PyErr (List Nat)
  | [a], (s, t) => .ok [a + s, a + t]
  | [a, b], (s, t) => .ok [a + s, b + t]
  | _, _ => .error .valueError

/-- line 1352-1356: the shape when there is a `sizes` array -/
def resizeBySizes (x sizes : List Nat) : Except PyErr (List Nat) :=
  match sizes with
  | [s, t] => addTwo (x.take 2) (s, t)
  | _ => .ok (if sizes.length = x.length then sizes else [])

/-- `ResizeNode.shape_infer` (1339-1364), `UpsampleNode` inherits it; `nin` is the number of inputs, `scales` and `sizes` the values of the operands of these names — empty if
there is none.  (The error for one input is `UnboundLocalError`.) -/
def resizeShape (nin : Nat) (x : List Nat) (scales : List Rat) (sizes : List Nat) : Except PyErr (List Nat) :=
  if 4 ≤ nin ∧ sizes ≠ [] then resizeBySizes x sizes
  else if nin ≤ 1 then .error .runtimeError
  else .ok (List.zipWith (fun (d : Nat) s => ((d : Rat) * s).floor.toNat) x scales)

/-- `DepthToSpaceNode.shape_infer` (1074-1078); `b` is the attribute `blocksize` -/
def depthToSpaceShape (b : Nat) (x : List Nat) : Except PyErr (List Nat) :=
  match x with
  | [n, c, h, w] => if b = 0 then .error .zeroDivision else .ok [n, c / (b * b), h * b, w * b]
  | _ => .error .valueError

/-- a Python sequence: a list, or a tuple (the shape of an array) -/
structure Seq where
  tuple : Bool
  dims : List Nat
  deriving DecidableEq, Repr

/-- `GridSampleNode.shape_infer` (1062-1066): adding a list and a tuple is a `TypeError` -/
def gridSampleShape (x grid : Seq) : Except PyErr Seq :=
  match grid.dims.getLast? with
  | none => .error .indexError
  | some r => if x.tuple = grid.tuple then .ok ⟨x.tuple, x.dims.take 2 ++ (grid.dims.drop 1).take r⟩ else .error .typeError

/-- `RoiAlignNode.shape_infer` (2307-2319); the attributes are `none` if the node has none (`AttributeError`: there is no default) -/
def roiAlignShape (height width : Option Nat) (x rois batch : List Nat) : Except PyErr (List Nat) :=
  match rois, batch with
  | n :: four :: _, m :: _ =>
    if four ≠ 4 ∨ m ≠ n then .error .assertion
    else
      match x with
      | [_, c, _, _] =>
        match height, width with
        | some h, some w => .ok [n, c, h, w]
        | _, _ => .error .attributeError
      | _ => .error .notImplemented
  | _, _ => .error .indexError

/-- `NonMaxSuppressionNode.shape_infer` (734-746); `maxOut` is the value of the third operand, `none` if there is none -/
def nmsShape (boxes scores : List Nat) (maxOut : Option Nat) : Except PyErr (List Nat) :=
  match maxOut with
  | none => .error .notImplemented
  | some m =>
    match boxes[0]?, boxes[1]?, scores[0]?, scores[2]? with
    | some b0, some b1, some s0, some s2 => if b1 = s2 ∧ b0 = s0 then .ok [min m (volume boxes.dropLast), 3] else .error .assertion
    | _, _, _, _ => .error .indexError

/-- `ArrayFeatureExtractorNode.shape_infer` (1693-1695) -/
def arrayFeatureShape (_x ids : List Nat) : List Nat := ids

/-- `LSTMNode.shape_infer` (2087-2104); `hidden` is the attribute `hidden_size`, `nout` the number of outputs -/
def lstmShape (hidden : Option Nat) (nout : Nat) (x w : List Nat) : Except PyErr (List (List Nat)) :=
  match x[0]?, x[1]?, w[0]?, w[1]? with
  | some seq, some batch, some dirs, some gates =>
    if hidden ≠ none ∧ hidden ≠ some (gates / 4) then .error .assertion
    else .ok ([[seq, dirs, batch, gates / 4]] ++ (if nout > 1 then [[dirs, batch, gates / 4]] else []) ++ (if nout > 2 then [[dirs, batch, gates / 4]] else []))
  | _, _, _, _ => .error .indexError

/-- `GRUNode.shape_infer` (2802-2812): the second output is updated whether there is one or not -/
def gruShape (nout : Nat) (x w : List Nat) : Except PyErr (List (List Nat)) :=
  match x[0]?, x[1]?, w[0]?, w[1]? with
  | some seq, some batch, some dirs, some gates => if nout ≤ 1 then .error .indexError else .ok [[seq, dirs, batch, gates / 3], [dirs, batch, gates / 3]]
  | _, _, _, _ => .error .indexError

/-- `TANH_MACS` (30) -/
def TANH : Nat := EXP + 2 * ADD + DIV

/-- `LSTMNode._profile_core` (2106-2130); `b` is the shape of the fourth operand, `none` if there are only three -/
def lstmMacs (hidden : Option Nat) (x w r : List Nat) (b : Option (List Nat)) : Except PyErr Nat :=
  match b, x[0]?, x[1]?, w[0]?, w[1]? with
  | some b, some seq, some batch, some _, some gates =>
    if hidden ≠ none ∧ hidden ≠ some (gates / 4) then .error .assertion
    else
      let ht := volume [batch, seq, gates / 4]
      .ok ((volume w + volume r) * batch * seq + volume b * ADD * batch * seq + ht * EXP * 3 + ht * TANH * 2 + ht * (ADD + MUL + MUL + MUL) + ht * ADD * 4)
  | _, _, _, _, _ => .error .indexError

/-- `GRUNode._profile_core` (2814-2834) -/
def gruMacs (x w r : List Nat) (b : Option (List Nat)) : Except PyErr Nat :=
  match b, x[0]?, x[1]?, w[1]? with
  | some b, some seq, some batch, some gates =>
    let ht := volume [batch, seq, gates / 3]
    .ok ((volume w + volume r) * batch * seq + volume b * ADD * batch * seq + ht * ADD * 3 + ht * EXP * 2 + ht * TANH + ht * (ADD + MUL + MUL + ADD + MUL))
  | _, _, _, _ => .error .indexError

/-- `ResizeNode._profile_core` (1366-1377); `mode` is `none` if the node has no such attribute (`AttributeError`: there is no default) -/
def resizeMacs (mode : Option String) (y : List Nat) : Except PyErr Nat :=
  match mode with
  | none => .error .attributeError
  | some m => .ok (if m = "nearest" then 0 else if m = "linear" then volume y * 4 else if m = "cubic" then volume y * 8 else volume y)

end OnnxTool.Resample
