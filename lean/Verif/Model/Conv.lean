import Verif.Model.Broadcast
/-!
# Convolution and pooling shapes

Models `_conv_output_shape` .. `_pooling_shape_calc` (`/repo/onnx_tool/node.py` 47-67), `ConvNode.shape_infer` (2143-2181),
`PoolBase.shape_infer` (1399-1444) and `ConvTransposeNode.shape_infer` (2686-2722).

Python's `/` on integers is modelled as exact division (the float quotient has the same integer part as long as all
quantities are below 2^52).
-/
namespace OnnxTool.Conv
open OnnxTool

/-- `xs[i]` on a list (IndexError when out of range) -/
def idx (xs : List Int) (i : Nat) : Except PyErr Int :=
  match xs[i]? with
  | some v => .ok v
  | none => .error .indexError

/-- `math.ceil(a / b)` for integers (`b ≠ 0`) -/
def ceilDiv (a b : Int) : Int := -(Int.fdiv (-a) b)

/-- `_conv_output_shape` (47-48): `int(q + 1)` truncates towards zero. -/
def convOut (xin pad ksize stride dil : Int) : Except PyErr Int :=
  if stride = 0 then .error .zeroDivision
  else .ok (Int.tdiv (xin + pad - dil * (ksize - 1) - 1 + stride) stride)

/-- `_convtranspose_output_shape` (51-52) -/
def convTransOut (xin outPad pad ksize stride dil : Int) : Int :=
  stride * (xin - 1) + outPad + ((ksize - 1) * dil + 1) - pad

/-- `_auto_pad_valid_shape_calc` (55-56) -/
def autoValid (x ksize stride : Int) : Except PyErr Int :=
  if stride = 0 then .error .zeroDivision else .ok (ceilDiv (x - ksize + 1) stride)

/-- `_auto_pad_same_shape_calc` (59-60) -/
def autoSame (x stride : Int) : Except PyErr Int :=
  if stride = 0 then .error .zeroDivision else .ok (ceilDiv x stride)

/-- `_pooling_shape_calc` (63-67) -/
def poolOut (xin pad k dil stride : Int) (ceilMode : Bool) : Except PyErr Int :=
  if stride = 0 then .error .zeroDivision
  else
    let a := xin + pad - ((k - 1) * dil + 1) + stride
    .ok (if ceilMode then ceilDiv a stride else Int.fdiv a stride)

/-- the attribute `auto_pad` (`none` = `None` or `NOTSET`) -/
inductive AutoPad where
  | same | valid | other
  deriving DecidableEq, Repr

/-- attributes of Conv / ConvTranspose / pooling nodes -/
structure Attrs where
  autoPad : Option AutoPad := none
  pads : List Int := [0, 0, 0, 0, 0, 0]
  strides : List Int := [1, 1, 1]
  dilations : List Int := [1, 1, 1]
  kernel : List Int := [3, 3]
  ceilMode : Bool := false
  group : Int := 1
  outputPadding : List Int := [0, 0, 0, 0]
  outputShape : List Int := [0, 0]

/-- one explicitly padded spatial axis of Conv: axis `i` of `d`, pads `b` and `e` -/
def convAxis (a : Attrs) (x w : List Int) (i b e : Nat) : Except PyErr Int := do
  convOut (← idx x (i + 2)) ((← idx a.pads b) + (← idx a.pads e)) (← idx w (i + 2)) (← idx a.strides i) (← idx a.dilations i)

/-- `ConvNode.shape_infer` (2143-2181). -/
def convShape (a : Attrs) (x w : List Int) : Except PyErr (List Int) :=
  match a.autoPad with
  | some .same => do
    let s := [← idx x 0, ← idx w 0, ← autoSame (← idx x 2) (← idx a.strides 0)]
    if x.length = 4 then return s ++ [← autoSame (← idx x 3) (← idx a.strides 1)] else return s
  | some .valid => do
    let s := [← idx x 0, ← idx w 0, ← autoValid (← idx x 2) (← idx w 2) (← idx a.strides 0)]
    if x.length = 4 then return s ++ [← autoValid (← idx x 3) (← idx w 3) (← idx a.strides 1)] else return s
  | some .other => .error .assertion
  | none =>
    if x.length = 5 then do
      return [← idx x 0, ← idx w 0, ← convAxis a x w 0 0 3, ← convAxis a x w 1 1 4, ← convAxis a x w 2 2 5]
    else if x.length = 4 then do
      return [← idx x 0, ← idx w 0, ← convAxis a x w 0 0 2, ← convAxis a x w 1 1 3]
    else if x.length = 3 then do
      return [← idx x 0, ← idx w 0, ← convAxis a x w 0 0 1]
    else .ok []

/-- one explicitly padded spatial axis of a pooling node; `di` is the index used for `dilations` -/
def poolAxis (a : Attrs) (x : List Int) (i b e di : Nat) : Except PyErr Int := do
  poolOut (← idx x (i + 2)) ((← idx a.pads b) + (← idx a.pads e)) (← idx a.kernel i) (← idx a.dilations di)
    (← idx a.strides i) a.ceilMode

/-- `PoolBase.shape_infer` (1399-1444), the explicit-padding branch (1412-1441); other kernel ranks leave `outshape`
unbound (UnboundLocalError, written `runtimeError`). -/
def poolShape (a : Attrs) (x : List Int) : Except PyErr (List Int) :=
  match a.autoPad with
  | none =>
    match a.kernel.length with
    | 1 => do return x.take 2 ++ [← poolAxis a x 0 0 1 0]
    | 2 => do return x.take 2 ++ [← poolAxis a x 0 0 2 0, ← poolAxis a x 1 1 3 1]
    | 3 => do return x.take 2 ++ [← poolAxis a x 0 0 0 0, ← poolAxis a x 1 1 1 1, ← poolAxis a x 2 2 2 1]
    | _ => .error .runtimeError
  | some .same => do
    let s := x.take 2 ++ [← autoSame (← idx x 2) (← idx a.strides 0)]
    if a.strides.length = 2 then return s ++ [← autoSame (← idx x 3) (← idx a.strides 1)] else return s
  | some .valid => do
    let s := x.take 2 ++ [← autoValid (← idx x 2) (← idx a.kernel 0) (← idx a.strides 0)]
    if a.strides.length = 2 then return s ++ [← autoValid (← idx x 3) (← idx a.kernel 1) (← idx a.strides 1)] else return s
  | some .other => .ok (x.take 2)

/-- one spatial axis of ConvTranspose -/
def convTransAxis (a : Attrs) (x w : List Int) (i b e : Nat) : Except PyErr Int := do
  return convTransOut (← idx x (i + 2)) (← idx a.outputPadding i) ((← idx a.pads b) + (← idx a.pads e)) (← idx w (i + 2))
    (← idx a.strides i) (← idx a.dilations i)

/-- `volume(self.output_shape) != 0` on integers -/
def volumeInt (s : List Int) : Int := s.foldl (fun v d => v * d) (if s.length > 0 then 1 else 0)

/-- `ConvTransposeNode.shape_infer` (2686-2722). -/
def convTransShape (a : Attrs) (x w : List Int) : Except PyErr (List Int) := do
  let outc := a.group * (← idx w 1)
  if x.length = 5 then
    let sp := [← convTransAxis a x w 0 0 3, ← convTransAxis a x w 1 1 4, ← convTransAxis a x w 2 2 5]
    return [← idx x 0, outc] ++ (if volumeInt a.outputShape ≠ 0 then a.outputShape else sp)
  else if x.length = 4 then
    let sp := [← convTransAxis a x w 0 0 2, ← convTransAxis a x w 1 1 3]
    return [← idx x 0, outc] ++ (if volumeInt a.outputShape ≠ 0 then a.outputShape else sp)
  else if x.length = 3 then
    let sp ← convTransAxis a x w 0 0 1
    if volumeInt a.outputShape ≠ 0 then return [← idx x 0, outc, ← idx a.outputShape 0]
    else return [← idx x 0, outc, sp]
  else return []

end OnnxTool.Conv
