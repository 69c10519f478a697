import Verif.Model.Conv
import Verif.Model.ValueMath
import Verif.Model.ValueReduce
import Mathlib.Algebra.BigOperators.Group.Finset.Basic
import Mathlib.Algebra.Field.Defs
/-!
# Value inference of MatMul, Gemm, Conv, pooling and normalisation (`/repo/onnx_tool/node.py`, methods `value_infer`)

Exact arithmetic in a field; `sqrt` and `exp` are arbitrary functions.  `Conv` and `MaxPool` write into the array the output tensor already has, so
their value depends on `old`, the value left by an earlier run.
-/
namespace OnnxTool.Values
open OnnxTool OnnxTool.Torch OnnxTool.Conv Finset

section
variable {F : Type} [Field F]

/-! ### numpy -/

/-- `numpy.matmul`: leading axes are broadcast; a vector on the left is a row that is dropped again.  (A vector on the right is not modelled: MatMul
refuses it before.) -/
def npMatmul (a b : Tensor F) : Except PyErr (Tensor F) :=
  match a.shape.reverse, b.shape.reverse with
  | k :: m :: la, n :: k' :: lb =>
    if k = k' then
      match npShape la.reverse lb.reverse with
      | none => .error .valueError
      | some r => .ok ⟨r ++ [m, n], fun idx =>
          let bi := idx.take r.length
          ∑ l ∈ range k, a.at (bcastIdx la.reverse bi ++ [idx.getD r.length 0, l]) * b.at (bcastIdx lb.reverse bi ++ [l, idx.getD (r.length + 1) 0])⟩
    else .error .valueError
  | [k], n :: k' :: lb =>
    if k = k' then
      .ok ⟨lb.reverse ++ [n], fun idx =>
        ∑ l ∈ range k, a.at [l] * b.at (idx.take lb.length ++ [l, idx.getD lb.length 0])⟩
    else .error .valueError
  | _, _ => .error .valueError

/-- `numpy.swapaxes(x, -1, -2)`; fewer than two axes raise -/
def swapLast (x : Tensor F) : Except PyErr (Tensor F) :=
  match x.shape.reverse with
  | n :: m :: l => .ok ⟨l.reverse ++ [n, m], fun idx => x.at (idx.take l.length ++ [idx.getD (l.length + 1) 0, idx.getD l.length 0])⟩
  | _ => .error .valueError

/-! ### MatMul and Gemm -/

/-- `GemmNode.value_infer` (896-903) for class MatMul: `ashape[-1]` and `bshape[-2]` must exist and agree -/
def matMulValue (a b : Tensor F) : Except PyErr (Tensor F) :=
  match a.shape.reverse, b.shape.reverse with
  | k :: _, _ :: k' :: _ => if k = k' then npMatmul a b else .error .assertion
  | _, _ => .error .indexError

/-- an operand of Gemm after the optional transposition (906-909) -/
def gemmOperand (trans : Int) (x : Tensor F) : Except PyErr (Tensor F) := if trans > 0 then swapLast x else .ok x

/-- the third operand is added (911-912) -/
def gemmAdd (c : Option (Tensor F)) (y : Tensor F) : Except PyErr (Tensor F) :=
  match c with
  | none => .ok y
  | some c => ufunc2 (· + ·) y c

/-- `GemmNode.value_infer` (904-913), also for the class MatMulInteger (third input: its zero point); `alpha` and `beta` are not read -/
def gemmValue (transA transB : Int) (a b : Tensor F) (c : Option (Tensor F)) : Except PyErr (Tensor F) :=
  match gemmOperand transA a with
  | .error e => .error e
  | .ok a =>
    match gemmOperand transB b with
    | .error e => .error e
    | .ok b =>
      match npMatmul a b with
      | .error e => .error e
      | .ok y => gemmAdd c y

/-- `MatMulIntegerNode` inherits `value_infer` from `GemmNode` (2547-2551); the fourth input is never read -/
def matMulIntegerValue (a b : Tensor F) (aZero : Option (Tensor F)) (_bZero : Option (Tensor F)) : Except PyErr (Tensor F) := gemmValue 0 0 a b aZero

/-! ### Conv and pooling -/

/-- `get_numpy` of an output tensor (`tensor.py` 436-441): the array it has if the shape fits, zeros otherwise -/
def startValue (old : Option (Tensor F)) (shape : List Nat) : Tensor F :=
  match old with
  | some t => if t.shape = shape then t else ⟨shape, fun _ => 0⟩
  | none => ⟨shape, fun _ => 0⟩

/-- the window loops of `ConvNode.value_infer` (2204-2222) for one output element, starting from `t` -/
def convLoop (x w : Tensor F) (s d : Int × Int) (p : Int × Int) (i : List Nat) (t : F) : F :=
  (allIdx w.shape.tail).foldl (fun t j =>
    let h : Int := i.getD 2 0 * s.1 + j.getD 1 0 * d.1 - p.1
    let c : Int := i.getD 3 0 * s.2 + j.getD 2 0 * d.2 - p.2
    let v := if h < 0 ∨ h ≥ (x.shape.getD 2 0 : Int) ∨ c < 0 ∨ c ≥ (x.shape.getD 3 0 : Int) then 0 else x.at [i.getD 0 0, j.getD 0 0, h.toNat, c.toNat]
    t + v * w.at (i.getD 1 0 :: j)) t

/-- the numbers read from the attributes: strides, dilations, begin pads -/
def convNumbers (a : Attrs) : Except PyErr ((Int × Int) × (Int × Int) × (Int × Int)) :=
  match a.strides, a.dilations, a.pads with
  | s0 :: s1 :: _, d0 :: d1 :: _, p0 :: p1 :: _ => .ok ((s0, s1), (d0, d1), (p0, p1))
  | _, _, _ => .error .indexError

/-- `ConvNode.value_infer` (2183-2225) on four-dimensional operands; `b` is the third input.  Simplified: operands of another rank, a kernel with more
channels than the operand and attributes that are too short are refused also when the output is empty (Python raises when it reads them). -/
def convValue (a : Attrs) (x w : Tensor F) (b old : Option (Tensor F)) : Except PyErr (Tensor F) :=
  if a.group ≠ 1 then .error .notImplemented
  else
    match convShape a (x.shape.map Int.ofNat) (w.shape.map Int.ofNat) with
    | .error e => .error e
    | .ok os =>
      if os.any (· < 0) then .error .valueError
      else if w.shape.length ≠ 4 then .error .notImplemented
      else if x.shape.length ≠ 4 ∨ x.shape.getD 1 0 < w.shape.getD 1 0 then .error .indexError
      else
        match convNumbers a with
        | .error e => .error e
        | .ok (s, d, p) =>
          let start := startValue old (os.map Int.toNat)
          .ok ⟨os.map Int.toNat, fun i => convLoop x w s d p i
            (match b with
            | some b => b.at [i.getD 1 0]
            | none => start.at i)⟩

/-- `GlobalAveragePoolNode.value_infer` (1512-1525) of an operand with four axes (three raise IndexError, more are not modelled) -/
def globalAveragePoolValue (x : Tensor F) : Except PyErr (Tensor F) :=
  match x.shape with
  | [n, c, h, w] =>
    if n * c ≠ 0 ∧ h * w = 0 then .error .zeroDivision
    else .ok ⟨[n, c], fun i => (((allIdx [h, w]).map fun j => x.at (i ++ j)).sum) / ((h * w : Nat) : F)⟩
  | _ => .error .indexError

/-- `BatchNormalizationNode.value_infer` (1629-1643); the parameters are vectors with one element for every channel -/
def batchNormValue (sqrt : F → F) (eps : F) (x scale b mean var : Tensor F) : Except PyErr (Tensor F) :=
  if x.shape.length < 2 then .error .indexError
  else .ok ⟨x.shape, fun i =>
    let c := i.getD 1 0
    (x.at i - mean.at [c]) * (scale.at [c] / sqrt (var.at [c] + eps)) + b.at [c]⟩

/-- `SoftmaxNode.value_infer` (410-413); the attribute has no default (AttributeError) -/
def softmaxValue (exp : F → F) (axis : Option Int) (x : Tensor F) : Except PyErr (Tensor F) :=
  match axis with
  | none => .error .attributeError
  | some a =>
    match npAxis x.shape.length a with
    | .error e => .error e
    | .ok k =>
      let e : Tensor F := ⟨x.shape, fun i => exp (x.at i)⟩
      ufunc2 (· / ·) e (reduceOver [k] true List.sum e)
end

/-- the window loops of `MaxPoolNode.value_infer` (1478-1489) for one output element, starting from `t`; `dilations` is not read -/
def maxLoop (x : Tensor ℚ) (k : List Nat) (s : Int × Int) (p : Int × Int) (i : List Nat) (t : ℚ) : ℚ :=
  (allIdx k).foldl (fun t j =>
    let h : Int := i.getD 2 0 * s.1 + j.getD 0 0 - p.1
    let c : Int := i.getD 3 0 * s.2 + j.getD 1 0 - p.2
    if h < 0 ∨ h ≥ (x.shape.getD 2 0 : Int) ∨ c < 0 ∨ c ≥ (x.shape.getD 3 0 : Int) then t else max (x.at [i.getD 0 0, i.getD 1 0, h.toNat, c.toNat]) t) t

/-- `MaxPoolNode.value_infer` (1468-1490) on an operand with four axes and a window with two -/
def maxPoolValue (a : Attrs) (x : Tensor ℚ) (old : Option (Tensor ℚ)) : Except PyErr (Tensor ℚ) :=
  match poolShape a (x.shape.map Int.ofNat) with
  | .error e => .error e
  | .ok os =>
    if os.any (· < 0) then .error .valueError
    else if os.length ≠ 4 ∨ a.kernel.length ≠ 2 then .error .indexError
    else
      match convNumbers a with
      | .error e => .error e
      | .ok (s, _, p) =>
        let start := startValue old (os.map Int.toNat)
        .ok ⟨os.map Int.toNat, fun i => maxLoop x (a.kernel.map Int.toNat) s p i (start.at i)⟩

end OnnxTool.Values
