import Verif.Model.Torch
import Mathlib.Data.Rat.Floor
import Mathlib.Algebra.Order.Ring.Rat
/-!
# Value inference of the arithmetic operators (`/repo/onnx_tool/node.py`, methods `value_infer`)

Numbers are exact: wrap-around of int64 and rounding of floats are left out, data types appear only where the method branches on them (Div).
numpy is not part of the repository: what its broadcasting, `clip`, `arange`, `where` and the truth value of an array do is defined here.
-/
namespace OnnxTool.Values
open OnnxTool OnnxTool.Torch

variable {U V W : Type}

/-- numpy broadcasting of two shapes, sizes listed from the last axis -/
def npMerge : List Nat → List Nat → Option (List Nat)
  | [], t => some t
  | s, [] => some s
  | a :: s, b :: t =>
    match npMerge s t with
    | none => none
    | some r => if a = b ∨ b = 1 then some (a :: r) else if a = 1 then some (b :: r) else none

/-- numpy broadcasting of two shapes -/
def npShape (s t : List Nat) : Option (List Nat) := (npMerge s.reverse t.reverse).map List.reverse

/-- a binary numpy function on arrays: operands are broadcast, ValueError if they cannot -/
def ufunc2 (f : U → V → W) (x : Tensor U) (y : Tensor V) : Except PyErr (Tensor W) :=
  match npShape x.shape y.shape with
  | none => .error .valueError
  | some r => .ok ⟨r, fun idx => f (x.at (bcastIdx x.shape idx)) (y.at (bcastIdx y.shape idx))⟩

/-- a unary numpy function -/
def mapValue (f : U → V) (x : Tensor U) : Tensor V := ⟨x.shape, fun idx => f (x.at idx)⟩

/-- `AddNode.value_infer` (297-299) -/
def addValue [Add V] (x y : Tensor V) : Except PyErr (Tensor V) := ufunc2 (· + ·) x y

/-- `SubNode.value_infer` (290-292) -/
def subValue [Sub V] (x y : Tensor V) : Except PyErr (Tensor V) := ufunc2 (· - ·) x y

/-- `MulNode.value_infer` (368-370) -/
def mulValue [Mul V] (x y : Tensor V) : Except PyErr (Tensor V) := ufunc2 (· * ·) x y

/-- `LessNode.value_infer` (770-772) -/
def lessValue (x y : Tensor ℚ) : Except PyErr (Tensor Bool) := ufunc2 (fun a b => decide (a < b)) x y
/-- `LessOrEqualNode.value_infer` (780-782) -/
def lessEqualValue (x y : Tensor ℚ) : Except PyErr (Tensor Bool) := ufunc2 (fun a b => decide (a ≤ b)) x y
/-- `GreaterNode.value_infer` (2487-2489) -/
def greaterValue (x y : Tensor ℚ) : Except PyErr (Tensor Bool) := ufunc2 (fun a b => decide (a > b)) x y
/-- `GreaterOrEqualNode.value_infer` (2497-2499) -/
def greaterEqualValue (x y : Tensor ℚ) : Except PyErr (Tensor Bool) := ufunc2 (fun a b => decide (a ≥ b)) x y
/-- `EqualNode.value_infer` (2284-2286) -/
def equalValue (x y : Tensor ℚ) : Except PyErr (Tensor Bool) := ufunc2 (fun a b => decide (a = b)) x y
/-- `AndNode.value_infer` (801-803) -/
def andValue (x y : Tensor Bool) : Except PyErr (Tensor Bool) := ufunc2 (· && ·) x y
/-- `OrNode.value_infer` (808-810) -/
def orValue (x y : Tensor Bool) : Except PyErr (Tensor Bool) := ufunc2 (· || ·) x y
/-- `XorNode.value_infer` (815-817) -/
def xorValue (x y : Tensor Bool) : Except PyErr (Tensor Bool) := ufunc2 xor x y
/-- `NotNode.value_infer` (794-796) -/
def notValue (x : Tensor Bool) : Tensor Bool := mapValue (!·) x

/-- the element types `DivNode` distinguishes -/
inductive DType where
  | int64 | int32 | float
  deriving DecidableEq

/-- one quotient of `DivNode.value_infer` (340-348): `//` (rounds down; 0 for a zero divisor) when both types are int64, `/` otherwise -/
def divOne (s t : DType) (a b : ℚ) : ℚ := if s = t then (if s = .int64 then (if b = 0 then 0 else ((⌊a / b⌋ : Int) : ℚ)) else a / b) else a / b

/-- `DivNode.value_infer` (340-348); a zero divisor of `/` (numpy: inf or nan) is left out -/
def divValue (s t : DType) (x y : Tensor ℚ) : Except PyErr (Tensor ℚ) := ufunc2 (divOne s t) x y

/-- `ModNode.value_infer` (357-359) on integers: `numpy.mod`, the remainder of rounding down; the attribute `fmod` is not read -/
def modValue (x y : Tensor Int) : Except PyErr (Tensor Int) := ufunc2 (fun a b => if b = 0 then 0 else a.fmod b) x y

/-- `PowNode.value_infer` (487-489) on integers: `numpy.power` refuses negative exponents -/
def powValue (x y : Tensor Int) : Except PyErr (Tensor Int) :=
  match npShape x.shape y.shape with
  | none => .error .valueError
  | some r => if numel r ≠ 0 ∧ y.flat.any (· < 0) then .error .valueError else ufunc2 (fun a b => a ^ b.toNat) x y

/-- the loops of `MaxNode` (318-321) and `SumNode` (726-729) -/
def foldFrom (f : V → V → V) (acc : Tensor V) : List (Tensor V) → Except PyErr (Tensor V)
  | [] => .ok acc
  | x :: xs =>
    match ufunc2 f acc x with
    | .error e => .error e
    | .ok r => foldFrom f r xs

/-- an operator over all its inputs; `intensors[0]` raises without inputs -/
def foldValue (f : V → V → V) : List (Tensor V) → Except PyErr (Tensor V)
  | [] => .error .indexError
  | x :: xs => foldFrom f x xs

/-- `MaxNode.value_infer` (317-321) -/
def maxValue (xs : List (Tensor ℚ)) : Except PyErr (Tensor ℚ) := foldValue max xs

/-- `SumNode.value_infer` (725-729) -/
def sumValue [Add V] (xs : List (Tensor V)) : Except PyErr (Tensor V) := foldValue (· + ·) xs

/-- Python's `not` of an array: only an array of one element has a truth value; the result is a Python bool (0 or 1, no axes) -/
def notArray (x : Tensor ℚ) : Except PyErr (Tensor ℚ) :=
  if numel x.shape = 1 then .ok ⟨[], fun _ => if x.at (unravel x.shape 0) = 0 then 1 else 0⟩ else .error .valueError

/-- the loop of `MinNode.value_infer` (309-312): `result = not numpy.minimum(result, …)` -/
def minFrom (acc : Tensor ℚ) : List (Tensor ℚ) → Except PyErr (Tensor ℚ)
  | [] => .ok acc
  | x :: xs =>
    match ufunc2 min acc x with
    | .error e => .error e
    | .ok m =>
      match notArray m with
      | .error e => .error e
      | .ok r => minFrom r xs

/-- `MinNode.value_infer` (308-312) -/
def minValue : List (Tensor ℚ) → Except PyErr (Tensor ℚ)
  | [] => .error .indexError
  | x :: xs => minFrom x xs

/-- `NegNode.value_infer` (330-331) -/
def negValue (x : Tensor ℚ) : Tensor ℚ := mapValue (- ·) x
/-- `AbsNode.value_infer` (379-381) -/
def absValue (x : Tensor ℚ) : Tensor ℚ := mapValue (fun a => if a < 0 then -a else a) x
/-- `CeilNode.value_infer` (386-388) -/
def ceilValue (x : Tensor ℚ) : Tensor ℚ := mapValue (fun a => ((⌈a⌉ : Int) : ℚ)) x
/-- `FloorNode.value_infer` (2294-2296) -/
def floorValue (x : Tensor ℚ) : Tensor ℚ := mapValue (fun a => ((⌊a⌋ : Int) : ℚ)) x
/-- `SignNode.value_infer` (576-578) -/
def signValue (x : Tensor ℚ) : Tensor ℚ := mapValue (fun a => if a < 0 then -1 else if a = 0 then 0 else 1) x
/-- `ReluNode.value_infer` (613-615): `numpy.clip(x, 0, None)` -/
def reluValue (x : Tensor ℚ) : Tensor ℚ := mapValue (fun a => max a 0) x
/-- `Relu6Node.value_infer` (1021-1023): `numpy.clip(x, 0, 6)` -/
def relu6Value (x : Tensor ℚ) : Tensor ℚ := mapValue (fun a => min (max a 0) 6) x

/-- an optional bound of `numpy.clip` -/
def clipBound (f : ℚ → ℚ → ℚ) (x : Tensor ℚ) (b : Option (Tensor ℚ)) : Except PyErr (Tensor ℚ) :=
  match b with
  | none => .ok x
  | some b => ufunc2 f x b

/-- `ClipNode.value_infer` (990-1000); the inputs after the first, `none` for one left out (empty name); `intensors[1]` and `intensors[2]` raise when
the node has fewer inputs -/
def clipValue (bounds : List (Option (Tensor ℚ))) (x : Tensor ℚ) : Except PyErr (Tensor ℚ) :=
  match bounds with
  | lo :: hi :: _ =>
    match clipBound max x lo with
    | .error e => .error e
    | .ok y => clipBound min y hi
  | _ => .error .indexError

/-- Python's `min(1, a)` and `max(0, …)` on an array: the comparison needs one element; a bound that wins has no axes -/
def pyClamp (a : Tensor ℚ) : Except PyErr (Tensor ℚ) :=
  if numel a.shape = 1 then
    let v := a.at (unravel a.shape 0)
    if v < 1 then (if v > 0 then .ok a else .ok ⟨[], fun _ => 0⟩) else .ok ⟨[], fun _ => 1⟩
  else .error .valueError

/-- `HardSigmoidNode.value_infer` (589-591) -/
def hardSigmoidValue (alpha beta : ℚ) (x : Tensor ℚ) : Except PyErr (Tensor ℚ) := pyClamp (mapValue (fun a => alpha * a + beta) x)

/-- `HardSwishNode.value_infer` (602-604) -/
def hardSwishValue (alpha beta : ℚ) (x : Tensor ℚ) : Except PyErr (Tensor ℚ) :=
  match pyClamp (mapValue (fun a => alpha * a + beta) x) with
  | .error e => .error e
  | .ok c => ufunc2 (· * ·) x c

/-- `LeakyReluNode.value_infer` (709-715): the loop overwrites `x` with its first element, the second round indexes a number -/
def leakyReluValue (alpha : ℚ) (x : Tensor ℚ) : Except PyErr (Tensor ℚ) :=
  if numel x.shape ≤ 1 then .ok (mapValue (fun a => if a ≥ 0 then a else a * alpha) x) else .error .indexError

/-- length of `numpy.arange(start, limit, delta)` on integers: the quotient rounded up -/
def arangeLen (start limit delta : Int) : Nat := (-((start - limit).fdiv delta)).toNat

/-- `RangeNode.value_infer` (524-529) on integer scalars; a zero step raises -/
def rangeValue (start limit delta : Int) : Except PyErr (Tensor Int) :=
  if delta = 0 then .error .valueError else .ok ⟨[arangeLen start limit delta], fun idx => start + idx.getD 0 0 * delta⟩

/-- `WhereNode.value_infer` (829-831) -/
def whereValue (c : Tensor Bool) (x y : Tensor V) : Except PyErr (Tensor V) :=
  match ufunc2 (fun a b => (a, b)) x y with
  | .error e => .error e
  | .ok p => ufunc2 (fun c (p : V × V) => if c then p.1 else p.2) c p

/-- `ExpandNode.value_infer` (1562-1564): multiplied by an array of ones of the given shape -/
def expandValue [Mul V] [One V] (shape : List Nat) (x : Tensor V) : Except PyErr (Tensor V) := ufunc2 (· * ·) x ⟨shape, fun _ => 1⟩

/-- `CastNode.value_infer` (2863-2864): every element converted -/
def castValue (cast : U → V) (x : Tensor U) : Tensor V := mapValue cast x

end OnnxTool.Values
