import Verif.Model.Torch
import Mathlib.Algebra.Order.Ring.Rat
import Mathlib.Algebra.BigOperators.Group.List.Basic
/-!
# Value inference of reductions and of operators that build tensors (`/repo/onnx_tool/node.py`, methods `value_infer`)

Numbers are exact.  numpy is not part of the repository: what its reductions, `cumsum`, `nonzero`, `argmax` and `arange` do is defined here.
Reductions of arrays without axes are modelled for `axes=None` only.
-/
namespace OnnxTool.Values
open OnnxTool OnnxTool.Torch

variable {V : Type}

/-! ### numpy -/

/-- one axis argument: negative ones count from the end; AxisError (a ValueError) outside -/
def npAxis (r : Nat) (a : Int) : Except PyErr Nat :=
  if -(r : Int) ≤ a ∧ a < r then .ok (if a < 0 then a + r else a).toNat else .error .valueError

/-- a tuple of axes, before the check for repetitions -/
def npAxesList (r : Nat) : List Int → Except PyErr (List Nat)
  | [] => .ok []
  | a :: l =>
    match npAxis r a with
    | .error e => .error e
    | .ok k =>
      match npAxesList r l with
      | .error e => .error e
      | .ok ks => .ok (k :: ks)

/-- a tuple of axes: repeated ones raise -/
def npAxes (r : Nat) (l : List Int) : Except PyErr (List Nat) :=
  match npAxesList r l with
  | .error e => .error e
  | .ok ks => if ks.Nodup then .ok ks else .error .valueError

/-- shape left by a reduction over the axes `ax`; positions are counted from `i` -/
def reducedShape (ax : List Nat) (keep : Bool) : Nat → List Nat → List Nat
  | _, [] => []
  | i, d :: s => if i ∈ ax then (if keep then 1 :: reducedShape ax keep (i + 1) s else reducedShape ax keep (i + 1) s)
    else d :: reducedShape ax keep (i + 1) s

/-- the elements of an array of shape `s` that are combined into position `idx` of the result -/
def fibre (ax : List Nat) (keep : Bool) : Nat → List Nat → List Nat → List (List Nat)
  | _, [], _ => [[]]
  | i, d :: s, idx =>
    if i ∈ ax then (List.range d).flatMap fun j => (fibre ax keep (i + 1) s (if keep then idx.tail else idx)).map (j :: ·)
    else (fibre ax keep (i + 1) s idx.tail).map (idx.headD 0 :: ·)

/-- a reduction over the axes `ax` -/
def reduceOver {W : Type} (ax : List Nat) (keep : Bool) (op : List V → W) (x : Tensor V) : Tensor W :=
  ⟨reducedShape ax keep 0 x.shape, fun idx => op ((fibre ax keep 0 x.shape idx).map x.at)⟩

/-- the number of elements combined into each element of the result -/
def fibreSize (ax : List Nat) : Nat → List Nat → Nat
  | _, [] => 1
  | i, d :: s => if i ∈ ax then d * fibreSize ax (i + 1) s else fibreSize ax (i + 1) s

/-- `numpy.minimum.reduce` / `numpy.maximum.reduce`: nothing to start from raises -/
def reduceFrom (f : V → V → V) (ax : List Nat) (keep : Bool) (x : Tensor V) : Except PyErr (Tensor V) :=
  if fibreSize ax 0 x.shape = 0 ∧ numel (reducedShape ax keep 0 x.shape) ≠ 0 then .error .valueError
  else .ok (reduceOver ax keep (fun l =>
    match l with
    | [] => x.at []  -- never read
    | a :: l => l.foldl f a) x)

/-! ### Nodes -/

/-- where a reduction takes its axes from: attribute (`none` when absent) or second input -/
inductive AxesArg where
  | attr (l : Option (List Int))
  | input (l : List Int)

/-- the axis argument handed to numpy: `ReduceSumNode` (1967-1971) makes a tuple of the second input, the other nodes pass the array, which numpy refuses
(TypeError); `None` means all axes -/
def axesOf (sum : Bool) (r : Nat) : AxesArg → Except PyErr (List Nat)
  | .attr none => .ok (List.range r)
  | .attr (some l) => npAxes r l
  | .input l => if sum then npAxes r l else .error .typeError

/-- `ReduceMeanNode.value_infer` (1935-1941); the mean of nothing (numpy: nan) is left out -/
def reduceMeanValue (axes : AxesArg) (keepdims : Int) (x : Tensor ℚ) : Except PyErr (Tensor ℚ) :=
  match axesOf false x.shape.length axes with
  | .error e => .error e
  | .ok ax => .ok (reduceOver ax (keepdims == 1) (fun l => l.sum / l.length) x)

/-- `ReduceProdNode.value_infer` (1950-1956) -/
def reduceProdValue (axes : AxesArg) (keepdims : Int) (x : Tensor ℚ) : Except PyErr (Tensor ℚ) :=
  match axesOf false x.shape.length axes with
  | .error e => .error e
  | .ok ax => .ok (reduceOver ax (keepdims == 1) List.prod x)

/-- `ReduceSumNode.value_infer` (1966-1972); `noop_with_empty_axes` is not read -/
def reduceSumValue (axes : AxesArg) (keepdims : Int) (x : Tensor ℚ) : Except PyErr (Tensor ℚ) :=
  match axesOf true x.shape.length axes with
  | .error e => .error e
  | .ok ax => .ok (reduceOver ax (keepdims == 1) List.sum x)

/-- `ReduceMinNode.value_infer` (1977-1984) -/
def reduceMinValue (axes : AxesArg) (keepdims : Int) (x : Tensor ℚ) : Except PyErr (Tensor ℚ) :=
  match axesOf false x.shape.length axes with
  | .error e => .error e
  | .ok ax => reduceFrom min ax (keepdims == 1) x

/-- `ReduceMaxNode.value_infer` (1994-2001) -/
def reduceMaxValue (axes : AxesArg) (keepdims : Int) (x : Tensor ℚ) : Except PyErr (Tensor ℚ) :=
  match axesOf false x.shape.length axes with
  | .error e => .error e
  | .ok ax => reduceFrom max ax (keepdims == 1) x

/-- `ReduceL2Node.value_infer` (2241-2244): only the attribute is read; `sqrt` is any function -/
def reduceL2Value (sqrt : ℚ → ℚ) (axes : Option (List Int)) (keepdims : Int) (x : Tensor ℚ) : Except PyErr (Tensor ℚ) :=
  match axesOf false x.shape.length (.attr axes) with
  | .error e => .error e
  | .ok ax => .ok (reduceOver ax (keepdims == 1) (fun l => sqrt l.sum) ⟨x.shape, fun idx => x.at idx * x.at idx⟩)

/-- `CumSumNode.value_infer` (2260-2265); the axis is a scalar tensor -/
def cumSumValue (exclusive reverse : Int) (axis : Int) (x : Tensor ℚ) : Except PyErr (Tensor ℚ) :=
  if exclusive = 0 ∧ reverse = 0 then
    match npAxis x.shape.length axis with
    | .error e => .error e
    | .ok k => .ok ⟨x.shape, fun idx => ((List.range (idx.getD k 0 + 1)).map fun j => x.at (idx.set k j)).sum⟩
  else .error .notImplemented

/-- all indices of a shape, in row-major order -/
def allIdx (s : List Nat) : List (List Nat) := (List.range (numel s)).map (unravel s)

/-- a list of indices as the columns of a matrix with `r` rows -/
def columns (r : Nat) (l : List (List Nat)) : Tensor Nat := ⟨[r, l.length], fun idx => (l.getD (idx.getD 1 0) []).getD (idx.getD 0 0) 0⟩

/-- `NonZeroNode.value_infer` (2271-2277) of an array with at least one axis: when nothing is nonzero, the indices of all elements are returned -/
def nonZeroValue (x : Tensor ℚ) : Tensor Nat :=
  let nz := (allIdx x.shape).filter fun i => decide (x.at i ≠ 0)
  if x.shape.length * nz.length = 0 then columns x.shape.length (allIdx x.shape) else columns x.shape.length nz

/-- `ConstantOfShapeNode.value_infer` (2850-2854); the attribute is a vector, `none` when it is absent -/
def constantOfShapeValue [Zero V] (value : Option (List V)) (shape : List Int) : Except PyErr (Tensor V) :=
  match value with
  | none => .error .attributeError
  | some l =>
    if shape.any (· < 0) then .error .valueError
    else .ok ⟨shape.map Int.toNat, fun _ =>
      match l with
      | [v] => v
      | _ => 0⟩

/-- `one_hot` (1082-1094): Python's slices of the shape clamp the axis -/
def oneHot (depth : Nat) (axis : Int) (x : Tensor Int) : Tensor ℚ :=
  let r : Int := x.shape.length
  let a := if axis < 0 then axis + (r + 1) else axis
  let k := (if a < 0 then max 0 (a + r) else min a r).toNat
  ⟨x.shape.take k ++ depth :: x.shape.drop k, fun idx => if ((idx.getD k 0 : Nat) : Int) = (x.at (idx.eraseIdx k)).fmod depth then 1 else 0⟩

/-- `OneHotNode.value_infer` (1113-1118): the third input (`values`) is read and dropped -/
def oneHotValue (axis : Int) (x : Tensor Int) (depth : Nat) (_values : Tensor ℚ) : Tensor ℚ := oneHot depth axis x

/-- position of the first largest element, `best` at position `bi` being the largest so far -/
def argmaxFrom (best : ℚ) (bi i : Nat) : List ℚ → Nat
  | [] => bi
  | v :: l => if best < v then argmaxFrom v i (i + 1) l else argmaxFrom best bi (i + 1) l

/-- `argmax_use_numpy` (1671-1675), called by `ArgMaxNode.value_infer` (1685-1688); `select_last_index` is not read -/
def argMaxValue (axis keepdims : Int) (x : Tensor ℚ) : Except PyErr (Tensor Nat) :=
  match npAxis x.shape.length axis with
  | .error e => .error e
  | .ok k =>
    if x.shape.getD k 0 = 0 then .error .valueError
    else .ok (reduceOver [k] (keepdims == 1) (fun l =>
      match l with
      | [] => 0  -- never read
      | a :: l => argmaxFrom a 0 1 l) x)

end OnnxTool.Values
