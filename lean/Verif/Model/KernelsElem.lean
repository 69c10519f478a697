import Verif.Model.ValueMath
import Verif.Model.ValueReduce
import Verif.Model.Kernels
/-!
# Elementwise, reducing and selecting kernels (`/repo/inference/kernels.py`)

A kernel gets its operands and the place of its output: the elements of the memory pool from `off` on, read with the planned shape `os`.  The pool is a
function from element addresses to numbers (one data type for the whole pool, as in `GraphInfer`); numbers are exact, functions such as `exp`, `erf`,
`tanh` are parameters.  Torch is not part of the repository: what its calls do is defined here.
-/
namespace OnnxTool.Kernels
open OnnxTool OnnxTool.Torch OnnxTool.Values

variable {U V W : Type}

/-! ### Torch -/

/-- the elements of `t`, in row-major order, stored from address `off` on -/
def storeAt (mem : Nat → V) (off : Nat) (t : Tensor V) : Nat → V :=
  fun a => if off ≤ a ∧ a < off + numel t.shape then t.at (unravel t.shape (a - off)) else mem a

/-- `torch.op(…, out=outputs[0])`: an output tensor of another shape is resized on the spot (torch only warns), so the planned shape plays no role -/
def outStore (mem : Nat → V) (off : Nat) (_os : List Nat) (r : Except PyErr (Tensor V)) : Except PyErr (Nat → V) :=
  match r with
  | .error e => .error e
  | .ok t => .ok (storeAt mem off t)

/-- `outputs[0].copy_(r)` -/
def copyStore (mem : Nat → V) (off : Nat) (os : List Nat) (r : Except PyErr (Tensor V)) : Except PyErr (Nat → V) :=
  match r with
  | .error e => .error e
  | .ok t =>
    match copyTo os t with
    | .error e => .error e
    | .ok u => .ok (storeAt mem off u)

/-- a binary torch function on tensors: operands are broadcast, RuntimeError if they cannot -/
def torch2 (f : U → V → W) (x : Tensor U) (y : Tensor V) : Except PyErr (Tensor W) :=
  match npShape x.shape y.shape with
  | none => .error .runtimeError
  | some r => .ok ⟨r, fun idx => f (x.at (bcastIdx x.shape idx)) (y.at (bcastIdx y.shape idx))⟩

/-- `a.op_(b)`: the second operand must fit into the first -/
def inPlace (f : V → V → V) (x y : Tensor V) : Except PyErr (Tensor V) :=
  if canExpand y.shape x.shape then .ok ⟨x.shape, fun idx => f (x.at idx) (y.at (bcastIdx y.shape idx))⟩ else .error .runtimeError

/-- truth values stored in a pool of numbers -/
def bit (b : Bool) : ℚ := if b then 1 else 0

/-- a `dim` argument: out of range raises IndexError -/
def torchDim (r : Nat) (a : Int) : Except PyErr Nat :=
  if -(r : Int) ≤ a ∧ a < r then .ok (if a < 0 then a + r else a).toNat else .error .indexError

/-- a tuple of dimensions, before the check for repetitions -/
def torchDimsList (r : Nat) : List Int → Except PyErr (List Nat)
  | [] => .ok []
  | a :: l =>
    match torchDim r a with
    | .error e => .error e
    | .ok k =>
      match torchDimsList r l with
      | .error e => .error e
      | .ok ks => .ok (k :: ks)

/-- a tuple of dimensions of a reduction: the empty tuple means all of them, a repetition raises RuntimeError -/
def torchDims (r : Nat) (l : List Int) : Except PyErr (List Nat) :=
  match torchDimsList r l with
  | .error e => .error e
  | .ok ks => if ks.Nodup then .ok (if l.isEmpty then List.range r else ks) else .error .runtimeError

/-- `x.repeat(*repeats)`: fewer repeats than axes raise; missing leading axes count as 1 -/
def torchRepeat (reps : List Nat) (x : Tensor V) : Except PyErr (Tensor V) :=
  if reps.length < x.shape.length then .error .runtimeError
  else
    let s := List.replicate (reps.length - x.shape.length) 1 ++ x.shape
    .ok ⟨List.zipWith (fun d n => d * n) s reps, fun idx => x.at ((List.zipWith (fun i d => i % d) idx s).drop (reps.length - x.shape.length))⟩

/-- `torch.gather(data, axis, index)`: same number of axes; on the other axes the index is not larger than the data; an index outside raises -/
def torchGather (k : Nat) (data : Tensor V) (index : Tensor Int) : Except PyErr (Tensor V) :=
  if index.shape.length = data.shape.length ∧ ((List.range data.shape.length).all fun j => j == k || decide (index.shape.getD j 0 ≤ data.shape.getD j 0)) ∧
      (index.flat.all fun i => decide (0 ≤ i ∧ i < (data.shape.getD k 0 : Int))) then
    .ok ⟨index.shape, fun idx => data.at (idx.set k (index.at idx).toNat)⟩
  else .error .runtimeError

/-- `F.softmax(x, dim)` with `exp` (subtracting the largest element first changes nothing in exact arithmetic) -/
def torchSoftmax (exp : ℚ → ℚ) (k : Nat) (x : Tensor ℚ) : Tensor ℚ :=
  ⟨x.shape, fun idx => exp (x.at idx) / ((List.range (x.shape.getD k 0)).map fun j => exp (x.at (idx.set k j))).sum⟩

/-- mean of a list (the mean of nothing, nan in torch, is left out) -/
def meanList (l : List ℚ) : ℚ := l.sum / l.length

/-- variance of a list, `unbiased=False` -/
def varList (l : List ℚ) : ℚ := meanList (l.map fun a => (a - meanList l) ^ 2)

/-! ### Kernels -/

section
variable (mem : Nat → ℚ) (off : Nat) (os : List Nat)

/-- `AddKernel.run` (142-148) -/
def addKernel (x y : Tensor ℚ) : Except PyErr (Nat → ℚ) := outStore mem off os (torch2 (fun a b => a + b) x y)
/-- `SubKernel.run` (151-157) -/
def subKernel (x y : Tensor ℚ) : Except PyErr (Nat → ℚ) := outStore mem off os (torch2 (fun a b => a - b) x y)
/-- `MulKernel.run` (160-166) -/
def mulKernel (x y : Tensor ℚ) : Except PyErr (Nat → ℚ) := outStore mem off os (torch2 (fun a b => a * b) x y)
/-- `DivKernel.run` (169-175): true division also of whole numbers -/
def divKernel (x y : Tensor ℚ) : Except PyErr (Nat → ℚ) := outStore mem off os (torch2 (fun a b => a / b) x y)
/-- `PowKernel.run` (614-620) -/
def powKernel (pow : ℚ → ℚ → ℚ) (x y : Tensor ℚ) : Except PyErr (Nat → ℚ) := outStore mem off os (torch2 pow x y)
/-- `EqualKernel.run` (569-575) -/
def equalKernel (x y : Tensor ℚ) : Except PyErr (Nat → ℚ) := outStore mem off os (torch2 (fun a b => bit (decide (a = b))) x y)
/-- `GreaterKernel.run` (578-584) -/
def greaterKernel (x y : Tensor ℚ) : Except PyErr (Nat → ℚ) := outStore mem off os (torch2 (fun a b => bit (decide (a > b))) x y)
/-- `LessKernel.run` (587-593) -/
def lessKernel (x y : Tensor ℚ) : Except PyErr (Nat → ℚ) := outStore mem off os (torch2 (fun a b => bit (decide (a < b))) x y)

/-- `WhereKernel.run` (559-566) -/
def whereKernel (c x y : Tensor ℚ) : Except PyErr (Nat → ℚ) :=
  outStore mem off os
    (match torch2 (fun a b => (a, b)) x y with
    | .error e => .error e
    | .ok p => torch2 (fun (c : ℚ) (p : ℚ × ℚ) => if c ≠ 0 then p.1 else p.2) c p)

/-- the remainder of `torch.fmod` (sign of the dividend) and of `torch.remainder` (sign of the divisor), on whole numbers -/
def modOne (fmod : Bool) (a b : ℚ) : ℚ :=
  if fmod then a - b * ((if 0 ≤ a / b then ⌊a / b⌋ else ⌈a / b⌉ : Int) : ℚ) else a - b * ((⌊a / b⌋ : Int) : ℚ)

/-- `ModKernel.run` (1089-1100); a zero divisor is left out -/
def modKernel (fmod : Int) (x y : Tensor ℚ) : Except PyErr (Nat → ℚ) := copyStore mem off os (torch2 (modOne (fmod != 0)) x y)

/-- the kernels that apply one function and `copy_` the result: Relu, Sigmoid, Tanh (178-202), LeakyRelu (205-212), Neg, Sqrt (596-611), Identity (668-674),
Gelu (790-798), Silu (1062-1070); the function is `unaryFun` -/
def unaryKernel (f : ℚ → ℚ) (x : Tensor ℚ) : Except PyErr (Nat → ℚ) := copyStore mem off os (.ok (mapValue f x))

/-- `ErfKernel.run` (623-629): `out=` -/
def erfKernel (erf : ℚ → ℚ) (x : Tensor ℚ) : Except PyErr (Nat → ℚ) := outStore mem off os (.ok (mapValue erf x))

/-- `torch.relu` -/
def reluFun (a : ℚ) : ℚ := max a 0
/-- `F.leaky_relu` with `attrs.get('alpha', 0.01)` (210-212) -/
def leakyFun (alpha : Option ℚ) (a : ℚ) : ℚ := if 0 < a then a else a * alpha.getD (1 / 100)
/-- `F.silu` -/
def siluFun (sigmoid : ℚ → ℚ) (a : ℚ) : ℚ := a * sigmoid a

/-- a bound of `ClipKernel.run` (223-230): `.item()` of an input, which needs exactly one element, else the attribute, else ±3.4e38 -/
def clipItem (t : Option (Tensor ℚ)) (attr : Option ℚ) (dflt : ℚ) : Except PyErr ℚ :=
  match t with
  | none => .ok (attr.getD dflt)
  | some t => if numel t.shape = 1 then .ok (t.at (unravel t.shape 0)) else .error .runtimeError

/-- `ClipKernel.run` (219-231); `torch.clamp(t, lo, hi)` is `min(max(t, lo), hi)` -/
def clipKernel (lo hi : Option (Tensor ℚ)) (alo ahi : Option ℚ) (x : Tensor ℚ) : Except PyErr (Nat → ℚ) :=
  match clipItem lo alo (-(34 * 10 ^ 37)) with
  | .error e => .error e
  | .ok l =>
    match clipItem hi ahi (34 * 10 ^ 37) with
    | .error e => .error e
    | .ok h => outStore mem off os (.ok (mapValue (fun a => min (max a l) h) x))

/-- `SoftmaxKernel.run` (434-441) -/
def softmaxKernel (exp : ℚ → ℚ) (axis : Option Int) (x : Tensor ℚ) : Except PyErr (Nat → ℚ) :=
  match torchDim x.shape.length (axis.getD (-1)) with
  | .error e => .error e
  | .ok k => copyStore mem off os (.ok (torchSoftmax exp k x))

/-- axes of the reducing kernels (637-643): second input, else the attribute -/
def kernelAxes (input attr : Option (List Int)) : Option (List Int) :=
  match input with
  | some l => some l
  | none => attr

/-- `ReduceMeanKernel.run` (636-647) and `ReduceSumKernel.run`: without axes, `x.mean(keepdim=…)` is no torch call: TypeError -/
def reduceKernel (op : List ℚ → ℚ) (input attr : Option (List Int)) (keepdims : Int) (x : Tensor ℚ) : Except PyErr (Nat → ℚ) :=
  match kernelAxes input attr with
  | none => .error .typeError
  | some l =>
    match torchDims x.shape.length l with
    | .error e => .error e
    | .ok ax => copyStore mem off os (.ok (reduceOver ax (keepdims != 0) op x))

/-- `ReduceMeanKernel.run` (632-647) -/
def reduceMeanKernel := reduceKernel mem off os meanList
/-- `ReduceSumKernel.run` (650-665) -/
def reduceSumKernel := reduceKernel mem off os List.sum

/-- `ReduceMaxKernel.run` (1103-1119): `amax` over an axis of size 0 raises -/
def reduceMaxKernel (input attr : Option (List Int)) (keepdims : Int) (x : Tensor ℚ) : Except PyErr (Nat → ℚ) :=
  match kernelAxes input attr with
  | none => .error .typeError
  | some l =>
    match torchDims x.shape.length l with
    | .error e => .error e
    | .ok ax =>
      if fibreSize ax 0 x.shape = 0 then .error .indexError
      else
        match reduceFrom max ax (keepdims != 0) x with
        | .error e => .error e
        | .ok t => copyStore mem off os (.ok t)

/-- `GlobalAveragePoolKernel.run` (386-394): `F.adaptive_avg_pool2d` takes three or four axes and averages over the last two -/
def globalAvgKernel (x : Tensor ℚ) : Except PyErr (Nat → ℚ) :=
  if x.shape.length = 3 ∨ x.shape.length = 4 then
    copyStore mem off os (.ok (reduceOver [x.shape.length - 2, x.shape.length - 1] true meanList x))
  else .error .runtimeError

/-- `ShapeKernel.run` (478-485) -/
def shapeKernel (x : Tensor ℚ) : Except PyErr (Nat → ℚ) :=
  copyStore mem off os (.ok ⟨[x.shape.length], fun idx => ((x.shape.getD (idx.getD 0 0) 0 : Nat) : ℚ)⟩)

/-- `TileKernel.run` (545-556) -/
def tileKernel (reps : List Nat) (x : Tensor ℚ) : Except PyErr (Nat → ℚ) := copyStore mem off os (torchRepeat reps x)

/-- `GatherElementsKernel.run` (1076-1086) -/
def gatherElementsKernel (axis : Option Int) (data : Tensor ℚ) (index : Tensor Int) : Except PyErr (Nat → ℚ) :=
  match torchDim data.shape.length (axis.getD 0) with
  | .error e => .error e
  | .ok k => copyStore mem off os (torchGather k data index)

/-- `MadKernel.run` (776-787): the product is stored with `out=`, the bias added in place -/
def madKernel (x w b : Tensor ℚ) : Except PyErr (Nat → ℚ) :=
  match torch2 (fun a b => a * b) x w with
  | .error e => .error e
  | .ok p => outStore mem off os (inPlace (fun a b => a + b) p b)

/-- `RangeGatherKernel.run` (801-824): rows `past`, …, `past + len - 1` of the table; `torch.arange` refuses a negative length -/
def rangeGatherKernel (len past : Int) (table : Tensor ℚ) : Except PyErr (Nat → ℚ) :=
  if len < 0 then .error .runtimeError
  else copyStore mem off os (table.indexSelect 0 ((List.range len.toNat).map fun i : Nat => past + (i : Int)))

/-- `LayerNormKernel.run` registered for Layernrom (755-773): the fused operator; `axes` of the fused ReduceMean, `eps` fixed -/
def fusedLayerNormKernel (rsqrt : ℚ → ℚ) (axes : Option (List Int)) (x w b : Tensor ℚ) : Except PyErr (Nat → ℚ) :=
  match torchDims x.shape.length (axes.getD [-1]) with
  | .error e => .error e
  | .ok ax =>
    match torch2 (fun a m => a - m) x (reduceOver ax true meanList x) with
    | .error e => .error e
    | .ok d =>
      match inPlace (fun a b => a * b) d (mapValue (fun v => rsqrt (v + 1 / 100000)) (reduceOver ax true varList x)) with
      | .error e => .error e
      | .ok n =>
        match inPlace (fun a b => a * b) n w with
        | .error e => .error e
        | .ok s => outStore mem off os (inPlace (fun a b => a + b) s b)

end

/-- torch types -/
inductive TDType where
  | float32 | uint8 | int8 | int16 | int32 | int64 | bool | float16 | double
  deriving DecidableEq, Repr

/-- the table of `CastKernel.run` (519-530): codes that are not listed become float32 -/
def castTarget (code : Option Int) : TDType :=
  match code.getD 1 with
  | 1 => .float32
  | 2 => .uint8
  | 3 => .int8
  | 5 => .int16
  | 6 => .int32
  | 7 => .int64
  | 9 => .bool
  | 10 => .float16
  | 11 => .double
  | _ => .float32

/-- `CastKernel.run` (511-532): converted to the target type, then `copy_` converts to the type of the pool -/
def castKernel (mem : Nat → ℚ) (off : Nat) (os : List Nat) (conv : TDType → ℚ → ℚ) (pool : TDType) (code : Option Int) (x : Tensor ℚ) : Except PyErr (Nat → ℚ) :=
  copyStore mem off os (.ok (mapValue (fun a => conv pool (conv (castTarget code) a)) x))

end OnnxTool.Kernels
