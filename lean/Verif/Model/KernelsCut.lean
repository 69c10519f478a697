import Verif.Model.Torch
import Verif.Model.Slice
/-!
# Kernels that cut and join tensors (`/repo/inference/kernels.py`): Slice, Split, Concat, Expand
-/
namespace OnnxTool.Kernels
open OnnxTool OnnxTool.Torch

variable {V : Type}

/-! ### Torch -/

/-- size of one axis under `slice(s, e, step)`; torch raises ValueError for a step that is not positive -/
def sliceSize (d : Nat) (p : Int × Int × Int) : Except PyErr Nat :=
  if p.2.2 ≤ 0 then .error .valueError else Slice.pySliceLen d p.1 p.2.1 p.2.2

/-- first element of `slice(s, e, step)` with a positive step -/
def sliceFirst (d : Nat) (s : Int) : Int :=
  let v := if s < 0 then s + d else s
  if v < 0 then 0 else if v ≥ d then d else v

def sliceSizes : List Nat → List (Int × Int × Int) → Except PyErr (List Nat)
  | d :: s, p :: l =>
    match sliceSize d p with
    | .error e => .error e
    | .ok n =>
      match sliceSizes s l with
      | .error e => .error e
      | .ok r => .ok (n :: r)
  | _, _ => .ok []

/-- index of the source element -/
def sliceSrc : List Nat → List (Int × Int × Int) → List Nat → List Nat
  | d :: s, p :: l, i :: idx => (sliceFirst d p.1 + i * p.2.2).toNat :: sliceSrc s l idx
  | _, _, _ => []

/-- `t[tuple(slices)]`, one slice for every axis; `slice(None)` is `(0, size, 1)` -/
def slice (t : Tensor V) (l : List (Int × Int × Int)) : Except PyErr (Tensor V) :=
  match sliceSizes t.shape l with
  | .error e => .error e
  | .ok os => .ok ⟨os, fun idx => t.at (sliceSrc t.shape l idx)⟩

/-- `len` elements from `off` on along an axis -/
def narrow (t : Tensor V) (axis off len : Nat) : Tensor V :=
  ⟨t.shape.set axis len, fun idx => t.at (idx.set axis (off + idx.getD axis 0))⟩

/-- consecutive parts of the given sizes from `off` on -/
def parts (t : Tensor V) (axis : Nat) : Nat → List Nat → List (Tensor V)
  | _, [] => []
  | off, n :: sizes => narrow t axis off n :: parts t axis (off + n) sizes

/-- `torch.split(t, sizes, dim)` -/
def torchSplit (t : Tensor V) (axis : Nat) (sizes : List Int) : Except PyErr (List (Tensor V)) :=
  if axis < t.shape.length ∧ sizes.all (0 ≤ ·) ∧ (sizes.map Int.toNat).sum = t.shape.getD axis 0 then
    .ok (parts t axis 0 (sizes.map Int.toNat))
  else .error .runtimeError

/-- sizes of `torch.chunk(t, n, dim)`: parts of the rounded-up size until the axis is used up; an empty axis gives `n` empty parts -/
def chunkSizes (d n : Nat) : List Nat :=
  if d = 0 then List.replicate n 0
  else
    let c := (d + n - 1) / n
    List.replicate (d / c) c ++ if d % c = 0 then [] else [d % c]

/-- `torch.chunk(t, n, dim)` -/
def chunk (t : Tensor V) (axis n : Nat) : Except PyErr (List (Tensor V)) :=
  if axis < t.shape.length ∧ 0 < n then .ok (parts t axis 0 (chunkSizes (t.shape.getD axis 0) n)) else .error .runtimeError

/-- where position `j` of the concatenated axis comes from: number of the part and position in it -/
def locate : List Nat → Nat → Nat × Nat
  | [], j => (0, j)
  | n :: sizes, j => if j < n then (0, j) else let r := locate sizes (j - n); (r.1 + 1, r.2)

/-- `torch.cat(ts, dim)`: all sizes but that of the axis must agree.  (The special treatment of one-dimensional empty tensors is left out.) -/
def cat (ts : List (Tensor V)) (axis : Nat) : Except PyErr (Tensor V) :=
  match ts with
  | [] => .error .runtimeError
  | t :: rest =>
    if axis < t.shape.length ∧ rest.all (fun u => u.shape.set axis 0 = t.shape.set axis 0) then
      let sizes := ts.map fun u => u.shape.getD axis 0
      .ok ⟨t.shape.set axis sizes.sum, fun idx =>
        let p := locate sizes (idx.getD axis 0)
        (ts.getD p.1 t).at (idx.set axis p.2)⟩
    else .error .runtimeError

/-- `t.expand(shape)` for a shape of sizes -/
def expand (t : Tensor V) (s : List Nat) : Except PyErr (Tensor V) :=
  if canExpand t.shape s then .ok ⟨s, fun idx => t.at (bcastIdx t.shape idx)⟩ else .error .runtimeError

/-! ### Kernels -/

/-- the loop of `SliceKernel.run` (690-696) -/
def slicesLoop (shape : List Nat) (starts ends steps : List Int) : Nat → List Int → List (Int × Int × Int) → Except PyErr (List (Int × Int × Int))
  | _, [], l => .ok l
  | i, a :: as, l =>
    match Slice.normIndex shape.length a with
    | .error e => .error e
    | .ok k => slicesLoop shape starts ends steps (i + 1) as
        (l.set k ((starts[i]?).getD 0, (ends[i]?).getD (shape.getD k 0), (steps[i]?).getD 1))

/-- `SliceKernel.run` (681-698); axes and steps are `none` when neither an input nor an attribute gives them -/
def sliceKernel (starts ends : List Int) (axes steps : Option (List Int)) (x : Tensor V) (os : List Nat) : Except PyErr (Tensor V) :=
  match slicesLoop x.shape starts ends (steps.getD (List.replicate starts.length 1)) 0 (axes.getD ((List.range starts.length).map Int.ofNat))
      (x.shape.map fun d : Nat => ((0 : Int), (d : Int), (1 : Int))) with
  | .error e => .error e
  | .ok l =>
    match slice x l with
    | .error e => .error e
    | .ok r => copyTo os r

/-- `for i, chunk in enumerate(chunks): if i < len(outputs): outputs[i].copy_(chunk)` (1150-1152); `none`: the output keeps what was in its memory -/
def fill : List (List Nat) → List (Tensor V) → Except PyErr (List (Option (Tensor V)))
  | [], _ => .ok []
  | _ :: oss, [] =>
    match fill oss [] with
    | .error e => .error e
    | .ok r => .ok (none :: r)
  | os :: oss, p :: ps =>
    match copyTo os p with
    | .error e => .error e
    | .ok y =>
      match fill oss ps with
      | .error e => .error e
      | .ok r => .ok (some y :: r)

/-- an axis attribute as a position (as torch reads `dim`) -/
def axisPos (r : Nat) (a : Int) : Nat := (if a < 0 then a + r else a).toNat

/-- `SplitKernel.run` (1133-1152); `oss` are the shapes of the outputs -/
def splitKernel (axis : Int) (sizes : Option (List Int)) (x : Tensor V) (oss : List (List Nat)) : Except PyErr (List (Option (Tensor V))) :=
  match (match sizes with
    | some l => torchSplit x (axisPos x.shape.length axis) l
    | none => chunk x (axisPos x.shape.length axis) oss.length) with
  | .error e => .error e
  | .ok ps => fill oss ps

/-- `ConcatKernel.run` (428-431); the output has the shape torch computes -/
def concatKernel (axis : Int) (xs : List (Tensor V)) : Except PyErr (Tensor V) := cat xs (axisPos ((xs.map (·.shape.length)).headD 0) axis)

/-- `ExpandKernel.run` (539-542) -/
def expandKernel (shape : List Nat) (x : Tensor V) (os : List Nat) : Except PyErr (Tensor V) :=
  match expand x shape with
  | .error e => .error e
  | .ok r => copyTo os r

end OnnxTool.Kernels
