import Verif.Model.Torch
import Mathlib.Data.List.Sort
/-!
# Kernels that move data (`/repo/inference/kernels.py`)

Each kernel gets its operands, attributes and the shape `os` of the output tensor it has to fill.
-/
namespace OnnxTool.Kernels
open OnnxTool OnnxTool.Torch

variable {V : Type}

/-- Python `s[:a]` with a negative `a` counting from the end -/
def upTo (s : List Nat) (a : Int) : List Nat := s.take (if a < 0 then a + s.length else a).toNat

/-- Python `s[a:]` -/
def fromTo (s : List Nat) (a : Int) : List Nat := s.drop (if a < 0 then a + s.length else a).toNat

/-- `FlattenKernel.run` (401-421) -/
def flattenKernel (axis : Int) (x : Tensor V) (os : List Nat) : Except PyErr (Tensor V) :=
  match x.reshape (if axis = 0 then [numel x.shape] else upTo x.shape axis ++ [numel (fromTo x.shape axis)]) with
  | .error e => .error e
  | .ok r =>
    if r.shape = os then copyTo os r
    else
      match r.reshape os with
      | .error e => .error e
      | .ok r => copyTo os r

/-- the loop of `ReshapeKernel.run` (247-255) from position `si` on: a zero takes the size of the input axis (IndexError if there is none) -/
def copyDims (xs : List Nat) : Nat → List Int → Except PyErr (List Int)
  | _, [] => .ok []
  | si, s :: shape =>
    match copyDims xs (si + 1) shape with
    | .error e => .error e
    | .ok r =>
      if s = 0 then
        match xs[si]? with
        | some d => .ok ((d : Int) :: r)
        | none => .error .indexError
      else .ok (s :: r)

/-- product of the entries other than `-1` -/
def known : List Int → Nat
  | [] => 1
  | s :: l => if s = -1 then known l else s.toNat * known l

/-- `x.reshape(s)` of torch: at most one `-1`, which is what is left over; everything else must be a size -/
def reshapeInts (x : Tensor V) (s : List Int) : Except PyErr (Tensor V) :=
  if s.any (· < -1) ∨ 1 < s.count (-1) then .error .runtimeError
  else if s.count (-1) = 1 then
    if known s ≠ 0 ∧ numel x.shape % known s = 0 then
      x.reshape (s.map fun d => if d = -1 then numel x.shape / known s else d.toNat)
    else .error .runtimeError
  else x.reshape (s.map Int.toNat)

/-- `ReshapeKernel.run` (238-256) -/
def reshapeKernel (target : List Int) (x : Tensor V) (os : List Nat) : Except PyErr (Tensor V) :=
  match copyDims x.shape 0 target with
  | .error e => .error e
  | .ok s =>
    match reshapeInts x s with
    | .error e => .error e
    | .ok r => copyTo os r

/-- `for ax in axes: t = t.unsqueeze(ax)` -/
def unsqueezeLoop : List Int → Tensor V → Except PyErr (Tensor V)
  | [], t => .ok t
  | a :: axes, t =>
    match t.unsqueeze a with
    | .error e => .error e
    | .ok u => unsqueezeLoop axes u

/-- `UnsqueezeKernel.run` (461-475) with axes -/
def unsqueezeKernel (axes : List Int) (x : Tensor V) (os : List Nat) : Except PyErr (Tensor V) :=
  match unsqueezeLoop (axes.insertionSort (· ≤ ·)) x with
  | .error e => .error e
  | .ok u => copyTo os u

/-- `SqueezeKernel.run` (448-454): only the attribute is read; axes given as a second input (opset 13 and later) are ignored -/
def squeezeKernel (axes : Option (List Int)) (x : Tensor V) (os : List Nat) : Except PyErr (Tensor V) :=
  match x.squeeze axes with
  | .error e => .error e
  | .ok u => copyTo os u

/-- `TransposeKernel.run` (263-270) -/
def transposeKernel (perm : Option (List Nat)) (x : Tensor V) (os : List Nat) : Except PyErr (Tensor V) :=
  match perm with
  | none => copyTo os x.T
  | some p =>
    match x.permute p with
    | .error e => .error e
    | .ok r => copyTo os r

/-- an axis attribute as a position -/
def position (r : Nat) (a : Int) : Nat := (if a < 0 then a + r else a).toNat

/-- `GatherKernel.run` (492-508): the reshape for multi-dimensional indices is to the shape the selection already has -/
def gatherKernel (axis : Int) (data : Tensor V) (indices : Tensor Int) (os : List Nat) : Except PyErr (Tensor V) :=
  match data.indexSelect (position data.shape.length axis) indices.flat with
  | .error e => .error e
  | .ok r => copyTo os r

/-- `pad_tuple` of `PadKernel.run` (714-719): begins and ends interleaved, then the whole list reversed -/
def padTuple (pads : List Int) : List Int :=
  let n := pads.length / 2
  ((List.range n).flatMap fun i => [pads.getD i 0, pads.getD (i + n) 0]).reverse

/-- how `F.pad` reads its tuple: pairs (before, after), last axis first -/
def pairUp : List Int → List (Int × Int)
  | a :: b :: l => (a, b) :: pairUp l
  | _ => []

/-- `PadKernel.run` (705-722), mode constant -/
def padKernel (pads : List Int) (value : V) (x : Tensor V) (os : List Nat) : Except PyErr (Tensor V) :=
  match x.pad (pairUp (padTuple pads)) value with
  | .error e => .error e
  | .ok r => copyTo os r

end OnnxTool.Kernels
