import Verif.Model.Torch
import Mathlib.Algebra.BigOperators.Group.Finset.Basic
import Mathlib.Algebra.Ring.Defs
/-!
# Constants of a runtime (`GraphInfer._preload_constants`, `/repo/inference/infer.py` 502-534, 579-664) and the matrix kernels

Modelled: the choice of the names to load, where the value comes from (checkpoint under its own name, checkpoint through the name map,
data embedded in the model), the transposition for MatMul and the `preprocess_weight` hook of the first consumer; `MatMulKernel` with a
matrix as second operand and `GemmKernel` (`/repo/inference/kernels.py` 274-318).  Arithmetic is exact in a commutative ring.
Left out: dtype conversion; the fallback of 601-606 when nothing is loaded otherwise.
-/
namespace OnnxTool.Preload
open OnnxTool OnnxTool.Torch

/-- a node: operator, attribute `transB`, operands -/
structure Node where
  op : String
  transB : Bool := false
  input : List String

/-- what the constructor has: the nodes in order, the initializers, the tensors of type STATIC with their embedded data, the names updated
from the checkpoint, the checkpoint (if a path was given) and the name map -/
structure Setup (V : Type) where
  nodes : List Node
  initials : List String := []
  statics : Dict (Option (Tensor V)) := []
  updated : List String := []
  checkpoint : Option (Dict (Tensor V)) := none
  weightMap : Dict String := []

variable {V : Type}

/-- names to load (592-613): initializers, names updated from the checkpoint, static tensors without data -/
def Setup.loaded (s : Setup V) (x : String) : Bool :=
  s.initials.contains x || s.updated.contains x || (match s.statics.get? x with | some none => true | _ => false)

/-- the first consumer (616-622) -/
def Setup.consumer (s : Setup V) (x : String) : Option Node := s.nodes.find? fun n => n.input.contains x

/-- the value before processing (636-650) -/
def Setup.source (s : Setup V) (x : String) : Option (Tensor V) :=
  let fromCk := s.checkpoint.bind fun ck =>
    match ck.get? x with
    | some t => some t
    | none => (s.weightMap.get? x).bind ck.get?
  match fromCk with
  | some t => some t
  | none => (s.statics.get? x).bind id

/-- `_transpose_safetensors_tensor` (527-533): every matrix whose first consumer is a MatMul -/
def transposed (op : String) (t : Tensor V) : Tensor V := if op = "MatMul" ∧ t.shape.length = 2 then t.T else t

/-- `preprocess_weight` (kernels.py 73-87, 301-306): only Gemm has its own -/
def preprocess (n : Node) (t : Tensor V) : Tensor V := if n.op = "Gemm" ∧ n.transB = true then t.T else t

/-- `_constant_tensors[x]` (625-664) -/
def Setup.constant (s : Setup V) (x : String) : Option (Tensor V) :=
  if s.loaded x then
    (s.source x).map fun t =>
      match s.consumer x with
      | some n => preprocess n (transposed n.op t)
      | none => transposed "" t
  else none

open Finset

variable {F : Type} [CommRing F]

/-- `torch.matmul(x, w)` for a matrix `w`: sums over the last axis of `x` -/
def matmul (x w : Tensor F) : Except PyErr (Tensor F) :=
  match w.shape with
  | [k, n] =>
    if x.shape.getLast? = some k then
      .ok ⟨x.shape.dropLast ++ [n], fun idx => ∑ j ∈ range k, x.at (idx.dropLast ++ [j]) * w.at [j, idx.getLastD 0]⟩
    else .error .runtimeError
  | _ => .error .runtimeError

/-- `out.add_(b)`: `b` is broadcast -/
def addTo (y b : Tensor F) : Except PyErr (Tensor F) :=
  if canExpand b.shape y.shape then .ok ⟨y.shape, fun idx => y.at idx + b.at (bcastIdx b.shape idx)⟩ else .error .runtimeError

/-- `MatMulKernel.run` (kernels.py 313-318) with a matrix as second operand -/
def matmulKernel (x w : Tensor F) (bias : Option (Tensor F)) : Except PyErr (Tensor F) :=
  match matmul x w with
  | .error e => .error e
  | .ok y =>
    match bias with
    | none => .ok y
    | some b => addTo y b

/-- `GemmKernel.run` (kernels.py 277-298): `transB` is not looked at -/
def gemmKernel (alpha beta : F) (transA : Bool) (a b : Tensor F) (c : Option (Tensor F)) : Except PyErr (Tensor F) :=
  let a := if transA then a.T else a
  if a.shape.length = 2 then
    match matmul a b with
    | .error e => .error e
    | .ok y =>
      let y : Tensor F := ⟨y.shape, fun idx => y.at idx * alpha⟩
      match c with
      | none => .ok y
      | some c => addTo y ⟨c.shape, fun idx => beta * c.at idx⟩
  else .error .runtimeError

end OnnxTool.Preload
