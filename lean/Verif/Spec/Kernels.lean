import Verif.Model.Torch
/-! # ONNX semantics of the operators that move data -/
namespace OnnxTool.Kernels
open OnnxTool OnnxTool.Torch

variable {V : Type}

/-- Flatten, Reshape, Squeeze, Unsqueeze: the elements in row-major order do not change, the result has shape `os`. -/
structure IsRelaid (x : Tensor V) (os : List Nat) (y : Tensor V) : Prop where
  shape : y.shape = os
  elements : y.flat = x.flat

/-- `os` has a 1 at every position in `axes` and is otherwise `s`, in order. -/
structure IsUnsqueezed (axes : List Nat) (s os : List Nat) : Prop where
  rank : os.length = s.length + axes.length
  ones : ∀ a ∈ axes, os.getD a 0 = 1
  rest : ((List.range os.length).filter fun k => decide (k ∉ axes)).map (fun k => os.getD k 0) = s

/-- shape of Reshape: zeros copy, other entries are sizes, one `-1` is what is left over; the element count does not change -/
structure IsReshaped (s : List Nat) (target : List Int) (os : List Nat) : Prop where
  rank : os.length = target.length
  copied : ∀ i, i < target.length → target.getD i 0 = 0 → i < s.length ∧ os.getD i 0 = s.getD i 0
  given : ∀ i, i < target.length → 0 < target.getD i 0 → (os.getD i 0 : Int) = target.getD i 0
  count : numel os = numel s

/-- Transpose: axis `i` of the result is axis `perm[i]` of the operand. -/
structure IsTranspose (perm : List Nat) (x y : Tensor V) : Prop where
  shape : y.shape = perm.map fun p => x.shape.getD p 0
  value : ∀ src, InB x.shape src → y.at (perm.map fun p => src.getD p 0) = x.at src

/-- Gather along the axis at position `a`: indices may be negative (counted from the end). -/
structure IsGather (a : Nat) (data : Tensor V) (indices : Tensor Int) (y : Tensor V) : Prop where
  shape : y.shape = data.shape.take a ++ indices.shape ++ data.shape.drop (a + 1)
  value : ∀ pre i post, InB (data.shape.take a) pre → InB indices.shape i → InB (data.shape.drop (a + 1)) post →
    y.at (pre ++ i ++ post) = data.at (pre ++ [(if indices.at i < 0 then indices.at i + data.shape.getD a 0 else indices.at i).toNat] ++ post)

/-- all indices are valid for Gather -/
def GatherIndicesOk (a : Nat) (data : Tensor V) (indices : Tensor Int) : Prop :=
  ∀ i, InB indices.shape i → -(data.shape.getD a 0 : Int) ≤ indices.at i ∧ indices.at i < data.shape.getD a 0

/-- Pad with a constant: `before[k]` elements before and `after[k]` after on axis `k` (negative: crop). -/
structure IsPad (before after : List Int) (value : V) (x y : Tensor V) : Prop where
  rank : y.shape.length = x.shape.length
  sizes : ∀ k, k < x.shape.length → (y.shape.getD k 0 : Int) = before.getD k 0 + x.shape.getD k 0 + after.getD k 0
  inside : ∀ idx src, InB y.shape idx → InB x.shape src → (∀ k, k < x.shape.length → (idx.getD k 0 : Int) = before.getD k 0 + src.getD k 0) →
    y.at idx = x.at src
  outside : ∀ idx, InB y.shape idx → (∃ k, k < x.shape.length ∧
    ((idx.getD k 0 : Int) < before.getD k 0 ∨ before.getD k 0 + x.shape.getD k 0 ≤ (idx.getD k 0 : Int))) → y.at idx = value

end OnnxTool.Kernels
