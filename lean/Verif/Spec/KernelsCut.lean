import Verif.Model.Torch
import Verif.Spec.Slice
/-! # ONNX semantics of Slice, Split, Concat and Expand on elements -/
namespace OnnxTool.Kernels
open OnnxTool OnnxTool.Torch OnnxTool.Slice

variable {V : Type}

/-- `os` is the shape of the slice: a named axis has as many elements as are selected, the others keep their size. -/
structure IsSliceShape (starts ends axes steps : List Int) (s os : List Nat) : Prop where
  rank : os.length = s.length
  named : ∀ j, j < axes.length → CountSelected (s.getD (axisOf s.length (axes.getD j 0)) 0) (starts.getD j 0) (ends.getD j 0) (steps.getD j 0)
    (os.getD (axisOf s.length (axes.getD j 0)) 0)
  other : ∀ k, k < s.length → k ∉ axes.map (axisOf s.length) → os.getD k 0 = s.getD k 0

/-- Slice: element `i` of a named axis is the one at `first + i * step`; on the other axes nothing moves. -/
structure IsSlice (starts ends axes steps : List Int) (x y : Tensor V) : Prop where
  shape : IsSliceShape starts ends axes steps x.shape y.shape
  value : ∀ idx src, InB y.shape idx → InB x.shape src →
    (∀ j, j < axes.length → (src.getD (axisOf x.shape.length (axes.getD j 0)) 0 : Int) =
      firstPos (x.shape.getD (axisOf x.shape.length (axes.getD j 0)) 0) (starts.getD j 0) (steps.getD j 0) +
      idx.getD (axisOf x.shape.length (axes.getD j 0)) 0 * steps.getD j 0) →
    (∀ k, k < x.shape.length → k ∉ axes.map (axisOf x.shape.length) → src.getD k 0 = idx.getD k 0) → y.at idx = x.at src
  inside : ∀ idx, InB y.shape idx → ∃ src, InB x.shape src ∧
    (∀ j, j < axes.length → (src.getD (axisOf x.shape.length (axes.getD j 0)) 0 : Int) =
      firstPos (x.shape.getD (axisOf x.shape.length (axes.getD j 0)) 0) (starts.getD j 0) (steps.getD j 0) +
      idx.getD (axisOf x.shape.length (axes.getD j 0)) 0 * steps.getD j 0) ∧
    (∀ k, k < x.shape.length → k ∉ axes.map (axisOf x.shape.length) → src.getD k 0 = idx.getD k 0)

/-- `y` is the part of `x` from `off` on, `len` long, along the axis at position `a`. -/
structure IsPart (a off len : Nat) (x y : Tensor V) : Prop where
  shape : y.shape = x.shape.take a ++ len :: x.shape.drop (a + 1)
  value : ∀ pre j post, InB (x.shape.take a) pre → j < len → InB (x.shape.drop (a + 1)) post →
    y.at (pre ++ j :: post) = x.at (pre ++ (off + j) :: post)

/-- Split of `x` into consecutive parts of the given sizes. -/
def IsSplit (a : Nat) (sizes : List Nat) (x : Tensor V) (ys : List (Tensor V)) : Prop :=
  sizes.sum = x.shape.getD a 0 ∧ ys.length = sizes.length ∧
    ∀ i y, ys[i]? = some y → IsPart a (sizes.take i).sum (sizes.getD i 0) x y

/-- Concatenation: the operands are its consecutive parts. -/
def IsConcat (a : Nat) (xs : List (Tensor V)) (y : Tensor V) : Prop :=
  IsSplit a (xs.map fun x => x.shape.getD a 0) y xs

/-- Expand: the result has the common broadcast shape; element by element, axes of size 1 (or missing) are repeated. -/
structure IsExpand (os : List Nat) (x y : Tensor V) : Prop where
  shape : y.shape = os
  value : ∀ idx src, InB os idx → InB x.shape src →
    (∀ k, k < x.shape.length → src.getD k 0 = if x.shape.getD k 0 = 1 then 0 else idx.getD (os.length - x.shape.length + k) 0) → y.at idx = x.at src

end OnnxTool.Kernels
