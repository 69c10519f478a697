import Verif.Model.KernelsTopK
import Verif.Spec.KernelsElem
/-! # TopK -/
namespace OnnxTool.Kernels
open OnnxTool OnnxTool.Torch

/-- `a` comes before `b`: the larger first, or the smaller first -/
def Before (largest : Bool) (a b : ℚ) : Prop := if largest then b ≤ a else a ≤ b

/-- the elements of `x` along axis `a`, at the place given by `idx` -/
def along (x : Tensor ℚ) (a : Nat) (idx : List Nat) : List ℚ := (List.range (x.shape.getD a 0)).map fun p => x.at (idx.set a p)

/-- What torch documents: `k` different positions of every fibre, none of the others comes before any of them, in order if `sorted`; which of several equal elements is left open. -/
structure IsTorchTopK (largest sorted : Bool) (a k : Nat) (x : Tensor ℚ) (v : Tensor ℚ) (ix : Tensor Int) : Prop where
  vshape : v.shape = x.shape.set a k
  ishape : ix.shape = x.shape.set a k
  value : ∀ idx, InB v.shape idx → ∃ p : Nat, p < x.shape.getD a 0 ∧ ix.at idx = p ∧ v.at idx = x.at (idx.set a p)
  distinct : ∀ idx i j, InB v.shape idx → i < k → j < k → i ≠ j → ix.at (idx.set a i) ≠ ix.at (idx.set a j)
  best : ∀ idx, InB v.shape idx → ∀ p, p < x.shape.getD a 0 → (∀ i, i < k → ix.at (idx.set a i) ≠ (p : Int)) → Before largest (v.at idx) (x.at (idx.set a p))
  order : sorted = true → ∀ idx i j, InB v.shape idx → i < j → j < k → Before largest (v.at (idx.set a i)) (v.at (idx.set a j))

/-- ONNX's values: the first `k` elements of the fibre put in order -/
structure IsTopValues (largest : Bool) (a k : Nat) (x : Tensor ℚ) (y : Tensor ℚ) : Prop where
  shape : y.shape = x.shape.set a k
  value : ∀ idx, InB y.shape idx → ∃ l : List ℚ, l.Perm (along x a idx) ∧ l.Pairwise (Before largest) ∧ ∀ j, j < k → l[j]? = some (y.at (idx.set a j))

/-- ONNX's indices: the first `k` positions of the fibre put in order, equal elements in the order of their positions -/
structure IsTopIndices (largest : Bool) (a k : Nat) (x : Tensor ℚ) (y : Tensor Int) : Prop where
  shape : y.shape = x.shape.set a k
  value : ∀ idx, InB y.shape idx → ∃ l : List Nat, l.Perm (List.range (x.shape.getD a 0)) ∧
    l.Pairwise (fun p q => Before largest (x.at (idx.set a p)) (x.at (idx.set a q)) ∧ (x.at (idx.set a p) = x.at (idx.set a q) → p < q)) ∧
    ∀ j, j < k → l[j]?.map (fun p : Nat => (p : Int)) = some (y.at (idx.set a j))

end OnnxTool.Kernels
