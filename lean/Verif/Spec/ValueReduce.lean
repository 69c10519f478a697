import Verif.Model.Torch
import Mathlib.Algebra.Order.Ring.Rat
import Mathlib.Algebra.BigOperators.Group.List.Basic
/-! # ONNX semantics of reductions, CumSum, NonZero, ConstantOfShape, OneHot and ArgMax -/
namespace OnnxTool.Values
open OnnxTool OnnxTool.Torch

variable {V W : Type}

/-- axis `k` is listed in the axes argument of an operand with `r` axes (negative numbers count from the end) -/
def Listed (r : Nat) (l : List Int) (k : Nat) : Prop := ∃ a ∈ l, (k : Int) = if a < 0 then a + r else a

instance (r : Nat) (l : List Int) : DecidablePred (Listed r l) := fun _ => inferInstanceAs (Decidable (∃ a ∈ l, _))

/-- a valid axes argument: all inside, none twice -/
def GoodAxes (r : Nat) (l : List Int) : Prop :=
  (∀ a ∈ l, -(r : Int) ≤ a ∧ a < r) ∧ (l.map fun a : Int => if a < 0 then a + r else a).Nodup

/-- position in the index of the result of the kept axis `k` -/
def keptPos (red : Nat → Prop) [DecidablePred red] (keep : Bool) (k : Nat) : Nat :=
  if keep then k else ((List.range k).filter fun j => decide (¬ red j)).length

/-- `y` combines, at every position, exactly the elements of `x` that agree with the position on the axes that are not reduced; `R l v` says that `v` is a
result for the elements `l`. -/
structure IsReduce (red : Nat → Prop) [DecidablePred red] (keep : Bool) (R : List V → W → Prop) (x : Tensor V) (y : Tensor W) : Prop where
  shape : y.shape = if keep then (List.range x.shape.length).map (fun k => if red k then 1 else x.shape.getD k 0)
    else ((List.range x.shape.length).filter fun k => decide (¬ red k)).map fun k => x.shape.getD k 0
  value : ∀ idx, InB y.shape idx → ∃ srcs : List (List Nat), srcs.Nodup ∧
    (∀ src, src ∈ srcs ↔ InB x.shape src ∧ ∀ k, k < x.shape.length → ¬ red k → src.getD k 0 = idx.getD (keptPos red keep k) 0) ∧
    R (srcs.map x.at) (y.at idx)

/-- the largest -/
def IsLargest (l : List ℚ) (v : ℚ) : Prop := v ∈ l ∧ ∀ w ∈ l, w ≤ v
/-- the smallest -/
def IsSmallest (l : List ℚ) (v : ℚ) : Prop := v ∈ l ∧ ∀ w ∈ l, v ≤ w

/-- running sums along axis `k` -/
structure IsCumSum (k : Nat) (x y : Tensor ℚ) : Prop where
  shape : y.shape = x.shape
  first : ∀ idx, InB x.shape idx → idx.getD k 0 = 0 → y.at idx = x.at idx
  next : ∀ idx, InB x.shape idx → 0 < idx.getD k 0 → y.at idx = y.at (idx.set k (idx.getD k 0 - 1)) + x.at idx

/-- the `m`-th column of a matrix of indices -/
def column (y : Tensor Nat) (r m : Nat) : List Nat := (List.range r).map fun k => y.at [k, m]

/-- the columns of `y` are the positions of the nonzero elements, in row-major order -/
structure IsNonZero (x : Tensor ℚ) (n : Nat) (y : Tensor Nat) : Prop where
  shape : y.shape = [x.shape.length, n]
  only : ∀ m, m < n → InB x.shape (column y x.shape.length m) ∧ x.at (column y x.shape.length m) ≠ 0
  all : ∀ idx, InB x.shape idx → x.at idx ≠ 0 → ∃ m, m < n ∧ column y x.shape.length m = idx
  order : ∀ m m', m < m' → m' < n → ravel x.shape (column y x.shape.length m) < ravel x.shape (column y x.shape.length m')

/-- OneHot along the new axis `k`: `on` where the index (negative ones count from the end) says so, `off` elsewhere and for indices out of range -/
structure IsOneHot (k depth : Nat) (on off : ℚ) (x : Tensor Int) (y : Tensor ℚ) : Prop where
  shape : y.shape = x.shape.take k ++ depth :: x.shape.drop k
  value : ∀ l j r, l.length = k → InB x.shape (l ++ r) → j < depth →
    y.at (l ++ j :: r) = if x.at (l ++ r) = j ∨ x.at (l ++ r) = (j : Int) - depth then on else off

/-- position of the first largest element along axis `k` -/
structure IsArgMax (k : Nat) (keep : Bool) (x : Tensor ℚ) (y : Tensor Nat) : Prop where
  shape : y.shape = if keep then x.shape.set k 1 else x.shape.eraseIdx k
  value : ∀ src, InB x.shape src → ∀ m, m = y.at (if keep then src.set k 0 else src.eraseIdx k) →
    m < x.shape.getD k 0 ∧ x.at src ≤ x.at (src.set k m) ∧ (src.getD k 0 < m → x.at src < x.at (src.set k m))

end OnnxTool.Values
