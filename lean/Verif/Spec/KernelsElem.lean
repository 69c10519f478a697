import Verif.Spec.ValueMath
import Verif.Spec.ValueReduce
/-! # What the elementwise, reducing and selecting kernels leave in the memory pool -/
namespace OnnxTool.Kernels
open OnnxTool OnnxTool.Torch OnnxTool.Values OnnxTool.Shape

variable {V : Type}

/-- From address `off` on the memory holds the elements of `y` in row-major order; no other address has changed. -/
structure Stored (mem mem' : Nat → V) (off : Nat) (y : Tensor V) : Prop where
  value : ∀ idx, InB y.shape idx → mem' (off + ravel y.shape idx) = y.at idx
  frame : ∀ a, a < off ∨ off + numel y.shape ≤ a → mem' a = mem a

/-- The outcome `r` is: exactly the slot of shape `os` at `off` is filled, with a tensor that satisfies `P`. -/
def Fills (mem : Nat → V) (off : Nat) (os : List Nat) (r : Except PyErr (Nat → V)) (P : Tensor V → Prop) : Prop :=
  ∃ mem' y, r = .ok mem' ∧ y.shape = os ∧ P y ∧ Stored mem mem' off y

/-- one function applied to every element -/
structure IsMap (f : V → V) (x y : Tensor V) : Prop where
  shape : y.shape = x.shape
  value : ∀ idx, InB x.shape idx → y.at idx = f (x.at idx)

/-- Softmax along axis `k`: the elements are in proportion to the exponentials, and add up to 1. -/
structure IsSoftmax (exp : ℚ → ℚ) (k : Nat) (x y : Tensor ℚ) : Prop where
  shape : y.shape = x.shape
  ratio : ∀ idx, InB x.shape idx → ∀ j, j < x.shape.getD k 0 → y.at idx * exp (x.at (idx.set k j)) = y.at (idx.set k j) * exp (x.at idx)
  total : ∀ idx, InB x.shape idx → ((List.range (x.shape.getD k 0)).map fun j => y.at (idx.set k j)).sum = 1

/-- Tile: on every axis the operand is repeated. -/
structure IsTile (reps : List Nat) (x y : Tensor V) : Prop where
  shape : y.shape = List.zipWith (fun d n => d * n) x.shape reps
  value : ∀ idx src, InB y.shape idx → InB x.shape src → (∀ k, k < x.shape.length → ∃ c, idx.getD k 0 = c * x.shape.getD k 0 + src.getD k 0) → y.at idx = x.at src

/-- GatherElements along axis `k`; negative indices count from the end. -/
structure IsGatherElements (k : Nat) (data : Tensor V) (index : Tensor Int) (y : Tensor V) : Prop where
  shape : y.shape = index.shape
  value : ∀ idx, InB index.shape idx → y.at idx =
    data.at (idx.set k (if index.at idx < 0 then index.at idx + data.shape.getD k 0 else index.at idx).toNat)

/-- GlobalAveragePool: the mean over everything but the first two axes. -/
def IsGlobalMean (x y : Tensor ℚ) : Prop := IsReduce (fun k => 2 ≤ k) true (fun l v => v = l.sum / (l.length : ℚ)) x y

/-- rows `past`, …, of the table, `len` of them -/
structure IsRows (past len : Nat) (table y : Tensor V) : Prop where
  shape : y.shape = len :: table.shape.tail
  value : ∀ i rest, i < len → InB table.shape.tail rest → y.at (i :: rest) = table.at ((past + i) :: rest)

/-- Layer normalisation over the axes `red`, with scale and bias that broadcast to the operand: `m` are the means and `v` the variances. -/
def IsFusedNorm (rsqrt : ℚ → ℚ) (eps : ℚ) (red : Nat → Prop) [DecidablePred red] (x w b y : Tensor ℚ) : Prop :=
  ∃ m v : Tensor ℚ, IsReduce red true (fun l a => a = l.sum / (l.length : ℚ)) x m ∧
    IsReduce red true (fun l a => a = (l.map fun c => (c - l.sum / (l.length : ℚ)) ^ 2).sum / (l.length : ℚ)) x v ∧
    y.shape = x.shape ∧ ∀ idx i j k, InB x.shape idx → Source m.shape x.shape idx i → Source w.shape x.shape idx j → Source b.shape x.shape idx k →
      y.at idx = (x.at idx - m.at i) * rsqrt (v.at i + eps) * w.at j + b.at k

/-- `s` broadcasts to `r` without changing it -/
def Within (s r : List Nat) : Prop := IsBroadcast [s, r] r

end OnnxTool.Kernels
