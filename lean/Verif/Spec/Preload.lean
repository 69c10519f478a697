import Verif.Model.Torch
import Mathlib.Algebra.BigOperators.Group.Finset.Basic
import Mathlib.Algebra.Ring.Defs
/-! # What MatMul, Gemm and a checkpoint's linear layer compute -/
namespace OnnxTool.Preload
open OnnxTool OnnxTool.Torch Finset

variable {F : Type} [CommRing F]

/-- the bias of a projection, a vector over the output features -/
def biasAt (b : Option (Tensor F)) (n : Nat) : F :=
  match b with
  | some b => b.at [n]
  | none => 0

/-- `y = x · W + b` with `W` stored as in an ONNX file: input features × output features. -/
structure IsMatMul (lead : List Nat) (k n : Nat) (x w : Tensor F) (b : Option (Tensor F)) (y : Tensor F) : Prop where
  shape : y.shape = lead ++ [n]
  value : ∀ i, i.length = lead.length → ∀ j, j < n → y.at (i ++ [j]) = ∑ l ∈ range k, x.at (i ++ [l]) * w.at [l, j] + biasAt b j

/-- `y = x · Wᵀ + b` with `W` stored as in a PyTorch checkpoint: output features × input features. -/
structure IsLinear (lead : List Nat) (k n : Nat) (x w : Tensor F) (b : Option (Tensor F)) (y : Tensor F) : Prop where
  shape : y.shape = lead ++ [n]
  value : ∀ i, i.length = lead.length → ∀ j, j < n → y.at (i ++ [j]) = ∑ l ∈ range k, x.at (i ++ [l]) * w.at [j, l] + biasAt b j

/-- element of the third operand of Gemm, broadcast to a matrix -/
def gemmBias (c : Option (Tensor F)) (i j : Nat) : F :=
  match c with
  | none => 0
  | some c =>
    match c.shape with
    | [] => c.at []
    | [d] => c.at [if d = 1 then 0 else j]
    | [d, e] => c.at [if d = 1 then 0 else i, if e = 1 then 0 else j]
    | _ => 0

/-- ONNX Gemm: `y = α · op(A) · op(B) + β · C`. -/
structure IsGemm (alpha beta : F) (transA transB : Bool) (m k n : Nat) (a b : Tensor F) (c : Option (Tensor F)) (y : Tensor F) : Prop where
  shape : y.shape = [m, n]
  value : ∀ i, i < m → ∀ j, j < n → y.at [i, j] =
    alpha * ∑ l ∈ range k, (if transA then a.at [l, i] else a.at [i, l]) * (if transB then b.at [j, l] else b.at [l, j]) +
      beta * gemmBias c i j

/-- the third operand can be broadcast to `m × n` -/
def GemmBiasOk (c : Option (Tensor F)) (m n : Nat) : Prop :=
  ∀ c', c = some c' → c'.shape = [] ∨ (∃ d, c'.shape = [d] ∧ (d = 1 ∨ d = n)) ∨
    ∃ d e, c'.shape = [d, e] ∧ (d = 1 ∨ d = m) ∧ (e = 1 ∨ e = n)

end OnnxTool.Preload
