import Verif.Spec.ValueMath
import Mathlib.Algebra.BigOperators.Group.Finset.Basic
import Mathlib.Algebra.Field.Defs
/-! # ONNX semantics of MatMul, Gemm, MatMulInteger, GlobalAveragePool and Softmax (Conv, MaxPool and BatchNormalization are in `Spec/Kernels*.lean`) -/
namespace OnnxTool.Values
open OnnxTool OnnxTool.Torch OnnxTool.Shape Finset

variable {F : Type} [Field F]

/-- `y = a @ b`: matrices in the last two axes, the axes before them are broadcast. -/
structure IsMatMul (la lb : List Nat) (m k n : Nat) (a b y : Tensor F) : Prop where
  shape : ∃ r, IsBroadcast [la, lb] r ∧ y.shape = r ++ [m, n]
  value : ∀ r bi sa sb i j, y.shape = r ++ [m, n] → InB r bi → Source la r bi sa → Source lb r bi sb → i < m → j < n →
    y.at (bi ++ [i, j]) = ∑ l ∈ range k, a.at (sa ++ [i, l]) * b.at (sb ++ [l, j])

/-- `A` or its transpose -/
def entry (trans : Bool) (a : Tensor F) (i j : Nat) : F := if trans then a.at [j, i] else a.at [i, j]

/-- Gemm: `alpha * A' * B' + beta * C`, `C` broadcast to the result. -/
structure IsGemm (alpha beta : F) (transA transB : Bool) (m k n : Nat) (a b : Tensor F) (c : Option (Tensor F)) (y : Tensor F) : Prop where
  shape : y.shape = [m, n]
  plain : c = none → ∀ i j, i < m → j < n → y.at [i, j] = alpha * ∑ l ∈ range k, entry transA a i l * entry transB b l j
  added : ∀ c', c = some c' → ∀ i j s, i < m → j < n → Source c'.shape [m, n] [i, j] s →
    y.at [i, j] = alpha * (∑ l ∈ range k, entry transA a i l * entry transB b l j) + beta * c'.at s

/-- MatMulInteger on matrices with scalar zero points. -/
structure IsMatMulInteger (m k n : Nat) (za zb : F) (a b y : Tensor F) : Prop where
  shape : y.shape = [m, n]
  value : ∀ i j, i < m → j < n → y.at [i, j] = ∑ l ∈ range k, (a.at [i, l] - za) * (b.at [l, j] - zb)

/-- GlobalAveragePool: the mean of every channel, axes kept. -/
structure IsGlobalAverage (n c h w : Nat) (x y : Tensor F) : Prop where
  shape : y.shape = [n, c, 1, 1]
  value : ∀ i o, i < n → o < c → y.at [i, o, 0, 0] = (∑ a ∈ range h, ∑ b ∈ range w, x.at [i, o, a, b]) / ((h * w : Nat) : F)

/-- Softmax along axis `k`. -/
structure IsSoftmax (exp : F → F) (k : Nat) (x y : Tensor F) : Prop where
  shape : y.shape = x.shape
  value : ∀ idx, InB x.shape idx → y.at idx = exp (x.at idx) / ∑ j ∈ range (x.shape.getD k 0), exp (x.at (idx.set k j))

end OnnxTool.Values
