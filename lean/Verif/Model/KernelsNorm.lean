import Verif.Model.Torch
import Mathlib.Algebra.BigOperators.Group.Finset.Basic
import Mathlib.Algebra.Field.Defs
/-!
# Normalisation kernels (`/repo/inference/kernels.py`)

Exact arithmetic in a field; square root and inverse square root are the functions `sqrt` and `rsqrt` (no property of them is used).
-/
namespace OnnxTool.Kernels
open OnnxTool OnnxTool.Torch Finset

section
variable {F : Type} [Field F]

/-! ### Torch -/

/-- size of the last axis -/
def lastDim (s : List Nat) : Nat := s.getLastD 0

/-- `x.mean(-1, keepdim=True)`, read at the row of `idx` -/
def rowMean (x : Tensor F) (idx : List Nat) : F := (∑ l ∈ range (lastDim x.shape), x.at (idx.dropLast ++ [l])) / ((lastDim x.shape : Nat) : F)

/-- `x.var(-1, keepdim=True, unbiased=False)`, read at the row of `idx` -/
def rowVar (x : Tensor F) (idx : List Nat) : F :=
  (∑ l ∈ range (lastDim x.shape), (x.at (idx.dropLast ++ [l]) - rowMean x idx) ^ 2) / ((lastDim x.shape : Nat) : F)

/-- elementwise operation with a broadcast second operand; RuntimeError if it does not fit into the first -/
def broadcastOp (f : F → F → F) (x y : Tensor F) : Except PyErr (Tensor F) :=
  if canExpand y.shape x.shape then .ok ⟨x.shape, fun idx => f (x.at idx) (y.at (bcastIdx y.shape idx))⟩ else .error .runtimeError

/-! ### Kernels -/

/-- `x * rsqrt(mean(x^2) + eps)` (kernels.py 860-863) -/
def rmsRows (rsqrt : F → F) (eps : F) (x : Tensor F) : Tensor F :=
  ⟨x.shape, fun idx => x.at idx * rsqrt (rowMean ⟨x.shape, fun i => x.at i ^ 2⟩ idx + eps)⟩

/-- `(x - mean) / sqrt(var + eps)` (kernels.py 865-869) -/
def layerRows (sqrt : F → F) (eps : F) (x : Tensor F) : Tensor F :=
  ⟨x.shape, fun idx => (x.at idx - rowMean x idx) / sqrt (rowVar x idx + eps)⟩

/-- kernels.py 860-872: normalise, scale, add the bias (only for `layer`) -/
def normBody (rms : Bool) (sqrt rsqrt : F → F) (eps : F) (x w : Tensor F) (b : Option (Tensor F)) : Except PyErr (Tensor F) :=
  if rms then broadcastOp (· * ·) (rmsRows rsqrt eps x) w
  else
    match broadcastOp (· * ·) (layerRows sqrt eps x) w with
    | .error e => .error e
    | .ok y =>
      match b with
      | none => .ok y
      | some b => broadcastOp (· + ·) y b

/-- `LayerNormKernel.run` registered for LayerNormalization (kernels.py 832-878): groups of the size of the weight when the weight is shorter than a row -/
def layerNormKernel (rms : Bool) (sqrt rsqrt : F → F) (eps : F) (x w : Tensor F) (b : Option (Tensor F)) (os : List Nat) : Except PyErr (Tensor F) :=
  let d := lastDim w.shape
  if d < lastDim x.shape then
    if d = 0 then .error .zeroDivision
    else
      match x.reshape (x.shape.dropLast ++ [lastDim x.shape / d, d]) with
      | .error e => .error e
      | .ok xg =>
        match normBody rms sqrt rsqrt eps xg w b with
        | .error e => .error e
        | .ok y =>
          match y.reshape x.shape with
          | .error e => .error e
          | .ok y => copyTo os y
  else
    match normBody rms sqrt rsqrt eps x w b with
    | .error e => .error e
    | .ok y => copyTo os y

/-- `BatchNormalizationKernel.run` (kernels.py 321-341): `F.batch_norm` in inference mode, per channel (axis 1) -/
def batchNormKernel (sqrt : F → F) (eps : F) (x scale bias mean var : Tensor F) (os : List Nat) : Except PyErr (Tensor F) :=
  if 2 ≤ x.shape.length ∧ scale.shape = [x.shape.getD 1 0] ∧ bias.shape = [x.shape.getD 1 0] ∧ mean.shape = [x.shape.getD 1 0] ∧
      var.shape = [x.shape.getD 1 0] then
    copyTo os ⟨x.shape, fun idx =>
      let c := idx.getD 1 0
      (x.at idx - mean.at [c]) / sqrt (var.at [c] + eps) * scale.at [c] + bias.at [c]⟩
  else .error .runtimeError

end
end OnnxTool.Kernels
