import Verif.Model.Torch
import Mathlib.Algebra.BigOperators.Group.Finset.Basic
import Mathlib.Algebra.Field.Defs
/-! # What the normalisations compute -/
namespace OnnxTool.Kernels
open OnnxTool OnnxTool.Torch Finset

variable {F : Type} [Field F]

/-- mean of `d` numbers -/
def mean (d : Nat) (v : Nat → F) : F := (∑ l ∈ range d, v l) / (d : F)

/-- RMS norm of the `j`-th of `d` numbers -/
def rmsOf (rsqrt : F → F) (eps : F) (d : Nat) (v : Nat → F) (j : Nat) : F := v j * rsqrt (mean d (fun l => v l ^ 2) + eps)

/-- layer norm of the `j`-th of `d` numbers, before scale and bias -/
def layerOf (sqrt : F → F) (eps : F) (d : Nat) (v : Nat → F) (j : Nat) : F :=
  (v j - mean d v) / sqrt (mean d (fun l => (v l - mean d v) ^ 2) + eps)

/-- the `j`-th bias, zero when there is none -/
def biasOf (b : Option (Tensor F)) (j : Nat) : F :=
  match b with
  | some b => b.at [j]
  | none => 0

/-- Every row of `g * d` elements is cut into `g` groups of `d`; each group is normalised on its own, scaled by the `d` weights and shifted by the
`d` biases. -/
structure IsGroupNorm (rms : Bool) (sqrt rsqrt : F → F) (eps : F) (lead : List Nat) (g d : Nat) (x w : Tensor F) (b : Option (Tensor F)) (y : Tensor F) : Prop where
  shape : y.shape = lead ++ [g * d]
  value : ∀ i k j, InB lead i → k < g → j < d → y.at (i ++ [k * d + j]) =
    (if rms then rmsOf rsqrt eps d (fun l => x.at (i ++ [k * d + l])) j * w.at [j]
    else layerOf sqrt eps d (fun l => x.at (i ++ [k * d + l])) j * w.at [j] + biasOf b j)

/-- BatchNormalization in inference mode: channel `c` (axis 1) is shifted by its mean, divided by its deviation, scaled and shifted. -/
structure IsBatchNorm (sqrt : F → F) (eps : F) (x scale bias mean var y : Tensor F) : Prop where
  shape : y.shape = x.shape
  value : ∀ n c rest, InB x.shape (n :: c :: rest) →
    y.at (n :: c :: rest) = scale.at [c] * (x.at (n :: c :: rest) - mean.at [c]) / sqrt (var.at [c] + eps) + bias.at [c]

end OnnxTool.Kernels
