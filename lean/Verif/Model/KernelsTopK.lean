import Verif.Model.KernelsElem
/-!
# The TopK kernel (`/repo/inference/kernels.py` 1155-1175)

Torch is not part of the repository; `torch.topk` documents which elements it returns but not which of several equal ones, so it is a parameter here, with the documented behaviour
as its specification (`Spec/KernelsTopK.lean`).
-/
namespace OnnxTool.Kernels
open OnnxTool OnnxTool.Torch

/-- `torch.topk(x, k, dim=axis, largest=…, sorted=…)` for a valid axis and `k`: values and indices -/
abbrev TorchTopK := Bool → Bool → Nat → Nat → Tensor ℚ → Tensor ℚ × Tensor Int

/-- the checks of `torch.topk` -/
def torchTopK (tk : TorchTopK) (largest sorted : Bool) (axis : Int) (k : Int) (x : Tensor ℚ) : Except PyErr (Tensor ℚ × Tensor Int) :=
  match torchDim x.shape.length axis with
  | .error e => .error e
  | .ok a => if 0 ≤ k ∧ k ≤ (x.shape.getD a 0 : Int) then .ok (tk largest sorted a k.toNat x) else .error .runtimeError

/-- line 1165: `int(inputs[1].item())` if there is a second input, else the attribute `k` (default 1); `item()` needs exactly one element -/
def topkCount (input : Option (Tensor Int)) (attr : Option Int) : Except PyErr Int :=
  match input with
  | none => .ok (attr.getD 1)
  | some t => if numel t.shape = 1 then .ok (t.at (unravel t.shape 0)) else .error .runtimeError

/-- lines 1172-1174: `copy_` of the indices into the second output (place and planned shape), if there is one; `conv` is the conversion of a whole number to the element type of the pool -/
def storeIndices (mem : Nat → ℚ) (conv : Int → ℚ) (out : Option (Nat × List Nat)) (ix : Tensor Int) : Except PyErr (Nat → ℚ) :=
  match out with
  | none => .ok mem
  | some (off, os) => copyStore mem off os (.ok ⟨ix.shape, fun idx => conv (ix.at idx)⟩)

/-- `TopKKernel.run` (1160-1174) -/
def topkKernel (mem : Nat → ℚ) (off : Nat) (os : List Nat) (out : Option (Nat × List Nat)) (tk : TorchTopK) (conv : Int → ℚ) (axis : Option Int) (largest sorted : Int)
    (kattr : Option Int) (x : Tensor ℚ) (kin : Option (Tensor Int)) : Except PyErr (Nat → ℚ) :=
  match topkCount kin kattr with
  | .error e => .error e
  | .ok k =>
    match torchTopK tk (largest != 0) (sorted != 0) (axis.getD (-1)) k x with
    | .error e => .error e
    | .ok (v, ix) =>
      match copyStore mem off os (.ok v) with
      | .error e => .error e
      | .ok mem' => storeIndices mem' conv out ix

end OnnxTool.Kernels
