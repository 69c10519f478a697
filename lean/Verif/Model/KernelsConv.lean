import Verif.Model.Torch
import Mathlib.Algebra.BigOperators.Group.Finset.Basic
import Mathlib.Algebra.Field.Defs
import Mathlib.Order.Defs.LinearOrder
/-!
# Conv and pooling kernels (`/repo/inference/kernels.py` 109-139, 344-383)

Exact arithmetic.  Attributes are read as the kernels read them: `auto_pad`, `ceil_mode` and `count_include_pad` are never looked at, pooling does not
look at `dilations` either.
-/
namespace OnnxTool.Kernels
open OnnxTool OnnxTool.Torch Finset

/-! ### Torch -/

/-- read at a signed position; zero outside -/
def readPad {F : Type} [Zero F] (x : Tensor F) (n c : Nat) (i j : Int) : F :=
  if 0 ≤ i ∧ i < (x.shape.getD 2 0 : Int) ∧ 0 ≤ j ∧ j < (x.shape.getD 3 0 : Int) then x.at [n, c, i.toNat, j.toNat] else 0

/-- output size of a window of `k` elements with step `s`, padding `p` on both sides and dilation `d` -/
def outSize (h k s p d : Nat) : Nat := (h + 2 * p - (d * (k - 1) + 1)) / s + 1

/-- `F.conv2d(x, w, bias, stride, padding, dilation, groups)` on four-dimensional operands -/
def conv2d {F : Type} [CommSemiring F] (x w : Tensor F) (b : Option (Tensor F)) (s p d : Nat × Nat) (g : Nat) : Except PyErr (Tensor F) :=
  match x.shape, w.shape with
  | [n, c, h, wd], [m, cg, kh, kw] =>
    if 0 < g ∧ c = cg * g ∧ m % g = 0 ∧ 0 < s.1 ∧ 0 < s.2 ∧ 0 < kh ∧ 0 < kw ∧ d.1 * (kh - 1) + 1 ≤ h + 2 * p.1 ∧ d.2 * (kw - 1) + 1 ≤ wd + 2 * p.2 then
      .ok ⟨[n, m, outSize h kh s.1 p.1 d.1, outSize wd kw s.2 p.2 d.2], fun idx =>
        let o := idx.getD 1 0
        (∑ c ∈ range cg, ∑ u ∈ range kh, ∑ v ∈ range kw, w.at [o, c, u, v] *
          readPad x (idx.getD 0 0) (o / (m / g) * cg + c) ((idx.getD 2 0 * s.1 + u * d.1 : Nat) - (p.1 : Int)) ((idx.getD 3 0 * s.2 + v * d.2 : Nat) - (p.2 : Int))) +
        (match b with
        | some b => b.at [o]
        | none => 0)⟩
    else .error .runtimeError
  | _, _ => .error .runtimeError

/-- positions a window of `k` elements reads on an axis of size `h`: those inside -/
def taps (h k s p i : Nat) : List Nat := (List.range k).filterMap fun u =>
  if p ≤ i * s + u ∧ i * s + u - p < h then some (i * s + u - p) else none

/-- elements of a window -/
def window {V : Type} (x : Tensor V) (k s p : Nat × Nat) (n c i j : Nat) : List V :=
  (taps (x.shape.getD 2 0) k.1 s.1 p.1 i).flatMap fun a => (taps (x.shape.getD 3 0) k.2 s.2 p.2 j).map fun b => x.at [n, c, a, b]

/-- output shape of the pooling functions; RuntimeError for empty images, when the window does not fit or the padding is more than half a window -/
def poolShape (s : List Nat) (k st p : Nat × Nat) : Except PyErr (List Nat) :=
  match s with
  | [n, c, h, w] =>
    if 0 < c ∧ 0 < h ∧ 0 < w ∧ 0 < st.1 ∧ 0 < st.2 ∧ 0 < k.1 ∧ 0 < k.2 ∧ 2 * p.1 ≤ k.1 ∧ 2 * p.2 ≤ k.2 ∧ k.1 ≤ h + 2 * p.1 ∧ k.2 ≤ w + 2 * p.2 then
      .ok [n, c, outSize h k.1 st.1 p.1 1, outSize w k.2 st.2 p.2 1]
    else .error .runtimeError
  | _ => .error .runtimeError

/-- `F.max_pool2d(x, k, stride, padding)`; padding counts as minus infinity -/
def maxPool2d {V : Type} [LinearOrder V] (x : Tensor V) (k s p : Nat × Nat) : Except PyErr (Tensor V) :=
  match poolShape x.shape k s p with
  | .error e => .error e
  | .ok os => .ok ⟨os, fun idx =>
      match window x k s p (idx.getD 0 0) (idx.getD 1 0) (idx.getD 2 0) (idx.getD 3 0) with
      | [] => x.at idx  -- cannot happen: the padding is at most half a window
      | a :: l => l.foldl max a⟩

/-- `F.avg_pool2d(x, k, stride, padding)`: the sum over the window divided by the window size, padding included (`count_include_pad=True`) -/
def avgPool2d {F : Type} [Field F] (x : Tensor F) (k s p : Nat × Nat) : Except PyErr (Tensor F) :=
  match poolShape x.shape k s p with
  | .error e => .error e
  | .ok os => .ok ⟨os, fun idx =>
      (window x k s p (idx.getD 0 0) (idx.getD 1 0) (idx.getD 2 0) (idx.getD 3 0)).sum / ((k.1 * k.2 : Nat) : F)⟩

/-! ### Kernels -/

/-- the padding `ConvKernel.run` makes of the attribute (124-129) -/
def convPads (pads : List Nat) : Nat × Nat :=
  match pads with
  | [a, b] => (a, b)
  | [a, _, c, _] => (a, c)
  | _ => (0, 0)

/-- the padding the pooling kernels make of the attribute (354-357, 375-378) -/
def poolPads (pads : List Nat) : Nat × Nat :=
  match pads with
  | [a, _, c, _] => (a, c)
  | _ => (0, 0)

/-- `ConvKernel.run` (113-139) -/
def convKernel {F : Type} [CommSemiring F] (strides dilations : Nat × Nat) (pads : List Nat) (group : Nat) (x w : Tensor F) (b : Option (Tensor F))
    (os : List Nat) : Except PyErr (Tensor F) :=
  match conv2d x w b strides (convPads pads) dilations group with
  | .error e => .error e
  | .ok r => copyTo os r

/-- `MaxPoolKernel.run` (369-383) -/
def maxPoolKernel {V : Type} [LinearOrder V] (kernel strides : Nat × Nat) (pads : List Nat) (x : Tensor V) (os : List Nat) : Except PyErr (Tensor V) :=
  match maxPool2d x kernel strides (poolPads pads) with
  | .error e => .error e
  | .ok r => copyTo os r

/-- `AveragePoolKernel.run` (348-362) -/
def avgPoolKernel {F : Type} [Field F] (kernel strides : Nat × Nat) (pads : List Nat) (x : Tensor F) (os : List Nat) : Except PyErr (Tensor F) :=
  match avgPool2d x kernel strides (poolPads pads) with
  | .error e => .error e
  | .ok r => copyTo os r

end OnnxTool.Kernels
