import Verif.Spec.Kernels
import Verif.Spec.Conv
import Mathlib.Algebra.BigOperators.Group.Finset.Basic
import Mathlib.Algebra.Field.Defs
import Mathlib.Order.Defs.LinearOrder
/-! # ONNX semantics of Conv, MaxPool and AveragePool (two spatial axes) -/
namespace OnnxTool.Kernels
open OnnxTool OnnxTool.Torch OnnxTool.Conv Finset

/-- padding of the two spatial axes: ONNX lists `[top, left, bottom, right]` -/
structure Pads where
  top : Nat
  left : Nat
  bottom : Nat
  right : Nat

/-- the attribute value -/
def Pads.list (p : Pads) : List Nat := [p.top, p.left, p.bottom, p.right]

/-- `xp` is `x` with a border of `value` -/
def Padded {V : Type} (p : Pads) (value : V) (x xp : Tensor V) : Prop :=
  IsPad [0, 0, p.top, p.left] [0, 0, p.bottom, p.right] value x xp

/-- Conv: slide the dilated kernel over the zero-padded operand; output channel `o` belongs to group `o / (M/g)` and reads the channels of that group. -/
structure IsConv {F : Type} [CommSemiring F] (n c h wd m cg kh kw : Nat) (s d : Nat × Nat) (p : Pads) (g : Nat) (x w : Tensor F) (b : Option (Tensor F))
    (y : Tensor F) : Prop where
  shape : y.shape = [n, m, windows (h + p.top + p.bottom) (extent kh d.1) s.1, windows (wd + p.left + p.right) (extent kw d.2) s.2]
  value : ∀ xp, Padded p 0 x xp → ∀ i o a e, i < n → o < m → a < windows (h + p.top + p.bottom) (extent kh d.1) s.1 →
    e < windows (wd + p.left + p.right) (extent kw d.2) s.2 →
    y.at [i, o, a, e] = (∑ c ∈ range cg, ∑ u ∈ range kh, ∑ v ∈ range kw,
      w.at [o, c, u, v] * xp.at [i, o / (m / g) * cg + c, a * s.1 + u * d.1, e * s.2 + v * d.2]) +
      (match b with
      | some b => b.at [o]
      | none => 0)

/-- position `a` of the operand lies in window `i` -/
def InWindow (k s p i a : Nat) : Prop := i * s ≤ a + p ∧ a + p < i * s + k

/-- MaxPool: the largest element of the window (padding never wins). -/
structure IsMaxPool {V : Type} [LinearOrder V] (n c h wd : Nat) (k s : Nat × Nat) (p : Pads) (x y : Tensor V) : Prop where
  shape : y.shape = [n, c, windows (h + p.top + p.bottom) k.1 s.1, windows (wd + p.left + p.right) k.2 s.2]
  attained : ∀ i o a e, i < n → o < c → a < windows (h + p.top + p.bottom) k.1 s.1 → e < windows (wd + p.left + p.right) k.2 s.2 →
    ∃ r q, r < h ∧ q < wd ∧ InWindow k.1 s.1 p.top a r ∧ InWindow k.2 s.2 p.left e q ∧ y.at [i, o, a, e] = x.at [i, o, r, q]
  largest : ∀ i o a e, i < n → o < c → a < windows (h + p.top + p.bottom) k.1 s.1 → e < windows (wd + p.left + p.right) k.2 s.2 →
    ∀ r q, r < h → q < wd → InWindow k.1 s.1 p.top a r → InWindow k.2 s.2 p.left e q → x.at [i, o, r, q] ≤ y.at [i, o, a, e]

instance (k s p i a : Nat) : Decidable (InWindow k s p i a) := inferInstanceAs (Decidable (_ ∧ _))

/-- positions of an axis of size `h` that lie in window `i` -/
def windowSet (h k s p i : Nat) : Finset Nat := (range h).filter fun a => InWindow k s p i a

/-- AveragePool: the mean over the window; the divisor is the number of elements of the operand in it, or the size of the window when
`count_include_pad` is set. -/
structure IsAvgPool {F : Type} [Field F] (countPad : Bool) (n c h wd : Nat) (k s : Nat × Nat) (p : Pads) (x y : Tensor F) : Prop where
  shape : y.shape = [n, c, windows (h + p.top + p.bottom) k.1 s.1, windows (wd + p.left + p.right) k.2 s.2]
  value : ∀ i o a e, i < n → o < c → a < windows (h + p.top + p.bottom) k.1 s.1 → e < windows (wd + p.left + p.right) k.2 s.2 →
    y.at [i, o, a, e] = (∑ r ∈ windowSet h k.1 s.1 p.top a, ∑ q ∈ windowSet wd k.2 s.2 p.left e, x.at [i, o, r, q]) /
      (((if countPad then k.1 * k.2 else (windowSet h k.1 s.1 p.top a).card * (windowSet wd k.2 s.2 p.left e).card) : Nat) : F)

end OnnxTool.Kernels
