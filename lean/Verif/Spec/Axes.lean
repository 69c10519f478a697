import Verif.Spec.Broadcast
/-! # Specification of Reshape -/
namespace OnnxTool.Axes
open OnnxTool.Shape

/-- `out` is the result of reshaping `src` to `target`: same rank as the target, a zero copies the input dimension, a positive entry is
taken as it is, and the element count is that of the input. -/
structure IsReshape (src : List Nat) (target : List Int) (out : List Nat) : Prop where
  rank : out.length = target.length
  zero : ∀ i, i < target.length → target.getD i 0 = 0 → out.getD i 0 = src.getD i 0
  pos : ∀ i, i < target.length → 0 < target.getD i 0 → (out.getD i 0 : Int) = target.getD i 0
  count : elems out = elems src

end OnnxTool.Axes
