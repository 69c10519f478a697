import Verif.Model.Torch
import Verif.Spec.Broadcast
import Mathlib.Algebra.Order.Ring.Rat
/-! # ONNX semantics of arithmetic on broadcast operands -/
namespace OnnxTool.Values
open OnnxTool OnnxTool.Torch OnnxTool.Shape

variable {U V W : Type}

/-- `src` is the element of an operand of shape `s` that belongs to position `idx` of the result of shape `r`: axes are matched from the right, an
axis of size 1 is repeated. -/
def Source (s r idx src : List Nat) : Prop :=
  InB s src ∧ ∀ k, k < s.length → src.getD k 0 = if s.getD k 0 = 1 then 0 else idx.getD (r.length - s.length + k) 0

/-- `z` is `f` of the broadcast operands, element by element. -/
structure IsElementwise2 (f : U → V → W) (x : Tensor U) (y : Tensor V) (z : Tensor W) : Prop where
  shape : IsBroadcast [x.shape, y.shape] z.shape
  value : ∀ idx i j, InB z.shape idx → Source x.shape z.shape idx i → Source y.shape z.shape idx j → z.at idx = f (x.at i) (y.at j)
  left : ∀ idx, InB z.shape idx → ∃ i, Source x.shape z.shape idx i
  right : ∀ idx, InB z.shape idx → ∃ j, Source y.shape z.shape idx j

/-- `z` combines all operands, from the left, element by element. -/
structure IsFolded (f : V → V → V) (xs : List (Tensor V)) (z : Tensor V) : Prop where
  shape : IsBroadcast (xs.map (·.shape)) z.shape
  value : ∀ idx x rest s ss, xs = x :: rest → InB z.shape idx → Source x.shape z.shape idx s →
    List.Forall₂ (fun t s => Source t.shape z.shape idx s) rest ss → z.at idx = (List.zipWith (fun (t : Tensor V) s => t.at s) rest ss).foldl f (x.at s)
  inside : ∀ x ∈ xs, ∀ idx, InB z.shape idx → ∃ s, Source x.shape z.shape idx s

/-- Where: three operands broadcast together. -/
structure IsWhere (c : Tensor Bool) (x y z : Tensor V) : Prop where
  shape : IsBroadcast [c.shape, x.shape, y.shape] z.shape
  value : ∀ idx i j k, InB z.shape idx → Source c.shape z.shape idx i → Source x.shape z.shape idx j → Source y.shape z.shape idx k →
    z.at idx = if c.at i = true then x.at j else y.at k
  inside : ∀ s ∈ [c.shape, x.shape, y.shape], ∀ idx, InB z.shape idx → ∃ i, Source s z.shape idx i

/-- Expand: the operand broadcast together with a shape. -/
structure IsExpandBoth (e : List Nat) (x z : Tensor V) : Prop where
  shape : IsBroadcast [x.shape, e] z.shape
  value : ∀ idx i, InB z.shape idx → Source x.shape z.shape idx i → z.at idx = x.at i

/-- `r` is the remainder of `a` by `b` with the sign of the divisor (ONNX Mod with `fmod = 0`). -/
def IsMod (a b r : Int) : Prop := b ∣ a - r ∧ (0 < b → 0 ≤ r ∧ r < b) ∧ (b < 0 → b < r ∧ r ≤ 0)

/-- Range: all numbers `start + k * delta` before the limit, in order. -/
def IsRange (start limit delta : Int) (y : Tensor Int) : Prop :=
  ∃ n, y.shape = [n] ∧ (∀ k : Nat, k < n → y.at [k] = start + k * delta) ∧
    ∀ k : Nat, k < n ↔ (if 0 < delta then start + k * delta < limit else start + k * delta > limit)

/-- Clip to the bounds that are given (scalars). -/
def clipTo (lo hi : Option ℚ) (a : ℚ) : ℚ :=
  let b := match lo with
    | some l => if a < l then l else a
    | none => a
  match hi with
  | some h => if h < b then h else b
  | none => b

end OnnxTool.Values
