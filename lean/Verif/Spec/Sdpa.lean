import Verif.Model.Sdpa
/-!
# Specification: causal attention over a token stream

A token has a query, key and value row for every batch entry.
-/
namespace OnnxTool.Sdpa
open OnnxTool Finset

variable {F : Type} [Field F]

structure Token (F : Type) where
  q : Nat → Nat → F
  k : Nat → Nat → F
  v : Nat → Nat → F

instance : Inhabited (Token F) := ⟨⟨fun _ _ => 0, fun _ _ => 0, fun _ _ => 0⟩⟩

/-- Grouped-query causal attention at position `p` of the stream, head `h`, component `e`: the softmax-weighted mean of the values of
positions `0..p`, the scores being scaled dot products; head `h` uses key/value head `h / (heads / kvHeads)`. -/
noncomputable def causal (heads kvHeads hd : Nat) (ex : F → F) (scale : F) (stream : List (Token F)) (b p h e : Nat) : F :=
  let g := h / (heads / kvHeads)
  let w := fun j => ex ((∑ i ∈ range hd, (stream.getD p default).q b (h * hd + i) * (stream.getD j default).k b (g * hd + i)) / scale)
  (∑ j ∈ range (p + 1), w j * (stream.getD j default).v b (g * hd + e)) / ∑ j ∈ range (p + 1), w j

/-- rows of a chunk of tokens as kernel inputs -/
def rows (f : Token F → Nat → Nat → F) (chunk : List (Token F)) : T3 F := fun b s c => f (chunk.getD s default) b c

/-- one call of the kernel: which layer, how many past tokens the caller announces, the new tokens -/
structure Step (F : Type) where
  layer : Nat
  past : Nat
  chunk : List (Token F)

/-- the stream of each layer after a call: the announced past is kept, the rest is replaced by the new tokens -/
def Step.apply (s : Step F) (streams : Nat → List (Token F)) : Nat → List (Token F) := fun l =>
  if l = s.layer then (streams l).take s.past ++ s.chunk else streams l

end OnnxTool.Sdpa
