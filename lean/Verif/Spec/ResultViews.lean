import Verif.Model.ResultViews
/-!
# Specification: results that are kept and fed back (C121)
-/
namespace OnnxTool.Infer
open OnnxTool

/-- two ranges of bytes without a common byte -/
def Apart (v w : Nat × Nat) : Prop := v.1 + v.2 ≤ w.1 ∨ w.1 + w.2 ≤ v.1

/-- the same call with a copy (`clone()`) of every tensor, made before the call -/
def SourceCall.cloned (c : SourceCall) (mem : Mem) : Call := ⟨c.inputs.map fun x => (x.1, x.2.1, x.2.2.bytes mem), c.crash⟩

/-- Views are given for inputs in the pool only; no tensor of the call lies where an input that comes before it is stored, and each is exactly its own input or apart from it. -/
structure FeedsBack (e : Engine) (c : SourceCall) : Prop where
  pooled : ∀ p ∈ c.inputs, ∀ w, p.2.2 = .view w → (e.views.get? p.1).isSome = true
  earlier : c.inputs.Pairwise fun p q => ∀ v w, e.views.get? p.1 = some v → q.2.2 = .view w → Apart (v.1, p.2.2.size) w
  own : ∀ p ∈ c.inputs, ∀ v w, e.views.get? p.1 = some v → p.2.2 = .view w → w = (v.1, w.2) ∨ Apart (v.1, w.2) w

end OnnxTool.Infer
