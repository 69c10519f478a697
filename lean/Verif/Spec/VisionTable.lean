import Verif.Model.VisionTable
/-!
# What a row of the vision / language table says (C131)
-/
namespace OnnxTool.VisionTable
open OnnxTool

/-- `k` is the number of whole thousand millions in `n` -/
def IsGiga (n k : Nat) : Prop := k * 1000000000 ≤ n ∧ n < (k + 1) * 1000000000

/-- `n` patches of `p` by `p` pixels: those of the grid that lie entirely in the image of `h` by `w` pixels -/
def IsPatchCount (p h w n : Nat) : Prop := ∃ a b, n = a * b ∧ (∀ i, i < a ↔ i * p + p ≤ h) ∧ ∀ j, j < b ↔ j * p + p ≤ w

/-- what is printed for an image `label`, `[_, h, w]`, with patches of `p` pixels and `text` tokens of text, when profiling gives `v` and `l` operations -/
structure IsRow (p text : Nat) (label : String) (h w v l : Nat) (x : Row) : Prop where
  label : x.label = label
  patches : IsPatchCount p h w x.patches
  tokens : x.tokens = x.patches + text
  vis : IsGiga v x.vis
  llm : IsGiga l x.llm
  ratio : x.ratio * x.llm = 100 * x.vis
  total : x.total = x.vis + x.llm

end OnnxTool.VisionTable
