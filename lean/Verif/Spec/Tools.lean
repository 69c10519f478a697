import Verif.Model.Tools
/-! # What exporting weights and changing shapes should do -/
namespace OnnxTool.Tools
open OnnxTool

/-- The name of a tensor with every path separator replaced -/
def safeName (key : List Char) : List Char := key.map fun c => if c = '/' ∨ c = '\\' then '_' else c

/-- The text for a shape: `Nx3x224x224` -/
def render (dims : List Dim) : List Char := ['x'].intercalate (dims.map fun d => match d with
  | .value n => (toString n).toList
  | .param s => s
  | .unset => [])

/-- A dimension that a text can denote: a number, or a name that is not a number and has no `x` -/
def Expressible : Dim → Prop
  | .value _ => True
  | .param s => 'x' ∉ s ∧ ¬ (s ≠ [] ∧ ∀ c ∈ s, c.isDigit = true)
  | .unset => False

end OnnxTool.Tools
