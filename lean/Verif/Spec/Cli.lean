import Verif.Model.Cli
/-! # Specification: how a tensor is written on the command line -/
namespace OnnxTool.Cli
open OnnxTool

/-- `a:b:c` -/
def colons (parts : List (List Char)) : List Char := [':'].intercalate parts

/-- `1x3x224x224` -/
def dimsText (dims : List Nat) : List Char := ['x'].intercalate (dims.map fun d => (toString d).toList)

/-- the documented names of element types -/
def typeText : DT → Option (List Char)
  | .f32 => some "f32".toList
  | .i32 => some "int32".toList
  | .f64 => none

end OnnxTool.Cli
