import Verif.Model.Links
import Verif.Spec.Edit
/-! # What removals should do after other edits -/
namespace OnnxTool.Links
open OnnxTool

/-- a call that only removes nodes (or rebuilds the indexes) -/
def Edit.Removes : Edit → Prop
  | .remove _ _ | .subtree _ | .dangling | .relations => True
  | _ => False

/-- a call that makes a new node -/
def Edit.Fuses : Edit → Prop
  | .fuse _ _ _ | .postop _ => True
  | _ => False

/-- following the links of nodes that are still there leads from `x` to `y` -/
inductive Reaches (s : State) : String → String → Prop
  | here (x : String) : Reaches s x x
  | step {x y z : String} (nd : Node) (hx : findNode s.graph.nodemap x = some nd) (hl : .node y ∈ s.next x) (h : Reaches s y z) : Reaches s x z

end OnnxTool.Links
