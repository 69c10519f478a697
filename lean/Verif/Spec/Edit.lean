import Verif.Model.Edit
import Verif.Spec.Graph
import Verif.Spec.Topsort
/-! # What post-op fusion and removing a subtree should do -/
namespace OnnxTool.Edit
open OnnxTool

/-- the values of the attributes with a name -/
def valuesOf (as : List (String × AttrVal)) (k : String) : List AttrVal := (as.filter fun a => a.1 = k).map (·.2)

/-- The attributes describe the post-ops `ops`, in order: attribute `postop_i` — exactly one — names the operator of the `i`-th, there is no further one, and
`postop_count` — absent or 0 if there are none — is their number. -/
structure Describes (as : List (String × AttrVal)) (ops : List String) : Prop where
  numbered : ∀ (i : Nat) (o : String), ops[i]? = some o → valuesOf as ("postop_" ++ toString i) = [.str o]
  noMore : ∀ i, ops.length ≤ i → valuesOf as ("postop_" ++ toString i) = []
  count : valuesOf as "postop_count" = [.int ops.length] ∨ (ops = [] ∧ valuesOf as "postop_count" = [])

/-- `m` is the node, or depends on it, directly or through other nodes -/
def InSubtree (ns : List Node) (root m : Node) : Prop := m = root ∨ Topsort.DepPath ns m root

end OnnxTool.Edit
