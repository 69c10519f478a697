import Verif.Model.Graph
/-!
# Specification: what the producer / consumer indexes should say

Independent of the index-building code: the consumers of `t` are read off the node list.
-/
namespace OnnxTool

/-- Names of the nodes reading `t`, in node order, once per occurrence of `t` among the node's inputs. -/
def consumersOf (ns : List Node) (t : String) : List String :=
  ns.flatMap fun n => List.replicate (n.input.count t) n.name

/-- Names of the nodes producing `t`, in node order, once per occurrence of `t` among the node's outputs. -/
def producersOf (ns : List Node) (t : String) : List String :=
  ns.flatMap fun n => List.replicate (n.output.count t) n.name

/-- The dictionary `d` holds exactly `f t` for every `t`; keys with an empty list are absent. -/
def IndexIs (d : Dict (List String)) (f : String → List String) : Prop :=
  ∀ t, d.get? t = if f t = [] then none else some (f t)

/-- Both indexes of `g` are exact. -/
def Graph.IndexExact (g : Graph) : Prop :=
  IndexIs g.consumedby (consumersOf g.nodemap) ∧ IndexIs g.producedby (producersOf g.nodemap)

/-- Every tensor name (the empty name, ONNX's "absent optional", excepted) is a graph input or a node output at most
once: static single assignment. -/
def SSA (inputs : List String) (ns : List Node) : Prop :=
  ((inputs ++ ns.flatMap (·.output)).filter (· ≠ "")).Nodup

instance (i : List String) (ns : List Node) : Decidable (SSA i ns) := by unfold SSA; infer_instance

end OnnxTool
