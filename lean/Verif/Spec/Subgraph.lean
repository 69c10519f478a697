import Verif.Model.Graph
/-! # Specification vocabulary for node sets -/
namespace OnnxTool.Subgraph
open OnnxTool

/-- `n` is reachable from the tensors `ts`: it reads one of them, or reads an output of a reachable node. -/
inductive Reach (ns : List Node) (ts : List String) : Node → Prop
  | start {n : Node} {t : String} : n ∈ ns → t ∈ ts → t ∈ n.input → Reach ns ts n
  | step {n m : Node} {t : String} : n ∈ ns → Reach ns ts m → t ∈ m.output → t ∈ n.input → Reach ns ts n

end OnnxTool.Subgraph
