import Verif.Model.Graph
/-! # Specification: static tensors, constant nodes, evaluation of a graph -/
namespace OnnxTool.ConstFold
open OnnxTool

/-- `t` is static when `st` are the initially static tensors: initially static, or an output of a node (other than
`DequantizeLinear`) all of whose operands are static. -/
inductive StaticT (ns : List Node) (st : String → Prop) : String → Prop
  | init {t : String} : st t → StaticT ns st t
  | out {n : Node} {o : String} : n ∈ ns → n.op ≠ "DequantizeLinear" → (∀ t ∈ n.input, StaticT ns st t) →
      o ∈ n.output → StaticT ns st o

/-- `n` is constant: not `DequantizeLinear`, and every operand is static. -/
def ConstNode (ns : List Node) (st : String → Prop) (n : Node) : Prop :=
  n ∈ ns ∧ n.op ≠ "DequantizeLinear" ∧ ∀ t ∈ n.input, StaticT ns st t

/-- Evaluation of a graph: `Ev ns f env t v` — tensor `t` has value `v` when the tensors of `env` have the given values and
every node computes `f`.  No evaluation order is fixed. -/
inductive Ev {V : Type} (ns : List Node) (f : Node → List V → Nat → V) (env : String → Option V) : String → V → Prop
  | base {t : String} {v : V} : env t = some v → Ev ns f env t v
  | node {n : Node} {k : Nat} {o : String} (vs : List V) : n ∈ ns → n.output[k]? = some o →
      vs.length = n.input.length →
      (∀ (i : Nat) (t : String) (v : V), n.input[i]? = some t → vs[i]? = some v → Ev ns f env t v) →
      Ev ns f env o (f n vs k)

end OnnxTool.ConstFold
