import Verif.Model.Branch
import Verif.Spec.Graph
import Verif.Spec.Topsort
/-! # What choosing the branch of an `If` should do -/
namespace OnnxTool.Branch
open OnnxTool

/-- The values `env` satisfy node `n`: an ordinary node's outputs are what the operator — `f`, which knows the attributes of the node with that name — computes from its inputs;
the outputs of an `If` node are, in order, those of its selected branch, whose nodes are satisfied.  (Tensor names inside a branch are distinct from those outside, so one
`env` covers both.  An output with the empty name is not there.) -/
inductive Holds {V : Type} (f : String → List V → Nat → V) (br : String → Body) (env : String → V) : Node → Prop
  | plain {n : Node} : n.op ≠ "If" → (∀ (i : Nat) (o : String), n.output[i]? = some o → o ≠ "" → env o = f n.name (n.input.map env) i) → Holds f br env n
  | cond {n : Node} : n.op = "If" → (∀ m ∈ (br n.name).node, Holds f br env m) →
      (∀ (i : Nat) (o b : String), n.output[i]? = some o → (br n.name).output[i]? = some b → o ≠ "" → env o = env b) → Holds f br env n

/-- `t` is an output of one of the nodes -/
def Produced (ns : List Node) (t : String) : Prop := ∃ n ∈ ns, t ∈ n.output

/-- `t` is an input of one of the nodes -/
def Read (ns : List Node) (t : String) : Prop := ∃ n ∈ ns, t ∈ n.input

/-- `m` serves only the condition of the `If` node `n`: it is that node, or a tensor it produces is read, not by the branch (`captured`), and only by nodes that serve only the
condition. -/
inductive OnlyFor (ns : List Node) (n : Node) (captured : List String) : Node → Prop
  | root : OnlyFor ns n captured n
  | feeds {m : Node} {o : String} : m ∈ ns → o ∈ m.output → Read ns o → o ∉ captured → (∀ k ∈ ns, o ∈ k.input → OnlyFor ns n captured k) → OnlyFor ns n captured m

/-- The nodes of the branch with its result renamed -/
def renamed (b : Body) (pre new : String) : List Node := b.node.map fun n => { n with output := n.output.map fun v => if v = pre then new else v }

/-- The case the code is written for: the graph has one `If` node, with one output; its selected branch has no further `If`, its nodes have names, and its result is computed by
one of them and not read by any; node and tensor names are all distinct; the `If` does not depend on itself; and every node it depends on has one output, which — like the
output of the `If` — is not an output of the graph. -/
structure Usual (g : Graph) (n : Node) (b : Body) (pre new : String) : Prop where
  names : ((g.nodemap ++ b.node).map (·.name)).Nodup
  named : ∀ m ∈ b.node, m.name ≠ ""
  once : ((g.nodemap ++ b.node).flatMap (·.output)).Nodup
  node : n ∈ g.nodemap
  isIf : n.op = "If"
  only : ∀ m ∈ g.nodemap, m.op = "If" → m = n
  flat : ∀ m ∈ b.node, m.op ≠ "If"
  output : n.output = [new]
  result : b.output = [pre]
  computed : Produced b.node pre
  unread : ¬ Read (g.nodemap ++ b.node) pre
  acyclic : ¬ Topsort.DepPath g.nodemap n n
  single : ∀ m ∈ g.nodemap, Topsort.DepPath g.nodemap n m → ∃ o, m.output = [o] ∧ o ∉ g.output
  kept : new ∉ g.output

instance (ns : List Node) (t : String) : Decidable (Produced ns t) := by unfold Produced; infer_instance
instance (ns : List Node) (t : String) : Decidable (Read ns t) := by unfold Read; infer_instance

end OnnxTool.Branch
