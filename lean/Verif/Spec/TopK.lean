import Verif.Model.TopK
import Verif.Spec.Branch
/-! # What fixing the `K` of `TopK` nodes should do -/
namespace OnnxTool.TopK
open OnnxTool Branch

/-- `t` is an input of exactly one node, once -/
def ReadOnce (ns : List Node) (t : String) : Prop := (ns.flatMap (·.input)).count t = 1

/-- `m` serves only the `K` of a `TopK` node: it computes a tensor that is read once, as the `K` of a `TopK` node or by a node that serves only a `K`. -/
inductive ServesK (ns : List Node) : Node → Prop
  | k {n m : Node} {t : String} : n ∈ ns → n.op = "TopK" → n.input[1]? = some t → ReadOnce ns t → m ∈ ns → t ∈ m.output → ServesK ns m
  | feeds {n m : Node} {t : String} : ServesK ns n → t ∈ n.input → ReadOnce ns t → m ∈ ns → t ∈ m.output → ServesK ns m

/-- The node with its `K`, if it is a `TopK`, read from the new initializer -/
def fixed (n : Node) : Node := if n.op = "TopK" then { n with input := n.input.set 1 fixedName } else n

/-- The values `env` satisfy node `n`, where `f` is what the operator of the node computes. -/
def Sat {V : Type} (f : String → List V → Nat → V) (env : String → V) (n : Node) : Prop :=
  ∀ (i : Nat) (o : String), n.output[i]? = some o → o ≠ "" → env o = f n.name (n.input.map env) i

/-- The same with the value of the `K` of `TopK` nodes replaced by `k`. -/
def SatWith {V : Type} (f : String → List V → Nat → V) (k : V) (env : String → V) (n : Node) : Prop :=
  ∀ (i : Nat) (o : String), n.output[i]? = some o → o ≠ "" → env o = f n.name (if n.op = "TopK" then (n.input.map env).set 1 k else n.input.map env) i

/-- A loaded graph: node names are distinct, tensors that are read are produced at most once, and no tensor has the name of the new initializer. -/
structure Loaded (g : Graph) : Prop where
  names : (g.nodemap.map (·.name)).Nodup
  uniq : Topsort.UniqueProducers g.nodemap
  fresh : ∀ n ∈ g.nodemap, fixedName ∉ n.input ∧ fixedName ∉ n.output

/-- The tensors at which the search for nodes that serve only a `K` stops: `t` is the `K` of a `TopK` or an input of a node that serves only a `K`, and read nowhere else. -/
def Followed (ns : List Node) (t : String) : Prop :=
  ReadOnce ns t ∧ ((∃ n ∈ ns, n.op = "TopK" ∧ n.input[1]? = some t) ∨ ∃ n, ServesK ns n ∧ t ∈ n.input)

instance (ns : List Node) (t : String) : Decidable (ReadOnce ns t) := by unfold ReadOnce; infer_instance

end OnnxTool.TopK
