import Mathlib.Logic.Relation
import Verif.Spec.Pattern
import Verif.Spec.Graph
/-!
# Specification: a region of a graph

The nodes with the given names, the tensors between them, and when such a region can be told apart from the rest of the graph.
-/
namespace OnnxTool.Pattern
open OnnxTool

/-- output number `k` of node `p` is a tensor that node `c` reads as input number `j`; `k` is its first place among the outputs -/
def Feeds (p : Node) (k : Nat) (c : Node) (j : Nat) : Prop := ∃ t, p.output[k]? = some t ∧ p.output.idxOf t = k ∧ c.input[j]? = some t

/-- two nodes exchange a tensor -/
def Touch (a b : Node) : Prop := (∃ t, t ∈ a.output ∧ t ∈ b.input) ∨ (∃ t, t ∈ b.output ∧ t ∈ a.input)

/-- the named nodes exist, under distinct names, and each of their outputs is produced once in the graph -/
structure Region (g : Graph) (names : List String) : Prop where
  keys : (g.nodemap.map (·.name)).Nodup
  distinct : names.Nodup
  exist : ∀ x ∈ names, ∃ n ∈ g.nodemap, n.name = x
  once : ∀ n ∈ g.nodemap, n.name ∈ names → ∀ t ∈ n.output, (producersOf g.nodemap t).length ≤ 1

/-- every node of the region is tied to the node called `a` by tensors inside the region -/
def Connected (g : Graph) (names : List String) (a : String) : Prop :=
  ∀ n ∈ g.nodemap, n.name ∈ names → ∃ r ∈ g.nodemap, r.name = a ∧
    Relation.ReflTransGen (fun x y : Node => Touch x y ∧ y ∈ g.nodemap ∧ y.name ∈ names) r n

/-- no reader of a tensor of the region can be taken for another: when a node of the region reads tensor `t`, made in the region, as input
number `j`, no other node with the same operator reads `t` as input number `j` -/
def NoTwin (g : Graph) (names : List String) : Prop :=
  ∀ p ∈ g.nodemap, p.name ∈ names → ∀ t ∈ p.output, ∀ c ∈ g.nodemap, c.name ∈ names → ∀ j : Nat, c.input[j]? = some t →
    ∀ n ∈ g.nodemap, n.input[j]? = some t → n.op = c.op → n = c

/-- a position says what the pattern language can say about node `n` of the region: its operator, and exactly the tensors it exchanges with
other nodes of the region -/
structure Describes (g : Graph) (names : List String) (n : Node) (d : Desc) : Prop where
  name : d.name = n.name
  op : d.op = .one n.op
  attrs : d.attrs = []
  inports : ∀ pt, pt ∈ d.inport ↔
    ∃ p ∈ g.nodemap, p.name ∈ names ∧ ∃ j k, Feeds p k n j ∧ pt = ⟨some j, p.name, some k⟩
  outports : ∀ pt, pt ∈ d.outport ↔
    ∃ c ∈ g.nodemap, c.name ∈ names ∧ ∃ j k, Feeds n k c j ∧ pt = ⟨some k, c.name, some j⟩

end OnnxTool.Pattern
