import Verif.Spec.Graph
/-!
# Specification of tensor lifetimes (no reference to the allocator)
-/
namespace OnnxTool

/-- Node `k` of the graph has `t` among its outputs. -/
def ProducedAt (ns : List Node) (k : Nat) (t : String) : Prop := ∃ n, ns[k]? = some n ∧ t ∈ n.output

/-- Node `k` of the graph reads `t`. -/
def ReadAt (ns : List Node) (k : Nat) (t : String) : Prop := ∃ n, ns[k]? = some n ∧ t ∈ n.input

/-- While node `k` runs, the contents of `t` matter: `t` already exists (graph input, or output of node `k` or an
earlier one) and it is being written now, or is read by node `k` or a later node, or is never read at all (so whoever
runs the graph may want it). -/
def LiveAt (inputs : List String) (ns : List Node) (k : Nat) (t : String) : Prop :=
  k < ns.length ∧
  (t ∈ inputs ∨ ∃ j, j ≤ k ∧ ProducedAt ns j t) ∧
  (ProducedAt ns k t ∨ (∃ j, k ≤ j ∧ ReadAt ns j t) ∨ ∀ j, ¬ ReadAt ns j t)

/-- Two half-open byte ranges `[o, o+s)` are disjoint. -/
def DisjointRanges (a b : Nat × Nat) : Prop := a.1 + a.2 ≤ b.1 ∨ b.1 + b.2 ≤ a.1

end OnnxTool
