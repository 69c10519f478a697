import Verif.Model.Graph
/-!
# Specification vocabulary for node ordering (no reference to the sorting code)
-/
namespace OnnxTool.Topsort
open OnnxTool

/-- `n` depends on `m`: it reads a tensor that `m` produces. -/
def Dep (n m : Node) : Prop := ∃ t, t ∈ n.input ∧ t ∈ m.output

instance (n m : Node) : Decidable (Dep n m) :=
  decidable_of_iff (∃ t ∈ n.input, t ∈ m.output) ⟨fun ⟨t, a, b⟩ => ⟨t, a, b⟩, fun ⟨t, a, b⟩ => ⟨t, a, b⟩⟩

/-- Every tensor that some node reads is produced at most once in the whole graph. -/
def UniqueProducers (ns : List Node) : Prop :=
  ∀ n ∈ ns, ∀ t ∈ n.input, (ns.flatMap (·.output)).count t ≤ 1

instance (ns : List Node) : Decidable (UniqueProducers ns) := by unfold UniqueProducers; infer_instance

/-- A chain of dependencies `n₀ depends on n₁ depends on ... depends on nₖ` (k ≥ 1) inside the graph. -/
inductive DepPath (ns : List Node) : Node → Node → Prop
  | step {n m : Node} : m ∈ ns → Dep n m → DepPath ns n m
  | trans {n m k : Node} : m ∈ ns → Dep n m → DepPath ns m k → DepPath ns n k

/-- `n` lies on, or depends (directly or not) on, a dependency cycle. -/
def OnCycle (ns : List Node) (n : Node) : Prop :=
  DepPath ns n n ∨ ∃ m, DepPath ns n m ∧ DepPath ns m m

/-- Nodes are listed producers first: no node depends on itself or on a node listed later. -/
def TopoOrdered (ns : List Node) : Prop := ns.Pairwise (fun a b => ¬ Dep a b) ∧ ∀ n ∈ ns, ¬ Dep n n

instance (ns : List Node) : Decidable (TopoOrdered ns) := by unfold TopoOrdered; infer_instance

/-- The graph has no dependency cycle: its nodes can be listed producers first. -/
def Acyclic (ns : List Node) : Prop := ∃ ms : List Node, ms.Perm ns ∧ TopoOrdered ms

/-- `n` is needed for the outputs `out`: it produces one of them, or a needed node reads one of its outputs. -/
inductive Needed (ns : List Node) (out : List String) : Node → Prop
  | output {n : Node} {o : String} : n ∈ ns → o ∈ n.output → o ∈ out → Needed ns out n
  | feeds {n m : Node} : n ∈ ns → Needed ns out m → Dep m n → Needed ns out n

end OnnxTool.Topsort
