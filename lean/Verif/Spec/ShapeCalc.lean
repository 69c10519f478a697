import Verif.Spec.Topsort
/-! # Specification: which nodes compute shapes -/
namespace OnnxTool.ShapeCalc
open OnnxTool

/-- `n` belongs to the shape computation when `seeds` are the shape-defining tensors: it produces a seed, or an operand of
a node of the shape computation other than a `Shape` node.  Initializers do not count as produced. -/
inductive ShapeDep (ns : List Node) (initials seeds : List String) : Node → Prop
  | seed {n : Node} {t : String} : n ∈ ns → t ∈ seeds → t ∉ initials → t ∈ n.output → ShapeDep ns initials seeds n
  | step {n m : Node} {t : String} : n ∈ ns → ShapeDep ns initials seeds m → m.op ≠ "Shape" → t ∈ m.input →
      t ∉ initials → t ∈ n.output → ShapeDep ns initials seeds n

/-- `n` is needed by a graph output through nodes that are not shape calculation (`M` lists those). -/
inductive NeededCompute (ns : List Node) (out M : List String) : Node → Prop
  | output {n : Node} {o : String} : n ∈ ns → n.name ∉ M → o ∈ n.output → o ∈ out → NeededCompute ns out M n
  | feeds {n m : Node} : n ∈ ns → n.name ∉ M → NeededCompute ns out M m → Topsort.Dep m n → NeededCompute ns out M n

end OnnxTool.ShapeCalc
