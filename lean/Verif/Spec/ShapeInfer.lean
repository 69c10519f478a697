import Verif.Model.ShapeInfer
import Verif.Spec.ShapeCalc
import Verif.Spec.Topsort
/-!
# What shape inference should deliver: a solution of the equations of the nodes
-/
namespace OnnxTool.ShapeInfer
open OnnxTool OnnxTool.Engine OnnxTool.ShapeCalc

variable {V : Type} [Zero V]

/-- The node reads what the operand table says: shape inference looks at the shapes of the operands and the values of the shape operands; value inference looks at
the operands (`Shape`: at their shapes) and sets the values of all outputs.  Neither looks at the old outputs.  `value`: which of the two is run. -/
structure Local (run : Run V) (value : Bool) (n : Node) : Prop where
  count : ∀ ins outs us, run value n ins outs = .ok us → us.length = n.output.length
  shapes : value = false → ∀ (G G' : String → Seen V) us, (∀ t ∈ n.input, (G t).shape = (G' t).shape) → (∀ t ∈ shapeInputs n, G t = G' t) →
    run false n (n.input.map G) (n.output.map G) = .ok us →
    ∃ us', run false n (n.input.map G') (n.output.map G') = .ok us' ∧ us'.map Upd.newShape = us.map Upd.newShape
  values : value = true → ∀ (G G' : String → Seen V) us, (∀ t ∈ n.input, (G t).shape = (G' t).shape) → (n.op ≠ "Shape" → ∀ t ∈ n.input, G t = G' t) →
    run true n (n.input.map G) (n.output.map G) = .ok us →
    run true n (n.input.map G') (n.output.map G') = .ok us ∧ ∀ u ∈ us, ∃ a, u = .arr a

/-- `F` satisfies the equation of every node: applied to the operands, the node yields the shapes of its outputs, and — if its value is computed — their values. -/
def Solves (run : Run V) (marked : List String) (ns : List Node) (F : String → Seen V) : Prop :=
  ∀ n ∈ ns, ∃ us, run (marked.contains n.name) n (n.input.map F) (n.output.map F) = .ok us ∧ us.length = n.output.length ∧
    ∀ (i : Nat) (o : String) (u : Upd V), n.output[i]? = some o → us[i]? = some u → (F o).shape = u.newShape ∧
      (n.name ∈ marked → ∀ a, u = .arr a → F o = { shape := asDims a.shape, dtype := a.dtype, value := some a })

/-- the value of `t` is known: no node produces it, or the node that does computes values -/
def Known (marked : List String) (ns : List Node) (t : String) : Prop := ∀ m ∈ ns, t ∈ m.output → m.name ∈ marked

/-- a tensor no node produces -/
def Unproduced (ns : List Node) (t : String) : Prop := ∀ n ∈ ns, t ∉ n.output

/-- two states that show the same shapes everywhere and the same values of the known tensors -/
def Same (marked : List String) (ns : List Node) (F F' : String → Seen V) : Prop :=
  ∀ t, (F t).shape = (F' t).shape ∧ (Known marked ns t → F t = F' t)

/-- A graph as loading leaves it (C73): names distinct, every tensor produced at most once, nodes sorted, initializers and graph inputs not produced; `marked` are
the nodes whose value is computed according to `__find_shape_tensors__`; and the nodes read what the operand table says. -/
structure WellFormed (run : Run V) (g : Graph) (marked : List String) : Prop where
  names : (g.nodemap.map (·.name)).Nodup
  once : (g.nodemap.flatMap (·.output)).Nodup
  topo : Topsort.TopoOrdered g.nodemap
  initials : ∀ t ∈ g.initials, Unproduced g.nodemap t
  inputs : ∀ t ∈ g.input, Unproduced g.nodemap t
  marks : ∃ order : List String, (∀ t, t ∈ order ↔ ∃ n ∈ g.nodemap, t ∈ shapeInputs n) ∧ findShape g.updateTensorRelations order = .ok marked
  reads : ∀ n ∈ g.nodemap, Local run (marked.contains n.name) n

/-- the calls `shape_infer(d)` for the `d` in `hist`, one after the other, whatever they raise -/
def calls (run : Run V) (g : Graph) (marked : List String) (hist : List (Dict (Arr V))) (m : TMap V) : TMap V :=
  hist.foldl (fun m d => (shapeInfer run g marked d m).1) m

end OnnxTool.ShapeInfer
