import Verif.Model.Pipeline
import Verif.Spec.Load
import Verif.Spec.Infer
/-!
# Specification: running a model file

`x` gives the values of the inputs of the file, `f` what its operators compute (`Load.Computes p f absent x t v`: the file computes `v` for tensor `t`); `rep t v` are the bytes that
stand for the value `v` of tensor `t` in the engine.
-/
namespace OnnxTool.Pipeline
open OnnxTool OnnxTool.Load

variable {V : Type}

/-- tensor `t` was produced by a node that is not part of the compute graph -/
def Dropped (b : Built V) (t : String) : Prop := Makes b.loaded.graph.nodemap t ∧ ¬ Makes b.cg.nodemap t

open Classical in
/-- what a kernel is handed for operand `t` of value `v`: nothing, if the operand is left out or its producer was dropped -/
noncomputable def operand (b : Built V) (rep : String → V → Infer.Bytes) (t : String) (v : V) : Option Infer.Bytes :=
  if t = "" ∨ Dropped b t then none else some (rep t v)

/-- what is required of a call -/
structure CallOk (p : GraphProto V) (f : Node → List V → Nat → V) (absent : V) (x : ConstFold.Env V) (tm : Dict Infer.TInfo) (elt : Nat) (b : Built V)
    (rep : String → V → Infer.Bytes) (shape : String → List Nat) (inputs : List (String × Infer.Bytes)) (kern : Node → Option Infer.Kernel) : Prop where
  /-- every produced tensor has a known shape with at least one dimension and one element -/
  known : ∀ t, Makes b.cg.nodemap t → ∃ i, tm.get? t = some i ∧ i.shape ≠ [] ∧ 0 < Pool.prod i.shape
  /-- the run type is not wider than the type the plan was made for, and this call's shapes are not larger than the largest ones -/
  fits : ∀ t i, tm.get? t = some i → elt ≤ i.esize ∧ Pool.prod (shape t) ≤ Pool.prod i.shape
  /-- the tensors of this call have the sizes of this call's shapes -/
  sizes : ∀ t v, t ∈ b.cg.input ∨ Makes b.cg.nodemap t → Load.Computes p f absent x t v → (rep t v).length = Pool.prod (shape t) * elt
  /-- the caller supplies every input once, with the bytes of its value, and nothing else -/
  once : (inputs.map (·.1)).Nodup
  supplied : ∀ t, t ∈ b.cg.input ↔ ∃ c, (t, c) ∈ inputs
  values : ∀ t c, (t, c) ∈ inputs → ∃ v, x t = some v ∧ c = rep t v
  /-- no node is called like a tensor -/
  names : ∀ n ∈ b.cg.nodemap, n.name ∉ b.cg.input ∧ n.name ∉ b.cg.output ∧ ∀ m ∈ b.cg.nodemap, n.name ∉ m.output
  /-- every kernel, on buffers that do not overlap, does what the operator does, from the operands it is handed -/
  kernels : ∀ n ∈ b.cg.nodemap, ∃ k g, kern n = some k ∧ Infer.Computes k g ∧
    ∀ vs : String → V, (∀ t ∈ n.input, Load.Computes p f absent x t (vs t)) →
      g (n.input.map fun t => operand b rep t (vs t)) = n.output.mapIdx fun i o => rep o (f n (n.input.map vs) i)

end OnnxTool.Pipeline
