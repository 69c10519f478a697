import Verif.Model.Grow
import Verif.Model.MacsOps
import Verif.Model.Profile
/-!
# The cost of a network after shape inference

Models `Node.profile` (`/repo/onnx_tool/node.py` 216-231) with the `_profile_core` of all operators of `Verif.Model.Macs` (Conv, ConvTranspose, pooling, Gemm, MatMul) and `Verif.Model.MacsOps`, and the
tensors `Graph.profile` (`/repo/onnx_tool/graph.py` 1433-1495) reads after `shape_infer`.  The fused operators (SDPA, MoE, GDN, MLA, Rope, Gather), which have their own `profile`, are in
`Verif.Model.LlmCost`.

Simplified: element sizes and the kind of a tensor are tables by name; MACs are exact.
-/
namespace OnnxTool.Batch
open OnnxTool OnnxTool.Shape OnnxTool.Macs OnnxTool.ShapeInfer

/-- the attributes of a node that its cost depends on -/
structure NodeAttrs where
  cost : CostAttrs := {}
  kernel : List Nat := []
  transB : Bool := false

/-- `_profile_core` by operator: Conv 2219-2230, ConvTranspose 2724-2735, AveragePool and MaxPool 1446-1452, Gemm and MatMul 915-932, the others in `opMacs` -/
def coreMacs (a : NodeAttrs) (op : String) (ins outs : List Shp) : Except PyErr Int :=
  if op = "Conv" ∨ op = "ConvTranspose" then .ok (convMacs ins.length outs.length (ins.getD 1 []) (outs.getD 0 []) : Nat)
  else if op = "AveragePool" ∨ op = "MaxPool" then (first outs).bind fun y => (poolMacs a.kernel y).map fun n : Nat => (n : Int)
  else if op = "Gemm" ∨ op = "MatMul" then
    (first outs).bind fun y => (gemmMacs (op = "Gemm") a.transB ins.length (ins.getD 1 []) y).map fun n : Nat => (n : Int)
  else opMacs op ins.length a.cost ins outs

/-- `Node.profile` (216-231) with the static operands of graph.py 1457 -/
def profOf (attrs : String → NodeAttrs) : Profile.Prof := fun n its ots =>
  match coreMacs (attrs n.name) n.op (its.map (·.shape)) (ots.map (·.shape)) with
  | .error e => .error e
  | .ok m => .ok ((m : ℚ), (ots.map fun t => Profile.volume t.shape).sum, ((its.filter fun t => t.name != "" && t.static).map fun t => Profile.volume t.shape).sum)

/-- `tensormap` as `Graph.profile` reads it, for the tensors of the nodes -/
def infos (static : String → Bool) (elesize : String → Nat) (r : TMap Int) (g : Graph) : Dict Profile.TInfo :=
  (g.nodemap.flatMap fun n => n.input ++ n.output).map fun t => (t, { name := t, static := static t, shape := (concrete (r t).shape).getD [], elesize := elesize t })

end OnnxTool.Batch
