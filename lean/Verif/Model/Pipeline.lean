import Verif.Model.Load
import Verif.Model.Topsort
import Verif.Model.ComputeGraph
import Verif.Model.Infer
/-!
# From a model file to an engine: `GraphInfer.__init__` (`/repo/inference/infer.py` 30-180)

The steps of the constructor are modelled in their own modules; here they are put together.  Simplified: no checkpoint file (51-53, see C109) and no tensor called
`kv_cache` (86-90, see C51, C52); `tm` are the shapes and element sizes that `shape_regress` and `shape_infer` leave in the tensor map at the largest sizes (58-77,
see C75, C76); `shape_regress` and `shape_infer` change no node and no connection.
-/
namespace OnnxTool.Pipeline
open OnnxTool OnnxTool.Load

variable {V : Type}

/-- what the constructor leaves: the loaded graph, the names of its shape-calculation nodes, the compute graph, the memory plan and the size of the pool -/
structure Built (V : Type) where
  loaded : Loaded V
  shapeNodes : List String
  cg : Graph
  plan : Dict (Nat × Nat)
  size : Nat

/-- lines 48-94: load with constant folding (48), `__find_shape_tensors__` (`graph.py` 187; `order` is the order in which the set of shape tensors is run through),
`graph_reorder_nodes` (56), `get_compute_graph` (80), `compress_memory` (91) with padding `pad` -/
def build (f : Node → List V → Nat → V) (absent : V) (fuel pad : Nat) (order : List String) (tm : Dict Infer.TInfo) (p : GraphProto V) : Except PyErr (Built V) :=
  match load { constantFolding := true } f absent fuel p with
  | .error e => .error e
  | .ok l =>
    match ShapeCalc.findShape l.graph order with
    | .error e => .error e
    | .ok M =>
      match ComputeGraph.computeGraph fuel (Topsort.graphReorderNodes l.graph) M with
      | .error e => .error e
      | .ok (cg, _) =>
        match Mem.compressMemory cg (Infer.memsizes tm) pad with
        | .error e => .error e
        | .ok (cm, sz) => .ok ⟨l, M, cg, cm, sz⟩

/-- `_preload_constants` (585-655): the initializers of the compute graph that have data; `rep t v` is what the engine stores for the value `v` of tensor `t` (conversion to
the run type, layout prepared for the reader: C60).  The tensor with the empty name has no data. -/
def constants (rep : String → V → Infer.Bytes) (b : Built V) : Dict Infer.Bytes :=
  b.cg.initials.filterMap fun t => if t = "" then none else (b.loaded.env t).map fun v => (t, rep t v)

/-- the engine (92-135) with elements of `elt` bytes -/
def engine (rep : String → V → Infer.Bytes) (tm : Dict Infer.TInfo) (elt : Nat) (b : Built V) : Infer.Engine :=
  Infer.mkEngine b.cg b.plan b.size tm elt (constants rep b)

end OnnxTool.Pipeline
