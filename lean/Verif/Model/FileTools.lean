import Verif.Model.Load
import Verif.Model.Topsort
/-!
# From file to file: `model_reorder_nodes` and `model_constant_folding` (`/repo/onnx_tool/__init__.py` 110-118)

`loadmodel` (17-22) and `Model.__init__` (`model.py` 11-27) parse the file (`exit(-1)` if it is not a model) and build the graph (`Model/Load.lean`); `Model.save_model`
(`model.py` 29-30) is `Graph.save_model` (`graph.py` 841-857) with initializers and shapes.  The file header is in `Model/NodeAttr.lean` (C98), attributes and shapes are left
out as in `Model/Load.lean`.
-/
namespace OnnxTool.FileTools
open OnnxTool OnnxTool.Load

variable {V : Type}

/-- `Graph.save_model` (841-857): an empty graph is not written (842-844); `none` = no file is written -/
def saveFile (l : Loaded V) : Option (GraphProto V) := if l.graph.nodemap.isEmpty then none else some (save true true l)

/-- `graph_reorder_nodes` on a loaded graph: `tensormap` is kept -/
def reorderL (l : Loaded V) : Loaded V := { l with graph := Topsort.graphReorderNodes l.graph }

/-- `model_reorder_nodes(m, save_model)` (115-118): the file that is written -/
def modelReorderNodes (f : Node → List V → Nat → V) (absent : V) (fuel : Nat) (p : GraphProto V) : Except PyErr (Option (GraphProto V)) :=
  match load {} f absent fuel p with
  | .error e => .error e
  | .ok l => .ok (saveFile (reorderL l))

/-- `model_constant_folding(m, save_model)` (110-112): the file that is written -/
def modelConstantFolding (f : Node → List V → Nat → V) (absent : V) (fuel : Nat) (p : GraphProto V) : Except PyErr (Option (GraphProto V)) :=
  match load { constantFolding := true } f absent fuel p with
  | .error e => .error e
  | .ok l => .ok (saveFile l)

end OnnxTool.FileTools
