import Verif.Model.Load
import Verif.Model.ShapeInfer
/-!
# Dumping intermediate tensors

Models `Graph.add_dump_tensors` (`/repo/onnx_tool/graph.py` 1076-1080).
-/
namespace OnnxTool.Dump
open OnnxTool

/-- the loop of `add_dump_tensors(dump_tensor_names)` (1076-1080); `tensors` are the keys of `tensormap`, `out` is `self.output` -/
def addDumps (tensors : List String) : List String → List String → List String
  | [], out => out
  | t :: ts, out => addDumps tensors ts (if tensors.contains t then (if out.contains t then out else out ++ [t]) else out)

/-- `add_dump_tensors(names)` on a loaded graph -/
def dump {V : Type} (l : Load.Loaded V) (names : List String) : Load.Loaded V :=
  { l with graph := { l.graph with output := addDumps l.tensors names l.graph.output } }

end OnnxTool.Dump
