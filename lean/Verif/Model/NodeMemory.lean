import Verif.Model.Profile
import Verif.Model.Axes
/-!
# The memory a node is charged

Models `Node.profile` (`/repo/onnx_tool/node.py` 213-229) and `GatherNode.profile` (968-976), whose second and third number `Graph.profile` turns into `node.memory`
(`/repo/onnx_tool/graph.py` 1457-1468, in `Model/Profile`).

Simplified: dimensions are natural numbers; the MACs are a parameter.
-/
namespace OnnxTool.Profile
open OnnxTool

/-- the operands `node.static_inputs` lists (`graph.py` 1457) -/
def staticOf (its : List TInfo) : List TInfo := its.filter fun t => t.name != "" && t.static

/-- `Node.profile` (213-229); `core` is `_profile_core` -/
def nodeProf (core : Node → List TInfo → List TInfo → Except PyErr ℚ) : Prof := fun n its ots =>
  match core n its ots with
  | .error e => .error e
  | .ok macs => .ok (macs, (ots.map fun t => volume t.shape).sum, ((staticOf its).map fun t => volume t.shape).sum)

/-- `GatherNode.profile` (968-976) -/
def gatherProf : Prof := fun _ its ots =>
  match its with
  | table :: ids :: _ =>
    match table.shape.getLast? with
    | none => .error .indexError
    | some hidden =>
      match ots with
      | [] => .error .indexError
      | o :: _ => .ok (0, volume o.shape, volume ids.shape * hidden)
  | _ => .error .indexError

end OnnxTool.Profile
