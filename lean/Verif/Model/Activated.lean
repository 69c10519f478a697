import Verif.Model.LlmCost
/-!
# Activated and total parameters (`/repo/benchmark/moe_activated_params.py` 20-28)

`get_activated_params` builds the decoder, profiles it and returns the sum of the nodes' `static_params` and `graph.params`.
-/
namespace OnnxTool.Activated
open OnnxTool OnnxTool.Builder OnnxTool.LlmCost

/-- `_params` of a node (`/repo/onnx_tool/graph.py` 1448-1464): elements of its constant operands, whether or not another node has them too -/
def nodeParams (s : St) (n : String × BNode) : Except PyErr Nat :=
  match lookups s.tensors n.2.input with
  | .error e => .error e
  | .ok ins => .ok (statics ins)

/-- `self.params` (`/repo/onnx_tool/graph.py` 1439, 1485): the sum of the above -/
def paramsLoop (s : St) : List (String × BNode) → Nat → Except PyErr Nat
  | [], n => .ok n
  | m :: ms, n =>
    match nodeParams s m with
    | .error e => .error e
    | .ok p => paramsLoop s ms (n + p)

/-- `get_activated_params` (`/repo/benchmark/moe_activated_params.py` 20-28); the batch and the sequence length are in the configuration -/
def activatedParams (c : Cfg) (w : WMap) (x : Attrs) : Except PyErr (Nat × Nat) :=
  match buildGraph c w with
  | .error e => .error e
  | .ok s =>
    match profileGraph c x 0 s with
    | .error e => .error e
    | .ok rs =>
      match paramsLoop s s.nodes 0 with
      | .error e => .error e
      | .ok total => .ok ((rs.map (·.fig.static)).sum, total)

end OnnxTool.Activated
