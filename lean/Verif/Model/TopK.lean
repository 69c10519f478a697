import Verif.Model.Subgraph
import Verif.Model.Remove
/-!
# Fixing the `K` of `TopK` nodes

Models `Graph.__set_fixed_topk` (`/repo/onnx_tool/graph.py` 387-414), which `Graph.__init__` (183-184) and `Graph.update_graph` (192-193) call when `fixed_topk` is positive.

Simplified: the value of the new initializer (`numpy.array([fixed_k])`, line 412) appears in the specification only; `self.tensormap` is left out.
-/
namespace OnnxTool.TopK
open OnnxTool Remove

/-- line 389: `fixed_k_tensor_name` -/
def fixedName : String := "constant_fixed_topk_k"

/-- lines 403-405, for all inputs of one node, and lines 398-399, for the `K` tensor alone: for every tensor with one consumer, its producer.  `KeyError` if the tensor is not in
`consumedby`, or has one consumer and is not in `producedby`. -/
def onceRead (cons prod : Dict (List String)) : List String → Except PyErr (List String)
  | [] => .ok []
  | i :: is =>
    match cons.get? i with
    | none => .error .keyError
    | some l =>
      if l.length = 1 then
        match prod.get? i with
        | none => .error .keyError
        | some [] => .error .indexError
        | some (p :: _) =>
          match onceRead cons prod is with
          | .error e => .error e
          | .ok new => .ok (p :: new)
      else onceRead cons prod is

/-- lines 400-407: `while len(node_list)`; `fuel` bounds the number of rounds -/
def chain (ns : List Node) (cons prod : Dict (List String)) : Nat → List String → List String → Except PyErr (List String)
  | _, [], rm => .ok rm
  | 0, _ :: _, _ => .error .recursion
  | fuel + 1, s :: q, rm =>
    match findNode ns s with
    | none => .error .keyError
    | some nd =>
      match onceRead cons prod nd.input with
      | .error e => .error e
      | .ok new => chain ns cons prod fuel (q ++ new) (rm ++ [s])

/-- lines 397-407: the nodes to remove for one `K` tensor -/
def forK (fuel : Nat) (g : Graph) (k : String) : Except PyErr (List String) :=
  match onceRead g.consumedby g.producedby [k] with
  | .error e => .error e
  | .ok q => chain g.nodemap g.consumedby g.producedby fuel q []

/-- lines 392-409: the loop over the nodes; returns the graph, `remove_list` and `topk_node` -/
def pass (fuel : Nat) : List String → Graph → List String → Nat → Except PyErr (Graph × List String × Nat)
  | [], g, rm, c => .ok (g, rm, c)
  | n :: ns, g, rm, c =>
    match findNode g.nodemap n with
    | none => .error .keyError
    | some nd =>
      if nd.op = "TopK" then
        match nd.input with
        | a :: k :: rest =>
          match forK fuel g k with
          | .error e => .error e
          | .ok new => pass fuel ns { g with nodemap := Subgraph.setNode g.nodemap { nd with input := a :: fixedName :: rest } } (rm ++ new) (c + 1)
        | _ => .error .indexError
      else pass fuel ns g rm c

/-- `__set_fixed_topk` (387-414) -/
def setTopk (fuel : Nat) (g : Graph) : Except PyErr Graph :=
  match pass fuel (g.nodemap.map (·.name)) g [] 0 with
  | .error e => .error e
  | .ok (g1, rm, c) => removeEach rm (if c > 0 then { g1 with initials := g1.initials ++ [fixedName] } else g1)

end OnnxTool.TopK
