import Verif.Model.Load
import Verif.Model.Remove
/-!
# Replacing `If` nodes by one of their branches

Models `Graph.__remove_if__` (`/repo/onnx_tool/graph.py` 333-385), with `__add_node_from_proto__` (416-434), which `Graph.__init__` calls when `if_fixed_branch` is set (181-182).
`Graph.__set_fixed_topk` is in `Model/TopK`.

Simplified: the selected branch of an `If` is looked up by the name of the node; `prevnodes` / `nextnodes` (366-376, 422) are left out; `self.tensormap` gets an entry
for every tensor of a new node (368-373), as in `Load.tensorKeys`.
-/
namespace OnnxTool.Branch
open OnnxTool Remove

/-- the selected branch of an `If` node, a GraphProto: its nodes and outputs.  (Its initializers are never read by the code.) -/
structure Body where
  node : List Node
  output : List String
  initializer : List String := []
  deriving DecidableEq, Repr

/-- lines 354-358: the loop over the inputs of one node of the chain; `sub` is `sub_input`; returns the consumer index and the nodes appended to `node_list` -/
def chainInputs (prod : Dict (List String)) (sub : List String) (s : String) : List String → Dict (List String) → Except PyErr (Dict (List String) × List String)
  | [], c => .ok (c, [])
  | i :: is, c =>
    match c.get? i with
    | none => .error .keyError
    | some l =>
      match (if l.length = 1 ∧ i ∉ sub then (prod.get? i).map (·.head?) else none) with
      | some none => .error .indexError
      | p =>
        if s ∈ l then
          match chainInputs prod sub s is (c.set i (l.erase s)) with
          | .error e => .error e
          | .ok (c', new) => .ok (c', (p.bind id).toList ++ new)
        else .error .valueError

/-- lines 349-360: `while len(node_list)`; `fuel` bounds the number of rounds; what `inline` passes is always enough (`chain_fuel`) -/
def chain (ns : List Node) (prod : Dict (List String)) (sub : List String) : Nat → List String → Dict (List String) → List String → Except PyErr (Dict (List String) × List String)
  | _, [], c, rm => .ok (c, rm)
  | 0, _ :: _, _, _ => .error .recursion
  | fuel + 1, s :: q, c, rm =>
    match findNode ns s with
    | none => .error .keyError
    | some nd =>
      match chainInputs prod sub s nd.input c with
      | .error e => .error e
      | .ok (c', new) => chain ns prod sub fuel (q ++ new) c' (rm ++ [s])

/-- lines 377-380, one node: `newnode.output[i] = newoutput; self.producedby[newoutput].append(newname)` for every output equal to `preoutput` -/
def renameOne (pre new name : String) (g : Graph) : Except PyErr Graph :=
  match findNode g.nodemap name with
  | none => .error .keyError
  | some nd =>
    if pre ∈ nd.output then
      match g.producedby.get? new with
      | none => .error .keyError
      | some l =>
        .ok { g with
          nodemap := Subgraph.setNode g.nodemap { nd with output := nd.output.map fun v => if v = pre then new else v }
          producedby := g.producedby.set new (l ++ List.replicate (nd.output.count pre) name) }
    else .ok g

/-- lines 366-380: the loop over `names` -/
def renameAll (pre new : String) : List String → Graph → Except PyErr Graph
  | [], g => .ok g
  | n :: ns, g =>
    match renameOne pre new n g with
    | .error e => .error e
    | .ok g' => renameAll pre new ns g'

/-- lines 341-380 for the `If` node `nd`; `count` is `self.node_count`; returns the graph and the names appended to `remove_list` -/
def inline (b : Body) (nd : Node) (count : Nat) (g : Graph) : Except PyErr (Graph × List String) :=
  match chain g.nodemap g.producedby (b.node.flatMap (·.input)) ((g.consumedby.map fun e => e.2.length).sum + 1) [nd.name] g.consumedby [] with
  | .error e => .error e
  | .ok (c, rm) =>
    match b.output, nd.output with
    | pre :: _, new :: _ =>
      match renameAll pre new (b.node.map (·.name)) (Load.addNodes false count { g with consumedby := c } b.node) with
      | .error e => .error e
      | .ok g' => .ok (g', rm)
    | _, _ => .error .indexError

/-- lines 338-380: `for n in prekeys`; returns the graph, `self.node_count` and `remove_list` -/
def pass (br : String → Body) : List String → Nat → Graph → List String → Except PyErr (Graph × Nat × List String)
  | [], count, g, rm => .ok (g, count, rm)
  | n :: ns, count, g, rm =>
    match findNode g.nodemap n with
    | none => .error .keyError
    | some nd =>
      if nd.op = "If" then
        match inline (br n) nd count g with
        | .error e => .error e
        | .ok (g', new) => pass br ns (count + (br n).node.length) g' (rm ++ new)
      else pass br ns count g rm

/-- `__remove_if__` (333-385): `while True`; `fuel` bounds the number of rounds — one more than the nesting depth is enough -/
def removeIf (br : String → Body) : Nat → Nat → Graph → Except PyErr Graph
  | 0, _, _ => .error .recursion
  | fuel + 1, count, g =>
    match pass br (g.nodemap.map (·.name)) count g [] with
    | .error e => .error e
    | .ok (g1, count', rm) =>
      if rm = [] then .ok g1
      else
        match removeEach rm g1 with
        | .error e => .error e
        | .ok g2 => removeIf br fuel count' g2

end OnnxTool.Branch
