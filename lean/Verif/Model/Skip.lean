import Verif.Model.Subgraph
/-!
# Skipping nodes

Models `Graph.skip_node` (`/repo/onnx_tool/graph.py` 719-741) and `removeShapeOps` (`/repo/onnx_tool/fusion.py` 187-196).
-/
namespace OnnxTool.Skip
open OnnxTool

/-- Lines 731-735: replace the first occurrence of `out` by `ind` (then `break`). -/
def substFirst (out ind : String) : List String → List String
  | [] => []
  | t :: ts => if t = out then ind :: ts else t :: substFirst out ind ts

/-- Lines 729-735: `for con in self.consumedby[node.output[0]]`; state (nodemap, consumedby). -/
def rewire (out ind : String) : List String → List Node × Dict (List String) →
    Except PyErr (List Node × Dict (List String))
  | [], s => .ok s
  | c :: cs, (ns, cb) =>
    match findNode ns c with
    | none => .error .keyError
    | some nd =>
      if nd.input.contains out then
        rewire out ind cs (Subgraph.setNode ns { nd with input := substFirst out ind nd.input }, cb.appendAt ind c)
      else rewire out ind cs (ns, cb)

/-- Lines 737-740: `for pro in self.producedby[indtensor]`: rename the producer's only output. -/
def renameProducers (out : String) : List String → List Node → Except PyErr (List Node)
  | [], ns => .ok ns
  | p :: ps, ns =>
    match findNode ns p with
    | none => .error .keyError
    | some nd =>
      if nd.output.length = 1 then renameProducers out ps (Subgraph.setNode ns { nd with output := [out] })
      else .error .assertion

/-- `skip_node(nodename)` (719-741).  `indtensor` is the last operand found in `dynamics`; with `count == 1` it is the only
one.  When a node reads its own output (`ind = out`) the Python loop appends to the list it iterates over and does not end:
modelled as an error. -/
def skipNode (g : Graph) (x : String) : Except PyErr Graph :=
  match findNode g.nodemap x with
  | none => .error .keyError
  | some node =>
    match node.input.filter (fun t => g.dynamics.contains t), node.output with
    | [ind], [out] =>
      match g.consumedby.get? ind with
      | none => .error .keyError
      | some l =>
        if l.contains x then
          let cb := g.consumedby.set ind (l.erase x)
          match cb.get? out with
          | some cs =>
            if ind = out ∧ cs ≠ [] then .error .recursion
            else
              match rewire out ind cs (g.nodemap, cb) with
              | .error e => .error e
              | .ok (ns, cb) => .ok { g with nodemap := popNode ns x, consumedby := cb }
          | none =>
            match g.producedby.get? ind with
            | none => .error .keyError
            | some ps =>
              match renameProducers out ps g.nodemap with
              | .error e => .error e
              | .ok ns => .ok { g with nodemap := popNode ns x, consumedby := cb }
        else .error .valueError
    | _, _ => .ok { g with nodemap := popNode g.nodemap x }

/-- `skip_node` for each name, in order (`fusion.py` 193-194). -/
def skipAll : List String → Graph → Except PyErr Graph
  | [], g => .ok g
  | x :: xs, g =>
    match skipNode g x with
    | .error e => .error e
    | .ok g' => skipAll xs g'

/-- `ShapeOps` (`fusion.py` 184) -/
def isShapeOp (n : Node) : Bool := ["Flatten", "Reshape", "Unsqueeze", "Squeeze"].contains n.op

/-- `removeShapeOps(g)` (`fusion.py` 187-196) -/
def removeShapeOps (g : Graph) : Except PyErr Graph :=
  match skipAll ((g.nodemap.filter isShapeOp).map (·.name)) g with
  | .error e => .error e
  | .ok g' => .ok g'.updateTensorRelations

end OnnxTool.Skip
