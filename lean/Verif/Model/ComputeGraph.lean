import Verif.Model.ShapeCalc
/-!
# The compute graph

Models `Graph.get_compute_graph` (`/repo/onnx_tool/graph.py` 1383-1431).
-/
namespace OnnxTool.ComputeGraph
open OnnxTool

/-- Lines 1392-1402: every output has consumers and all of them are shape-calculation nodes (`M`).  True for a node without
outputs. -/
def isDummy (g : Graph) (M : List String) (n : Node) : Bool :=
  n.output.all fun o =>
    match g.consumedby.get? o with
    | none => false
    | some cs => cs.all (fun c => M.contains c)

/-- Lines 1409-1415: the loop over the inputs of one removed node; state (`rmnodes`, `searchnodes`). -/
def upInputs (g : Graph) : List String → List String × List String → Except PyErr (List String × List String)
  | [], s => .ok s
  | i :: is, (rm, q) =>
    match g.producedby.get? i with
    | none => upInputs g is (rm, q)
    | some ps =>
      match g.consumedby.get? i with
      | none => .error .keyError
      | some cs =>
        if cs.length = 1 then
          match ps with
          | [] => .error .indexError
          | p :: _ => upInputs g is (Subgraph.addNew rm p, q ++ [p])
        else upInputs g is (rm, q)

/-- Lines 1405-1415: the `while len(searchnodes) > 0` loop.  `fuel` bounds its iterations. -/
def upstream (g : Graph) : Nat → List String → List String → Except PyErr (List String)
  | 0, _, _ => .error .recursion
  | _ + 1, [], rm => .ok rm
  | fuel + 1, x :: q, rm =>
    match findNode g.nodemap x with
    | none => .error .keyError
    | some nd =>
      match upInputs g nd.input (rm, q) with
      | .error e => .error e
      | .ok (rm', q') => upstream g fuel q' rm'

/-- Lines 1387-1417: the loop over all nodes computing `rmnodes`. -/
def collect (g : Graph) (M : List String) (fuel : Nat) : List Node → List String → Except PyErr (List String)
  | [], rm => .ok rm
  | n :: ns, rm =>
    if M.contains n.name then collect g M fuel ns (rm ++ [n.name])
    else if isDummy g M n then
      match upstream g fuel [n.name] (rm ++ [n.name]) with
      | .error e => .error e
      | .ok rm' => collect g M fuel ns rm'
    else collect g M fuel ns rm

/-- Lines 1423-1429: the rebuilt `dynamics` (the membership test is on the node *name*, as in the code). -/
def rebuildDynamics (g : Graph) : List String :=
  g.nodemap.foldl (fun d n => n.output.foldl (fun d o => if d.contains n.name then d else d ++ [o]) d) (g.input ++ g.output)

/-- `get_compute_graph()` (1383-1431) on a graph `g` whose shape-calculation nodes are `M`: the returned graph and the
state in which `g` itself is left.  `copy.copy` is shallow: `nodemap`, `producedby`, `consumedby` and `output` are the same
objects in both graphs and are changed in place; only `dynamics` is rebound in the copy. -/
def computeGraph (fuel : Nat) (g : Graph) (M : List String) : Except PyErr (Graph × Graph) :=
  match collect g M fuel g.nodemap [] with
  | .error e => .error e
  | .ok rm =>
    match Remove.removeEach rm g with
    | .error e => .error e
    | .ok cg => .ok ({ cg with dynamics := rebuildDynamics cg }, { cg with dynamics := g.dynamics })

end OnnxTool.ComputeGraph
