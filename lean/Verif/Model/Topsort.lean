import Verif.Model.Graph
/-!
# `topsort_nodes` and `graph_reorder_nodes` (`/repo/onnx_tool/graph.py` 916-963)
-/
namespace OnnxTool.Topsort
open OnnxTool

/-- `produced_by` (`graph.py` 918-922): only its key set is used afterwards. -/
def producedBy (ns : List Node) : Dict String :=
  ns.foldl (fun d n => n.output.foldl (fun d t => d.set t n.name) d) []

/-- One node of the second loop (`graph.py` 926-936): its inputs that some node produces, with multiplicity, are
appended to `consumed_by`; their number is the dependency count. -/
def addNode (produced : Dict String) (st : Dict (List String) × Dict Int) (n : Node) :
    Dict (List String) × Dict Int :=
  let ins := n.input.filter produced.has
  (ins.foldl (fun d t => d.appendAt t n.name) st.1, st.2.set n.name ins.length)

/-- `consumed_by` and `dependencies` (`graph.py` 924-936) -/
def tables (ns : List Node) : Dict (List String) × Dict Int :=
  ns.foldl (addNode (producedBy ns)) ([], [])

/-- `dependencies[con] -= 1` -/
def dec (deps : Dict Int) (c : String) : Dict Int := deps.set c ((deps.get? c).getD 0 - 1)

/-- The scan `for name in node_names: if dependencies[name] == 0` (`graph.py` 941-945). -/
def scan (st : List String × Dict Int) (n : Node) : List String × Dict Int :=
  if st.2.get? n.name = some 0 then (st.1 ++ [n.name], st.2.set n.name (-1)) else st

/-- `for name in queue: for o in node.output: for con in consumed_by[o]: dependencies[con] -= 1` (`graph.py` 948-953). -/
def process (ns : List Node) (consumed : Dict (List String)) (deps : Dict Int) (name : String) : Dict Int :=
  match findNode ns name with
  | none => deps
  | some n => n.output.foldl (fun deps o => ((consumed.get? o).getD []).foldl dec deps) deps

/-- The `while True` loop (`graph.py` 938-954).  Every round but the last appends at least one new node, so
`node_names.length + 1` rounds are enough (proved: `C08`). -/
def loop (ns : List Node) (consumed : Dict (List String)) : Nat → Dict Int → List String → List String
  | 0, _, ordered => ordered
  | fuel+1, deps, ordered =>
    let r := ns.foldl scan ([], deps)
    if r.1 = [] then ordered
    else loop ns consumed fuel (r.1.foldl (process ns consumed) r.2) (ordered ++ r.1)

/-- `topsort_nodes(node_names, input_names)` (`graph.py` 916-955) with `node_names` = all nodes, as
`graph_reorder_nodes` calls it (`input_names` is not used by the code). -/
def topsortNodes (ns : List Node) : List String :=
  let t := tables ns
  loop ns t.1 (ns.length + 1) t.2 []

/-- `graph_reorder_nodes` (`graph.py` 957-963) -/
def graphReorderNodes (g : Graph) : Graph :=
  Graph.updateTensorRelations { g with nodemap := (topsortNodes g.nodemap).filterMap (findNode g.nodemap) }

end OnnxTool.Topsort
