import Verif.Model.Load
import Verif.Model.Topsort
import Verif.Model.Subgraph
/-!
# Exporting a set of nodes as a model of its own

Models `Graph.get_onnxgraph_by_nodenames` (`/repo/onnx_tool/graph.py` 833-839) with the general `make_graph_onnx` (859-914) and `get_initials_from_nodenames` (626-636).

As in `Model/Load.lean`, attributes, shapes and data types are left out and every initializer has data.
-/
namespace OnnxTool.Export
open OnnxTool OnnxTool.Load

variable {V : Type}

/-- `get_initials_from_nodenames(nodenames)` (626-636) for the nodes with these names: initializers in order of first use, each once; one without data (the empty name) is skipped -/
def initialsOf (l : Loaded V) (nodes : List Node) : List (String × V) :=
  ((nodes.flatMap (·.input)).foldl Subgraph.addNew []).filterMap fun t =>
    if l.graph.initials.contains t ∧ t ≠ "" then (l.env t).map fun v => (t, v) else none

/-- lines 876-881: an input is written if it has an entry in `tensormap` that gives a proto, and also if it has no entry -/
def inputInfos (l : Loaded V) (names : List String) : List String := names.filter fun t => !l.tensors.contains t || t != ""

/-- `make_graph_onnx(nodenames, gname, inputnames, outputnames, with_initializer, with_shape_info)` (859-914), `nodes` being the nodes with the given names -/
def makeGraph (l : Loaded V) (nodes : List Node) (ins outs : List String) (withInitializer withShapeInfo : Bool) : GraphProto V :=
  let ini := if withInitializer then initialsOf l nodes else []
  { node := nodes
    initializer := ini
    input := inputInfos l ins ++ infos l (l.graph.initials.filter fun t => !(ini.map (·.1)).contains t)
    output := infos l outs
    valueInfo := if withShapeInfo then infos l (l.graph.dynamics.filter fun t => !(l.graph.input.contains t || l.graph.output.contains t)) ++
      (if withInitializer then [] else infos l l.graph.initials) else [] }

/-- `get_onnxgraph_by_nodenames(nodenames)` (833-839); `None` for an empty list.  A name that is not in `nodemap` makes `get_iotensors` raise, so the nodes of `sel` are all the named ones. -/
def exportNodes (l : Loaded V) (names : List String) : Except PyErr (Option (GraphProto V)) :=
  if names.isEmpty then .ok none
  else
    match Subgraph.getIOTensors l.graph names true with
    | .error e => .error e
    | .ok (ins, outs) =>
      let sel := names.filterMap (findNode l.graph.nodemap)
      .ok (some (makeGraph l ((Topsort.topsortNodes sel).filterMap (findNode l.graph.nodemap)) ins outs true true))

/-- the three exports of `get_subgraph` (592-597): the levels found by `__get_subnodes_byio__`, each exported.  (`get_subgraph` then calls `Graph(…)` without the required
second argument, so the call itself raises `TypeError`; the exports are what it computes before.) -/
def exportLevels (l : Loaded V) (ins outs : List String) :
    Except PyErr (Option (GraphProto V) × Option (GraphProto V) × Option (GraphProto V)) :=
  match Subgraph.subnodesByIO l.graph ins outs with
  | .error e => .error e
  | .ok (n0, n1, n2) =>
    match exportNodes l n0, exportNodes l n1, exportNodes l n2 with
    | .ok a, .ok b, .ok c => .ok (a, b, c)
    | .error e, _, _ => .error e
    | _, .error e, _ => .error e
    | _, _, .error e => .error e

end OnnxTool.Export
