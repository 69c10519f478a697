import Verif.Model.ConstFold
/-!
# Reading a model file into a graph and writing it back

Models `Graph.__init__` (`/repo/onnx_tool/graph.py` 162-187), `__init_graph_from_onnxproto__` (436-511), `__update_nodes_tensors__` (202-264),
`get_initials_from_nodenames` (626-636) and `make_graph_onnx` (859-914).

`V` is the type of initializer values.  Simplified: attributes, shapes and data types are left out (for them see C31, C32); `if_fixed_branch` and `fixed_topk`
have their defaults; every initializer has a name and data (its bytes are read, C32); warnings, timers and the sparsity search are left out.
-/
namespace OnnxTool.Load
open OnnxTool

/-- `ModelConfig` (`utils.py` 7-18) -/
structure Config where
  constantFolding : Bool := false
  nodeRename : Bool := false
  removeDangling : Bool := true

/-- the parts of an ONNX `GraphProto` the code reads and writes; `node` carries names (possibly empty), operator types, inputs and outputs -/
structure GraphProto (V : Type) where
  node : List Node := []
  initializer : List (String × V) := []
  input : List String := []
  output : List String := []
  valueInfo : List String := []
  deriving DecidableEq

/-- a loaded graph: the graph, the keys of `tensormap`, the values of its static tensors -/
structure Loaded (V : Type) where
  graph : Graph
  tensors : List String
  env : ConstFold.Env V

variable {V : Type}

/-- lines 446-447 (`newnode.name`) -/
def nodeName (rename : Bool) (i : Nat) (n : Node) : String := if rename = true ∨ n.name = "" then n.op ++ "_" ++ toString i else n.name

/-- one node of the file (445-463); `self.nodemap[newnode.name] = newnode` overwrites an existing entry in place -/
def addNode (rename : Bool) (i : Nat) (g : Graph) (n : Node) : Graph :=
  let n := { n with name := nodeName rename i n }
  { g with
    nodemap := Subgraph.setNode g.nodemap n
    consumedby := addConsumers g.consumedby n
    producedby := addProducers g.producedby n }

/-- the loop over the nodes (445-463), `i` being `self.node_count` -/
def addNodes (rename : Bool) : Nat → Graph → List Node → Graph
  | _, g, [] => g
  | i, g, n :: ns => addNodes rename (i + 1) (addNode rename i g n) ns

/-- the keys of `tensormap` after lines 469-502 -/
def tensorKeys (p : GraphProto V) (nodes : List Node) : List String :=
  (p.initializer.map (·.1) ++ p.input ++ p.output ++ p.valueInfo ++ nodes.flatMap fun n => n.input ++ n.output).foldl Subgraph.addNew []

/-- value of an initializer; of several with the same name the last one counts (470-472) -/
def lookup (l : List (String × V)) (t : String) : Option V := (l.reverse.find? fun e => e.1 = t).map (·.2)

/-- the static tensors after lines 469-502 (`Tensor.__init__`, `tensor.py` 369-395): initializers, and the tensor with the empty name, whose value is `absent` -/
def env0 (absent : V) (p : GraphProto V) : ConstFold.Env V := fun t =>
  match lookup p.initializer t with
  | some v => some v
  | none => if t = "" then some absent else none

/-- lines 229-239 (`constant_folding=False`): dynamic tensors -/
def plainDynamics (ini : List String) (nodes : List Node) (dyn : List String) : List String :=
  nodes.foldl (fun l n => n.output.foldl Subgraph.addNew (n.input.foldl (fun l t => if ini.contains t || l.contains t then l else l ++ [t]) l)) dyn

/-- `__update_nodes_tensors__(constant_folding=False)` (229-264) -/
def updatePlain (rd : Bool) (ini : List String) (g : Graph) : Graph :=
  let initials := g.initials ++ ini
  let dyn := plainDynamics initials g.nodemap (g.dynamics ++ g.input)
  { g with
    initials := initials
    dynamics := dyn
    input := ConstFold.foldedInputs g dyn g.nodemap
    output := if rd then g.output else ConstFold.foldedOutputs g g.nodemap }.updateConsumerProducer

/-- the graph after `__init_graph_from_onnxproto__` (436-511) -/
def initGraph (cfg : Config) (p : GraphProto V) : Graph := addNodes cfg.nodeRename 0 { output := if cfg.removeDangling then p.output else [] } p.node

/-- lines 202-264 -/
def finish (cfg : Config) (p : GraphProto V) (g : Graph) (env : ConstFold.Env V) (C : List String) : Graph :=
  if cfg.constantFolding then ConstFold.updateNodesTensors cfg.removeDangling g env C else updatePlain cfg.removeDangling (p.initializer.map (·.1)) g

/-- `Graph.__init__` (162-187); `f` is what the operators compute (only used with `constant_folding`), `fuel` bounds the
constant search.  Without `constant_folding` the search only marks nodes and tensors, it computes no values (299-301). -/
def load (cfg : Config) (f : Node → List V → Nat → V) (absent : V) (fuel : Nat) (p : GraphProto V) : Except PyErr (Loaded V) :=
  let g := initGraph cfg p
  match ConstFold.constantSearch g f fuel (env0 absent p) with
  | .error e => .error e
  | .ok (env, C) =>
    let g' := finish cfg p g env C
    .ok ⟨g', ConstFold.keptTensors g' (tensorKeys p g.nodemap), if cfg.constantFolding then env else env0 absent p⟩

/-! ### Writing -/

/-- `get_initials_from_nodenames` (626-636): initializers read by the nodes, in order of first use; one without data is skipped (only the empty name has none) -/
def usedInitials (l : Loaded V) : List (String × V) :=
  ((l.graph.nodemap.flatMap (·.input)).foldl Subgraph.addNew []).filterMap fun t =>
    if l.graph.initials.contains t ∧ t ≠ "" then (l.env t).map fun v => (t, v) else none

/-- `make_value_proto` (`tensor.py` 475-487) of the named tensors that are in `tensormap`; the tensor with the empty name gives none -/
def infos (l : Loaded V) (names : List String) : List String := names.filter fun t => l.tensors.contains t && t != ""

/-- `make_graph_onnx(self.nodemap.keys(), …, self.input, self.output, with_initializer, with_shape_info)` (859-914) as called by `save_model` (841-857).  A name in `self.input` without
an entry in `tensormap` would be written as well (880-881); `self.input` has none.  `helper.make_node` keeps the name, operator, inputs and outputs. -/
def save (withInitializer withShapeInfo : Bool) (l : Loaded V) : GraphProto V :=
  let ini := if withInitializer then usedInitials l else []
  { node := l.graph.nodemap
    initializer := ini
    input := infos l l.graph.input ++ infos l (l.graph.initials.filter fun t => !(ini.map (·.1)).contains t)
    output := infos l l.graph.output
    valueInfo := if withShapeInfo then infos l (l.graph.dynamics.filter fun t => !(l.graph.input.contains t || l.graph.output.contains t)) ++
      (if withInitializer then [] else infos l l.graph.initials) else [] }

end OnnxTool.Load
