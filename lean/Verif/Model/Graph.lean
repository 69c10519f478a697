import Verif.Model.Py
/-!
# The graph object: nodes, producer and consumer indexes

Models `class Graph` of `/repo/onnx_tool/graph.py` (fields: lines 162-176) and the nodes of
`/repo/onnx_tool/node.py` (class `Node`: name, op_type, input, output).
-/
namespace OnnxTool

/-- A node of the graph (`node.py` class `Node`, lines 166-197: `name`, `op_type`, `input`, `output`).
Attributes that matter for a property are modelled where they are used. -/
structure Node where
  name : String
  op : String
  input : List String
  output : List String
  deriving DecidableEq, Repr

/-- `class Graph` (`graph.py` 162-176).  `nodemap` is the Python dict `name -> node` in insertion order; every insertion
in the code uses the key `node.name`, so the list of nodes carries the keys.  `tensormap` is modelled where needed. -/
structure Graph where
  nodemap : List Node := []
  input : List String := []
  output : List String := []
  initials : List String := []
  dynamics : List String := []
  producedby : Dict (List String) := []
  consumedby : Dict (List String) := []
  deriving DecidableEq, Repr

/-- `self.nodemap[name]` (`none` = KeyError). -/
def findNode (ns : List Node) (name : String) : Option Node := ns.find? (fun n => n.name = name)

/-- `self.nodemap.pop(name)` -/
def popNode (ns : List Node) (name : String) : List Node := ns.filter (fun n => n.name ≠ name)

/-- One node of the loop of `__update_consumer_producer__` (`graph.py` 318-327): consumers. -/
def addConsumers (d : Dict (List String)) (n : Node) : Dict (List String) :=
  n.input.foldl (fun d t => d.appendAt t n.name) d

/-- One node of the loop of `__update_consumer_producer__` (`graph.py` 318-327): producers. -/
def addProducers (d : Dict (List String)) (n : Node) : Dict (List String) :=
  n.output.foldl (fun d t => d.appendAt t n.name) d

/-- `__update_consumer_producer__` (`graph.py` 315-327). -/
def Graph.updateConsumerProducer (g : Graph) : Graph :=
  { g with
    consumedby := g.nodemap.foldl addConsumers []
    producedby := g.nodemap.foldl addProducers [] }

/-- `update_tensor_relations` (`graph.py` 329-331). -/
def Graph.updateTensorRelations (g : Graph) : Graph :=
  let g := g.updateConsumerProducer
  { g with dynamics := g.producedby.keys }

end OnnxTool
