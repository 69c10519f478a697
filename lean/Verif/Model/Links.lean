import Verif.Model.Edit
import Verif.Model.Skip
/-!
# Edits after edits: the links between nodes

`remove_subtree` and `remove_dangling_nodes` follow `node.nextnodes`, which is filled when a graph is loaded (`/repo/onnx_tool/graph.py` 494-503) and when a fusion makes a node
(764-771, 813-820), and by nothing else.  A fusion appends the list `self.consumedby[o]` itself instead of the nodes in it.  `prevnodes` is never read and is left out.

Simplified: a link holds the name of the node object it refers to (only `.name` of it is ever used); the attributes of a fused node are left out.
-/
namespace OnnxTool.Links
open OnnxTool

/-- an entry of `nextnodes`: a node, or (after a fusion) a list of names -/
inductive Link where
  | node (name : String)
  | names (l : List String)
  deriving DecidableEq, Repr

/-- a graph together with `nextnodes` of its nodes -/
structure State where
  graph : Graph
  next : String → List Link

/-- lines 494-503: the links of a loaded graph -/
def load (g : Graph) : State :=
  ⟨g.updateTensorRelations, fun x => match findNode g.nodemap x with
    | some n => (n.output.flatMap fun o => (g.updateTensorRelations.consumedby.get? o).getD []).map .node
    | none => []⟩

/-- lines 767-771 and 816-820: the links of a fused node that writes `O` -/
def fusedLinks (g : Graph) (O : List String) : List Link := O.filterMap fun o => (g.consumedby.get? o).map .names

/-- lines 680-685: the loop over `nextnodes`; `n.name` on a list is an `AttributeError` -/
def gather (f : String → Except PyErr (List String)) : List Link → Except PyErr (List String)
  | [] => .ok []
  | .names _ :: _ => .error .attributeError
  | .node n :: ns =>
    match f n with
    | .error e => .error e
    | .ok l =>
      match gather f ns with
      | .error e => .error e
      | .ok l' => .ok (n :: l ++ l')

/-- `remove_subtree(nodename, nodeset)` (677-685); `depth` is how deep Python can still recurse -/
def collect (s : State) : Nat → String → Except PyErr (List String)
  | 0, _ => .error .recursion
  | depth + 1, name =>
    match findNode s.graph.nodemap name with
    | none => .ok []
    | some _ => gather (collect s depth) (s.next name)

/-- `remove_subtree(nodename)` (687-695); `iter` is the order in which the set is iterated -/
def removeSubtree (s : State) (depth : Nat) (iter : List String → List String) (name : String) : Except PyErr State :=
  match collect s depth name with
  | .error e => .error e
  | .ok l =>
    match Remove.removeEach (iter (name :: l)) s.graph with
    | .error e => .error e
    | .ok g => .ok { s with graph := g }

/-- lines 707-711: is a linked node still there?  The loop runs even if the node writes a graph output. -/
def linked (g : Graph) : List Link → Except PyErr Bool
  | [] => .ok false
  | .names _ :: _ => .error .attributeError
  | .node m :: ls => if (findNode g.nodemap m).isSome then .ok true else linked g ls

/-- lines 702-711: `node_used` -/
def nodeUsed (s : State) (nd : Node) : Except PyErr Bool :=
  match linked s.graph (s.next nd.name) with
  | .error e => .error e
  | .ok b => .ok (nd.output.any (fun o => s.graph.output.contains o) || b)

/-- lines 699-717: one pass over the names of the nodes -/
def danglingPass : List String → State → Bool → Except PyErr (State × Bool)
  | [], s, again => .ok (s, again)
  | name :: names, s, again =>
    match findNode s.graph.nodemap name with
    | none => .error .keyError
    | some nd =>
      match nodeUsed s nd with
      | .error e => .error e
      | .ok true => danglingPass names s again
      | .ok false =>
        match Remove.removeNode s.graph name true with
        | .error e => .error e
        | .ok g' => danglingPass names { s with graph := g' } true

/-- lines 697-717: the `while` loop; every pass but the last removes a node, so that one more pass than nodes is enough -/
def danglingLoop : Nat → State → Except PyErr State
  | 0, _ => .error .recursion
  | fuel + 1, s =>
    match danglingPass (s.graph.nodemap.map (·.name)) s false with
    | .error e => .error e
    | .ok (s', again) => if again then danglingLoop fuel s' else .ok s'

/-- `remove_dangling_nodes()` (697-717) -/
def removeDangling (s : State) : Except PyErr State := danglingLoop (s.graph.nodemap.length + 1) s

/-- one call of the editing interface -/
inductive Edit where
  /-- `remove_node(name, recursive)` -/
  | remove (name : String) (recursive : Bool)
  /-- `remove_subtree(name)` -/
  | subtree (name : String)
  /-- `remove_dangling_nodes()` -/
  | dangling
  /-- `skip_node(name)` -/
  | skip (name : String)
  /-- `update_tensor_relations()` -/
  | relations
  /-- `fuse_subgraph_node_names(nodes, op, name)` -/
  | fuse (nodes : List String) (op name : String)
  /-- `fuse_postop_node_names(nodes, ...)` -/
  | postop (nodes : List String)

/-- the links after a fusion into the node `name` that writes `O` -/
def withFused (s : State) (g : Graph) (name : String) (O : List String) : State :=
  ⟨g, fun x => if x = name then fusedLinks g O else s.next x⟩

/-- one call; a fusion links its node after the consumers were entered (the loop over the inputs comes first) -/
def step (depth : Nat) (iter : List String → List String) (s : State) : Edit → Except PyErr State
  | .remove x r =>
    match Remove.removeNode s.graph x r with
    | .error e => .error e
    | .ok g => .ok { s with graph := g }
  | .subtree x => removeSubtree s depth iter x
  | .dangling => removeDangling s
  | .skip x =>
    match Skip.skipNode s.graph x with
    | .error e => .error e
    | .ok g => .ok { s with graph := g }
  | .relations => .ok { s with graph := s.graph.updateTensorRelations }
  | .fuse nodes op name =>
    match Subgraph.fuseNodes s.graph nodes op name with
    | .error e => .error e
    | .ok g =>
      match findNode g.nodemap name with
      | none => .error .keyError
      | some nd => .ok (withFused s g name nd.output)
  | .postop nodes =>
    match Edit.fusePostop s.graph (fun _ => []) nodes false [] with
    | .error e => .error e
    | .ok (g, _) =>
      match findNode g.nodemap (nodes.headD "") with
      | none => .error .keyError
      | some nd => .ok (withFused s g (nodes.headD "") nd.output)

/-- a history of calls -/
def run (depth : Nat) (iter : List String → List String) : List Edit → State → Except PyErr State
  | [], s => .ok s
  | e :: es, s =>
    match step depth iter s e with
    | .error x => .error x
    | .ok s' => run depth iter es s'

end OnnxTool.Links
