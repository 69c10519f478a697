import Verif.Model.Remove
/-!
# Splitting and fusing node sets

Models `Graph.__get_subnodes_byio__` (`/repo/onnx_tool/graph.py` 538-572), `Graph.get_iotensors` (965-1001) and
`Graph.fuse_subgraph_node_names` (743-772).
-/
namespace OnnxTool.Subgraph
open OnnxTool

/-- Lines 547-552 / 560-565: the loop over the consumers of one tensor.  `excl` is `graph_level2` when level 1 is searched
and empty when level 2 is searched; the state is (nodes found, `newlist`). -/
def visitConsumers (g : Graph) (excl : List String) :
    List String → List String × List String → Except PyErr (List String × List String)
  | [], s => .ok s
  | c :: cs, (V, new) =>
    if excl.contains c || V.contains c then visitConsumers g excl cs (V, new)
    else
      match findNode g.nodemap c with
      | none => .error .keyError
      | some nd => visitConsumers g excl cs (V ++ [c], new ++ nd.output)

/-- Lines 545-552 / 558-565: the loop over `searchlist`. -/
def visitTensors (g : Graph) (excl : List String) :
    List String → List String × List String → Except PyErr (List String × List String)
  | [], s => .ok s
  | t :: ts, s =>
    match g.consumedby.get? t with
    | none => visitTensors g excl ts s
    | some cs =>
      match visitConsumers g excl cs s with
      | .error e => .error e
      | .ok s' => visitTensors g excl ts s'

/-- Lines 543-553 / 555-566: the `while len(searchlist)` loop; `fuel` bounds the rounds (proved sufficient). -/
def bfs (g : Graph) (excl : List String) : Nat → List String → List String → Except PyErr (List String)
  | 0, _, _ => .error .recursion
  | _ + 1, [], V => .ok V
  | fuel + 1, t :: ts, V =>
    match visitTensors g excl (t :: ts) (V, []) with
    | .error e => .error e
    | .ok (V', new) => bfs g excl fuel new V'

/-- `__get_subnodes_byio__(inputs, outputs)` (538-572): the three levels of node names. -/
def subnodesByIO (g : Graph) (inputs outputs : List String) :
    Except PyErr (List String × List String × List String) :=
  match bfs g [] (g.nodemap.length + 2) outputs [] with
  | .error e => .error e
  | .ok l2 =>
    match bfs g l2 (g.nodemap.length + 2) inputs [] with
    | .error e => .error e
    | .ok l1 =>
      .ok ((g.nodemap.map (·.name)).filter (fun n => !l1.contains n && !l2.contains n), l1, l2)

/-- `if x not in l: l.append(x)` -/
def addNew (l : List String) (x : String) : List String := if l.contains x then l else l ++ [x]

/-- Lines 975-982 / 989-996: the tensor has no entry in the index, or one of the listed nodes is not in the set. -/
def someOutside (names : List String) : Option (List String) → Bool
  | none => true
  | some ps => !(ps.all (fun p => names.contains p))

/-- Lines 971-984: should this input name be listed? -/
def inputWanted (g : Graph) (names : List String) (rmInit : Bool) (i : String) : Bool :=
  !(i.isEmpty) && !(rmInit && g.initials.contains i) &&
    someOutside names (g.producedby.get? i)

/-- Lines 986-998: should this output name be listed? -/
def outputWanted (g : Graph) (names : List String) (rmInit : Bool) (o : String) : Bool :=
  !(rmInit && g.initials.contains o) &&
    someOutside names (g.consumedby.get? o)

/-- Lines 968-1000: the loop over the node names. -/
def ioLoop (g : Graph) (names : List String) (rmInit : Bool) :
    List String → List String × List String → Except PyErr (List String × List String)
  | [], s => .ok s
  | n :: ns, (I, O) =>
    match findNode g.nodemap n with
    | none => .error .keyError
    | some nd =>
      ioLoop g names rmInit ns
        ((nd.input.filter (inputWanted g names rmInit)).foldl addNew I,
         (nd.output.filter (outputWanted g names rmInit)).foldl addNew O)

/-- `get_iotensors(nodenames, remove_initials)` (965-1001). -/
def getIOTensors (g : Graph) (names : List String) (rmInit : Bool) : Except PyErr (List String × List String) :=
  ioLoop g names rmInit names ([], [])

/-- `self.nodemap[nodename] = newnode`: replaces in place when the key exists, else appends (dict semantics). -/
def setNode : List Node → Node → List Node
  | [], n => [n]
  | m :: ms, n => if m.name = n.name then n :: ms else m :: setNode ms n

/-- `fuse_subgraph_node_names(nodes, nodeop, nodename)` (743-772).  Attribute copying (747-754) is not modelled. -/
def fuseNodes (g : Graph) (names : List String) (op name : String) : Except PyErr Graph :=
  match getIOTensors g names false with
  | .error e => .error e
  | .ok (I, O) =>
    match Remove.removeEach names g with
    | .error e => .error e
    | .ok g1 =>
      .ok { g1 with
        consumedby := I.foldl (fun d i => d.appendAt i name) g1.consumedby
        producedby := O.foldl (fun d o => d.set o [name]) g1.producedby
        nodemap := setNode g1.nodemap ⟨name, op, I, O⟩ }

end OnnxTool.Subgraph
