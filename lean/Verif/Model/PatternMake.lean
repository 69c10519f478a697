import Verif.Model.Pattern
import Verif.Model.Subgraph
/-!
# A pattern made from nodes of the graph

Models `/repo/onnx_tool/fusion.py`: `create_descs_from_nodenames` (275-302), and `/repo/onnx_tool/graph.py`:
`Graph.fuse_subgraph_iotensors` (823-832).

Simplifications: as in `Verif.Model.Pattern`.  Attributes are not used by the patterns made here (`'attrs': []`), so the attribute table is
empty.  A dictionary of positions keeps the last of two positions with one name, the model the first: the node names given are taken to be
distinct where it matters.
-/
namespace OnnxTool.Pattern
open OnnxTool

/-- lines 279-291: one position per name, and `produced_by[t] = name` for each output of the node (the last name wins) -/
def startDescs (g : Graph) : List String → List Desc × Dict String → Except PyErr (List Desc × Dict String)
  | [], s => .ok s
  | name :: names, (ds, prod) =>
    match findNode g.nodemap name with
    | none => .error .keyError
    | some nd => startDescs g names (ds ++ [{ name := nd.name, op := .one nd.op }], nd.output.foldl (fun d t => d.set t name) prod)

def Desc.addOut (pt : Port) (d : Desc) : Desc := { d with outport := d.outport ++ [pt] }
def Desc.addIn (pt : Port) (d : Desc) : Desc := { d with inport := d.inport ++ [pt] }

/-- lines 295-301: the loop over the inputs of node number `i`, from input number `j` on -/
def wireInputs (g : Graph) (names : List String) (prod : Dict String) (i : Nat) (name : String) :
    Nat → List String → List Desc → Except PyErr (List Desc)
  | _, [], ds => .ok ds
  | j, t :: ts, ds =>
    match prod.get? t with
    | none => wireInputs g names prod i name (j + 1) ts ds
    | some pn =>
      match findNode g.nodemap pn with
      | none => .error .keyError
      | some pnd =>
        wireInputs g names prod i name (j + 1) ts
          ((ds.modify (names.idxOf pn) (Desc.addOut ⟨some (pnd.output.idxOf t), name, some j⟩)).modify i
            (Desc.addIn ⟨some j, pn, some (pnd.output.idxOf t)⟩))

/-- lines 293-301: the loop over the names, from number `i` on -/
def wireAll (g : Graph) (names : List String) (prod : Dict String) : Nat → List String → List Desc → Except PyErr (List Desc)
  | _, [], ds => .ok ds
  | i, name :: rest, ds =>
    match findNode g.nodemap name with
    | none => .error .keyError
    | some nd =>
      match wireInputs g names prod i name 0 nd.input ds with
      | .error e => .error e
      | .ok ds => wireAll g names prod (i + 1) rest ds

/-- `create_descs_from_nodenames` (275-302) -/
def createDescs (g : Graph) (names : List String) : Except PyErr (List Desc) :=
  match startDescs g names ([], []) with
  | .error e => .error e
  | .ok (ds, prod) => wireAll g names prod 0 names ds

/-- the loop of `fuse_subgraph_iotensors` (829-832) over the matches, from number `i` on -/
def fuseMatches (op : String) (pre : Option String) : Nat → List (List String) → Graph → Except PyErr Graph
  | _, [], g => .ok g
  | i, m :: ms, g =>
    match pre, m with
    | none, [] => .error .indexError
    | none, n :: _ => match Subgraph.fuseNodes g m op n with
      | .error e => .error e
      | .ok g => fuseMatches op pre (i + 1) ms g
    | some s, m => match Subgraph.fuseNodes g m op (s ++ "_" ++ toString i) with
      | .error e => .error e
      | .ok g => fuseMatches op pre (i + 1) ms g

/-- `fuse_subgraph_iotensors` (823-832) -/
def fuseByIO (g : Graph) (inputs outputs : List String) (op : String) (pre : Option String) : Except PyErr Graph :=
  match Subgraph.subnodesByIO g inputs outputs with
  | .error e => .error e
  | .ok (_, names, _) =>
    match createDescs g names with
    | .error e => .error e
    | .ok ds =>
      match searchPattern ⟨g, fun _ => []⟩ ⟨ds, false⟩ with
      | .error e => .error e
      | .ok ms => fuseMatches op pre 0 ms g

end OnnxTool.Pattern
