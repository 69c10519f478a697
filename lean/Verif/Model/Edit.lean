import Verif.Model.Subgraph
/-!
# Post-op fusion and removing a subtree

Models `Graph.fuse_postop_node_names` (`/repo/onnx_tool/graph.py` 774-821) and `Graph.remove_subtree` (677-695).
-/
namespace OnnxTool.Edit
open OnnxTool

/-- The value of an attribute; `data` stands for any other value.  (`get_attribute_data` then `make_attribute` copies it.) -/
inductive AttrVal where
  | int (n : Nat)
  | str (s : String)
  | data (k : Nat)
  deriving DecidableEq, Repr

/-- `node.proto.attribute` of every node: name and value, in order -/
abbrev Attrs := String → List (String × AttrVal)

/-- lines 778-783: the post-op count so far -/
def oldCount : List (String × AttrVal) → Nat → Nat
  | [], c => c
  | (k, .int n) :: as, c => oldCount as (if k = "postop_count" then n else c)
  | _ :: as, c => oldCount as c

/-- lines 790-801: the attributes for the post-ops, numbered from `count` on, and the next number -/
def postAttrs (main : String) (ns : List Node) (A : Attrs) : List String → Nat → Except PyErr (List (String × AttrVal) × Nat)
  | [], count => .ok ([], count)
  | n :: names, count =>
    if n = main then postAttrs main ns A names count
    else
      match findNode ns n with
      | none => .error .keyError
      | some p =>
        match postAttrs main ns A names (count + 1) with
        | .error e => .error e
        | .ok (as, c) =>
          .ok (("postop_" ++ toString count, .str p.op) :: (A n).map (fun a => ("postop_" ++ toString count ++ "_" ++ a.1, a.2)) ++ as, c)

/-- lines 778-804: the attributes of the fused node -/
def fusedAttrs (main : String) (ns : List Node) (A : Attrs) (names : List String) (append : Bool) (extra : List (String × AttrVal)) :
    Except PyErr (List (String × AttrVal)) :=
  match (if append then postAttrs main ns A names (oldCount (A main) 0) else .ok ([], oldCount (A main) 0)) with
  | .error e => .error e
  | .ok (as, c) => .ok ((A main).filter (fun a => a.1 ≠ "postop_count") ++ extra ++ as ++ [("postop_count", .int c)])

/-- lines 811-813: `if i in self.consumedby.keys(): self.consumedby[i].append(mainnode.name)` -/
def appendIfThere (name : String) (d : Dict (List String)) (i : String) : Dict (List String) := if d.has i then d.appendAt i name else d

/-- `fuse_postop_node_names(nodes, append_attr, **extrakeys)` (774-821) -/
def fusePostop (g : Graph) (A : Attrs) (names : List String) (append : Bool) (extra : List (String × AttrVal)) : Except PyErr (Graph × Attrs) :=
  match Subgraph.getIOTensors g names false with
  | .error e => .error e
  | .ok (I, O) =>
    match names with
    | [] => .error .indexError
    | main :: _ =>
      match findNode g.nodemap main with
      | none => .error .keyError
      | some nd =>
        match fusedAttrs main g.nodemap A names append extra with
        | .error e => .error e
        | .ok as =>
          match Remove.removeEach names g with
          | .error e => .error e
          | .ok g1 =>
            .ok ({ g1 with
              consumedby := I.foldl (appendIfThere main) g1.consumedby
              producedby := O.foldl (fun d o => d.set o [main]) g1.producedby
              nodemap := Subgraph.setNode g1.nodemap ⟨main, nd.op, I, O⟩ }, fun q => if q = main then as else A q)

/-- lines 681-683: the loop over `node.nextnodes`; `f` is the recursive call -/
def gather (f : String → Except PyErr (List String)) : List String → Except PyErr (List String)
  | [] => .ok []
  | n :: ns =>
    match f n with
    | .error e => .error e
    | .ok l =>
      match gather f ns with
      | .error e => .error e
      | .ok l' => .ok (n :: l ++ l')

/-- `remove_subtree(nodename, nodeset)` (677-685): the names added to `nodeset`, with repetitions.  `depth` is how deep Python can still recurse.  `g0` is the
graph at load time, when `nextnodes` was filled (see `Remove.nextNames`). -/
def collect (g0 g : Graph) : Nat → String → Except PyErr (List String)
  | 0, _ => .error .recursion
  | depth + 1, name =>
    match findNode g.nodemap name with
    | none => .ok []
    | some nd => gather (collect g0 g depth) (Remove.nextNames g0 nd)

/-- `remove_subtree(nodename)` (687-695); `iter` is the order in which the set `nodeset` is iterated -/
def removeSubtree (g0 g : Graph) (depth : Nat) (iter : List String → List String) (name : String) : Except PyErr Graph :=
  match collect g0 g depth name with
  | .error e => .error e
  | .ok l => Remove.removeEach (iter (name :: l)) g

end OnnxTool.Edit
