import Verif.Model.Graph
/-!
# Removing nodes

Models `Graph.remove_node` (`/repo/onnx_tool/graph.py` 638-675) and `Graph.remove_dangling_nodes` (697-717).
`Graph.remove_subtree` is modelled in `Model/Edit`.
-/
namespace OnnxTool.Remove
open OnnxTool

/-- `d[k].remove(x)` followed by `if len(d[k]) == 0: d.pop(k)`; nothing if `k` is missing.  (`graph.py` 645-647 and
667-670.  `list.remove` of an absent `x` is handled by the callers.) -/
def eraseAt (d : Dict (List String)) (k x : String) : Dict (List String) :=
  match d.get? k with
  | none => d
  | some l => if l.erase x = [] then d.pop k else d.set k (l.erase x)

/-- Lines 643-650: the loop over `node.output`.  `ValueError` when `name` is not in `producedby[o]`. -/
def rmProducers (name : String) : List String → Graph → Except PyErr Graph
  | [], g => .ok g
  | o :: os, g =>
    match g.producedby.get? o with
    | none => rmProducers name os g
    | some l =>
      if l.contains name then
        rmProducers name os { g with producedby := eraseAt g.producedby o name, output := g.output.erase o }
      else .error .valueError

/-- Lines 656-666: is the (only) producer `pnode` of `i` left without any other use?  `none`: `i` is not produced or
still has several consumers. -/
def danglingProducer (g : Graph) (i : String) : Except PyErr (Option String) :=
  match g.consumedby.get? i, g.producedby.get? i with
  | some c, some p =>
    if c.length = 1 then
      match p with
      | [] => .error .indexError
      | [pn] =>
        match findNode g.nodemap pn with
        | none => .error .keyError
        | some nd =>
          if nd.output.all (fun o => o == i || !(g.consumedby.has o || g.output.contains o))
          then .ok (some pn) else .ok none
      | _ => .error .assertion
    else .ok none
  | _, _ => .ok none

/-- Lines 652-670: the loop over `node.input`; returns the graph and `newnodes`. -/
def rmConsumers (name : String) : List String → Graph → List String → Except PyErr (Graph × List String)
  | [], g, new => .ok (g, new)
  | i :: is, g, new =>
    match danglingProducer g i with
    | .error e => .error e
    | .ok d => rmConsumers name is { g with consumedby := eraseAt g.consumedby i name } (new ++ d.toList)

/-- Lines 638-671 without the final recursion: remove one node, report the producers left dangling. -/
def removeOne (g : Graph) (name : String) : Except PyErr (Graph × List String) :=
  match findNode g.nodemap name with
  | none => .ok (g, [])
  | some nd =>
    match rmProducers name nd.output g with
    | .error e => .error e
    | .ok g1 =>
      match rmConsumers name nd.input g1 [] with
      | .error e => .error e
      | .ok (g2, new) => .ok ({ g2 with nodemap := popNode g2.nodemap name }, new)

/-- Repeated `self.remove_node(node)` (non-recursive), lines 673-675. -/
def removeEach : List String → Graph → Except PyErr Graph
  | [], g => .ok g
  | n :: ns, g =>
    match removeOne g n with
    | .error e => .error e
    | .ok (g', _) => removeEach ns g'

/-- `Graph.remove_node(nodename, recursive)` (638-675).  The recursion is one level deep: the recursive call uses the
default `recursive=False`. -/
def removeNode (g : Graph) (name : String) (recursive : Bool) : Except PyErr Graph :=
  match removeOne g name with
  | .error e => .error e
  | .ok (g', new) => if recursive then removeEach new g' else .ok g'

/-- A history of `remove_node` calls. -/
def removeAll : List (String × Bool) → Graph → Except PyErr Graph
  | [], g => .ok g
  | (n, r) :: cs, g =>
    match removeNode g n r with
    | .error e => .error e
    | .ok g' => removeAll cs g'

/-- `node.nextnodes` as filled once at load time (`graph.py` 494-503): the consumers of each output.  `g0` is the graph
at load time; later edits of the graph do not update it. -/
def nextNames (g0 : Graph) (n : Node) : List String :=
  n.output.flatMap fun o => (g0.consumedby.get? o).getD []

/-- Lines 702-713: `node_used`. -/
def nodeUsed (g0 g : Graph) (n : Node) : Bool :=
  n.output.any (fun o => g.output.contains o) ||
  (nextNames g0 n).any (fun m => (findNode g.nodemap m).isSome)

/-- Lines 700-717: one pass of the `for` loop over the node names that existed when the pass began.
`self.nodemap[nodename]` raises `KeyError` when that node was removed earlier in the same pass. -/
def danglingPass (g0 : Graph) : List String → Graph → Bool → Except PyErr (Graph × Bool)
  | [], g, again => .ok (g, again)
  | name :: names, g, again =>
    match findNode g.nodemap name with
    | none => .error .keyError
    | some nd =>
      if nodeUsed g0 g nd then danglingPass g0 names g again
      else
        match removeNode g name true with
        | .error e => .error e
        | .ok g' => danglingPass g0 names g' true

/-- Lines 697-717: the `while` loop.  `fuel` bounds the number of passes; the theorems show that
`number of nodes + 1` is always enough (`.recursion` is returned when it is not). -/
def danglingLoop (g0 : Graph) : Nat → Graph → Except PyErr Graph
  | 0, _ => .error .recursion
  | fuel + 1, g =>
    match danglingPass g0 (g.nodemap.map (·.name)) g false with
    | .error e => .error e
    | .ok (g', again) => if again then danglingLoop g0 fuel g' else .ok g'

/-- `Graph.remove_dangling_nodes()`; `g0` is the loaded graph, `g` the graph when the call is made. -/
def removeDangling (g0 g : Graph) : Except PyErr Graph := danglingLoop g0 (g.nodemap.length + 1) g

end OnnxTool.Remove
