import Verif.Model.Subgraph
/-!
# Constant search and constant folding

Models `Graph.__is_node_constant__` (`/repo/onnx_tool/graph.py` 266-274), `Graph.__constant_search__` (276-313) and
`Graph.__update_nodes_tensors__` (202-264).

`V` is the type of tensor values; `f n vs k` is the value of output number `k` of node `n` on operand values `vs` (what
`node.value_infer` computes).  A tensor is `STATIC` iff the environment has a value for it.  Not modelled: warnings, timers,
and the difference between a static tensor with and without a `numpy` value (`V` can include a "shape only" value).
-/
namespace OnnxTool.ConstFold
open OnnxTool

variable {V : Type}

/-- static tensors and their values -/
abbrev Env (V : Type) := String → Option V

/-- `__is_node_constant__(node)` (266-274). -/
def isConst (env : Env V) (n : Node) : Bool :=
  decide (n.op ≠ "DequantizeLinear") && n.input.all (fun t => (env t).isSome)

/-- Write the values of the outputs, in order (296-300: `value_infer` fills `otensors[k]`, then the type becomes STATIC). -/
def assign (env : Env V) (h : Nat → V) : List String → Nat → Env V
  | [], _ => env
  | o :: os, k => assign (fun t => if t = o then some (h k) else env t) h os (k + 1)

/-- Lines 304-310: examine the consumers of the outputs; state (names with `constant = True`, `search_nodes`). -/
def pushConsumers (g : Graph) (env : Env V) : List String → List String × List String →
    Except PyErr (List String × List String)
  | [], s => .ok s
  | c :: cs, (C, Q) =>
    match findNode g.nodemap c with
    | none => .error .keyError
    | some nd =>
      if isConst env nd then pushConsumers g env cs (Subgraph.addNew C c, Q ++ [c])
      else pushConsumers g env cs (C, Q)

/-- the consumers of all outputs of a node, in the order of lines 304-306 -/
def allConsumers (g : Graph) (n : Node) : List String :=
  n.output.flatMap fun o => (g.consumedby.get? o).getD []

/-- Lines 286-310: the `while len(search_nodes) > 0` loop; `fuel` bounds its iterations. -/
def propagate (g : Graph) (f : Node → List V → Nat → V) : Nat → List String → Env V → List String →
    Except PyErr (Env V × List String)
  | 0, _, _, _ => .error .recursion
  | _ + 1, [], env, C => .ok (env, C)
  | fuel + 1, x :: Q, env, C =>
    match findNode g.nodemap x with
    | none => .error .keyError
    | some nd =>
      let env' := assign env (f nd (nd.input.filterMap env)) nd.output 0
      match pushConsumers g env' (allConsumers g nd) (C, Q) with
      | .error e => .error e
      | .ok (C', Q') => propagate g f fuel Q' env' C'

/-- Lines 279-310: the loop over the nodes.  `hasattr(node, 'constant')` is true exactly for nodes an earlier propagation
has marked (nodes are freshly created, and each is visited once). -/
def searchNodes (g : Graph) (f : Node → List V → Nat → V) (fuel : Nat) : List Node → Env V → List String →
    Except PyErr (Env V × List String)
  | [], env, C => .ok (env, C)
  | n :: ns, env, C =>
    if C.contains n.name then searchNodes g f fuel ns env C
    else if isConst env n then
      match propagate g f fuel [n.name] env (Subgraph.addNew C n.name) with
      | .error e => .error e
      | .ok (env', C') => searchNodes g f fuel ns env' C'
    else searchNodes g f fuel ns env C

/-- `__constant_search__`: final static values and the names of the constant nodes. -/
def constantSearch (g : Graph) (f : Node → List V → Nat → V) (fuel : Nat) (env : Env V) :
    Except PyErr (Env V × List String) := searchNodes g f fuel g.nodemap env []

/-- Lines 216-228 (`constant_folding=True`): static operands of the remaining nodes become initializers. -/
def foldedInitials (env : Env V) (kept : List Node) (ini : List String) : List String :=
  kept.foldl (fun l n => (n.input.filter (fun t => (env t).isSome)).foldl Subgraph.addNew l) ini

/-- Lines 224-228: dynamic operands and all outputs of the remaining nodes become dynamic tensors. -/
def foldedDynamics (env : Env V) (kept : List Node) (dyn : List String) : List String :=
  kept.foldl (fun l n => n.output.foldl Subgraph.addNew
    ((n.input.filter (fun t => (env t).isNone)).foldl Subgraph.addNew l)) dyn

/-- Lines 249-262: recomputed graph inputs, from the indexes *before* folding. -/
def foldedInputs (g : Graph) (dyn : List String) (kept : List Node) : List String :=
  kept.foldl (fun l n => (n.input.filter (fun t => !g.producedby.has t && dyn.contains t)).foldl Subgraph.addNew l) []

/-- Lines 257-262 (`remove_dangling=False`): recomputed graph outputs, from the consumer index *before* folding. -/
def foldedOutputs (g : Graph) (kept : List Node) : List String :=
  kept.foldl (fun l n => (n.output.filter (fun t => ((g.consumedby.get? t).getD []).isEmpty)).foldl Subgraph.addNew l) []

/-- `__update_nodes_tensors__(constant_folding=True)` (202-264): the graph after folding away the nodes named in `C`.  `rd` is the configuration entry
`remove_dangling` (default true): with it the output names stay as they were (250-251, 258-262). -/
def updateNodesTensors (rd : Bool) (g : Graph) (env : Env V) (C : List String) : Graph :=
  let kept := g.nodemap.filter (fun n => !C.contains n.name)
  let dyn := foldedDynamics env kept g.dynamics
  { g with
    nodemap := kept
    initials := foldedInitials env kept g.initials
    dynamics := dyn
    input := foldedInputs g dyn kept
    output := if rd then g.output else foldedOutputs g kept }.updateConsumerProducer

/-- the keys of `tensormap` that survive lines 240-247, `keys` being those before -/
def keptTensors (g' : Graph) (keys : List String) : List String := keys.filter fun t => (g'.initials ++ g'.dynamics).contains t

end OnnxTool.ConstFold
