import Verif.Model.ShapeInfer
/-!
# Nodes that remember

The loop of `Model/ShapeInfer` with node objects that have a state.  Models `SqueezeNode` (`/repo/onnx_tool/node.py` 1299-1327: `self.axes` is overwritten) and
`TopKNode.shape_infer` (2010-2027: `self.axis` is set once) inside `Graph.shape_infer` / `value_infer` (`/repo/onnx_tool/graph.py` 1025-1074).  These are the only nodes whose
inference methods assign to `self` something they read again.

Simplified: what `SqueezeNode.value_infer` computes is a parameter; a second operand of Squeeze without dimensions leaves `self.axes` as it was (it cannot be iterated; the call fails);
all other nodes are a parameter without state.
-/
namespace OnnxTool.ShapeInfer
open OnnxTool OnnxTool.Engine

/-- the attributes of a node object that its methods change -/
structure Remembered where
  axes : List Int
  axis : Option Int
deriving DecidableEq

/-- what a node object does: its results and its new state -/
abbrev RunMem (S V : Type) := Bool → Node → S → List (Seen V) → List (Seen V) → Except PyErr (List (Upd V)) × S

variable {S V : Type} [Zero V]

/-- the loop of `shape_infer` (1037-1056) over node objects with state -/
def inferLoopMem (run : RunMem S V) (marked : List String) : List Node → (String → S) → TMap V → TMap V × Option PyErr × (String → S)
  | [], mem, m => (m, none, mem)
  | n :: ns, mem, m =>
    match run (marked.contains n.name) n (mem n.name) (n.input.map fun t => seen (m t)) (n.output.map fun t => seen (m t)) with
    | (.error _, s) => (m, some .valueError, fun q => if q = n.name then s else mem q)
    | (.ok us, s) => inferLoopMem run marked ns (fun q => if q = n.name then s else mem q) (applyAll m (n.output.zip us))

/-- `shape_infer(inputs)` (1025-1058) -/
def shapeInferMem (run : RunMem S V) (g : Graph) (marked : List String) (inputs : Dict (Arr V)) (mem : String → S) (m : TMap V) : TMap V × Option PyErr × (String → S) :=
  let m := updateInputs inputs m
  if checkInputs g m then inferLoopMem run marked g.nodemap mem m else (m, some .valueError, mem)

/-- the loop of `value_infer` (1062-1070) -/
def valueLoopMem (run : RunMem S V) : List Node → (String → S) → TMap V → TMap V × Option PyErr × (String → S)
  | [], mem, m => (m, none, mem)
  | n :: ns, mem, m =>
    match run true n (mem n.name) (n.input.map fun t => seen (m t)) (n.output.map fun t => seen (m t)) with
    | (.error e, s) => (m, some e, fun q => if q = n.name then s else mem q)
    | (.ok us, s) => valueLoopMem run ns (fun q => if q = n.name then s else mem q) (applyAll m (n.output.zip us))

/-- a call of a method of the graph object -/
inductive Call (V : Type)
  | shape (inputs : Dict (Arr V))
  | value (inputs : Dict (Arr V))

/-- one call on a graph object: tensors, exception, node states -/
def callMem (run : RunMem S V) (g : Graph) (marked : List String) (c : Call V) (mem : String → S) (m : TMap V) : TMap V × Option PyErr × (String → S) :=
  match c with
  | .shape d => shapeInferMem run g marked d mem m
  | .value d => valueLoopMem run g.nodemap mem (updateInputs d m)

/-- calls one after the other, whatever they raise: what each leaves behind and raises -/
def callsMem (run : RunMem S V) (g : Graph) (marked : List String) : List (Call V) → (String → S) → TMap V → List (TMap V × Option PyErr)
  | [], _, _ => []
  | c :: cs, mem, m =>
    let r := callMem run g marked c mem m
    (r.1, r.2.1) :: callsMem run g marked cs r.2.2 r.1

/-! ### the two nodes -/

/-- `[v for i, v in enumerate(shape) if i not in axes]` with `axes` of `_axes_neg2pos` (1310-1315) -/
def squeezeDims (axes : List Int) (s : List Dim) : List Dim :=
  (s.zipIdx.filter fun p => !((axes.map fun a => if a < 0 then (s.length : Int) + a else a).contains (p.2 : Int))).map (·.1)

/-- `SqueezeNode` (1305-1327); `asValue`: `value_infer`; `sv axes x` is the result of squeezing the value of `x` -/
def squeezeStep (sv : List Int → Seen Int → Except PyErr (Upd Int)) (asValue : Bool) (r : Remembered) (ins : List (Seen Int)) : Except PyErr (List (Upd Int)) × Remembered :=
  let go (x : Seen Int) (r : Remembered) : Except PyErr (List (Upd Int)) × Remembered :=
    (if asValue then (sv r.axes x).map fun u => [u] else .ok [.shape (squeezeDims r.axes x.shape) (some x.dtype)], r)
  match ins with
  | [] => (.error .indexError, r)
  | [x, a] =>
    if asValue ∧ x.value = none then (.error .valueError, r)
    else match a.value with
      | none => (.error .valueError, r)
      | some arr => if arr.shape = [] then (.error .typeError, r) else go x { r with axes := arr.data }
  | x :: _ => go x r

/-- the shape of TopK's outputs (2017-2023) -/
def topkDims (axis k : Int) (s : List Dim) : List Dim := s.mapIdx fun i d => if (i : Int) = (if axis < 0 then (s.length : Int) + axis else axis) then .num k else d

/-- `TopKNode.shape_infer` (2010-2027); there is no `value_infer` -/
def topkStep (asValue : Bool) (r : Remembered) (ins : List (Seen Int)) (nout : Nat) : Except PyErr (List (Upd Int)) × Remembered :=
  if asValue then (.error .notImplemented, r)
  else match ins with
    | x :: k :: _ =>
      match k.value with
      | none => (.error .valueError, r)
      | some arr =>
        match arr.shape, arr.data with
        | _ :: _, kv :: _ =>
          let axis := if x.shape.length = 1 ∧ r.axis = none then some 0 else r.axis
          match axis with
          | none => (.error .typeError, r)
          | some a =>
            let s := topkDims a kv x.shape
            (match nout with
              | 0 => .error .indexError
              | 2 => .ok [.shape s (some x.dtype), .shape s (some "int64")]
              | _ => .ok [.shape s (some x.dtype)], { r with axis := some a })
        | _, _ => (.error .indexError, r)
    | _ => (.error .indexError, r)

/-- all nodes: Squeeze and TopK with their state, the others are `other` -/
def nodeMem (sv : List Int → Seen Int → Except PyErr (Upd Int)) (other : Run Int) : RunMem Remembered Int := fun asValue n r ins outs =>
  if n.op = "Squeeze" then squeezeStep sv asValue r ins
  else if n.op = "TopK" then topkStep asValue r ins outs.length
  else (other asValue n ins outs, r)

/-- the same with a node object made anew for every call; `attrs n` are the attributes in the model file (`axes` defaults to `[0]`, 1303, `axis` to `None`, 2008) -/
def nodeNew (sv : List Int → Seen Int → Except PyErr (Upd Int)) (other : Run Int) (attrs : Node → Remembered) : Run Int := fun asValue n ins outs =>
  (nodeMem sv other asValue n (attrs n) ins outs).1

end OnnxTool.ShapeInfer
