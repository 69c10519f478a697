import Verif.Model.Infer
import Verif.Model.ShapeEngine
/-!
# `GraphInfer` across calls (`/repo/inference/infer.py`)

`forward` keeps state between calls: the shape engine's variables, the values they were last given (`_last_var_values`), the shape cache
(`_tensor_shape_cache`), the argument lists built for each node (`_last_node_tensors`), the inputs kept aside (`_dynamic_inputs`) and the
pool.  A call can fail at any of its stages; the state it leaves behind is modelled.  Simplifications: a kernel that raises leaves the
memory `crash` given with the call (any contents); the cache entries `get_tensor_shape` adds for names outside the pool are not kept
(they are never read by a call that returns); `next(iter({}))` (StopIteration) is a RuntimeError; see also `Model/Infer.lean`.
-/
namespace OnnxTool.Infer
open OnnxTool OnnxTool.Pool

/-- What `__init__` fixes (40-185): the pool views and nodes, the input description, the names of the ranged variables, the names in
`_tensor_blocks`, the tensor map at the maximal shapes, the kernels and the engine as `__init__` leaves it. -/
structure Setup where
  eng : Engine
  inputDesc : Dict (List Engine.Dim)
  ranged : List String
  blocks : List String
  tm : Dict TInfo
  kern : Node → Option Kernel
  se0 : Engine.Engine

/-- State carried from one call to the next. -/
structure St where
  se : Engine.Engine
  last : Dict Int := []
  cache : Dict (List Nat) := []
  nodes : Option (List (List Arg × List (Nat × Nat))) := none
  dyn : Dict Bytes := []
  mem : Mem

/-- One call: the caller's tensors (name, shape, bytes) in the order of the dict, and the memory a failing kernel would leave. -/
structure Call where
  inputs : List (String × List Nat × Bytes)
  crash : Mem

/-- the bytes of the caller's tensors -/
def Call.bytes (c : Call) : List (String × Bytes) := c.inputs.map fun x => (x.1, x.2.2)

/-- State after `__init__`. -/
def Setup.start (S : Setup) (mem : Mem) : St := { se := S.se0, mem := mem }

/-- Inner loop of `_update_shape_from_input` (709-716) over the dimensions of one description; the flag is `changed`. -/
def updDims (ranged : List String) : List (Engine.Dim × Nat) → Engine.Engine × Dict Int × Bool → Engine.Engine × Dict Int × Bool
  | [], s => s
  | (.num _, _) :: l, s => updDims ranged l s
  | (.var v, n) :: l, (se, last, ch) =>
    if v ∈ ranged ∧ last.get? v ≠ some (n : Int) then updDims ranged l (se.updateVariable v n, last.set v n, true)
    else updDims ranged l (se, last, ch)

/-- Outer loop (707-716): every description of the same rank as the first tensor. -/
def updDescs (ranged : List String) (shape : List Nat) : Dict (List Engine.Dim) → Engine.Engine × Dict Int × Bool →
    Engine.Engine × Dict Int × Bool
  | [], s => s
  | (_, desc) :: l, s =>
    updDescs ranged shape l (if desc.length = shape.length then updDims ranged (desc.zip shape) s else s)

/-- `update_variables` (`/repo/onnx_tool/graph.py` 146-149) in place: the variables it leaves, also when it raises. -/
def updLoopSt : Dict (String × Engine.ValueExpr) → Dict Int → Dict Int × Option PyErr
  | [], vs => (vs, none)
  | (k, (src, e)) :: es, vs =>
    match vs.get? src with
    | none => (vs, some .keyError)
    | some x =>
      match e.call x with
      | .error err => (vs, some err)
      | .ok y => updLoopSt es (vs.set k y)

/-- `_update_shape_from_input` (700-720): the state and whether something changed, or an exception. -/
def updateShape (S : Setup) (st : St) (shape : List Nat) : St × Except PyErr Bool :=
  match updDescs S.ranged shape S.inputDesc (st.se, st.last, false) with
  | (se, last, false) => ({ st with se := se, last := last }, .ok false)
  | (se, last, true) =>
    match updLoopSt se.exprs se.variables with
    | (vs, none) => ({ st with se := { se with variables := vs }, last := last }, .ok true)
    | (vs, some err) => ({ st with se := { se with variables := vs }, last := last }, .error err)

/-- Lines 252-256: the engine's shape if it has one and all dimensions are positive. -/
def engShape (se : Engine.Engine) (t : String) : Option (List Nat) :=
  match se.getTensorShape t with
  | .ok s => if s.all (fun d => 0 < d) then some (s.map Int.toNat) else none
  | .error _ => none

/-- Engine's shape, else the tensor map's, else `[]` (`get_tensor_shape`, 193-210, without the cache). -/
def freshShape (S : Setup) (se : Engine.Engine) (t : String) : List Nat :=
  match engShape se t with
  | some s => s
  | none =>
    match S.tm.get? t with
    | some i => i.shape
    | none => []

/-- Lines 248-262: the refreshed cache. -/
def refreshed (S : Setup) (se : Engine.Engine) : Dict (List Nat) :=
  (S.blocks.filterMap fun t => (engShape se t).map fun s => (t, s)) ++
  (S.blocks.filterMap fun t => if (engShape se t).isSome then none else (S.tm.get? t).map fun i => (t, i.shape))

/-- `self._tensor_shape_cache.get(t)`, else `get_tensor_shape(t)`. -/
def lookupShape (S : Setup) (st : St) (t : String) : List Nat :=
  match st.cache.get? t with
  | some s => s
  | none => freshShape S st.se t

/-- Lines 345-348: the kept argument list with the current dynamic inputs put in. -/
def refreshArgs (dyn : Dict Bytes) : List String → List Arg → List Arg
  | t :: ts, a :: as => (match dyn.get? t with | some b => .data b | none => a) :: refreshArgs dyn ts as
  | _, as => as

/-- The loop over the nodes when the argument lists are rebuilt (300-410): every list built is appended to `_last_node_tensors`
after its kernel returned. -/
def loopRebuild (S : Setup) (crash : Mem) (shape : String → List Nat) (dyn : Dict Bytes) :
    List Node → List (List Arg × List (Nat × Nat)) → Mem → (List (List Arg × List (Nat × Nat)) × Mem) × Option PyErr
  | [], acc, mem => ((acc, mem), none)
  | n :: ns, acc, mem =>
    match mapE (resolveArg S.eng shape dyn) n.input with
    | .error x => ((acc, mem), some x)
    | .ok args =>
      match mapE (resolveOut S.eng shape) n.output with
      | .error x => ((acc, mem), some x)
      | .ok outs =>
        match S.kern n with
        | none => ((acc, mem), some .runtimeError)
        | some k =>
          match k args outs mem with
          | .error x => ((acc, crash), some x)
          | .ok mem => loopRebuild S crash shape dyn ns (acc ++ [(args, outs)]) mem

/-- The loop over the nodes when the kept lists are used: `_last_node_tensors[idx]` raises IndexError when the list is too short; the
dynamic inputs are written into the kept lists. -/
def loopKept (S : Setup) (crash : Mem) (dyn : Dict Bytes) :
    List Node → List (List Arg × List (Nat × Nat)) → List (List Arg × List (Nat × Nat)) → Mem →
    (List (List Arg × List (Nat × Nat)) × Mem) × Option PyErr
  | [], acc, kept, mem => ((acc ++ kept, mem), none)
  | n :: ns, acc, kept, mem =>
    match kept with
    | [] => ((acc, mem), some .indexError)
    | (args, outs) :: kept' =>
      match S.kern n with
      | none => ((acc ++ (refreshArgs dyn n.input args, outs) :: kept', mem), some .runtimeError)
      | some k =>
        match k (refreshArgs dyn n.input args) outs mem with
        | .error x => ((acc ++ (refreshArgs dyn n.input args, outs) :: kept', crash), some x)
        | .ok mem => loopKept S crash dyn ns (acc ++ [(refreshArgs dyn n.input args, outs)]) kept' mem

/-- Copying the caller's tensors (265-287) with the state left by a failure. -/
def copySt (e : Engine) : List (String × Bytes) → Mem × Dict Bytes → (Mem × Dict Bytes) × Option PyErr
  | [], st => (st, none)
  | (t, b) :: l, (mem, dyn) =>
    match e.views.get? t with
    | none => copySt e l (mem, dyn.set t b)
    | some v =>
      if b.length ≤ v.2 then copySt e l (write mem (v.1, b.length) (fun i => b.getD i 0), dyn)
      else ((mem, dyn), some .runtimeError)

/-- The loop over the nodes (292-410): the kept lists are used unless the shapes changed or there are none. -/
def loopOf (S : Setup) (crash : Mem) (shape : String → List Nat) (dyn : Dict Bytes) (mem : Mem) :
    Bool → Option (List (List Arg × List (Nat × Nat))) → (List (List Arg × List (Nat × Nat)) × Mem) × Option PyErr
  | false, some kept => loopKept S crash dyn S.eng.nodes [] kept mem
  | _, _ => loopRebuild S crash shape dyn S.eng.nodes [] mem

/-- Lines 289-445: after the inputs have been copied. -/
def callRun (S : Setup) (st : St) (changed : Bool) (crash : Mem) : St × Except PyErr (Dict Bytes) :=
  let r := loopOf S crash (lookupShape S st) st.dyn st.mem changed st.nodes
  let st' := { st with nodes := some r.1.1, mem := r.1.2 }
  match r.2 with
  | some x => (st', .error x)
  | none => (st', collect S.eng (lookupShape S st') r.1.2 S.eng.output)

/-- Lines 248-287: refresh the cache, copy the inputs, go on. -/
def callRest (S : Setup) (st : St) (changed : Bool) (c : Call) : St × Except PyErr (Dict Bytes) :=
  let cache := if changed = true ∨ st.cache = [] then refreshed S st.se else st.cache
  match copySt S.eng c.bytes (st.mem, st.dyn) with
  | ((mem, dyn), some x) => ({ st with cache := cache, mem := mem, dyn := dyn }, .error x)
  | ((mem, dyn), none) => callRun S { st with cache := cache, mem := mem, dyn := dyn } changed c.crash

/-- One call of `forward` (232-445): the state it leaves and what it returns or raises. -/
def call (S : Setup) (st : St) (c : Call) : St × Except PyErr (Dict Bytes) :=
  match c.inputs with
  | [] => (st, .error .runtimeError)
  | (_, first, _) :: _ =>
    match updateShape S st first with
    | (st, .error x) => (st, .error x)
    | (st, .ok changed) => callRest S st changed c

/-- A history of calls, from the oldest: the state it leaves. -/
def calls (S : Setup) (st : St) (h : List Call) : St := h.foldl (fun st c => (call S st c).1) st

end OnnxTool.Infer
