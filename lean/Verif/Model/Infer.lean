import Verif.Model.Memory
import Verif.Model.Pool
/-!
# `GraphInfer` (`/repo/inference/infer.py`): one forward pass over the shared memory pool

The torch storage is a function from byte addresses to bytes (as in `Model/Pool.lean`), a tensor view is a byte range
`(offset, bytes)`.  A kernel is any function on the memory: it receives its arguments and the output views and returns the new
memory or an exception; nothing is assumed about it here.  Simplifications: single pool (no `kv_cache` tensor); shapes are lists of
naturals; the shape of each tensor in this call is given (`shape`; how it is found is `Model/InferShape.lean`); a name that is both a
preloaded constant and a pooled tensor is treated as the constant; synchronisation and timing are dropped.
-/
namespace OnnxTool.Infer
open OnnxTool OnnxTool.Pool

abbrev Mem := Nat → UInt8
abbrev Bytes := List UInt8

/-- What `tensormap[t]` records: the shape for the largest input and the bytes per element of the tensor's own type. -/
structure TInfo where
  shape : List Nat
  esize : Nat
  deriving DecidableEq, Repr

/-- `Tensor.get_memsize` (`/repo/onnx_tool/tensor.py` 458-459) with `volume` (145-151): the volume of the empty shape is 0. -/
def TInfo.memsize (i : TInfo) : Int := if i.shape = [] then 0 else (prod i.shape * i.esize : Nat)

/-- `get_memsize` of the entries of a tensor map -/
def memsizes (tm : Dict TInfo) : String → Option Int := fun t => (tm.get? t).map TInfo.memsize

/-- Size of the view of one tensor in `_tensor_blocks` (96-108): elements of the maximal shape times the element size of the run
type, whatever size the plan reserved. -/
def blockBytes (tm : Dict TInfo) (elt : Nat) (t : String) : Nat :=
  match tm.get? t with
  | some i => prod i.shape * elt
  | none => 0

/-- `_tensor_views` (124-130): `pool[offset : offset+size]` for the planned tensors whose view is not empty; a Python slice stops at
the end of the pool. -/
def views (plan : Dict (Nat × Nat)) (poolSize : Nat) (tm : Dict TInfo) (elt : Nat) : Dict (Nat × Nat) :=
  (plan.filter fun e => 0 < blockBytes tm elt e.1).map
    fun e => (e.1, (e.2.1, min (e.2.1 + blockBytes tm elt e.1) poolSize - e.2.1))

/-- The parts of the engine used by `forward`. -/
structure Engine where
  nodes : List Node
  output : List String
  views : Dict (Nat × Nat)
  elt : Nat
  consts : Dict Bytes

/-- `__init__` (92-130): the engine for a compute graph `g` with its memory plan. -/
def mkEngine (g : Graph) (plan : Dict (Nat × Nat)) (poolSize : Nat) (tm : Dict TInfo) (elt : Nat) (consts : Dict Bytes) : Engine :=
  ⟨g.nodemap, g.output, views plan poolSize tm elt, elt, consts⟩

/-- Kernel argument: a view, constant or dynamic data, or `None`. -/
inductive Arg where
  | view (v : Nat × Nat)
  | data (b : Bytes)
  | absent

/-- `run(inputs, outputs, attrs)` (`/repo/inference/kernels.py` 57-71) as an arbitrary memory transformer. -/
abbrev Kernel := List Arg → List (Nat × Nat) → Mem → Except PyErr Mem

/-- Reshaping the flat view of `bytes` bytes to `shape` (329-333, 365-372, 222-230): keep the first elements, or RuntimeError when
there are too few. -/
def shapeView (elt : Nat) (v : Nat × Nat) (shape : List Nat) : Except PyErr (Nat × Nat) :=
  if prod shape * elt ≤ v.2 then .ok (v.1, prod shape * elt) else .error .runtimeError

/-- One input of a node (315-346, 657-681): constant, pooled tensor, dynamic input, or `None`. -/
def resolveArg (e : Engine) (shape : String → List Nat) (dyn : Dict Bytes) (t : String) : Except PyErr Arg :=
  match e.consts.get? t with
  | some c => .ok (.data c)
  | none =>
    match e.views.get? t with
    | some v => (shapeView e.elt v (shape t)).map .view
    | none =>
      match dyn.get? t with
      | some b => .ok (.data b)
      | none => .ok .absent

/-- One output of a node (359-372): `t.numel()` on `None` is an AttributeError. -/
def resolveOut (e : Engine) (shape : String → List Nat) (t : String) : Except PyErr (Nat × Nat) :=
  match e.views.get? t with
  | none => .error .attributeError
  | some v => shapeView e.elt v (shape t)

/-- `[f(x) for x in l]` with exceptions -/
def mapE {α β : Type} (f : α → Except PyErr β) : List α → Except PyErr (List β)
  | [] => .ok []
  | a :: l =>
    match f a with
    | .error e => .error e
    | .ok b =>
      match mapE f l with
      | .error e => .error e
      | .ok bs => .ok (b :: bs)

/-- One iteration of the loop over the nodes (305-410). -/
def runNode (e : Engine) (kern : Node → Option Kernel) (shape : String → List Nat) (dyn : Dict Bytes) (mem : Mem) (n : Node) :
    Except PyErr Mem :=
  match mapE (resolveArg e shape dyn) n.input with
  | .error x => .error x
  | .ok args =>
    match mapE (resolveOut e shape) n.output with
    | .error x => .error x
    | .ok outs =>
      match kern n with
      | none => .error .runtimeError
      | some k => k args outs mem

/-- The loop over the nodes. -/
def runNodes (e : Engine) (kern : Node → Option Kernel) (shape : String → List Nat) (dyn : Dict Bytes) :
    List Node → Mem → Except PyErr Mem
  | [], mem => .ok mem
  | n :: ns, mem =>
    match runNode e kern shape dyn mem n with
    | .error x => .error x
    | .ok m => runNodes e kern shape dyn ns m

/-- Copying the caller's tensors (265-287): pooled inputs are written to their view, others kept aside. -/
def copyInputs (e : Engine) : List (String × Bytes) → Mem × Dict Bytes → Except PyErr (Mem × Dict Bytes)
  | [], st => .ok st
  | (t, b) :: l, (mem, dyn) =>
    match e.views.get? t with
    | none => copyInputs e l (mem, dyn.set t b)
    | some v =>
      if b.length ≤ v.2 then copyInputs e l (write mem (v.1, b.length) (fun i => b.getD i 0), dyn)
      else .error .runtimeError

/-- bytes of a view -/
def readView (mem : Mem) (v : Nat × Nat) : Bytes := (List.range v.2).map (fun i => mem (v.1 + i))

/-- Collecting the graph outputs (417-424). -/
def collect (e : Engine) (shape : String → List Nat) (mem : Mem) : List String → Except PyErr (Dict Bytes)
  | [] => .ok []
  | o :: os =>
    match e.views.get? o with
    | none => collect e shape mem os
    | some v =>
      match shapeView e.elt v (shape o) with
      | .error x => .error x
      | .ok w =>
        match collect e shape mem os with
        | .error x => .error x
        | .ok d => .ok ((o, readView mem w) :: d)

/-- `forward` (232-445). -/
def forward (e : Engine) (kern : Node → Option Kernel) (shape : String → List Nat) (mem : Mem) (dyn : Dict Bytes)
    (inputs : List (String × Bytes)) : Except PyErr (Dict Bytes × Mem) :=
  match copyInputs e inputs (mem, dyn) with
  | .error x => .error x
  | .ok (mem, dyn) =>
    match runNodes e kern shape dyn e.nodes mem with
    | .error x => .error x
    | .ok mem =>
      match collect e shape mem e.output with
      | .error x => .error x
      | .ok d => .ok (d, mem)

end OnnxTool.Infer
