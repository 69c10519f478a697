import Verif.Model.ShapeEngine
import Verif.Model.ShapeCalc
import Verif.Model.Axes
/-!
# The loop of shape inference

Models `Graph.shape_infer`, `Graph.value_infer`, `update_input_by_map` and `check_inputs` (`/repo/onnx_tool/graph.py` 1003-1074) and the state of a `Tensor` they change
(`/repo/onnx_tool/tensor.py` 397-414, 436-441).

What the nodes do is a parameter `run`: it gets the operands and the old outputs as the node can see them.  Simplified: every tensor of a node has
an entry in `tensormap` (true after loading, C73); `get_numpy` stores the zeros it makes up in the operand, which no reader can tell apart
(`C75_made_up_zeros_invisible`), so it is left out; timing and logging.
-/
namespace OnnxTool.ShapeInfer
open OnnxTool OnnxTool.Engine

/-- `numpy.ndarray` -/
structure Arr (V : Type) where
  shape : List Nat
  dtype : String
  data : List V
  deriving DecidableEq, Repr

/-- `Tensor`: shape (numbers or names), dtype, `numpy` -/
structure TState (V : Type) where
  shape : List Dim
  dtype : String
  numpy : Option (Arr V) := none
  deriving DecidableEq, Repr

/-- the shape of an array as a shape of a tensor -/
def asDims (s : List Nat) : List Dim := s.map fun n : Nat => Dim.num (n : Int)

/-- a shape `numpy.zeros` accepts -/
def concrete : List Dim → Option (List Nat)
  | [] => some []
  | .num n :: ds => if n < 0 then none else (concrete ds).map (n.toNat :: ·)
  | .var _ :: _ => none

variable {V : Type} [Zero V]

/-- `get_numpy` (436-441); `none`: it raises -/
def getNumpy (t : TState V) : Option (Arr V) :=
  let made := (concrete t.shape).map fun s => { shape := s, dtype := t.dtype, data := List.replicate s.prod 0 }
  match t.numpy with
  | some a => if asDims a.shape = t.shape then some a else made
  | none => made

/-- the tensor after `get_numpy` -/
def filled (t : TState V) : TState V := { t with numpy := match getNumpy t with | some a => some a | none => t.numpy }

/-- what a node can see of a tensor -/
structure Seen (V : Type) where
  shape : List Dim
  dtype : String
  value : Option (Arr V)
  deriving DecidableEq

/-- what a node can see of a tensor -/
def seen (t : TState V) : Seen V := { shape := t.shape, dtype := t.dtype, value := getNumpy t }

/-- what a node does to an output: `update_shape` (408-411) and perhaps `update_dtype` (413-414), or `update_tensor` (397-402) -/
inductive Upd (V : Type) where
  | shape (s : List Dim) (dtype : Option String)
  | arr (a : Arr V)
  deriving DecidableEq

/-- the shape it sets -/
def Upd.newShape : Upd V → List Dim
  | .shape s _ => s
  | .arr a => asDims a.shape

def Upd.apply : Upd V → TState V → TState V
  | .shape s d, t => { t with shape := s, dtype := d.getD t.dtype }
  | .arr a, _ => { shape := asDims a.shape, dtype := a.dtype, numpy := some a }

/-- `tensormap` -/
abbrev TMap (V : Type) := String → TState V

/-- `tensormap[k] = t` -/
def put (m : TMap V) (k : String) (t : TState V) : TMap V := fun q => if q = k then t else m q

/-- the outputs of a node, in order -/
def applyAll (m : TMap V) : List (String × Upd V) → TMap V
  | [] => m
  | (o, u) :: us => applyAll (put m o (u.apply (m o))) us

/-- `node.value_infer(itensors, otensors)` (first argument true) or `node.shape_infer(itensors, otensors)` -/
abbrev Run (V : Type) := Bool → Node → List (Seen V) → List (Seen V) → Except PyErr (List (Upd V))

/-- lines 1037-1056: the loop; `marked` are the nodes with `shape_calc`.  An exception of a node becomes a `ValueError`; what was updated stays. -/
def inferLoop (run : Run V) (marked : List String) : List Node → TMap V → TMap V × Option PyErr
  | [], m => (m, none)
  | n :: ns, m =>
    match run (marked.contains n.name) n (n.input.map fun t => seen (m t)) (n.output.map fun t => seen (m t)) with
    | .error _ => (m, some .valueError)
    | .ok us => inferLoop run marked ns (applyAll m (n.output.zip us))

/-- `update_input_by_map` (1003-1006) -/
def updateInputs (inputs : Dict (Arr V)) (m : TMap V) : TMap V := inputs.foldl (fun m p => put m p.1 (Upd.apply (.arr p.2) (m p.1))) m

/-- `check_inputs` (1015-1023) -/
def checkInputs (g : Graph) (m : TMap V) : Bool :=
  g.input.all fun t => (m t).shape.all fun d =>
    match d with
    | .var _ => false
    | .num n => decide (0 ≤ n)

/-- `shape_infer(inputs)` (1025-1058): the tensors afterwards, the exception raised (if any), and `valid_shape` -/
def shapeInfer (run : Run V) (g : Graph) (marked : List String) (inputs : Dict (Arr V)) (m : TMap V) : TMap V × Option PyErr × Bool :=
  let m := updateInputs inputs m
  if checkInputs g m then
    match inferLoop run marked g.nodemap m with
    | (m', none) => (m', none, true)
    | (m', some e) => (m', some e, false)
  else (m, some .valueError, false)

/-- `value_infer(inputs)` (1060-1074): the loop; an exception of a node is passed on -/
def valueLoop (run : Run V) : List Node → TMap V → TMap V × Option PyErr
  | [], m => (m, none)
  | n :: ns, m =>
    match run true n (n.input.map fun t => seen (m t)) (n.output.map fun t => seen (m t)) with
    | .error e => (m, some e)
    | .ok us => valueLoop run ns (applyAll m (n.output.zip us))

/-- `value_infer(inputs)` (1060-1074): the tensors afterwards and the arrays returned, one for each graph output -/
def valueInfer (run : Run V) (g : Graph) (inputs : Dict (Arr V)) (m : TMap V) : TMap V × Except PyErr (List (Option (Arr V))) :=
  match valueLoop run g.nodemap (updateInputs inputs m) with
  | (m', none) => (m', .ok (g.output.map fun o => (m' o).numpy))
  | (m', some e) => (m', .error e)

/-! ### some nodes (`/repo/onnx_tool/node.py`), for the examples -/

/-- `FusedBase.shape_infer` / `PWNode.shape_infer` with one operand (237-239, 254-259) -/
def copyShape : List (Seen V) → Except PyErr (List (Upd V))
  | [x] => .ok [.shape x.shape (some x.dtype)]
  | _ => .error .indexError

/-- `ShapeNode.value_infer` (1332-1334) -/
def shapeOf : List (Seen Int) → Except PyErr (List (Upd Int))
  | [x] =>
    match concrete x.shape with
    | some s => .ok [.arr { shape := [s.length], dtype := "int64", data := s.map fun n : Nat => (n : Int) }]
    | none => .error .valueError
  | _ => .error .indexError

/-- `ReluNode.value_infer` (613-615) -/
def reluOf : List (Seen Int) → Except PyErr (List (Upd Int))
  | [⟨_, _, some a⟩] => .ok [.arr { a with data := a.data.map fun v => max v 0 }]
  | _ => .error .indexError

/-- `GatherNode.value_infer` (978-982) of a vector by a vector of non-negative positions -/
def gatherOf : List (Seen Int) → Except PyErr (List (Upd Int))
  | [⟨_, _, some a⟩, ⟨_, _, some i⟩] =>
    match i.data.mapM fun k => a.data[k.toNat]? with
    | some d => .ok [.arr { shape := i.shape, dtype := a.dtype, data := d }]
    | none => .error .indexError
  | _ => .error .indexError

/-- `ReshapeNode.shape_infer` (2740-2763) -/
def reshapeOf : List (Seen Int) → Except PyErr (List (Upd Int))
  | [x, ⟨_, _, some a⟩] =>
    match concrete x.shape with
    | some s =>
      match Axes.reshapeShape s a.data with
      | .ok r => .ok [.shape (r.map Dim.num) (some x.dtype)]
      | .error e => .error e
    | none => .error .valueError
  | _ => .error .indexError

/-- `NonZeroNode.value_infer` (2270-2276) of a vector; also its `shape_infer` (`Node.shape_infer`, 209-215) -/
def nonZeroOf : List (Seen Int) → Except PyErr (List (Upd Int))
  | [⟨_, _, some a⟩] =>
    let hits := (List.range a.data.length).filter fun i => a.data.getD i 0 ≠ 0
    let hits := if hits = [] then List.range a.data.length else hits
    .ok [.arr { shape := [1, hits.length], dtype := "int64", data := hits.map fun n : Nat => (n : Int) }]
  | _ => .error .indexError

/-- the nodes above by operator; `ReduceMean` without axes returns without an update (1921-1922) -/
def nodeRun : Run Int := fun value n ins _ =>
  match n.op, value with
  | "Relu", false => copyShape ins
  | "Relu", true => reluOf ins
  | "Shape", _ => shapeOf ins
  | "Gather", true => gatherOf ins
  | "Reshape", false => reshapeOf ins
  | "NonZero", _ => nonZeroOf ins
  | "ReduceMean", false => .ok []
  | _, _ => .error .notImplemented

end OnnxTool.ShapeInfer
