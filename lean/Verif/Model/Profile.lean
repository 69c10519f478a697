import Mathlib.Data.Rat.Defs
import Verif.Model.Graph
/-!
# Profiling: node rows and totals

Models `Graph.profile` (`/repo/onnx_tool/graph.py` 1433-1495), the shared-weight size of `print_node_map` (1514-1520) and `volume`
(`/repo/onnx_tool/tensor.py` 145-151).

Simplifications: numbers are exact (the code accumulates MACs in a float that starts at `0.0`).  The per-operator formula
`node.profile(itensors, otensors)` is a parameter `prof` that sees the node and its tensors; the sparsity columns and the shape columns
are not modelled.
-/
namespace OnnxTool.Profile
open OnnxTool

/-- `volume` (`tensor.py` 145-151): product of the dimensions, but 0 for the empty shape. -/
def volume (shape : List Nat) : Nat := if shape.length > 0 then shape.foldl (· * ·) 1 else 0

/-- the fields of a `Tensor` that `profile` reads: name, `type == STATIC_TENSOR`, shape, element size -/
structure TInfo where
  name : String
  static : Bool
  shape : List Nat
  elesize : Nat
  deriving DecidableEq, Repr

/-- what `profile` stores on a node (`node.macs`, `node.params`, `node.memory`) -/
structure Row where
  macs : ℚ
  params : Nat
  memory : Nat
  deriving DecidableEq

/-- the totals `self.macs[0]`, `self.params`, `self.memory` -/
abbrev Totals := Row

/-- `node.profile`: MACs, io_params, static_params -/
abbrev Prof := Node → List TInfo → List TInfo → Except PyErr (ℚ × Nat × Nat)

/-- `[self.tensormap[t] for t in names]` (1451-1452, 1460-1461); `KeyError` when missing -/
def lookups (tm : Dict TInfo) : List String → Except PyErr (List TInfo)
  | [] => .ok []
  | t :: ts =>
    match tm.get? t with
    | none => .error .keyError
    | some i => match lookups tm ts with
      | .error e => .error e
      | .ok is => .ok (i :: is)

/-- the body of the loop of `profile` for one node (1443-1487) -/
def profileNode (prof : Prof) (tm : Dict TInfo) (n : Node) : Except PyErr Row :=
  match lookups tm n.input with
  | .error e => .error e
  | .ok its =>
    match lookups tm n.output with
    | .error e => .error e
    | .ok ots =>
      match prof n its ots with
      | .error e => .error e
      | .ok (macs, io, st) =>
        let params := ((its.filter fun t => t.name != "" && t.static).map fun t => volume t.shape).sum
        let ioEle := match ots with | [] => 4 | o :: _ => o.elesize
        let stEle := match its with | [] => 4 | i :: _ => i.elesize
        .ok ⟨macs, params, io * ioEle + st * stEle⟩

/-- the nodes covered (1440, 1555): all of them, or those whose operator is not excluded -/
def covered (ns : List Node) (exclude : List String) : List Node :=
  if exclude = [] then ns else ns.filter fun n => !exclude.contains n.op

/-- the loop over the covered nodes in the order in which the set is iterated (1441-1488): rows and totals -/
def profileLoop (prof : Prof) (tm : Dict TInfo) : List Node → Totals → Except PyErr (List (String × Row) × Totals)
  | [], tot => .ok ([], tot)
  | n :: ns, tot =>
    match profileNode prof tm n with
    | .error e => .error e
    | .ok r =>
      match profileLoop prof tm ns ⟨tot.macs + r.macs, tot.params + r.params, tot.memory + r.memory⟩ with
      | .error e => .error e
      | .ok (rows, t) => .ok ((n.name, r) :: rows, t)

/-- shape of a tensor; the code raises `KeyError` for a missing one, here 0 elements -/
def vol (tm : Dict TInfo) (t : String) : Nat := match tm.get? t with | some i => volume i.shape | none => 0

/-- `dedup_params` (1490-1493) -/
def dedupParams (tm : Dict TInfo) (g : Graph) : Nat :=
  ((g.initials.filter fun k => match g.consumedby.get? k with | some c => c.length > 0 | none => false).map (vol tm)).sum

/-- `shared_size` (1514-1520) -/
def sharedSize (tm : Dict TInfo) (g : Graph) : Nat :=
  (tm.keys.map fun k => if g.initials.contains k then
    match g.consumedby.get? k with
    | some c => if c.length > 1 then vol tm k * (c.length - 1) else 0
    | none => 0 else 0).sum

end OnnxTool.Profile
