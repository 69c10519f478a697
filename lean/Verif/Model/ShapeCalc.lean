import Verif.Model.Subgraph
/-!
# Marking the shape-calculation part of a graph

Models `_SHAPE_TENSORS`, `_contains_shape_tensor` and `Graph.__find_shape_tensors__` (`/repo/onnx_tool/graph.py` 23-56 and
513-536).
-/
namespace OnnxTool.ShapeCalc
open OnnxTool

/-- `_SHAPE_TENSORS` (23-41): for an operator, pairs (input positions, number of inputs) — `'1,2of3'` is `([1,2], 3)`. -/
def shapeTable : String → List (List Nat × Nat)
  | "Reshape" => [([1], 2)]
  | "Resize" => [([2], 3), ([3], 4), ([1], 2)]
  | "Upsample" => [([2], 3), ([3], 4), ([1], 2)]
  | "Expand" => [([1], 2)]
  | "Slice" => [([1, 2], 3), ([1, 2, 3], 4), ([1, 2, 3, 4], 5)]
  | "ConstantOfShape" => [([0], 1)]
  | "Tile" => [([1], 2)]
  | "Range" => [([0, 1, 2], 3)]
  | "OneHot" => [([1], 3)]
  | "TopK" => [([1], 2)]
  | "Pad" => [([1], 2), ([1], 3)]
  | "NonMaxSuppression" => [([2], 5), ([2], 4)]
  | "Split" => [([1], 2)]
  | "Unsqueeze" => [([1], 2)]
  | "Squeeze" => [([1], 2)]
  | "ReduceSum" => [([1], 2)]
  | "ReduceMean" => [([1], 2)]
  | _ => []

/-- `_contains_shape_tensor(n)` (44-56).  Every position in the table is below its count, so `n.input[i]` never raises. -/
def shapeInputs (n : Node) : List String :=
  (shapeTable n.op).flatMap fun d => if n.input.length = d.2 then d.1.filterMap (fun i => n.input[i]?) else []

/-- Lines 532-535: the loop over `node.input`, collecting producers that are not marked yet. -/
def extend (g : Graph) (marked : List String) (ins : List String) : List String :=
  ins.flatMap fun i =>
    if g.initials.contains i then []
    else ((g.producedby.get? i).getD []).filter (fun p => !marked.contains p)

/-- Lines 526-535: one pass over `searchnodes`; state (nodes with `shape_calc = True`, `nextnodes`). -/
def round (g : Graph) : List String → List String × List String → Except PyErr (List String × List String)
  | [], s => .ok s
  | x :: xs, (M, next) =>
    match findNode g.nodemap x with
    | none => .error .keyError
    | some nd =>
      let M' := Subgraph.addNew M x
      if nd.op = "Shape" then round g xs (M', next)
      else round g xs (M', next ++ extend g M' nd.input)

/-- Lines 524-536: the `while len(searchnodes) > 0` loop; `fuel` bounds the passes (proved sufficient). -/
def search (g : Graph) : Nat → List String → List String → Except PyErr (List String)
  | 0, _, _ => .error .recursion
  | _ + 1, [], M => .ok M
  | fuel + 1, x :: xs, M =>
    match round g (x :: xs) (M, []) with
    | .error e => .error e
    | .ok (M', next) => search g fuel next M'

/-- Lines 522-536: the loop over the *set* of shape tensors; `ts` is the order in which the set is iterated. -/
def markAll (g : Graph) : List String → List String → Except PyErr (List String)
  | [], M => .ok M
  | t :: ts, M =>
    if g.initials.contains t then markAll g ts M
    else
      match g.producedby.get? t with
      | none => markAll g ts M
      | some ps =>
        match search g (g.nodemap.length + 2) ps M with
        | .error e => .error e
        | .ok M' => markAll g ts M'

/-- The members of `self.shape_tensors` (515-520). -/
def shapeTensors (g : Graph) : List String := g.nodemap.flatMap shapeInputs

/-- `__find_shape_tensors__` for one iteration order `order` of the set `shape_tensors`: the names of the nodes left with
`shape_calc = True`. -/
def findShape (g : Graph) (order : List String) : Except PyErr (List String) := markAll g order []

end OnnxTool.ShapeCalc
