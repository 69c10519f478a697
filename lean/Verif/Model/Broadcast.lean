import Verif.Model.Py
/-!
# Broadcasting and element counts

Models `_broadcast_shape` (`/repo/onnx_tool/node.py` 125-162), `_max_shape` (80-91), `volume`
(`/repo/onnx_tool/tensor.py` 145-151), `ExpandNode.shape_infer` (node.py 1535-1560) and `GemmNode.shape_infer` (863-894).
Dimensions are non-negative integers.
-/
namespace OnnxTool.Shape
open OnnxTool

abbrev Shp := List Nat

/-- `volume(shape)` (`tensor.py` 145-151): the product, but `0` for the empty shape. -/
def volume (s : Shp) : Nat := s.foldl (fun v d => v * d) (if s.length > 0 then 1 else 0)

/-- Lines 131-143: the longest rank. -/
def maxLen (ss : List Shp) : Nat := ss.foldl (fun m s => if s.length > m then s.length else m) 0

/-- Lines 146-151: left-pad with ones. -/
def padTo (n : Nat) (s : Shp) : Shp := if s.length < n then List.replicate (n - s.length) 1 ++ s else s

/-- `max(dims)` for a non-empty tuple -/
def listMax (ds : List Nat) : Nat := ds.foldl max 0

/-- Lines 155-161: one position of the zipped dimensions. -/
def mergeDims (ds : List Nat) : Except PyErr Nat :=
  let m := listMax ds
  if ds.contains 0 then
    if ds.all (fun d => d = 0 || d = 1) then .ok 0 else .error .valueError
  else
    if ds.all (fun d => d = m || d = 1) then .ok m else .error .valueError

/-- Lines 153-162: `for dims in zip(*padded)`; position `j` collects the `j`-th entries (all of equal length). -/
def mergeAll (padded : List Shp) : List Nat → Except PyErr Shp
  | [] => .ok []
  | j :: js =>
    match mergeDims (padded.map (fun s => s.getD j 1)) with
    | .error e => .error e
    | .ok d =>
      match mergeAll padded js with
      | .error e => .error e
      | .ok r => .ok (d :: r)

/-- `_broadcast_shape(shapes)` -/
def broadcastShape (ss : List Shp) : Except PyErr Shp :=
  mergeAll (ss.map (padTo (maxLen ss))) (List.range (maxLen ss))

/-- Loop of `_max_shape` (83-90); state (maxshape, maxvol). -/
def maxLoop : List Shp → Shp × Nat → Shp × Nat
  | [], s => s
  | s :: ss, (m, v) =>
    if volume s > v then maxLoop ss (s, volume s)
    else if volume s = v then
      if s.length > m.length then maxLoop ss (s, v) else maxLoop ss (m, v)
    else maxLoop ss (m, v)

/-- `_max_shape(shapes)` (80-91); `shapes[0]` raises on an empty list. -/
def maxShape (ss : List Shp) : Except PyErr Shp :=
  match ss with
  | [] => .error .indexError
  | s0 :: rest => .ok (maxLoop (s0 :: rest) (s0, volume s0)).1

/-- `ExpandNode.shape_infer` (1535-1560) on a concrete target shape. -/
def expandShape (x e : Shp) : Shp :=
  List.zipWith max (padTo e.length x) (padTo x.length e)

/-- `GemmNode.shape_infer` (863-894): `gemm = true` for class `GemmNode` itself, `false` for `MatMul`. -/
def gemmShape (gemm transA transB : Bool) (a b : Shp) : Except PyErr Shp :=
  if a.length < 2 ∨ b.length < 2 then .error .runtimeError
  else
    let am2 := a.getD (a.length - 2) 0
    let am1 := a.getD (a.length - 1) 0
    let bm2 := b.getD (b.length - 2) 0
    let bm1 := b.getD (b.length - 1) 0
    let ab := a.take (a.length - 2)
    let bb := b.take (b.length - 2)
    let batch := if volume ab ≥ volume bb then ab else bb
    if gemm then
      let m := if transA then am1 else am2
      let ka := if transA then am2 else am1
      let kb := if transB then bm1 else bm2
      let n := if transB then bm2 else bm1
      if ka ≠ kb then .error .runtimeError else .ok (batch ++ [m, n])
    else .ok (batch ++ [am2, bm1])

end OnnxTool.Shape
