import Verif.Model.Slice
/-!
# Reshape, Split, Concat and the axis-rearranging operators

Models the `shape_infer` methods of `/repo/onnx_tool/node.py`: Transpose (840-849), Gather (955-966), Concat (1040-1047),
OneHot (1103-1112), Unsqueeze (1269-1286), Squeeze (1305-1317), Pad (1575-1588), Reduce (1914-1933), Reshape (2740-2763),
Split (2924-2956).  Input dimensions are non-negative integers; data types are not modelled.
-/
namespace OnnxTool.Axes
open OnnxTool OnnxTool.Conv OnnxTool.Slice

/-- `xs[i]` with Python's negative indices -/
def pyGet (xs : List Nat) (i : Int) : Except PyErr Nat := do
  let k ← normIndex xs.length i
  pure (xs.getD k 0)

/-- Transpose 840-849: `perm is None` reverses, otherwise `[xshape[axis] for axis in perm]`. -/
def gatherAll (x : List Nat) : List Int → Except PyErr (List Nat)
  | [] => .ok []
  | a :: as => do
    let v ← pyGet x a
    let vs ← gatherAll x as
    pure (v :: vs)

def transposeShape (perm : Option (List Int)) (x : List Nat) : Except PyErr (List Nat) :=
  match perm with
  | none => .ok x.reverse
  | some p => gatherAll x p

/-- Gather 958-964: the loop over the data dimensions, from position `i`. -/
def gatherLoop (axis : Int) (ids : List Nat) : Nat → List Nat → List Nat
  | _, [] => []
  | i, d :: ds => (if (i : Int) = axis then ids else [d]) ++ gatherLoop axis ids (i + 1) ds

/-- `GatherNode.shape_infer` (955-966) -/
def gatherShape (axis : Int) (x ids : List Nat) : List Nat :=
  gatherLoop (if axis < 0 then x.length + axis else axis) ids 0 x

/-- Squeeze 1312-1316 / Reduce without keepdims 1924-1931: drop the listed axes, from position `i`. -/
def dropAxes (axes : List Int) : Nat → List Nat → List Nat
  | _, [] => []
  | i, d :: ds => if axes.contains (i : Int) then dropAxes axes (i + 1) ds else d :: dropAxes axes (i + 1) ds

/-- `SqueezeNode.shape_infer` (1305-1317) -/
def squeezeShape (axes : List Int) (x : List Nat) : List Nat := dropAxes (axesNeg2Pos x.length axes) 0 x

/-- Unsqueeze 1278-1284: `n` positions remain, the next is `i`, the input dimensions not yet used are `x`. -/
def insLoop (axes : List Int) : Nat → Nat → List Nat → Except PyErr (List Nat)
  | 0, _, _ => .ok []
  | n + 1, i, x =>
    if axes.contains (i : Int) then do
      let r ← insLoop axes n (i + 1) x
      pure (1 :: r)
    else
      match x with
      | [] => .error .indexError
      | d :: ds => do
        let r ← insLoop axes n (i + 1) ds
        pure (d :: r)

/-- `UnsqueezeNode.shape_infer` (1269-1286) -/
def unsqueezeShape (axes : List Int) (x : List Nat) : Except PyErr (List Nat) :=
  let n := x.length + axes.length
  insLoop (axesNeg2Pos n axes) n 0 x

/-- Reduce 1924-1931 with `keepdims` -/
def onesAt (axes : List Int) : Nat → List Nat → List Nat
  | _, [] => []
  | i, d :: ds => (if axes.contains (i : Int) then 1 else d) :: onesAt axes (i + 1) ds

/-- `ReduceMeanNode.shape_infer` (1914-1933), shared by the Reduce operators; `none` = the method returns without updating the output
tensor (line 1921-1922, no axes given). -/
def reduceShape (keepdims : Bool) (axes : Option (List Int)) (x : List Nat) : Option (List Nat) :=
  match axes with
  | none => none
  | some axes =>
    let axes := axesNeg2Pos x.length axes
    some (if keepdims then onesAt axes 0 x else dropAxes axes 0 x)

/-- `OneHotNode.shape_infer` (1103-1112); `list.insert` clamps an out-of-range position. -/
def oneHotShape (axis : Int) (depth : Nat) (x : List Nat) : List Nat :=
  let n := x.length + 1
  let a := if axis < 0 then (n : Int) + axis else axis
  let k := if a < 0 then (max 0 (a + x.length)).toNat else min a.toNat x.length
  x.take k ++ depth :: x.drop k

/-- Pad 1579-1585: `newshape.append(v + pads[i] + pads[i + len(inshape)])` -/
def padLoop (pads : List Int) (r : Nat) : Nat → List Nat → Except PyErr (List Int)
  | _, [] => .ok []
  | i, d :: ds => do
    let b ← idx pads i
    let e ← idx pads (i + r)
    let t ← padLoop pads r (i + 1) ds
    pure (((d : Int) + b + e) :: t)

/-- `PadNode.shape_infer` (1575-1588); `none` = no pads attribute and a single input. -/
def padShape (pads : Option (List Int)) (x : List Nat) : Except PyErr (List Int) :=
  match pads with
  | none => .ok []
  | some p => padLoop p x.length 0 x

/-- Concat 1040-1047: `outshape[self.axis] += shape[self.axis]` for each further input. -/
def concatLoop (axis : Int) : List Nat → List (List Nat) → Except PyErr (List Nat)
  | out, [] => .ok out
  | out, s :: ss => do
    let a ← pyGet out axis
    let b ← pyGet s axis
    let k ← normIndex out.length axis
    concatLoop axis (out.set k (a + b)) ss

def concatShape (axis : Int) (shapes : List (List Nat)) : Except PyErr (List Nat) :=
  match shapes with
  | [] => .error .indexError
  | s :: ss => concatLoop axis s ss

/-- Reshape 2746-2751: replace zeros by the input dimension at the same position. -/
def copyZeros (src : List Nat) : Nat → List Int → Except PyErr (List Int)
  | _, [] => .ok []
  | i, t :: ts => do
    let v ← if t = 0 then idx (src.map Int.ofNat) i else pure t
    let vs ← copyZeros src (i + 1) ts
    pure (v :: vs)

/-- Reshape 2756-2759: replace the first `-1`. -/
def fillFirst (v : Int) : List Int → List Int
  | [] => []
  | t :: ts => if t = -1 then v :: ts else t :: fillFirst v ts

/-- `ReshapeNode.shape_infer` (2740-2763) with a known target shape. -/
def reshapeShape (src : List Nat) (shape : List Int) : Except PyErr (List Int) := do
  let new ← copyZeros src 0 shape
  let raw := volumeInt (src.map Int.ofNat)
  let s := volumeInt new
  let new' := if s < 0 then fillFirst (Int.fdiv raw (-s)) new else new
  if raw = volumeInt new' then .ok new' else .error .assertion

/-- Split 2926-2937: the split list when none is given and there is no second input. -/
def defaultSplit (dim n : Nat) : Except PyErr (List Int) :=
  if n = 0 then .error .zeroDivision
  else if dim % n = 0 then .ok (List.replicate n ((dim / n : Nat) : Int))
  else
    let div : Int := (dim / n : Nat) + 1
    .ok (List.replicate (n - 1) div ++ [div + (dim - n * div)])

/-- Split 2942-2948: one output shape -/
def splitOne (axis : Int) (e v : Int) : Nat → List Nat → List Int
  | _, [] => []
  | i, d :: ds =>
    (if (i : Int) = axis then (if e + v < d then v else d - e) else d) :: splitOne axis e v (i + 1) ds

/-- Split 2940-2952: `for v in split`, `e` is the running end. -/
def splitLoop (x : List Nat) (axis : Int) : Int → List Int → List (List Int)
  | _, [] => []
  | e, v :: vs => splitOne axis e v 0 x :: splitLoop x axis (e + v) vs

/-- `SplitNode.shape_infer` (2924-2956); `nout` is the number of output tensors. -/
def splitShape (x : List Nat) (axis : Option Int) (split : Option (List Int)) (nout : Nat) : Except PyErr (List (List Int)) :=
  match axis with
  | none => .error .typeError
  | some axis => do
    let sp ← match split with
      | some s => Except.ok s
      | none => do
        let dim ← pyGet x axis
        defaultSplit dim nout
    let shapes := splitLoop x (if axis < 0 then x.length + axis else axis) 0 sp
    if shapes.length ≤ nout then .ok shapes else .error .indexError

end OnnxTool.Axes
