import Verif.Model.Torch
import Verif.Model.Kernels
import Verif.Model.KernelsCut
import Verif.Model.Axes
/-!
# Value inference of the operators that move data (`/repo/onnx_tool/node.py`, methods `value_infer`)

These methods run when all inputs of a node are known: they evaluate shape computations and fold constants.  Arrays are the tensors of
`Model/Torch.lean` (a shape and a function of the multi-index); numpy itself is not part of the repository, so the numpy calls made by
the methods are defined here by what they do to the elements.  Data types are left out except where the method changes them
(GatherElements).  `Tensor.get_numpy` is taken to return the known value.
-/
namespace OnnxTool.Values
open OnnxTool OnnxTool.Torch OnnxTool.Slice OnnxTool.Kernels

variable {V : Type}

/-- numpy raises ValueError where torch raises RuntimeError -/
def asValueError {α : Type} : Except PyErr α → Except PyErr α
  | .ok a => .ok a
  | .error _ => .error .valueError

/-- a (possibly negative) index into an axis of size `d` -/
def resolve (d : Nat) (i : Int) : Nat := (if i < 0 then i + d else i).toNat

/-- the index is valid for an axis of size `d` (numpy accepts negative ones) -/
def validIndex (d : Nat) (i : Int) : Bool := -(d : Int) ≤ i && i < d

/-- `numpy.take(x, ids, axis)` -/
def take (axis : Int) (x : Tensor V) (ids : Tensor Int) : Except PyErr (Tensor V) :=
  match normIndex x.shape.length axis with
  | .error e => .error e
  | .ok a =>
    if ids.flat.all (validIndex (x.shape.getD a 0)) then
      .ok ⟨x.shape.take a ++ ids.shape ++ x.shape.drop (a + 1), fun idx =>
        x.at (idx.take a ++ [resolve (x.shape.getD a 0) (ids.at ((idx.drop a).take ids.shape.length))] ++ idx.drop (a + ids.shape.length))⟩
    else .error .indexError

/-- `GatherNode.value_infer` (978-980) -/
def gatherValue (axis : Int) (x : Tensor V) (ids : Tensor Int) : Except PyErr (Tensor V) := take axis x ids

/-- first position of `slice(s, e, st)` on an axis of size `d` (CPython `PySlice_AdjustIndices`) -/
def pyFirst (d : Nat) (s st : Int) : Int :=
  let v := if s < 0 then s + d else s
  if v < 0 then (if st < 0 then -1 else 0) else if v ≥ d then (if st < 0 then (d : Int) - 1 else d) else v

/-- `x[:, ..., s:e:st, ...]` with the slice at axis `k`: too few axes raise IndexError, step 0 ValueError -/
def sliceAxis (x : Tensor V) (k : Nat) (s e st : Int) : Except PyErr (Tensor V) :=
  if k < x.shape.length then
    match pySliceLen (x.shape.getD k 0) s e st with
    | .error e => .error e
    | .ok n => .ok ⟨x.shape.set k n, fun idx => x.at (idx.set k (pyFirst (x.shape.getD k 0) s st + idx.getD k 0 * st).toNat)⟩
  else .error .indexError

/-- one round of the loops of `SliceNode.value_infer` (1858-1869, 1877-1888, 1892-1903): only axes 0 to 4 are handled -/
def sliceStep (starts ends steps : List Int) (i : Nat) (a : Int) (x : Tensor V) : Except PyErr (Tensor V) :=
  if 0 ≤ a ∧ a ≤ 4 then
    match starts[i]?, ends[i]?, steps[i]? with
    | some s, some e, some st => sliceAxis x a.toNat s e st
    | _, _, _ => .error .indexError
  else .ok x

def sliceLoop (starts ends steps : List Int) : Nat → List Int → Tensor V → Except PyErr (Tensor V)
  | _, [], x => .ok x
  | i, a :: as, x =>
    match sliceStep starts ends steps i a x with
    | .error e => .error e
    | .ok y => sliceLoop starts ends steps (i + 1) as y

/-- `SliceNode.value_infer` (1845-1904) with four (`steps = none`) or five inputs; the attribute form (one input) is the one without steps -/
def sliceValue (starts ends axes : List Int) (steps : Option (List Int)) (x : Tensor V) : Except PyErr (Tensor V) :=
  sliceLoop starts ends (steps.getD (List.replicate starts.length 1)) 0 axes x

/-- `SliceNode.value_infer` with three inputs (1848-1851) -/
def sliceValue3 (starts ends : List Int) (x : Tensor V) : Except PyErr (Tensor V) :=
  match starts[0]?, ends[0]? with
  | some s, some e => sliceAxis x 0 s e 1
  | _, _ => .error .indexError

/-- `ConcatNode.value_infer` (1049-1054): `numpy.concatenate` -/
def concatValue (axis : Int) (xs : List (Tensor V)) : Except PyErr (Tensor V) :=
  match xs with
  | [] => .error .valueError
  | x :: rest =>
    match normIndex x.shape.length axis with
    | .error e => .error e
    | .ok a => asValueError (cat (x :: rest) a)

/-- `splitpos` of `SplitNode.value_infer` (2976-2981) -/
def splitPositions (d : Nat) : Int → List Int → List Int
  | _, [] => []
  | e, v :: vs => if e + v ≥ d then [] else (e + v) :: splitPositions d (e + v) vs

/-- pieces of `numpy.split(x, positions, axis)`: between consecutive positions, the last up to the end -/
def pieces (x : Tensor V) (a : Nat) : Int → List Int → Except PyErr (List (Tensor V))
  | from_, [] =>
    match sliceAxis x a from_ (x.shape.getD a 0) 1 with
    | .error e => .error e
    | .ok p => .ok [p]
  | from_, to_ :: ps =>
    match sliceAxis x a from_ to_ 1 with
    | .error e => .error e
    | .ok p =>
      match pieces x a to_ ps with
      | .error e => .error e
      | .ok r => .ok (p :: r)

/-- `SplitNode.value_infer` (2958-2985): the values given to the first outputs; more pieces than outputs raise, outputs without a piece
are not updated -/
def splitValue (axis : Int) (split : Option (List Int)) (nout : Nat) (x : Tensor V) : Except PyErr (List (Tensor V)) :=
  match normIndex x.shape.length axis with
  | .error e => .error e
  | .ok a =>
    match (match split with
      | some l => Except.ok l
      | none => Axes.defaultSplit (x.shape.getD a 0) nout) with
    | .error e => .error e
    | .ok l =>
      match pieces x a 0 (splitPositions (x.shape.getD a 0) 0 l) with
      | .error e => .error e
      | .ok ps => if ps.length ≤ nout then .ok ps else .error .indexError

/-- `UnsqueezeNode.value_infer` (1288-1296): `expand_dims` for one axis after the other, in the given order -/
def unsqueezeValue (axes : List Int) (x : Tensor V) : Except PyErr (Tensor V) := unsqueezeLoop axes x

/-- `numpy.squeeze(x, axis)`: the axis must have size 1 -/
def squeezeAt (x : Tensor V) (a : Int) : Except PyErr (Tensor V) :=
  match normIndex x.shape.length a with
  | .error e => .error e
  | .ok k => if x.shape.getD k 0 = 1 then .ok ⟨x.shape.eraseIdx k, fun idx => x.at (idx.insertIdx k 0)⟩ else .error .valueError

/-- loop of `SqueezeNode.value_infer` (1324-1326): the `idx`-th axis is lowered by `idx` -/
def squeezeFrom : Nat → List Int → Tensor V → Except PyErr (Tensor V)
  | _, [], x => .ok x
  | i, a :: as, x =>
    match squeezeAt x (a - i) with
    | .error e => .error e
    | .ok y => squeezeFrom (i + 1) as y

/-- `SqueezeNode.value_infer` (1319-1327); without axes the default is axis 0 (line 1303) -/
def squeezeValue (axes : Option (List Int)) (x : Tensor V) : Except PyErr (Tensor V) := squeezeFrom 0 (axes.getD [0]) x

/-- `ReshapeNode.value_infer` (2765-2775); `allowzero` is not read -/
def reshapeValue (target : List Int) (x : Tensor V) : Except PyErr (Tensor V) :=
  match copyDims x.shape 0 target with
  | .error e => .error e
  | .ok s => asValueError (reshapeInts x s)

/-- `vol *= x.shape[i]` for `i in range(axis)` (1663-1665) -/
def leading (s : List Nat) (n : Nat) : Except PyErr Nat := if n ≤ s.length then .ok (numel (s.take n)) else .error .indexError

/-- `FlattenNode.value_infer` (1658-1668); a negative axis makes the range empty -/
def flattenValue (axis : Option Int) (x : Tensor V) : Except PyErr (Tensor V) :=
  match axis with
  | none =>
    match x.shape with
    | [] => .error .indexError
    | d :: _ => asValueError (reshapeInts x [(d : Int), -1])
  | some a =>
    match leading x.shape a.toNat with
    | .error e => .error e
    | .ok v => asValueError (reshapeInts x [(v : Int), -1])

/-- `TransposeNode.value_infer` (851-853) -/
def transposeValue (perm : Option (List Nat)) (x : Tensor V) : Except PyErr (Tensor V) :=
  match perm with
  | none => .ok x.T
  | some p => asValueError (x.permute p)

/-- `TileNode.value_infer` (942-946): `numpy.tile`; missing axes and repeats are filled with ones on the left -/
def tileValue (reps : List Nat) (x : Tensor V) : Tensor V :=
  let n := max reps.length x.shape.length
  let s := List.replicate (n - x.shape.length) 1 ++ x.shape
  let r := List.replicate (n - reps.length) 1 ++ reps
  ⟨List.zipWith (· * ·) s r, fun idx => x.at ((List.zipWith (· % ·) idx s).drop (n - x.shape.length))⟩

/-- all indices of a shape in row-major order (`numpy.ndindex`) -/
def ndindex (s : List Nat) : List (List Nat) := (List.range (numel s)).map (unravel s)

/-- `x[tuple(idx)]` with one integer for every axis -/
def pickAt : List Nat → List Int → Except PyErr (List Nat)
  | [], [] => .ok []
  | d :: s, i :: idx =>
    if validIndex d i then
      match pickAt s idx with
      | .error e => .error e
      | .ok r => .ok (resolve d i :: r)
    else .error .indexError
  | _, _ => .error .indexError

/-- one round of `GatherElementsNode.value_infer` (2792-2795): the source position -/
def elementSrc (axis : Nat) (x : Tensor V) (ids : Tensor Int) (i : List Nat) : Except PyErr (List Nat) :=
  pickAt x.shape ((i.map Int.ofNat).set axis (ids.at i))

/-- `GatherElementsNode.value_infer` (2788-2796).  The result array is `zeros_like(indices)`, so every element is converted to the type of
the indices: `cast`. -/
def gatherElementsValue (cast : V → V) (axis : Int) (x : Tensor V) (ids : Tensor Int) : Except PyErr (Tensor V) :=
  if numel ids.shape = 0 then .ok ⟨ids.shape, fun _ => x.at []⟩
  else
    match normIndex ids.shape.length axis with
    | .error e => .error e
    | .ok a =>
      if (ndindex ids.shape).all (fun i => (elementSrc a x ids i).toOption.isSome) then
        .ok ⟨ids.shape, fun i => cast (x.at ((elementSrc a x ids i).toOption.getD []))⟩
      else .error .indexError

/-- the tuple `indices[i]` of `q` numbers -/
def tupleAt (ids : Tensor Int) (q : Nat) (i : List Nat) : List Int := (List.range q).map fun j => ids.at (i ++ [j])

/-- the tuple as positions on the first axes of `s` -/
def resolveAll (s : List Nat) (t : List Int) : List Nat := List.zipWith resolve s t

/-- the tuple is valid for the first axes of `s` -/
def validAll (s : List Nat) (t : List Int) : Bool := (List.zipWith validIndex s t).all id

/-- `GatherNDNode.value_infer` with `gather_nd_impl(data, indices, 0)` (2360-2405, 2456-2460); the attribute `batch_dims` is not read -/
def gatherNDValue (x : Tensor V) (ids : Tensor Int) : Except PyErr (Tensor V) :=
  match ids.shape.reverse with
  | [] => .error .indexError
  | q :: rest =>
    let outer := rest.reverse
    if x.shape.length < q then .error .assertion
    else if q = 0 then .error .valueError
    else if (ndindex outer).all (fun i => validAll x.shape (tupleAt ids q i)) then
      .ok ⟨outer ++ x.shape.drop q, fun idx =>
        x.at (resolveAll x.shape (tupleAt ids q (idx.take outer.length)) ++ idx.drop outer.length)⟩
    else .error .indexError

/-- loop of `scatter_nd_impl` (2341-2355) without reduction: `output[tuple(indices[i])] = updates[i]` -/
def scatterLoop (ids : Tensor Int) (updates : Tensor V) (q : Nat) : List (List Nat) → Tensor V → Tensor V
  | [], y => y
  | i :: is, y =>
    scatterLoop ids updates q is ⟨y.shape, fun idx =>
      if idx.take q = resolveAll y.shape (tupleAt ids q i) then updates.at (i ++ idx.drop q) else y.at idx⟩

/-- `ScatterNDNode.value_infer` (2413-2417) with `scatter_nd_impl` (2333-2356); the attribute `reduction` is not passed -/
def scatterNDValue (x : Tensor V) (ids : Tensor Int) (updates : Tensor V) : Except PyErr (Tensor V) :=
  match ids.shape.reverse with
  | [] => .error .indexError
  | q :: rest =>
    let outer := rest.reverse
    if x.shape.length < q then .error .assertion
    else if updates.shape ≠ outer ++ x.shape.drop q then .error .assertion
    else if (ndindex outer).all (fun i => validAll x.shape (tupleAt ids q i)) then
      .ok (scatterLoop ids updates q (ndindex outer) x)
    else .error .indexError

/-- the `mode` of a Pad node: absent (the default is a Python string) or given (bytes) -/
inductive PadMode where
  | absent
  | constant
  | other
  deriving DecidableEq

/-- where the pads come from: the attribute is a Python list, the input an array -/
inductive Pads where
  | attr (l : List Int)
  | input (l : List Int)
  | missing

/-- `numpy.pad(x, width, mode='constant', constant_values=value)`: one (before, after) pair for every axis, none negative -/
def numpyPad (x : Tensor V) (before after : List Int) (value : V) : Except PyErr (Tensor V) :=
  if before.length = x.shape.length ∧ after.length = x.shape.length ∧ before.all (0 ≤ ·) ∧ after.all (0 ≤ ·) then
    .ok ⟨List.zipWith (· + ·) (List.zipWith (· + ·) (before.map Int.toNat) x.shape) (after.map Int.toNat), fun idx =>
      let src := List.zipWith (fun (i : Nat) (b : Int) => (i : Int) - b) idx before
      if src.all (0 ≤ ·) ∧ InB x.shape (src.map Int.toNat) then x.at (src.map Int.toNat) else value⟩
  else .error .valueError

/-- `PadNode.value_infer` (1590-1605): a list has no `reshape`; the default mode has no `decode`; a mode other than constant does not
take `constant_values` -/
def padValue (pads : Pads) (mode : PadMode) (value : V) (x : Tensor V) : Except PyErr (Tensor V) :=
  match pads with
  | .missing => .error .runtimeError
  | .attr _ => .error .attributeError
  | .input l =>
    match mode with
    | .absent => .error .attributeError
    | .other => .error .valueError
    | .constant => if l.length % 2 = 0 then numpyPad x (l.take (l.length / 2)) (l.drop (l.length / 2)) value else .error .valueError

/-- `TriluNode.value_infer` (1127-1136) on arrays of rank at least 2: `numpy.triu` / `numpy.tril` -/
def triluValue [Zero V] (upper : Bool) (k : Int) (x : Tensor V) : Tensor V :=
  ⟨x.shape, fun idx =>
    let i : Int := idx.getD (x.shape.length - 2) 0
    let j : Int := idx.getD (x.shape.length - 1) 0
    if (if upper then j - i ≥ k else j - i ≤ k) then x.at idx else 0⟩

/-- positions of the true entries (`numpy.compress` reads the condition this way) -/
def truePositions (c : List Bool) : List Int := ((List.range c.length).filter fun i => c.getD i false).map Int.ofNat

/-- `CompressNode.value_infer` (2062-2064): `numpy.compress(condition, x, axis)`; without an axis `x` is flattened first -/
def compressValue (axis : Option Int) (cond : List Bool) (x : Tensor V) : Except PyErr (Tensor V) :=
  let ids : Tensor Int := ⟨[(truePositions cond).length], fun idx => (truePositions cond).getD (idx.getD 0 0) 0⟩
  match axis with
  | some a => take a x ids
  | none => take 0 ⟨[numel x.shape], fun idx => x.at (unravel x.shape (idx.getD 0 0))⟩ ids

/-- `ShapeNode.value_infer` (1332-1334); the attributes `start` and `end` are not read -/
def shapeValue (x : Tensor V) : Tensor Int := ⟨[x.shape.length], fun idx => ((x.shape.getD (idx.getD 0 0) 0 : Nat) : Int)⟩

end OnnxTool.Values
