import Verif.Model.Conv
/-!
# Slice

Models `_axes_neg2pos` (`/repo/onnx_tool/node.py` 70-77), `SliceNode.shape_infer` (1711-1843) on concrete integer shapes and the
shape of the array computed by `SliceNode.value_infer` (1845-1904).

Simplifications: dimensions are non-negative integers (symbolic dimensions are not modelled); `math.ceil(span / float(st))` is exact
division (the float quotient has the same ceiling while `span < 2^53`).  In `value_infer` only the shape of the result is modelled.
-/
namespace OnnxTool.Slice
open OnnxTool OnnxTool.Conv

/-- Python's `xs[i]` index normalisation for a list of length `n`: negative indices count from the end. -/
def normIndex (n : Nat) (i : Int) : Except PyErr Nat :=
  if 0 ≤ i then (if i < n then .ok i.toNat else .error .indexError)
  else if -(n : Int) ≤ i then .ok (i + n).toNat else .error .indexError

/-- `_axes_neg2pos(len, axes)` (70-77) -/
def axesNeg2Pos (len : Nat) (axes : List Int) : List Int :=
  axes.map (fun a => if a < 0 then len + a else a)

/-- Lines 1760-1797: the effective `(start, end, step)` of one axis of size `dim`. -/
def effOf (dim : Nat) (s e st : Int) : Int × Int × Int :=
  let s := if s < 0 then dim + s else s
  let e := if e < 0 then dim + e else e
  let s := if st < 0 then max 0 (min s ((dim : Int) - 1)) else max 0 (min s dim)
  let e := if st < 0 then max (-1) (min e ((dim : Int) - 1)) else max 0 (min e dim)
  (s, e, st)

/-- Lines 1752-1801: `for idx, axis in enumerate(axes)`. -/
def effLoop (inshape : List Nat) (starts ends steps : List Int) : Nat → List Int → List (Int × Int × Int) →
    Except PyErr (List (Int × Int × Int))
  | _, [], eff => .ok eff
  | i, a :: as, eff => do
    let s ← idx starts i
    let e ← idx ends i
    let st ← idx steps i
    let k ← normIndex inshape.length a
    effLoop inshape starts ends steps (i + 1) as (eff.set k (effOf (inshape.getD k 0) s e st))

/-- Lines 1804-1840: the size of one axis from its effective start, end and step. -/
def axisSize (t : Int × Int × Int) : Except PyErr Nat :=
  if t.2.2 > 0 then
    let span := t.2.1 - t.1
    if span ≤ 0 then .ok 0 else .ok (ceilDiv span t.2.2).toNat
  else
    let span := t.1 - t.2.1
    if span ≤ 0 then .ok 0
    else if t.2.2 = 0 then .error .zeroDivision
    else .ok (ceilDiv span (-t.2.2)).toNat

def sizes : List (Int × Int × Int) → Except PyErr (List Nat)
  | [] => .ok []
  | t :: ts => do
    let v ← axisSize t
    let vs ← sizes ts
    pure (v :: vs)

/-- `SliceNode.shape_infer`; `axes` / `steps` are `none` when neither an attribute nor an input gives them. -/
def sliceShape (inshape : List Nat) (starts ends : List Int) (axes steps : Option (List Int)) : Except PyErr (List Nat) := do
  let r := inshape.length
  let axs := axesNeg2Pos r (axes.getD ((List.range r).map Int.ofNat))
  let sts := steps.getD (List.replicate starts.length 1)
  let eff ← effLoop inshape starts ends sts 0 axs (inshape.map (fun d : Nat => ((0 : Int), (d : Int), (1 : Int))))
  sizes eff

/-- `len(range(*slice(s, e, st).indices(dim)))`: the length of a Python / numpy basic slice of an axis of size `dim`
(CPython `PySlice_AdjustIndices`); step 0 raises `ValueError`. -/
def pySliceLen (dim : Nat) (s e st : Int) : Except PyErr Nat :=
  if st = 0 then .error .valueError
  else
    let adj (v : Int) : Int :=
      let v' := if v < 0 then v + dim else v
      if v' < 0 then (if st < 0 then -1 else 0)
      else if v' ≥ dim then (if st < 0 then (dim : Int) - 1 else dim) else v'
    let s := adj s
    let e := adj e
    if st < 0 then (if e < s then .ok ((s - e - 1) / (-st) + 1).toNat else .ok 0)
    else (if s < e then .ok ((e - s - 1) / st + 1).toNat else .ok 0)

/-- Lines 1852-1869, 1870-1890, 1891-1903: `for i in axes: if i == k: x = x[:, ..., starts[index]:ends[index]:steps[index], ...]` for
`k ≤ 4`; any other axis value (negative ones included) is ignored; slicing an axis the array does not have raises. -/
def valueLoop (starts ends steps : List Int) : Nat → List Int → List Nat → Except PyErr (List Nat)
  | _, [], x => .ok x
  | i, a :: as, x =>
    if 0 ≤ a ∧ a ≤ 4 then do
      let s ← idx starts i
      let e ← idx ends i
      let st ← idx steps i
      if a.toNat < x.length then do
        let n ← pySliceLen (x.getD a.toNat 0) s e st
        valueLoop starts ends steps (i + 1) as (x.set a.toNat n)
      else .error .indexError
    else valueLoop starts ends steps (i + 1) as x

/-- Shape of the result of `SliceNode.value_infer` when `axes` is an input: with four inputs the step is always 1, with five it is given. -/
def valueShape (inshape : List Nat) (starts ends axes : List Int) (steps : Option (List Int)) : Except PyErr (List Nat) :=
  valueLoop starts ends (steps.getD (List.replicate starts.length 1)) 0 axes inshape

/-- Lines 1848-1851: with three inputs only the first axis is sliced. -/
def valueShape3 (inshape : List Nat) (starts ends : List Int) : Except PyErr (List Nat) := do
  let s ← idx starts 0
  let e ← idx ends 0
  match inshape with
  | [] => .error .indexError
  | d :: ds => do
    let n ← pySliceLen d s e 1
    pure (n :: ds)

end OnnxTool.Slice
