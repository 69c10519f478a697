import Verif.Model.Py
/-!
# Torch tensors used by the kernels (`/repo/inference/kernels.py`)

Torch itself is not part of the repository: these definitions say what the torch calls made by the kernels are taken to do (element
semantics with exact arithmetic; dtype and device are left out).  A tensor is its shape and a function of the multi-index; only indices
inside the shape are meaningful.
-/
namespace OnnxTool.Torch
open OnnxTool

/-- a tensor -/
structure Tensor (V : Type) where
  shape : List Nat
  «at» : List Nat → V

/-- number of elements -/
def numel : List Nat → Nat
  | [] => 1
  | d :: s => d * numel s

/-- the index is inside the shape -/
def InB : List Nat → List Nat → Prop
  | [], [] => True
  | d :: s, i :: idx => i < d ∧ InB s idx
  | _, _ => False

instance : ∀ s idx, Decidable (InB s idx)
  | [], [] => .isTrue trivial
  | d :: s, i :: idx =>
    match (inferInstance : Decidable (i < d)), instDecidableInB s idx with
    | .isTrue a, .isTrue b => .isTrue ⟨a, b⟩
    | .isFalse a, _ => .isFalse fun h => a h.1
    | _, .isFalse b => .isFalse fun h => b h.2
  | [], _ :: _ => .isFalse id
  | _ :: _, [] => .isFalse id

/-- position of an element in row-major order -/
def ravel : List Nat → List Nat → Nat
  | _ :: s, i :: idx => i * numel s + ravel s idx
  | _, _ => 0

/-- the index of the `n`-th element in row-major order -/
def unravel : List Nat → Nat → List Nat
  | [], _ => []
  | _ :: s, n => n / numel s :: unravel s (n % numel s)

variable {V : Type}

/-- the elements in row-major order -/
def Tensor.flat (t : Tensor V) : List V := (List.range (numel t.shape)).map fun n => t.at (unravel t.shape n)

/-- same shape and same elements -/
def Tensor.Same (t u : Tensor V) : Prop := t.shape = u.shape ∧ ∀ idx, InB t.shape idx → t.at idx = u.at idx

/-- index of the source element for a broadcast: leading axes dropped, 0 on axes of size 1 -/
def bcastIdx (src idx : List Nat) : List Nat := List.zipWith (fun d i => if d = 1 then 0 else i) src (idx.drop (idx.length - src.length))

/-- `src` can be expanded to `dst` -/
def canExpand (src dst : List Nat) : Bool :=
  src.length ≤ dst.length && (List.zipWith (fun d e => d = 1 || d = e) src (dst.drop (dst.length - src.length))).all id

/-- `out.copy_(t)`, `out` of shape `os`: the source is broadcast; RuntimeError if that is impossible -/
def copyTo (os : List Nat) (t : Tensor V) : Except PyErr (Tensor V) :=
  if canExpand t.shape os then .ok ⟨os, fun idx => t.at (bcastIdx t.shape idx)⟩ else .error .runtimeError

/-- `t.T` of a matrix; on vectors and scalars `.T` changes nothing, in general it reverses the axes -/
def Tensor.T (t : Tensor V) : Tensor V := ⟨t.shape.reverse, fun idx => t.at idx.reverse⟩

/-- `t.reshape(s)` for a shape without `-1` -/
def Tensor.reshape (t : Tensor V) (s : List Nat) : Except PyErr (Tensor V) :=
  if numel s = numel t.shape then .ok ⟨s, fun idx => t.at (unravel t.shape (ravel s idx))⟩ else .error .runtimeError

/-- `t.unsqueeze(a)`; `a` from `-(rank+1)` to `rank` -/
def Tensor.unsqueeze (t : Tensor V) (a : Int) : Except PyErr (Tensor V) :=
  let r : Int := t.shape.length
  if -(r + 1) ≤ a ∧ a ≤ r then
    let k := (if a < 0 then a + r + 1 else a).toNat
    .ok ⟨t.shape.insertIdx k 1, fun idx => t.at (idx.eraseIdx k)⟩
  else .error .indexError

/-- `torch.index_select(t, axis, indices)`; the list is the flat index tensor; a negative or too large index raises -/
def Tensor.indexSelect (t : Tensor V) (axis : Nat) (ids : List Int) : Except PyErr (Tensor V) :=
  if axis < t.shape.length ∧ ids.all (fun i => 0 ≤ i ∧ i < (t.shape.getD axis 0 : Int)) then
    .ok ⟨t.shape.set axis ids.length, fun idx => t.at (idx.set axis (ids.getD (idx.getD axis 0) 0).toNat)⟩
  else .error .indexError

/-- `F.pad(t, p, mode='constant', value)`: pairs (before, after) from the last axis backwards, one pair for every axis; negative
numbers crop; a negative size raises -/
def Tensor.pad (t : Tensor V) (p : List (Int × Int)) (value : V) : Except PyErr (Tensor V) :=
  let q := p.reverse
  let s := List.zipWith (fun (d : Nat) (a : Int × Int) => a.1 + d + a.2) t.shape q
  if s.all (0 ≤ ·) then
    .ok ⟨s.map Int.toNat, fun idx =>
      let src := List.zipWith (fun (i : Nat) (a : Int × Int) => (i : Int) - a.1) idx q
      if src.all (0 ≤ ·) ∧ InB t.shape (src.map Int.toNat) then t.at (src.map Int.toNat) else value⟩
  else .error .runtimeError

/-- the sizes left when the axes of size 1 at positions satisfying `p` are dropped; positions are counted from `i` -/
def dropOnes (p : Nat → Bool) : Nat → List Nat → List Nat
  | _, [] => []
  | i, d :: s => if p i && d == 1 then dropOnes p (i + 1) s else d :: dropOnes p (i + 1) s

/-- `t.squeeze(dims)` / `t.squeeze()`: listed axes of another size stay; out of range or repeated axes raise.  (Torch also accepts 0 and -1
for a scalar; left out.) -/
def Tensor.squeeze (t : Tensor V) (dims : Option (List Int)) : Except PyErr (Tensor V) :=
  match dims with
  | none => t.reshape (dropOnes (fun _ => true) 0 t.shape)
  | some l =>
    let r : Int := t.shape.length
    let pos := l.map fun a => (if a < 0 then a + r else a).toNat
    if l.all (fun a => -r ≤ a && a < r) && pos.Nodup then t.reshape (dropOnes (fun i => pos.contains i) 0 t.shape) else .error .indexError

/-- `t.permute(*perm)` -/
def Tensor.permute (t : Tensor V) (perm : List Nat) : Except PyErr (Tensor V) :=
  if perm.isPerm (List.range t.shape.length) then
    .ok ⟨perm.map fun p => t.shape.getD p 0, fun idx => t.at ((List.range t.shape.length).map fun j => idx.getD (perm.idxOf j) 0)⟩
  else .error .runtimeError

end OnnxTool.Torch
