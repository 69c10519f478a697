import Verif.Model.Py
/-!
# `MemoryPool` (`/repo/inference/memory_pool.py`)

The torch storage is modelled as a function from byte addresses to bytes; a tensor view is a byte range.
-/
namespace OnnxTool.Pool
open OnnxTool

/-- `class MemoryPool` (19-54): plan, pool size, element size of `dtype`. -/
structure MemoryPool where
  plan : Dict (Nat × Nat)
  size : Nat
  elt : Nat
  deriving Repr

/-- `_validate` (56-69).  Offsets and sizes are naturals here, so `offset < 0` cannot happen. -/
def validate (plan : Dict (Nat × Nat)) (size : Nat) : Bool :=
  plan.all fun e => 0 < e.2.2 && e.2.1 + e.2.2 ≤ size

/-- `__init__` (32-54): ValueError for an empty pool or an invalid plan. -/
def mk (plan : Dict (Nat × Nat)) (size elt : Nat) : Except PyErr MemoryPool :=
  if size = 0 then .error .valueError
  else if validate plan size then .ok ⟨plan, size, elt⟩ else .error .valueError

/-- product of the requested shape (109-111) -/
def prod (shape : List Nat) : Nat := shape.foldl (· * ·) 1

/-- `get(key, shape)` (85-133): the byte range `(offset, used_bytes)` of the returned view.  `byte_view.view(dtype)`
(torch) raises RuntimeError when the storage offset or the byte length is not a multiple of the element size. -/
def get (m : MemoryPool) (key : String) (shape : Option (List Nat)) : Except PyErr (Nat × Nat) :=
  match m.plan.get? key with
  | none => .error .keyError
  | some (offset, size) =>
    let num := size / m.elt
    match shape with
    | some sh =>
      if num < prod sh then .error .valueError
      else
        let used := prod sh * m.elt
        if offset % m.elt = 0 ∧ used % m.elt = 0 then .ok (offset, used) else .error .runtimeError
    | none => if offset % m.elt = 0 ∧ size % m.elt = 0 then .ok (offset, size) else .error .runtimeError

/-- `get_batch(key, batch, element_shape)` (135-156) -/
def getBatch (m : MemoryPool) (key : String) (batch : Nat) (es : Option (List Nat)) : Except PyErr (Nat × Nat) :=
  get m key (some (match es with | some s => batch :: s | none => [batch]))

/-- Writing `data i` to byte `i` of a view (what an operator storing its result through the view does). -/
def write (mem : Nat → UInt8) (v : Nat × Nat) (data : Nat → UInt8) : Nat → UInt8 :=
  fun a => if v.1 ≤ a ∧ a < v.1 + v.2 then data (a - v.1) else mem a

/-- Reading byte `i` of a view. -/
def read (mem : Nat → UInt8) (v : Nat × Nat) (i : Nat) : UInt8 := mem (v.1 + i)

end OnnxTool.Pool
