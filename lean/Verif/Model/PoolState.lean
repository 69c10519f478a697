import Verif.Model.Pool
/-!
# The memory pool as an object with a history

Models `MemoryPool` (`/repo/inference/memory_pool.py` 19-213) as a state machine: `get`, writing through a view that was returned earlier, `fill_tensor`, `zero_` and `to`.

Simplified: torch storages are byte maps in a heap, addressed by the order of their allocation; `enc` is the conversion of one value to the element type of the pool; the cache `_tensors`
is never read by the code and left out.
-/
namespace OnnxTool.Pool
open OnnxTool

abbrev Buf := Nat → UInt8

variable {V : Type}

/-- the pool, the storages allocated so far, the one `_pool` points to, and the views handed out (storage, offset, bytes) -/
structure PState where
  m : MemoryPool
  device : String
  bufs : List Buf
  cur : Nat
  handles : List (Nat × Nat × Nat)

/-- what a user of the pool can do -/
inductive Op (V : Type) where
  | get (key : String) (shape : Option (List Nat))
  | write (handle : Nat) (data : Nat → UInt8)
  | fill (key : String) (vals : List V)
  | zero
  | move (device : String)

/-- `t.copy_(value.flatten()[:t.numel()])` (200) for `n = t.numel()` elements: the values written; torch broadcasts a single value and refuses any other length than `n` -/
def filled (n : Nat) (vals : List V) : Except PyErr (List V) :=
  let vs := vals.take n
  if vs.length = n then .ok vs
  else match vs with
    | [v] => .ok (List.replicate n v)
    | _ => .error .runtimeError

/-- writing into a storage of the heap -/
def setBuf (bufs : List Buf) (b : Nat) (f : Buf → Buf) : List Buf := bufs.modify b f

/-- `data` as the bytes of a view -/
def bytesOf (enc : V → List UInt8) (vs : List V) : Nat → UInt8 := fun i => (vs.flatMap enc).getD i 0

/-- `fill_tensor(key, value)` (188-200) -/
def fillTensor (enc : V → List UInt8) (s : PState) (key : String) (vals : List V) : PState × Option PyErr :=
  match get s.m key none with
  | .error e => (s, some e)
  | .ok v => match filled (v.2 / s.m.elt) vals with
    | .error e => (s, some e)
    | .ok vs => ({ s with bufs := setBuf s.bufs s.cur fun b => write b v (bytesOf enc vs) }, none)

/-- one operation; the exception it raises, if any -/
def step (enc : V → List UInt8) (s : PState) : Op V → PState × Option PyErr
  -- 85-133
  | .get key shape => match get s.m key shape with
    | .error e => (s, some e)
    | .ok v => ({ s with handles := s.handles ++ [(s.cur, v.1, v.2)] }, none)
  -- storing into a view
  | .write h data => match s.handles[h]? with
    | none => (s, none)
    | some (b, v) => ({ s with bufs := setBuf s.bufs b fun buf => write buf v data }, none)
  | .fill key vals => fillTensor enc s key vals
  -- 183-186
  | .zero => ({ s with bufs := setBuf s.bufs s.cur fun _ _ => 0 }, none)
  -- 171-181
  | .move d => if d = s.device then (s, none) else ({ s with bufs := s.bufs ++ [s.bufs.getD s.cur fun _ => 0], cur := s.bufs.length, device := d }, none)

/-- a history: the final state and the exceptions in order -/
def run (enc : V → List UInt8) : PState → List (Op V) → PState × List (Option PyErr)
  | s, [] => (s, [])
  | s, op :: ops =>
    let r := step enc s op
    let t := run enc r.1 ops
    (t.1, r.2 :: t.2)

/-- a new pool (32-54): `torch.empty`, so the contents are arbitrary -/
def start (m : MemoryPool) (device : String) (b : Buf) : PState := ⟨m, device, [b], 0, []⟩

/-- byte `i` of the tensor at `offset` now -/
def byteAt (s : PState) (offset i : Nat) : UInt8 := (s.bufs.getD s.cur fun _ => 0) (offset + i)

end OnnxTool.Pool
