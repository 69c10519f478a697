import Verif.Model.PoolState
/-!
# Specification: a pool is a set of independent tensors

A tensor has its own bytes.  A view refers to a tensor (not to an address) and stays connected until the pool moves to another device.
-/
namespace OnnxTool.Pool
open OnnxTool

variable {V : Type}

structure Boxes where
  content : String → Nat → UInt8
  device : String
  /-- tensor, bytes, still connected -/
  views : List (String × Nat × Bool)

/-- replace the first `n` bytes of tensor `k` -/
def Boxes.put (s : Boxes) (k : String) (n : Nat) (data : Nat → UInt8) : Boxes :=
  { s with content := fun q i => if q = k ∧ i < n then data i else s.content q i }

/-- what an operation should do, `m` being the plan of the pool -/
def Boxes.step (enc : V → List UInt8) (m : MemoryPool) (s : Boxes) : Op V → Boxes × Option PyErr
  | .get key shape => match get m key shape with
    | .error e => (s, some e)
    | .ok v => ({ s with views := s.views ++ [(key, v.2, true)] }, none)
  | .write h data => match s.views[h]? with
    | some (k, n, true) => (s.put k n data, none)
    | _ => (s, none)
  | .fill key vals => match get m key none with
    | .error e => (s, some e)
    | .ok v =>
      let n := v.2 / m.elt
      if n ≤ vals.length then (s.put key v.2 (bytesOf enc (vals.take n)), none)
      else match vals with
        | [x] => (s.put key v.2 (bytesOf enc (List.replicate n x)), none)
        | _ => (s, some .runtimeError)
  | .zero => ({ s with content := fun _ _ => 0 }, none)
  | .move d => if d = s.device then (s, none) else ({ s with device := d, views := s.views.map fun v => (v.1, v.2.1, false) }, none)

def Boxes.run (enc : V → List UInt8) (m : MemoryPool) : Boxes → List (Op V) → Boxes × List (Option PyErr)
  | s, [] => (s, [])
  | s, op :: ops =>
    let r := s.step enc m op
    let t := Boxes.run enc m r.1 ops
    (t.1, r.2 :: t.2)

/-- no two tensors of the plan share a byte -/
def Disjoint (m : MemoryPool) : Prop := ∀ k k' o n o' n', k ≠ k' → m.plan.get? k = some (o, n) → m.plan.get? k' = some (o', n') → o + n ≤ o' ∨ o' + n' ≤ o

end OnnxTool.Pool
