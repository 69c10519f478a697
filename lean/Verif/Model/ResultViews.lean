import Verif.Model.InferState
/-!
# What `forward` returns: views of the pool (`/repo/inference/infer.py` 216-230, 264-283, 417-424)

`Model/InferState` reads the results at the end of the call.  Here the views themselves are kept, as a caller does who holds the returned dict, and calls whose tensors are such views (results that are fed back).

Simplified: `input_tensor.to(device=…, dtype=…)` (277) returns the tensor itself if device and type are those of the engine, and a copy otherwise; a tensor that is copied is an own tensor of the caller.
`torch.Tensor.copy_` between tensors of one storage does nothing if they are the same range, copies if the ranges are apart, and raises RuntimeError if they overlap in part.  A view given for an input outside the
pool (281) is read when it is passed; only the theorems about pooled inputs say something about it.
-/
namespace OnnxTool.Infer
open OnnxTool OnnxTool.Pool

/-- lines 417-424: the views of the outputs -/
def outputViews (e : Engine) (shape : String → List Nat) : List String → Except PyErr (Dict (Nat × Nat))
  | [] => .ok []
  | o :: os =>
    match e.views.get? o with
    | none => outputViews e shape os
    | some v =>
      match shapeView e.elt v (shape o) with
      | .error x => .error x
      | .ok w =>
        match outputViews e shape os with
        | .error x => .error x
        | .ok d => .ok ((o, w) :: d)

/-- the dict a call returns that left the engine in state `st` -/
def returned (S : Setup) (st : St) : Except PyErr (Dict (Nat × Nat)) := outputViews S.eng (lookupShape S st) S.eng.output

/-- the contents of a dict of views, at any later time -/
def readAll (mem : Mem) (vs : Dict (Nat × Nat)) : Dict Bytes := vs.map fun p => (p.1, readView mem p.2)

/-- a tensor given to `forward`: a tensor of the caller, or a view of the pool -/
inductive Source where
  | own (b : Bytes)
  | view (v : Nat × Nat)
  deriving DecidableEq

/-- its contents -/
def Source.bytes (mem : Mem) : Source → Bytes
  | .own b => b
  | .view v => readView mem v

/-- its size in bytes -/
def Source.size : Source → Nat
  | .own b => b.length
  | .view v => v.2

/-- `t.copy_(source)` (277) for a destination of the same size -/
def copyInto (mem : Mem) (dst : Nat × Nat) : Source → Except PyErr Mem
  | .own b => .ok (write mem dst fun i => b.getD i 0)
  | .view v =>
    if v = dst then .ok mem
    else if v.1 < dst.1 + dst.2 ∧ dst.1 < v.1 + v.2 then .error .runtimeError
    else .ok (write mem dst fun i => mem (v.1 + i))

/-- lines 264-283 -/
def copySources (e : Engine) : List (String × Source) → Mem × Dict Bytes → (Mem × Dict Bytes) × Option PyErr
  | [], st => (st, none)
  | (t, s) :: l, (mem, dyn) =>
    match e.views.get? t with
    | none => copySources e l (mem, dyn.set t (s.bytes mem))
    | some v =>
      if s.size ≤ v.2 then
        match copyInto mem (v.1, s.size) s with
        | .error x => ((mem, dyn), some x)
        | .ok mem => copySources e l (mem, dyn)
      else ((mem, dyn), some .runtimeError)

/-- a call with tensors that may be views of the pool: name, shape, tensor; and the memory a failing kernel would leave -/
structure SourceCall where
  inputs : List (String × List Nat × Source)
  crash : Mem

/-- `forward` (232-445) -/
def callSources (S : Setup) (st : St) (c : SourceCall) : St × Except PyErr (Dict Bytes) :=
  match c.inputs with
  | [] => (st, .error .runtimeError)
  | (_, first, _) :: _ =>
    match updateShape S st first with
    | (st, .error x) => (st, .error x)
    | (st, .ok changed) =>
      let cache := if changed = true ∨ st.cache = [] then refreshed S st.se else st.cache
      match copySources S.eng (c.inputs.map fun x => (x.1, x.2.2)) (st.mem, st.dyn) with
      | ((mem, dyn), some x) => ({ st with cache := cache, mem := mem, dyn := dyn }, .error x)
      | ((mem, dyn), none) => callRun S { st with cache := cache, mem := mem, dyn := dyn } changed c.crash

end OnnxTool.Infer
