import Verif.Spec.Infer
import Verif.Spec.InferState
/-!
# Reference meaning of a session: a graph run call after call with a cache of its own

Every tensor has its own storage.  A node may update one of its inputs in place (the attention nodes append to `kv_cache`); the
contents of `kv_cache` are carried from one call to the next.
-/
namespace OnnxTool.Infer
open OnnxTool

/-- the names of the inputs a node updates in place, given their positions -/
def updNames (upd : Node → List Nat) (n : Node) : List String := (upd n).map fun i => n.input.getD i ""

/-- Execute one node: bind its outputs and the inputs it updates; the meaning `sem` gives the outputs first, then the new contents. -/
def refStepIn (sem : Sem) (upd : Node → List Nat) (env : Env) (n : Node) : Env := fun t =>
  match assigned (n.output ++ updNames upd n) (sem n (n.input.map env)) t with
  | some v => some v
  | none => env t

/-- Execute nodes in order. -/
def refRunIn (sem : Sem) (upd : Node → List Nat) (ns : List Node) (env : Env) : Env := ns.foldl (refStepIn sem upd) env

/-- A kernel computes `f`, updating the arguments at positions `pos` in place: whenever its output buffers and the updated buffers are
pairwise disjoint, disjoint from the other input buffers and of the right sizes, it succeeds, changes nothing else and leaves `f` of the
original inputs in them.  Nothing is promised when buffers overlap. -/
def Updates (k : Kernel) (pos : List Nat) (f : List (Option Bytes) → List Bytes) : Prop :=
  ∀ (args : List Arg) (outs ups : List (Nat × Nat)) (mem : Mem),
    pos.map (fun i => args[i]?) = ups.map (fun v => some (Arg.view v)) →
    (outs ++ ups).Pairwise DisjointRanges →
    (∀ (i : Nat) (v : Nat × Nat), args[i]? = some (.view v) → i ∉ pos → ∀ o ∈ outs ++ ups, DisjointRanges v o) →
    (f (args.map (content mem))).map List.length = (outs ++ ups).map (·.2) →
    ∃ mem', k args outs mem = .ok mem' ∧
      (∀ a, (∀ o ∈ outs ++ ups, a < o.1 ∨ o.1 + o.2 ≤ a) → mem' a = mem a) ∧
      (outs ++ ups).map (readView mem') = f (args.map (content mem))

/-- What is carried from call to call: the contents of `kv_cache`, and the inputs kept outside the pool. -/
structure Session where
  kv : Bytes
  dyn : Dict Bytes

/-- The contents before the first node of a call: constants, the caller's tensors, the cache from the previous call, and for other
tensors outside the pool what an earlier call supplied. -/
def startEnvKv (e : Engine) (s : Session) (inputs : List (String × Bytes)) : Env := fun t =>
  match e.consts.get? t with
  | some c => some c
  | none =>
    match Dict.get? inputs t with
    | some b => some b
    | none => if t = "kv_cache" then some s.kv else if (e.views.get? t).isSome then none else s.dyn.get? t

/-- The contents of all tensors after a call. -/
def refCall (e : Engine) (sem : Sem) (upd : Node → List Nat) (s : Session) (inputs : List (String × Bytes)) : Env :=
  refRunIn sem upd e.nodes (startEnvKv e s inputs)

/-- The session after a call. -/
def Session.next (e : Engine) (sem : Sem) (upd : Node → List Nat) (s : Session) (inputs : List (String × Bytes)) : Session where
  kv := (refCall e sem upd s inputs "kv_cache").getD []
  dyn := (inputs.filter fun x => (e.views.get? x.1).isNone).foldl (fun d x => d.set x.1 x.2) s.dyn

/-- The session after a list of calls. -/
def Session.after (e : Engine) (sem : Sem) (upd : Node → List Nat) (s : Session) (h : List (List (String × Bytes))) : Session :=
  h.foldl (fun s i => s.next e sem upd i) s

end OnnxTool.Infer
