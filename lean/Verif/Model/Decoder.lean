import Verif.Model.Sdpa
import Verif.Model.Generate
/-!
# A decoder graph run by the engine, token chunk by token chunk

The graphs `Builder` makes (`/repo/onnx_tool/llm.py`) consist of an embedding lookup, operators that treat every position on its own
(normalisation, projections by a weight, activations, additions, rotary embedding) and attention nodes (`SDPA`) with the shared cache.
This is one call of `forward` on such a graph at the level of values: the memory pool is the subject of C46 and C52.  Simplifications:
one result per node; a node refers to its inputs by the index of the node that produces them; a position-wise operator is any function of
the position and the rows at that position; attention is `Sdpa.run3`/`Sdpa.runPlain`; all attention nodes have the same sizes; an element
outside the columns of an attention result is 0.
-/
namespace OnnxTool.Decoder
open OnnxTool OnnxTool.Sdpa OnnxTool.Generate

variable {F : Type} [Field F]

/-- The kinds of nodes: `Gather` on the embedding table (`llm.py` `add_embedding`), position-wise operators, attention. -/
inductive Op (F : Type) where
  | embed (table : Nat → Nat → F)
  | rowwise (f : Nat → List (Nat → F) → Nat → F) (inputs : List Nat)
  | attn (layer q k v : Nat)

/-- The numbers that do not change between calls: attention sizes, exponential and scale. -/
structure Consts (F : Type) where
  cf : Cfg
  ex : F → F
  scale : F

/-- the result of node `i` -/
def val (vals : List (T3 F)) (i : Nat) : T3 F := vals.getD i (fun _ _ _ => 0)

/-- the elements of an attention result -/
def clip (cf : Cfg) (x : T3 F) : T3 F := fun b s c => if c < cf.heads * cf.hd then x b s c else 0

/-- One node of a call with the tokens `ids` at the positions `pos`: with a cache (`some n`: `n_past = n`) or without. -/
def runOp (C : Consts F) (ids pos : List Nat) (past : Option Nat) (vals : List (T3 F)) (cache : Cache F) :
    Op F → Except PyErr (T3 F × Cache F)
  | .embed table => .ok (fun _ s c => table (ids.getD s 0) c, cache)
  | .rowwise f inputs => .ok (fun b s c => f (pos.getD s 0) (inputs.map fun i => val vals i b s) c, cache)
  | .attn layer q k v =>
    match past with
    | some n =>
      match run3 C.cf C.ex C.scale layer n ids.length (val vals q) (val vals k) (val vals v) cache with
      | .error e => .error e
      | .ok (cache', out) => .ok (clip C.cf out, cache')
    | none =>
      match runPlain C.cf C.ex C.scale ids.length (val vals q) (val vals k) (val vals v) with
      | .error e => .error e
      | .ok out => .ok (clip C.cf out, cache)

/-- All nodes in order. -/
def runOps (C : Consts F) (ids pos : List Nat) (past : Option Nat) : List (Op F) → List (T3 F) → Cache F → Except PyErr (List (T3 F) × Cache F)
  | [], vals, cache => .ok (vals, cache)
  | o :: os, vals, cache =>
    match runOp C ids pos past vals cache o with
    | .error e => .error e
    | .ok (x, cache') => runOps C ids pos past os (vals ++ [x]) cache'

/-- the integers of the feed -/
def rowOf (f : Feed) (t : String) : List Nat := match f.get? t with | some (.row l) => l | _ => []
def scalarOf (f : Feed) (t : String) : Nat := match f.get? t with | some (.scalar n) => n | _ => 0

/-- The cache a call starts with: zeros if the caller feeds zeros (`llm_infer.py` prefill), else what is in the pool. -/
def startCache (feed : Feed) (cache : Cache F) : Cache F :=
  if feed.get? "kv_cache" = some .zeros then fun _ _ _ _ => 0 else cache

/-- The graph with a cache as an engine for `generate`: the result of the last node at the last position (`logits[0, -1, :]`). -/
def cachedEngine (C : Consts F) (ops : List (Op F)) : Eng (Nat → F) where
  St := Cache F
  forward cache feed :=
    match runOps C (rowOf feed "ids") (rowOf feed "position") (some (scalarOf feed "n_past")) ops []
        (startCache feed cache) with
    | .error e => .error e
    | .ok (vals, cache') => .ok (val vals (ops.length - 1) 0 ((rowOf feed "ids").length - 1), cache')

/-- Consecutive calls on the graph with a cache, one per chunk of tokens, each told how many tokens came before: the logits of each call
(the calls `generate` and a serving loop make, `llm_infer.py` 206-262). -/
def chunked (C : Consts F) (ops : List (Op F)) : Nat → Cache F → List (List Nat) → Except PyErr (List (Nat → F))
  | _, _, [] => .ok []
  | n, cache, ids :: rest =>
    match runOps C ids ((List.range ids.length).map (n + ·)) (some n) ops [] cache with
    | .error e => .error e
    | .ok (vals, cache') =>
      match chunked C ops (n + ids.length) cache' rest with
      | .error e => .error e
      | .ok out => .ok (val vals (ops.length - 1) 0 (ids.length - 1) :: out)

/-- The graph without a cache. -/
def plainEngine (C : Consts F) (ops : List (Op F)) : Eng (Nat → F) where
  St := Unit
  forward _ feed :=
    match runOps C (rowOf feed "ids") (rowOf feed "position") none ops [] (fun _ _ _ _ => 0) with
    | .error e => .error e
    | .ok (vals, _) => .ok (val vals (ops.length - 1) 0 ((rowOf feed "ids").length - 1), ())

end OnnxTool.Decoder
