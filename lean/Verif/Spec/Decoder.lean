import Verif.Model.Decoder
import Verif.Spec.Sdpa
/-!
# The language model a decoder graph stands for

Every value of every position is defined by itself, from the whole token sequence, with no engine, call or cache.
-/
namespace OnnxTool.Decoder
open OnnxTool OnnxTool.Sdpa

variable {F : Type} [Field F]

/-- The rows of one node for the whole sequence `ts`, given those of the nodes before it. -/
noncomputable def fullOp (C : Consts F) (ts : List Nat) (vals : List (T3 F)) : Op F → T3 F
  | .embed table => fun _ p c => table (ts.getD p 0) c
  | .rowwise f inputs => fun b p c => f p (inputs.map fun i => val vals i b p) c
  | .attn _ q k v => fun b p c =>
      if c < C.cf.heads * C.cf.hd then
        causal C.cf.heads C.cf.kvHeads C.cf.hd C.ex C.scale
          ((List.range ts.length).map fun j =>
            ⟨fun b c => val vals q b j c, fun b c => val vals k b j c, fun b c => val vals v b j c⟩)
          b p (c / C.cf.hd) (c % C.cf.hd)
      else 0

/-- The rows of all nodes. -/
noncomputable def full (C : Consts F) (ts : List Nat) (ops : List (Op F)) : List (T3 F) :=
  ops.foldl (fun vals o => vals ++ [fullOp C ts vals o]) []

/-- The logits after the tokens `ts`: the last node at the last position. -/
noncomputable def lm (C : Consts F) (ops : List (Op F)) (ts : List Nat) : Nat → F :=
  val (full C ts ops) (ops.length - 1) 0 (ts.length - 1)

/-- A well-formed decoder graph: inputs come from earlier nodes, every attention node has a layer of its own, the head sizes fit. -/
structure WellFormed (C : Consts F) (ops : List (Op F)) : Prop where
  inputs : ∀ (i : Nat) (o : Op F), ops[i]? = some o → match o with
    | .embed _ => True
    | .rowwise _ l => ∀ j ∈ l, j < i
    | .attn layer q k v => layer < C.cf.layers ∧ q < i ∧ k < i ∧ v < i
  layers : ∀ (i j : Nat) l q k v q' k' v', ops[i]? = some (.attn l q k v) → ops[j]? = some (.attn l q' k' v') → i = j
  shapes : C.cf.shapesOk = true
  cols : C.cf.kvCols ≤ C.cf.cacheCols

end OnnxTool.Decoder
