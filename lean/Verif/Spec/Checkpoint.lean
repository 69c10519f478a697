import Verif.Model.Checkpoint
import Verif.Spec.Builder
/-!
# What it means to load a checkpoint

The tensors of a Qwen-style checkpoint as published (PyTorch layout: a projection is stored output features × input features), and what
the engine should know about a model after reading it.  Nothing here refers to how shapes are filled in.
-/
namespace OnnxTool.Checkpoint
open OnnxTool OnnxTool.Builder

/-- `x` is first read by a node with operator `op` -/
def FirstReader (g : Loaded) (x op : String) : Prop :=
  ∃ before ins after, g.nodes = before ++ (op, ins) :: after ∧ x ∈ ins ∧ ∀ n ∈ before, x ∉ n.2

/-- `x` is read by no node -/
def Unread (g : Loaded) (x : String) : Prop := ∀ n ∈ g.nodes, x ∉ n.2

/-- the checkpoint entry a tensor stands for: the one of its own name or else the one the name map gives -/
def EntryOf (ck : Dict (List Nat)) (map : Dict String) (x : String) (sh : List Nat) : Prop :=
  ck.get? x = some sh ∨ (ck.get? x = none ∧ ∃ y, map.get? x = some y ∧ ck.get? y = some sh)

/-- a tensor whose shape is looked for: unknown so far, not fed at run time, not an output -/
def Wanted (g : Loaded) (x : String) : Prop := g.tensors.get? x = some [] ∧ x ∉ g.fed ∧ x ∉ g.outputs

/-- rows and columns exchanged -/
def swapped : List Nat → List Nat
  | [n, k] => [k, n]
  | s => s

/-- Decoders of the Qwen family: separate projections (with or without bias on query, key and value), optional query/key norms, gated
feed-forward block, scale-only norms. -/
structure QwenLike (c : Cfg) : Prop where
  fuseQkv : c.fuseQkv = false
  qkvGated : c.qkvGated = false
  isMla : c.isMla = false
  isMoe : c.isMoe = false
  phi3 : c.phi3 = false
  mlpGate : c.mlpGate = true
  posEmbedding : c.posEmbedding = false
  softcap : c.softcap = false
  postAttnNorm : c.postAttnNorm = false
  postMlpNorm : c.postMlpNorm = false
  normScale : c.normScale = true
  normBias : c.normBias = false
  oBias : c.oBias = false
  mlpBias : c.mlpBias = false
  lmHeadBias : c.lmHeadBias = false
  attention : ∀ i < c.layers, ¬ linearLayer c i

/-- entries of layer `i`, as stored -/
def layerEntries (c : Cfg) (i : Nat) : List (String × List Nat) :=
  let p := "model.layers." ++ toString i ++ "."
  let q := c.heads * c.headSize
  let kv := c.kvHeads * c.headSize
  [(p ++ "input_layernorm.weight", [c.hidden]),
   (p ++ "self_attn.q_proj.weight", [q, c.hidden]),
   (p ++ "self_attn.k_proj.weight", [kv, c.hidden]),
   (p ++ "self_attn.v_proj.weight", [kv, c.hidden]),
   (p ++ "self_attn.o_proj.weight", [c.hidden, q]),
   (p ++ "post_attention_layernorm.weight", [c.hidden]),
   (p ++ "mlp.gate_proj.weight", [c.inter, c.hidden]),
   (p ++ "mlp.up_proj.weight", [c.inter, c.hidden]),
   (p ++ "mlp.down_proj.weight", [c.hidden, c.inter])] ++
  (if c.qkvBias then
    [(p ++ "self_attn.q_proj.bias", [q]), (p ++ "self_attn.k_proj.bias", [kv]), (p ++ "self_attn.v_proj.bias", [kv])] else []) ++
  (if c.qkNorm then [(p ++ "self_attn.q_norm.weight", [c.headSize]), (p ++ "self_attn.k_norm.weight", [c.headSize])] else [])

/-- the entries of a checkpoint; with tied embeddings the head is not stored -/
def entries (c : Cfg) (tied : Bool) : List (String × List Nat) :=
  [("model.embed_tokens.weight", [c.vocab, c.hidden]), ("model.norm.weight", [c.hidden])] ++
  (if tied then [] else [("lm_head.weight", [c.vocab, c.hidden])]) ++ (List.range c.layers).flatMap (layerEntries c)

/-- A checkpoint of this configuration: it has every entry, with its shape, and no others. -/
def IsCheckpoint (c : Cfg) (tied : Bool) (ck : Dict (List Nat)) : Prop :=
  (∀ e ∈ entries c tied, ck.get? e.1 = some e.2) ∧ ∀ k sh, ck.get? k = some sh → (k, sh) ∈ entries c tied

/-- The model as loaded from the file the builder wrote: the same nodes, possibly in another order; the tensors of the built graph under
the same names; no shape for the weights and the intermediate results; the inputs are fed. -/
structure FromFile (s : St) (g : Loaded) : Prop where
  nodes : g.nodes.Perm (s.nodes.map fun n => (n.2.op, n.2.input))
  weights : ∀ x ∈ s.initials, x ≠ "rope.cos" → x ≠ "rope.sin" → g.tensors.get? x = some []
  fed : ∀ x, x ∈ g.fed ↔ x ∈ s.input
  outputs : g.outputs = s.output
  names : g.tensors.keys.Nodup

end OnnxTool.Checkpoint
