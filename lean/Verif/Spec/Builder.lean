import Verif.Model.Builder
import Verif.Spec.Broadcast
/-!
# What a graph built from a configuration should be

A valid graph, consistent declared shapes, and the number of parameters of the architecture.  Nothing here refers to how the graph is
built.
-/
namespace OnnxTool.Builder
open OnnxTool

/-- A graph that can be run as it is. -/
structure Valid (s : St) : Prop where
  /-- every operand is a graph input, an initializer or the result of an earlier node -/
  ordered : ∀ (k : Nat) (name : String) (n : BNode), s.nodes[k]? = some (name, n) → ∀ x ∈ n.input,
    x ∈ s.input ∨ x ∈ s.initials ∨ ∃ (j : Nat) (m : String × BNode), j < k ∧ s.nodes[j]? = some m ∧ x ∈ m.2.output
  /-- no name is used for two tensors -/
  distinct : (s.input ++ s.initials ++ s.nodes.flatMap (·.2.output)).Nodup
  /-- node names are distinct -/
  names : (s.nodes.map (·.1)).Nodup
  /-- every initializer is read -/
  used : ∀ x ∈ s.initials, ∃ n ∈ s.nodes, x ∈ n.2.input
  /-- initializers are recorded as static, all other tensors as dynamic -/
  statics : ∀ x ∈ s.initials, ∃ sh, s.tensors.get? x = some (true, sh)
  dynamics : ∀ x ∈ s.input ++ s.nodes.flatMap (·.2.output), ∃ sh, s.tensors.get? x = some (false, sh)
  /-- the graph output is the result of the last node -/
  output : ∃ n, s.nodes.getLast? = some n ∧ s.output = n.2.output

/-- Result shape of an operator from its operand shapes, `none` when they do not fit together. -/
def opRule (c : Cfg) (op : String) (slice : Option (Nat × Nat)) (ins : List (List Nat)) : Option (List Nat) :=
  if op = "Gather" then
    match ins with
    | [[_, h], [b, s]] => some [b, s, h]
    | _ => none
  else if op = "LayerNormalization" then
    match ins with
    | x :: ws => if ws.all (fun w => w.length = 1 && w.getD 0 0 ∣ x.getD (x.length - 1) 0) then some x else none
    | _ => none
  else if op = "Silu" ∨ op = "Gelu" then
    match ins with
    | [x] => some x
    | _ => none
  else if op = "GeGelu" then
    match ins with
    | [[b, s, d]] => if 2 ∣ d then some [b, s, d / 2] else none
    | _ => none
  else if op = "Rope" then
    match ins with
    | [x, cos, sin, [_, _]] => if cos = sin then some x else none
    | _ => none
  else if op = "Add" ∨ op = "Mul" then
    match ins with
    | [a, b] => if a = b then some a else none
    | _ => none
  else if op = "MatMul" then
    match ins with
    | [b, s, k] :: [k', n] :: bias => if k = k' ∧ (bias = [] ∨ bias = [[n]]) then some [b, s, n] else none
    | _ => none
  else if op = "Slice" then
    match ins, slice with
    | [b, s, d] :: _, some (off, size) => if off + size ≤ d then some [b, s, size] else none
    | _, _ => none
  else if op = "SDPA" then
    match ins with
    | [[b, s, q], [b1, s1, k], [b2, s2, v]] =>
      if b1 = b ∧ b2 = b ∧ s1 = s ∧ s2 = s ∧ q = c.heads * c.headSize ∧ k = c.kvHeads * c.headSize ∧ v = k then some [b, s, q] else none
    | _ => none
  else if op = "MoE" ∨ op = "MLA" then
    match ins with
    | [b, s, h] :: _ => if h = c.hidden then some [b, s, h] else none
    | _ => none
  else if op = "GDN" then
    match ins with
    | [[b, s, q], [b1, s1, k], [b2, s2, _]] =>
      if b1 = b ∧ b2 = b ∧ s1 = s ∧ s2 = s ∧ q = k then some [b, s, c.hidden] else none
    | _ => none
  else if op = "LogitSoftCapping" then
    match ins with
    | [x, []] => some x
    | _ => none
  else none

/-- The declared shape of a tensor of the graph. -/
def St.shape (s : St) (x : String) : List Nat := ((s.tensors.get? x).map (·.2)).getD []

/-- Every node's declared result shape is what its operator gives on the declared operand shapes. -/
def ShapesConsistent (c : Cfg) (s : St) : Prop :=
  ∀ n ∈ s.nodes, ∃ o, n.2.output = [o] ∧ opRule c n.2.op n.2.slice (n.2.input.map s.shape) = some (s.shape o)

/-! ### Number of parameters -/

/-- a projection: weight matrix and bias -/
def linear (fin fout : Nat) (bias : Bool) : Nat := fin * fout + if bias then fout else 0

/-- a normalisation layer over the hidden size -/
def norm (c : Cfg) : Nat := if c.normScale then c.hidden + (if c.normBias then c.hidden else 0) else 0

/-- query, key and value projections, slice bounds (four numbers per slice), key/query norms, output projection -/
def attnParams (c : Cfg) : Nat :=
  let q := c.heads * c.headSize
  let kv := c.kvHeads * c.headSize
  (if c.qkvGated then linear c.hidden (q * 2) c.qkvBias + 2 * linear c.hidden kv c.qkvBias + 2 * 4
   else if c.fuseQkv then linear c.hidden (q + kv + kv) c.qkvBias + 3 * 4
   else linear c.hidden q c.qkvBias + 2 * linear c.hidden kv c.qkvBias) +
  (if c.qkNorm then 2 * c.headSize else 0) + linear q c.hidden c.oBias

/-- gated delta net: query/key and value projections and two norms -/
def gdnParams (c : Cfg) : Nat :=
  2 * linear c.hidden (c.gdnQkHeads * c.gdnQkDim) c.qkvBias + linear c.hidden (c.gdnVHeads * c.gdnVDim) c.qkvBias + 2 * c.headSize

/-- multi-head latent attention: low-rank query, joint key/value, grouped low-rank output -/
def mlaParams (c : Cfg) : Nat :=
  c.qLora * c.hidden + c.qLora + c.heads * c.headSize * c.qLora + c.headSize * c.hidden + c.headSize +
  c.oGroups * c.oLora * (c.heads * c.headSize / c.oGroups) + c.hidden * (c.oGroups * c.oLora)

/-- feed-forward block -/
def mlpParams (c : Cfg) : Nat :=
  if c.phi3 then linear c.hidden (c.inter * 2) c.mlpBias + linear c.inter c.hidden c.mlpBias
  else (if c.mlpGate then 2 else 1) * linear c.hidden c.inter c.mlpBias + linear c.inter c.hidden c.mlpBias

/-- mixture of experts: router, routed experts (three matrices each), shared expert, its gate -/
def moeParams (c : Cfg) : Nat :=
  c.hidden * c.numExperts + c.numExperts * (3 * (c.moeInter * c.hidden)) +
  (if c.noSharedExpert then 0 else 3 * (c.sharedInter * c.hidden) + if c.noSharedGate then 0 else c.hidden)

/-- layer `i` is a linear-attention layer -/
def linearLayer (c : Cfg) (i : Nat) : Prop := c.layerTypes[i]? = some "linear_attention"

instance (c : Cfg) (i : Nat) : Decidable (linearLayer c i) := by unfold linearLayer; infer_instance

/-- one layer -/
def layerParams (c : Cfg) (i : Nat) : Nat :=
  (if linearLayer c i then gdnParams c else if c.isMla then mlaParams c else attnParams c) +
  (if c.isMoe then moeParams c else mlpParams c) +
  (2 + (if c.postAttnNorm then 1 else 0) + (if c.postMlpNorm then 1 else 0)) * norm c

/-- layer `i` rotates queries and keys -/
def ropeLayer (c : Cfg) (i : Nat) : Prop := c.qkRope = true ∧ c.isMla = false ∧ ¬ linearLayer c i

instance (c : Cfg) (i : Nat) : Decidable (ropeLayer c i) := by unfold ropeLayer; infer_instance

/-- Elements of all initializers: embeddings, layers, head, the tables of the rotary embedding (once, if any layer uses it). -/
def params (c : Cfg) : Nat :=
  c.vocab * c.hidden + (if c.posEmbedding then c.nPositions * c.hidden else 0) +
  ((List.range c.layers).map (layerParams c)).sum + norm c + linear c.hidden c.vocab c.lmHeadBias + (if c.softcap then 1 else 0) +
  (if ∃ i ∈ List.range c.layers, ropeLayer c i then 2 * (c.maxPos * (c.rotaryDim / 2)) else 0)

/-! ### Conditions -/

/-- The configuration has what the methods look up. -/
structure CfgOk (c : Cfg) (w : WMap) : Prop where
  eps : c.rmsEps = true ∨ c.lnEps = true
  qkEps : c.qkNorm = true ∨ (∃ i ∈ List.range c.layers, linearLayer c i) → c.rmsEps = true
  act : c.isMoe = true ∨ c.phi3 = true ∨ c.act = "silu" ∨ c.act = "gelu_new"
  groups : c.isMla = true → 0 < c.oGroups
  pos : c.posEmbedding = true → w.pos.isSome

/-- The names a layer gives to its parts, before the layer prefix; the norm after attention only counts if there is one. -/
def localNames (c : Cfg) (w : WMap) : List String :=
  [w.inputNorm, w.qkv, w.q, w.k, w.v, "q.slice", "k.slice", "v.slice", "gate.slice", "self_attn.q_norm", "self_attn.k_norm",
   "rope_q", "rope_k", "mha", "attn_gate.act", "attn.gated", w.o, "gdn", "wq_a", "q_norm", "wq_b", "wkv", "kv_norm", "wo_a", "wo_b", "mla"] ++
  (if c.postAttnNorm then [w.outputNorm] else []) ++
  ["attention_add", w.mlpInputNorm, w.gateUp, w.up, w.gate, "mlp.activation", "mlp.gate_mul", w.down,
   "moe.router", "moe.experts.gate", "moe.experts.up", "moe.experts.down", "moe.shared.gate", "moe.shared.up", "moe.shared.down",
   "moe.shared_gate", "moe", w.mlpOutputNorm, "mlp_add"]

/-- The names of the parts outside the layers. -/
def globalNames (w : WMap) : List String :=
  [w.embed] ++ w.pos.toList ++ ["embedding_pos_add", w.lmNorm, w.lm, "models.final_logit_softcapping"]

/-- The weight map gives different names to different parts. -/
structure NamesOk (c : Cfg) (w : WMap) : Prop where
  locals : (localNames c w).Nodup
  globals : (globalNames w).Nodup
  apart : ∀ g ∈ globalNames w, ¬ w.layerPrefix.toList <+: g.toList

end OnnxTool.Builder
