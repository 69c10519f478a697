import Verif.Spec.Builder
/-!
# The cost of running a decoder

Closed forms for a decoder whose layers all have ordinary attention (dense or mixture-of-experts feed-forward blocks): multiplications and
additions, elements written, weights and cached keys/values read, for `batch * seq` new tokens of which each sequence has `keys` positions to
attend to.  One exponential is counted as 32 operations, a sine or cosine as 39, a square root as 24, a division as 4.
-/
namespace OnnxTool.LlmCost
open OnnxTool OnnxTool.Builder

/-- every layer has ordinary attention -/
def Standard (c : Cfg) : Prop := c.isMla = false ∧ ∀ i ∈ List.range c.layers, ¬ linearLayer c i

/-- new tokens -/
def tokens (c : Cfg) : Nat := c.batch * c.seq

/-- rows of queries and of keys -/
def qDim (c : Cfg) : Nat := c.heads * c.headSize
def kvDim (c : Cfg) : Nat := c.kvHeads * c.headSize

/-- elements of the projection weights (with biases) of the attention block of one layer -/
def attnWeights (c : Cfg) : Nat :=
  (if c.qkvGated then linear c.hidden (qDim c * 2) c.qkvBias + 2 * linear c.hidden (kvDim c) c.qkvBias
   else if c.fuseQkv then linear c.hidden (qDim c + kvDim c + kvDim c) c.qkvBias
   else linear c.hidden (qDim c) c.qkvBias + 2 * linear c.hidden (kvDim c) c.qkvBias) + linear (qDim c) c.hidden c.oBias

/-- elements of the weights used by matrix products of one layer, without experts -/
def layerWeights (c : Cfg) : Nat := attnWeights c + if c.isMoe then 0 else mlpParams c

/-- elements of all matrix-product weights: layers and output head -/
def matmulWeights (c : Cfg) : Nat := c.layers * layerWeights c + linear c.hidden c.vocab c.lmHeadBias

/-- one normalisation of `d` elements: seven operations per element, an addition, a root and a division per row -/
def normOps (d : Nat) : Nat := 7 * d + 29

/-- one activation -/
def actOps (c : Cfg) : Nat := if c.phi3 then 34 else if c.act = "silu" then 33 else 34

/-- pointwise operations of a dense feed-forward block per token: activation, and the product with the gate -/
def mlpOps (c : Cfg) : Nat := c.inter * actOps c + if !c.phi3 && c.mlpGate then c.inter else 0

/-- a mixture-of-experts block per token: router, `k` experts of three matrices with activation and product, the shared expert, its gate, the sum -/
def moeOps (c : Cfg) (k : Nat) : Nat :=
  c.hidden * c.numExperts + k * (3 * (c.moeInter * c.hidden) + 34 * c.moeInter) +
  (if c.noSharedExpert then 0 else 3 * (c.sharedInter * c.hidden) + 34 * c.sharedInter) + (if c.noSharedGate then 0 else 33 * c.hidden) + c.hidden

/-- operations of one layer per token that do not depend on the number of keys, apart from matrix products -/
def layerOps (c : Cfg) (k : Nat) : Nat :=
  (2 + (if c.postAttnNorm then 1 else 0) + (if c.postMlpNorm then 1 else 0)) * normOps c.hidden +
  (if c.qkNorm then normOps (qDim c) + normOps (kvDim c) else 0) + (if c.qkRope then 80 * (qDim c + kvDim c) else 0) +
  (if c.qkvGated then 34 * qDim c else 0) + (if c.isMoe then moeOps c k else mlpOps c) + 2 * c.hidden

/-- scores, softmax and weighted sum of one layer -/
def attentionOps (c : Cfg) (keys : Nat) : Nat := c.batch * c.heads * c.seq * keys * (2 * c.headSize + 36)

/-- all operations -/
def macs (c : Cfg) (k keys : Nat) : Nat :=
  tokens c * matmulWeights c + c.layers * attentionOps c keys +
  tokens c * (c.layers * layerOps c k + normOps c.hidden + (if c.posEmbedding then c.hidden else 0) + (if c.softcap then 43 * c.vocab else 0))

/-- elements of cached keys and values read -/
def cached (c : Cfg) (keys : Nat) : Nat := c.layers * (c.batch * keys * (kvDim c * 2))

/-- expert weights read: the router, the experts selected (each at most once), the shared expert -/
def moeRead (c : Cfg) (k : Nat) : Nat :=
  c.hidden * c.numExperts + min (tokens c * k) c.numExperts * (3 * (c.moeInter * c.hidden)) + if c.noSharedExpert then 0 else 3 * (c.sharedInter * c.hidden)

/-- elements of weights read by matrix products, embeddings (one row per token) and experts -/
def weightsRead (c : Cfg) (k : Nat) : Nat :=
  matmulWeights c + (if c.isMoe then c.layers * moeRead c k else 0) + (if c.posEmbedding then 2 else 1) * (tokens c * c.hidden)

/-- elements of all other constants read: norms, slice bounds, rows of the two rotary tables for queries and for keys -/
def othersRead (c : Cfg) : Nat :=
  c.layers * ((2 + (if c.postAttnNorm then 1 else 0) + (if c.postMlpNorm then 1 else 0)) * norm c +
    (if c.qkNorm then 2 * c.headSize else 0) + (if c.qkvGated then 2 * 4 else if c.fuseQkv then 3 * 4 else 0) +
    (if c.qkRope then 4 * (min c.seq c.maxPos * (c.rotaryDim / 2)) else 0)) + norm c

/-- elements written per token by one layer: every intermediate tensor once (a mixture-of-experts block counts its operand and its result) -/
def layerWritten (c : Cfg) : Nat :=
  (2 + (if c.postAttnNorm then 1 else 0) + (if c.postMlpNorm then 1 else 0)) * c.hidden +
  (if c.qkvGated then 4 * qDim c + 2 * kvDim c else (if c.fuseQkv then 2 else 1) * (qDim c + 2 * kvDim c)) +
  (if c.qkNorm then qDim c + kvDim c else 0) + (if c.qkRope then qDim c + kvDim c else 0) + qDim c + (if c.qkvGated then 2 * qDim c else 0) + c.hidden +
  (if c.isMoe then 2 * c.hidden else (if c.phi3 then 3 else if c.mlpGate then 4 else 2) * c.inter + c.hidden) + 2 * c.hidden

/-- elements of all activations written -/
def written (c : Cfg) : Nat :=
  tokens c * (c.layers * layerWritten c + (if c.posEmbedding then 3 else 1) * c.hidden + c.hidden + (if c.softcap then 2 else 1) * c.vocab)

end OnnxTool.LlmCost
