import Verif.Spec.LlmCost
/-!
# The cost of running a decoder with any mixture of layers

Ordinary attention, multi-head latent attention and gated delta nets.  Counting as in `Spec/LlmCost`; a comparison is one operation.  `rd`, `win`,
`cr`, `ih`, `id`, `it` are the rotated dimensions, the window, the compression ratio, heads and size of the indexer and its number of selected blocks.
-/
namespace OnnxTool.LlmCost
open OnnxTool OnnxTool.Builder

/-- what a latent-attention block has beyond the configuration -/
structure Latent where
  rd : Nat
  win : Nat
  cr : Nat
  ih : Nat
  id : Nat
  it : Nat

/-- blocks of `cr` tokens in a sequence -/
def blocks (l : Latent) (seq : Nat) : Nat := seq / l.cr

/-- positions a query attends to: all, or the window, every block and the selected blocks -/
def positions (l : Latent) (seq : Nat) : Nat :=
  if l.cr = 0 then seq else min l.win seq + blocks l seq + min l.it (blocks l seq)

/-- low-rank query: down, norm, up, norm of every head -/
def latentQuery (c : Cfg) : Nat := c.hidden * c.qLora + 32 * c.qLora + c.qLora * qDim c + 31 * qDim c

/-- joint key and value, and its norm -/
def latentKv (c : Cfg) : Nat := c.hidden * c.headSize + 32 * c.headSize

/-- compression of one block of `cr` tokens to one of size `d`: softmax and weighted sum over the tokens, norm, rotation -/
def compressBlock (l : Latent) (d : Nat) : Nat := l.cr * (38 * d) + 32 * d + 80 * l.rd

/-- the indexer per token: its keys and gates, queries with rotation, weights of the heads, scores of all blocks and their selection -/
def indexToken (c : Cfg) (l : Latent) : Nat :=
  2 * (c.hidden * l.id) + c.qLora * (l.ih * l.id) + 80 * (l.ih * l.rd) + c.hidden * l.ih +
  blocks l c.seq * (l.ih * (l.id + 2)) + blocks l c.seq * Nat.log2 (blocks l c.seq)

/-- grouped low-rank output -/
def latentOut (c : Cfg) : Nat :=
  c.oGroups * c.oLora * (c.heads * c.headSize / c.oGroups) + c.oGroups * c.oLora * c.hidden

/-- a latent-attention block -/
def latentMacs (c : Cfg) (l : Latent) : Nat :=
  tokens c * (latentQuery c + latentKv c + 80 * ((c.heads + 1) * l.rd) + c.heads * (positions l c.seq * (2 * c.headSize + 36)) + latentOut c) +
  (if l.cr = 0 then 0 else tokens c * (c.hidden * c.headSize) + c.batch * (blocks l c.seq * compressBlock l c.headSize)) +
  (if l.cr = 4 then tokens c * indexToken c l + c.batch * (blocks l c.seq * compressBlock l l.id) else 0)

/-- rows of queries (and keys) and of values of a gated delta net -/
def netQ (c : Cfg) : Nat := c.gdnQkHeads * c.gdnQkDim
def netV (c : Cfg) : Nat := c.gdnVHeads * c.gdnVDim

/-- elements of its projection weights -/
def netWeights (c : Cfg) : Nat := 2 * linear c.hidden (netQ c) c.qkvBias + linear c.hidden (netV c) c.qkvBias

/-- the operations of the fused node: projections (without biases), norms and convolutions of queries and keys, scores and weighted sum over the
whole sequence, gate, output -/
def netNode (c : Cfg) (conv : Nat) : Nat :=
  tokens c * (c.hidden * (2 * netQ c + netV c) + 2 * netQ c + 2 * (netQ c * conv) + c.seq * (netQ c + netV c) + 33 * c.hidden + netV c * c.hidden)

/-- the token mixer of layer `i`: all operations -/
def mixMacs (c : Cfg) (l : Latent) (conv keys i : Nat) : Nat :=
  if linearLayer c i then tokens c * (netWeights c + 2 * normOps (netQ c)) + netNode c conv
  else if c.isMla then latentMacs c l
  else tokens c * (attnWeights c + (if c.qkNorm then normOps (qDim c) + normOps (kvDim c) else 0) + (if c.qkRope then 80 * (qDim c + kvDim c) else 0) +
    (if c.qkvGated then 34 * qDim c else 0)) + attentionOps c keys

/-- elements of the weights in its matrix-product nodes -/
def mixProducts (c : Cfg) (i : Nat) : Nat := if linearLayer c i then netWeights c else if c.isMla then 0 else attnWeights c

/-- elements of weights it reads: all of its weights, whatever the length of the sequence -/
def mixRead (c : Cfg) (i : Nat) : Nat := if linearLayer c i then netWeights c else if c.isMla then mlaParams c else attnWeights c

/-- other constants -/
def mixOthers (c : Cfg) (i : Nat) : Nat :=
  if linearLayer c i then 2 * c.headSize
  else if c.isMla then 0
  else (if c.qkNorm then 2 * c.headSize else 0) + (if c.qkvGated then 2 * 4 else if c.fuseQkv then 3 * 4 else 0) +
    (if c.qkRope then 4 * (min c.seq c.maxPos * (c.rotaryDim / 2)) else 0)

/-- elements written per token; fused blocks count operand and result -/
def mixWritten (c : Cfg) (i : Nat) : Nat :=
  if linearLayer c i then 4 * netQ c + netV c + 2 * c.hidden
  else if c.isMla then 2 * c.hidden
  else (if c.qkvGated then 4 * qDim c + 2 * kvDim c else (if c.fuseQkv then 2 else 1) * (qDim c + 2 * kvDim c)) +
    (if c.qkNorm then qDim c + kvDim c else 0) + (if c.qkRope then qDim c + kvDim c else 0) + qDim c + (if c.qkvGated then 2 * qDim c else 0) + c.hidden

/-- cached keys and values: only ordinary attention has them -/
def mixCache (c : Cfg) (keys i : Nat) : Nat :=
  if linearLayer c i then 0 else if c.isMla then 0 else c.batch * keys * (kvDim c * 2)

/-- norms of a layer -/
def normCount (c : Cfg) : Nat := 2 + (if c.postAttnNorm then 1 else 0) + (if c.postMlpNorm then 1 else 0)

/-- elements of the weights of the matrix products of the feed-forward block (experts are a fused node) -/
def ffnProducts (c : Cfg) : Nat := if c.isMoe then 0 else mlpParams c

/-- the rest of every layer: norms, feed-forward block, two sums -/
def restMacs (c : Cfg) (k : Nat) : Nat :=
  tokens c * (normCount c * normOps c.hidden + ffnProducts c + (if c.isMoe then moeOps c k else mlpOps c) + 2 * c.hidden)

def restWritten (c : Cfg) : Nat :=
  normCount c * c.hidden + (if c.isMoe then 2 * c.hidden else (if c.phi3 then 3 else if c.mlpGate then 4 else 2) * c.inter + c.hidden) + 2 * c.hidden

/-- sum over the layers -/
def overLayers (c : Cfg) (f : Nat → Nat) : Nat := ((List.range c.layers).map f).sum

/-- all operations -/
def hybridMacs (c : Cfg) (l : Latent) (conv k keys : Nat) : Nat :=
  overLayers c (mixMacs c l conv keys) + c.layers * restMacs c k +
  tokens c * (linear c.hidden c.vocab c.lmHeadBias + normOps c.hidden + (if c.posEmbedding then c.hidden else 0) + (if c.softcap then 43 * c.vocab else 0))

/-- elements of all matrix-product weights -/
def hybridProducts (c : Cfg) : Nat :=
  overLayers c (mixProducts c) + c.layers * ffnProducts c + linear c.hidden c.vocab c.lmHeadBias

/-- elements of weights read -/
def hybridRead (c : Cfg) (k : Nat) : Nat :=
  overLayers c (mixRead c) + c.layers * (ffnProducts c + if c.isMoe then moeRead c k else 0) + linear c.hidden c.vocab c.lmHeadBias +
  (if c.posEmbedding then 2 else 1) * (tokens c * c.hidden)

/-- elements of other constants read -/
def hybridOthers (c : Cfg) : Nat := overLayers c (mixOthers c) + c.layers * (normCount c * norm c) + norm c

/-- elements written -/
def hybridWritten (c : Cfg) : Nat :=
  tokens c * (overLayers c (mixWritten c) + c.layers * restWritten c + (if c.posEmbedding then 3 else 1) * c.hidden + c.hidden +
    (if c.softcap then 2 else 1) * c.vocab)

/-- cached elements read -/
def hybridCached (c : Cfg) (keys : Nat) : Nat := overLayers c (mixCache c keys)

end OnnxTool.LlmCost
