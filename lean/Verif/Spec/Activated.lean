import Verif.Spec.HybridCost
/-!
# The weights a forward pass reads

Every token of a mixture-of-experts layer chooses `k` different experts; a layer reads the weights of the experts chosen by some token.  A table
is read at the rows that occur.  Every other weight is read once.
-/
namespace OnnxTool.Activated
open OnnxTool OnnxTool.Builder OnnxTool.LlmCost

/-- for each token the experts it chooses: `k` different ones of `n` -/
structure Routing (n k tokens : Nat) (r : List (List Nat)) : Prop where
  length : r.length = tokens
  count : ∀ l ∈ r, l.length = k
  distinct : ∀ l ∈ r, l.Nodup
  range : ∀ l ∈ r, ∀ e ∈ l, e < n

/-- number of the `n` items that occur in a list -/
def occurring (n : Nat) (l : List Nat) : Nat := ((List.range n).filter fun e => decide (e ∈ l)).length

/-- router, experts chosen by some token, shared expert and its gate -/
def expertWeights (c : Cfg) (r : List (List Nat)) : Nat :=
  c.hidden * c.numExperts + occurring c.numExperts r.flatten * (3 * (c.moeInter * c.hidden)) +
  (if c.noSharedExpert then 0 else 3 * (c.sharedInter * c.hidden) + if c.noSharedGate then 0 else c.hidden)

/-- parameters of the token mixer of layer `i` (slice bounds and norms of queries and keys included) -/
def mixerParams (c : Cfg) (i : Nat) : Nat := if linearLayer c i then gdnParams c else if c.isMla then mlaParams c else attnParams c

/-- number of layers that rotate queries and keys -/
def ropeLayers (c : Cfg) : Nat := ((List.range c.layers).filter fun i => decide (ropeLayer c i)).length

/-- elements of the two rotary tables for the positions `0 … rows - 1` -/
def tableRows (c : Cfg) (rows : Nat) : Nat := if ropeLayers c = 0 then 0 else 2 * (rows * (c.rotaryDim / 2))

/-- **distinct weights read** by a forward pass of a decoder: `route i` is the routing of layer `i`, `ids` the tokens -/
def weightsTouched (c : Cfg) (route : Nat → List (List Nat)) (ids : List Nat) : Nat :=
  overLayers c (mixerParams c) + (if c.isMoe then overLayers c fun i => expertWeights c (route i) else c.layers * mlpParams c) +
  c.layers * (normCount c * norm c) + norm c + linear c.hidden c.vocab c.lmHeadBias +
  occurring c.vocab ids * c.hidden + (if c.posEmbedding then min c.seq c.nPositions * c.hidden else 0) + tableRows c (min c.seq c.maxPos)

/-- what a forward pass is given: tokens of the vocabulary, and in every layer a choice of `k` experts for each of them -/
structure Inputs (c : Cfg) (k : Nat) (route : Nat → List (List Nat)) (ids : List Nat) : Prop where
  routing : c.isMoe = true → ∀ i ∈ List.range c.layers, Routing c.numExperts k (tokens c) (route i)
  count : ids.length = tokens c
  vocab : ∀ t ∈ ids, t < c.vocab

/-- the gates of the shared experts -/
def sharedGates (c : Cfg) : Nat := if c.isMoe ∧ ¬ c.noSharedExpert ∧ ¬ c.noSharedGate then c.layers * c.hidden else 0

/-- elements of the rotary tables beyond the first reading: every rotating layer reads both tables for queries and for keys -/
def tableRepeats (c : Cfg) (rows : Nat) : Nat := (4 * ropeLayers c - 2) * (rows * (c.rotaryDim / 2))

end OnnxTool.Activated
