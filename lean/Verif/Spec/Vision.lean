import Verif.Model.Vision
import Verif.Spec.BuilderSem
/-!
# What a vision encoder graph should be

Shapes the operators give, number of parameters, and which pixels a feature row comes from.
-/
namespace OnnxTool.Vision
open OnnxTool OnnxTool.Builder

/-- whole patches along one side -/
def side (n patch : Nat) : Nat := n / patch
def patches (c : VCfg) : Nat := side c.height c.patch * side c.width c.patch

/-- all heads together -/
def dim (c : VCfg) : Nat := c.heads * c.headDim

/-! Result shape of each operator from its operand shapes, `none` when they do not fit together. -/

/-- convolution with stride = kernel = patch and no padding -/
def convRule (c : VCfg) : List (List Nat) → Option (List Nat)
  | [[b, ch, h, w], [o, ch', k, k']] => if ch = ch' ∧ k = c.patch ∧ k' = c.patch then some [b, o, side h k, side w k] else none
  | _ => none
/-- as many elements before as after -/
def reshapeRule (c : VCfg) : List (List Nat) → Option (List Nat)
  | [x, [3]] => if x.prod = 1 * patches c * c.hidden then some [1, patches c, c.hidden] else none
  | _ => none
/-- one scale and one shift per feature -/
def lnRule : List (List Nat) → Option (List Nat)
  | [[b, s, d], [d1], [d2]] => if d1 = d ∧ d2 = d then some [b, s, d] else none
  | _ => none
def unaryRule : List (List Nat) → Option (List Nat)
  | [x] => some x
  | _ => none
def addRule : List (List Nat) → Option (List Nat)
  | [a, b] => if a = b then some a else none
  | _ => none
/-- matrix and bias -/
def matmulRule : List (List Nat) → Option (List Nat)
  | [[b, s, k], [k', n], [n']] => if k = k' ∧ n = n' then some [b, s, n] else none
  | _ => none
/-- `size` columns from `off` on, all of which exist; the four one-element constants follow the data -/
def sliceRule (off size : Nat) : List (List Nat) → Option (List Nat)
  | [[b, s, d], [1], [1], [1], [1]] => if off + size ≤ d then some [b, s, size] else none
  | _ => none
/-- query, key and value have all heads' columns -/
def attnRule (c : VCfg) : List (List Nat) → Option (List Nat)
  | [[b, s, q], [b1, s1, k], [b2, s2, v]] =>
    if b1 = b ∧ b2 = b ∧ s1 = s ∧ s2 = s ∧ q = dim c ∧ k = q ∧ v = q then some [b, s, q] else none
  | _ => none

/-- the rule of each operator -/
def visionRule (c : VCfg) (op : String) (slice : Option (Nat × Nat)) (ins : List (List Nat)) : Option (List Nat) :=
  if op = "Conv" then convRule c ins
  else if op = "Reshape" then reshapeRule c ins
  else if op = "LayerNormalization" then lnRule ins
  else if op = "Gelu" then unaryRule ins
  else if op = "Add" then addRule ins
  else if op = "MatMul" then matmulRule ins
  else if op = "Slice" then slice.bind fun p => sliceRule p.1 p.2 ins
  else if op = "SDPA" then attnRule c ins
  else none

/-- Every node's declared result shape is what its operator gives on the declared operand shapes. -/
def VisionShapes (c : VCfg) (s : St) : Prop :=
  ∀ n ∈ s.nodes, ∃ o, n.2.output = [o] ∧ visionRule c n.2.op n.2.slice (n.2.input.map s.shape) = some (s.shape o)

/-! ### Number of parameters -/

/-- a projection with bias -/
def proj (fin fout : Nat) : Nat := fin * fout + fout
/-- scale and shift -/
def lnParams (c : VCfg) : Nat := 2 * c.hidden
/-- fused query/key/value projection, twelve slice bounds, output projection, two-layer perceptron, two norms -/
def blockParams (c : VCfg) : Nat :=
  proj c.hidden (3 * dim c) + 12 + proj (dim c) c.hidden + proj c.hidden c.inter + proj c.inter c.hidden + 2 * lnParams c
/-- patch embedding (no bias), position embedding, blocks, last norm, projector; and the three numbers of the Reshape node -/
def visionParams (c : VCfg) : Nat :=
  c.hidden * c.channels * c.patch * c.patch + patches c * c.hidden + c.layers * blockParams c + lnParams c +
  (if c.mlpProjector then proj c.hidden c.proj + proj c.proj c.llm else proj c.hidden c.llm) + 3

/-- the configuration can be built: at least one head, patches of at least one pixel -/
structure VisionOk (c : VCfg) : Prop where
  heads : 0 < c.heads
  patch : 0 < c.patch

/-! ### The function an encoder graph computes

`I` gives every operator a meaning, `P` every parameter its value (see `Spec/BuilderSem.lean`). -/
section
variable {V : Type} (I : Interp V) (c : VCfg) (P : String → V)

/-- layer normalisation with scale and shift -/
def lnV (name : String) (x : V) : V := I "LayerNormalization" none none [x, P (name ++ ".weight"), P (name ++ ".bias")]

/-- One block: `h = x + o(attention(q, k, v))` where `q`, `k`, `v` are the three thirds of one projection of the normalised input, then
`h + fc2(gelu(fc1(norm h)))`. -/
def blockV (i : Nat) (x : V) : V :=
  let p := "vision.blocks." ++ toString i
  let y := linV I P true (p ++ ".attn.qkv") (lnV I P (p ++ ".ln1") x)
  let q := colsV I P 0 (dim c) (p ++ ".attn.q_slice") y
  let k := colsV I P (dim c) (dim c) (p ++ ".attn.k_slice") y
  let v := colsV I P (2 * dim c) (dim c) (p ++ ".attn.v_slice") y
  let h := addV I x (linV I P true (p ++ ".attn.o") (I "SDPA" none none [q, k, v]))
  addV I h (linV I P true (p ++ ".mlp.fc2") (activV I "gelu_new" (linV I P true (p ++ ".mlp.fc1") (lnV I P (p ++ ".ln2") h))))

/-- The features given to the language model: patch embedding, position embedding, all blocks in order, last norm, projector. -/
def featuresV : V :=
  let x := I "Conv" none none [P "pixel_values", P "vision.patch_embed.weight"]
  let x := I "Reshape" none none [x, P "vision.patch_reshape.shape"]
  let x := addV I x (P "vision.pos_embed")
  let y := lnV I P "vision.post_ln" ((List.range c.layers).foldl (fun x i => blockV I c P i x) x)
  if c.mlpProjector then linV I P true "vision.projector.fc2" (activV I "gelu_new" (linV I P true "vision.projector.fc1" y))
  else linV I P true "vision.projector" y

end

/-! ### Patches -/

/-- Feature `j` of patch `i` (patches counted row by row over a grid `w` patches wide) in a map with one plane per feature. -/
def patchFeature {V : Type} (w : Nat) (plane : Nat → Nat → Nat → V) (i j : Nat) : V := plane j (i / w) (i % w)

end OnnxTool.Vision
