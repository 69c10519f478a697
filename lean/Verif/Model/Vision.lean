import Verif.Model.Builder
import Verif.Model.Macs
/-!
# The vision encoder of `Builder` (`/repo/onnx_tool/llm.py` 766-989)

Same conventions as `Model/Builder.lean`: one record `Emit` per `add_*` call.  Simplifications: data types and attributes other than the slice
bounds are dropped; the optional attributes have been replaced by their defaults, except that the default of `vision_head_dim` is evaluated
even when it is not used (906-907).
-/
namespace OnnxTool.Vision
open OnnxTool OnnxTool.Builder

/-- The image `[C, H, W]` and the `vision_*`, `projector_*` attributes (900-909); `llm` is `hidden_size`. -/
structure VCfg where
  channels : Nat
  height : Nat
  width : Nat
  hidden : Nat := 1024
  layers : Nat := 24
  heads : Nat := 16
  inter : Nat := 4096
  patch : Nat := 14
  headDim : Nat := 64
  proj : Nat
  llm : Nat
  mlpProjector : Bool := true

/-- `self.batch` (976) -/
def batch : Nat := 1

/-- `(n + 2 * pad - ksize) // stride + 1` (796-797) -/
def convOut (n pad ksize stride : Nat) : Nat := (((n : Int) + 2 * pad - ksize).fdiv stride + 1).toNat

/-- `add_vision_conv2d` (782-804); the default of `vision_head_dim` divides by the number of heads before it is called -/
def addConv2d (heads : Nat) (inp : T) (inCh outCh ksize stride pad : Nat) (name : String) : W T :=
  let w : T := ⟨name ++ ".weight", [outCh, inCh, ksize, ksize]⟩
  emit { name := name, op := "Conv", ins := [inp, w], statics := [w],
         out := ⟨name ++ ".output", [batch, outCh, convOut (inp.shape.getD 2 0) pad ksize stride, convOut (inp.shape.getD 3 0) pad ksize stride]⟩,
         err := if heads = 0 ∨ stride = 0 then some .zeroDivision else none }

/-- `add_vision_layernorm` (806-823) -/
def addLn (inp : T) (n : Nat) (name : String) : W T :=
  let ws : List T := [⟨name ++ ".weight", [n]⟩, ⟨name ++ ".bias", [n]⟩]
  emit { name := name, op := "LayerNormalization", ins := inp :: ws, statics := ws, out := ⟨name ++ ".output", inp.shape⟩ }

/-- `add_vision_mm` (825-841) -/
def addVmm (inp : T) (fin fout : Nat) (bias : Bool) (name : String) : W T :=
  emit { name := name, op := "MatMul", ins := inp :: mmWeights fin fout bias name, statics := mmWeights fin fout bias name,
         out := ⟨name ++ ".output", inp.shape.dropLast ++ [fout]⟩ }

/-- the SDPA node (853-862): no `layer_i` -/
def addSdpa (q k v : T) (dim : Nat) (name : String) : W T :=
  emit { name := name, op := "SDPA", ins := [q, k, v], out := ⟨name ++ ".output", q.shape.dropLast ++ [dim]⟩ }

/-- `add_vision_attention` (843-865) -/
def addVattention (inp : T) (hidden heads headDim : Nat) (name : String) : W T := do
  let qkv ← addVmm inp hidden (3 * (heads * headDim)) true (name ++ ".qkv")
  let q ← addSlice qkv 0 (heads * headDim) (name ++ ".q_slice")
  let k ← addSlice qkv (heads * headDim) (heads * headDim) (name ++ ".k_slice")
  let v ← addSlice qkv (heads * headDim * 2) (heads * headDim) (name ++ ".v_slice")
  let o ← addSdpa q k v (heads * headDim) (name ++ ".sdpa")
  addVmm o (heads * headDim) hidden true (name ++ ".o")

/-- `add_vision_mlp` (867-875) -/
def addVmlp (inp : T) (hidden inter : Nat) (name : String) : W T := do
  let h ← addVmm inp hidden inter true (name ++ ".fc1")
  let h ← addAct h "gelu_new" (name ++ ".gelu")
  addVmm h inter hidden true (name ++ ".fc2")

/-- `add_vision_transformer_layer` (877-889) -/
def addVlayer (inp : T) (hidden heads headDim inter : Nat) (name : String) : W T := do
  let n ← addLn inp hidden (name ++ ".ln1")
  let a ← addVattention n hidden heads headDim (name ++ ".attn")
  let cur ← addEltop inp a "Add" (name ++ ".attn_add")
  let n ← addLn cur hidden (name ++ ".ln2")
  let m ← addVmlp n hidden inter (name ++ ".mlp")
  addEltop cur m "Add" (name ++ ".mlp_add")

/-- `f'vision.blocks.{i}'` -/
def blockName (i : Nat) : String := "vision.blocks." ++ toString i

/-- the loop over the blocks (947-950): the first `n` -/
def addVlayers (c : VCfg) (inp : T) : Nat → W T
  | 0 => pure inp
  | n + 1 => do
    let cur ← addVlayers c inp n
    addVlayer cur c.hidden c.heads c.headDim c.inter (blockName n)

/-- the Reshape node and its constant (923-934) -/
def addPatchReshape (inp : T) (patches hidden : Nat) : W T :=
  let s : T := ⟨"vision.patch_reshape.shape", [3]⟩
  emit { name := "vision.patch_reshape", op := "Reshape", ins := [inp, s], statics := [s],
         out := ⟨"vision.patch_reshape.output", [batch, patches, hidden]⟩ }

/-- the learned position embedding and its addition (940-944) -/
def addPosEmbed (inp : T) (patches hidden : Nat) : W T :=
  let p : T := ⟨"vision.pos_embed", [1, patches, hidden]⟩
  emit { name := "vision.pos_embed_add", op := "Add", ins := [inp, p], statics := [p],
         out := ⟨"vision.pos_embed_add.output", (Shape.maxLoop [inp.shape, p.shape] (inp.shape, Shape.volume inp.shape)).1⟩ }

/-- the projector (956-966) -/
def addProjector (c : VCfg) (inp : T) : W T :=
  if c.mlpProjector then do
    let h ← addVmm inp c.hidden c.proj true "vision.projector.fc1"
    let h ← addAct h "gelu_new" "vision.projector.gelu"
    addVmm h c.proj c.llm true "vision.projector.fc2"
  else addVmm inp c.hidden c.llm true "vision.projector"

/-- `add_vision_encoder` (891-968) -/
def addEncoder (c : VCfg) (pixels : T) : W T := do
  let conv ← addConv2d c.heads pixels (pixels.shape.getD 1 0) c.hidden c.patch c.patch 0 "vision.patch_embed"
  let patches := conv.shape.getD 2 0 * conv.shape.getD 3 0
  let cur ← addPatchReshape conv patches c.hidden
  let cur ← addPosEmbed cur patches c.hidden
  let cur ← addVlayers c cur c.layers
  let cur ← addLn cur c.hidden "vision.post_ln"
  addProjector c cur

/-- the input `pixel_values` (980-983) -/
def pixelsT (c : VCfg) : T := ⟨"pixel_values", [batch, c.channels, c.height, c.width]⟩

/-- the part of the decoder's configuration `applyEmit` reads: nothing, as there is no rotary embedding -/
def noCfg : Cfg := { batch := 1, seq := 0, hidden := 0, heads := 0, kvHeads := 0, headSize := 0, inter := 0, vocab := 0, layers := 0 }

/-- `build_vision_graph(image_shape)` on a new builder (970-989) -/
def buildVision (c : VCfg) : Except PyErr St :=
  match applyEmits noCfg (addEncoder c (pixelsT c)).2 (addInput {} (pixelsT c)) with
  | .error x => .error x
  | .ok s => .ok { s with output := [(addEncoder c (pixelsT c)).1.name] }

end OnnxTool.Vision
