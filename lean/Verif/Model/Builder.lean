import Verif.Model.Graph
import Verif.Model.Broadcast
/-!
# `Builder`: decoder graphs from a configuration (`/repo/onnx_tool/llm.py` 187-1284)

Every `add_*` method creates one node, its output tensor and the initializers it needs; the model describes this by a record `Emit` and
lets each method return its output tensor together with the list of records in order (`W`).  `applyEmits` carries out the updates of
`graph.nodemap`, `initials`, `tensormap` and `input`.  Simplifications: data types, attributes other than `layer_i` and the slice bounds,
and tensor contents are dropped; the order in which one method fills `tensormap` is not kept (initializers first); a method that raises
is an `Emit` with an error; optional configuration entries have been replaced by their defaults; the vision encoder is not modelled.
-/
namespace OnnxTool.Builder
open OnnxTool

/-- a tensor: name and shape -/
structure T where
  name : String
  shape : List Nat
  deriving DecidableEq, Repr

/-- The configuration (`__init__` 217-268 and the `getattr` defaults): sizes, then the flags of `arch_config`. -/
structure Cfg where
  batch : Nat
  seq : Nat
  hidden : Nat
  heads : Nat
  kvHeads : Nat
  headSize : Nat
  inter : Nat
  vocab : Nat
  layers : Nat
  maxPos : Nat := 4096
  rotaryDim : Nat := 0
  nPositions : Nat := 0
  act : String := "silu"
  rmsEps : Bool := true
  lnEps : Bool := false
  phi3 : Bool := false
  layerTypes : List String := []
  softcap : Bool := false
  numExperts : Nat := 256
  moeInter : Nat := 0
  sharedInter : Nat := 0
  qLora : Nat := 1024
  oLora : Nat := 1024
  oGroups : Nat := 8
  gdnQkHeads : Nat := 0
  gdnVHeads : Nat := 0
  gdnQkDim : Nat := 0
  gdnVDim : Nat := 0
  mlpGate : Bool := true
  normScale : Bool := true
  normBias : Bool := false
  fuseQkv : Bool := false
  qkvBias : Bool := false
  oBias : Bool := false
  mlpBias : Bool := false
  lmHeadBias : Bool := false
  postMlpNorm : Bool := false
  postAttnNorm : Bool := false
  qkNorm : Bool := false
  qkvGated : Bool := false
  isMoe : Bool := false
  isMla : Bool := false
  noSharedGate : Bool := false
  noSharedExpert : Bool := false
  qkRope : Bool := true
  posEmbedding : Bool := false

/-- `WeightMap` (187-213); `pos` may be missing. -/
structure WMap where
  embed : String
  pos : Option String
  layerPrefix : String
  inputNorm : String
  qkv : String
  q : String
  k : String
  v : String
  o : String
  outputNorm : String
  mlpInputNorm : String
  gate : String
  up : String
  down : String
  gateUp : String
  mlpOutputNorm : String
  lmNorm : String
  lm : String

/-- the default `WeightMap` (187-213) -/
def WMap.default : WMap :=
  ⟨"model.embed_tokens", none, "model.layers.", "input_layernorm", "self_attn.qkv_proj", "self_attn.q_proj", "self_attn.k_proj",
   "self_attn.v_proj", "self_attn.o_proj", "post_attention_layernorm", "post_attention_layernorm", "mlp.gate_proj", "mlp.up_proj",
   "mlp.down_proj", "mlp.gate_up_proj", "post_feedforward_layernorm", "model.norm", "lm_head"⟩

/-- `ActMap` (13-17): a missing key raises KeyError. -/
def actOp : String → Option String
  | "silu" => some "Silu"
  | "gelu_new" => some "Gelu"
  | "gegelu" => some "GeGelu"
  | _ => none

/-- What one `add_*` call adds to the graph: the node with all operands in order, the initializers it creates and its output. -/
structure Emit where
  name : String
  op : String
  ins : List T
  statics : List T := []
  out : T
  layer : Option Nat := none
  slice : Option (Nat × Nat) := none
  err : Option PyErr := none
  deriving DecidableEq, Repr

/-- A builder method: its result and what it added, in order. -/
def W (α : Type) := α × List Emit

instance : Monad W where
  pure a := (a, [])
  bind x f := ((f x.1).1, x.2 ++ (f x.1).2)

/-- add one node -/
def emit (e : Emit) : W T := (e.out, [e])

/-- `add_embedding` (275-287) -/
def addEmbedding (c : Cfg) (inp : T) (insize : Nat) (name : String) : W T :=
  let w : T := ⟨name ++ ".weight", [insize, c.hidden]⟩
  emit { name := name, op := "Gather", ins := [w, inp], statics := [w], out := ⟨name ++ ".output", [c.batch, c.seq, c.hidden]⟩ }

/-- scale and bias of `add_layernorm` (298-308) -/
def normWeights (c : Cfg) (name : String) : List T :=
  if c.normScale then ⟨name ++ ".weight", [c.hidden]⟩ :: (if c.normBias then [⟨name ++ ".bias", [c.hidden]⟩] else []) else []

/-- `add_layernorm` (289-316): without an epsilon `assert 0`. -/
def addLayernorm (c : Cfg) (inp : T) (name : String) : W T :=
  emit { name := name, op := "LayerNormalization", ins := inp :: normWeights c name, statics := normWeights c name,
         out := ⟨name ++ ".output", inp.shape⟩, err := if c.rmsEps || c.lnEps then none else some .assertion }

/-- `add_act` (318-326) -/
def addAct (inp : T) (act name : String) : W T :=
  emit { name := name, op := (actOp act).getD "", ins := [inp], out := ⟨name ++ ".output", inp.shape⟩,
         err := if (actOp act).isSome then none else some .keyError }

/-- `add_rope` (328-368): the shared tables and the input `position` are added by `applyEmit`. -/
def addRope (c : Cfg) (inp : T) (name : String) : W T :=
  emit { name := name, op := "Rope",
         ins := [inp, ⟨"rope.cos", [1, 1, c.maxPos, c.rotaryDim / 2]⟩, ⟨"rope.sin", [1, 1, c.maxPos, c.rotaryDim / 2]⟩,
                 ⟨"position", [c.batch, c.seq]⟩],
         out := ⟨name ++ ".output", inp.shape⟩ }

/-- `add_eltop` (370-381) -/
def addEltop (a b : T) (op name : String) : W T :=
  emit { name := name, op := op, ins := [a, b],
         out := ⟨name ++ ".output", (Shape.maxLoop [a.shape, b.shape] (a.shape, Shape.volume a.shape)).1⟩ }

/-- weight and bias of `add_mm` (383-395) -/
def mmWeights (fin fout : Nat) (bias : Bool) (name : String) : List T :=
  ⟨name ++ ".weight", [fin, fout]⟩ :: (if bias then [⟨name ++ ".bias", [fout]⟩] else [])

/-- `add_mm` (383-403) -/
def addMm (c : Cfg) (inp : T) (fin fout : Nat) (bias : Bool) (name : String) : W T :=
  emit { name := name, op := "MatMul", ins := inp :: mmWeights fin fout bias name, statics := mmWeights fin fout bias name,
         out := ⟨name ++ ".output", [c.batch, c.seq, fout]⟩ }

/-- `add_mha` (405-420) -/
def addMha (c : Cfg) (q k v : T) (layer : Nat) (name : String) : W T :=
  emit { name := name, op := "SDPA", ins := [q, k, v], layer := some layer,
         out := ⟨name ++ ".output", [c.batch, c.seq, c.heads * c.headSize]⟩ }

/-- bounds of `add_slice` (423-427) -/
def sliceConsts (name : String) : List T :=
  [⟨name ++ ".start", [1]⟩, ⟨name ++ ".end", [1]⟩, ⟨name ++ ".axis", [1]⟩, ⟨name ++ ".step", [1]⟩]

/-- `add_slice` (422-435) on axis 2 with step 1, the only way it is called by the decoder methods -/
def addSlice (inp : T) (off size : Nat) (name : String) : W T :=
  emit { name := name, op := "Slice", ins := inp :: sliceConsts name, statics := sliceConsts name, slice := some (off, size),
         out := ⟨name ++ ".output", inp.shape.set 2 size⟩ }

/-- `add_qkv` (437-457) -/
def addQkv (c : Cfg) (w : WMap) (p : String) (inp : T) : W (T × T × T) :=
  let qOut := c.heads * c.headSize
  let kvOut := c.kvHeads * c.headSize
  if c.fuseQkv then do
    let qkv ← addMm c inp c.hidden (qOut + kvOut + kvOut) c.qkvBias (p ++ w.qkv)
    let q ← addSlice qkv 0 qOut (p ++ "q.slice")
    let k ← addSlice qkv qOut kvOut (p ++ "k.slice")
    let v ← addSlice qkv (qOut + kvOut) kvOut (p ++ "v.slice")
    return (q, k, v)
  else do
    let q ← addMm c inp c.hidden qOut c.qkvBias (p ++ w.q)
    let k ← addMm c inp c.hidden kvOut c.qkvBias (p ++ w.k)
    let v ← addMm c inp c.hidden kvOut c.qkvBias (p ++ w.v)
    return (q, k, v)

/-- `add_qkv_gated` (459-490) -/
def addQkvGated (c : Cfg) (w : WMap) (p : String) (inp : T) : W (T × T × T × T) := do
  let qOut := c.heads * c.headSize
  let kvOut := c.kvHeads * c.headSize
  let qProj ← addMm c inp c.hidden (qOut * 2) c.qkvBias (p ++ w.q)
  let k ← addMm c inp c.hidden kvOut c.qkvBias (p ++ w.k)
  let v ← addMm c inp c.hidden kvOut c.qkvBias (p ++ w.v)
  let q ← addSlice qProj 0 qOut (p ++ "q.slice")
  let gate ← addSlice qProj qOut qOut (p ++ "gate.slice")
  return (q, k, v, gate)

/-- `s = o0.get_shape(); s[-1] = s[-1] // 2; o0.update_shape(s)` (507-509) after `add_act` -/
def addGegelu (inp : T) (name : String) : W T :=
  emit { name := name, op := "GeGelu", ins := [inp],
         out := ⟨name ++ ".output", inp.shape.set (inp.shape.length - 1) (inp.shape.getD (inp.shape.length - 1) 0 / 2)⟩ }

/-- `add_mlp` (492-516) -/
def addMlp (c : Cfg) (w : WMap) (p : String) (inp : T) : W T :=
  if c.phi3 then do
    let a ← addMm c inp c.hidden (c.inter * 2) c.mlpBias (p ++ w.gateUp)
    let b ← addGegelu a (p ++ "mlp.activation")
    addMm c b c.inter c.hidden c.mlpBias (p ++ w.down)
  else do
    let up ← addMm c inp c.hidden c.inter c.mlpBias (p ++ w.up)
    if c.mlpGate then
      let g ← addMm c inp c.hidden c.inter c.mlpBias (p ++ w.gate)
      let a ← addAct g c.act (p ++ "mlp.activation")
      let m ← addEltop up a "Mul" (p ++ "mlp.gate_mul")
      addMm c m c.inter c.hidden c.mlpBias (p ++ w.down)
    else
      let a ← addAct up c.act (p ++ "mlp.activation")
      addMm c a c.inter c.hidden c.mlpBias (p ++ w.down)

/-- weights of `add_moe` (540-610) -/
def moeWeights (c : Cfg) (p : String) : List T :=
  [⟨p ++ "moe.router" ++ ".weight", [c.hidden, c.numExperts]⟩,
   ⟨p ++ "moe.experts.gate" ++ ".weight", [c.numExperts, c.moeInter, c.hidden]⟩,
   ⟨p ++ "moe.experts.up" ++ ".weight", [c.numExperts, c.moeInter, c.hidden]⟩,
   ⟨p ++ "moe.experts.down" ++ ".weight", [c.numExperts, c.hidden, c.moeInter]⟩] ++
  (if c.noSharedExpert then [] else
    [⟨p ++ "moe.shared.gate" ++ ".weight", [c.sharedInter, c.hidden]⟩,
     ⟨p ++ "moe.shared.up" ++ ".weight", [c.sharedInter, c.hidden]⟩,
     ⟨p ++ "moe.shared.down" ++ ".weight", [c.hidden, c.sharedInter]⟩] ++
    (if c.noSharedGate then [] else [⟨p ++ "moe.shared_gate" ++ ".weight", [c.hidden]⟩]))

/-- `add_moe` (518-618) -/
def addMoe (c : Cfg) (p : String) (inp : T) : W T :=
  emit { name := p ++ "moe", op := "MoE", ins := inp :: moeWeights c p, statics := moeWeights c p,
         out := ⟨p ++ "moe" ++ ".output", [c.batch, c.seq, c.hidden]⟩ }

/-- weights of `add_mla` (640-690) -/
def mlaWeights (c : Cfg) (p : String) : List T :=
  [⟨p ++ "wq_a" ++ ".weight", [c.qLora, c.hidden]⟩, ⟨p ++ "q_norm" ++ ".weight", [c.qLora]⟩,
   ⟨p ++ "wq_b" ++ ".weight", [c.heads * c.headSize, c.qLora]⟩, ⟨p ++ "wkv" ++ ".weight", [c.headSize, c.hidden]⟩,
   ⟨p ++ "kv_norm" ++ ".weight", [c.headSize]⟩, ⟨p ++ "wo_a" ++ ".weight", [c.oGroups * c.oLora, c.heads * c.headSize / c.oGroups]⟩,
   ⟨p ++ "wo_b" ++ ".weight", [c.hidden, c.oGroups * c.oLora]⟩]

/-- `add_mla` (620-697): `// o_groups` raises when it is 0. -/
def addMla (c : Cfg) (p : String) (inp : T) : W T :=
  emit { name := p ++ "mla", op := "MLA", ins := inp :: mlaWeights c p, statics := mlaWeights c p,
         out := ⟨p ++ "mla" ++ ".output", [c.batch, c.seq, c.hidden]⟩, err := if c.oGroups = 0 then some .zeroDivision else none }

/-- `add_qk_norm` (991-1013): needs `rms_norm_eps`. -/
def addQkNorm (c : Cfg) (inp : T) (name : String) : W T :=
  let s : T := ⟨name ++ ".weight", [c.headSize]⟩
  emit { name := name, op := "LayerNormalization", ins := [inp, s], statics := [s], out := ⟨name ++ ".output", inp.shape⟩,
         err := if c.rmsEps then none else some .attributeError }

/-- `add_gdn` (699-757) -/
def addGdn (c : Cfg) (w : WMap) (p : String) (inp : T) : W T := do
  let q ← addMm c inp c.hidden (c.gdnQkHeads * c.gdnQkDim) c.qkvBias (p ++ w.q)
  let k ← addMm c inp c.hidden (c.gdnQkHeads * c.gdnQkDim) c.qkvBias (p ++ w.k)
  let v ← addMm c inp c.hidden (c.gdnVHeads * c.gdnVDim) c.qkvBias (p ++ w.v)
  let q ← addQkNorm c q (p ++ "self_attn.q_norm")
  let k ← addQkNorm c k (p ++ "self_attn.k_norm")
  emit { name := p ++ "gdn", op := "GDN", ins := [q, k, v], out := ⟨p ++ "gdn" ++ ".output", [c.batch, c.seq, c.hidden]⟩ }

/-- query, key, value and the optional gate (1059-1063) -/
def addProjections (c : Cfg) (w : WMap) (p : String) (inp : T) : W (T × T × T × Option T) :=
  if c.qkvGated then do
    let r ← addQkvGated c w p inp
    return (r.1, r.2.1, r.2.2.1, some r.2.2.2)
  else do
    let r ← addQkv c w p inp
    return (r.1, r.2.1, r.2.2, none)

/-- the norms of query and key (1065-1067) -/
def addQkNorms (c : Cfg) (p : String) (q k : T) : W (T × T) :=
  if c.qkNorm then do
    let q ← addQkNorm c q (p ++ "self_attn.q_norm")
    let k ← addQkNorm c k (p ++ "self_attn.k_norm")
    return (q, k)
  else pure (q, k)

/-- rotary embedding of query and key (1068-1070) -/
def addRopes (c : Cfg) (p : String) (q k : T) : W (T × T) :=
  if c.qkRope then do
    let q ← addRope c q (p ++ "rope_q")
    let k ← addRope c k (p ++ "rope_k")
    return (q, k)
  else pure (q, k)

/-- the output gate (1074-1076) -/
def addGate (p : String) (cur : T) : Option T → W T
  | some g => do
    let g ← addAct g "silu" (p ++ "attn_gate.act")
    addEltop cur g "Mul" (p ++ "attn.gated")
  | none => pure cur

/-- the standard attention branch of `add_layers` (1056-1078), from the normalised input to the output projection -/
def addAttention (c : Cfg) (w : WMap) (i : Nat) (p : String) (inp : T) : W T := do
  let r ← addProjections c w p inp
  let n ← addQkNorms c p r.1 r.2.1
  let e ← addRopes c p n.1 n.2
  let cur ← addMha c e.1 e.2 r.2.2.1 i (p ++ "mha")
  let cur ← addGate p cur r.2.2.2
  addMm c cur (c.heads * c.headSize) c.hidden c.oBias (p ++ w.o)

/-- `self.layer_prefix` (1022) -/
def layerName (w : WMap) (i : Nat) : String := w.layerPrefix ++ toString i ++ "."

/-- the kind of a layer (1026-1028): `layer_types[i] == 'linear_attention'` -/
def isGdn (c : Cfg) (i : Nat) : Bool := c.layerTypes[i]? == some "linear_attention"

/-- the branch on the kind of layer (1030-1078) -/
def addMixer (c : Cfg) (w : WMap) (i : Nat) (p : String) (cur : T) : W T :=
  if isGdn c i then addGdn c w p cur else if c.isMla then addMla c p cur else addAttention c w i p cur

/-- an optional normalisation -/
def addOptNorm (c : Cfg) (on : Bool) (cur : T) (name : String) : W T := if on then addLayernorm c cur name else pure cur

/-- `self.add_moe(cur) if is_moe else self.add_mlp(cur)` -/
def addFfn (c : Cfg) (w : WMap) (p : String) (cur : T) : W T := if c.isMoe then addMoe c p cur else addMlp c w p cur

/-- One iteration of `add_layers` (1020-1087); the three branches have the same frame. -/
def addLayer (c : Cfg) (w : WMap) (i : Nat) (inp : T) : W T := do
  let cur ← addLayernorm c inp (layerName w i ++ w.inputNorm)
  let cur ← addMixer c w i (layerName w i) cur
  let cur ← addOptNorm c c.postAttnNorm cur (layerName w i ++ w.outputNorm)
  let inp ← addEltop inp cur "Add" (layerName w i ++ "attention_add")
  let cur ← addLayernorm c inp (layerName w i ++ w.mlpInputNorm)
  let cur ← addFfn c w (layerName w i) cur
  let cur ← addOptNorm c c.postMlpNorm cur (layerName w i ++ w.mlpOutputNorm)
  addEltop inp cur "Add" (layerName w i ++ "mlp_add")

/-- `add_layers` (1015-1088): the first `n` layers -/
def addLayers (c : Cfg) (w : WMap) (inp : T) : Nat → W T
  | 0 => pure inp
  | n + 1 => do
    let cur ← addLayers c w inp n
    addLayer c w n cur

/-- `add_lm_head` (759-763) -/
def addLmHead (c : Cfg) (w : WMap) (inp : T) : W T := do
  let cur ← addLayernorm c inp w.lmNorm
  addMm c cur c.hidden c.vocab c.lmHeadBias w.lm

/-- `add_softcapping` (1090-1098): the constant is 0-dimensional. -/
def addSoftcapping (inp : T) (name : String) : W T :=
  let b : T := ⟨name ++ ".weight", []⟩
  emit { name := name, op := "LogitSoftCapping", ins := [inp, b], statics := [b], out := ⟨name ++ ".output", inp.shape⟩ }

/-- the input `ids` (1244) -/
def idsT (c : Cfg) : T := ⟨"ids", [c.batch, c.seq]⟩

/-- the input `position` -/
def positionT (c : Cfg) : T := ⟨"position", [c.batch, c.seq]⟩

/-- the position embedding (1249-1254); a missing `pos` name is a KeyError -/
def addPos (c : Cfg) (w : WMap) (cur : T) : W T :=
  if c.posEmbedding then
    match w.pos with
    | none => emit { name := "", op := "", ins := [], out := cur, err := some .keyError }
    | some pos => do
      let po ← addEmbedding c (positionT c) c.nPositions pos
      addEltop po cur "Add" "embedding_pos_add"
  else pure cur

/-- `build_graph` (1235-1260): what is added, in order. -/
def build (c : Cfg) (w : WMap) : W T := do
  let cur ← addEmbedding c (idsT c) c.vocab w.embed
  let cur ← addPos c w cur
  let cur ← addLayers c w cur c.layers
  let cur ← addLmHead c w cur
  if c.softcap then addSoftcapping cur "models.final_logit_softcapping" else pure cur

/-! ### The graph object -/

/-- a node of the built graph; `slice` stands for the values of the constants of a `Slice` node (start, size) -/
structure BNode where
  op : String
  input : List String
  output : List String
  layer : Option Nat
  slice : Option (Nat × Nat)
  deriving DecidableEq, Repr

/-- `self.graph` and the flags of `add_rope`. -/
structure St where
  nodes : Dict BNode := []
  initials : List String := []
  tensors : Dict (Bool × List Nat) := []
  input : List String := []
  output : List String := []
  ropeAdded : Bool := false
  posAdded : Bool := false

/-- `initials.append(w.name); tensormap[w.name] = w` -/
def addStatic (s : St) (t : T) : St := { s with initials := s.initials ++ [t.name], tensors := s.tensors.set t.name (true, t.shape) }

/-- `graph.input.append(t.name); tensormap[t.name] = t` -/
def addInput (s : St) (t : T) : St := { s with input := s.input ++ [t.name], tensors := s.tensors.set t.name (false, t.shape) }

/-- the shared tables and the input `position` (330-358) -/
def ropeShared (c : Cfg) (s : St) : St :=
  let s := if s.ropeAdded then s else
    { addStatic (addStatic s ⟨"rope.cos", [1, 1, c.maxPos, c.rotaryDim / 2]⟩) ⟨"rope.sin", [1, 1, c.maxPos, c.rotaryDim / 2]⟩ with
      ropeAdded := true }
  if s.posAdded then s else { addInput s (positionT c) with posAdded := true }

/-- one `add_*` call on the graph; `nodemap[name] = node` replaces a node of the same name in place -/
def applyEmit (c : Cfg) (s : St) (e : Emit) : Except PyErr St :=
  match e.err with
  | some x => .error x
  | none =>
    let s := if e.op = "Rope" then ropeShared c s else s
    let s := e.statics.foldl addStatic s
    .ok { s with
      tensors := s.tensors.set e.out.name (false, e.out.shape)
      nodes := s.nodes.set e.name ⟨e.op, e.ins.map (·.name), [e.out.name], e.layer, e.slice⟩ }

/-- the calls in order -/
def applyEmits (c : Cfg) : List Emit → St → Except PyErr St
  | [], s => .ok s
  | e :: es, s =>
    match applyEmit c s e with
    | .error x => .error x
    | .ok s => applyEmits c es s

/-- `build_graph(ids_shape, weight_map)` on a new builder (1235-1260). -/
def buildGraph (c : Cfg) (w : WMap) : Except PyErr St :=
  let s := addInput {} (idsT c)
  let s := if c.posEmbedding && w.pos.isSome then addInput s (positionT c) else s
  match applyEmits c (build c w).2 s with
  | .error x => .error x
  | .ok s => .ok { s with output := [(build c w).1.name] }

/-- `hidden_kv_size`, or `head_size` for MLA (1238-1242, 1271-1274) -/
def kvSize (c : Cfg) : Nat := if c.isMla then c.headSize else c.headSize * c.kvHeads

/-- `add_kv_cache(n_context, n_past)` (1265-1284): `n_past` has the shape of `numpy.array(n_past)`, that is `()`. -/
def addKvCache (c : Cfg) (nContext : Nat) (s : St) : St :=
  let s := addInput (addInput s ⟨"n_past", []⟩) ⟨"kv_cache", [c.batch, c.layers * 2, nContext, kvSize c]⟩
  { s with nodes := s.nodes.map fun e =>
      if e.2.op = "SDPA" then (e.1, { e.2 with input := e.2.input ++ ["n_past", "kv_cache"] }) else e }

/-- `kv_params` after `build_graph` (n_past = 0) and after `add_kv_cache` (1243, 1275) -/
def kvParams (c : Cfg) (nPast : Nat) : Nat := c.batch * (c.seq + nPast) * kvSize c * 2 * c.layers

end OnnxTool.Builder
