import Verif.Spec.Builder
/-!
# What a graph built from a configuration should compute

The decoder as a function of the tokens, the positions and the parameters, written with uninterpreted operators: `I` gives every operator
(with its layer number or slice bounds) a meaning on values of any type, `P` gives every parameter its value by its checkpoint name.
-/
namespace OnnxTool.Builder
open OnnxTool

/-- The meaning of operators: name, layer number (attention), bounds (slices), operands. -/
abbrev Interp (V : Type) := String → Option Nat → Option (Nat × Nat) → List V → V

/-! ### Executing a graph -/

/-- the values after executing the nodes in order -/
def evalNodes {V : Type} (I : Interp V) : List (String × BNode) → (String → V) → String → V
  | [], env => env
  | n :: ns, env =>
    let v := I n.2.op n.2.layer n.2.slice (n.2.input.map env)
    evalNodes I ns (fun x => if x ∈ n.2.output then v else env x)

/-- the values of the graph outputs -/
def evalGraph {V : Type} (I : Interp V) (s : St) (env : String → V) : List V := s.output.map (evalNodes I s.nodes env)

/-! ### The decoder -/
section
variable {V : Type} (I : Interp V) (c : Cfg) (w : WMap) (P : String → V)

/-- projection with the weights called `name` -/
def linV (bias : Bool) (name : String) (x : V) : V :=
  I "MatMul" none none (x :: P (name ++ ".weight") :: if bias then [P (name ++ ".bias")] else [])

/-- normalisation over the hidden size -/
def normV (name : String) (x : V) : V :=
  I "LayerNormalization" none none
    (x :: if c.normScale then P (name ++ ".weight") :: (if c.normBias then [P (name ++ ".bias")] else []) else [])

/-- per-head normalisation of queries and keys -/
def headNormV (name : String) (x : V) : V := I "LayerNormalization" none none [x, P (name ++ ".weight")]

/-- rotation by position -/
def ropeV (x : V) : V := I "Rope" none none [x, P "rope.cos", P "rope.sin", P "position"]

/-- the columns `off .. off + size` -/
def colsV (off size : Nat) (name : String) (x : V) : V :=
  I "Slice" none (some (off, size)) [x, P (name ++ ".start"), P (name ++ ".end"), P (name ++ ".axis"), P (name ++ ".step")]

/-- elementwise operators -/
def addV (x y : V) : V := I "Add" none none [x, y]
@[inherit_doc addV]
def mulV (x y : V) : V := I "Mul" none none [x, y]
/-- the operator of an activation function -/
def actName (a : String) : String := if a = "gelu_new" then "Gelu" else "Silu"
/-- an activation -/
def activV (a : String) (x : V) : V := I (actName a) none none [x]

/-- queries, keys, values and (for gated attention) the gate, from the normalised input of the layer with prefix `p` -/
def qkvV (p : String) (x : V) : V × V × V × Option V :=
  let dq := c.heads * c.headSize
  let dk := c.kvHeads * c.headSize
  if c.qkvGated then
    let y := linV I P c.qkvBias (p ++ w.q) x
    (colsV I P 0 dq (p ++ "q.slice") y, linV I P c.qkvBias (p ++ w.k) x, linV I P c.qkvBias (p ++ w.v) x,
      some (colsV I P dq dq (p ++ "gate.slice") y))
  else if c.fuseQkv then
    let y := linV I P c.qkvBias (p ++ w.qkv) x
    (colsV I P 0 dq (p ++ "q.slice") y, colsV I P dq dk (p ++ "k.slice") y, colsV I P (dq + dk) dk (p ++ "v.slice") y, none)
  else (linV I P c.qkvBias (p ++ w.q) x, linV I P c.qkvBias (p ++ w.k) x, linV I P c.qkvBias (p ++ w.v) x, none)

/-- attention of layer `i`: normalise and rotate queries and keys, attend, gate, project -/
def attnV (i : Nat) (p : String) (x : V) : V :=
  let r := qkvV I c w P p x
  let nq := if c.qkNorm then headNormV I P (p ++ "self_attn.q_norm") r.1 else r.1
  let nk := if c.qkNorm then headNormV I P (p ++ "self_attn.k_norm") r.2.1 else r.2.1
  let rq := if c.qkRope then ropeV I P nq else nq
  let rk := if c.qkRope then ropeV I P nk else nk
  let a := I "SDPA" (some i) none [rq, rk, r.2.2.1]
  let a := match r.2.2.2 with
    | some g => mulV I a (activV I "silu" g)
    | none => a
  linV I P c.oBias (p ++ w.o) a

/-- linear attention -/
def linearV (p : String) (x : V) : V :=
  I "GDN" none none [headNormV I P (p ++ "self_attn.q_norm") (linV I P c.qkvBias (p ++ w.q) x),
    headNormV I P (p ++ "self_attn.k_norm") (linV I P c.qkvBias (p ++ w.k) x), linV I P c.qkvBias (p ++ w.v) x]

/-- latent attention -/
def latentV (p : String) (x : V) : V :=
  I "MLA" none none (x :: ["wq_a", "q_norm", "wq_b", "wkv", "kv_norm", "wo_a", "wo_b"].map fun n => P (p ++ n ++ ".weight"))

/-- mixture of experts -/
def moeV (p : String) (x : V) : V :=
  I "MoE" none none (x :: (["moe.router", "moe.experts.gate", "moe.experts.up", "moe.experts.down"] ++
    (if c.noSharedExpert then [] else ["moe.shared.gate", "moe.shared.up", "moe.shared.down"] ++
      (if c.noSharedGate then [] else ["moe.shared_gate"]))).map fun n => P (p ++ n ++ ".weight"))

/-- dense feed-forward block -/
def mlpV (p : String) (x : V) : V :=
  linV I P c.mlpBias (p ++ w.down)
    (if c.phi3 then I "GeGelu" none none [linV I P c.mlpBias (p ++ w.gateUp) x]
     else if c.mlpGate then mulV I (linV I P c.mlpBias (p ++ w.up) x) (activV I c.act (linV I P c.mlpBias (p ++ w.gate) x))
     else activV I c.act (linV I P c.mlpBias (p ++ w.up) x))

/-- Layer `i`: `h = x + mix(norm x)`, result `h + ffn(norm h)`, with the optional norms after the two blocks. -/
def layerV (i : Nat) (x : V) : V :=
  let p := w.layerPrefix ++ toString i ++ "."
  let mix := if linearLayer c i then linearV I c w P p else if c.isMla then latentV I P p else attnV I c w P i p
  let ffn := if c.isMoe then moeV I c P p else mlpV I c w P p
  let post := fun (on : Bool) (name : String) (y : V) => if on then normV I c P (p ++ name) y else y
  let h := addV I x (post c.postAttnNorm w.outputNorm (mix (normV I c P (p ++ w.inputNorm) x)))
  addV I h (post c.postMlpNorm w.mlpOutputNorm (ffn (normV I c P (p ++ w.mlpInputNorm) h)))

/-- the embedded tokens, plus the embedded positions if the model learns them -/
def embedV : V :=
  let e := I "Gather" none none [P (w.embed ++ ".weight"), P "ids"]
  match w.pos with
  | some pos => if c.posEmbedding then addV I (I "Gather" none none [P (pos ++ ".weight"), P "position"]) e else e
  | none => e

/-- The logits: embedding, all layers in order, final norm, output head, optional capping. -/
def logitsV : V :=
  let y := (List.range c.layers).foldl (fun x i => layerV I c w P i x) (embedV I c w P)
  let z := linV I P c.lmHeadBias w.lm (normV I c P w.lmNorm y)
  if c.softcap then I "LogitSoftCapping" none none [z, P ("models.final_logit_softcapping" ++ ".weight")] else z

end

end OnnxTool.Builder
