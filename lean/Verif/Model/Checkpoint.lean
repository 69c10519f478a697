import Verif.Model.Builder
import Verif.Model.Preload
/-!
# Loading a checkpoint into a built decoder

`get_qwen3_weight_map` (`/repo/inference/llm_infer.py` 507-543) and `_update_weight_shapes_from_safetensors`
(`/repo/inference/infer.py` 501-577).  Left out: printing, and reading the safetensors file itself (a dictionary from names to shapes).
An unknown shape is the empty list: `if tm.get_shape()` (564) does not tell it from the shape of a scalar.
-/
namespace OnnxTool.Checkpoint
open OnnxTool

/-- the parts of one layer that have an entry in the map (524-537), in order -/
def layerParts : List String :=
  ["input_layernorm.weight", "self_attn.q_proj.weight", "self_attn.q_proj.bias", "self_attn.k_proj.weight", "self_attn.k_proj.bias",
   "self_attn.v_proj.weight", "self_attn.v_proj.bias", "self_attn.o_proj.weight", "self_attn.q_norm.weight", "self_attn.k_norm.weight",
   "post_attention_layernorm.weight", "mlp.gate_proj.weight", "mlp.up_proj.weight", "mlp.down_proj.weight"]

/-- one turn of the loop over the layers (521-537) -/
def mapLayer (d : Dict String) (i : Nat) : Dict String :=
  layerParts.foldl (fun d part => d.set ("model.layers." ++ toString i ++ "." ++ part) ("model.layers." ++ toString i ++ "." ++ part)) d

/-- `get_qwen3_weight_map` (507-543) -/
def qwenMap (layers : Nat) (tied : Bool) : Dict String :=
  let d := Dict.set ([] : Dict String) "model.embed_tokens.weight" "model.embed_tokens.weight"
  let d := if tied then d.set "lm_head.weight" "model.embed_tokens.weight" else d.set "lm_head.weight" "lm_head.weight"
  let d := (List.range layers).foldl mapLayer d
  d.set "model.norm.weight" "model.norm.weight"

/-- what the function sees of the loaded model: operator and operands of the nodes in order, the tensors with their shapes, the names of
the inputs fed at run time (`input_desc`) and the outputs -/
structure Loaded where
  nodes : List (String × List String)
  tensors : Dict (List Nat)
  fed : List String
  outputs : List String

/-- the inner loop of 548-551 -/
def noteInputs (op : String) : List String → Dict String → Dict String
  | [], d => d
  | x :: xs, d => noteInputs op xs (if d.has x then d else d.set x op)

/-- `consumer_op` (547-551) -/
def consumerOp (nodes : List (String × List String)) : Dict String := nodes.foldl (fun d n => noteInputs n.1 n.2 d) []

/-- `_transpose_safetensors_shape` (519-525); `_safetensors_is_transposed_layout` (501-508) always says yes -/
def transposeShape (shape : List Nat) (op : String) : List Nat :=
  match shape with
  | [n, k] => if op = "MatMul" then [k, n] else [n, k]
  | s => s

/-- the name looked up in the checkpoint (566-570) -/
def sourceName (ck : Dict (List Nat)) (map : Dict String) (x : String) : String :=
  if ck.has x then x else (map.get? x).getD x

/-- one turn of the loop over the tensors (561-577): shapes and `_safetensors_updated` -/
def updateOne (g : Loaded) (ops : Dict String) (ck : Dict (List Nat)) (map : Dict String) (acc : Dict (List Nat) × List String) (x : String) :
    Dict (List Nat) × List String :=
  if (acc.1.get? x).getD [] ≠ [] ∨ x ∈ g.fed ∨ x ∈ g.outputs then acc
  else
    match ck.get? (sourceName ck map x) with
    | none => acc
    | some sh => (acc.1.set x (transposeShape sh ((ops.get? x).getD "")), acc.2 ++ [x])

/-- `_update_weight_shapes_from_safetensors` (535-577): the new shapes and the updated names -/
def update (g : Loaded) (ck : Dict (List Nat)) (map : Dict String) : Dict (List Nat) × List String :=
  g.tensors.keys.foldl (updateOne g (consumerOp g.nodes) ck map) (g.tensors, [])

end OnnxTool.Checkpoint
