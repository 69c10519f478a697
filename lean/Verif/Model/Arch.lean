import Verif.Model.Py
/-!
# `Builder.__init__`: the architecture table (`/repo/onnx_tool/llm.py` 19-185, 250-258)

`arch_config` is the entry of the module-level `ArchMap` itself, not a copy, and the constructor writes into it.  Only the three flags it
writes are kept; an entry is identified by its key, which is what makes the aliasing visible.
-/
namespace OnnxTool.Arch
open OnnxTool

/-- the flags of an entry that `__init__` may overwrite -/
structure Flags where
  qkvBias : Bool
  oBias : Bool
  mlpBias : Bool
  deriving DecidableEq, Repr

/-- the part of a configuration that matters here: `architectures[0]` and the optional keys `attention_bias` and `mlp_bias` -/
structure Config where
  arch : String
  attnBias : Option Bool := none
  mlpBias : Option Bool := none

/-- `ArchMap` (19-185) -/
def archMap : Dict Flags :=
  [("LlamaForCausalLM", ⟨false, false, false⟩), ("Qwen2ForCausalLM", ⟨true, false, false⟩), ("Qwen3ForCausalLM", ⟨true, false, false⟩),
   ("Qwen3_5ForConditionalGeneration", ⟨false, false, false⟩), ("Qwen3_5MoeForCausalLM", ⟨false, false, false⟩),
   ("DeepSeekV4ForCausalLM", ⟨false, false, false⟩), ("MiniMaxM2ForCausalLM", ⟨false, false, false⟩), ("Phi3ForCausalLM", ⟨false, false, false⟩),
   ("PhiForCausalLM", ⟨true, true, false⟩), ("Phi3SmallForCausalLM", ⟨false, false, false⟩), ("GPTJForCausalLM", ⟨false, false, false⟩),
   ("GPT2LMHeadModel", ⟨true, true, true⟩)]

/-- the entry a configuration uses (250-253): an unknown architecture uses that of Llama -/
def key (m : Dict Flags) (k : Config) : String := if m.has k.arch then k.arch else "LlamaForCausalLM"

/-- the two writes (254-258) -/
def overwrite (f : Flags) (k : Config) : Flags :=
  let f := match k.mlpBias with
    | some b => { f with mlpBias := b }
    | none => f
  match k.attnBias with
  | some b => { f with qkvBias := b, oBias := b }
  | none => f

/-- `Builder(**config)`: the table afterwards; without a Llama entry the lookup would be a KeyError (the table always has one) -/
def create (m : Dict Flags) (k : Config) : Dict Flags :=
  match m.get? (key m k) with
  | some f => m.set (key m k) (overwrite f k)
  | none => m

/-- what a builder with entry `e` sees when it builds its graph, while the table is `m` -/
def seen (m : Dict Flags) (e : String) : Option Flags := m.get? e

end OnnxTool.Arch
