import Verif.Proofs.BuilderSem
import Verif.Props.Builder
/-!
# C59: what a graph built from a configuration computes
-/
namespace OnnxTool.Props
open OnnxTool OnnxTool.Builder

/-- **C59.** Executing the built graph, node by node in its own order, gives the logits of the decoder the configuration describes: for
every meaning of the operators and all values of inputs and parameters, read by their checkpoint names. -/
theorem C59_built_graph_computes_decoder (c : Cfg) (w : WMap) (h : CfgOk c w) (hn : NamesOk c w) (hg : LinearHeadsFit c)
    (hp : ¬ (c.posEmbedding = true ∧ UsesRope c)) :
    ∃ s, buildGraph c w = .ok s ∧ ∀ (V : Type) (I : Interp V) (env : String → V), evalGraph I s env = [logitsV I c w env] := by
  obtain ⟨s, hs, hi⟩ := build_ok h hn hg
  exact ⟨_, hs, fun V I env => graph_sem h hi (valid_graph h hn hg hp hi) env⟩

/-- The hypotheses hold of Llama-2-7B, GPT-2 and a hybrid mixture-of-experts model. -/
theorem C59_examples (V : Type) (I : Interp V) (env : String → V) :
    (∃ s, buildGraph llama7b WMap.default = .ok s ∧ evalGraph I s env = [logitsV I llama7b WMap.default env]) ∧
    (∃ s, buildGraph gpt2 gpt2Map = .ok s ∧ evalGraph I s env = [logitsV I gpt2 gpt2Map env]) ∧
    (∃ s, buildGraph hybrid WMap.default = .ok s ∧ evalGraph I s env = [logitsV I hybrid WMap.default env]) := by
  obtain ⟨a1, a2, a3, a4, _⟩ := C55_llama_hypotheses
  obtain ⟨b1, b2, b3, b4⟩ := C55_gpt2_hypotheses
  obtain ⟨d1, d2, d3, d4⟩ := C55_hybrid_hypotheses
  obtain ⟨s, hs, e⟩ := C59_built_graph_computes_decoder _ _ a1 a2 a3 a4
  obtain ⟨s', hs', e'⟩ := C59_built_graph_computes_decoder _ _ b1 b2 b3 b4
  obtain ⟨s'', hs'', e''⟩ := C59_built_graph_computes_decoder _ _ d1 d2 d3 d4
  exact ⟨⟨s, hs, e V I env⟩, ⟨s', hs', e' V I env⟩, ⟨s'', hs'', e'' V I env⟩⟩

/-- Readable on a two-layer dense model without biases: the whole function. -/
theorem C59_two_layers {V : Type} (I : Interp V) (P : String → V) :
    logitsV I { llama7b with layers := 2 } WMap.default P =
      linV I P false "lm_head" (normV I llama7b P "model.norm"
        (layerV I llama7b WMap.default P 1 (layerV I llama7b WMap.default P 0
          (I "Gather" none none [P "model.embed_tokens.weight", P "ids"])))) := rfl

/-- The distinct-names condition is needed: with the default weight map and a norm after attention, the graph is not the decoder - the later
norm replaces the earlier one and the residual addition of layer 0 reads a value that has not been computed. -/
theorem C59_default_map_wrong :
    ∃ s, buildGraph { llama7b with layers := 1, postAttnNorm := true } WMap.default = .ok s ∧
      ∃ (I : Interp (List String)) (env : String → List String),
        evalGraph I s env ≠ [logitsV I { llama7b with layers := 1, postAttnNorm := true } WMap.default env] := by
  refine ⟨_, rfl, fun op _ _ xs => op :: xs.flatten, fun x => [x], ?_⟩
  decide

end OnnxTool.Props
