import Verif.Proofs.BuilderState
/-!
# C55-C57: graphs built from a configuration
-/
namespace OnnxTool.Props
open OnnxTool OnnxTool.Builder

/-- some layer of the model rotates queries and keys -/
def UsesRope (c : Cfg) : Prop := ∃ i ∈ List.range c.layers, ropeLayer c i

instance (c : Cfg) : Decidable (UsesRope c) := by unfold UsesRope; infer_instance

/-- linear-attention layers: the per-head norm has the size of an ordinary head, which must fit into the query and key projections -/
def LinearHeadsFit (c : Cfg) : Prop := (∃ i ∈ List.range c.layers, linearLayer c i) → c.headSize ∣ c.gdnQkHeads * c.gdnQkDim

/-- **C55.** Building succeeds and gives a valid graph with consistent shapes whose output has shape batch × sequence × vocabulary. -/
theorem C55_built_graph_is_valid (c : Cfg) (w : WMap) (h : CfgOk c w) (hn : NamesOk c w) (hg : LinearHeadsFit c)
    (hp : ¬ (c.posEmbedding = true ∧ UsesRope c)) :
    ∃ s, buildGraph c w = .ok s ∧ Valid s ∧ ShapesConsistent c s ∧ s.output.map s.shape = [[c.batch, c.seq, c.vocab]] ∧
      s.input = if c.posEmbedding = true ∨ UsesRope c then ["ids", "position"] else ["ids"] := by
  obtain ⟨s, hs, hi⟩ := build_ok h hn hg
  refine ⟨_, hs, valid_graph h hn hg hp hi, shapes_consistent (s := s) h hg hi, ?_, ?_⟩
  · simp only [List.map_cons, List.map_nil, shape_output, output_shape h hg hi]
  · simp only
    rw [hi.input]
    unfold baseInputs
    by_cases hR : UsesRope c
    · have hpe : c.posEmbedding = false := by
        cases hpp : c.posEmbedding
        · rfl
        · exact absurd ⟨hpp, hR⟩ hp
      rw [if_pos ((build_rope c w).2 hR), hpe, if_pos (Or.inr hR : false = true ∨ UsesRope c)]; rfl
    · rw [if_neg (fun h => hR ((build_rope c w).1 h))]
      cases hpp : c.posEmbedding
      · simp [hR]
      · simp [h.pos hpp]

/-- Llama-2-7B with a 128-token prompt -/
def llama7b : Cfg :=
  { batch := 1, seq := 128, hidden := 4096, heads := 32, kvHeads := 32, headSize := 128, inter := 11008, vocab := 32000, layers := 32,
    rotaryDim := 128 }

/-- GPT-2 and its weight map (`/repo/benchmark/llm_test.py` 1251-1278) -/
def gpt2 : Cfg :=
  { batch := 1, seq := 128, hidden := 768, heads := 12, kvHeads := 12, headSize := 64, inter := 3072, vocab := 50257, layers := 12,
    nPositions := 1024, act := "gelu_new", rmsEps := false, lnEps := true, mlpGate := false, normBias := true, fuseQkv := true, qkvBias := true,
    oBias := true, mlpBias := true, qkRope := false, posEmbedding := true }

@[inherit_doc gpt2]
def gpt2Map : WMap :=
  ⟨"wte", some "wpe", "h.", "ln_1", "attn.c_attn", "attn.q_proj", "attn.k_proj", "attn.v_proj", "attn.c_proj", "post_attention_layernorm",
   "ln_2", "mlp.gate_proj", "mlp.c_fc", "mlp.c_proj", "mlp.gate_up_proj", "post_feedforward_layernorm", "model.norm", "lm_head"⟩

/-- Qwen3.5-like hybrid: three linear-attention layers, then one gated attention layer, mixture of experts -/
def hybrid : Cfg :=
  { batch := 2, seq := 16, hidden := 2560, heads := 16, kvHeads := 4, headSize := 256, inter := 9216, vocab := 248320, layers := 4,
    rotaryDim := 64, layerTypes := ["linear_attention", "linear_attention", "linear_attention", "full_attention"], numExperts := 8,
    moeInter := 512, sharedInter := 512, gdnQkHeads := 16, gdnVHeads := 32, gdnQkDim := 128, gdnVDim := 128, qkNorm := true, qkvGated := true,
    isMoe := true, softcap := true }

/-- The default weight map gives different names to all parts unless the norm after attention is used. -/
theorem C55_default_map_ok (c : Cfg) (h : c.postAttnNorm = false) : NamesOk c WMap.default := by
  refine ⟨?_, by decide, by decide⟩
  simp only [localNames, h]
  decide

theorem C55_llama_hypotheses : CfgOk llama7b WMap.default ∧ NamesOk llama7b WMap.default ∧ LinearHeadsFit llama7b ∧
    ¬ (llama7b.posEmbedding = true ∧ UsesRope llama7b) ∧ UsesRope llama7b := by
  refine ⟨⟨by decide, by decide, by decide, by decide, by decide⟩, C55_default_map_ok _ rfl, ?_, by decide, ?_⟩
  · rintro ⟨i, _, hi⟩; cases i <;> cases hi
  · exact ⟨0, by decide, by decide⟩

theorem C55_gpt2_hypotheses : CfgOk gpt2 gpt2Map ∧ NamesOk gpt2 gpt2Map ∧ LinearHeadsFit gpt2 ∧ ¬ (gpt2.posEmbedding = true ∧ UsesRope gpt2) := by
  refine ⟨⟨by decide, by decide, by decide, by decide, by decide⟩, ⟨by decide, by decide, by decide⟩, ?_, ?_⟩
  · rintro ⟨i, _, hi⟩; cases i <;> cases hi
  · rintro ⟨_, i, _, hi⟩; exact absurd hi.1 (by decide)

theorem C55_hybrid_hypotheses : CfgOk hybrid WMap.default ∧ NamesOk hybrid WMap.default ∧ LinearHeadsFit hybrid ∧
    ¬ (hybrid.posEmbedding = true ∧ UsesRope hybrid) :=
  ⟨⟨by decide, by decide, by decide, by decide, by decide⟩, C55_default_map_ok _ rfl, fun _ => by decide, by decide⟩

/-- The distinct-names hypothesis is needed: with the default weight map the norm after attention and the norm before the
feed-forward block have one name, the later replaces the earlier in place, and the residual addition reads a tensor that is
computed from its own result (Gemma-2 without the renaming done in `/repo/benchmark/llm_test.py` 1064). -/
theorem C55_default_map_collides :
    ∃ s, buildGraph { llama7b with layers := 1, postAttnNorm := true } WMap.default = .ok s ∧ ¬ Valid s := by
  refine ⟨_, rfl, fun hv => ?_⟩
  have := hv.distinct
  revert this
  decide

/-- Learned positions together with rotary embeddings: the graph input `position` is listed twice. -/
theorem C55_position_twice (c : Cfg) (w : WMap) (h : CfgOk c w) (hn : NamesOk c w) (hg : LinearHeadsFit c) (hp : c.posEmbedding = true)
    (hr : UsesRope c) : ∃ s, buildGraph c w = .ok s ∧ s.input = ["ids", "position", "position"] ∧ ¬ Valid s := by
  obtain ⟨s, hs, hi⟩ := build_ok h hn hg
  have e : s.input = ["ids", "position", "position"] := by
    rw [hi.input, if_pos ((build_rope c w).2 hr)]
    simp [baseInputs, hp, h.pos hp]
  refine ⟨_, hs, e, fun hv => ?_⟩
  have := hv.distinct
  simp only [e] at this
  rw [List.append_assoc] at this
  exact absurd (List.nodup_append.1 this).1 (by decide)

/-- Learned positions with a weight map that has no name for them (the default one): KeyError, whatever the other settings. -/
theorem C55_missing_position_name (c : Cfg) (w : WMap) (hp : c.posEmbedding = true) (hw : w.pos = none) :
    buildGraph c w = .error .keyError := by
  have e : ∃ tail, (build c w).2 = (addEmbedding c (idsT c) c.vocab w.embed).2 ++
      { name := "", op := "", ins := [], out := (addEmbedding c (idsT c) c.vocab w.embed).1, err := some .keyError : Emit } :: tail := by
    unfold build
    rw [bind_snd, bind_snd]
    have : ∀ t, (addPos c w t).2 = [{ name := "", op := "", ins := [], out := t, err := some .keyError : Emit }] := by
      intro t; simp only [addPos, hp, if_true, hw]; rfl
    rw [this]
    exact ⟨_, rfl⟩
  obtain ⟨tail, e⟩ := e
  unfold buildGraph
  simp only
  rw [e]
  rfl

/-! ### Parameters -/

/-- **C56.** The initializers of the built graph have exactly as many elements as the architecture has parameters (plus the tables of the
rotary embedding, once). -/
theorem C56_parameter_count (c : Cfg) (w : WMap) (h : CfgOk c w) (hn : NamesOk c w) (hg : LinearHeadsFit c) :
    ∃ s, buildGraph c w = .ok s ∧ (s.initials.map fun x => (s.shape x).prod).sum = params c := by
  obtain ⟨s, hs, hi⟩ := build_ok h hn hg
  exact ⟨_, hs, count_graph (s := s) h hi⟩

/-- Llama-2-7B: 6,738,415,616 parameters and two tables of 4096 × 64. -/
theorem C56_llama7b : params llama7b = 6738415616 + 2 * (4096 * 64) := by decide

/-- GPT-2: 124,439,808 parameters, a second copy of the 50257 × 768 embedding as output head (the weights are tied in the original), and
three slices of four numbers in each of twelve layers. -/
theorem C56_gpt2 : params gpt2 = 124439808 + 50257 * 768 + 12 * 12 := by decide

/-! ### The key/value cache -/

/-- layer `i` has ordinary attention -/
def attentionLayer (c : Cfg) (i : Nat) : Bool := !decide (linearLayer c i) && !c.isMla

/-- **C57.** After building and adding the cache: the graph is still valid; there is exactly one attention node for each layer with
ordinary attention, in order; each of them reads query, key, value, `n_past` and `kv_cache`; its layer owns two slots of the cache; and a row
of the cache has exactly the size of a key and of a value. -/
theorem C57_cache_fits (c : Cfg) (w : WMap) (nContext : Nat) (h : CfgOk c w) (hn : NamesOk c w) (hg : LinearHeadsFit c)
    (hp : ¬ (c.posEmbedding = true ∧ UsesRope c)) :
    ∃ s, buildGraph c w = .ok s ∧ Valid (addKvCache c nContext s) ∧
      (addKvCache c nContext s).nodes.filterMap (·.2.layer) = (List.range c.layers).filter (attentionLayer c) ∧
      ∀ n ∈ (addKvCache c nContext s).nodes, n.2.op = "SDPA" → ∃ i q k v slots row,
        n.2.layer = some i ∧ n.2.input = [q, k, v, "n_past", "kv_cache"] ∧
        (addKvCache c nContext s).shape "kv_cache" = [c.batch, slots, nContext, row] ∧ 2 * i + 1 < slots ∧
        (addKvCache c nContext s).shape k = [c.batch, c.seq, row] ∧ (addKvCache c nContext s).shape v = [c.batch, c.seq, row] := by
  obtain ⟨s0, hs, hi⟩ := build_ok h hn hg
  have hval := valid_graph h hn hg hp hi
  obtain ⟨_, hfix⟩ := initials_nodup_outs h hn hi
  have hfresh : ∀ x, x = "n_past" ∨ x = "kv_cache" → x ∉ s0.input ++ s0.initials ++ s0.nodes.flatMap (·.2.output) := by
    intro x hx hm
    rw [List.append_assoc] at hm
    rcases List.mem_append.1 hm with hm | hm
    · rw [hi.input] at hm
      unfold baseInputs at hm
      rcases hx with rfl | rfl
      · split at hm <;> split at hm <;> simp at hm
      · split at hm <;> split at hm <;> simp at hm
    · obtain ⟨_, _, h3, h4⟩ := hfix x hm
      rcases hx with rfl | rfl
      exacts [h3 rfl, h4 rfl]
  refine ⟨_, hs, kv_valid c nContext _ hval (hfresh _ (.inl rfl)) (hfresh _ (.inr rfl)), ?_, ?_⟩
  · have e1 : ∀ l : List (String × BNode), (l.map fun e => if e.2.op = "SDPA" then (e.1, { e.2 with input := e.2.input ++ ["n_past", "kv_cache"] }) else e).filterMap
        (·.2.layer) = l.filterMap (·.2.layer) := by
      intro l
      rw [List.filterMap_map]
      congr 1
      funext e; simp only [Function.comp]; split <;> rfl
    refine (e1 s0.nodes).trans ((layers_graph hi).trans ?_)
    congr 1
    funext i
    unfold attnLayer attentionLayer
    congr 2
    by_cases hl : linearLayer c i
    · simp [(isGdn_iff c i).2 hl, hl]
    · have : isGdn c i = false := by
        cases hb : isGdn c i
        · rfl
        · exact absurd ((isGdn_iff c i).1 hb) hl
      simp [this, hl]
  · intro n hn hop
    obtain ⟨e, he, hne⟩ := List.mem_map.1 hn
    have hop' : e.2.op = "SDPA" := by
      rw [← hne] at hop
      split at hop
      · assumption
      · exact hop
    rw [if_pos hop'] at hne
    obtain ⟨i, hl, hlt, hat, htk⟩ := sdpa_tagged h hg hi e he hop'
    obtain ⟨o, ho, hr⟩ := shapes_consistent h hg hi e he
    rw [hop'] at hr
    have hmla : c.isMla = false := by
      unfold attnLayer at hat
      cases hm : c.isMla
      · rfl
      · rw [hm] at hat; simp at hat
    have hmem : ∀ x ∈ e.2.input, x ≠ "n_past" ∧ x ≠ "kv_cache" := by
      intro x hx
      obtain ⟨k, hk, hke⟩ := List.getElem_of_mem he
      have := hval.ordered k e.1 e.2 (by rw [← hke]; exact List.getElem?_eq_getElem hk) x hx
      have hm : x ∈ s0.input ++ s0.initials ++ s0.nodes.flatMap (·.2.output) := by
        rcases this with h | h | ⟨j, m, _, hm, hxm⟩
        · exact List.mem_append_left _ (List.mem_append_left _ h)
        · exact List.mem_append_left _ (List.mem_append_right _ h)
        · exact List.mem_append_right _ (List.mem_flatMap.2 ⟨m, List.mem_of_getElem? hm, hxm⟩)
      exact ⟨fun e => hfresh x (.inl e) hm, fun e => hfresh x (.inr e) hm⟩
    have hsh : ∀ x ∈ e.2.input, (addKvCache c nContext { s0 with output := [(build c w).1.name] }).shape x = s0.shape x := by
      intro x hx
      obtain ⟨a, b⟩ := hmem x hx
      simp only [St.shape, addKvCache, addInput]
      rw [Dict.get?_set_ne _ _ (fun e => b e.symm), Dict.get?_set_ne _ _ (fun e => a e.symm)]
    have hcache : (addKvCache c nContext { s0 with output := [(build c w).1.name] }).shape "kv_cache" =
        [c.batch, c.layers * 2, nContext, c.headSize * c.kvHeads] := by
      simp only [St.shape, addKvCache, addInput, Dict.get?_set_self, kvSize, hmla]
      rfl
    unfold opRule at hr
    simp only [String.reduceEq, if_false, if_true, or_false] at hr
    split at hr
    · rename_i b t dq b1 t1 dk b2 t2 dv hin
      split at hr
      · rename_i hc
        obtain ⟨_, _, _, _, _, hk, hv⟩ := hc
        have hlen : e.2.input.length = 3 := by simpa using congrArg List.length hin
        obtain ⟨q, k, v, hl3⟩ := List.length_eq_three.1 hlen
        rw [hl3] at hin
        simp only [List.map_cons, List.map_nil, List.cons.injEq, and_true] at hin
        rw [hl3] at hsh htk
        have tk := htk k (by simp)
        have tv := htk v (by simp)
        rw [hin.2.1] at tk
        rw [hin.2.2] at tv
        simp only [List.take_succ_cons, List.take_zero, List.cons.injEq, and_true] at tk tv
        refine ⟨i, q, k, v, c.layers * 2, c.headSize * c.kvHeads, ?_, ?_, hcache, by omega, ?_, ?_⟩
        · rw [← hne]; exact hl
        · rw [← hne]; simp [hl3]
        · rw [hsh k (by simp), hin.2.1, tk.1, tk.2, hk, Nat.mul_comm]
        · rw [hsh v (by simp), hin.2.2, tv.1, tv.2, hv, hk, Nat.mul_comm]
      · cases hr
    · cases hr

/-- Calling `add_kv_cache` a second time lists `n_past` and `kv_cache` twice: the graph is no longer valid. -/
theorem C57_cache_twice (c : Cfg) (n m : Nat) (s : St) : ¬ Valid (addKvCache c m (addKvCache c n s)) := by
  intro hv
  have := hv.distinct
  have e : (addKvCache c m (addKvCache c n s)).input = s.input ++ ["n_past", "kv_cache", "n_past", "kv_cache"] := by
    simp [addKvCache, addInput]
  rw [e, List.append_assoc] at this
  have := (List.nodup_append.1 (List.nodup_append.1 this).1).2.1
  revert this; decide

/-- The cache estimate `kv_params` is the size of the first `seq + n_past` rows of all slots of the cache. -/
theorem C57_kv_params (c : Cfg) (nPast : Nat) : kvParams c nPast = [c.batch, c.layers * 2, c.seq + nPast, kvSize c].prod := by
  simp only [kvParams, List.prod_cons, List.prod_nil, Nat.mul_one]
  simp only [Nat.mul_assoc, Nat.mul_left_comm, Nat.mul_comm]

/-- In a hybrid model it also counts the layers without attention, which keep no keys and values: four times too much here. -/
theorem C57_kv_params_hybrid : ((List.range hybrid.layers).filter (attentionLayer hybrid)).length = 1 ∧
    kvParams hybrid 0 = 4 * [hybrid.batch, 2, hybrid.seq, kvSize hybrid].prod := by decide

end OnnxTool.Props
