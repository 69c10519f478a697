import Verif.Proofs.BuilderNames
import Mathlib.Tactic.Ring
/-!
# The builder: parameters, attention nodes and rotary embeddings of what is added
-/
namespace OnnxTool.Builder
open OnnxTool

/-- elements of the initializers one list of calls adds -/
def cost (es : List Emit) : Nat := ((es.flatMap (·.statics)).map (·.shape.prod)).sum

theorem cost_nil : cost [] = 0 := rfl
theorem cost_append (l m : List Emit) : cost (l ++ m) = cost l + cost m := by simp [cost]
theorem cost_cons (e : Emit) (l : List Emit) : cost (e :: l) = (e.statics.map (·.shape.prod)).sum + cost l := by simp [cost]

theorem embedding_cost (c : Cfg) (t : T) (n : Nat) (b : String) : cost (addEmbedding c t n b).2 = n * c.hidden := by
  simp [addEmbedding, emit, cost]

theorem layernorm_cost (c : Cfg) (t : T) (b : String) : cost (addLayernorm c t b).2 = norm c := by
  simp only [addLayernorm, emit, cost, normWeights, norm]
  cases c.normScale <;> cases c.normBias <;> simp

theorem act_cost (t : T) (a b : String) : cost (addAct t a b).2 = 0 := by simp [addAct, emit, cost]
theorem rope_cost (c : Cfg) (t : T) (b : String) : cost (addRope c t b).2 = 0 := by simp [addRope, emit, cost]
theorem eltop_cost (x y : T) (op b : String) : cost (addEltop x y op b).2 = 0 := by simp [addEltop, emit, cost]
theorem mm_cost (c : Cfg) (t : T) (fin fout : Nat) (bias : Bool) (b : String) : cost (addMm c t fin fout bias b).2 = linear fin fout bias := by
  cases bias <;> simp [addMm, emit, cost, mmWeights, linear]
theorem mha_cost (c : Cfg) (q k v : T) (i : Nat) (b : String) : cost (addMha c q k v i b).2 = 0 := by simp [addMha, emit, cost]
theorem slice_cost (t : T) (o n : Nat) (b : String) : cost (addSlice t o n b).2 = 4 := by simp [addSlice, emit, cost, sliceConsts]
theorem qknorm_cost (c : Cfg) (t : T) (b : String) : cost (addQkNorm c t b).2 = c.headSize := by simp [addQkNorm, emit, cost]
theorem gegelu_cost (t : T) (b : String) : cost (addGegelu t b).2 = 0 := by simp [addGegelu, emit, cost]
theorem softcap_cost (t : T) (b : String) : cost (addSoftcapping t b).2 = 1 := by simp [addSoftcapping, emit, cost]

theorem moe_cost (c : Cfg) (p : String) (t : T) : cost (addMoe c p t).2 = moeParams c := by
  simp only [addMoe, emit, cost, moeWeights, moeParams]
  cases c.noSharedExpert <;> cases c.noSharedGate <;> simp <;> ring

theorem mla_cost (c : Cfg) (p : String) (t : T) : cost (addMla c p t).2 = mlaParams c := by
  simp [addMla, emit, cost, mlaWeights, mlaParams]; ring

theorem cost_bind {α β : Type} (m : W α) (f : α → W β) : cost (m >>= f).2 = cost m.2 + cost (f m.1).2 := cost_append _ _
theorem cost_pure {α : Type} (a : α) : cost (pure a : W α).2 = 0 := rfl

theorem mlp_cost (c : Cfg) (w : WMap) (p : String) (t : T) : cost (addMlp c w p t).2 = mlpParams c := by
  unfold addMlp mlpParams
  split
  · simp only [cost_bind, mm_cost, gegelu_cost]; ring
  · rw [cost_bind, mm_cost]
    split
    · simp only [cost_bind, mm_cost, act_cost, eltop_cost]; ring
    · simp only [cost_bind, mm_cost, act_cost]; ring

theorem gdn_cost (c : Cfg) (w : WMap) (p : String) (t : T) : cost (addGdn c w p t).2 = gdnParams c := by
  unfold addGdn gdnParams
  simp only [cost_bind, mm_cost, qknorm_cost]
  simp only [emit, cost, List.flatMap_cons, List.flatMap_nil, List.append_nil, List.map_nil, List.sum_nil]
  ring

theorem projections_cost (c : Cfg) (w : WMap) (p : String) (t : T) : cost (addProjections c w p t).2 =
    (if c.qkvGated then linear c.hidden (c.heads * c.headSize * 2) c.qkvBias + 2 * linear c.hidden (c.kvHeads * c.headSize) c.qkvBias + 2 * 4
     else if c.fuseQkv then linear c.hidden (c.heads * c.headSize + c.kvHeads * c.headSize + c.kvHeads * c.headSize) c.qkvBias + 3 * 4
     else linear c.hidden (c.heads * c.headSize) c.qkvBias + 2 * linear c.hidden (c.kvHeads * c.headSize) c.qkvBias) := by
  unfold addProjections
  split
  · simp only [addQkvGated, cost_bind, mm_cost, slice_cost, cost_pure]; ring
  · rw [cost_bind]
    simp only [addQkv, cost_pure, Nat.add_zero]
    split
    · simp only [cost_bind, mm_cost, slice_cost, cost_pure]
    · simp only [cost_bind, mm_cost, cost_pure]; ring

theorem qknorms_cost (c : Cfg) (p : String) (q k : T) : cost (addQkNorms c p q k).2 = if c.qkNorm then 2 * c.headSize else 0 := by
  unfold addQkNorms
  split
  · simp only [cost_bind, qknorm_cost, cost_pure]; ring
  · rfl

theorem ropes_cost (c : Cfg) (p : String) (q k : T) : cost (addRopes c p q k).2 = 0 := by
  unfold addRopes
  split
  · simp only [cost_bind, rope_cost, cost_pure]
  · rfl

theorem gate_cost (p : String) (t : T) (g : Option T) : cost (addGate p t g).2 = 0 := by
  cases g with
  | none => rfl
  | some g => simp only [addGate, cost_bind, act_cost, eltop_cost]

theorem attention_cost (c : Cfg) (w : WMap) (i : Nat) (p : String) (t : T) : cost (addAttention c w i p t).2 = attnParams c := by
  unfold addAttention attnParams
  simp only [cost_bind, projections_cost, qknorms_cost, ropes_cost, mha_cost, gate_cost, mm_cost]
  ring

theorem optnorm_cost (c : Cfg) (on : Bool) (t : T) (b : String) : cost (addOptNorm c on t b).2 = (if on then 1 else 0) * norm c := by
  unfold addOptNorm
  split
  · rw [layernorm_cost]; ring
  · rw [cost_pure]; ring

theorem layer_cost (c : Cfg) (w : WMap) (i : Nat) (t : T) : cost (addLayer c w i t).2 = layerParams c i := by
  unfold addLayer layerParams
  simp only [cost_bind, layernorm_cost, optnorm_cost, eltop_cost]
  have hm : ∀ (p : String) (t : T), cost (addMixer c w i p t).2 = if linearLayer c i then gdnParams c else if c.isMla then mlaParams c else attnParams c := by
    intro p t
    unfold addMixer
    by_cases h : linearLayer c i
    · rw [if_pos ((isGdn_iff c i).2 h), if_pos h, gdn_cost]
    · rw [if_neg (fun x => h ((isGdn_iff c i).1 x)), if_neg h]
      split
      · rw [mla_cost]
      · rw [attention_cost]
  have hf : ∀ (p : String) (t : T), cost (addFfn c w p t).2 = if c.isMoe then moeParams c else mlpParams c := by
    intro p t
    unfold addFfn
    split
    · rw [moe_cost]
    · rw [mlp_cost]
  rw [hm, hf]
  ring

theorem layers_cost (c : Cfg) (w : WMap) (t : T) : ∀ (n : Nat), cost (addLayers c w t n).2 = ((List.range n).map (layerParams c)).sum := by
  intro n
  induction n with
  | zero => rfl
  | succ n ih => rw [addLayers, cost_bind, ih, layer_cost, List.range_succ]; simp

theorem pos_cost (c : Cfg) (w : WMap) (h : CfgOk c w) (t : T) : cost (addPos c w t).2 = if c.posEmbedding then c.nPositions * c.hidden else 0 := by
  unfold addPos
  split
  · rename_i hp
    have := h.pos hp
    cases hw : w.pos with
    | none => rw [hw] at this; cases this
    | some pos => simp only [cost_bind, embedding_cost, eltop_cost]; rfl
  · rfl

theorem build_cost (c : Cfg) (w : WMap) (h : CfgOk c w) : cost (build c w).2 + (if ∃ i ∈ List.range c.layers, ropeLayer c i then 2 * (c.maxPos * (c.rotaryDim / 2)) else 0) = params c := by
  unfold build params
  rw [cost_bind, cost_bind, cost_bind, cost_bind, embedding_cost, pos_cost c w h, layers_cost]
  rw [show ∀ t, cost (addLmHead c w t).2 = norm c + linear c.hidden c.vocab c.lmHeadBias from
    fun t => by rw [addLmHead, cost_bind, layernorm_cost, mm_cost]]
  have hs : ∀ t, cost (if c.softcap = true then addSoftcapping t "models.final_logit_softcapping" else pure t).2 = if c.softcap then 1 else 0 := by
    intro t
    split
    · rw [softcap_cost]
    · rfl
  rw [hs]
  omega

/-! ### Attention nodes -/

/-- the layer numbers of the attention nodes, in order -/
def sdpas (es : List Emit) : List Nat := es.filterMap (·.layer)

/-- a layer with ordinary attention -/
def attnLayer (c : Cfg) (i : Nat) : Bool := !isGdn c i && !c.isMla

theorem sdpas_bind {α β : Type} (m : W α) (f : α → W β) : sdpas (m >>= f).2 = sdpas m.2 ++ sdpas (f m.1).2 := List.filterMap_append
theorem sdpas_pure {α : Type} (a : α) : sdpas (pure a : W α).2 = [] := rfl

section
variable (c : Cfg) (w : WMap) (i : Nat) (t u v : T) (p b : String)
theorem embedding_sdpas (n : Nat) : sdpas (addEmbedding c t n b).2 = [] := rfl
theorem layernorm_sdpas : sdpas (addLayernorm c t b).2 = [] := rfl
theorem act_sdpas : sdpas (addAct t p b).2 = [] := rfl
theorem rope_sdpas : sdpas (addRope c t b).2 = [] := rfl
theorem eltop_sdpas : sdpas (addEltop t u p b).2 = [] := rfl
theorem mm_sdpas (m n : Nat) (x : Bool) : sdpas (addMm c t m n x b).2 = [] := rfl
theorem mha_sdpas : sdpas (addMha c t u v i b).2 = [i] := rfl
theorem slice_sdpas (m n : Nat) : sdpas (addSlice t m n b).2 = [] := rfl
theorem qknorm_sdpas : sdpas (addQkNorm c t b).2 = [] := rfl
theorem gegelu_sdpas : sdpas (addGegelu t b).2 = [] := rfl
theorem softcap_sdpas : sdpas (addSoftcapping t b).2 = [] := rfl
theorem moe_sdpas : sdpas (addMoe c p t).2 = [] := rfl
theorem mla_sdpas : sdpas (addMla c p t).2 = [] := rfl
theorem mlp_sdpas : sdpas (addMlp c w p t).2 = [] := by
  unfold addMlp
  split
  · rfl
  · rw [sdpas_bind, mm_sdpas]
    split <;> rfl
theorem gdn_sdpas : sdpas (addGdn c w p t).2 = [] := rfl
theorem projections_sdpas : sdpas (addProjections c w p t).2 = [] := by
  unfold addProjections
  split
  · rfl
  · rw [sdpas_bind]
    simp only [addQkv]
    split <;> rfl
theorem qknorms_sdpas : sdpas (addQkNorms c p t u).2 = [] := by unfold addQkNorms; split <;> rfl
theorem ropes_sdpas : sdpas (addRopes c p t u).2 = [] := by unfold addRopes; split <;> rfl
theorem gate_sdpas (g : Option T) : sdpas (addGate p t g).2 = [] := by cases g <;> rfl
theorem attention_sdpas : sdpas (addAttention c w i p t).2 = [i] := by
  unfold addAttention
  simp only [sdpas_bind, projections_sdpas, qknorms_sdpas, ropes_sdpas, mha_sdpas, gate_sdpas, mm_sdpas, List.nil_append, List.append_nil]
theorem optnorm_sdpas (on : Bool) : sdpas (addOptNorm c on t b).2 = [] := by unfold addOptNorm; split <;> rfl
theorem ffn_sdpas : sdpas (addFfn c w p t).2 = [] := by
  unfold addFfn
  split
  · rfl
  · rw [mlp_sdpas]
theorem mixer_sdpas : sdpas (addMixer c w i p t).2 = if attnLayer c i then [i] else [] := by
  unfold addMixer attnLayer
  cases isGdn c i
  · cases c.isMla
    · simp [attention_sdpas]
    · simp [mla_sdpas]
  · simp [gdn_sdpas]
theorem layer_sdpas : sdpas (addLayer c w i t).2 = if attnLayer c i then [i] else [] := by
  unfold addLayer
  simp only [sdpas_bind, layernorm_sdpas, mixer_sdpas, optnorm_sdpas, eltop_sdpas, ffn_sdpas, List.nil_append, List.append_nil]
end

theorem layers_sdpas (c : Cfg) (w : WMap) (t : T) : ∀ (n : Nat), sdpas (addLayers c w t n).2 = (List.range n).filter (attnLayer c) := by
  intro n
  induction n with
  | zero => rfl
  | succ n ih =>
    rw [addLayers, sdpas_bind, ih, layer_sdpas, List.range_succ, List.filter_append]
    congr 1
    simp only [List.filter_cons, List.filter_nil]

theorem pos_sdpas (c : Cfg) (w : WMap) (t : T) : sdpas (addPos c w t).2 = [] := by
  unfold addPos
  split
  · split <;> rfl
  · rfl

theorem build_sdpas (c : Cfg) (w : WMap) : sdpas (build c w).2 = (List.range c.layers).filter (attnLayer c) := by
  unfold build
  rw [sdpas_bind, sdpas_bind, sdpas_bind, sdpas_bind, embedding_sdpas, pos_sdpas, layers_sdpas]
  have : ∀ t, sdpas (if c.softcap = true then addSoftcapping t "models.final_logit_softcapping" else pure t).2 = [] := by
    intro t; split <;> rfl
  rw [this]
  rw [show ∀ t, sdpas (addLmHead c w t).2 = [] from fun t => rfl]
  simp

/-! ### Rotary embeddings -/

/-- some call adds a rotary embedding -/
def hasRope (es : List Emit) : Bool := es.any (·.op == "Rope")

theorem hasRope_bind {α β : Type} (m : W α) (f : α → W β) : hasRope (m >>= f).2 = (hasRope m.2 || hasRope (f m.1).2) := List.any_append

section
variable (c : Cfg) (w : WMap) (i : Nat) (t u v : T) (p b : String)
theorem embedding_rope (n : Nat) : hasRope (addEmbedding c t n b).2 = false := rfl
theorem layernorm_rope : hasRope (addLayernorm c t b).2 = false := rfl
theorem act_rope : hasRope (addAct t p b).2 = false := by
  have : (actOp p).getD "" ≠ "Rope" := by unfold actOp; split <;> decide
  simp [hasRope, addAct, emit, this]
theorem rope_rope : hasRope (addRope c t b).2 = true := rfl
theorem eltop_rope (h : p = "Add" ∨ p = "Mul") : hasRope (addEltop t u p b).2 = false := by rcases h with rfl | rfl <;> rfl
theorem mm_rope (m n : Nat) (x : Bool) : hasRope (addMm c t m n x b).2 = false := rfl
theorem mha_rope : hasRope (addMha c t u v i b).2 = false := rfl
theorem slice_rope (m n : Nat) : hasRope (addSlice t m n b).2 = false := rfl
theorem qknorm_rope : hasRope (addQkNorm c t b).2 = false := rfl
theorem gegelu_rope : hasRope (addGegelu t b).2 = false := rfl
theorem mlp_rope : hasRope (addMlp c w p t).2 = false := by
  unfold addMlp
  split
  · rfl
  · rw [hasRope_bind, mm_rope]
    split
    · simp only [hasRope_bind, mm_rope, act_rope, eltop_rope _ _ _ _ (.inr rfl : "Mul" = "Add" ∨ "Mul" = "Mul"), Bool.or_self]
    · simp only [hasRope_bind, mm_rope, act_rope, Bool.or_self]
theorem projections_rope : hasRope (addProjections c w p t).2 = false := by
  unfold addProjections
  split
  · rfl
  · rw [hasRope_bind]
    simp only [addQkv]
    split <;> rfl
theorem qknorms_rope : hasRope (addQkNorms c p t u).2 = false := by unfold addQkNorms; split <;> rfl
theorem ropes_rope : hasRope (addRopes c p t u).2 = c.qkRope := by
  unfold addRopes
  split
  · rename_i h; rw [h]; rfl
  · rename_i h; rw [Bool.not_eq_true] at h; rw [h]; rfl
theorem gate_rope (g : Option T) : hasRope (addGate p t g).2 = false := by
  cases g with
  | none => rfl
  | some g => simp only [addGate, hasRope_bind, act_rope, eltop_rope _ _ _ _ (.inr rfl : "Mul" = "Add" ∨ "Mul" = "Mul"), Bool.or_self]
theorem attention_rope : hasRope (addAttention c w i p t).2 = c.qkRope := by
  unfold addAttention
  simp only [hasRope_bind, projections_rope, qknorms_rope, ropes_rope, mha_rope, gate_rope, mm_rope, Bool.false_or, Bool.or_false]
theorem optnorm_rope (on : Bool) : hasRope (addOptNorm c on t b).2 = false := by unfold addOptNorm; split <;> rfl
theorem ffn_rope : hasRope (addFfn c w p t).2 = false := by
  unfold addFfn
  split
  · rfl
  · rw [mlp_rope]
theorem mixer_rope : hasRope (addMixer c w i p t).2 = decide (ropeLayer c i) := by
  unfold addMixer ropeLayer
  by_cases h : linearLayer c i
  · rw [if_pos ((isGdn_iff c i).2 h)]
    simp only [h, not_true, and_false, decide_false]; rfl
  · rw [if_neg (fun x => h ((isGdn_iff c i).1 x))]
    by_cases hm : c.isMla = true
    · rw [if_pos hm]; simp only [hm, Bool.true_eq_false, false_and, and_false, decide_false]; rfl
    · rw [if_neg hm, attention_rope]; simp [hm, h]
theorem layer_rope : hasRope (addLayer c w i t).2 = decide (ropeLayer c i) := by
  unfold addLayer
  simp only [hasRope_bind, layernorm_rope, mixer_rope, optnorm_rope, eltop_rope _ _ _ _ (.inl rfl : "Add" = "Add" ∨ "Add" = "Mul"), ffn_rope,
    Bool.false_or, Bool.or_false]
end

theorem layers_rope (c : Cfg) (w : WMap) (t : T) : ∀ (n : Nat), hasRope (addLayers c w t n).2 = (List.range n).any fun i => decide (ropeLayer c i) := by
  intro n
  induction n with
  | zero => rfl
  | succ n ih => rw [addLayers, hasRope_bind, ih, layer_rope, List.range_succ, List.any_append]; simp

theorem pos_rope (c : Cfg) (w : WMap) (t : T) : hasRope (addPos c w t).2 = false := by
  unfold addPos
  split
  · split <;> rfl
  · rfl

theorem build_rope (c : Cfg) (w : WMap) : hasRope (build c w).2 = true ↔ ∃ i ∈ List.range c.layers, ropeLayer c i := by
  unfold build
  rw [hasRope_bind, hasRope_bind, hasRope_bind, hasRope_bind, embedding_rope, pos_rope, layers_rope]
  have : ∀ t, hasRope (if c.softcap = true then addSoftcapping t "models.final_logit_softcapping" else pure t).2 = false := by
    intro t; split <;> rfl
  rw [this]
  rw [show ∀ t, hasRope (addLmHead c w t).2 = false from fun t => rfl]
  simp

end OnnxTool.Builder
