import Verif.Proofs.LlmCostState
import Verif.Spec.HybridCost
import Mathlib.Tactic.Ring
/-!
# The figures of a built decoder with any mixture of layers
-/
namespace OnnxTool.LlmCost
open OnnxTool OnnxTool.Builder OnnxTool.Macs

variable {c : Cfg} {x : Attrs} {past : Nat} {cache : List (Bool × List Nat)}

/-- the attributes of the nodes, as the specification names them -/
def latent (x : Attrs) : Latent := ⟨x.ropeDim, x.window, x.ratio, x.idxHeads, x.idxDim, x.idxTopK⟩

theorem kvLen_eq (c : Cfg) (x : Attrs) (s : Nat) : (mlaAttrs c x).kvLen s = positions (latent x) s := by
  unfold MLA.kvLen positions blocks mlaAttrs latent
  by_cases h : x.ratio = 0
  · simp [h]
  · simp [h, Nat.pos_of_ne_zero h]

theorem log_term (n : Nat) (m : Nat) : (if n > 1 then m * n * Nat.log2 n * CMP else 0) = m * (n * Nat.log2 n) := by
  by_cases h : n > 1
  · rw [if_pos h, CMP]; ring
  · rw [if_neg h]
    have : n = 0 ∨ n = 1 := by omega
    rcases this with rfl | rfl
    · simp
    · rw [show Nat.log2 1 = 0 by decide]; simp

theorem mla_macs (c : Cfg) (x : Attrs) : ((mlaAttrs c x).profile c.batch c.seq).1 = latentMacs c (latent x) := by
  simp only [MLA.profile, kvLen_eq, log_term]
  simp only [latentMacs, latentQuery, latentKv, latentOut, compressBlock, indexToken, tokens, qDim, mlaAttrs, latent, blocks, rms, l2, rope,
    EXP, MUL, ADD, SQRT, DIV, COS, SIN, CMP]
  by_cases h0 : x.ratio = 0
  · simp only [h0]
    simp
    ring
  · by_cases h4 : x.ratio = 4
    · simp only [h4]
      simp
      ring
    · simp only [h0, h4, if_false, Nat.pos_of_ne_zero h0, if_true]
      ring

theorem mla_costs (p : String) (t : T) (ht : t.shape = [c.batch, c.seq, c.hidden]) :
    Costs c x past cache (addMla c p t) (Has [c.batch, c.seq, c.hidden])
      ⟨latentMacs c (latent x), 0, 0, tokens c * (2 * c.hidden), mlaParams c, 0, 0⟩ := by
  unfold addMla
  refine costs_eq (costs_emit (f := ⟨latentMacs c (latent x), tokens c * (2 * c.hidden), mlaParams c, 0⟩) ?_ rfl) ?_
  · simp only [emitFig, List.map_cons]
    rw [show mark c _ t = (_, t.shape) from rfl, ht]
    simp only [opFig, String.reduceEq, or_self, if_false, if_true, List.cons_append, mla_macs, Except.ok.injEq, Fig.mk.injEq, and_true, true_and]
    refine ⟨?_, ?_⟩
    · simp only [MLA.profile, mlaAttrs, tokens]; ring
    · simp only [MLA.profile, mlaAttrs, mlaParams]; ring
  · simp [rowTot, isMM]

theorem net_costs (q k v : T) (p : String) (sq : q.shape = [c.batch, c.seq, netQ c]) :
    Costs c x past cache (emit { name := p ++ "gdn", op := "GDN", ins := [q, k, v], out := ⟨p ++ "gdn" ++ ".output", [c.batch, c.seq, c.hidden]⟩ })
      (Has [c.batch, c.seq, c.hidden]) ⟨netNode c x.conv, 0, 0, tokens c * (2 * c.hidden), 0, 0, 0⟩ := by
  refine costs_eq (costs_emit (f := ⟨netNode c x.conv, tokens c * (2 * c.hidden), 0, 0⟩) ?_ rfl) ?_
  · simp only [emitFig, List.map_cons]
    rw [show mark c _ q = (_, q.shape) from rfl, sq]
    simp only [opFig, String.reduceEq, or_self, if_false, if_true, List.cons_append, GDN.profile, Except.ok.injEq, Fig.mk.injEq, and_true]
    refine ⟨?_, ?_⟩
    · simp only [netNode, tokens, netQ, netV, EXP, MUL]; ring
    · simp only [tokens]; ring
  · simp [rowTot, isMM]

theorem gdn_costs (w : WMap) (p : String) (t : T) (ht : t.shape = [c.batch, c.seq, c.hidden]) :
    Costs c x past cache (addGdn c w p t) (Has [c.batch, c.seq, c.hidden])
      ⟨tokens c * (netWeights c + 2 * normOps (netQ c)) + netNode c x.conv, tokens c * netWeights c, netWeights c,
       tokens c * (4 * netQ c + netV c + 2 * c.hidden), netWeights c, 2 * c.headSize, 0⟩ := by
  unfold addGdn
  refine costs_eq (costs_bind (mm_costs t _ _ _ _ ht) fun q sq => costs_bind (mm_costs t _ _ _ _ ht) fun k sk => costs_bind (mm_costs t _ _ _ _ ht)
    fun v _ => costs_bind (qknorm_costs q _ _ sq) fun q1 sq1 => costs_bind (qknorm_costs k _ _ sk) fun k1 _ => net_costs q1 k1 v p sq1) ?_
  unfold netWeights netQ netV
  ext <;> simp only [Tot.add_def] <;> ring

theorem mixer_costs {keys : Nat} (hc : CacheIs c past cache keys) (w : WMap) (i : Nat) (p : String) (t : T) (ht : t.shape = [c.batch, c.seq, c.hidden]) :
    Costs c x past cache (addMixer c w i p t) (Has [c.batch, c.seq, c.hidden])
      ⟨mixMacs c (latent x) x.conv keys i, tokens c * mixProducts c i, mixProducts c i, tokens c * mixWritten c i, mixRead c i, mixOthers c i,
       mixCache c keys i⟩ := by
  unfold addMixer mixMacs mixProducts mixWritten mixRead mixOthers mixCache
  by_cases hi : linearLayer c i
  · simp only [if_pos hi, if_pos ((isGdn_iff c i).2 hi)]
    exact gdn_costs w p t ht
  · simp only [if_neg hi, if_neg (fun h => hi ((isGdn_iff c i).1 h))]
    by_cases hm : c.isMla = true
    · simp only [if_pos hm, Nat.mul_zero]
      exact mla_costs p t ht
    · simp only [if_neg hm]
      exact attention_costs hc w i p t ht

theorem anyLayer_costs {keys : Nat} (hc : CacheIs c past cache keys) (w : WMap) (i : Nat)
    (hact : c.isMoe = true ∨ c.phi3 = true ∨ c.act = "silu" ∨ c.act = "gelu_new") (t : T) (ht : t.shape = [c.batch, c.seq, c.hidden]) :
    Costs c x past cache (addLayer c w i t) (Has [c.batch, c.seq, c.hidden])
      ⟨mixMacs c (latent x) x.conv keys i + restMacs c x.topK, tokens c * (mixProducts c i + ffnProducts c), mixProducts c i + ffnProducts c,
       tokens c * (mixWritten c i + restWritten c), mixRead c i + (ffnProducts c + if c.isMoe then moeRead c x.topK else 0),
       mixOthers c i + normCount c * norm c, mixCache c keys i⟩ := by
  unfold addLayer
  refine costs_eq (costs_bind (layernorm_costs t _ ht) fun t1 s1 => costs_bind (mixer_costs hc w i _ t1 s1) fun t2 s2 =>
    costs_bind (optnorm_costs _ t2 _ s2) fun t3 s3 => costs_bind (eltop_costs t t3 "Add" _ _ (.inl rfl) ht s3) fun t4 s4 =>
    costs_bind (layernorm_costs t4 _ s4) fun t5 s5 => costs_bind (ffn_costs w hact _ t5 s5) fun t6 s6 =>
    costs_bind (optnorm_costs _ t6 _ s6) fun t7 s7 => eltop_costs t4 t7 "Add" _ _ (.inl rfl) s4 s7) ?_
  have e : ffnWeights c = ffnProducts c := rfl
  rw [e]
  unfold restMacs restWritten normCount
  ext <;> simp only [Tot.add_def] <;> ring

theorem sum_range_succ' (f : Nat → Nat) (n : Nat) : ((List.range (n + 1)).map f).sum = ((List.range n).map f).sum + f n := by
  rw [List.range_succ]; simp

theorem anyLayers_costs {keys : Nat} (hc : CacheIs c past cache keys) (w : WMap)
    (hact : c.isMoe = true ∨ c.phi3 = true ∨ c.act = "silu" ∨ c.act = "gelu_new") (t : T) (ht : t.shape = [c.batch, c.seq, c.hidden]) : ∀ (n : Nat),
    Costs c x past cache (addLayers c w t n) (Has [c.batch, c.seq, c.hidden])
      ⟨((List.range n).map (mixMacs c (latent x) x.conv keys)).sum + n * restMacs c x.topK,
       tokens c * (((List.range n).map (mixProducts c)).sum + n * ffnProducts c), ((List.range n).map (mixProducts c)).sum + n * ffnProducts c,
       tokens c * (((List.range n).map (mixWritten c)).sum + n * restWritten c),
       ((List.range n).map (mixRead c)).sum + n * (ffnProducts c + if c.isMoe then moeRead c x.topK else 0),
       ((List.range n).map (mixOthers c)).sum + n * (normCount c * norm c), ((List.range n).map (mixCache c keys)).sum⟩ := by
  intro n
  induction n with
  | zero =>
    refine costs_eq (costs_pure ht) ?_
    ext <;> simp [Tot.zero]
  | succ n ih =>
    refine costs_eq (costs_bind ih fun t1 s1 => anyLayer_costs hc w n hact t1 s1) ?_
    simp only [sum_range_succ']
    ext <;> simp only [Tot.add_def] <;> ring

theorem hybrid_costs {keys : Nat} (hc : CacheIs c past cache keys) (w : WMap) (h : CfgOk c w) :
    Costs c x past cache (build c w) (Has [c.batch, c.seq, c.vocab])
      ⟨hybridMacs c (latent x) x.conv x.topK keys, tokens c * hybridProducts c, hybridProducts c, hybridWritten c, hybridRead c x.topK,
       hybridOthers c, hybridCached c keys⟩ := by
  unfold build
  refine costs_eq (costs_bind (embedding_costs (idsT c) _ _ rfl) fun t1 s1 => costs_bind (pos_costs w h t1 s1) fun t2 s2 =>
    costs_bind (anyLayers_costs hc w h.act t2 s2 c.layers) fun t3 s3 =>
    costs_bind (costs_bind (layernorm_costs t3 _ s3) fun t4 s4 => mm_costs t4 _ _ _ _ s4) fun t5 s5 =>
    (show Costs c x past cache (if c.softcap then addSoftcapping t5 "models.final_logit_softcapping" else pure t5) (Has [c.batch, c.seq, c.vocab])
      ⟨tokens c * (if c.softcap then 43 * c.vocab else 0), 0, 0, tokens c * (if c.softcap then c.vocab else 0), 0, 0, 0⟩ from ?_)) ?_
  · split
    · exact softcap_costs t5 _ _ s5
    · exact costs_pure s5
  · unfold hybridMacs hybridProducts hybridWritten hybridRead hybridOthers hybridCached overLayers
    ext <;> simp only [Tot.add_def]
    · ring
    · ring
    · ring
    · by_cases h1 : c.posEmbedding = true <;> by_cases h2 : c.softcap = true <;> simp only [h1, h2, if_true, if_false, Bool.false_eq_true] <;> ring
    · by_cases h1 : c.posEmbedding = true <;> by_cases h2 : c.isMoe = true <;> simp only [h1, h2, if_true, if_false, Bool.false_eq_true] <;> ring
    · ring
    · ring

end OnnxTool.LlmCost
