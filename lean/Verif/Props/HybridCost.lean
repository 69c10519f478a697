import Verif.Proofs.HybridCost
import Verif.Props.LlmCost
import Mathlib.Tactic.Ring
import Mathlib.Tactic.GCongr
import Mathlib.Data.Nat.Log
/-!
# C113: the profile of a decoder with latent attention or gated delta nets
-/
namespace OnnxTool.Props
open OnnxTool OnnxTool.Builder OnnxTool.LlmCost

/-- The sums over the nodes of a profiled decoder, whatever its layers. -/
structure HasHybridCost (c : Cfg) (l : Latent) (conv k keys : Nat) (rs : List Row) : Prop where
  /-- all MACs -/
  macs : (rs.map (·.fig.macs)).sum = hybridMacs c l conv k keys
  /-- those of the matrix products: every weight once per token -/
  products : ((rs.filter (·.op == "MatMul")).map (·.fig.macs)).sum = tokens c * hybridProducts c
  productWeights : ((rs.filter (·.op == "MatMul")).map (·.fig.static)).sum = hybridProducts c
  /-- elements written -/
  written : (rs.map (·.fig.io)).sum = hybridWritten c
  /-- weights read -/
  weights : ((rs.filter fun r => matrixOps.contains r.op).map (·.fig.static)).sum = hybridRead c k
  /-- other constants read -/
  others : ((rs.filter fun r => !matrixOps.contains r.op && r.op != "SDPA").map (·.fig.static)).sum = hybridOthers c
  attention : ∀ r ∈ rs, r.op = "SDPA" → r.fig.static = 0
  /-- cached keys and values read -/
  cache : (rs.map (·.fig.kv)).sum = hybridCached c keys

private theorem of_costs {c : Cfg} {w : WMap} {x : Attrs} {past keys : Nat} {cache : List (Bool × List Nat)} (hc : CacheIs c past cache keys)
    (h : CfgOk c w) : ∃ rs, figs c x past cache (build c w).2 = .ok rs ∧ HasHybridCost c (latent x) x.conv x.topK keys rs := by
  obtain ⟨_, rs, h1, h2, hz⟩ := hybrid_costs (x := x) hc w h
  obtain ⟨a1, a2, a3, a4, a5, a6, a7⟩ := total_sums rs
  rw [h2] at a1 a2 a3 a4 a5 a6 a7
  exact ⟨rs, h1, a1.symm, a2.symm, a3.symm, a4.symm, a5.symm, a6.symm, hz, a7.symm⟩

/-- **C113, without cache.** Profiling a graph built from any configuration - every layer ordinary attention, latent attention or a gated delta
net, dense or with experts - succeeds, and the sums are the closed forms of the architecture. -/
theorem C113_built_cost (c : Cfg) (w : WMap) (x : Attrs) (h : CfgOk c w) (hn : NamesOk c w) (hg : LinearHeadsFit c) :
    ∃ s rs, buildGraph c w = .ok s ∧ profileGraph c x 0 s = .ok rs ∧
      HasHybridCost c ⟨x.ropeDim, x.window, x.ratio, x.idxHeads, x.idxDim, x.idxTopK⟩ x.conv x.topK c.seq rs := by
  obtain ⟨s, e, hi⟩ := build_ok h hn hg
  obtain ⟨rs, h1, h2⟩ := of_costs (x := x) (.none (past := 0)) h
  exact ⟨_, rs, e, profile_output c x 0 s _ ((profile_plain h hg hi x 0).trans h1), h2⟩

/-- **C113, with cache.** After `add_kv_cache` ordinary attention has all past positions; latent attention and delta nets stay as they were. -/
theorem C113_cached_cost (c : Cfg) (w : WMap) (x : Attrs) (nContext nPast : Nat) (h : CfgOk c w) (hn : NamesOk c w) (hg : LinearHeadsFit c)
    (hfit : nPast + c.seq ≤ nContext) :
    ∃ s rs, buildGraph c w = .ok s ∧ profileGraph c x nPast (addKvCache c nContext s) = .ok rs ∧
      HasHybridCost c ⟨x.ropeDim, x.window, x.ratio, x.idxHeads, x.idxDim, x.idxTopK⟩ x.conv x.topK (nPast + c.seq) rs := by
  obtain ⟨s, e, hi⟩ := build_ok h hn hg
  obtain ⟨rs, h1, h2⟩ := of_costs (x := x) (.some (n := c.layers * 2) (m := kvSize c) hfit) h
  exact ⟨_, rs, e, profile_kv_output c x nPast nContext s _ ((profile_cached h hg hi x nPast nContext).trans h1), h2⟩

private theorem sum_const_map {f : Nat → Nat} {a : Nat} : ∀ {l : List Nat}, (∀ i ∈ l, f i = a) → (l.map f).sum = l.length * a
  | [], _ => by simp
  | b :: l, h => by
    rw [List.map_cons, List.sum_cons, h b (by simp), sum_const_map fun i hi => h i (by simp [hi]), List.length_cons]
    ring

private theorem over_const {c : Cfg} {f : Nat → Nat} {a : Nat} (h : ∀ i ∈ List.range c.layers, f i = a) : overLayers c f = c.layers * a := by
  rw [overLayers, sum_const_map h, List.length_range]

/-- With ordinary attention everywhere these are the forms of C66. -/
theorem C113_standard (c : Cfg) (l : Latent) (conv k keys : Nat) (hs : Standard c) :
    hybridMacs c l conv k keys = LlmCost.macs c k keys ∧ hybridProducts c = matmulWeights c ∧ hybridWritten c = LlmCost.written c ∧
    hybridRead c k = weightsRead c k ∧ hybridOthers c = othersRead c ∧ hybridCached c keys = LlmCost.cached c keys := by
  have hm : ¬ c.isMla = true := by rw [hs.1]; simp
  unfold hybridMacs hybridProducts hybridWritten hybridRead hybridOthers hybridCached
  rw [over_const (fun i hi => by rw [mixMacs, if_neg (hs.2 i hi), if_neg hm]), over_const (fun i hi => by rw [mixProducts, if_neg (hs.2 i hi), if_neg hm]),
    over_const (fun i hi => by rw [mixWritten, if_neg (hs.2 i hi), if_neg hm]), over_const (fun i hi => by rw [mixRead, if_neg (hs.2 i hi), if_neg hm]),
    over_const (fun i hi => by rw [mixOthers, if_neg (hs.2 i hi), if_neg hm]), over_const (fun i hi => by rw [mixCache, if_neg (hs.2 i hi), if_neg hm])]
  refine ⟨?_, ?_, ?_, ?_, ?_, ?_⟩
  · simp only [LlmCost.macs, matmulWeights, layerWeights, layerOps, restMacs, ffnProducts, normCount]; ring
  · simp only [matmulWeights, layerWeights, ffnProducts]; ring
  · simp only [LlmCost.written, layerWritten, restWritten, normCount]; ring
  · simp only [weightsRead, matmulWeights, layerWeights, ffnProducts]
    by_cases h : c.isMoe = true <;> simp only [h, if_true, if_false, Bool.false_eq_true] <;> ring
  · simp only [othersRead, normCount]; ring
  · rfl

private theorem sum_scaled {f g : Nat → Nat} (b : Nat) (h : ∀ i, f i = b * g i) : ∀ {l : List Nat}, (l.map f).sum = b * (l.map g).sum
  | [] => by simp
  | a :: l => by
    rw [List.map_cons, List.sum_cons, List.map_cons, List.sum_cons, h a, sum_scaled b h]
    ring

private theorem sum_mono {f g : Nat → Nat} (h : ∀ i, f i ≤ g i) : ∀ {l : List Nat}, (l.map f).sum ≤ (l.map g).sum
  | [] => by simp
  | a :: l => by
    rw [List.map_cons, List.sum_cons, List.map_cons, List.sum_cons]
    exact Nat.add_le_add (h a) (sum_mono h)

/-! ### What a user can conclude -/

/-- All weights of a latent-attention or delta-net block are read, however short the sequence: its matrix weights are the block's parameters. -/
theorem C113_reads_all_weights (c : Cfg) (i : Nat) :
    (c.isMla = true → ¬ linearLayer c i → mixRead c i + mixOthers c i = mlaParams c) ∧
    (linearLayer c i → mixRead c i + mixOthers c i = gdnParams c) := by
  refine ⟨fun hm hl => ?_, fun hl => ?_⟩
  · simp [mixRead, mixOthers, hm, hl]
  · simp only [mixRead, mixOthers, hl, if_true, netWeights, gdnParams, netQ, netV]

/-- Compression pays: a block of at least four tokens and a window of at most half of the sequence leave at most all of its positions. -/
theorem C113_sparse_is_sparse (l : Latent) (seq : Nat) (hr : 4 ≤ l.cr) (hw : 2 * l.win ≤ seq) : positions l seq ≤ seq := by
  unfold positions blocks
  rw [if_neg (by omega)]
  have : seq / l.cr ≤ seq / 4 := Nat.div_le_div_left hr (by omega)
  omega

/-- It need not: within the window all positions are counted, and the blocks once or twice more. -/
theorem C113_short_sequences_cost_more (l : Latent) (seq : Nat) (hr : 0 < l.cr) (hs : l.cr ≤ seq) (hw : seq ≤ l.win) : seq < positions l seq := by
  unfold positions blocks
  rw [if_neg (by omega)]
  have : 0 < seq / l.cr := Nat.div_pos hs hr
  omega

/-- For a model with latent attention in all layers no cached element is counted as read, although `kv_params` counts a cache. -/
theorem C113_latent_cache_not_counted (c : Cfg) (keys : Nat) (hm : c.isMla = true) :
    hybridCached c keys = 0 ∧ (0 < c.layers → 0 < c.batch → 0 < c.headSize → ∀ past, 0 < past + c.seq → 0 < kvParams c past) := by
  refine ⟨?_, fun h1 h2 h3 past h4 => ?_⟩
  · rw [hybridCached, over_const (a := 0) fun i _ => by simp [mixCache, hm]]
    simp
  · simp only [kvParams, kvSize, hm, if_true]
    exact Nat.mul_pos (Nat.mul_pos (Nat.mul_pos (Nat.mul_pos h2 (by omega)) h3) (by omega)) h1

/-- Every operation is per sequence of the batch. -/
theorem C113_linear_in_batch (c : Cfg) (l : Latent) (conv k keys : Nat) :
    hybridMacs c l conv k keys = c.batch * hybridMacs { c with batch := 1 } l conv k keys := by
  have e : overLayers c (mixMacs c l conv keys) = c.batch * overLayers { c with batch := 1 } (mixMacs { c with batch := 1 } l conv keys) := by
    unfold overLayers
    show _ = c.batch * ((List.range c.layers).map _).sum
    refine sum_scaled c.batch fun i => ?_
    unfold mixMacs
    by_cases hl : linearLayer c i
    · rw [if_pos hl, if_pos (show linearLayer { c with batch := 1 } i from hl)]
      simp only [netNode, tokens, netWeights, netQ, netV]; ring
    · rw [if_neg hl, if_neg (show ¬ linearLayer { c with batch := 1 } i from hl)]
      by_cases hm : c.isMla = true
      · rw [if_pos hm, if_pos hm]
        simp only [latentMacs, tokens, latentQuery, latentKv, latentOut, indexToken, qDim]
        by_cases h0 : l.cr = 0
        · simp only [h0, if_true, OfNat.zero_ne_ofNat, if_false]; ring
        · by_cases h4 : l.cr = 4
          · simp only [h4, if_true, OfNat.ofNat_ne_zero, if_false]; ring
          · simp only [h0, h4, if_false]; ring
      · rw [if_neg hm, if_neg hm]
        simp only [attentionOps, tokens, attnWeights, qDim, kvDim]; ring
  unfold hybridMacs
  rw [e]
  simp only [restMacs, tokens, normCount, ffnProducts, mlpParams, moeOps, mlpOps, actOps]
  ring

private theorem log_mono {a b : Nat} (h : a ≤ b) : a * Nat.log2 a ≤ b * Nat.log2 b := by
  refine Nat.mul_le_mul h ?_
  rw [Nat.log2_eq_log_two, Nat.log2_eq_log_two]
  exact Nat.log_mono_right h

private theorem positions_mono (l : Latent) {s t : Nat} (h : s ≤ t) : positions l s ≤ positions l t := by
  unfold positions blocks
  have : s / l.cr ≤ t / l.cr := Nat.div_le_div_right h
  split <;> omega

/-- A longer sequence never costs less. -/
theorem C113_monotone (c : Cfg) (l : Latent) (conv k keys keys' seq : Nat) (h : c.seq ≤ seq) (hk : keys ≤ keys') :
    hybridMacs c l conv k keys ≤ hybridMacs { c with seq := seq } l conv k keys' := by
  have ht : tokens c ≤ tokens { c with seq := seq } := Nat.mul_le_mul_left _ h
  have hb : blocks l c.seq ≤ blocks l seq := Nat.div_le_div_right h
  have hp := positions_mono l h
  have hl := log_mono hb
  unfold hybridMacs
  refine Nat.add_le_add (Nat.add_le_add (sum_mono fun i => ?_) ?_) ?_
  · unfold mixMacs
    by_cases hc : linearLayer c i
    · rw [if_pos hc, if_pos (show linearLayer { c with seq := seq } i from hc)]
      refine Nat.add_le_add (Nat.mul_le_mul_right _ ht) ?_
      unfold netNode
      refine Nat.mul_le_mul ht ?_
      show _ + _ + _ + c.seq * _ + _ + _ ≤ _ + _ + _ + seq * _ + _ + _
      gcongr <;> exact Nat.le_refl _
    · rw [if_neg hc, if_neg (show ¬ linearLayer { c with seq := seq } i from hc)]
      by_cases hm : c.isMla = true
      · rw [if_pos hm, if_pos hm]
        unfold latentMacs
        refine Nat.add_le_add (Nat.add_le_add (Nat.mul_le_mul ht ?_) ?_) ?_
        · exact Nat.add_le_add_right (Nat.add_le_add_left (Nat.mul_le_mul_left _ (Nat.mul_le_mul_right _ hp)) _) _
        · split
          · exact Nat.le_refl _
          · exact Nat.add_le_add (Nat.mul_le_mul_right _ ht) (Nat.mul_le_mul_left _ (Nat.mul_le_mul_right _ hb))
        · split
          · refine Nat.add_le_add (Nat.mul_le_mul ht ?_) (Nat.mul_le_mul_left _ (Nat.mul_le_mul_right _ hb))
            exact Nat.add_le_add (Nat.add_le_add_left (Nat.mul_le_mul_right _ hb) _) hl
          · exact Nat.le_refl _
      · rw [if_neg hm, if_neg hm]
        refine Nat.add_le_add (Nat.mul_le_mul_right _ ht) ?_
        exact Nat.mul_le_mul_right _ (Nat.mul_le_mul (Nat.mul_le_mul_left _ h) hk)
  · exact Nat.mul_le_mul_left _ (Nat.mul_le_mul_right _ ht)
  · exact Nat.mul_le_mul_right _ ht

/-! ### Concrete models -/

/-- DeepSeek-V4-Flash-like, two layers, compression to blocks of four tokens -/
private def latentModel : Cfg :=
  { batch := 1, seq := 1024, hidden := 4096, heads := 64, kvHeads := 1, headSize := 512, inter := 2048, vocab := 129280, layers := 2, numExperts := 256,
    moeInter := 2048, sharedInter := 2048, isMoe := true, isMla := true, noSharedGate := true }

private theorem latent_hyps : CfgOk latentModel WMap.default ∧ NamesOk latentModel WMap.default ∧ LinearHeadsFit latentModel :=
  ⟨⟨by decide, by decide, by decide, by decide, by decide⟩, C55_default_map_ok _ rfl, by rintro ⟨i, _, hi⟩; cases i <;> cases hi⟩

example : ∃ s rs, buildGraph latentModel WMap.default = .ok s ∧ profileGraph latentModel { ratio := 4, topK := 6 } 0 s = .ok rs ∧
    HasHybridCost latentModel ⟨64, 128, 4, 64, 128, 512⟩ 4 6 1024 rs :=
  C113_built_cost latentModel WMap.default { ratio := 4, topK := 6 } latent_hyps.1 latent_hyps.2.1 latent_hyps.2.2
example : positions ⟨64, 128, 4, 64, 128, 512⟩ 1024 = 640 ∧ positions ⟨64, 128, 4, 64, 128, 512⟩ 100 = 150 ∧
    mlaParams latentModel = 106956288 := by decide
example : ∃ s rs, buildGraph hybrid WMap.default = .ok s ∧ profileGraph hybrid {} 100 (addKvCache hybrid 200 s) = .ok rs ∧
    HasHybridCost hybrid ⟨64, 128, 0, 64, 128, 512⟩ 4 8 116 rs :=
  C113_cached_cost hybrid WMap.default {} 200 100 C55_hybrid_hypotheses.1 C55_hybrid_hypotheses.2.1 C55_hybrid_hypotheses.2.2.1 (by decide)
example : linearLayer hybrid 0 ∧ ¬ linearLayer hybrid 3 ∧ hybridCached hybrid 116 = 2 * 116 * (4 * 256 * 2) := by decide

end OnnxTool.Props
