import Verif.Proofs.LlmCostState
import Verif.Props.Builder
import Mathlib.Tactic.Ring
/-!
# C66: the profile of a built decoder has the cost of the architecture
-/
namespace OnnxTool.Props
open OnnxTool OnnxTool.Builder OnnxTool.LlmCost

theorem standard_gdn {c : Cfg} (h : Standard c) : LinearHeadsFit c := fun ⟨i, hi, hl⟩ => absurd hl (h.2 i hi)

/-- the operators whose constants are matrix weights, experts or embedding rows -/
def matrixOps : List String := ["MatMul", "MoE", "MLA", "GDN", "Gather"]

theorem total_sums (rs : List Row) :
    (total rs).macs = (rs.map (·.fig.macs)).sum ∧
    (total rs).mm = ((rs.filter (·.op == "MatMul")).map (·.fig.macs)).sum ∧
    (total rs).mmW = ((rs.filter (·.op == "MatMul")).map (·.fig.static)).sum ∧
    (total rs).io = (rs.map (·.fig.io)).sum ∧
    (total rs).wMM = ((rs.filter fun r => matrixOps.contains r.op).map (·.fig.static)).sum ∧
    (total rs).wOther = ((rs.filter fun r => !matrixOps.contains r.op && r.op != "SDPA").map (·.fig.static)).sum ∧
    (total rs).kv = (rs.map (·.fig.kv)).sum := by
  induction rs with
  | nil => exact ⟨rfl, rfl, rfl, rfl, rfl, rfl, rfl⟩
  | cons r rs ih =>
    obtain ⟨h1, h2, h3, h4, h5, h6, h7⟩ := ih
    have hmm : isMM r.op = matrixOps.contains r.op := by
      simp only [isMM, matrixOps, List.contains_cons, List.contains_nil, Bool.or_false, ← Bool.or_assoc]
    simp only [total, Tot.add_def, h1, h2, h3, h4, h5, h6, h7, rowTot, List.map_cons, List.sum_cons, List.filter_cons, true_and, and_true, hmm]
    refine ⟨?_, ?_, ?_, ?_⟩
    · by_cases h : r.op = "MatMul" <;> simp [h]
    · by_cases h : r.op = "MatMul" <;> simp [h]
    · by_cases h : matrixOps.contains r.op = true
      · rw [if_pos h, if_pos h]; simp
      · rw [if_neg h, if_neg h]; simp
    · by_cases h : matrixOps.contains r.op = true
      · rw [if_pos (.inl h), if_neg (by rw [h]; simp)]; simp
      · by_cases hs : r.op = "SDPA"
        · rw [if_pos (.inr hs), if_neg (by simp [hs])]; simp
        · rw [if_neg (by simp only [not_or]; exact ⟨h, hs⟩), if_pos (by simp [hs] at h ⊢; exact h)]; simp

/-- The sums over the nodes of a profiled decoder with `keys` positions to attend to, `k` experts per token. -/
structure HasCost (c : Cfg) (k keys : Nat) (rs : List Row) : Prop where
  /-- all MACs -/
  macs : (rs.map (·.fig.macs)).sum = LlmCost.macs c k keys
  /-- those of the matrix products: every weight once per token -/
  products : ((rs.filter (·.op == "MatMul")).map (·.fig.macs)).sum = tokens c * matmulWeights c
  /-- the weights of the matrix products -/
  productWeights : ((rs.filter (·.op == "MatMul")).map (·.fig.static)).sum = matmulWeights c
  /-- elements written -/
  written : (rs.map (·.fig.io)).sum = LlmCost.written c
  /-- weights read -/
  weights : ((rs.filter fun r => matrixOps.contains r.op).map (·.fig.static)).sum = weightsRead c k
  /-- other constants read -/
  others : ((rs.filter fun r => !matrixOps.contains r.op && r.op != "SDPA").map (·.fig.static)).sum = othersRead c
  /-- attention nodes have no constants -/
  attention : ∀ r ∈ rs, r.op = "SDPA" → r.fig.static = 0
  /-- cached keys and values read -/
  cache : (rs.map (·.fig.kv)).sum = LlmCost.cached c keys

theorem hasCost_of_costs {c : Cfg} {w : WMap} {x : Attrs} {past keys : Nat} {cache : List (Bool × List Nat)} (hc : CacheIs c past cache keys)
    (h : CfgOk c w) (hs : Standard c) : ∃ rs, figs c x past cache (build c w).2 = .ok rs ∧ HasCost c x.topK keys rs := by
  obtain ⟨_, rs, h1, h2, hz⟩ := build_costs (x := x) hc w h hs
  obtain ⟨a1, a2, a3, a4, a5, a6, a7⟩ := total_sums rs
  rw [h2] at a1 a2 a3 a4 a5 a6 a7
  exact ⟨rs, h1, a1.symm, a2.symm, a3.symm, a4.symm, a5.symm, a6.symm, hz, a7.symm⟩

theorem rows_output (c : Cfg) (x : Attrs) (past : Nat) (s t : St) (h : s.tensors = t.tensors) (ns : List (String × BNode)) :
    rows c x past s ns = rows c x past t ns := by
  induction ns with
  | nil => rfl
  | cons n ns ih => simp only [rows, nodeFig, h, ih]

theorem profile_output (c : Cfg) (x : Attrs) (past : Nat) (s : St) (o : List String) {r : Except PyErr (List Row)} (h : profileGraph c x past s = r) :
    profileGraph c x past { s with output := o } = r := by
  rw [← h]
  exact rows_output c x past { s with output := o } s rfl _

theorem profile_kv_output (c : Cfg) (x : Attrs) (past n : Nat) (s : St) (o : List String) {r : Except PyErr (List Row)}
    (h : profileGraph c x past (addKvCache c n s) = r) : profileGraph c x past (addKvCache c n { s with output := o }) = r := by
  rw [← h]
  exact rows_output c x past (addKvCache c n { s with output := o }) (addKvCache c n s) rfl _

/-- **C66, without cache.** Profiling a graph built from any configuration with ordinary attention in all layers succeeds, and the sums are the
closed forms of the architecture; every sequence attends to all of its `seq` positions. -/
theorem C66_built_cost (c : Cfg) (w : WMap) (x : Attrs) (h : CfgOk c w) (hn : NamesOk c w) (hs : Standard c) :
    ∃ s rs, buildGraph c w = .ok s ∧ profileGraph c x 0 s = .ok rs ∧ HasCost c x.topK c.seq rs := by
  obtain ⟨s, e, hi⟩ := build_ok h hn (standard_gdn hs)
  obtain ⟨rs, h1, h2⟩ := hasCost_of_costs (x := x) (.none (past := 0)) h hs
  refine ⟨_, rs, e, ?_, h2⟩
  exact profile_output c x 0 s _ ((profile_plain h (standard_gdn hs) hi x 0).trans h1)

/-- **C66, with cache.** After `add_kv_cache` the same with all past positions, as long as the context is large enough; the cached elements
read are the `kv_params` of the builder. -/
theorem C66_cached_cost (c : Cfg) (w : WMap) (x : Attrs) (nContext nPast : Nat) (h : CfgOk c w) (hn : NamesOk c w) (hs : Standard c)
    (hfit : nPast + c.seq ≤ nContext) :
    ∃ s rs, buildGraph c w = .ok s ∧ profileGraph c x nPast (addKvCache c nContext s) = .ok rs ∧ HasCost c x.topK (nPast + c.seq) rs ∧
      (rs.map (·.fig.kv)).sum = kvParams c nPast := by
  obtain ⟨s, e, hi⟩ := build_ok h hn (standard_gdn hs)
  obtain ⟨rs, h1, h2⟩ := hasCost_of_costs (x := x) (.some (n := c.layers * 2) (m := kvSize c) hfit) h hs
  refine ⟨_, rs, e, ?_, h2, ?_⟩
  · exact profile_kv_output c x nPast nContext s _ ((profile_cached h (standard_gdn hs) hi x nPast nContext).trans h1)
  rw [h2.cache]
  simp only [cached, kvParams, kvSize, hs.1, kvDim, Bool.false_eq_true, if_false]
  ring

theorem llama_standard : Standard llama7b := ⟨rfl, fun i _ hl => by cases i <;> cases hl⟩
theorem gpt2_standard : Standard gpt2 := ⟨rfl, fun i _ hl => by cases i <;> cases hl⟩

/-- Llama-2-7B, 128 tokens: 6.6 G matrix weights, 855 G MACs altogether. -/
theorem C66_llama7b : matmulWeights llama7b = 6607077376 ∧ LlmCost.macs llama7b 8 128 = 855094570624 ∧
    LlmCost.cached llama7b 128 = 33554432 := by decide

example : ∃ s rs, buildGraph llama7b WMap.default = .ok s ∧ profileGraph llama7b {} 0 s = .ok rs ∧ HasCost llama7b 8 128 rs :=
  C66_built_cost llama7b WMap.default {} C55_llama_hypotheses.1 C55_llama_hypotheses.2.1 llama_standard
example : ∃ s rs, buildGraph gpt2 gpt2Map = .ok s ∧ profileGraph gpt2 {} 900 (addKvCache gpt2 1100 s) = .ok rs ∧ HasCost gpt2 8 1028 rs ∧
    (rs.map (·.fig.kv)).sum = kvParams gpt2 900 :=
  C66_cached_cost gpt2 gpt2Map {} 1100 900 C55_gpt2_hypotheses.1 C55_gpt2_hypotheses.2.1 gpt2_standard (by decide)

/-! ### Consequences -/

/-- Every further position in the cache costs the same: scores, softmax and weighted sum of all heads and layers. -/
theorem C66_cost_per_past_token (c : Cfg) (k keys : Nat) :
    LlmCost.macs c k (keys + 1) = LlmCost.macs c k keys + c.layers * (c.batch * c.heads * c.seq * (2 * c.headSize + 36)) := by
  simp only [LlmCost.macs, attentionOps]
  ring

/-- The cost of `n` decoding steps after one another. -/
def decodeCost (c : Cfg) (k : Nat) : Nat → Nat
  | 0 => 0
  | n + 1 => decodeCost c k n + LlmCost.macs { c with seq := 1 } k (n + 1)

/-- A prompt of `n` tokens at once is profiled at the cost of `n` single steps plus the scores above the diagonal, which the causal mask makes
useless: the profile does not use causality. -/
theorem C66_prefill_and_decode (c : Cfg) (k n : Nat) :
    2 * LlmCost.macs { c with seq := n } k n =
      2 * decodeCost c k n + c.layers * (c.batch * c.heads * (n * (n - 1)) * (2 * c.headSize + 36)) := by
  have step : ∀ m, 2 * decodeCost c k m + c.layers * (c.batch * c.heads * (m * (m - 1)) * (2 * c.headSize + 36)) =
      2 * (c.batch * m * matmulWeights c + c.layers * (c.batch * c.heads * m * m * (2 * c.headSize + 36)) +
        c.batch * m * (c.layers * layerOps c k + normOps c.hidden + (if c.posEmbedding then c.hidden else 0) + (if c.softcap then 43 * c.vocab else 0))) := by
    intro m
    induction m with
    | zero => simp [decodeCost]
    | succ m ih =>
      have e1 : matmulWeights { c with seq := 1 } = matmulWeights c := rfl
      have e2 : layerOps { c with seq := 1 } k = layerOps c k := rfl
      simp only [decodeCost, LlmCost.macs, tokens, attentionOps, e1, e2]
      cases m with
      | zero => simp [decodeCost]
      | succ m =>
        simp only [Nat.add_sub_cancel] at ih ⊢
        have := ih
        ring_nf at this ⊢
        omega
  rw [step n]
  rfl

/-- Outside the ordinary layers the profile counts work twice: the node of a gated delta net includes its query, key and value projections,
which the graph also has as three MatMul nodes. -/
theorem C66_gdn_counted_twice (c : Cfg) (w : WMap) (x : Attrs) (p : String) (t : T) (ht : t.shape = [c.batch, c.seq, c.hidden]) (hb : c.qkvBias = false) :
    ∃ rs f, figs c x 0 [] (addGdn c w p t).2 = .ok (rs ++ [⟨p ++ "gdn", "GDN", f⟩]) ∧
      ((rs.filter (·.op == "MatMul")).map (·.fig.macs)).sum =
        tokens c * (2 * (c.hidden * (c.gdnQkHeads * c.gdnQkDim)) + c.hidden * (c.gdnVHeads * c.gdnVDim)) ∧
      tokens c * (2 * (c.hidden * (c.gdnQkHeads * c.gdnQkDim)) + c.hidden * (c.gdnVHeads * c.gdnVDim)) ≤ f.macs := by
  have key : Costs c x 0 [] (do
      let q ← addMm c t c.hidden (c.gdnQkHeads * c.gdnQkDim) c.qkvBias (p ++ w.q)
      let k ← addMm c t c.hidden (c.gdnQkHeads * c.gdnQkDim) c.qkvBias (p ++ w.k)
      let v ← addMm c t c.hidden (c.gdnVHeads * c.gdnVDim) c.qkvBias (p ++ w.v)
      let q ← addQkNorm c q (p ++ "self_attn.q_norm")
      let k ← addQkNorm c k (p ++ "self_attn.k_norm")
      return (q, k, v))
      (fun r => r.1.shape = [c.batch, c.seq, c.gdnQkHeads * c.gdnQkDim]) _ :=
    costs_bind (mm_costs t _ _ _ _ ht) fun t1 s1 => costs_bind (mm_costs t _ _ _ _ ht) fun t2 s2 =>
      costs_bind (mm_costs t _ _ _ _ ht) fun t3 s3 => costs_bind (qknorm_costs t1 _ _ s1) fun t4 s4 =>
      costs_bind (qknorm_costs t2 _ _ s2) fun t5 s5 => costs_pure s4
  obtain ⟨h1, rs, h2, h3, _⟩ := key
  let f : Fig :=
    ⟨((Macs.GDN.mk c.hidden c.gdnQkHeads c.gdnVHeads c.gdnQkDim c.gdnVDim x.conv).profile c.batch c.seq).1,
     ((Macs.GDN.mk c.hidden c.gdnQkHeads c.gdnVHeads c.gdnQkDim c.gdnVDim x.conv).profile c.batch c.seq).2.1,
     ((Macs.GDN.mk c.hidden c.gdnQkHeads c.gdnVHeads c.gdnQkDim c.gdnVDim x.conv).profile c.batch c.seq).2.2, 0⟩
  refine ⟨rs, f, ?_, ?_, ?_⟩
  · have e : ∀ (q k v : T), q.shape = [c.batch, c.seq, c.gdnQkHeads * c.gdnQkDim] →
        figs c x 0 [] [({ name := p ++ "gdn", op := "GDN", ins := [q, k, v], out := ⟨p ++ "gdn" ++ ".output", [c.batch, c.seq, c.hidden]⟩ } : Emit)] =
          .ok [⟨p ++ "gdn", "GDN", f⟩] := by
      intro q k v hq
      have : emitFig c x 0 [] ({ name := p ++ "gdn", op := "GDN", ins := [q, k, v], out := ⟨p ++ "gdn" ++ ".output", [c.batch, c.seq, c.hidden]⟩ } : Emit) = .ok f := by
        simp only [emitFig, List.map_cons, List.map_nil]
        rw [show mark c _ q = (_, q.shape) from rfl, hq]
        simp only [opFig, String.reduceEq, or_self, if_false, if_true, List.cons_append]
        rfl
      simp only [figs, this]
    have := figs_append c x 0 [] _ _ h2 (e _ (addQkNorm c (addMm c t c.hidden (c.gdnQkHeads * c.gdnQkDim) c.qkvBias (p ++ w.k)).1 (p ++ "self_attn.k_norm")).1
      (addMm c t c.hidden (c.gdnVHeads * c.gdnVDim) c.qkvBias (p ++ w.v)).1 h1)
    exact this
  · rw [← (total_sums rs).2.1, h3]
    simp [linear, hb, Tot.zero]
    ring
  · simp only [f, Macs.GDN.profile, tokens]
    ring_nf
    omega

end OnnxTool.Props
