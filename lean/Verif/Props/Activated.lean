import Verif.Proofs.Activated
import Verif.Props.HybridCost
import Mathlib.Tactic.Ring
import Mathlib.Data.List.Perm.Subperm
import Mathlib.Data.Nat.ModEq
/-!
# C108: activated parameters are the weights a forward pass can read at most, total parameters those of the model
-/
namespace OnnxTool.Props
open OnnxTool OnnxTool.Builder OnnxTool.LlmCost OnnxTool.Activated

private theorem split_static (rs : List Row) (hz : ∀ r ∈ rs, r.op = "SDPA" → r.fig.static = 0) :
    (rs.map (·.fig.static)).sum = ((rs.filter fun r => matrixOps.contains r.op).map (·.fig.static)).sum +
      ((rs.filter fun r => !matrixOps.contains r.op && r.op != "SDPA").map (·.fig.static)).sum := by
  induction rs with
  | nil => rfl
  | cons r rs ih =>
    have ih := ih fun r h => hz r (List.mem_cons_of_mem _ h)
    have h0 := hz r List.mem_cons_self
    simp only [List.map_cons, List.sum_cons, List.filter_cons, ih]
    by_cases h : matrixOps.contains r.op = true
    · rw [if_pos h, if_neg (by rw [h]; simp)]; simp; omega
    · rw [if_neg h]
      by_cases hs : r.op = "SDPA"
      · rw [if_neg (by simp [hs]), h0 hs]; omega
      · rw [if_pos (by simp [hs] at h ⊢; exact h)]; simp; omega

/-- **C108, the two numbers.** For every configuration, with ordinary attention, latent attention or gated delta nets in its layers, the function
returns: weights of the blocks, router, chosen and shared experts, one embedding row per token and the small constants; and all constants. -/
theorem C108_values (c : Cfg) (w : WMap) (x : Attrs) (h : CfgOk c w) (hn : NamesOk c w) (hg : LinearHeadsFit c) :
    activatedParams c w x = .ok (hybridRead c x.topK + hybridOthers c, allHeld c) := by
  obtain ⟨s, rs, e1, e2, hc⟩ := C113_built_cost c w x h hn hg
  obtain ⟨s', e3, hi⟩ := build_ok h hn hg
  have e4 : paramsLoop s s.nodes 0 = .ok (allHeld c) := by
    rw [e1] at e3
    cases e3
    rw [params_graph h hg hi, (build_par w h).2]
  simp only [activatedParams, e1, e2, e4]
  rw [split_static rs hc.attention, hc.weights, hc.others]

/-! ### Against the weights a forward pass reads -/

private theorem occurring_le (n : Nat) (l : List Nat) : occurring n l ≤ min l.length n := by
  refine Nat.le_min.2 ⟨?_, ?_⟩
  · unfold occurring
    have hn : ((List.range n).filter fun e => decide (e ∈ l)).Nodup := List.Nodup.filter _ List.nodup_range
    exact (List.Subperm.length_le (hn.subperm fun a ha => by simpa using (List.mem_filter.1 ha).2))
  · have := List.length_filter_le (fun e => decide (e ∈ l)) (List.range n)
    rwa [List.length_range] at this

private theorem occurring_nodup {n : Nat} {l : List Nat} (hn : l.Nodup) (hr : ∀ e ∈ l, e < n) : occurring n l = l.length := by
  refine Nat.le_antisymm (Nat.le_trans (occurring_le n l) (Nat.min_le_left _ _)) ?_
  unfold occurring
  exact List.Subperm.length_le (hn.subperm fun a ha => List.mem_filter.2 ⟨List.mem_range.2 (hr a ha), by simpa using ha⟩)

private theorem occurring_all {n : Nat} {l : List Nat} (hr : ∀ e, e < n → e ∈ l) : occurring n l = n := by
  unfold occurring
  rw [List.filter_eq_self.2 (fun e he => by simpa using hr e (List.mem_range.1 he)), List.length_range]

private theorem flatten_length {k : Nat} (r : List (List Nat)) (h : ∀ l ∈ r, l.length = k) : r.flatten.length = r.length * k := by
  induction r with
  | nil => simp
  | cons a r ih =>
    simp only [List.flatten_cons, List.length_append, ih fun l hl => h l (List.mem_cons_of_mem _ hl), h a List.mem_cons_self, List.length_cons]
    ring

private theorem routing_le {n k t : Nat} {r : List (List Nat)} (h : Routing n k t r) : occurring n r.flatten ≤ min (t * k) n := by
  have := occurring_le n r.flatten
  rwa [flatten_length r h.count, h.length] at this

private theorem expert_le {c : Cfg} {k : Nat} {r : List (List Nat)} (h : Routing c.numExperts k (tokens c) r) :
    expertWeights c r ≤ moeRead c k + if c.noSharedExpert = false ∧ c.noSharedGate = false then c.hidden else 0 := by
  have h1 := routing_le h
  have h2 := Nat.mul_le_mul_right (3 * (c.moeInter * c.hidden)) h1
  unfold expertWeights moeRead
  cases c.noSharedExpert <;> cases c.noSharedGate <;> simp <;> omega

private theorem sum_le (l : List Nat) (f : Nat → Nat) (b : Nat) (h : ∀ i ∈ l, f i ≤ b) : (l.map f).sum ≤ l.length * b := by
  induction l with
  | nil => simp
  | cons a l ih =>
    have := ih fun i hi => h i (List.mem_cons_of_mem _ hi)
    have := h a List.mem_cons_self
    simp only [List.map_cons, List.sum_cons, List.length_cons, Nat.add_mul, Nat.one_mul]
    omega

private theorem sum_eq (l : List Nat) (f : Nat → Nat) (b : Nat) (h : ∀ i ∈ l, f i = b) : (l.map f).sum = l.length * b := by
  induction l with
  | nil => simp
  | cons a l ih =>
    have := ih fun i hi => h i (List.mem_cons_of_mem _ hi)
    have := h a List.mem_cons_self
    simp only [List.map_cons, List.sum_cons, List.length_cons, Nat.add_mul, Nat.one_mul]
    omega

private theorem sum_add (l : List Nat) (f g : Nat → Nat) : (l.map fun i => f i + g i).sum = (l.map f).sum + (l.map g).sum := by
  induction l with
  | nil => rfl
  | cons a l ih => simp only [List.map_cons, List.sum_cons, ih]; omega

private theorem sum_rope (c : Cfg) (rows : Nat) : overLayers c (ropeHeld c rows) = 4 * ropeLayers c * (rows * (c.rotaryDim / 2)) := by
  unfold overLayers ropeLayers
  induction List.range c.layers with
  | nil => simp
  | cons a l ih =>
    simp only [List.map_cons, List.sum_cons, ih, ropeHeld, List.filter_cons]
    by_cases h : ropeLayer c a
    · simp only [h, if_true, decide_true, List.length_cons]; ring
    · simp only [h, if_false, decide_false, Bool.false_eq_true]; ring

private theorem mix_eq (c : Cfg) (i : Nat) : mixRead c i + mixOthers c i = mixerParams c i + ropeHeld c (min c.seq c.maxPos) i := by
  unfold mixRead mixOthers mixerParams ropeHeld
  by_cases hi : linearLayer c i
  · have hr : ¬ ropeLayer c i := fun h => h.2.2 hi
    simp only [if_pos hi, if_neg hr]
    unfold netWeights gdnParams netQ netV
    omega
  · simp only [if_neg hi]
    by_cases hm : c.isMla = true
    · have hr : ¬ ropeLayer c i := fun h => by have := h.2.1; rw [hm] at this; cases this
      simp only [if_pos hm, if_neg hr]
    · simp only [if_neg hm]
      have e : attnParams c = attnWeights c + (if c.qkNorm then 2 * c.headSize else 0) + (if c.qkvGated then 2 * 4 else if c.fuseQkv then 3 * 4 else 0) := by
        unfold attnParams attnWeights qDim kvDim
        cases c.qkvGated <;> cases c.fuseQkv <;> simp <;> omega
      rw [e]
      by_cases hq : c.qkRope = true
      · have hr : ropeLayer c i := ⟨hq, by simpa using hm, hi⟩
        rw [if_pos hq, if_pos hr]; omega
      · have hr : ¬ ropeLayer c i := fun h => hq h.1
        rw [if_neg hq, if_neg hr]; omega

private theorem rope_split (c : Cfg) (rows : Nat) :
    4 * ropeLayers c * (rows * (c.rotaryDim / 2)) = tableRows c rows + tableRepeats c rows := by
  unfold tableRows tableRepeats
  rcases Nat.eq_zero_or_pos (ropeLayers c) with h | h
  · simp [h]
  · rw [if_neg (by omega), ← Nat.add_mul]
    congr 1
    omega

/-- the activated parameters, part by part -/
private theorem activated_split (c : Cfg) (k : Nat) : hybridRead c k + hybridOthers c =
    overLayers c (mixerParams c) + (if c.isMoe then c.layers * moeRead c k else c.layers * mlpParams c) + c.layers * (normCount c * norm c) + norm c +
    linear c.hidden c.vocab c.lmHeadBias + (if c.posEmbedding then 2 else 1) * (tokens c * c.hidden) +
    tableRows c (min c.seq c.maxPos) + tableRepeats c (min c.seq c.maxPos) := by
  have h1 : overLayers c (mixRead c) + overLayers c (mixOthers c) = overLayers c (mixerParams c) +
      (tableRows c (min c.seq c.maxPos) + tableRepeats c (min c.seq c.maxPos)) := by
    rw [← rope_split, ← sum_rope]
    unfold overLayers
    rw [← sum_add, ← sum_add]
    exact congrArg List.sum (List.map_congr_left fun i _ => mix_eq c i)
  have h2 : c.layers * (ffnProducts c + if c.isMoe then moeRead c k else 0) = if c.isMoe then c.layers * moeRead c k else c.layers * mlpParams c := by
    unfold ffnProducts
    by_cases hm : c.isMoe = true <;> simp [hm]
  unfold hybridRead hybridOthers
  rw [h2]
  omega

/-- **C108, upper bound.** Whatever the tokens and whatever experts they choose, the distinct weights read are at most the activated parameters,
apart from the gates of the shared experts, which the profile forgets. -/
theorem C108_upper_bound_partial (c : Cfg) (w : WMap) (x : Attrs) (h : CfgOk c w) (hn : NamesOk c w) (hg : LinearHeadsFit c) (hb : 0 < c.batch)
    (route : Nat → List (List Nat)) (ids : List Nat) (hi : Inputs c x.topK route ids) :
    ∃ a t, activatedParams c w x = .ok (a, t) ∧ weightsTouched c route ids + tableRepeats c (min c.seq c.maxPos) ≤ a + sharedGates c := by
  refine ⟨_, _, C108_values c w x h hn hg, ?_⟩
  rw [activated_split]
  have h1 : occurring c.vocab ids * c.hidden ≤ tokens c * c.hidden := by
    refine Nat.mul_le_mul_right _ (Nat.le_trans (occurring_le _ _) ?_)
    rw [hi.count]; exact Nat.min_le_left _ _
  have h2 : min c.seq c.nPositions * c.hidden ≤ tokens c * c.hidden := by
    refine Nat.mul_le_mul_right _ (Nat.le_trans (Nat.min_le_left _ _) ?_)
    unfold tokens
    exact Nat.le_mul_of_pos_left _ hb
  have h3 : (if c.isMoe then overLayers c fun i => expertWeights c (route i) else c.layers * mlpParams c) ≤
      (if c.isMoe then c.layers * moeRead c x.topK else c.layers * mlpParams c) + sharedGates c := by
    by_cases hm : c.isMoe = true
    · have := sum_le (List.range c.layers) (fun i => expertWeights c (route i)) _ fun i h => expert_le (hi.routing hm i h)
      rw [List.length_range] at this
      simp only [hm, if_true, sharedGates, overLayers]
      cases h4 : c.noSharedExpert <;> cases h5 : c.noSharedGate <;> simp [h4, h5, Nat.mul_add] at this ⊢ <;> omega
    · simp [hm]
  unfold weightsTouched
  cases c.posEmbedding <;> simp only [Bool.false_eq_true, if_false, if_true] <;> omega

private theorem exact_of {c : Cfg} {k : Nat} {route : Nat → List (List Nat)} {ids : List Nat} (hp : c.posEmbedding = true → c.batch = 1 ∧ c.seq ≤ c.nPositions)
    (h1 : occurring c.vocab ids = tokens c) (h2 : c.isMoe = true → ∀ i ∈ List.range c.layers, occurring c.numExperts (route i).flatten = min (tokens c * k) c.numExperts) :
    hybridRead c k + hybridOthers c + sharedGates c = weightsTouched c route ids + tableRepeats c (min c.seq c.maxPos) := by
  rw [activated_split]
  have h3 : (if c.isMoe then overLayers c fun i => expertWeights c (route i) else c.layers * mlpParams c) =
      (if c.isMoe then c.layers * moeRead c k else c.layers * mlpParams c) + sharedGates c := by
    by_cases hm : c.isMoe = true
    · have := sum_eq (List.range c.layers) (fun i => expertWeights c (route i)) (moeRead c k + if c.noSharedExpert = false ∧ c.noSharedGate = false then c.hidden else 0)
        fun i h => by
          unfold expertWeights moeRead
          rw [h2 hm i h]
          cases c.noSharedExpert <;> cases c.noSharedGate <;> simp <;> omega
      rw [List.length_range] at this
      simp only [hm, if_true, sharedGates, overLayers]
      rw [this]
      cases h4 : c.noSharedExpert <;> cases h5 : c.noSharedGate <;> simp [Nat.mul_add]
    · simp [hm, sharedGates]
  unfold weightsTouched
  rw [h1, h3]
  cases h5 : c.posEmbedding
  · simp only [Bool.false_eq_true, if_false]; omega
  · obtain ⟨hb, hseq⟩ := hp h5
    have e : min c.seq c.nPositions = tokens c := by rw [tokens, hb, Nat.one_mul, Nat.min_eq_left hseq]
    simp only [if_true, e]; omega

/-- token `t` chooses the experts `t * k, …, t * k + k - 1`, counted around -/
private def roundRobin (n k t : Nat) : List (List Nat) := (List.range t).map fun i => (List.range k).map fun j => (i * k + j) % n

private theorem roundRobin_routing {n k t : Nat} (hk : k ≤ n) : Routing n k t (roundRobin n k t) := by
  refine ⟨by simp [roundRobin], ?_, ?_, ?_⟩
  · intro l hl
    obtain ⟨i, _, rfl⟩ := List.mem_map.1 hl
    simp
  · intro l hl
    obtain ⟨i, _, rfl⟩ := List.mem_map.1 hl
    refine List.Nodup.map_on ?_ List.nodup_range
    intro a ha b hb e
    rw [List.mem_range] at ha hb
    have h1 : a % n = b % n := Nat.ModEq.add_left_cancel' (i * k) e
    rwa [Nat.mod_eq_of_lt (by omega), Nat.mod_eq_of_lt (by omega)] at h1
  · intro l hl e he
    obtain ⟨i, _, rfl⟩ := List.mem_map.1 hl
    obtain ⟨j, hj, rfl⟩ := List.mem_map.1 he
    rw [List.mem_range] at hj
    exact Nat.mod_lt _ (by omega)

private theorem roundRobin_mem {n k t m : Nat} (hm : m < t * k) : m % n ∈ (roundRobin n k t).flatten := by
  have hk : 0 < k := by rcases Nat.eq_zero_or_pos k with rfl | h; · simp at hm
                        · exact h
  refine List.mem_flatten.2 ⟨(List.range k).map fun j => (m / k * k + j) % n, List.mem_map.2 ⟨m / k, List.mem_range.2 (Nat.div_lt_of_lt_mul (by rwa [Nat.mul_comm])), rfl⟩, ?_⟩
  refine List.mem_map.2 ⟨m % k, List.mem_range.2 (Nat.mod_lt _ hk), ?_⟩
  rw [Nat.mul_comm (m / k) k, Nat.div_add_mod]

private theorem roundRobin_all {n k t : Nat} : occurring n (roundRobin n k t).flatten = min (t * k) n := by
  by_cases h : n ≤ t * k
  · rw [Nat.min_eq_right h]
    refine occurring_all fun e he => ?_
    have := roundRobin_mem (n := n) (k := k) (t := t) (m := e) (by omega)
    rwa [Nat.mod_eq_of_lt he] at this
  · rw [Nat.min_eq_left (by omega)]
    have hc : ∀ l ∈ roundRobin n k t, l.length = k := by
      intro l hl
      obtain ⟨i, _, rfl⟩ := List.mem_map.1 hl
      simp
    refine Nat.le_antisymm ?_ ?_
    · have := occurring_le n (roundRobin n k t).flatten
      rw [flatten_length _ hc] at this
      simp only [roundRobin, List.length_map, List.length_range] at this ⊢
      omega
    · unfold occurring
      have hn : (List.range (t * k)).Nodup := List.nodup_range
      have := List.Subperm.length_le (hn.subperm (l₂ := (List.range n).filter fun e => decide (e ∈ (roundRobin n k t).flatten)) fun a ha => by
        rw [List.mem_range] at ha
        refine List.mem_filter.2 ⟨List.mem_range.2 (by omega), ?_⟩
        have := roundRobin_mem (n := n) (k := k) (t := t) (m := a) ha
        rw [Nat.mod_eq_of_lt (by omega)] at this
        simpa using this)
      rwa [List.length_range] at this

/-- **C108, attained.** When a token chooses no more experts than there are and the vocabulary has enough words, some input reads that much: the bound
above cannot be improved. -/
theorem C108_attained_partial (c : Cfg) (w : WMap) (x : Attrs) (h : CfgOk c w) (hn : NamesOk c w) (hg : LinearHeadsFit c)
    (hk : x.topK ≤ c.numExperts) (hv : tokens c ≤ c.vocab) (hp : c.posEmbedding = true → c.batch = 1 ∧ c.seq ≤ c.nPositions) :
    ∃ a t route ids, activatedParams c w x = .ok (a, t) ∧ Inputs c x.topK route ids ∧
      a + sharedGates c = weightsTouched c route ids + tableRepeats c (min c.seq c.maxPos) := by
  refine ⟨_, _, fun _ => roundRobin c.numExperts x.topK (tokens c), List.range (tokens c), C108_values c w x h hn hg,
    ⟨fun _ _ _ => roundRobin_routing hk, List.length_range, fun t ht => Nat.lt_of_lt_of_le (List.mem_range.1 ht) hv⟩, ?_⟩
  refine exact_of hp ?_ fun _ _ _ => roundRobin_all
  rw [occurring_nodup List.nodup_range fun e he => Nat.lt_of_lt_of_le (List.mem_range.1 he) hv, List.length_range]

/-- **C108, one token.** For a single token there is nothing to estimate: every choice reads exactly that much. -/
theorem C108_one_token_partial (c : Cfg) (w : WMap) (x : Attrs) (h : CfgOk c w) (hn : NamesOk c w) (hg : LinearHeadsFit c) (hb : c.batch = 1) (hq : c.seq = 1)
    (hp : c.posEmbedding = true → 0 < c.nPositions) (route : Nat → List (List Nat)) (ids : List Nat) (hi : Inputs c x.topK route ids) :
    ∃ a t, activatedParams c w x = .ok (a, t) ∧ a + sharedGates c = weightsTouched c route ids + tableRepeats c (min 1 c.maxPos) := by
  have ht : tokens c = 1 := by rw [tokens, hb, hq]
  refine ⟨_, _, C108_values c w x h hn hg, ?_⟩
  rw [← hq]
  refine exact_of (fun e => ⟨hb, by have := hp e; omega⟩) ?_ ?_
  · obtain ⟨v, e⟩ := List.length_eq_one_iff.1 (hi.count.trans ht)
    rw [e, occurring_nodup (by simp) (by intro e' he; rw [List.mem_singleton] at he; subst he; exact hi.vocab _ (by rw [e]; simp)), ht]
    rfl
  · intro hm i hl
    have hr := hi.routing hm i hl
    obtain ⟨l, e⟩ := List.length_eq_one_iff.1 (hr.length.trans ht)
    have hmem : l ∈ route i := by rw [e]; simp
    have e2 : (route i).flatten = l := by rw [e]; simp
    rw [e2]
    have h1 := occurring_nodup (hr.distinct l hmem) (hr.range l hmem)
    have h2 := occurring_le c.numExperts l
    have h3 := hr.count l hmem
    rw [ht, h1]
    rw [h1] at h2
    omega

/-! ### Against the parameters of the model -/

private theorem sum_layerParams (c : Cfg) : overLayers c (layerParams c) =
    overLayers c (mixerParams c) + c.layers * (if c.isMoe then moeParams c else mlpParams c) + c.layers * (normCount c * norm c) := by
  have e : ∀ i, layerParams c i = mixerParams c i + ((if c.isMoe then moeParams c else mlpParams c) + normCount c * norm c) := fun i => by
    unfold layerParams mixerParams normCount
    omega
  have h := sum_eq (List.range c.layers) (fun _ => (if c.isMoe then moeParams c else mlpParams c) + normCount c * norm c) _ fun _ _ => rfl
  unfold overLayers
  rw [List.map_congr_left fun i _ => e i, sum_add, h, List.length_range]
  ring

/-- the total, part by part -/
private theorem held_split (c : Cfg) : allHeld c =
    c.vocab * c.hidden + (if c.posEmbedding then c.nPositions * c.hidden else 0) +
    (overLayers c (mixerParams c) + c.layers * (if c.isMoe then moeParams c else mlpParams c) + c.layers * (normCount c * norm c) +
      4 * ropeLayers c * (c.maxPos * (c.rotaryDim / 2))) + norm c + linear c.hidden c.vocab c.lmHeadBias := by
  unfold allHeld
  have : overLayers c (layerHeld c) = overLayers c (layerParams c) + overLayers c (ropeHeld c c.maxPos) := sum_add _ _ _
  rw [this, sum_layerParams, sum_rope]

/-- **C108, activated within total**, as long as the vocabulary and the table of positions have a row per token. -/
theorem C108_within_total_partial (c : Cfg) (w : WMap) (x : Attrs) (h : CfgOk c w) (hn : NamesOk c w) (hg : LinearHeadsFit c)
    (hv : tokens c ≤ c.vocab) (hp : c.posEmbedding = true → tokens c ≤ c.nPositions) :
    ∃ a t, activatedParams c w x = .ok (a, t) ∧ a + sharedGates c ≤ t := by
  refine ⟨_, _, C108_values c w x h hn hg, ?_⟩
  have h1 := Nat.mul_le_mul_right c.hidden hv
  have h2 : (if c.isMoe then c.layers * moeRead c x.topK else c.layers * mlpParams c) + sharedGates c ≤
      c.layers * (if c.isMoe then moeParams c else mlpParams c) := by
    by_cases hm : c.isMoe = true
    · have h3 : moeRead c x.topK + (if c.noSharedExpert = false ∧ c.noSharedGate = false then c.hidden else 0) ≤ moeParams c := by
        have := Nat.mul_le_mul_right (3 * (c.moeInter * c.hidden)) (Nat.min_le_right (tokens c * x.topK) c.numExperts)
        unfold moeRead moeParams
        cases c.noSharedExpert <;> cases c.noSharedGate <;> simp <;> omega
      have h4 := Nat.mul_le_mul_left c.layers h3
      simp only [hm, if_true, sharedGates]
      cases h5 : c.noSharedExpert <;> cases h6 : c.noSharedGate <;> simp [h5, h6, Nat.mul_add] at h4 ⊢ <;> omega
    · simp [hm, sharedGates]
  have h5 : 4 * ropeLayers c * (min c.seq c.maxPos * (c.rotaryDim / 2)) ≤ 4 * ropeLayers c * (c.maxPos * (c.rotaryDim / 2)) :=
    Nat.mul_le_mul_left _ (Nat.mul_le_mul_right _ (Nat.min_le_right _ _))
  have h6 := rope_split c (min c.seq c.maxPos)
  rw [activated_split, held_split]
  by_cases hpe : c.posEmbedding = true
  · have h9 := Nat.mul_le_mul_right c.hidden (hp hpe)
    simp only [hpe, if_true]; omega
  · simp only [hpe, if_false, Bool.false_eq_true]; omega

/-- The total exceeds the parameters of the architecture (C56) by the rotary tables, counted again for every further reading, less the scalar of the
final soft capping, which is not counted. -/
theorem C108_total_counts_tables_repeatedly (c : Cfg) :
    allHeld c + (if c.softcap then 1 else 0) = params c + tableRepeats c c.maxPos := by
  have h3 : (∃ i ∈ List.range c.layers, ropeLayer c i) ↔ ropeLayers c ≠ 0 := by
    unfold ropeLayers
    rw [Ne, List.length_eq_zero_iff, List.filter_eq_nil_iff]
    simp
  have h4 : (if ∃ i ∈ List.range c.layers, ropeLayer c i then 2 * (c.maxPos * (c.rotaryDim / 2)) else 0) = tableRows c c.maxPos := by
    unfold tableRows
    by_cases h : ropeLayers c = 0
    · rw [if_neg (fun e => h3.1 e h), if_pos h]
    · rw [if_pos (h3.2 h), if_neg h]
  have h5 := rope_split c c.maxPos
  have h6 := sum_layerParams c
  rw [held_split]
  unfold params
  rw [h4]
  unfold overLayers at h6 ⊢
  rw [h6]
  omega

/-- Longer sequences and larger batches activate at least as much. -/
theorem C108_monotone (c : Cfg) (w : WMap) (x : Attrs) (seq' : Nat) (h : CfgOk c w) (hn : NamesOk c w) (hg : LinearHeadsFit c) (hle : c.seq ≤ seq') :
    ∃ a a' t t', activatedParams c w x = .ok (a, t) ∧ activatedParams { c with seq := seq' } w x = .ok (a', t') ∧ a ≤ a' ∧ t' = t := by
  have h' : CfgOk { c with seq := seq' } w := ⟨h.eps, h.qkEps, h.act, h.groups, h.pos⟩
  have hn' : NamesOk { c with seq := seq' } w := ⟨hn.locals, hn.globals, hn.apart⟩
  refine ⟨_, _, _, _, C108_values c w x h hn hg, C108_values { c with seq := seq' } w x h' hn' hg, ?_, rfl⟩
  have ht : tokens c ≤ tokens { c with seq := seq' } := Nat.mul_le_mul_left _ hle
  have h1 := Nat.mul_le_mul_right c.hidden ht
  have h2 : moeRead c x.topK ≤ moeRead { c with seq := seq' } x.topK := by
    have : min (tokens c * x.topK) c.numExperts ≤ min (tokens { c with seq := seq' } * x.topK) c.numExperts := by
      have := Nat.mul_le_mul_right x.topK ht
      omega
    have := Nat.mul_le_mul_right (3 * (c.moeInter * c.hidden)) this
    unfold moeRead
    simp only []
    omega
  have h3 : (if c.isMoe then c.layers * moeRead c x.topK else c.layers * mlpParams c) ≤
      if c.isMoe then c.layers * moeRead { c with seq := seq' } x.topK else c.layers * mlpParams c := by
    split
    · exact Nat.mul_le_mul_left c.layers h2
    · exact Nat.le_refl _
  have h5 : min c.seq c.maxPos * (c.rotaryDim / 2) ≤ min seq' c.maxPos * (c.rotaryDim / 2) := Nat.mul_le_mul_right _ (by omega)
  have h6 : tableRows c (min c.seq c.maxPos) ≤ tableRows c (min seq' c.maxPos) := by
    unfold tableRows; split <;> omega
  have h7 : tableRepeats c (min c.seq c.maxPos) ≤ tableRepeats c (min seq' c.maxPos) := Nat.mul_le_mul_left _ h5
  have h8 : (if c.posEmbedding then 2 else 1) * (tokens c * c.hidden) ≤ (if c.posEmbedding then 2 else 1) * (tokens { c with seq := seq' } * c.hidden) :=
    Nat.mul_le_mul_left _ h1
  rw [activated_split, activated_split]
  exact Nat.add_le_add (Nat.add_le_add (Nat.add_le_add (Nat.add_le_add_right (Nat.add_le_add_right (Nat.add_le_add_right (Nat.add_le_add_left h3 _) _) _) _) h8) h6) h7

/-! ### Instances -/

/-- a small mixture of experts: four layers, 64 experts of which a token chooses 6, a gated shared expert -/
def smallMoe : Cfg :=
  { llama7b with layers := 4, isMoe := true, numExperts := 64, moeInter := 512, sharedInter := 1024, seq := 4 }

private theorem smallMoe_ok : CfgOk smallMoe WMap.default ∧ NamesOk smallMoe WMap.default ∧ Standard smallMoe :=
  ⟨⟨by decide, by decide, by decide, by decide, by decide⟩, C55_default_map_ok _ rfl, rfl, fun i _ hl => by cases i <;> cases hl⟩

example : ∃ a t route ids, activatedParams smallMoe WMap.default { topK := 6 } = .ok (a, t) ∧ Inputs smallMoe 6 route ids ∧
    a + sharedGates smallMoe = weightsTouched smallMoe route ids + tableRepeats smallMoe 4 :=
  C108_attained_partial smallMoe WMap.default { topK := 6 } smallMoe_ok.1 smallMoe_ok.2.1 (standard_gdn smallMoe_ok.2.2) (by decide) (by decide) (by decide)

/-- The same: 1.05 G of 2.2 G; 16384 weights of the gates and the tables read sixteen times rather than twice are the errors. -/
theorem C108_small_moe : activatedParams smallMoe WMap.default { topK := 6 } = .ok (1054924800, 2196819968) ∧ sharedGates smallMoe = 16384 ∧
    tableRepeats smallMoe 4 = 3584 ∧ params smallMoe + tableRepeats smallMoe 4096 = 2196819968 ∧ tableRepeats smallMoe 4096 = 3670016 := by
  rw [C108_values smallMoe WMap.default { topK := 6 } smallMoe_ok.1 smallMoe_ok.2.1 (standard_gdn smallMoe_ok.2.2)]
  decide

/-- Llama-2-7B: the total is 33 million above the number of parameters. -/
theorem C108_llama7b_total : ∃ a, activatedParams llama7b WMap.default {} = .ok (a, 6738415616 + 2 * (4096 * 64) + 33030144) := by
  rw [C108_values llama7b WMap.default {} C55_llama_hypotheses.1 C55_llama_hypotheses.2.1 (standard_gdn llama_standard)]
  exact ⟨_, rfl⟩

/-- **C108 fails for more tokens than words**: rows of the embedding are counted as often as they are read, and the activated parameters exceed all there
are.  A byte-level model (256 words) on 1000 tokens. -/
theorem C108_exceeds_total : ∃ c w, CfgOk c w ∧ NamesOk c w ∧ Standard c ∧ c.seq ≤ c.maxPos ∧ ∃ a t, activatedParams c w {} = .ok (a, t) ∧ t < a := by
  refine ⟨{ llama7b with layers := 1, vocab := 256, seq := 4000, inter := 128, heads := 2, kvHeads := 2 }, WMap.default,
    ⟨by decide, by decide, by decide, by decide, by decide⟩, C55_default_map_ok _ rfl, ⟨rfl, fun i _ hl => by cases i <;> cases hl⟩, by decide, ?_⟩
  rw [C108_values _ _ _ ⟨by decide, by decide, by decide, by decide, by decide⟩ (C55_default_map_ok _ rfl) (standard_gdn ⟨rfl, fun i _ hl => by cases i <;> cases hl⟩)]
  refine ⟨_, _, rfl, ?_⟩
  decide

/-- the hybrid of C55, with three delta nets: only one of its four layers rotates -/
example : ∃ a t, activatedParams hybrid WMap.default {} = .ok (a, t) ∧ a + sharedGates hybrid ≤ t :=
  C108_within_total_partial hybrid WMap.default {} C55_hybrid_hypotheses.1 C55_hybrid_hypotheses.2.1 C55_hybrid_hypotheses.2.2.1 (by decide) (by decide)
example : ropeLayers hybrid = 1 ∧ ropeLayers smallMoe = 4 := by decide

end OnnxTool.Props
