import Verif.Proofs.TopK
/-!
# C80: loading with a fixed `K` of the `TopK` nodes
-/
namespace OnnxTool.Props
open OnnxTool Remove Topsort Branch TopK

/-- the pass of a call that returns -/
private theorem setTopk_pass {fuel : Nat} {g g' : Graph} (h : setTopk fuel g = .ok g') : ∃ g1 R c, pass fuel (g.nodemap.map (·.name)) g [] 0 = .ok (g1, R, c) := by
  unfold setTopk at h
  split at h
  · cases h
  · exact ⟨_, _, _, by assumption⟩

/-- **C80, which nodes remain.** If the call returns, the new graph has exactly the nodes that do not serve a `K` only, in order and unchanged except that every `TopK` reads its `K` from
the new initializer; the inputs are the same, and the initializer is added if there is a `TopK`. -/
theorem C80_nodes (g0 : Graph) (h : Loaded g0) (fuel : Nat) (g' : Graph) (hg : setTopk fuel g0.updateConsumerProducer = .ok g') :
    g'.input = g0.input ∧ g'.initials = g0.initials ++ (if ∃ n ∈ g0.nodemap, n.op = "TopK" then [fixedName] else []) ∧
    ∃ keep : List Node, g'.nodemap = keep.map fixed ∧ keep.Sublist g0.nodemap ∧ ∀ m ∈ g0.nodemap, m ∈ keep ↔ ¬ ServesK g0.nodemap m := by
  have h' : Loaded g0.updateConsumerProducer := ⟨h.names, h.uniq, h.fresh⟩
  obtain ⟨g1, R, c, hp⟩ := setTopk_pass hg
  obtain ⟨g2, k1, k2, k3, k4, -⟩ := setTopk_of_pass h' (updateConsumerProducer_keys g0).2 (updateConsumerProducer_exact g0) fuel hp
  rw [hg] at k1
  cases k1
  obtain ⟨s1, -, -⟩ := pass_served h' (updateConsumerProducer_exact g0) fuel hp
  refine ⟨k3, k4, g0.nodemap.filter (fun m => !R.contains m.name), ?_, List.filter_sublist, fun m hm => ?_⟩
  · have : g'.nodemap = (g0.nodemap.map fixed).filter (fun m => !R.contains m.name) := k2
    rw [this, List.filter_map]
    refine congrArg (List.map fixed) (List.filter_congr fun m _ => ?_)
    simp only [Function.comp, fixed_name]
  · have : m.name ∈ R ↔ ServesK g0.nodemap m := s1 m hm
    rw [List.mem_filter, ← this]
    simp [hm]

/-- **C80, values.** The new graph computes what the old one computes when the `K` of every `TopK` is the given number: values that satisfy every node of the old graph with its `K`
replaced satisfy every node of the new one. -/
theorem C80_values {V : Type} (f : String → List V → Nat → V) (k : V) (env : String → V) (henv : env fixedName = k) (g0 : Graph) (h : Loaded g0) (fuel : Nat) (g' : Graph)
    (hg : setTopk fuel g0.updateConsumerProducer = .ok g') (hsat : ∀ n ∈ g0.nodemap, SatWith f k env n) : ∀ n ∈ g'.nodemap, Sat f env n := by
  obtain ⟨-, -, keep, h1, h2, -⟩ := C80_nodes g0 h fuel g' hg
  intro n hn
  rw [h1] at hn
  obtain ⟨m, hm, rfl⟩ := List.mem_map.mp hn
  intro i o ho hne
  rw [fixed_output] at ho
  rw [fixed_name, hsat m (h2.subset hm) i o ho hne]
  unfold fixed
  by_cases e : m.op = "TopK"
  · rw [if_pos e, if_pos e]
    show _ = f m.name ((m.input.set 1 fixedName).map env) i
    rw [List.map_set, henv]
  · rw [if_neg e, if_neg e]

private theorem readOnce_unique {N : List Node} {t : String} (h : ReadOnce N t) {a b : Node} (ha : a ∈ N) (hb : b ∈ N) (hat : t ∈ a.input) (hbt : t ∈ b.input) : a = b ∧ a.input.count t = 1 := by
  obtain ⟨L, R, rfl⟩ := List.append_of_mem ha
  unfold ReadOnce at h
  simp only [List.flatMap_append, List.flatMap_cons, List.count_append] at h
  have h1 := List.count_pos_iff.mpr hat
  refine ⟨?_, by omega⟩
  rcases List.mem_append.mp hb with hb | hb
  · have : 0 < (L.flatMap (·.input)).count t := List.count_pos_iff.mpr (List.mem_flatMap.mpr ⟨b, hb, hbt⟩)
    omega
  · rcases List.mem_cons.mp hb with hb | hb
    · exact hb.symm
    · have : 0 < (R.flatMap (·.input)).count t := List.count_pos_iff.mpr (List.mem_flatMap.mpr ⟨b, hb, hbt⟩)
      omega

/-- **C80 (partial): nothing is cut off.** If every node that serves a `K` only has one output, which is not an output of the graph, then every tensor that a node of the new graph reads and
that the old graph computes is still computed, and the outputs of the graph are the same and still computed.

Partial: without the condition on the outputs the claim is false — see the findings below. -/
theorem C80_closed_partial (g0 : Graph) (h : Loaded g0) (hsingle : ∀ m, ServesK g0.nodemap m → ∃ o, m.output = [o] ∧ o ∉ g0.output) (fuel : Nat) (g' : Graph)
    (hg : setTopk fuel g0.updateConsumerProducer = .ok g') :
    (∀ t, Read g'.nodemap t → Produced g0.nodemap t → Produced g'.nodemap t) ∧ g'.output = g0.output ∧ ∀ o ∈ g0.output, Produced g0.nodemap o → Produced g'.nodemap o := by
  obtain ⟨-, -, keep, h1, h2, h3⟩ := C80_nodes g0 h fuel g' hg
  have hkeep : ∀ m ∈ g0.nodemap, ¬ ServesK g0.nodemap m → ∀ t ∈ m.output, Produced g'.nodemap t := by
    intro m hm hs t ht
    refine ⟨fixed m, ?_, by rw [fixed_output]; exact ht⟩
    rw [h1]
    exact List.mem_map.mpr ⟨m, (h3 m hm).mpr hs, rfl⟩
  refine ⟨?_, ?_, ?_⟩
  · rintro t ⟨n', hn', ht⟩ ⟨m, hm, hmt⟩
    rw [h1] at hn'
    obtain ⟨n, hn, rfl⟩ := List.mem_map.mp hn'
    have hnN := h2.subset hn
    by_cases hs : ServesK g0.nodemap m
    · exfalso
      obtain ⟨o, ho, -⟩ := hsingle m hs
      rw [ho, List.mem_singleton] at hmt
      subst hmt
      have hne : t ≠ fixedName := fun e => (h.fresh m hm).2 (by rw [ho, e]; exact List.mem_singleton.mpr rfl)
      have htn : t ∈ n.input := by
        unfold fixed at ht
        split at ht
        · exact (List.mem_or_eq_of_mem_set ht).resolve_right hne
        · exact ht
      cases hs with
      | @k q _ t' hq hop hk honce _ hmo =>
        rw [ho, List.mem_singleton] at hmo
        subst hmo
        obtain ⟨rfl, hc⟩ := readOnce_unique honce hnN hq htn (List.mem_of_getElem? hk)
        unfold fixed at ht
        rw [if_pos hop] at ht
        have ht : t' ∈ n.input.set 1 fixedName := ht
        have h1 : 0 < (n.input.set 1 fixedName).count t' := List.count_pos_iff.mpr ht
        obtain ⟨hlt, he⟩ := List.getElem?_eq_some_iff.mp hk
        have hne' : (fixedName == t') = false := beq_false_of_ne fun e => hne e.symm
        rw [List.count_set hlt, he, hne'] at h1
        simp only [beq_self_eq_true, if_true, Bool.false_eq_true, if_false] at h1
        omega
      | @feeds q _ t' hs' hqt honce _ hmo =>
        rw [ho, List.mem_singleton] at hmo
        subst hmo
        obtain ⟨rfl, -⟩ := readOnce_unique honce hnN hs'.mem htn hqt
        exact (h3 n hnN).mp hn hs'
    · exact hkeep m hm hs t hmt
  · have h' : Loaded g0.updateConsumerProducer := ⟨h.names, h.uniq, h.fresh⟩
    obtain ⟨g1, R, c, hp⟩ := setTopk_pass hg
    obtain ⟨g2, k1, -, -, -, k5⟩ := setTopk_of_pass h' (updateConsumerProducer_keys g0).2 (updateConsumerProducer_exact g0) fuel hp
    rw [hg] at k1
    cases k1
    obtain ⟨s1, -, -⟩ := pass_served h' (updateConsumerProducer_exact g0) fuel hp
    refine k5 fun m hm hR o ho => ?_
    obtain ⟨o', ho', hout⟩ := hsingle m ((s1 m hm).mp hR)
    rw [ho', List.mem_singleton] at ho
    rw [ho]; exact hout
  · rintro o ho ⟨m, hm, hmo⟩
    refine hkeep m hm (fun hs => ?_) o hmo
    obtain ⟨o', ho', hout⟩ := hsingle m hs
    rw [ho', List.mem_singleton] at hmo
    exact hout (hmo ▸ ho)

/-- **C80, when the call returns.** For an acyclic graph in which no `TopK` serves only the `K` of another, the call returns — if it may take enough rounds — exactly if every `TopK`
has a second input and the tensors followed are all computed by nodes.  In particular it raises, however long it may run, if the `K` of one `TopK` is an initializer or an input of the
graph that is read nowhere else. -/
theorem C80_returns_iff (g0 : Graph) (h : Loaded g0) (hac : Acyclic g0.nodemap) (hno : ∀ m, ServesK g0.nodemap m → m.op ≠ "TopK") :
    ((∀ n ∈ g0.nodemap, n.op = "TopK" → n.input[1]? ≠ none) ∧ (∀ t, Followed g0.nodemap t → Produced g0.nodemap t) →
      ∃ rounds, ∀ fuel, rounds ≤ fuel → ∃ g', setTopk fuel g0.updateConsumerProducer = .ok g') ∧
    ((∃ fuel g', setTopk fuel g0.updateConsumerProducer = .ok g') →
      (∀ n ∈ g0.nodemap, n.op = "TopK" → n.input[1]? ≠ none) ∧ ∀ t, Followed g0.nodemap t → Produced g0.nodemap t) := by
  have h' : Loaded g0.updateConsumerProducer := ⟨h.names, h.uniq, h.fresh⟩
  constructor
  · rintro ⟨hK, hfol⟩
    obtain ⟨r, hr⟩ := rank_of h.names hac
    have hmax : ∀ l : List Nat, ∃ B, ∀ x ∈ l, x ≤ B := by
      intro l
      induction l with
      | nil => exact ⟨0, by simp⟩
      | cons a l ih =>
        obtain ⟨B, hB⟩ := ih
        refine ⟨a + B, fun x hx => ?_⟩
        rcases List.mem_cons.mp hx with rfl | hx
        · omega
        · have := hB x hx; omega
    obtain ⟨M, hM⟩ := hmax (g0.nodemap.map fun m => m.input.length)
    obtain ⟨B, hB⟩ := hmax (g0.nodemap.map fun m => (M + 1) ^ (r m.name + 1))
    refine ⟨B, fun fuel hf => ?_⟩
    obtain ⟨⟨g1, R, c⟩, hp⟩ := pass_total (fuel := fuel) h' (updateConsumerProducer_exact g0) (r := r) (M := M)
      (fun m hm => hM _ (List.mem_map.mpr ⟨m, hm, rfl⟩)) hr (fun m hm => Nat.le_trans (hB _ (List.mem_map.mpr ⟨m, hm, rfl⟩)) hf) hno hK hfol
      g0.nodemap [] g0.updateConsumerProducer [] 0 (fun _ hm => hm) h.names (by simp) (by unfold upTo; simp [Graph.updateConsumerProducer]) rfl rfl
    obtain ⟨g', h1, -⟩ := setTopk_of_pass h' (updateConsumerProducer_keys g0).2 (updateConsumerProducer_exact g0) fuel hp
    exact ⟨g', h1⟩
  · rintro ⟨fuel, g', hg⟩
    obtain ⟨g1, R, c, hp⟩ := setTopk_pass hg
    obtain ⟨-, s2, s3⟩ := pass_served h' (updateConsumerProducer_exact g0) fuel hp
    exact ⟨s2, s3⟩

/-- **C80 finding: `K` given as an initializer or as an input of the graph.** If a `TopK` is the only reader of its `K` and no node computes it, the model cannot be loaded with `fixed_topk`.
This is how exporters write a constant `K`. -/
theorem C80_initializer_raises (g0 : Graph) (h : Loaded g0) (n : Node) (hn : n ∈ g0.nodemap) (hop : n.op = "TopK") (t : String) (ht : n.input[1]? = some t)
    (honce : ReadOnce g0.nodemap t) (hnp : ¬ Produced g0.nodemap t) (fuel : Nat) (g' : Graph) : setTopk fuel g0.updateConsumerProducer ≠ .ok g' := by
  intro hg
  obtain ⟨g1, R, c, hp⟩ := setTopk_pass hg
  have h' : Loaded g0.updateConsumerProducer := ⟨h.names, h.uniq, h.fresh⟩
  obtain ⟨-, -, s3⟩ := pass_served h' (updateConsumerProducer_exact g0) fuel hp
  exact hnp (s3 t ⟨honce, .inl ⟨n, hn, hop, ht⟩⟩)

/-! ### a usual case -/

/-- `K = min(shape(x)[1], 100)` computed by nodes, the constants being `Constant` nodes; two `TopK` nodes, the second of which shares its `K` with a `Mul` -/
def topkGraph : Graph :=
  { nodemap := [⟨"shape", "Shape", ["x"], ["s"]⟩, ⟨"c1", "Constant", [], ["one"]⟩, ⟨"gather", "Gather", ["s", "one"], ["d"]⟩, ⟨"c100", "Constant", [], ["hundred"]⟩, ⟨"min", "Min", ["d", "hundred"], ["k"]⟩,
      ⟨"topk", "TopK", ["x", "k"], ["v", "i"]⟩, ⟨"ck", "Constant", [], ["k2"]⟩, ⟨"topk2", "TopK", ["v", "k2"], ["v2", "i2"]⟩, ⟨"mul", "Mul", ["v2", "k2"], ["y"]⟩]
    input := ["x"]
    output := ["y", "i"] }

theorem topkGraph_loaded : Loaded topkGraph where
  names := by decide
  uniq := by decide
  fresh := by decide

private theorem topkGraph_serves : ∀ m, ServesK topkGraph.nodemap m → m.name ∈ ["shape", "c1", "gather", "c100", "min"] := by
  have hk : ∀ n ∈ topkGraph.nodemap, n.op = "TopK" → ∀ t ∈ n.input, n.input[1]? = some t → ReadOnce topkGraph.nodemap t → ∀ m ∈ topkGraph.nodemap, t ∈ m.output →
      m.name ∈ ["shape", "c1", "gather", "c100", "min"] := by decide
  have hf : ∀ n ∈ topkGraph.nodemap, n.name ∈ ["shape", "c1", "gather", "c100", "min"] → ∀ t ∈ n.input, ReadOnce topkGraph.nodemap t → ∀ m ∈ topkGraph.nodemap, t ∈ m.output →
      m.name ∈ ["shape", "c1", "gather", "c100", "min"] := by decide
  intro m h
  induction h with
  | k hn hop ht ho hm hmt => exact hk _ hn hop _ (List.mem_of_getElem? ht) ht ho _ hm hmt
  | feeds hs hi ho hm hmt ih => exact hf _ hs.mem ih _ hi ho _ hm hmt

example : ∀ m, ServesK topkGraph.nodemap m → ∃ o, m.output = [o] ∧ o ∉ topkGraph.output := by
  intro m hm
  have key : ∀ m ∈ topkGraph.nodemap, m.name ∈ ["shape", "c1", "gather", "c100", "min"] → ∃ o ∈ m.output, m.output = [o] ∧ o ∉ topkGraph.output := by decide
  obtain ⟨o, -, ho⟩ := key m hm.mem (topkGraph_serves m hm)
  exact ⟨o, ho⟩

example : (setTopk 10 topkGraph.updateConsumerProducer).toOption.map (fun g => (g.nodemap, g.output, g.initials)) =
    some ([⟨"topk", "TopK", ["x", "constant_fixed_topk_k"], ["v", "i"]⟩, ⟨"ck", "Constant", [], ["k2"]⟩, ⟨"topk2", "TopK", ["v", "constant_fixed_topk_k"], ["v2", "i2"]⟩,
      ⟨"mul", "Mul", ["v2", "k2"], ["y"]⟩], ["y", "i"], ["constant_fixed_topk_k"]) := by decide

/-- the hypotheses of `C80_returns_iff` -/
example : Acyclic topkGraph.nodemap ∧ (∀ m, ServesK topkGraph.nodemap m → m.op ≠ "TopK") ∧ (∀ n ∈ topkGraph.nodemap, n.op = "TopK" → n.input[1]? ≠ none) ∧
    ∀ t, Followed topkGraph.nodemap t → Produced topkGraph.nodemap t := by
  refine ⟨⟨topkGraph.nodemap, List.Perm.refl _, by decide⟩, fun m hm => ?_, by decide, ?_⟩
  · have key : ∀ m ∈ topkGraph.nodemap, m.name ∈ ["shape", "c1", "gather", "c100", "min"] → m.op ≠ "TopK" := by decide
    exact key m hm.mem (topkGraph_serves m hm)
  · rintro t ⟨ho, ⟨n, hn, hop, ht⟩ | ⟨n, hn, ht⟩⟩
    · have key : ∀ n ∈ topkGraph.nodemap, n.op = "TopK" → ∀ t ∈ n.input, n.input[1]? = some t → Produced topkGraph.nodemap t := by decide
      exact key n hn hop t (List.mem_of_getElem? ht) ht
    · have key : ∀ n ∈ topkGraph.nodemap, n.name ∈ ["shape", "c1", "gather", "c100", "min"] → ∀ t ∈ n.input, ReadOnce topkGraph.nodemap t → Produced topkGraph.nodemap t := by decide
      exact key n hn.mem (topkGraph_serves n hn) t ht ho

/-! ### findings -/

/-- the case of `C80_initializer_raises`: `K` is an initializer -/
example : setTopk 10 ({ nodemap := [⟨"topk", "TopK", ["x", "k"], ["v", "i"]⟩], input := ["x"], output := ["v"], initials := ["k"] } : Graph).updateConsumerProducer = .error .keyError := rfl

/-- **C80 finding: applying it again.** `update_graph()` calls it again on the graph it produced; with one `TopK` that raises `KeyError`, because the new initializer is read once and
computed by no node. -/
theorem C80_twice_raises :
    ((setTopk 10 ({ nodemap := [⟨"ck", "Constant", [], ["k"]⟩, ⟨"topk", "TopK", ["x", "k"], ["v", "i"]⟩], input := ["x"], output := ["v"] } : Graph).updateConsumerProducer).toOption.map
      fun g => match setTopk 10 g.updateConsumerProducer with | .error e => e | .ok _ => .recursion) = some .keyError := by decide

/-- **C80 finding: other outputs.** A node that computes the `K` and something else is removed although the rest of the graph needs it; and an output of the graph computed on the way to a
`K` is lost. -/
theorem C80_other_output_lost :
    (setTopk 10 ({ nodemap := [⟨"split", "Split", ["x", "x"], ["k", "u"]⟩, ⟨"topk", "TopK", ["x", "k"], ["v", "i"]⟩, ⟨"add", "Add", ["v", "u"], ["y"]⟩], input := ["x"], output := ["y"] } :
      Graph).updateConsumerProducer).toOption.map (fun g => (g.nodemap.map (·.name), decide (Read g.nodemap "u"), decide (Produced g.nodemap "u"))) = some (["topk", "add"], true, false) ∧
    (setTopk 10 ({ nodemap := [⟨"ck", "Constant", [], ["k"]⟩, ⟨"topk", "TopK", ["x", "k"], ["v", "i"]⟩], input := ["x"], output := ["v", "k"] } :
      Graph).updateConsumerProducer).toOption.map (fun g => (g.nodemap.map (·.name), g.output)) = some (["topk"], ["v"]) := by decide

/-- **C80 finding: a `TopK` on the way to the `K` of a later one.** The first one has been changed when the search reaches it, and the new initializer is not in the index: `KeyError`. -/
theorem C80_topk_feeding_k_raises :
    setTopk 10 ({ nodemap := [⟨"c1", "Constant", [], ["k1"]⟩, ⟨"topk1", "TopK", ["x", "k1"], ["v1", "i1"]⟩, ⟨"max", "ReduceMax", ["i1"], ["k2"]⟩, ⟨"topk2", "TopK", ["x", "k2"], ["v2", "i2"]⟩], input := ["x"], output := ["v2"] } : Graph).updateConsumerProducer = .error .keyError := rfl

end OnnxTool.Props
