import Verif.Proofs.Fuse
/-!
# C12-C14: splitting a graph at tensors, the interface of a node set, fusing a node set
-/
namespace OnnxTool.Props
open OnnxTool Remove Topsort Subgraph

private theorem ix_update {g : Graph} (hn : (g.nodemap.map (·.name)).Nodup) : Ix g.updateTensorRelations :=
  ⟨hn, updateConsumerProducer_exact g⟩

private theorem wf_update {g : Graph} (hn : (g.nodemap.map (·.name)).Nodup) (hu : UniqueProducers g.nodemap) :
    WF g.updateTensorRelations :=
  ⟨hn, updateConsumerProducer_exact g, (updateConsumerProducer_keys g).1, (updateConsumerProducer_keys g).2, hu⟩

/-- **C12.** For any graph and any boundary tensors the search terminates and returns three lists of node names: level 2
is exactly the nodes reachable from `outputs`, level 1 exactly the nodes reachable from `inputs` and not from `outputs`,
level 0 exactly the rest; no name is listed twice.  (`nodemap` is a dict: names are distinct.) -/
theorem C12_levels_exact (g : Graph) (hnames : (g.nodemap.map (·.name)).Nodup) (inputs outputs : List String) :
    ∃ l0 l1 l2, subnodesByIO g.updateTensorRelations inputs outputs = .ok (l0, l1, l2) ∧
      l0.Nodup ∧ l1.Nodup ∧ l2.Nodup ∧
      (∀ x, x ∈ l2 ↔ ∃ n ∈ g.nodemap, n.name = x ∧ Reach g.nodemap outputs n) ∧
      (∀ x, x ∈ l1 ↔ ∃ n ∈ g.nodemap, n.name = x ∧ Reach g.nodemap inputs n ∧ ¬ Reach g.nodemap outputs n) ∧
      (∀ x, x ∈ l0 ↔ ∃ n ∈ g.nodemap, n.name = x ∧ ¬ Reach g.nodemap inputs n ∧ ¬ Reach g.nodemap outputs n) := by
  obtain ⟨l1, l2, h1, h2, h3, h4, h5⟩ := subnodes_ok (ix_update hnames) inputs outputs
  have hin : ∀ n ∈ g.nodemap, (n.name ∈ l2 ↔ Reach g.nodemap outputs n) := by
    intro n hn
    rw [h4]
    constructor
    · rintro ⟨m, hm, e, hr⟩
      have : m = n := name_inj hnames hm hn e
      subst this; exact hr
    · intro hr; exact ⟨n, hn, rfl, hr⟩
  have hin1 : ∀ n ∈ g.nodemap, (n.name ∈ l1 ↔ Reach g.nodemap inputs n ∧ ¬ Reach g.nodemap outputs n) := by
    intro n hn
    rw [h5, hin n hn]
    apply and_congr_left
    intro _
    constructor
    · rintro ⟨m, hm, e, hr⟩
      have : m = n := name_inj hnames hm hn e
      subst this; exact hr
    · intro hr; exact ⟨n, hn, rfl, hr⟩
  refine ⟨_, l1, l2, h1, ?_, h2, h3, h4, ?_, ?_⟩
  · exact hnames.sublist List.filter_sublist
  · intro x
    constructor
    · intro hx
      obtain ⟨⟨n, hn, rfl, -⟩, -⟩ := (h5 x).mp hx
      exact ⟨n, hn, rfl, (hin1 n hn).mp hx⟩
    · rintro ⟨n, hn, rfl, hr⟩
      exact (hin1 n hn).mpr hr
  · intro x
    rw [List.mem_filter, Bool.and_eq_true, Bool.not_eq_true', Bool.not_eq_true', ← Bool.not_eq_true,
      ← Bool.not_eq_true, List.contains_iff_mem, List.contains_iff_mem]
    constructor
    · rintro ⟨hx, hx1, hx2⟩
      obtain ⟨n, hn, rfl⟩ := List.mem_map.mp hx
      rw [hin1 n hn] at hx1
      rw [hin n hn] at hx2
      exact ⟨n, hn, rfl, fun hr => hx1 ⟨hr, hx2⟩, hx2⟩
    · rintro ⟨n, hn, rfl, hr1, hr2⟩
      exact ⟨List.mem_map.mpr ⟨n, hn, rfl⟩, fun h => hr1 ((hin1 n hn).mp h).1, fun h => hr2 ((hin n hn).mp h)⟩

/-- **C12, partition.** Every node is in exactly one of the three levels. -/
theorem C12_partition (g : Graph) (hnames : (g.nodemap.map (·.name)).Nodup) (inputs outputs : List String)
    {l0 l1 l2 : List String} (h : subnodesByIO g.updateTensorRelations inputs outputs = .ok (l0, l1, l2)) :
    ∀ n ∈ g.nodemap, l0.count n.name + l1.count n.name + l2.count n.name = 1 := by
  obtain ⟨a0, a1, a2, h1, h2, h3, h4, h5, h6, h7⟩ := C12_levels_exact g hnames inputs outputs
  rw [h1] at h; cases h
  intro n hn
  have inj : ∀ m ∈ g.nodemap, m.name = n.name → m = n := fun m hm e => name_inj hnames hm hn e
  have e2 : n.name ∈ l2 ↔ Reach g.nodemap outputs n := by
    rw [h5]; exact ⟨fun ⟨m, hm, e, r⟩ => inj m hm e ▸ r, fun r => ⟨n, hn, rfl, r⟩⟩
  have e1 : n.name ∈ l1 ↔ Reach g.nodemap inputs n ∧ ¬ Reach g.nodemap outputs n := by
    rw [h6]; exact ⟨fun ⟨m, hm, e, r⟩ => inj m hm e ▸ r, fun r => ⟨n, hn, rfl, r⟩⟩
  have e0 : n.name ∈ l0 ↔ ¬ Reach g.nodemap inputs n ∧ ¬ Reach g.nodemap outputs n := by
    rw [h7]; exact ⟨fun ⟨m, hm, e, r⟩ => inj m hm e ▸ r, fun r => ⟨n, hn, rfl, r⟩⟩
  rw [h2.count, h3.count, h4.count]
  by_cases r2 : Reach g.nodemap outputs n <;> by_cases r1 : Reach g.nodemap inputs n <;> simp [e0, e1, e2, r1, r2]

/-- A diamond `a → (b, c) → d → e`. -/
def diamond : Graph :=
  { nodemap := [⟨"a", "Relu", ["x"], ["ta"]⟩, ⟨"b", "Exp", ["ta"], ["tb"]⟩, ⟨"c", "Exp", ["ta"], ["tc"]⟩,
                ⟨"d", "Add", ["tb", "tc"], ["td"]⟩, ⟨"e", "Relu", ["td"], ["te"]⟩]
    input := ["x"], output := ["te"], initials := [] }

example : (diamond.nodemap.map (·.name)).Nodup := by decide
example : subnodesByIO diamond.updateTensorRelations ["ta"] ["td"] = .ok (["a"], ["b", "c", "d"], ["e"]) := rfl

/-- **C13.** For any graph and any set of node names of it, `get_iotensors` returns each interface tensor once: the inputs
are exactly the non-empty tensor names read by a node of the set (minus initializers, when asked) that have no producer
at all or a producer outside the set; the outputs are exactly the names produced by a node of the set (minus
initializers) that nobody reads or that some node outside the set reads. -/
theorem C13_interface_exact (g : Graph) (hnames : (g.nodemap.map (·.name)).Nodup) (names : List String)
    (hex : ∀ x ∈ names, ∃ n ∈ g.nodemap, n.name = x) (rmInit : Bool) :
    ∃ I O, getIOTensors g.updateTensorRelations names rmInit = .ok (I, O) ∧ I.Nodup ∧ O.Nodup ∧
      (∀ t, t ∈ I ↔ (∃ n ∈ g.nodemap, n.name ∈ names ∧ t ∈ n.input) ∧ t ≠ "" ∧ (rmInit = true → t ∉ g.initials) ∧
        ((∀ n ∈ g.nodemap, t ∉ n.output) ∨ ∃ n ∈ g.nodemap, t ∈ n.output ∧ n.name ∉ names)) ∧
      (∀ t, t ∈ O ↔ (∃ n ∈ g.nodemap, n.name ∈ names ∧ t ∈ n.output) ∧ (rmInit = true → t ∉ g.initials) ∧
        ((∀ n ∈ g.nodemap, t ∉ n.input) ∨ ∃ n ∈ g.nodemap, t ∈ n.input ∧ n.name ∉ names)) := by
  obtain ⟨I, O, h1, h2, h3, h4, h5⟩ := ioLoop_ok (g := g.updateTensorRelations) hnames names rmInit names [] []
    hex (by simp) (by simp)
  refine ⟨I, O, h1, h2, h3, ?_, ?_⟩
  · intro t
    rw [h4 t, inputWanted_iff (g := g.updateTensorRelations) (updateConsumerProducer_exact g)]
    simp only [List.not_mem_nil, false_or]
    rfl
  · intro t
    rw [h5 t, outputWanted_iff (g := g.updateTensorRelations) (updateConsumerProducer_exact g)]
    simp only [List.not_mem_nil, false_or]
    rfl

/-- **C13, unknown names** raise `KeyError`. -/
theorem C13_unknown_name (g : Graph) (names : List String) (rmInit : Bool)
    (h : ∃ x ∈ names, ∀ n ∈ g.nodemap, n.name ≠ x) : getIOTensors g names rmInit = .error .keyError :=
  ioLoop_missing names rmInit names _ h

example : getIOTensors diamond.updateTensorRelations ["b", "c", "d"] true = .ok (["ta"], ["td"]) := rfl
example : ∀ x ∈ ["b", "c", "d"], ∃ n ∈ diamond.nodemap, n.name = x := by decide

/-- **C13 finding**: a graph output read only inside the set is not part of the reported interface. -/
theorem C13_internal_graph_output_missing :
    let g : Graph := { nodemap := [⟨"a", "Relu", ["x"], ["y"]⟩, ⟨"b", "Exp", ["y"], ["z"]⟩]
                       input := ["x"], output := ["y", "z"] }
    getIOTensors g.updateTensorRelations ["a", "b"] true = .ok (["x"], ["z"]) := rfl

/-- **C14 (partial).** Fusing a set of nodes (any set, any new name not used by a node outside the set), when every
output of the set is produced once: the call returns; the graph has exactly the other nodes, unchanged and in order, plus
one node carrying the set's interface; the producer/consumer indexes are exact; node names stay distinct and read tensors
uniquely produced (so fusions can be repeated); if no node of the set produces a graph output, the graph outputs are
unchanged.

Partial: the full property also claims the graph outputs unchanged when the set produces one; `C14_graph_output_lost`
disproves it. -/
theorem C14_fuse_exact_partial (g : Graph) (hnames : (g.nodemap.map (·.name)).Nodup)
    (huniq : UniqueProducers g.nodemap) (names : List String) (op name : String)
    (hex : ∀ x ∈ names, ∃ n ∈ g.nodemap, n.name = x)
    (hfresh : ∀ n ∈ g.nodemap, n.name = name → n.name ∈ names)
    (hone : ∀ n ∈ g.nodemap, n.name ∈ names → ∀ o ∈ n.output, (g.nodemap.flatMap (·.output)).count o ≤ 1) :
    ∃ g' I O, getIOTensors g.updateTensorRelations names false = .ok (I, O) ∧
      fuseNodes g.updateTensorRelations names op name = .ok g' ∧
      g'.nodemap = g.nodemap.filter (fun n => !names.contains n.name) ++ [⟨name, op, I, O⟩] ∧
      g'.IndexExact ∧ (g'.nodemap.map (·.name)).Nodup ∧ UniqueProducers g'.nodemap ∧
      ((∀ n ∈ g.nodemap, n.name ∈ names → ∀ o ∈ n.output, o ∉ g.output) → g'.output = g.output) := by
  obtain ⟨g', I, O, h1, h2, h3, h4, h5⟩ := fuse_ok (wf_update hnames huniq) (op := op) (name := name) hex hfresh hone
  exact ⟨g', I, O, h1, h2, h4, h3.exact_, h3.names, h3.uniq, h5⟩

/-- **C14, connections.** After a fusion every tensor that an outside node reads and that was produced before is still
produced: by the same outside node, or by the fused node when its producer was fused. -/
theorem C14_connections_kept (g : Graph) (hnames : (g.nodemap.map (·.name)).Nodup)
    (huniq : UniqueProducers g.nodemap) (names : List String) (op name : String)
    (hex : ∀ x ∈ names, ∃ n ∈ g.nodemap, n.name = x)
    (hfresh : ∀ n ∈ g.nodemap, n.name = name → n.name ∈ names)
    (hone : ∀ n ∈ g.nodemap, n.name ∈ names → ∀ o ∈ n.output, (g.nodemap.flatMap (·.output)).count o ≤ 1)
    {g' : Graph} (h : fuseNodes g.updateTensorRelations names op name = .ok g')
    {n m : Node} (hn : n ∈ g.nodemap) (hout : n.name ∉ names) (hm : m ∈ g.nodemap) {t : String}
    (htn : t ∈ n.input) (htm : t ∈ m.output) :
    n ∈ g'.nodemap ∧ ∃ p ∈ g'.nodemap, t ∈ p.output ∧ (if m.name ∈ names then p.name = name ∧ p.op = op else p = m) := by
  obtain ⟨g1, I, O, h1, h2, h3, -⟩ := C14_fuse_exact_partial g hnames huniq names op name hex hfresh hone
  rw [h2] at h; cases h
  obtain ⟨I', O', k1, -, -, -, k5⟩ := C13_interface_exact g hnames names hex false
  rw [h1] at k1; cases k1
  refine ⟨?_, ?_⟩
  · rw [h3]
    refine List.mem_append_left _ (List.mem_filter.mpr ⟨hn, ?_⟩)
    rw [Bool.not_eq_true', ← Bool.not_eq_true, List.contains_iff_mem]; exact hout
  · by_cases hin : m.name ∈ names
    · refine ⟨⟨name, op, I, O⟩, by rw [h3]; simp, ?_, by rw [if_pos hin]; exact ⟨rfl, rfl⟩⟩
      exact (k5 t).mpr ⟨⟨m, hm, hin, htm⟩, by simp, Or.inr ⟨n, hn, htn, hout⟩⟩
    · refine ⟨m, ?_, htm, by rw [if_neg hin]⟩
      rw [h3]
      refine List.mem_append_left _ (List.mem_filter.mpr ⟨hm, ?_⟩)
      rw [Bool.not_eq_true', ← Bool.not_eq_true, List.contains_iff_mem]; exact hin

example : (fuseNodes diamond.updateTensorRelations ["b", "c", "d"] "Fused" "f").toOption.map
    (fun g => (g.nodemap, g.output)) =
    some ([⟨"a", "Relu", ["x"], ["ta"]⟩, ⟨"e", "Relu", ["td"], ["te"]⟩, ⟨"f", "Fused", ["ta"], ["td"]⟩], ["te"]) := rfl
example : UniqueProducers diamond.nodemap ∧ (∀ n ∈ diamond.nodemap, n.name = "f" → n.name ∈ ["b", "c", "d"]) ∧
    (∀ n ∈ diamond.nodemap, n.name ∈ ["b", "c", "d"] → ∀ o ∈ n.output,
      (diamond.nodemap.flatMap (·.output)).count o ≤ 1) := by decide

/-- **C14 is false for graph outputs**: fusing the nodes that produce the graph output removes it from the graph outputs
and nothing puts it back, although the fused node produces that tensor. -/
theorem C14_graph_output_lost :
    (fuseNodes diamond.updateTensorRelations ["d", "e"] "Fused" "f").toOption.map
      (fun g => (g.output, g.producedby.get? "te")) = some ([], some ["f"]) := rfl

end OnnxTool.Props
