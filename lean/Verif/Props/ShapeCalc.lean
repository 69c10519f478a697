import Verif.Proofs.ComputeGraph
/-!
# C15, C16: marking the shape computation, extracting the compute graph
-/
namespace OnnxTool.Props
open OnnxTool Remove Topsort Subgraph ShapeCalc ComputeGraph

private theorem ix_update {g : Graph} (hn : (g.nodemap.map (·.name)).Nodup) : Ix g.updateTensorRelations :=
  ⟨hn, updateConsumerProducer_exact g⟩

private theorem wf_update {g : Graph} (hn : (g.nodemap.map (·.name)).Nodup) (hu : UniqueProducers g.nodemap) :
    WF g.updateTensorRelations :=
  ⟨hn, updateConsumerProducer_exact g, (updateConsumerProducer_keys g).1, (updateConsumerProducer_keys g).2, hu⟩

/-- **C15.** On any graph (cyclic or not) and for any order in which the set of shape tensors is iterated, the search
terminates, and a node ends up marked iff it belongs to the backward closure of the shape-defining operands through
non-initializer tensors, stopping at `Shape` nodes. -/
theorem C15_marks_exactly_closure (g : Graph) (hnames : (g.nodemap.map (·.name)).Nodup) (order : List String)
    (horder : ∀ t, t ∈ order ↔ ∃ n ∈ g.nodemap, t ∈ shapeInputs n) :
    ∃ M, findShape g.updateTensorRelations order = .ok M ∧ (∀ x ∈ M, ∃ n ∈ g.nodemap, n.name = x) ∧
      ∀ n ∈ g.nodemap, (n.name ∈ M ↔ ShapeDep g.nodemap g.initials (g.nodemap.flatMap shapeInputs) n) := by
  obtain ⟨M, h1, h2⟩ := findShape_ok (ix_update hnames) order (g.nodemap.flatMap shapeInputs)
    (fun t => by rw [horder, List.mem_flatMap])
  exact ⟨M, h1, findShape_sub (ix_update hnames) order h1, h2⟩

/-- **C15, iteration order.** Two iteration orders of the set mark the same nodes. -/
theorem C15_order_independent (g : Graph) (hnames : (g.nodemap.map (·.name)).Nodup) (o1 o2 : List String)
    (h : ∀ t, t ∈ o1 ↔ t ∈ o2) :
    ∃ M1 M2, findShape g.updateTensorRelations o1 = .ok M1 ∧ findShape g.updateTensorRelations o2 = .ok M2 ∧
      ∀ n ∈ g.nodemap, (n.name ∈ M1 ↔ n.name ∈ M2) := by
  obtain ⟨M1, h1, h2⟩ := findShape_ok (ix_update hnames) o1 o2 h
  obtain ⟨M2, h3, h4⟩ := findShape_ok (ix_update hnames) o2 o2 (fun _ => Iff.rfl)
  exact ⟨M1, M2, h1, h3, fun n hn => (h2 n hn).trans (h4 n hn).symm⟩

/-- **C15, operand table.** The shape operands are positions of the node's own inputs: the table never indexes past the
end, for any node. -/
theorem C15_shape_operands_are_inputs (n : Node) : ∀ t ∈ shapeInputs n, t ∈ n.input := by
  intro t ht
  simp only [shapeInputs, List.mem_flatMap] at ht
  obtain ⟨d, -, h⟩ := ht
  split at h
  · obtain ⟨i, -, hi⟩ := List.mem_filterMap.mp h
    exact List.mem_of_getElem? hi
  · cases h

/-- **C15, operand table.** For every operator of the table and every number of operands it is used with, the operands that define
the output shape; whatever the operand names are. -/
theorem C15_shape_operands (nm : String) (o : List String) (x a b c d e : String) :
    shapeInputs ⟨nm, "Reshape", [x, a], o⟩ = [a] ∧ shapeInputs ⟨nm, "Expand", [x, a], o⟩ = [a] ∧
    shapeInputs ⟨nm, "Tile", [x, a], o⟩ = [a] ∧ shapeInputs ⟨nm, "TopK", [x, a], o⟩ = [a] ∧
    shapeInputs ⟨nm, "Split", [x, a], o⟩ = [a] ∧ shapeInputs ⟨nm, "Squeeze", [x, a], o⟩ = [a] ∧
    shapeInputs ⟨nm, "Unsqueeze", [x, a], o⟩ = [a] ∧ shapeInputs ⟨nm, "ReduceSum", [x, a], o⟩ = [a] ∧
    shapeInputs ⟨nm, "ReduceMean", [x, a], o⟩ = [a] ∧
    shapeInputs ⟨nm, "Pad", [x, a], o⟩ = [a] ∧ shapeInputs ⟨nm, "Pad", [x, a, b], o⟩ = [a] ∧
    shapeInputs ⟨nm, "Slice", [x, a, b], o⟩ = [a, b] ∧ shapeInputs ⟨nm, "Slice", [x, a, b, c], o⟩ = [a, b, c] ∧
    shapeInputs ⟨nm, "Slice", [x, a, b, c, d], o⟩ = [a, b, c, d] ∧
    shapeInputs ⟨nm, "Resize", [x, a], o⟩ = [a] ∧ shapeInputs ⟨nm, "Resize", [x, a, b], o⟩ = [b] ∧
    shapeInputs ⟨nm, "Resize", [x, a, b, c], o⟩ = [c] ∧ shapeInputs ⟨nm, "Upsample", [x, a], o⟩ = [a] ∧
    shapeInputs ⟨nm, "Upsample", [x, a, b], o⟩ = [b] ∧ shapeInputs ⟨nm, "Upsample", [x, a, b, c], o⟩ = [c] ∧
    shapeInputs ⟨nm, "ConstantOfShape", [a], o⟩ = [a] ∧ shapeInputs ⟨nm, "Range", [a, b, c], o⟩ = [a, b, c] ∧
    shapeInputs ⟨nm, "OneHot", [x, a, b], o⟩ = [a] ∧ shapeInputs ⟨nm, "NonMaxSuppression", [a, b, c, d], o⟩ = [c] ∧
    shapeInputs ⟨nm, "NonMaxSuppression", [a, b, c, d, e], o⟩ = [c] := by
  refine ⟨rfl, rfl, rfl, rfl, rfl, rfl, rfl, rfl, rfl, rfl, rfl, rfl, rfl, rfl, rfl, rfl, rfl, rfl, rfl, rfl, rfl, rfl, rfl, rfl, rfl⟩

/-- **C15, operand table.** Any other operator has none. -/
theorem C15_other_operators (n : Node) (h : n.op ∉ ["Reshape", "Resize", "Upsample", "Expand", "Slice", "ConstantOfShape", "Tile", "Range",
    "OneHot", "TopK", "Pad", "NonMaxSuppression", "Split", "Unsqueeze", "Squeeze", "ReduceSum", "ReduceMean"]) : shapeInputs n = [] := by
  simp only [List.mem_cons, List.not_mem_nil, or_false, not_or] at h
  unfold shapeInputs shapeTable
  split <;> simp_all

/-- A graph with a shape path: `Shape(x) → Gather → Reshape's second operand`. -/
def shapeGraph : Graph :=
  { nodemap := [⟨"relu", "Relu", ["x"], ["y"]⟩, ⟨"shape", "Shape", ["y"], ["s"]⟩, ⟨"gather", "Gather", ["s", "c"], ["d"]⟩,
                ⟨"reshape", "Reshape", ["y", "d"], ["z"]⟩]
    input := ["x"], output := ["z"], initials := ["c"] }

example : (shapeGraph.nodemap.map (·.name)).Nodup ∧ (∀ t, t ∈ ["d"] ↔ ∃ n ∈ shapeGraph.nodemap, t ∈ shapeInputs n) := by
  refine ⟨by decide, ?_⟩
  intro t
  rw [← List.mem_flatMap, show shapeGraph.nodemap.flatMap shapeInputs = ["d"] from by decide]
example : findShape shapeGraph.updateTensorRelations ["d"] = .ok ["gather", "shape"] := rfl

/-- **C15 finding**: `Pad` with the `axes` operand (four inputs, opset 18) has no shape operand in the table, so the nodes
computing its paddings are not recognised. -/
theorem C15_pad_with_axes_not_covered : shapeInputs ⟨"p", "Pad", ["x", "pads", "v", "axes"], ["y"]⟩ = [] := rfl

/-- **C16 (partial).** On an acyclic graph whose read tensors have unique producers, `get_compute_graph()` terminates and
returns a graph made of original nodes in order, with exact indexes and without any shape-calculation node.  If moreover
no graph output is read by a node and every node has a single output name, every node that a graph output needs through
non-shape nodes is kept.

Partial: `C16_multi_output_lost` and `C16_output_lost` show that the last claim fails without these two conditions. -/
theorem C16_compute_graph_partial (g : Graph) (hnames : (g.nodemap.map (·.name)).Nodup)
    (huniq : UniqueProducers g.nodemap) (hac : Acyclic g.nodemap) (M : List String) :
    ∃ (cg rest : Graph) (N : Nat), (∀ fuel, N ≤ fuel → computeGraph fuel g.updateTensorRelations M = .ok (cg, rest)) ∧
      cg.IndexExact ∧ cg.nodemap.Sublist g.nodemap ∧ (∀ n ∈ cg.nodemap, n.name ∉ M) ∧
      ((∀ n ∈ g.nodemap, ∀ t ∈ n.input, t ∉ g.output) →
       (∀ n ∈ g.nodemap, ∀ o ∈ n.output, ∀ o' ∈ n.output, o = o') →
       ∀ n, NeededCompute g.nodemap g.output M n → n ∈ cg.nodemap) := by
  obtain ⟨cg, rest, N, rm, h1, h2, h3, -, -, h4, h5⟩ := computeGraph_ok (wf_update hnames huniq) hac M
  refine ⟨cg, rest, N, h1, h2, ?_, ?_, ?_⟩
  · rw [h3]; exact List.filter_sublist
  · intro n hn hM
    rw [h3, List.mem_filter] at hn
    have := hn.2
    rw [Bool.not_eq_true', ← Bool.not_eq_true, List.contains_iff_mem] at this
    exact this (h4 n hn.1 hM)
  · intro hno hsg n hN
    have hn : n ∈ g.nodemap := by cases hN <;> assumption
    rw [h3, List.mem_filter]
    refine ⟨hn, ?_⟩
    rw [Bool.not_eq_true', ← Bool.not_eq_true, List.contains_iff_mem]
    intro hr
    obtain ⟨m, hm, e, hNm⟩ := h5 ⟨wf_update hnames huniq, hno, hsg⟩ _ hr
    have : m = n := name_inj hnames hm hn e
    subst this
    exact hNm hN

/-- **C16, aliasing finding.** `copy.copy` is shallow: in *every* run the graph on which `get_compute_graph()` was called
is left with the node list and graph outputs of the compute graph — its shape nodes are gone too. -/
theorem C16_source_graph_is_modified (fuel : Nat) (g : Graph) (M : List String) {cg rest : Graph}
    (h : computeGraph fuel g M = .ok (cg, rest)) :
    rest.nodemap = cg.nodemap ∧ rest.output = cg.output ∧ rest.producedby = cg.producedby ∧
      rest.consumedby = cg.consumedby := by
  unfold computeGraph at h
  split at h
  · cases h
  · split at h
    · cases h
    · cases h; exact ⟨rfl, rfl, rfl, rfl⟩

private theorem rebuild_sub : ∀ (ns : List Node) (d : List String),
    (∀ t ∈ d, t ∈ ns.foldl (fun d n => n.output.foldl (fun d o => if d.contains n.name then d else d ++ [o]) d) d) ∧
    (∀ t ∈ ns.foldl (fun d n => n.output.foldl (fun d o => if d.contains n.name then d else d ++ [o]) d) d,
      t ∈ d ∨ ∃ n ∈ ns, t ∈ n.output) ∧
    ((∀ n ∈ ns, n.name ∉ d ∧ ∀ m ∈ ns, n.name ∉ m.output) →
      ∀ n ∈ ns, ∀ t ∈ n.output, t ∈ ns.foldl (fun d n => n.output.foldl (fun d o => if d.contains n.name then d else d ++ [o]) d) d) := by
  have inner : ∀ (nm : String) (os d : List String),
      (∀ t ∈ d, t ∈ os.foldl (fun d o => if d.contains nm then d else d ++ [o]) d) ∧
      (∀ t ∈ os.foldl (fun d o => if d.contains nm then d else d ++ [o]) d, t ∈ d ∨ t ∈ os) ∧
      (nm ∉ d → nm ∉ os → ∀ t ∈ os, t ∈ os.foldl (fun d o => if d.contains nm then d else d ++ [o]) d) := by
    intro nm os
    induction os with
    | nil => intro d; simp
    | cons o os ih =>
      intro d
      simp only [List.foldl_cons]
      by_cases hc : nm ∈ d
      · have hc' : d.contains nm = true := List.contains_iff_mem.mpr hc
        simp only [hc', if_true]
        obtain ⟨i1, i2, i3⟩ := ih d
        exact ⟨i1, fun t ht => (i2 t ht).imp id (List.mem_cons_of_mem _), fun h => absurd hc h⟩
      · have hc' : ¬ d.contains nm = true := fun e => hc (List.contains_iff_mem.mp e)
        rw [if_neg hc']
        obtain ⟨i1, i2, i3⟩ := ih (d ++ [o])
        refine ⟨fun t ht => i1 t (List.mem_append_left _ ht), ?_, ?_⟩
        · intro t ht
          rcases i2 t ht with h | h
          · rcases List.mem_append.mp h with h | h
            · exact .inl h
            · rw [List.mem_singleton] at h; subst h; exact .inr List.mem_cons_self
          · exact .inr (List.mem_cons_of_mem _ h)
        · intro h1 h2 t ht
          simp only [List.mem_cons, not_or] at h2
          rcases List.mem_cons.mp ht with rfl | ht
          · exact i1 _ (by simp)
          · exact i3 (by simp [h1, h2.1]) h2.2 t ht
  intro ns
  induction ns with
  | nil => intro d; simp
  | cons n ns ih =>
    intro d
    simp only [List.foldl_cons]
    obtain ⟨j1, j2, j3⟩ := inner n.name n.output d
    obtain ⟨i1, i2, i3⟩ := ih (n.output.foldl (fun d o => if d.contains n.name then d else d ++ [o]) d)
    refine ⟨fun t ht => i1 t (j1 t ht), ?_, ?_⟩
    · intro t ht
      rcases i2 t ht with h | ⟨m, hm, h⟩
      · rcases j2 t h with h | h
        · exact .inl h
        · exact .inr ⟨n, List.mem_cons_self, h⟩
      · exact .inr ⟨m, List.mem_cons_of_mem _ hm, h⟩
    · intro h m hm t ht
      rcases List.mem_cons.mp hm with rfl | hm
      · obtain ⟨h1, h2⟩ := h m List.mem_cons_self
        exact i1 t (j3 h1 (h2 m List.mem_cons_self) t ht)
      · refine i3 ?_ m hm t ht
        intro k hk
        obtain ⟨h1, h2⟩ := h k (List.mem_cons_of_mem _ hk)
        refine ⟨fun hc => ?_, fun l hl => h2 l (List.mem_cons_of_mem _ hl)⟩
        rcases j2 _ hc with h | h
        · exact h1 h
        · exact h2 n List.mem_cons_self h

/-- **C16, dynamic tensors.** The dynamic tensors of the compute graph contain its inputs and outputs and nothing but inputs, outputs
and tensors its nodes produce; if no node is called like one of these tensors, they contain all tensors its nodes produce. -/
theorem C16_dynamics (fuel : Nat) (g : Graph) (M : List String) {cg rest : Graph} (h : computeGraph fuel g M = .ok (cg, rest)) :
    (∀ t, t ∈ cg.input ∨ t ∈ cg.output → t ∈ cg.dynamics) ∧
    (∀ t ∈ cg.dynamics, t ∈ cg.input ∨ t ∈ cg.output ∨ ∃ n ∈ cg.nodemap, t ∈ n.output) ∧
    ((∀ n ∈ cg.nodemap, n.name ∉ cg.input ∧ n.name ∉ cg.output ∧ ∀ m ∈ cg.nodemap, n.name ∉ m.output) →
      ∀ n ∈ cg.nodemap, ∀ t ∈ n.output, t ∈ cg.dynamics) := by
  unfold computeGraph at h
  split at h
  · cases h
  · split at h
    · cases h
    · rename_i cg0 _
      cases h
      obtain ⟨h1, h2, h3⟩ := rebuild_sub cg0.nodemap (cg0.input ++ cg0.output)
      refine ⟨fun t ht => h1 t (List.mem_append.mpr ht), ?_, ?_⟩
      · intro t ht
        rcases h2 t ht with h | h
        · rcases List.mem_append.mp h with h | h
          · exact .inl h
          · exact .inr (.inl h)
        · exact .inr (.inr h)
      · intro hn
        refine h3 fun n hn' => ?_
        obtain ⟨a, b, c⟩ := hn n hn'
        exact ⟨fun hc => (List.mem_append.mp hc).elim a b, c⟩

/-- **C16 finding**: the rebuilt list tests the *node* name instead of the tensor name: a node called like its first output loses its
second output from `dynamics` (and tensors of other nodes are listed twice). -/
theorem C16_dynamics_misses_output :
    (computeGraph 9 (Graph.updateTensorRelations
      { nodemap := [⟨"a", "Split", ["x"], ["a", "b"]⟩, ⟨"add", "Add", ["a", "b"], ["z"]⟩], input := ["x"], output := ["z"] })
      []).toOption.map (fun r => r.1.dynamics) = some ["x", "z", "a", "z"] := by decide

example : Acyclic shapeGraph.nodemap := ⟨_, List.Perm.refl _, by decide⟩
example : UniqueProducers shapeGraph.nodemap ∧ (∀ n ∈ shapeGraph.nodemap, ∀ t ∈ n.input, t ∉ shapeGraph.output) ∧
    (∀ n ∈ shapeGraph.nodemap, ∀ o ∈ n.output, ∀ o' ∈ n.output, o = o') := by decide
example : (computeGraph 9 shapeGraph.updateTensorRelations ["gather", "shape"]).toOption.map
    (fun r => (r.1.nodemap.map (·.name), r.2.nodemap.map (·.name))) = some (["relu", "reshape"], ["relu", "reshape"]) := by
  decide

/-- **C16 is false for multi-output nodes**: one output of `Split` feeds only the shape computation (through a node that is
then dropped), the other feeds the main path; `Split` is dropped and `Relu` is left without its producer. -/
theorem C16_multi_output_lost :
    let g : Graph := { nodemap := [⟨"split", "Split", ["x"], ["a", "b"]⟩, ⟨"exp", "Exp", ["a"], ["e"]⟩,
                                   ⟨"shape", "Shape", ["e"], ["s"]⟩, ⟨"relu", "Relu", ["b"], ["z"]⟩]
                       input := ["x"], output := ["z"] }
    (computeGraph 9 g.updateTensorRelations ["shape"]).toOption.map (fun r => r.1.nodemap.map (·.name)) =
      some ["relu"] ∧
    NeededCompute g.nodemap g.output ["shape"] ⟨"split", "Split", ["x"], ["a", "b"]⟩ := by
  refine ⟨by decide, ?_⟩
  refine NeededCompute.feeds (m := ⟨"relu", "Relu", ["b"], ["z"]⟩) (by simp) (by simp) ?_ ⟨"b", by simp, by simp⟩
  exact NeededCompute.output (o := "z") (by simp) (by simp) (by simp) (by simp)

/-- **C16 is false for a graph output that only the shape computation reads**: its producer and the graph output are
dropped. -/
theorem C16_output_lost :
    let g : Graph := { nodemap := [⟨"relu", "Relu", ["x"], ["y"]⟩, ⟨"shape", "Shape", ["y"], ["s"]⟩,
                                   ⟨"reshape", "Reshape", ["x", "s"], ["z"]⟩]
                       input := ["x"], output := ["y", "z"] }
    (computeGraph 9 g.updateTensorRelations ["shape"]).toOption.map (fun r => (r.1.nodemap.map (·.name), r.1.output)) =
      some (["reshape"], ["z"]) := by decide

end OnnxTool.Props
