import Verif.Proofs.Dangling
/-!
# C10, C11: producer/consumer indexes under removals, and dangling-node removal
-/
namespace OnnxTool.Props
open OnnxTool Remove Topsort

private theorem wf_update {g : Graph} (hn : (g.nodemap.map (·.name)).Nodup) (hu : UniqueProducers g.nodemap) :
    WF g.updateTensorRelations :=
  ⟨hn, updateConsumerProducer_exact g, (updateConsumerProducer_keys g).1, (updateConsumerProducer_keys g).2, hu⟩

/-- **C10 (first half).** After `update_tensor_relations()` the consumer and producer indexes of *any* graph list, for
every tensor name, exactly the nodes reading / producing it, in node order and with multiplicity, and hold no key with an
empty list. -/
theorem C10_update_exact (g : Graph) (t : String) :
    g.updateTensorRelations.consumedby.get? t =
      (if consumersOf g.nodemap t = [] then none else some (consumersOf g.nodemap t)) ∧
    g.updateTensorRelations.producedby.get? t =
      (if producersOf g.nodemap t = [] then none else some (producersOf g.nodemap t)) :=
  ⟨(updateConsumerProducer_exact g).1 t, (updateConsumerProducer_exact g).2 t⟩

/-- **C10 (second half).** From then on *every* finite history of `remove_node(name, recursive)` calls (names present or
not, recursive or not) returns normally and leaves both indexes exact; all named nodes are gone, the remaining nodes are
original nodes in their original order.  (`nodemap` is a dict, so node names are distinct; `UniqueProducers`: each tensor
that some node reads has at most one producer, as ONNX requires.) -/
theorem C10_removal_history_exact (g : Graph) (hnames : (g.nodemap.map (·.name)).Nodup)
    (huniq : UniqueProducers g.nodemap) (calls : List (String × Bool)) :
    ∃ g', removeAll calls g.updateTensorRelations = .ok g' ∧ g'.IndexExact ∧
      g'.nodemap.Sublist g.nodemap ∧ (∀ c ∈ calls, ∀ n ∈ g'.nodemap, n.name ≠ c.1) := by
  obtain ⟨g', names, h1, h2, h3, -, h5⟩ := removeAll_any calls (wf_update hnames huniq)
  rw [fold_popNode] at h5
  refine ⟨g', h1, h2.exact_, ?_, ?_⟩
  · rw [h5]; exact List.filter_sublist
  · intro c hc n hn e
    rw [h5, List.mem_filter] at hn
    have hx := hn.2
    rw [Bool.not_eq_true', ← Bool.not_eq_true, List.contains_iff_mem, e] at hx
    exact hx (h3 c hc)

/-- **C10, non-recursive removals remove exactly the named nodes.** -/
theorem C10_plain_removals_exact (g : Graph) (hnames : (g.nodemap.map (·.name)).Nodup)
    (huniq : UniqueProducers g.nodemap) (names : List String) :
    ∃ g', removeAll (names.map (·, false)) g.updateTensorRelations = .ok g' ∧ g'.IndexExact ∧
      g'.nodemap = g.nodemap.filter (fun n => !names.contains n.name) := by
  obtain ⟨g', nms, h1, h2, -, h4, h5⟩ := removeAll_any (names.map (·, false)) (wf_update hnames huniq)
  refine ⟨g', h1, h2.exact_, ?_⟩
  rw [h5, h4 (by simp), fold_popNode]
  simp [Graph.updateTensorRelations, Graph.updateConsumerProducer, Function.comp_def]

/-- **C10, graph outputs.** One `remove_node(name)` takes each of the node's output names out of the graph outputs once,
and changes nothing else in the graph outputs, inputs and initializers. -/
theorem C10_remove_outputs (g : Graph) (hnames : (g.nodemap.map (·.name)).Nodup)
    (huniq : UniqueProducers g.nodemap) {n : Node} (hn : n ∈ g.nodemap) :
    ∃ g', removeNode g.updateTensorRelations n.name false = .ok g' ∧
      g'.output = n.output.foldl List.erase g.output ∧ g'.input = g.input ∧ g'.initials = g.initials := by
  obtain ⟨g', new, h1, -, -, h4, h5, h6, -, -⟩ := removeOne_ok (wf_update hnames huniq) (nd := n) hn
  exact ⟨g', by unfold removeNode; rw [h1]; rfl, h4, h5, h6⟩

/-- Example graph: `x → Relu → y → (Exp → z, Add(y, y) → w)`, outputs `z`, `w`. -/
def rmGraph : Graph :=
  { nodemap := [⟨"relu", "Relu", ["x"], ["y"]⟩, ⟨"exp", "Exp", ["y"], ["z"]⟩, ⟨"add", "Add", ["y", "y"], ["w"]⟩]
    input := ["x"], output := ["z", "w"] }

example : (rmGraph.nodemap.map (·.name)).Nodup ∧ UniqueProducers rmGraph.nodemap := by decide

/-- the history really changes the graph: removing `exp` then `add` recursively also removes `relu` -/
example : (removeAll [("exp", true), ("nope", true), ("add", true)] rmGraph.updateTensorRelations).toOption.map
    (fun g => (g.nodemap, g.output, g.consumedby, g.producedby)) = some ([], [], [], []) := rfl

/-- and after the first step `relu` is still there, with exact indexes for the double read by `add` -/
example : (removeAll [("exp", true)] rmGraph.updateTensorRelations).toOption.map
    (fun g => (g.nodemap.map (·.name), g.output, g.consumedby)) =
      some (["relu", "add"], ["w"], [("x", ["relu"]), ("y", ["add", "add"])]) := by decide

/-- **C10, the uniqueness hypothesis is needed**: with two producers of a read tensor, `remove_node` of its reader fails
with an assertion. -/
theorem C10_double_producer_raises :
    removeNode { nodemap := [⟨"a", "Op", ["x"], ["t"]⟩, ⟨"b", "Op", ["x"], ["t"]⟩, ⟨"c", "Op", ["t"], ["z"]⟩]
                 input := ["x"], output := ["z"] : Graph }.updateTensorRelations "c" false = .error .assertion := rfl

/-- **C11 (partial).** Let the graph have been loaded as `g0` and possibly shrunk to `g` since (node order kept).  If its
nodes are listed producers first and no graph output is also read by a node, `remove_dangling_nodes()` returns normally,
keeps exactly the nodes needed for the graph outputs (in order), leaves the graph outputs unchanged and the indexes exact.

Partial: the full property has no side condition on graph outputs; `C11_output_lost` shows that it then fails, and
`C11_unsorted_raises` shows what happens without the order condition. -/
theorem C11_keeps_exactly_needed_partial (g0 g : Graph)
    (hnames0 : (g0.nodemap.map (·.name)).Nodup) (huniq0 : UniqueProducers g0.nodemap)
    (hsub : g.nodemap.Sublist g0.nodemap) (htopo : TopoOrdered g.nodemap)
    (hnoout : ∀ n ∈ g.nodemap, ∀ t ∈ n.input, t ∉ g.output) :
    ∃ g', removeDangling g0.updateTensorRelations g.updateTensorRelations = .ok g' ∧
      g'.output = g.output ∧ g'.IndexExact ∧ g'.nodemap.Sublist g.nodemap ∧
      ∀ n, n ∈ g'.nodemap ↔ Needed g.nodemap g.output n := by
  obtain ⟨g', h1, h2, h3, h4, h5⟩ := removeDangling_ok (g0 := g0.updateTensorRelations) (gi := g.updateTensorRelations)
    ⟨wf_update hnames0 huniq0, hsub, htopo, hnoout⟩
    (wf_update (nodup_names_sub hsub hnames0) (uniq_sub hsub huniq0))
  exact ⟨g', h1, h3, h2.exact_, h4, h5⟩

/-- **C11, order-free part.** Whatever the graph, its node order and its outputs: when `remove_dangling_nodes()` returns, no
removable node is left behind — each remaining node has an output that is a graph output, or a node that (at load time) read one of its outputs
is still present. -/
theorem C11_nothing_left_behind (g0 g g' : Graph) (h : removeDangling g0 g = .ok g') :
    ∀ x n, findNode g'.nodemap x = some n → (∃ o ∈ n.output, o ∈ g'.output) ∨
      ∃ o ∈ n.output, ∃ x ∈ (g0.consumedby.get? o).getD [], ∃ m ∈ g'.nodemap, m.name = x := by
  have pass : ∀ (names : List String) (a b : Graph) (t : Bool), danglingPass g0 names a t = .ok (b, false) →
      t = false ∧ a = b ∧ ∀ x ∈ names, ∀ nd, findNode a.nodemap x = some nd → nodeUsed g0 a nd = true := by
    intro names
    induction names with
    | nil =>
      intro a b t h
      simp only [danglingPass, Except.ok.injEq, Prod.mk.injEq] at h
      exact ⟨h.2, h.1, by simp⟩
    | cons x xs ih =>
      intro a b t h
      unfold danglingPass at h
      split at h
      · cases h
      · rename_i nd hf
        split at h
        · rename_i hu
          obtain ⟨e1, e2, e3⟩ := ih a b t h
          refine ⟨e1, e2, ?_⟩
          intro y hy nd' hf'
          rcases List.mem_cons.mp hy with rfl | hy
          · rw [hf] at hf'; cases hf'; exact hu
          · exact e3 y hy nd' hf'
        · split at h
          · cases h
          · obtain ⟨e1, -⟩ := ih _ b true h
            cases e1
  have loop : ∀ (fuel : Nat) (a b : Graph), danglingLoop g0 fuel a = .ok b →
      ∀ x ∈ b.nodemap.map (·.name), ∀ nd, findNode b.nodemap x = some nd → nodeUsed g0 b nd = true := by
    intro fuel
    induction fuel with
    | zero => intro a b h; cases h
    | succ k ih =>
      intro a b h
      unfold danglingLoop at h
      split at h
      · cases h
      · rename_i g1 again hp
        split at h
        · exact ih _ _ h
        · rename_i hag
          cases again with
          | true => exact absurd rfl hag
          | false =>
            cases h
            obtain ⟨-, rfl, e⟩ := pass _ _ _ _ hp
            exact e
  intro x n hx
  have hm := findNode_some hx
  have hu := loop _ _ _ h x (List.mem_map.mpr ⟨n, hm.1, hm.2⟩) n hx
  unfold nodeUsed at hu
  rw [Bool.or_eq_true, List.any_eq_true, List.any_eq_true] at hu
  rcases hu with ⟨o, h1, h2⟩ | ⟨y, hy, h2⟩
  · exact Or.inl ⟨o, h1, by simpa using h2⟩
  · simp only [nextNames, List.mem_flatMap] at hy
    obtain ⟨o, ho, hy⟩ := hy
    obtain ⟨m, hmm⟩ := Option.isSome_iff_exists.mp h2
    exact Or.inr ⟨o, ho, y, hy, m, (findNode_some hmm).1, (findNode_some hmm).2⟩

/-- Needed nodes kept, two-step dangling chain (`d1 → d2`) removed. -/
def dangGraph : Graph :=
  { nodemap := [⟨"a", "Relu", ["x"], ["y"]⟩, ⟨"d1", "Exp", ["y"], ["u"]⟩, ⟨"d2", "Exp", ["u"], ["v"]⟩,
                ⟨"b", "Exp", ["y"], ["z"]⟩]
    input := ["x"], output := ["z"] }

example : (dangGraph.nodemap.map (·.name)).Nodup ∧ UniqueProducers dangGraph.nodemap ∧ TopoOrdered dangGraph.nodemap ∧
    (∀ n ∈ dangGraph.nodemap, ∀ t ∈ n.input, t ∉ dangGraph.output) := by decide

example : (removeDangling dangGraph.updateTensorRelations dangGraph.updateTensorRelations).toOption.map
    (fun g => (g.nodemap.map (·.name), g.output)) = some (["a", "b"], ["z"]) := by decide

/-- **C11 is false without the output condition**: `y = Relu(x)` is a graph output, `z = Exp(y)` dangles.  Removing the
dangling `Exp` also removes `Relu` and the graph output `y`. -/
theorem C11_output_lost :
    let g : Graph := { nodemap := [⟨"relu", "Relu", ["x"], ["y"]⟩, ⟨"exp", "Exp", ["y"], ["z"]⟩]
                       input := ["x"], output := ["y"] }
    (removeDangling g.updateTensorRelations g.updateTensorRelations).toOption.map (fun g => (g.nodemap, g.output)) =
      some ([], []) ∧
    Needed g.nodemap g.output ⟨"relu", "Relu", ["x"], ["y"]⟩ := by
  refine ⟨by decide, ?_⟩
  exact Needed.output (o := "y") (by simp) (by simp) (by simp)

/-- **C11 without a producers-first order**: the pass over the stale list of names hits a node removed in the same pass
and raises `KeyError`. -/
theorem C11_unsorted_raises :
    let g : Graph := { nodemap := [⟨"exp", "Exp", ["y"], ["z"]⟩, ⟨"relu", "Relu", ["x"], ["y"]⟩]
                       input := ["x"], output := [] }
    removeDangling g.updateTensorRelations g.updateTensorRelations = .error .keyError := rfl

end OnnxTool.Props
