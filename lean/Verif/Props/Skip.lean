import Verif.Proofs.Skip
/-!
# C40: skipping shape-only nodes
-/
namespace OnnxTool.Props
open OnnxTool Remove Topsort Subgraph ConstFold Skip

/-- **C40 (partial), `removeShapeOps`.**  Take an acyclic graph with unique tensor producers and exact indexes, in which
every shape operator has one data operand, one output, and that output is read by some node.  Then `removeShapeOps` returns;
the result contains exactly the other nodes with the same name, operator and outputs; no remaining node reads an output of
a removed one, and every tensor read was read before; the indexes are exact; and reading shape operators as the identity on
their data operand, every tensor that is not an output of a shape operator has the same value as before, for every operator
semantics and every assignment of values.
Missing: shape operators whose output is not read by any node (see the findings below). -/
theorem C40_remove_shape_ops_partial {V : Type} (g : Graph) (hnames : (g.nodemap.map (·.name)).Nodup)
    (hindex : g.IndexExact) (hac : Acyclic g.nodemap) (hprod : (g.nodemap.flatMap (·.output)).Nodup)
    (hshape : ∀ n ∈ g.nodemap, isShapeOp n = true → ∃ ind out,
      n.input.filter (fun t => g.dynamics.contains t) = [ind] ∧ n.output = [out] ∧ out ∈ g.dynamics ∧
        ∃ m ∈ g.nodemap, out ∈ m.input) :
    ∃ g', removeShapeOps g = .ok g' ∧ g'.output = g.output ∧ g'.input = g.input ∧
      g'.nodemap.map (fun n => (n.name, n.op, n.output)) =
        (g.nodemap.filter (fun n => !isShapeOp n)).map (fun n => (n.name, n.op, n.output)) ∧
      (∀ m ∈ g'.nodemap, ∀ t ∈ m.input, (∃ k ∈ g.nodemap, t ∈ k.input) ∧
        ∀ n ∈ g.nodemap, isShapeOp n = true → t ∉ n.output) ∧
      g'.IndexExact ∧
      (∀ (f : Node → List V → Nat → V) (E : Env V), SemOk isShapeOp g.dynamics g.nodemap f E →
        ∀ t, (∀ n ∈ g.nodemap, isShapeOp n = true → t ∉ n.output) → ∀ v,
          (Ev g'.nodemap f E t v ↔ Ev g.nodemap f E t v)) := by
  obtain ⟨r, hr⟩ := exists_rank hac hprod
  have hin : ∀ n ∈ g.nodemap, (n.name ∈ (g.nodemap.filter isShapeOp).map (·.name) ↔ isShapeOp n = true) := by
    intro n hn
    rw [List.mem_map]
    constructor
    · rintro ⟨m, hm, e⟩
      obtain ⟨h1, h2⟩ := List.mem_filter.mp hm
      rw [← name_inj hnames h1 hn e]; exact h2
    · intro h; exact ⟨n, List.mem_filter.mpr ⟨hn, h⟩, rfl⟩
  obtain ⟨g', h1, h2, h2', h3, h4, h5⟩ := skipAll_ok (V := V) (P := isShapeOp)
    (fun a b e => by simp [isShapeOp, e]) ((g.nodemap.filter isShapeOp).map (·.name)) g
    (sinv_init ⟨hnames, hindex⟩ hprod hr hshape) (hnames.sublist (List.filter_sublist.map _)) (by
      intro x hx
      obtain ⟨n, hn, e⟩ := List.mem_map.mp hx
      exact ⟨n, (List.mem_filter.mp hn).1, e, (List.mem_filter.mp hn).2⟩)
  refine ⟨g'.updateTensorRelations, ?_, h2, h2', ?_, ?_, updateConsumerProducer_exact g', ?_⟩
  · unfold removeShapeOps; rw [h1]
  · show g'.nodemap.map _ = _
    rw [h3]
    congr 1
    apply List.filter_congr
    intro n hn
    have := hin n hn
    rw [← List.contains_iff_mem] at this
    cases e : isShapeOp n <;> simp_all
  · intro m hm t ht
    obtain ⟨a, b⟩ := h4 m hm t ht
    exact ⟨a, fun n hn hs => b n hn ((hin n hn).mpr hs)⟩
  · intro f E hs t ht v
    exact h5 f E hs t (fun n hn hx => ht n hn ((hin n hn).mp hx)) v

/-- `relu → reshape → squeeze → add` with a second reader of the squeezed tensor. -/
def skipGraph : Graph :=
  { nodemap := [⟨"relu", "Relu", ["x"], ["y"]⟩, ⟨"rs", "Reshape", ["y", "s"], ["a"]⟩, ⟨"sq", "Squeeze", ["a"], ["b"]⟩,
                ⟨"add", "Add", ["b", "b"], ["z"]⟩, ⟨"neg", "Neg", ["a"], ["w"]⟩]
    input := ["x"], output := ["z", "w"], initials := ["s"] }

example : (skipGraph.nodemap.map (·.name)).Nodup ∧ (skipGraph.nodemap.flatMap (·.output)).Nodup ∧
    TopoOrdered skipGraph.nodemap ∧
    (∀ n ∈ skipGraph.nodemap, isShapeOp n = true → ∃ ind out,
      n.input.filter (fun t => skipGraph.updateTensorRelations.dynamics.contains t) = [ind] ∧ n.output = [out] ∧
        out ∈ skipGraph.updateTensorRelations.dynamics ∧ ∃ m ∈ skipGraph.nodemap, out ∈ m.input) := by
  refine ⟨by decide, by decide, by decide, ?_⟩
  intro n hn hs
  simp only [skipGraph, List.mem_cons, List.not_mem_nil, or_false] at hn
  rcases hn with rfl | rfl | rfl | rfl | rfl
  · exact absurd hs (by decide)
  · exact ⟨"y", "a", by decide, rfl, by decide, by decide⟩
  · exact ⟨"a", "b", by decide, rfl, by decide, by decide⟩
  · exact absurd hs (by decide)
  · exact absurd hs (by decide)
example : (removeShapeOps skipGraph.updateTensorRelations).toOption.map (·.nodemap) =
    some [⟨"relu", "Relu", ["x"], ["y"]⟩, ⟨"add", "Add", ["y", "y"], ["z"]⟩, ⟨"neg", "Neg", ["y"], ["w"]⟩] := rfl

/-- **C40 (partial), a skipped node at the graph output.**  If nobody reads the node's output, the node is the only reader of
its data operand, and that operand is the only output of its producer, then `skip_node` makes the producer deliver the
output itself: all other nodes are untouched, and every tensor but the operand keeps its value. -/
theorem C40_skip_unread_partial {V : Type} (g : Graph) (hnames : (g.nodemap.map (·.name)).Nodup)
    (hindex : g.IndexExact) (hprod : (g.nodemap.flatMap (·.output)).Nodup) (n p : Node) (hn : n ∈ g.nodemap)
    (hp : p ∈ g.nodemap) (hpn : p ≠ n) (ind out : String)
    (hind : n.input.filter (fun t => g.dynamics.contains t) = [ind]) (hout : n.output = [out]) (hpout : p.output = [ind])
    (honly : ∀ m ∈ g.nodemap, ind ∈ m.input → m = n) (hunread : ∀ m ∈ g.nodemap, out ∉ m.input) :
    ∃ g', skipNode g n.name = .ok g' ∧ g'.output = g.output ∧
      (∀ m, m ∈ g'.nodemap ↔ (m ∈ g.nodemap ∧ m ≠ n ∧ m ≠ p) ∨ m = { p with output := [out] }) ∧
      (∀ (f : Node → List V → Nat → V) (E : Env V), SemOk (fun m => decide (m = n)) g.dynamics g.nodemap f E →
        ∀ t, t ≠ ind → ∀ v, (Ev g'.nodemap f E t v ↔ Ev g.nodemap f E t v)) := by
  have hindm : ind ∈ n.input ∧ ind ∈ g.dynamics := by
    have : ind ∈ n.input.filter (fun t => g.dynamics.contains t) := by rw [hind]; simp
    exact ⟨(List.mem_filter.mp this).1, List.contains_iff_mem.mp (List.mem_filter.mp this).2⟩
  have hne : ind ≠ out := by
    rintro rfl
    exact hunread n hn hindm.1
  have hci : n.name ∈ consumersOf g.nodemap ind := (mem_occ (f := Node.input)).mpr ⟨n, hn, rfl, hindm.1⟩
  have hco : consumersOf g.nodemap out = [] := by
    apply List.eq_nil_iff_forall_not_mem.mpr
    intro x hx
    obtain ⟨m, hm, -, h⟩ := (mem_occ (f := Node.input)).mp hx
    exact hunread m hm h
  have hpi : producersOf g.nodemap ind = [p.name] := by
    have h1 : (producersOf g.nodemap ind).length = (g.nodemap.flatMap (·.output)).count ind :=
      occ_length Node.output g.nodemap ind
    have hmem : p.name ∈ producersOf g.nodemap ind := (mem_occ (f := Node.output)).mpr ⟨p, hp, rfl, by rw [hpout]; simp⟩
    have h2 := List.nodup_iff_count.mp hprod ind
    match e : producersOf g.nodemap ind with
    | [] => rw [e] at hmem; cases hmem
    | [a] => rw [e] at hmem; rw [List.mem_singleton.mp hmem]
    | a :: b :: l => rw [e] at h1; simp at h1; omega
  have h1 := hindex.1 ind
  rw [if_neg (by intro h; rw [h] at hci; cases hci)] at h1
  have h2 := hindex.1 out
  rw [if_pos hco] at h2
  have h3 := hindex.2 ind
  rw [if_neg (by rw [hpi]; simp), hpi] at h3
  refine ⟨{ g with nodemap := popNode (g.nodemap.map (renO p.name out)) n.name,
                   consumedby := g.consumedby.set ind ((consumersOf g.nodemap ind).erase n.name) }, ?_, rfl, ?_, ?_⟩
  · unfold skipNode
    rw [findNode_mem hnames hn]
    simp only [hind, hout, h1, List.contains_iff_mem.mpr hci, if_true]
    rw [Dict.get?_set_ne _ _ hne, h2]
    simp only [h3, renameProducers]
    rw [findNode_mem hnames hp]
    simp only [hpout, List.length_singleton, if_true]
    rw [← setNode_eq_map hnames hp]
  · intro m
    simp only [mem_popNode, List.mem_map]
    constructor
    · rintro ⟨⟨k, hk, rfl⟩, hm⟩
      unfold renO at hm ⊢
      split
      · rename_i e; rw [name_inj hnames hk hp e]; exact Or.inr rfl
      · rename_i e
        rw [if_neg e] at hm
        exact Or.inl ⟨hk, fun h => hm (h ▸ rfl), fun h => e (h ▸ rfl)⟩
    · rintro (⟨h1, h2, h3⟩ | rfl)
      · refine ⟨⟨m, h1, ?_⟩, fun e => h2 (name_inj hnames h1 hn e)⟩
        unfold renO
        rw [if_neg (fun e => h3 (name_inj hnames h1 hp e))]
      · exact ⟨⟨p, hp, by simp [renO]⟩, fun e => hpn (name_inj hnames hp hn e)⟩
  · intro f E hs t ht v
    obtain ⟨a, b⟩ := skip_sem_unread (f := f) hnames hprod hn hp hpn hout hpout honly hunread hs.byName (E := E)
      (hs.free n hn out (by rw [hout]; simp)) (hs.free p hp ind (by rw [hpout]; simp))
      (fun vs i v h1 h2 => hs.ident n hn (by simp) vs i ind v h1 hindm.2 h2) hindm.1 (by
        intro s hs1
        rcases hs.static n hn (by simp) s hs1 with h | h
        · left
          have : s ∈ n.input.filter (fun t => g.dynamics.contains t) :=
            List.mem_filter.mpr ⟨hs1, List.contains_iff_mem.mpr h⟩
          rw [hind] at this; simpa using this
        · exact Or.inr h)
    refine ⟨b t v, fun h => ?_⟩
    have := a t v h
    simpa [ren, ht] using this

/-- an instance: `relu → flatten` at the end of the graph -/
example : (skipNode (Graph.updateTensorRelations
      { nodemap := [⟨"relu", "Relu", ["x"], ["y"]⟩, ⟨"fl", "Flatten", ["y"], ["a"]⟩], input := ["x"], output := ["a"] })
      "fl").toOption.map (·.nodemap) = some [⟨"relu", "Relu", ["x"], ["a"]⟩] := rfl

/-- **C40, which operators.** The operators removed are exactly Flatten, Reshape, Squeeze and Unsqueeze. -/
theorem C40_which_ops (n : Node) :
    isShapeOp n = true ↔ n.op = "Flatten" ∨ n.op = "Reshape" ∨ n.op = "Squeeze" ∨ n.op = "Unsqueeze" := by
  unfold isShapeOp
  rw [List.contains_iff_mem]
  simp only [List.mem_cons, List.not_mem_nil, or_false]
  constructor
  · rintro (h | h | h | h)
    · exact .inl h
    · exact .inr (.inl h)
    · exact .inr (.inr (.inr h))
    · exact .inr (.inr (.inl h))
  · rintro (h | h | h | h)
    · exact .inl h
    · exact .inr (.inl h)
    · exact .inr (.inr (.inr h))
    · exact .inr (.inr (.inl h))

/-- **C40 finding**: a shape operator at the graph output whose operand has a second reader: the producer is renamed, the
other reader (`neg`) keeps reading `y`, which nobody produces any more. -/
theorem C40_other_reader_disconnected :
    (removeShapeOps (Graph.updateTensorRelations
      { nodemap := [⟨"relu", "Relu", ["x"], ["y"]⟩, ⟨"rs", "Flatten", ["y"], ["a"]⟩, ⟨"neg", "Neg", ["y"], ["w"]⟩]
        input := ["x"], output := ["a", "w"] })).toOption.map (·.nodemap) =
    some [⟨"relu", "Relu", ["x"], ["a"]⟩, ⟨"neg", "Neg", ["y"], ["w"]⟩] := rfl

/-- **C40 finding**: a shape operator with two dynamic operands (a computed target shape) is removed without rewiring: its
reader keeps reading a tensor nobody produces. -/
theorem C40_two_dynamic_operands_disconnected :
    (removeShapeOps (Graph.updateTensorRelations
      { nodemap := [⟨"relu", "Relu", ["x"], ["y"]⟩, ⟨"shape", "Shape", ["y"], ["s"]⟩, ⟨"rs", "Reshape", ["y", "s"], ["a"]⟩,
                    ⟨"neg", "Neg", ["a"], ["w"]⟩]
        input := ["x"], output := ["w"] })).toOption.map (·.nodemap) =
    some [⟨"relu", "Relu", ["x"], ["y"]⟩, ⟨"shape", "Shape", ["y"], ["s"]⟩, ⟨"neg", "Neg", ["a"], ["w"]⟩] := rfl

/-- **C40 finding**: a shape operator reading a graph input directly is not rewired either, after
`update_tensor_relations()` has rebuilt `dynamics` from the produced tensors only. -/
theorem C40_graph_input_disconnected :
    (removeShapeOps (Graph.updateTensorRelations
      { nodemap := [⟨"rs", "Flatten", ["x"], ["a"]⟩, ⟨"neg", "Neg", ["a"], ["w"]⟩]
        input := ["x"], output := ["w"] })).toOption.map (·.nodemap) =
    some [⟨"neg", "Neg", ["a"], ["w"]⟩] := rfl

/-- **C40 finding**: an unread shape operator on a graph input (listed in `dynamics`, as after loading) raises `KeyError`. -/
theorem C40_unread_on_input_raises :
    skipNode { nodemap := [⟨"rs", "Flatten", ["x"], ["a"]⟩], input := ["x"], output := ["a"], dynamics := ["x", "a"],
               consumedby := [("x", ["rs"])], producedby := [("a", ["rs"])] } "rs" = .error .keyError := rfl

end OnnxTool.Props
