import Verif.Model.FileTools
import Verif.Props.Load
import Verif.Props.Topsort
import Verif.Proofs.Export
/-!
# C105: reordering and constant folding from file to file
-/
namespace OnnxTool.Props
open OnnxTool OnnxTool.Load OnnxTool.FileTools OnnxTool.Topsort OnnxTool.ConstFold

variable {V : Type}

private theorem ev_sub {f : Node → List V → Nat → V} {ns ns' : List Node} (h : ∀ n, n ∈ ns → n ∈ ns') {E : Env V} {t : String} {v : V} (he : Ev ns f E t v) :
    Ev ns' f E t v := by
  induction he with
  | base h1 => exact .base h1
  | node vs h1 h2 h3 _ ih => exact .node vs (h _ h1) h2 h3 ih

private theorem reads_of {ns ns' : List Node} (h : ∀ n, n ∈ ns ↔ n ∈ ns') (t : String) : Reads ns t ↔ Reads ns' t := by
  unfold Reads; simp only [h]

private theorem makes_of {ns ns' : List Node} (h : ∀ n, n ∈ ns ↔ n ∈ ns') (t : String) : Makes ns t ↔ Makes ns' t := by
  unfold Makes; simp only [h]

private theorem unique_of {ns : List Node} (h : (ns.flatMap (·.output)).Nodup) : UniqueProducers ns :=
  fun _ _ t _ => List.nodup_iff_count.1 h t

/-- the reordered nodes of a loaded graph -/
private theorem reorder_nodes {absent : V} {l : Loaded V} (h : LoadOk absent l) :
    (reorderL l).graph.nodemap.Perm l.graph.nodemap ∧ TopoOrdered (reorderL l).graph.nodemap := by
  obtain ⟨ms, hp, ht, e⟩ := Export.topsort_sorted h.names (unique_of h.outs) h.acyclic
  have : (reorderL l).graph.nodemap = ms := by
    show (topsortNodes l.graph.nodemap).filterMap (findNode l.graph.nodemap) = ms
    rw [e, filterMap_findNode h.names ms fun n hn => hp.mem_iff.1 hn]
  rw [this]
  exact ⟨hp, ht⟩

private theorem start_ext {p q : GraphProto V} (hp : (p.initializer.map (·.1)).Nodup) (hq : (q.initializer.map (·.1)).Nodup)
    (h : ∀ t v, (t, v) ∈ q.initializer ↔ (t, v) ∈ p.initializer) (absent : V) (x : Env V) : start q absent x = start p absent x := by
  funext t
  by_cases hi : IsInit p t
  · obtain ⟨v, hv⟩ := hi
    unfold start
    rw [find_some hp hv, find_some hq ((h t v).2 hv)]
  · have hi' : ¬ IsInit q t := fun ⟨v, hv⟩ => hi ⟨v, (h t v).1 hv⟩
    rw [start_other hi, start_other hi']

private theorem reorder_saved {absent : V} {l : Loaded V} (h : LoadOk absent l) :
    let q := save true true (reorderL l)
    let s := save true true l
    q.node.Perm s.node ∧ TopoOrdered q.node ∧ (q.initializer.map (·.1)).Nodup ∧ (∀ t v, (t, v) ∈ q.initializer ↔ (t, v) ∈ s.initializer) ∧
      q.output = s.output ∧ (∀ t, t ∈ q.input ↔ t ∈ s.input) ∧ Valid q := by
  obtain ⟨hp, ht⟩ := reorder_nodes h
  have hmem : ∀ n, n ∈ (reorderL l).graph.nodemap ↔ n ∈ l.graph.nodemap := fun n => hp.mem_iff
  have hini : ∀ t v, (t, v) ∈ usedInitials (reorderL l) ↔ (t, v) ∈ usedInitials l := by
    intro t v
    rw [mem_used, mem_used, reads_of hmem]
    exact Iff.rfl
  have hinin : ∀ t, t ∈ (usedInitials (reorderL l)).map (·.1) ↔ t ∈ (usedInitials l).map (·.1) := by
    intro t
    simp only [List.mem_map, Prod.exists, exists_and_right, exists_eq_right, hini]
  have hs := saved_valid h true
  refine ⟨hp, ht, used_nodup _, hini, rfl, ?_, ?_⟩
  · intro t
    show t ∈ infos l l.graph.input ++ infos l (l.graph.initials.filter fun t => !((usedInitials (reorderL l)).map (·.1)).contains t) ↔
      t ∈ infos l l.graph.input ++ infos l (l.graph.initials.filter fun t => !((usedInitials l).map (·.1)).contains t)
    rw [List.mem_append, List.mem_append, mem_infos, mem_infos, mem_infos]
    simp only [List.mem_filter, Bool.not_eq_true', ← Bool.not_eq_true, List.contains_iff_mem, hinin]
  · constructor
    · exact used_nodup _
    · rintro t ⟨v, hv⟩; exact hs.noEmpty t ⟨v, (hini t v).1 hv⟩
    · exact ((hp.map _).flatten.nodup_iff).2 (by exact h.outs)
    · intro n hn t hto
      obtain ⟨a, b⟩ := hs.outNamed n ((hmem n).1 hn) t hto
      exact ⟨a, fun ⟨v, hv⟩ => b ⟨v, (hini t v).1 hv⟩⟩
    · exact ⟨_, List.Perm.refl _, ht⟩

private theorem reorder_inv {p : GraphProto V} {f : Node → List V → Nat → V} {absent : V} {fuel : Nat} {q : GraphProto V} (hv : Valid p)
    (hn : ((named false p.node).map (·.name)).Nodup) (h : modelReorderNodes f absent fuel p = .ok (some q)) :
    ∃ l, load {} f absent fuel p = .ok l ∧ LoadOk absent l ∧ q = save true true (reorderL l) := by
  unfold modelReorderNodes at h
  cases hl : load {} f absent fuel p with
  | error e => rw [hl] at h; cases h
  | ok l =>
    rw [hl] at h
    simp only [Except.ok.injEq] at h
    unfold saveFile at h
    split at h
    · cases h
    · injection h with h
      exact ⟨l, rfl, load_ok hv hn hl, h.symm⟩

/-- **C105, reordering returns.**  For every valid model file with at least one node and distinct node names a file is written. -/
theorem C105_reorder_returns {p : GraphProto V} (f : Node → List V → Nat → V) (absent : V) (hv : Valid p)
    (hn : ((named false p.node).map (·.name)).Nodup) (hne : p.node ≠ []) :
    ∃ N, ∀ fuel, N ≤ fuel → ∃ q, modelReorderNodes f absent fuel p = .ok (some q) := by
  obtain ⟨N, hN⟩ := C73_load_returns (cfg := {}) f absent hn hv.acyclic
  refine ⟨N, fun fuel hf => ?_⟩
  obtain ⟨l, hl⟩ := hN fuel hf
  have hk := load_ok hv hn hl
  have hnodes := (C73_load_plain hv hn rfl hl).1
  refine ⟨save true true (reorderL l), ?_⟩
  unfold modelReorderNodes saveFile
  rw [hl]
  simp only
  rw [if_neg]
  intro he
  have he : (reorderL l).graph.nodemap = [] := by simpa using he
  have := (reorder_nodes hk).1.length_eq
  rw [he, hnodes, named_length] at this
  exact hne (List.length_eq_zero_iff.1 this.symm)

/-- **C105, what reordering writes.**  The file has exactly the nodes of the original (under their names), producers first; exactly the initializers that some node reads, with
their values; the declared outputs, in order, that the model has; as inputs the tensors that must be fed (and the initializers nobody reads); and it is again a valid model. -/
theorem C105_reorder_file {p : GraphProto V} {f : Node → List V → Nat → V} {absent : V} {fuel : Nat} {q : GraphProto V} (hv : Valid p)
    (hn : ((named false p.node).map (·.name)).Nodup) (h : modelReorderNodes f absent fuel p = .ok (some q)) :
    q.node.Perm (named false p.node) ∧ TopoOrdered q.node ∧ Valid q ∧
    (q.initializer.map (·.1)).Nodup ∧ (∀ t v, (t, v) ∈ q.initializer ↔ (t, v) ∈ p.initializer ∧ Reads p.node t) ∧
    q.output.Sublist p.output ∧ (∀ t, t ∈ q.output ↔ t ∈ p.output ∧ t ≠ "" ∧ (Reads p.node t ∨ Makes p.node t ∨ IsInit p t)) ∧
    (∀ t, t ∈ q.input ↔ t ≠ "" ∧ ((Reads p.node t ∧ ¬ Makes p.node t ∧ ¬ IsInit p t) ∨ (IsInit p t ∧ ¬ Reads p.node t))) := by
  obtain ⟨l, hl, hk, rfl⟩ := reorder_inv hv hn h
  obtain ⟨a1, a2, a3, a4, a5, a6, a7⟩ := reorder_saved hk
  obtain ⟨b1, b2, b3, b4, b5, b6⟩ := C74_saved_file hv hn rfl rfl hl true
  refine ⟨by rw [← show _ = named false p.node from b1]; exact a1, a2, a7, a3, fun t v => by rw [a4]; exact b3 t v, by rw [a5]; exact b4, fun t => by rw [a5]; exact b5 t,
    fun t => by rw [a6]; exact b6 t⟩

/-- **C105, reordering keeps what the model computes.**  Every tensor that a node reads or produces, and every written output (except an initializer that nobody reads), has in the
written file exactly the values it has in the original, whatever the operators compute and for all inputs. -/
theorem C105_reorder_values {p : GraphProto V} {f : Node → List V → Nat → V} {absent : V} {fuel : Nat} {q : GraphProto V} (hv : Valid p)
    (hn : ((named false p.node).map (·.name)).Nodup) (h : modelReorderNodes f absent fuel p = .ok (some q)) (hf : NameFree f)
    (x : Env V) (hx : ∀ t, Makes p.node t → x t = none) :
    (∀ t, Reads p.node t ∨ Makes p.node t → ∀ v, (Computes q f absent x t v ↔ Computes p f absent x t v)) ∧
    (∀ t ∈ q.output, ¬ (IsInit p t ∧ ¬ Reads p.node t) → ∀ v, (Computes q f absent x t v ↔ Computes p f absent x t v)) := by
  obtain ⟨l, hl, hk, rfl⟩ := reorder_inv hv hn h
  obtain ⟨a1, a2, a3, a4, a5, a6, a7⟩ := reorder_saved hk
  obtain ⟨b1, b2⟩ := C74_save_same_values hv hn hl hf true x hx
  have hst := start_ext (used_nodup l) a3 a4 absent x
  have same : ∀ t v, Computes (save true true (reorderL l)) f absent x t v ↔ Computes (save true true l) f absent x t v := by
    intro t v
    unfold Computes
    have : start (save true true (reorderL l)) absent x = start (save true true l) absent x := hst
    rw [this]
    exact ⟨ev_sub fun n hn => a1.mem_iff.1 hn, ev_sub fun n hn => a1.mem_iff.2 hn⟩
  have hnode : (save true true l).node = named false p.node := (C74_saved_file hv hn rfl rfl hl true).1
  constructor
  · intro t ht v
    rw [same]
    refine b1 t ?_ v
    rw [hnode, reads_named, makes_named]
    exact ht
  · intro t ht hu v
    rw [same]
    exact b2 t (by rw [← a5]; exact ht) hu v

/-! ### Running the tool again -/

private theorem keys_producers (ns : List Node) : ∀ (d : Dict (List String)), (ns.foldl addProducers d).keys = ns.foldl (fun l n => n.output.foldl Subgraph.addNew l) d.keys := by
  have one : ∀ (ts : List String) (x : String) (d : Dict (List String)), (ts.foldl (fun d t => d.appendAt t x) d).keys = ts.foldl Subgraph.addNew d.keys := by
    intro ts x
    induction ts with
    | nil => intro d; rfl
    | cons t ts ih =>
      intro d
      rw [List.foldl_cons, List.foldl_cons, ih]
      congr 1
      unfold Dict.appendAt Subgraph.addNew
      rw [Dict.keys_set]
      simp only [List.contains_eq_mem, decide_eq_true_eq]
  induction ns with
  | nil => intro d; rfl
  | cons n ns ih =>
    intro d
    rw [List.foldl_cons, List.foldl_cons, ih]
    congr 1
    exact one _ _ _

private theorem filter_addNew (P : String → Bool) (A : List String) (t : String) :
    (Subgraph.addNew A t).filter P = if P t = true ∧ t ∉ A.filter P then A.filter P ++ [t] else A.filter P := by
  unfold Subgraph.addNew
  by_cases hc : t ∈ A
  · rw [if_pos (by simpa using hc)]
    by_cases hp : P t = true
    · rw [if_neg (fun h => h.2 (List.mem_filter.2 ⟨hc, hp⟩))]
    · rw [if_neg (fun h => hp h.1)]
  · rw [if_neg (by simpa using hc), List.filter_append]
    by_cases hp : P t = true
    · rw [if_pos ⟨hp, fun h => hc (List.mem_filter.1 h).1⟩]; simp [hp]
    · rw [if_neg (fun h => hp h.1)]; simp [hp]

private theorem filter_fold_outs (P : String → Bool) (ts : List String) : ∀ (A D : List String), A.filter P = D.filter P →
    (ts.foldl Subgraph.addNew A).filter P = (ts.foldl Subgraph.addNew D).filter P := by
  induction ts with
  | nil => intro A D h; exact h
  | cons t ts ih =>
    intro A D h
    refine ih _ _ ?_
    rw [filter_addNew, filter_addNew, h]

private theorem filter_fold_ins (P : String → Bool) (ts : List String) : ∀ (A : List String), (∀ t ∈ ts, P t = true → t ∈ A) →
    (ts.foldl Subgraph.addNew A).filter P = A.filter P := by
  induction ts with
  | nil => intro A _; rfl
  | cons t ts ih =>
    intro A h
    have hA : ∀ s ∈ ts, P s = true → s ∈ Subgraph.addNew A t := by
      intro s hs hp
      have := h s (List.mem_cons_of_mem _ hs) hp
      unfold Subgraph.addNew
      split
      · exact this
      · exact List.mem_append_left _ this
    rw [List.foldl_cons, ih _ hA, filter_addNew, if_neg]
    rintro ⟨hp, hno⟩
    exact hno (List.mem_filter.2 ⟨h t List.mem_cons_self hp, hp⟩)

private theorem mem_collect_outs (ns : List Node) : ∀ (A : List String) (t : String), (t ∈ A ∨ ∃ n ∈ ns, t ∈ n.output) →
    t ∈ ns.foldl (fun l n => n.output.foldl Subgraph.addNew l) A := by
  intro A t h
  rw [mem_foldl_news]
  exact h

/-- on a sorted loaded graph reordering changes nothing that is written -/
private theorem dynamics_same {absent : V} {l : Loaded V} (h : LoadOk absent l) (ht : TopoOrdered l.graph.nodemap) :
    ((l.graph.nodemap.foldl addProducers []).keys.filter fun t => !(l.graph.input.contains t || l.graph.output.contains t)) =
      l.graph.dynamics.filter fun t => !(l.graph.input.contains t || l.graph.output.contains t) := by
  rw [keys_producers, h.dyn]
  unfold foldedDynamics
  generalize hP : (fun t => !(l.graph.input.contains t || l.graph.output.contains t)) = P
  have hPin : ∀ t, P t = true → t ∉ l.graph.input := by
    intro t hp hi
    rw [← hP] at hp
    simp [hi] at hp
  have aux : ∀ (rest pre : List Node), pre ++ rest = l.graph.nodemap → ∀ A D : List String, A.filter P = D.filter P → (∀ n ∈ pre, ∀ t ∈ n.output, t ∈ A) →
      (rest.foldl (fun l n => n.output.foldl Subgraph.addNew l) A).filter P =
      (rest.foldl (fun l' n => n.output.foldl Subgraph.addNew ((n.input.filter (fun t => (listEnv l.graph.initials t).isNone)).foldl Subgraph.addNew l')) D).filter P := by
    intro rest
    induction rest with
    | nil => intro pre _ A D hAD _; exact hAD
    | cons n rest ih =>
      intro pre hpre A D hAD hout
      rw [List.foldl_cons, List.foldl_cons]
      have hn : n ∈ l.graph.nodemap := by rw [← hpre]; simp
      refine ih (pre ++ [n]) (by rw [← hpre]; simp) _ _ ?_ ?_
      · refine filter_fold_outs P n.output _ _ ?_
        rw [filter_fold_ins]
        · exact hAD
        · intro t hti hp
          obtain ⟨hti, hnone⟩ := List.mem_filter.1 hti
          have hni : t ∉ l.graph.initials := by
            intro hc
            have := (listEnv_isSome l.graph.initials t).2 hc
            rw [Option.isNone_iff_eq_none] at hnone
            rw [hnone] at this; cases this
          have hmake : Makes l.graph.nodemap t := Classical.byContradiction fun hm => hPin t hp ((h.mem_inp t).2 ⟨⟨n, hn, hti⟩, hm, hni⟩)
          obtain ⟨m, hm, hmo⟩ := hmake
          have hdep : Dep n m := ⟨t, hti, hmo⟩
          have hmpre : m ∈ pre := by
            rw [← hpre] at hm
            rcases List.mem_append.1 hm with hm | hm
            · exact hm
            · exfalso
              rcases List.mem_cons.1 hm with rfl | hm
              · exact ht.2 m hn hdep
              · have hpw := ht.1
                rw [← hpre] at hpw
                have := (List.pairwise_append.1 hpw).2.1
                exact (List.pairwise_cons.1 this).1 m hm hdep
          have hA := hout m hmpre t hmo
          have : t ∈ A.filter P := List.mem_filter.2 ⟨hA, hp⟩
          rw [hAD] at this
          exact (List.mem_filter.1 this).1
      · intro m hm t hto
        rcases List.mem_append.1 hm with hm | hm
        · have := hout m hm t hto
          exact mem_collect_outs [n] A t (.inl this)
        · exact mem_collect_outs [n] A t (.inr ⟨m, hm, hto⟩)
  exact aux l.graph.nodemap [] rfl [] [] rfl (by simp)

private theorem reorder_sorted {absent : V} {l : Loaded V} (h : LoadOk absent l) (ht : TopoOrdered l.graph.nodemap)
    (he : (graphReorderNodes l.graph).nodemap = l.graph.nodemap) : save true true (reorderL l) = save true true l := by
  have hd := dynamics_same h ht
  have hdyn : (reorderL l).graph.dynamics = (l.graph.nodemap.foldl addProducers []).keys := by
    have : (reorderL l).graph.dynamics = ((graphReorderNodes l.graph).nodemap.foldl addProducers []).keys := rfl
    rw [this, he]
  have hnm : (reorderL l).graph.nodemap = l.graph.nodemap := he
  have hu : usedInitials (reorderL l) = usedInitials l := by
    unfold usedInitials
    rw [hnm]
    rfl
  have hinf : ∀ names, infos (reorderL l) names = infos l names := fun _ => rfl
  unfold save
  simp only [hnm, hu, hinf, if_true]
  rw [hdyn]
  have e1 : (reorderL l).graph.input = l.graph.input := rfl
  have e2 : (reorderL l).graph.output = l.graph.output := rfl
  have e3 : (reorderL l).graph.initials = l.graph.initials := rfl
  rw [e1, e2, e3, hd]

private theorem reorder_nodemap (g g' : Graph) (h : g'.nodemap = g.nodemap) : (graphReorderNodes g').nodemap = (graphReorderNodes g).nodemap := by
  show (topsortNodes g'.nodemap).filterMap (findNode g'.nodemap) = _
  rw [h]
  rfl

/-- a file whose nodes are in the order the tool gives them -/
private theorem reorder_fixed {g : Graph} {p q : GraphProto V} {f : Node → List V → Nat → V} {absent : V} {fuel : Nat} {l : Loaded V}
    (hv : Valid p) (hn : ((named false p.node).map (·.name)).Nodup) (hnames : ∀ n ∈ p.node, n.name ≠ "") (hg : (g.nodemap.map (·.name)).Nodup)
    (hgu : UniqueProducers g.nodemap) (hp : p.node = (graphReorderNodes g).nodemap) (ht : TopoOrdered p.node) (hl : load {} f absent fuel p = .ok l)
    (hq : q = save true true (reorderL l)) : q = save true true l ∧ l.graph.nodemap = p.node := by
  have hk := load_ok hv hn hl
  have hnm : l.graph.nodemap = p.node := by rw [(C73_load_plain hv hn rfl hl).1]; exact named_fix hnames
  refine ⟨?_, hnm⟩
  rw [hq]
  refine reorder_sorted hk (by rw [hnm]; exact ht) ?_
  rw [reorder_nodemap (graphReorderNodes g) l.graph (hnm.trans hp), C09_idempotent g hg hgu, ← hp, hnm]

/-- **C105, reordering again.**  A second run keeps nodes and initializers as the first run wrote them; from the second run on the file does not change any more. -/
theorem C105_reorder_again {p q1 q2 q3 : GraphProto V} {f : Node → List V → Nat → V} {absent : V} {fuel1 fuel2 fuel3 : Nat} (hv : Valid p)
    (hn : ((named false p.node).map (·.name)).Nodup) (h1 : modelReorderNodes f absent fuel1 p = .ok (some q1))
    (h2 : modelReorderNodes f absent fuel2 q1 = .ok (some q2)) (h3 : modelReorderNodes f absent fuel3 q2 = .ok (some q3)) :
    q2.node = q1.node ∧ (∀ t v, (t, v) ∈ q2.initializer ↔ (t, v) ∈ q1.initializer) ∧ q3 = q2 := by
  obtain ⟨l0, hl0, hk0, e1⟩ := reorder_inv hv hn h1
  obtain ⟨a1, a2, a3, a4, a5, a6, a7⟩ := reorder_saved hk0
  rw [← e1] at a1 a2 a3 a4 a5 a6 a7
  have n1 : q1.node = (graphReorderNodes l0.graph).nodemap := by rw [e1]; rfl
  have names1 : ∀ n ∈ q1.node, n.name ≠ "" := fun n hn => hk0.named n (a1.mem_iff.1 hn)
  have nd1 : ((named false q1.node).map (·.name)).Nodup := by
    rw [named_fix names1]
    exact ((a1.map _).nodup_iff).2 hk0.names
  obtain ⟨l1, hl1, hk1, e2⟩ := reorder_inv a7 nd1 h2
  obtain ⟨s2, nm1⟩ := reorder_fixed a7 nd1 names1 hk0.names (unique_of hk0.outs) n1 a2 hl1 e2
  have n2 : q2.node = q1.node := by rw [s2, ← nm1]; rfl
  have v2 : Valid q2 := by rw [s2]; exact saved_valid hk1 true
  have nd2 : ((named false q2.node).map (·.name)).Nodup := by rw [n2]; exact nd1
  have used1 : ∀ t, IsInit q1 t → Reads q1.node t := by
    rintro t ⟨v, hv'⟩
    rw [e1] at hv'
    have := (mem_used (reorderL l0) t v).1 hv'
    rw [n1]
    exact this.1
  refine ⟨n2, ?_, ?_⟩
  · intro t v
    have := (C74_saved_file a7 nd1 rfl rfl hl1 true).2.2.1 t v
    rw [s2, this]
    exact ⟨fun h => h.1, fun h => ⟨h, used1 t ⟨v, h⟩⟩⟩
  · obtain ⟨l2, hl2, hk2, e3⟩ := reorder_inv v2 nd2 h3
    obtain ⟨s3, nm2⟩ := reorder_fixed v2 nd2 (by rw [n2]; exact names1) hk0.names (unique_of hk0.outs) (n2.trans n1) (by rw [n2]; exact a2) hl2 e3
    rw [s3, s2]
    exact C74_save_again_plain (fuel' := fuel3) a7 nd1 rfl used1 true hl1 (by rw [← s2]; exact hl2)

/-! ### Constant folding -/

private theorem fold_inv {p : GraphProto V} {f : Node → List V → Nat → V} {absent : V} {fuel : Nat} {r : Option (GraphProto V)} (hv : Valid p)
    (hn : ((named false p.node).map (·.name)).Nodup) (h : modelConstantFolding f absent fuel p = .ok r) :
    ∃ l, load { constantFolding := true } f absent fuel p = .ok l ∧ LoadOk absent l ∧ r = saveFile l := by
  unfold modelConstantFolding at h
  cases hl : load { constantFolding := true } f absent fuel p with
  | error e => rw [hl] at h; cases h
  | ok l =>
    rw [hl] at h
    injection h with h
    exact ⟨l, rfl, load_ok hv hn hl, h.symm⟩

/-- **C105, folding returns**, and writes a file unless every node is constant. -/
theorem C105_fold_returns {p : GraphProto V} (f : Node → List V → Nat → V) (absent : V) (hv : Valid p)
    (hn : ((named false p.node).map (·.name)).Nodup) :
    ∃ N, ∀ fuel, N ≤ fuel → ∃ r, modelConstantFolding f absent fuel p = .ok r ∧
      (r = none ↔ ∀ n ∈ named false p.node, ConstNode (named false p.node) (fun t => IsInit p t ∨ t = "") n) := by
  obtain ⟨N, hN⟩ := C73_load_returns (cfg := { constantFolding := true }) f absent hn hv.acyclic
  refine ⟨N, fun fuel hf => ?_⟩
  obtain ⟨l, hl⟩ := hN fuel hf
  refine ⟨saveFile l, by unfold modelConstantFolding; rw [hl], ?_⟩
  have hmem := (C73_load_folded hv hn rfl hl).2.1
  unfold saveFile
  constructor
  · intro h n hnn
    split at h
    · rename_i he
      have he : l.graph.nodemap = [] := by simpa using he
      refine Classical.byContradiction fun hc => ?_
      have := (hmem n).2 ⟨hnn, hc⟩
      rw [he] at this; cases this
    · cases h
  · intro h
    rw [if_pos]
    rw [List.isEmpty_iff]
    cases hnm : l.graph.nodemap with
    | nil => rfl
    | cons n ns =>
      have := (hmem n).1 (by rw [hnm]; simp)
      exact absurd (h n this.1) this.2

/-- **C105, what folding writes.**  The remaining nodes are those of the original, in order, that are not constant (so producers still come first if they did); the
initializers are the static tensors they read; no input is added; the outputs are the declared ones that a remaining node reads or produces; and it is a valid model. -/
theorem C105_fold_file {p : GraphProto V} {f : Node → List V → Nat → V} {absent : V} {fuel : Nat} {q : GraphProto V} (hv : Valid p)
    (hn : ((named false p.node).map (·.name)).Nodup) (h : modelConstantFolding f absent fuel p = .ok (some q)) :
    q.node.Sublist (named false p.node) ∧
    (∀ n, n ∈ q.node ↔ n ∈ named false p.node ∧ ¬ ConstNode (named false p.node) (fun t => IsInit p t ∨ t = "") n) ∧
    (TopoOrdered p.node → TopoOrdered q.node) ∧ Valid q ∧
    (∀ t, IsInit q t ↔ Reads q.node t ∧ StaticT (named false p.node) (fun t => IsInit p t ∨ t = "") t ∧ t ≠ "") ∧
    (∀ t, t ∈ q.input ↔ Reads q.node t ∧ ¬ Makes p.node t ∧ ¬ IsInit p t ∧ t ≠ "") ∧
    q.output.Sublist p.output ∧ (∀ t, t ∈ q.output ↔ t ∈ p.output ∧ t ≠ "" ∧ (Reads q.node t ∨ Makes q.node t)) := by
  obtain ⟨l, hl, hk, e⟩ := fold_inv hv hn h
  unfold saveFile at e
  split at e
  · cases e
  · injection e with e
    subst e
    obtain ⟨a1, a2, -, -, -, a6, -⟩ := C73_load_folded hv hn rfl hl
    obtain ⟨-, b2, b3, b4, b5⟩ := C74_saved_file_folded hv hn rfl rfl hl true
    refine ⟨a1, a2, ?_, saved_valid hk true, b2, fun t => (b3 t).trans (a6 t), b4, b5⟩
    intro ht
    have : TopoOrdered (named false p.node) := by
      rw [← topo_strip, named_strip, topo_strip]; exact ht
    exact ⟨this.1.sublist a1, fun n hn => this.2 n (a1.subset hn)⟩

/-- **C105, folding keeps what the model computes** (for every tensor a remaining node reads or produces, and every written output). -/
theorem C105_fold_values {p : GraphProto V} {f : Node → List V → Nat → V} {absent : V} {fuel : Nat} {q : GraphProto V} (hv : Valid p)
    (hn : ((named false p.node).map (·.name)).Nodup) (h : modelConstantFolding f absent fuel p = .ok (some q)) (hf : NameFree f)
    (x : Env V) (hx : ∀ t, Makes p.node t → x t = none) (t : String) (ht : Reads q.node t ∨ Makes q.node t ∨ t ∈ q.output) (v : V) :
    Computes q f absent x t v ↔ Computes p f absent x t v := by
  have hfile := C105_fold_file hv hn h
  obtain ⟨l, hl, hk, e⟩ := fold_inv hv hn h
  unfold saveFile at e
  split at e
  · cases e
  · injection e with e
    subst e
    obtain ⟨b1, b2⟩ := C74_save_same_values hv hn hl hf true x hx
    rcases ht with ht | ht | ht
    · exact b1 t (.inl ht) v
    · exact b1 t (.inr ht) v
    · exact b1 t ((hfile.2.2.2.2.2.2.2 t).1 ht).2.2 v

/-- **C105, folding again** writes the same file: there is nothing left to fold. -/
theorem C105_fold_again {p q q2 : GraphProto V} {f : Node → List V → Nat → V} {absent : V} {fuel fuel' : Nat} (hv : Valid p)
    (hn : ((named false p.node).map (·.name)).Nodup) (h : modelConstantFolding f absent fuel p = .ok (some q))
    (h2 : modelConstantFolding f absent fuel' q = .ok (some q2)) : q2 = q := by
  have hq := (C105_fold_file hv hn h).2.2.2.1
  obtain ⟨l, hl, hk, e⟩ := fold_inv hv hn h
  unfold saveFile at e
  split at e
  · cases e
  · injection e with e
    have nq : ((named false q.node).map (·.name)).Nodup := by
      rw [e, named_fix (show ∀ n ∈ (save true true l).node, n.name ≠ "" from hk.named)]
      exact hk.names
    obtain ⟨l', hl', hk', e'⟩ := fold_inv hq nq h2
    unfold saveFile at e'
    split at e'
    · cases e'
    · injection e' with e'
      rw [e', e]
      rw [e] at hl'
      exact C74_save_again_folded hv hn rfl rfl true hl hl'

/-! ### A concrete file, and what goes wrong -/

/-- consumers first, one constant node, two inputs first read in the other order, one initializer nobody reads -/
private def mixedFile : GraphProto Int :=
  { node := [⟨"c", "Add", ["t2", "x"], ["y"]⟩, ⟨"a", "Mul", ["z", "k"], ["t1"]⟩, ⟨"k2", "Neg", ["w"], ["k"]⟩, ⟨"", "Relu", ["t1"], ["t2"]⟩]
    initializer := [("w", 3), ("unused", 5)], input := ["x", "z"], output := ["y"] }

example : Valid mixedFile ∧ ((named false mixedFile.node).map (·.name)).Nodup := by
  refine ⟨⟨by decide, ?_, by decide, ?_, ⟨[⟨"k2", "Neg", ["w"], ["k"]⟩, ⟨"a", "Mul", ["z", "k"], ["t1"]⟩, ⟨"", "Relu", ["t1"], ["t2"]⟩, ⟨"c", "Add", ["t2", "x"], ["y"]⟩],
    by decide, by decide⟩⟩, by decide⟩
  · rintro t ⟨v, hv⟩
    simp [mixedFile] at hv
    rcases hv with ⟨rfl, _⟩ | ⟨rfl, _⟩ <;> decide
  · have : ∀ n ∈ mixedFile.node, ∀ t ∈ n.output, t ≠ "" ∧ t ∉ mixedFile.initializer.map (·.1) := by decide
    intro n hn t ht
    refine ⟨(this n hn t ht).1, fun hi => (this n hn t ht).2 ((isInit_iff _ _).2 hi)⟩

example : (modelReorderNodes foldSem 0 10 mixedFile).toOption.map (fun r => r.map fun q => (q.node.map (·.name), q.initializer, q.input, q.output)) =
    some (some (["k2", "a", "Relu_3", "c"], [("w", 3)], ["x", "z", "unused"], ["y"])) := rfl
example : (modelConstantFolding foldSem 0 10 mixedFile).toOption.map (fun r => r.map fun q => (q.node.map (·.name), q.initializer.map (·.1), q.input, q.output)) =
    some (some (["c", "a", "Relu_3"], ["k"], ["x", "z"], ["y"])) := by decide

/-- Finding: two runs of `model_reorder_nodes` do not write the same file: the second one lists the inputs in another order and drops the unread initializer. -/
theorem C105_reorder_twice_differs : ∃ q1 q2, Valid mixedFile ∧ modelReorderNodes foldSem 0 10 mixedFile = .ok (some q1) ∧
    modelReorderNodes foldSem 0 10 q1 = .ok (some q2) ∧ q1.input = ["x", "z", "unused"] ∧ q2.input = ["z", "x"] := by
  refine ⟨_, _, ?_, rfl, rfl, rfl, rfl⟩
  refine ⟨by decide, ?_, by decide, ?_, ⟨[⟨"k2", "Neg", ["w"], ["k"]⟩, ⟨"a", "Mul", ["z", "k"], ["t1"]⟩, ⟨"", "Relu", ["t1"], ["t2"]⟩, ⟨"c", "Add", ["t2", "x"], ["y"]⟩],
    by decide, by decide⟩⟩
  · rintro t ⟨v, hv⟩
    simp [mixedFile] at hv
    rcases hv with ⟨rfl, _⟩ | ⟨rfl, _⟩ <;> decide
  · have : ∀ n ∈ mixedFile.node, ∀ t ∈ n.output, t ≠ "" ∧ t ∉ mixedFile.initializer.map (·.1) := by decide
    intro n hn t ht
    refine ⟨(this n hn t ht).1, fun hi => (this n hn t ht).2 ((isInit_iff _ _).2 hi)⟩

/-- Finding: a model that is entirely constant is not written by `model_constant_folding`, and its outputs are nowhere. -/
theorem C105_constant_model_not_written : modelConstantFolding foldSem 0 10
    { node := [⟨"n", "Neg", ["w"], ["y"]⟩], initializer := [("w", 3)], output := ["y"] } = .ok none := rfl

/-- Finding: an output that is constant is dropped from the folded file. -/
theorem C105_constant_output_dropped : (modelConstantFolding foldSem 0 10
    { node := [⟨"n", "Neg", ["w"], ["y"]⟩, ⟨"m", "Relu", ["x"], ["z"]⟩], initializer := [("w", 3)], input := ["x"], output := ["y", "z"] }).toOption.map
      (fun r => r.map (·.output)) = some (some ["z"]) := by decide

/-- Finding: nodes on a cycle, or that read an output left out (`""`) by two nodes, are silently missing from the file written by `model_reorder_nodes`. -/
theorem C105_reorder_drops : (modelReorderNodes foldSem 0 10
    { node := [⟨"a", "Relu", ["x"], ["t", ""]⟩, ⟨"b", "Relu", ["t"], ["u", ""]⟩, ⟨"c", "Clip", ["u", ""], ["y"]⟩], input := ["x"], output := ["y"] }).toOption.map
      (fun r => r.map fun q => q.node.map (·.name)) = some (some ["a", "b"]) := by decide

end OnnxTool.Props
