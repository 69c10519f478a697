import Verif.Proofs.Export
import Verif.Props.Load
/-!
# C91: exporting a set of nodes, or the three levels of a split, as models of their own
-/
namespace OnnxTool.Props
open OnnxTool ConstFold Load Topsort Export Subgraph

variable {V : Type}

/-- **C91**, contents.  Load a valid file (any configuration) and export any non-empty list of distinct names of its nodes, in any order: the call returns a valid model.  Its nodes
are exactly the named ones, each once, producers first; its initializers are exactly the initializers these nodes read, with their values; its inputs are the tensors these nodes
read that none of them produces and that no initializer supplies — and also every initializer of the whole model that these nodes do *not* read; its outputs are the tensors they
produce that no node of the whole graph reads or that a node outside the list reads. -/
theorem C91_export {cfg : Config} {p : GraphProto V} {f : Node → List V → Nat → V} {absent : V} {fuel : Nat} {l : Loaded V} (hv : Valid p)
    (hn : ((named cfg.nodeRename p.node).map (·.name)).Nodup) (h : load cfg f absent fuel p = .ok l) {names : List String} (hne : names ≠ []) (hnn : names.Nodup)
    (hex : ∀ x ∈ names, ∃ n ∈ l.graph.nodemap, n.name = x) :
    ∃ q, exportNodes l names = .ok (some q) ∧ Valid q ∧ q.node.Nodup ∧ TopoOrdered q.node ∧
      (∀ n, n ∈ q.node ↔ n ∈ l.graph.nodemap ∧ n.name ∈ names) ∧
      (∀ t v, (t, v) ∈ q.initializer ↔ Reads q.node t ∧ t ∈ l.graph.initials ∧ t ≠ "" ∧ l.env t = some v) ∧
      (∀ t, t ∈ q.input ↔ t ≠ "" ∧ ((Reads q.node t ∧ ¬ Makes q.node t ∧ t ∉ l.graph.initials) ∨ (t ∈ l.graph.initials ∧ ¬ Reads q.node t))) ∧
      (∀ t, t ∈ q.output ↔ Makes q.node t ∧ (¬ Reads l.graph.nodemap t ∨ ∃ n ∈ l.graph.nodemap, t ∈ n.input ∧ n.name ∉ names)) := by
  have h1 := load_ok hv hn h
  obtain ⟨q, e1, e2⟩ := export_ok h1 hne hnn hex
  refine ⟨q, e1, e2.valid h1, e2.nodup, e2.topo, e2.mem, ?_, e2.inp, e2.out⟩
  intro t v
  rw [e2.ini, mem_initialsOf]

/-- **C91**, self-contained: every operand of an exported node is an input, an initializer, produced by an exported node, or left out (`""`). -/
theorem C91_closed {cfg : Config} {p : GraphProto V} {f : Node → List V → Nat → V} {absent : V} {fuel : Nat} {l : Loaded V} (hv : Valid p)
    (hn : ((named cfg.nodeRename p.node).map (·.name)).Nodup) (h : load cfg f absent fuel p = .ok l) {names : List String} (hne : names ≠ []) (hnn : names.Nodup)
    (hex : ∀ x ∈ names, ∃ n ∈ l.graph.nodemap, n.name = x) {q : GraphProto V} (hq : exportNodes l names = .ok (some q)) {t : String} (ht : Reads q.node t) :
    t ∈ q.input ∨ IsInit q t ∨ Makes q.node t ∨ t = "" := by
  have h1 := load_ok hv hn h
  obtain ⟨q', e1, e2⟩ := export_ok h1 hne hnn hex
  rw [hq] at e1
  injection e1 with e1; injection e1 with e1; subst e1
  by_cases a : t = ""
  · exact Or.inr (Or.inr (Or.inr a))
  by_cases b : Makes q.node t
  · exact Or.inr (Or.inr (Or.inl b))
  by_cases c : t ∈ l.graph.initials
  · exact Or.inr (Or.inl ((e2.isInit h1 t).2 ⟨ht, c, a⟩))
  · exact Or.inl ((e2.inp t).2 ⟨a, Or.inl ⟨ht, b, c⟩⟩)

private theorem nodemap_sub {cfg : Config} {p : GraphProto V} {f : Node → List V → Nat → V} {absent : V} {fuel : Nat} {l : Loaded V} (hv : Valid p)
    (hn : ((named cfg.nodeRename p.node).map (·.name)).Nodup) (h : load cfg f absent fuel p = .ok l) {t : String} (ht : Makes l.graph.nodemap t) : Makes p.node t := by
  rw [← makes_named cfg.nodeRename p.node]
  cases hcf : cfg.constantFolding with
  | false =>
    rw [← (C73_load_plain hv hn hcf h).1]; exact ht
  | true =>
    obtain ⟨n, a, b⟩ := ht
    exact ⟨n, (((C73_load_folded hv hn hcf h).2.1 n).1 a).1, b⟩

/-- **C91**, meaning: run the exported model on the values its inputs have in the whole model (for any values `x` of the inputs of the whole model).  Every tensor an exported node
reads or produces has exactly the values it has in the whole model. -/
theorem C91_same_values {cfg : Config} {p : GraphProto V} {f : Node → List V → Nat → V} {absent : V} {fuel : Nat} {l : Loaded V} (hv : Valid p)
    (hn : ((named cfg.nodeRename p.node).map (·.name)).Nodup) (h : load cfg f absent fuel p = .ok l) (hf : NameFree f) {names : List String} (hne : names ≠ []) (hnn : names.Nodup)
    (hex : ∀ x ∈ names, ∃ n ∈ l.graph.nodemap, n.name = x) {q : GraphProto V} (hq : exportNodes l names = .ok (some q))
    (x y : Env V) (hx : ∀ t, Makes p.node t → x t = none) (hy : ∀ t ∈ q.input, Reads q.node t → ∀ v, (y t = some v ↔ Computes p f absent x t v))
    (hy' : ∀ t, Makes q.node t → y t = none) (t : String) (ht : Reads q.node t ∨ Makes q.node t) (v : V) :
    Computes q f absent y t v ↔ Computes p f absent x t v := by
  have h1 := load_ok hv hn h
  obtain ⟨q', e1, e2⟩ := export_ok h1 hne hnn hex
  rw [hq] at e1
  injection e1 with e1; injection e1 with e1; subst e1
  rw [← C73_same_values hv hn h hf x hx t (ht.imp e2.reads e2.makes) v]
  refine e2.same h1 (fun s hs => hx s (nodemap_sub hv hn h hs)) ?_ hy' ht v
  intro s hs hi w
  have hr : Reads q.node s := by
    rcases ((e2.inp s).1 hs).2 with a | a
    · exact a.1
    · exact absurd a.1 hi
  rw [hy s hs hr w, C73_same_values hv hn h hf x hx s (Or.inl (e2.reads hr)) w]

/-! ### The three levels -/

private theorem levels_spec {absent : V} {l : Loaded V} (h : LoadOk absent l) {names : List String} (hnn : names.Nodup) (hex : ∀ x ∈ names, ∃ n ∈ l.graph.nodemap, n.name = x) :
    ∃ r, exportNodes l names = .ok r ∧ ((names = [] ∧ r = none) ∨ ∃ q, r = some q ∧ Exported l names q) := by
  by_cases hne : names = []
  · subst hne
    exact ⟨none, rfl, Or.inl ⟨rfl, rfl⟩⟩
  · obtain ⟨q, e1, e2⟩ := export_ok h hne hnn hex
    exact ⟨some q, e1, Or.inr ⟨q, rfl, e2⟩⟩

private theorem split_ok {absent : V} {l : Loaded V} (h : LoadOk absent l) (ins outs : List String) :
    ∃ n0 n1 n2 a b c, exportLevels l ins outs = .ok (a, b, c) ∧ subnodesByIO l.graph ins outs = .ok (n0, n1, n2) ∧
      ((n0 = [] ∧ a = none) ∨ ∃ q, a = some q ∧ Exported l n0 q) ∧ ((n1 = [] ∧ b = none) ∨ ∃ q, b = some q ∧ Exported l n1 q) ∧
      ((n2 = [] ∧ c = none) ∨ ∃ q, c = some q ∧ Exported l n2 q) ∧
      (∀ n ∈ l.graph.nodemap, (n.name ∈ n2 ↔ Reach l.graph.nodemap outs n)) ∧
      (∀ n ∈ l.graph.nodemap, (n.name ∈ n1 ↔ Reach l.graph.nodemap ins n ∧ ¬ Reach l.graph.nodemap outs n)) ∧
      (∀ n ∈ l.graph.nodemap, (n.name ∈ n0 ↔ ¬ Reach l.graph.nodemap ins n ∧ ¬ Reach l.graph.nodemap outs n)) := by
  obtain ⟨l1, l2, h1, h2, h3, h4, h5⟩ := subnodes_ok (⟨h.names, h.index⟩ : Ix l.graph) ins outs
  have e2 : ∀ n ∈ l.graph.nodemap, (n.name ∈ l2 ↔ Reach l.graph.nodemap outs n) := by
    intro n hn
    rw [h4]
    exact ⟨fun ⟨m, hm, e, r⟩ => name_inj h.names hm hn e ▸ r, fun r => ⟨n, hn, rfl, r⟩⟩
  have e1 : ∀ n ∈ l.graph.nodemap, (n.name ∈ l1 ↔ Reach l.graph.nodemap ins n ∧ ¬ Reach l.graph.nodemap outs n) := by
    intro n hn
    rw [h5, e2 n hn]
    exact and_congr_left fun _ => ⟨fun ⟨m, hm, e, r⟩ => name_inj h.names hm hn e ▸ r, fun r => ⟨n, hn, rfl, r⟩⟩
  have e0 : ∀ n ∈ l.graph.nodemap, (n.name ∈ (l.graph.nodemap.map (·.name)).filter (fun n => !l1.contains n && !l2.contains n) ↔
      ¬ Reach l.graph.nodemap ins n ∧ ¬ Reach l.graph.nodemap outs n) := by
    intro n hn
    rw [List.mem_filter, Bool.and_eq_true, Bool.not_eq_true', Bool.not_eq_true', ← Bool.not_eq_true, ← Bool.not_eq_true, List.contains_iff_mem, List.contains_iff_mem,
      e1 n hn, e2 n hn]
    constructor
    · rintro ⟨-, a, b⟩; exact ⟨fun c => a ⟨c, b⟩, b⟩
    · rintro ⟨a, b⟩; exact ⟨List.mem_map.2 ⟨n, hn, rfl⟩, fun c => a c.1, b⟩
  obtain ⟨a, a1, a2⟩ := levels_spec h (names := (l.graph.nodemap.map (·.name)).filter (fun n => !l1.contains n && !l2.contains n)) (h.names.sublist List.filter_sublist)
    (by
      intro x hx
      obtain ⟨n, hn, e⟩ := List.mem_map.1 (List.mem_filter.1 hx).1
      exact ⟨n, hn, e⟩)
  obtain ⟨b, b1, b2⟩ := levels_spec h (names := l1) h2 (by intro x hx; obtain ⟨⟨n, hn, e, -⟩, -⟩ := (h5 x).1 hx; exact ⟨n, hn, e⟩)
  obtain ⟨c, c1, c2⟩ := levels_spec h (names := l2) h3 (by intro x hx; obtain ⟨n, hn, e, -⟩ := (h4 x).1 hx; exact ⟨n, hn, e⟩)
  refine ⟨_, l1, l2, a, b, c, ?_, h1, a2, b2, c2, e2, e1, e0⟩
  unfold exportLevels
  rw [h1]
  simp only
  rw [a1, b1, c1]

/-- **C91**, levels: splitting at any tensors, the three exports exist (a level without nodes gives `None`), and every node of the graph is in exactly one of them: the third if it
depends on a tensor of `outs`, the second if it depends on one of `ins` only, otherwise the first. -/
theorem C91_levels {cfg : Config} {p : GraphProto V} {f : Node → List V → Nat → V} {absent : V} {fuel : Nat} {l : Loaded V} (hv : Valid p)
    (hn : ((named cfg.nodeRename p.node).map (·.name)).Nodup) (h : load cfg f absent fuel p = .ok l) (ins outs : List String) :
    ∃ a b c, exportLevels l ins outs = .ok (a, b, c) ∧
      (∀ n, n ∈ (c.getD {}).node ↔ n ∈ l.graph.nodemap ∧ Reach l.graph.nodemap outs n) ∧
      (∀ n, n ∈ (b.getD {}).node ↔ n ∈ l.graph.nodemap ∧ Reach l.graph.nodemap ins n ∧ ¬ Reach l.graph.nodemap outs n) ∧
      (∀ n, n ∈ (a.getD {}).node ↔ n ∈ l.graph.nodemap ∧ ¬ Reach l.graph.nodemap ins n ∧ ¬ Reach l.graph.nodemap outs n) := by
  obtain ⟨n0, n1, n2, a, b, c, e, -, ha, hb, hc, r2, r1, r0⟩ := split_ok (load_ok hv hn h) ins outs
  have gen : ∀ {names : List String} {r : Option (GraphProto V)}, ((names = [] ∧ r = none) ∨ ∃ q, r = some q ∧ Exported l names q) →
      ∀ n, n ∈ (r.getD {}).node ↔ n ∈ l.graph.nodemap ∧ n.name ∈ names := by
    rintro names r (⟨rfl, rfl⟩ | ⟨q, rfl, hq⟩) n
    · simp
    · exact hq.mem n
  refine ⟨a, b, c, e, ?_, ?_, ?_⟩
  · intro n; rw [gen hc]; exact and_congr_right (r2 n)
  · intro n; rw [gen hb]; exact and_congr_right (r1 n)
  · intro n; rw [gen ha]; exact and_congr_right (r0 n)

private theorem ev_unmade {f : Node → List V → Nat → V} {ns : List Node} {E : Env V} {t : String} (h : ¬ Makes ns t) (v : V) : Ev ns f E t v ↔ E t = some v := by
  constructor
  · intro hc
    cases hc with
    | base hb => exact hb
    | @node n k _ vs hn hk _ _ => exact absurd ⟨n, hn, List.mem_of_getElem? hk⟩ h
  · exact Ev.base

/-- **C91**, pipeline: run the three exports one after the other, feeding each with the inputs `x` of the whole model and the *declared outputs* of the earlier ones.  Every tensor a
node of an export produces gets exactly the values it has in the whole model, for all `x`: nothing the later parts need is missing from the declared outputs of the earlier parts,
and no part needs a tensor of a later part. -/
theorem C91_pipeline {cfg : Config} {p : GraphProto V} {f : Node → List V → Nat → V} {absent : V} {fuel : Nat} {l : Loaded V} (hv : Valid p)
    (hn : ((named cfg.nodeRename p.node).map (·.name)).Nodup) (h : load cfg f absent fuel p = .ok l) (hf : NameFree f) (ins outs : List String)
    {a b c : Option (GraphProto V)} (hl : exportLevels l ins outs = .ok (a, b, c)) (x y0 y1 y2 : Env V) (hx : ∀ t, Makes p.node t → x t = none)
    (h0 : ∀ t ∈ (a.getD {}).input, Reads (a.getD {}).node t → ∀ v, (y0 t = some v ↔ x t = some v)) (m0 : ∀ t, Makes (a.getD {}).node t → y0 t = none)
    (h1 : ∀ t ∈ (b.getD {}).input, Reads (b.getD {}).node t → ∀ v,
      (y1 t = some v ↔ x t = some v ∨ (t ∈ (a.getD {}).output ∧ Computes (a.getD {}) f absent y0 t v))) (m1 : ∀ t, Makes (b.getD {}).node t → y1 t = none)
    (h2 : ∀ t ∈ (c.getD {}).input, Reads (c.getD {}).node t → ∀ v,
      (y2 t = some v ↔ x t = some v ∨ (t ∈ (a.getD {}).output ∧ Computes (a.getD {}) f absent y0 t v) ∨ (t ∈ (b.getD {}).output ∧ Computes (b.getD {}) f absent y1 t v)))
    (m2 : ∀ t, Makes (c.getD {}).node t → y2 t = none) (t : String) (v : V) :
    (Makes (a.getD {}).node t → (Computes (a.getD {}) f absent y0 t v ↔ Computes p f absent x t v)) ∧
    (Makes (b.getD {}).node t → (Computes (b.getD {}) f absent y1 t v ↔ Computes p f absent x t v)) ∧
    (Makes (c.getD {}).node t → (Computes (c.getD {}) f absent y2 t v ↔ Computes p f absent x t v)) := by
  have hok := load_ok hv hn h
  obtain ⟨n0, n1, n2, a', b', c', e, -, ha, hb, hc, r2, r1, r0⟩ := split_ok hok ins outs
  rw [hl] at e
  injection e with e
  rw [Prod.mk.injEq, Prod.mk.injEq] at e
  obtain ⟨rfl, rfl, rfl⟩ := e
  have hx' : ∀ t, Makes l.graph.nodemap t → x t = none := fun s hs => hx s (nodemap_sub hv hn h hs)
  -- the value of an operand nobody produces
  have free : ∀ s, Reads l.graph.nodemap s → ¬ Makes l.graph.nodemap s → s ∉ l.graph.initials → s ≠ "" → ∀ v, (x s = some v ↔ Ev l.graph.nodemap f (startL l absent x) s v) := by
    intro s _ b c d v
    rw [ev_unmade b v]
    unfold startL
    rw [if_neg c, if_neg d]
  -- where the producer of an operand is
  have below0 : ∀ n ∈ l.graph.nodemap, n.name ∈ n0 → ∀ m ∈ l.graph.nodemap, ∀ s, s ∈ n.input → s ∈ m.output → m.name ∈ n0 := by
    intro n hn hnn m hm s hs1 hs2
    obtain ⟨u1, u2⟩ := (r0 n hn).1 hnn
    exact (r0 m hm).2 ⟨fun r => u1 (Reach.step hn r hs2 hs1), fun r => u2 (Reach.step hn r hs2 hs1)⟩
  have below1 : ∀ n ∈ l.graph.nodemap, n.name ∈ n1 → ∀ m ∈ l.graph.nodemap, ∀ s, s ∈ n.input → s ∈ m.output → m.name ∈ n0 ∨ m.name ∈ n1 := by
    intro n hn hnn m hm s hs1 hs2
    obtain ⟨u1, u2⟩ := (r1 n hn).1 hnn
    have u3 : ¬ Reach l.graph.nodemap outs m := fun r => u2 (Reach.step hn r hs2 hs1)
    by_cases r : Reach l.graph.nodemap ins m
    · exact Or.inr ((r1 m hm).2 ⟨r, u3⟩)
    · exact Or.inl ((r0 m hm).2 ⟨r, u3⟩)
  have all : ∀ m ∈ l.graph.nodemap, m.name ∈ n0 ∨ m.name ∈ n1 ∨ m.name ∈ n2 := by
    intro m hm
    rw [r0 m hm, r1 m hm, r2 m hm]
    by_cases u : Reach l.graph.nodemap outs m
    · exact Or.inr (Or.inr u)
    · by_cases w : Reach l.graph.nodemap ins m
      · exact Or.inr (Or.inl ⟨w, u⟩)
      · exact Or.inl ⟨w, u⟩
  have d01 : ∀ m ∈ l.graph.nodemap, m.name ∈ n0 → m.name ∉ n1 := fun m hm u w => ((r0 m hm).1 u).1 ((r1 m hm).1 w).1
  have d02 : ∀ m ∈ l.graph.nodemap, m.name ∈ n0 → m.name ∉ n2 := fun m hm u w => ((r0 m hm).1 u).2 ((r2 m hm).1 w)
  have d12 : ∀ m ∈ l.graph.nodemap, m.name ∈ n1 → m.name ∉ n2 := fun m hm u w => ((r1 m hm).1 u).2 ((r2 m hm).1 w)
  -- an operand from an earlier level is a declared output of that level
  have feed : ∀ {names : List String} {r : Option (GraphProto V)}, ((names = [] ∧ r = none) ∨ ∃ q, r = some q ∧ Exported l names q) →
      ∀ m ∈ l.graph.nodemap, m.name ∈ names → ∀ s ∈ m.output, ∀ n ∈ l.graph.nodemap, s ∈ n.input → n.name ∉ names →
        s ∈ (r.getD {}).output ∧ Makes (r.getD {}).node s := by
    rintro names r (⟨rfl, rfl⟩ | ⟨q, rfl, hq⟩) m hm hmn s hs n hn hsn hnn
    · cases hmn
    · have : Makes q.node s := ⟨m, (hq.mem m).2 ⟨hm, hmn⟩, hs⟩
      exact ⟨(hq.out s).2 ⟨this, Or.inr ⟨n, hn, hsn, hnn⟩⟩, this⟩
  have outMakes : ∀ {names : List String} {r : Option (GraphProto V)}, ((names = [] ∧ r = none) ∨ ∃ q, r = some q ∧ Exported l names q) →
      ∀ s ∈ (r.getD {}).output, Makes (r.getD {}).node s := by
    rintro names r (⟨rfl, rfl⟩ | ⟨q, rfl, hq⟩) s hs
    · cases hs
    · exact ((hq.out s).1 hs).1
  have madeIn : ∀ {names : List String} {r : Option (GraphProto V)}, ((names = [] ∧ r = none) ∨ ∃ q, r = some q ∧ Exported l names q) →
      ∀ s, Makes (r.getD {}).node s → Makes l.graph.nodemap s := by
    rintro names r (⟨rfl, rfl⟩ | ⟨q, rfl, hq⟩) s hs
    · obtain ⟨n, a, -⟩ := hs; cases a
    · exact hq.makes hs
  have conv : ∀ s, Makes l.graph.nodemap s → ∀ v, (Ev l.graph.nodemap f (startL l absent x) s v ↔ Computes p f absent x s v) :=
    fun s hs v => C73_same_values hv hn h hf x hx s (Or.inr hs) v
  -- level 0
  have L0 : ∀ s, Makes (a.getD {}).node s → ∀ v, (Computes (a.getD {}) f absent y0 s v ↔ Ev l.graph.nodemap f (startL l absent x) s v) := by
    rcases ha with ⟨rfl, rfl⟩ | ⟨q, rfl, hq⟩
    · rintro s ⟨n, u, -⟩; cases u
    · intro s hs v
      refine hq.same hok hx' ?_ m0 (Or.inr hs) v
      intro u hu hi w
      obtain ⟨k1, k2⟩ := (hq.inp u).1 hu
      rcases k2 with ⟨k2, k3, k4⟩ | k2
      · rw [show y0 u = some w ↔ x u = some w from h0 u hu k2 w]
        refine free u (hq.reads k2) ?_ k4 k1 w
        rintro ⟨m, hm, ho⟩
        obtain ⟨n, j1, j2⟩ := k2
        obtain ⟨j3, j4⟩ := (hq.mem n).1 j1
        exact k3 ⟨m, (hq.mem m).2 ⟨hm, below0 n j3 j4 m hm u j2 ho⟩, ho⟩
      · exact absurd k2.1 hi
  -- level 1
  have L1 : ∀ s, Makes (b.getD {}).node s → ∀ v, (Computes (b.getD {}) f absent y1 s v ↔ Ev l.graph.nodemap f (startL l absent x) s v) := by
    rcases hb with ⟨rfl, rfl⟩ | ⟨q, rfl, hq⟩
    · rintro s ⟨n, u, -⟩; cases u
    · intro s hs v
      refine hq.same hok hx' ?_ m1 (Or.inr hs) v
      intro u hu hi w
      obtain ⟨k1, k2⟩ := (hq.inp u).1 hu
      rcases k2 with ⟨k2, k3, k4⟩ | k2
      · have k2' := k2
        obtain ⟨n, j1, j2⟩ := k2
        obtain ⟨j3, j4⟩ := (hq.mem n).1 j1
        rw [show y1 u = some w ↔ _ from h1 u hu k2' w]
        by_cases hm : Makes l.graph.nodemap u
        · obtain ⟨m, hm1, hm2⟩ := hm
          rcases below1 n j3 j4 m hm1 u j2 hm2 with g | g
          · obtain ⟨o1, o2⟩ := feed ha m hm1 g u hm2 n j3 j2 (fun z => d01 n j3 z j4)
            rw [hx' u ⟨m, hm1, hm2⟩, L0 u o2 w]
            simp [o1]
          · exact absurd ⟨m, (hq.mem m).2 ⟨hm1, g⟩, hm2⟩ k3
        · rw [← free u (hq.reads k2') hm k4 k1 w]
          constructor
          · rintro (z | ⟨z, -⟩)
            · exact z
            · exact absurd (madeIn ha u (outMakes ha u z)) hm
          · exact Or.inl
      · exact absurd k2.1 hi
  refine ⟨fun hm => ?_, fun hm => ?_, fun hm => ?_⟩
  · rw [L0 t hm v, conv t (madeIn ha t hm) v]
  · rw [L1 t hm v, conv t (madeIn hb t hm) v]
  · rw [← conv t (madeIn hc t hm) v]
    rcases hc with ⟨rfl, rfl⟩ | ⟨q, rfl, hq⟩
    · obtain ⟨n, u, -⟩ := hm; cases u
    · refine hq.same hok hx' ?_ m2 (Or.inr hm) v
      intro u hu hi w
      obtain ⟨k1, k2⟩ := (hq.inp u).1 hu
      rcases k2 with ⟨k2, k3, k4⟩ | k2
      · have k2' := k2
        obtain ⟨n, j1, j2⟩ := k2
        obtain ⟨j3, j4⟩ := (hq.mem n).1 j1
        rw [show y2 u = some w ↔ _ from h2 u hu k2' w]
        by_cases hmk : Makes l.graph.nodemap u
        · obtain ⟨m, hm1, hm2⟩ := hmk
          have hnone := hx' u ⟨m, hm1, hm2⟩
          rcases all m hm1 with g | g | g
          · obtain ⟨o1, o2⟩ := feed ha m hm1 g u hm2 n j3 j2 (fun z => d02 n j3 z j4)
            have no : u ∉ (b.getD {}).output := by
              intro z
              rcases hb with ⟨rfl, rfl⟩ | ⟨q1, rfl, hq1⟩
              · cases z
              · obtain ⟨m', z1, z2⟩ := ((hq1.out u).1 z).1
                obtain ⟨z3, z4⟩ := (hq1.mem m').1 z1
                have := producer_unique hok hm1 z3 hm2 z2
                subst this
                exact d01 m hm1 g z4
            rw [hnone, L0 u o2 w]
            simp [o1, no]
          · obtain ⟨o1, o2⟩ := feed hb m hm1 g u hm2 n j3 j2 (fun z => d12 n j3 z j4)
            have no : u ∉ (a.getD {}).output := by
              intro z
              rcases ha with ⟨rfl, rfl⟩ | ⟨q1, rfl, hq1⟩
              · cases z
              · obtain ⟨m', z1, z2⟩ := ((hq1.out u).1 z).1
                obtain ⟨z3, z4⟩ := (hq1.mem m').1 z1
                have := producer_unique hok hm1 z3 hm2 z2
                subst this
                exact d01 m hm1 z4 g
            rw [hnone, L1 u o2 w]
            simp [o1, no]
          · exact absurd ⟨m, (hq.mem m).2 ⟨hm1, g⟩, hm2⟩ k3
        · rw [← free u (hq.reads k2') hmk k4 k1 w]
          constructor
          · rintro (z | ⟨z, -⟩ | ⟨z, -⟩)
            · exact z
            · exact absurd (madeIn ha u (outMakes ha u z)) hmk
            · exact absurd (madeIn hb u (outMakes hb u z)) hmk
          · exact Or.inl
      · exact absurd k2.1 hi

/-! ### Calls that do not work, and what is wrong -/

/-- **C91**: an empty list gives `None`; an unknown name raises `KeyError`. -/
theorem C91_degenerate (l : Loaded V) : exportNodes l [] = .ok none ∧
    ∀ names : List String, (∃ x ∈ names, ∀ n ∈ l.graph.nodemap, n.name ≠ x) → exportNodes l names = .error .keyError := by
  refine ⟨rfl, fun names h => ?_⟩
  unfold exportNodes
  obtain ⟨x, hx, -⟩ := id h
  rw [if_neg (by intro he; rw [List.isEmpty_iff] at he; subst he; cases hx), show getIOTensors l.graph names true = .error .keyError from ioLoop_missing names true names _ h]

/-- **C91** consistency: saving the whole model is the same writer applied to all nodes. -/
theorem C91_save_is_export {cfg : Config} {p : GraphProto V} {f : Node → List V → Nat → V} {absent : V} {fuel : Nat} {l : Loaded V} (hv : Valid p)
    (hn : ((named cfg.nodeRename p.node).map (·.name)).Nodup) (h : load cfg f absent fuel p = .ok l) (wi ws : Bool) :
    makeGraph l l.graph.nodemap l.graph.input l.graph.output wi ws = save wi ws l := by
  have hok := load_ok hv hn h
  have e : inputInfos l l.graph.input = infos l l.graph.input := by
    unfold inputInfos infos
    refine List.filter_congr fun t ht => ?_
    have : t ∈ l.tensors := by
      rw [hok.tens, hok.mem_dyn]
      obtain ⟨a, -, c⟩ := (hok.mem_inp t).1 ht
      exact Or.inr (Or.inl ⟨a, c⟩)
    rw [List.contains_iff_mem.2 this]
    rfl
  unfold makeGraph save
  rw [e]
  rfl

/-- a model with two weights: `a: Mul(x, w1) → ta`, `b: Mul(ta, w2) → tb`, `c: Relu(tb) → y`, with `ta` and `y` as outputs -/
def exportFile : GraphProto Int :=
  { node := [⟨"a", "Mul", ["x", "w1"], ["ta"]⟩, ⟨"b", "Mul", ["ta", "w2"], ["tb"]⟩, ⟨"c", "Relu", ["tb"], ["y"]⟩]
    initializer := [("w1", 2), ("w2", 3)], input := ["x"], output := ["ta", "y"] }

example : Valid exportFile := by
  have key : ∀ n ∈ exportFile.node, ∀ t ∈ n.output, t ≠ "" ∧ t ∉ exportFile.initializer.map (·.1) := by decide
  refine ⟨by decide, ?_, by decide, fun n hn t ht => ⟨(key n hn t ht).1, fun h => (key n hn t ht).2 ((isInit_iff _ _).2 h)⟩, ⟨exportFile.node, List.Perm.refl _, by decide⟩⟩
  intro t h
  have : ∀ t ∈ exportFile.initializer.map (·.1), t ≠ "" := by decide
  exact this t ((isInit_iff _ _).2 h)
example : ((named false exportFile.node).map (·.name)).Nodup := by decide

/-- **C91 finding**: exporting the node `b` also lists the unrelated weight `w1` as an input. -/
theorem C91_unrelated_input : ((load {} foldSem 0 10 exportFile).toOption.bind fun l => ((exportNodes l ["b"]).toOption.bind id)) =
    some { node := [⟨"b", "Mul", ["ta", "w2"], ["tb"]⟩], initializer := [("w2", 3)], input := ["ta", "w1"], output := ["tb"], valueInfo := ["tb"] } := by decide

/-- **C91 finding**: a model output that is read inside the exported set only is not an output of the export: exporting all nodes loses the output `ta` of the model. -/
theorem C91_output_lost : ((load {} foldSem 0 10 exportFile).toOption.bind fun l => ((exportNodes l ["c", "a", "b"]).toOption.bind id)).map
    (fun q => (q.node.map (·.name), q.output)) = some (["a", "b", "c"], ["y"]) := by decide

/-- **C91 finding**: a name given twice: its node, if it depends on another exported one, is silently dropped, and what depends on it too. -/
theorem C91_repeated_name_dropped : ((load {} foldSem 0 10 exportFile).toOption.bind fun l => ((exportNodes l ["a", "b", "b", "c"]).toOption.bind id)).map
    (fun q => (q.node.map (·.name), q.output)) = some (["a"], ["y"]) := by decide

example : ((load {} foldSem 0 10 exportFile).toOption.bind fun l => (exportLevels l ["ta"] ["tb"]).toOption.map fun r =>
    [r.1, r.2.1, r.2.2].map fun q => ((q.getD {}).node.map (·.name), (q.getD {}).output)) =
    some [(["a"], ["ta"]), (["b"], ["tb"]), (["c"], ["y"])] := by decide

end OnnxTool.Props
