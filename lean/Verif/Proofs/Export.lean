import Verif.Model.Export
import Verif.Proofs.Load
import Verif.Proofs.Kahn
import Verif.Proofs.Fuse
import Verif.Proofs.Subnodes
/-! # Proofs about exporting a set of nodes -/
namespace OnnxTool.Export
open OnnxTool Load Topsort Subgraph ConstFold

variable {V : Type}

theorem topsort_sorted {ns : List Node} (hnd : (ns.map (·.name)).Nodup) (hu : UniqueProducers ns) (ha : Acyclic ns) :
    ∃ ms : List Node, ms.Perm ns ∧ TopoOrdered ms ∧ topsortNodes ns = ms.map (·.name) := by
  have h := loop_eq ns hnd hu (ns.length + 1) [] (kinv_nil _) (tables ns).2 (depsOK_init ns hnd)
  have hns := nodup_of_names hnd
  have hk := kinv_kahn hns (ns.length + 1) (kinv_nil ns)
  have hdone := kahn_done hns (ns.length + 1) (kinv_nil ns) (by simp)
  refine ⟨kahn ns (ns.length + 1) [], ?_, ?_, h⟩
  · generalize kahn ns (ns.length + 1) [] = F at *
    obtain ⟨ms, hp, ht1, ht2⟩ := ha
    have key : ∀ (k : Nat) (n : Node), ms[k]? = some n → n ∈ F := by
      intro k
      induction k using Nat.strongRecOn with
      | ind k ih =>
        intro n hn
        have hmem : n ∈ ms := List.mem_of_getElem? hn
        refine Classical.byContradiction fun hF => ?_
        have : n ∈ next ns F := by
          refine mem_next.mpr ⟨hp.mem_iff.1 hmem, hF, fun m hm hd => ?_⟩
          obtain ⟨j, hj⟩ := List.getElem?_of_mem (hp.mem_iff.2 hm)
          rcases Nat.lt_trichotomy j k with hlt | rfl | hlt
          · exact ih j hlt m hj
          · rw [hn] at hj; injection hj with hj; subst hj
            exact absurd hd (ht2 n hmem)
          · exfalso
            obtain ⟨hk1, ek⟩ := List.getElem?_eq_some_iff.1 hn
            obtain ⟨hj1, ej⟩ := List.getElem?_eq_some_iff.1 hj
            have := List.pairwise_iff_getElem.1 ht1 k j hk1 hj1 hlt
            rw [ek, ej] at this
            exact this hd
        rw [hdone] at this
        exact absurd this (by simp)
    refine (List.perm_ext_iff_of_nodup hk.nodup hns).mpr fun n => ⟨hk.sub n, fun hn => ?_⟩
    obtain ⟨j, hj⟩ := List.getElem?_of_mem (hp.mem_iff.2 hn)
    exact key j n hj
  · generalize kahn ns (ns.length + 1) [] = F at *
    have nodep : ∀ n ∈ F, ∀ l1 l2, F = l1 ++ n :: l2 → ∀ m, m ∈ n :: l2 → ¬ Dep n m := by
      intro n hn l1 l2 e m hm hd
      have hmF : m ∈ F := by rw [e]; exact List.mem_append_right _ hm
      have := hk.order l1 n l2 e m (hk.sub m hmF) hd
      have hnd := hk.nodup
      rw [e, List.nodup_append] at hnd
      exact hnd.2.2 m this m hm rfl
    constructor
    · rw [List.pairwise_iff_getElem]
      intro i j hi hj hij
      have hs : F = F.take i ++ F[i] :: F.drop (i + 1) := by
        rw [← List.drop_eq_getElem_cons hi, List.take_append_drop]
      refine nodep F[i] (List.getElem_mem hi) _ _ hs F[j] ?_
      refine List.mem_cons_of_mem _ ?_
      rw [List.mem_drop_iff_getElem]
      exact ⟨j - (i + 1), by omega, by congr 1; omega⟩
    · intro n hn
      obtain ⟨l1, l2, e⟩ := List.append_of_mem hn
      exact nodep n hn l1 l2 e n (by simp)

/-- the named nodes -/
theorem sel_names {ns : List Node} (hnd : (ns.map (·.name)).Nodup) : ∀ (names : List String), (∀ x ∈ names, ∃ n ∈ ns, n.name = x) →
    (names.filterMap (findNode ns)).map (·.name) = names
  | [], _ => rfl
  | x :: names, h => by
    obtain ⟨n, hn, rfl⟩ := h x (by simp)
    rw [List.filterMap_cons, findNode_mem hnd hn]
    simp only [List.map_cons]
    rw [sel_names hnd names fun y hy => h y (List.mem_cons_of_mem _ hy)]

theorem mem_sel {ns : List Node} (hnd : (ns.map (·.name)).Nodup) (names : List String) (n : Node) :
    n ∈ names.filterMap (findNode ns) ↔ n ∈ ns ∧ n.name ∈ names := by
  rw [List.mem_filterMap]
  constructor
  · rintro ⟨x, hx, hf⟩
    unfold findNode at hf
    have h1 := List.mem_of_find?_eq_some hf
    have h2 := List.find?_some hf
    simp only [decide_eq_true_eq] at h2
    exact ⟨h1, h2 ▸ hx⟩
  · rintro ⟨h1, h2⟩
    exact ⟨n.name, h2, findNode_mem hnd h1⟩

/-- what an export is -/
structure Exported (l : Loaded V) (names : List String) (q : GraphProto V) : Prop where
  nodup : q.node.Nodup
  mem : ∀ n, n ∈ q.node ↔ n ∈ l.graph.nodemap ∧ n.name ∈ names
  topo : TopoOrdered q.node
  ini : q.initializer = initialsOf l q.node
  inp : ∀ t, t ∈ q.input ↔ t ≠ "" ∧ ((Reads q.node t ∧ ¬ Makes q.node t ∧ t ∉ l.graph.initials) ∨ (t ∈ l.graph.initials ∧ ¬ Reads q.node t))
  out : ∀ t, t ∈ q.output ↔ Makes q.node t ∧ (¬ Reads l.graph.nodemap t ∨ ∃ n ∈ l.graph.nodemap, t ∈ n.input ∧ n.name ∉ names)
  info : q.valueInfo = infos l (l.graph.dynamics.filter fun t => !(l.graph.input.contains t || l.graph.output.contains t))

theorem initialsOf_eq (l : Loaded V) (nodes : List Node) : initialsOf l nodes = usedInitials { l with graph := { l.graph with nodemap := nodes } } := rfl

theorem mem_initialsOf (l : Loaded V) (nodes : List Node) (t : String) (v : V) :
    (t, v) ∈ initialsOf l nodes ↔ Reads nodes t ∧ t ∈ l.graph.initials ∧ t ≠ "" ∧ l.env t = some v := by
  rw [initialsOf_eq, mem_used]

theorem initialsOf_nodup (l : Loaded V) (nodes : List Node) : ((initialsOf l nodes).map (·.1)).Nodup := by
  rw [initialsOf_eq]; exact used_nodup _

theorem mem_initialsOf_keys {absent : V} {l : Loaded V} (h : LoadOk absent l) (nodes : List Node) (t : String) :
    t ∈ (initialsOf l nodes).map (·.1) ↔ Reads nodes t ∧ t ∈ l.graph.initials ∧ t ≠ "" := by
  rw [List.mem_map]
  constructor
  · rintro ⟨⟨a, v⟩, hm, rfl⟩
    obtain ⟨h1, h2, h3, -⟩ := (mem_initialsOf l nodes a v).1 hm
    exact ⟨h1, h2, h3⟩
  · rintro ⟨h1, h2, h3⟩
    obtain ⟨v, hv⟩ := Option.isSome_iff_exists.1 (h.inits t h2)
    exact ⟨(t, v), (mem_initialsOf l nodes t v).2 ⟨h1, h2, h3, hv⟩, rfl⟩

/-- in a loaded graph a tensor has at most one producer -/
theorem producer_unique {absent : V} {l : Loaded V} (h : LoadOk absent l) {n m : Node} (hn : n ∈ l.graph.nodemap) (hm : m ∈ l.graph.nodemap) {t : String}
    (h1 : t ∈ n.output) (h2 : t ∈ m.output) : n = m := by
  obtain ⟨i, hi⟩ := List.getElem?_of_mem hn
  obtain ⟨j, hj⟩ := List.getElem?_of_mem hm
  obtain ⟨hi1, ei⟩ := List.getElem?_eq_some_iff.1 hi
  obtain ⟨hj1, ej⟩ := List.getElem?_eq_some_iff.1 hj
  have hnd := h.outs
  unfold List.Nodup at hnd
  rw [List.pairwise_flatMap] at hnd
  have hp := List.pairwise_iff_getElem.1 hnd.2
  rcases Nat.lt_trichotomy i j with hlt | rfl | hlt
  · exfalso
    have := hp i j hi1 hj1 hlt
    rw [ei, ej] at this
    exact this t h1 t h2 rfl
  · exact ei.symm.trans ej
  · exfalso
    have := hp j i hj1 hi1 hlt
    rw [ei, ej] at this
    exact this t h2 t h1 rfl

theorem export_ok {absent : V} {l : Loaded V} (h : LoadOk absent l) {names : List String} (hne : names ≠ []) (hnn : names.Nodup)
    (hex : ∀ x ∈ names, ∃ n ∈ l.graph.nodemap, n.name = x) : ∃ q, exportNodes l names = .ok (some q) ∧ Exported l names q := by
  obtain ⟨I, O, h1, h2, h3, h4, h5⟩ := ioLoop_ok h.names names true names [] [] hex (by simp) (by simp)
  have hself : getIOTensors l.graph names true = .ok (I, O) := h1
  have hsn := sel_names h.names names hex
  have hsm := mem_sel h.names names
  generalize hS : names.filterMap (findNode l.graph.nodemap) = S at hsn hsm
  have hSn : (S.map (·.name)).Nodup := by rw [hsn]; exact hnn
  have hSd := nodup_of_names hSn
  have hall : UniqueProducers S := by
    intro n hn t ht
    rw [count_flatMap_out]
    refine Nat.le_trans (outCount_perm_le hSd (fun x hx => ((hsm x).1 hx).1) t) ?_
    rw [← count_flatMap_out]
    exact List.nodup_iff_count.1 h.outs t
  have hac : Acyclic S := by
    obtain ⟨ms, hp, ht⟩ := acyclic_filter (fun n => names.contains n.name) h.acyclic
    refine ⟨ms, hp.trans ?_, ht⟩
    refine (List.perm_ext_iff_of_nodup ((nodup_of_names h.names).filter _) hSd).mpr fun n => ?_
    rw [List.mem_filter, hsm, List.contains_iff_mem]
  obtain ⟨ms, hp, ht, he⟩ := topsort_sorted hSn hall hac
  have hmsub : ∀ n ∈ ms, n ∈ l.graph.nodemap := fun n hn => ((hsm n).1 (hp.mem_iff.1 hn)).1
  have hnodes : (topsortNodes S).filterMap (findNode l.graph.nodemap) = ms := by
    rw [he, filterMap_findNode h.names _ hmsub]
  have hmem : ∀ n, n ∈ ms ↔ n ∈ l.graph.nodemap ∧ n.name ∈ names := fun n => by rw [hp.mem_iff, hsm]
  refine ⟨makeGraph l ms I O true true, ?_, ?_⟩
  · unfold exportNodes
    rw [if_neg (by simpa using hne), hself]
    simp only
    rw [hS, hnodes]
  · have hreads : ∀ t, Reads ms t ↔ ∃ n ∈ l.graph.nodemap, n.name ∈ names ∧ t ∈ n.input := by
      intro t
      constructor
      · rintro ⟨n, a, b⟩; exact ⟨n, ((hmem n).1 a).1, ((hmem n).1 a).2, b⟩
      · rintro ⟨n, a, b, c⟩; exact ⟨n, (hmem n).2 ⟨a, b⟩, c⟩
    have hmakes : ∀ t, Makes ms t ↔ ∃ n ∈ l.graph.nodemap, n.name ∈ names ∧ t ∈ n.output := by
      intro t
      constructor
      · rintro ⟨n, a, b⟩; exact ⟨n, ((hmem n).1 a).1, ((hmem n).1 a).2, b⟩
      · rintro ⟨n, a, b, c⟩; exact ⟨n, (hmem n).2 ⟨a, b⟩, c⟩
    have hI : ∀ t, t ∈ I ↔ t ≠ "" ∧ Reads ms t ∧ ¬ Makes ms t ∧ t ∉ l.graph.initials := by
      intro t
      rw [h4, inputWanted_iff h.index, hreads, hmakes]
      simp only [List.not_mem_nil, false_or]
      constructor
      · rintro ⟨a, b, c, d⟩
        refine ⟨b, a, ?_, c trivial⟩
        rintro ⟨n, e1, e2, e3⟩
        rcases d with d | ⟨m, d1, d2, d3⟩
        · exact d n e1 e3
        · exact d3 (producer_unique h e1 d1 e3 d2 ▸ e2)
      · rintro ⟨a, b, c, d⟩
        refine ⟨b, a, fun _ => d, ?_⟩
        by_cases hm : ∀ n ∈ l.graph.nodemap, t ∉ n.output
        · exact Or.inl hm
        · right
          refine Classical.byContradiction fun hno => hm fun n hn ho => ?_
          by_cases hin : n.name ∈ names
          · exact c ⟨n, hn, hin, ho⟩
          · exact hno ⟨n, hn, ho, hin⟩
    have htens : ∀ t, (Reads ms t ∨ Makes ms t ∨ t ∈ l.graph.initials) → t ∈ l.tensors := by
      intro t ht
      rw [h.tens, h.mem_dyn]
      rcases ht with ⟨n, a, b⟩ | ⟨n, a, b⟩ | ht
      · by_cases hi : t ∈ l.graph.initials
        · exact Or.inl hi
        · exact Or.inr (Or.inl ⟨⟨n, hmsub n a, b⟩, hi⟩)
      · exact Or.inr (Or.inr ⟨n, hmsub n a, b⟩)
      · exact Or.inl ht
    refine ⟨hp.nodup_iff.2 hSd, hmem, ht, rfl, ?_, ?_, ?_⟩
    · intro t
      show t ∈ inputInfos l I ++ infos l (l.graph.initials.filter fun t => !((initialsOf l ms).map (·.1)).contains t) ↔ _
      rw [List.mem_append, mem_infos, List.mem_filter, Bool.not_eq_true', ← Bool.not_eq_true, List.contains_iff_mem, mem_initialsOf_keys h]
      unfold inputInfos
      rw [List.mem_filter, hI]
      constructor
      · rintro (⟨⟨a, b, c, d⟩, -⟩ | ⟨⟨a, b⟩, c, d⟩)
        · exact ⟨a, Or.inl ⟨b, c, d⟩⟩
        · exact ⟨d, Or.inr ⟨a, fun e => b ⟨e, a, d⟩⟩⟩
      · rintro ⟨a, ⟨b, c, d⟩ | ⟨b, c⟩⟩
        · exact Or.inl ⟨⟨a, b, c, d⟩, by simp [a]⟩
        · exact Or.inr ⟨⟨b, fun e => c e.1⟩, htens t (Or.inr (Or.inr b)), a⟩
    · intro t
      show t ∈ infos l O ↔ _
      rw [mem_infos, h5, outputWanted_iff h.index]
      show _ ↔ Makes ms t ∧ _
      rw [hmakes]
      simp only [List.not_mem_nil, false_or]
      constructor
      · rintro ⟨⟨a, b, c⟩, -, -⟩
        refine ⟨a, c.imp_left ?_⟩
        rintro c ⟨n, d1, d2⟩; exact c n d1 d2
      · rintro ⟨a, b⟩
        have hm : Makes l.graph.nodemap t := by obtain ⟨n, x, -, y⟩ := a; exact ⟨n, x, y⟩
        refine ⟨⟨a, fun _ => (h.made t hm).1, b.imp_left fun b n hn ho => b ⟨n, hn, ho⟩⟩, ?_, (h.made t hm).2⟩
        exact htens t (Or.inr (Or.inl ((hmakes t).2 a)))
    · exact List.append_nil _

theorem Exported.isInit {absent : V} {l : Loaded V} (h : LoadOk absent l) {names : List String} {q : GraphProto V} (e : Exported l names q) (t : String) :
    IsInit q t ↔ Reads q.node t ∧ t ∈ l.graph.initials ∧ t ≠ "" := by
  rw [← isInit_iff, e.ini, mem_initialsOf_keys h]

theorem Exported.makes {l : Loaded V} {names : List String} {q : GraphProto V} (e : Exported l names q) {t : String} (h : Makes q.node t) : Makes l.graph.nodemap t := by
  obtain ⟨n, a, b⟩ := h; exact ⟨n, ((e.mem n).1 a).1, b⟩

theorem Exported.reads {l : Loaded V} {names : List String} {q : GraphProto V} (e : Exported l names q) {t : String} (h : Reads q.node t) : Reads l.graph.nodemap t := by
  obtain ⟨n, a, b⟩ := h; exact ⟨n, ((e.mem n).1 a).1, b⟩

theorem Exported.valid {absent : V} {l : Loaded V} (h : LoadOk absent l) {names : List String} {q : GraphProto V} (e : Exported l names q) : Valid q where
  inits := by rw [e.ini]; exact initialsOf_nodup l _
  noEmpty t ht := ((e.isInit h t).1 ht).2.2
  outs := by
    rw [List.nodup_iff_count]
    intro t
    rw [count_flatMap_out]
    refine Nat.le_trans (outCount_perm_le e.nodup (fun x hx => ((e.mem x).1 hx).1) t) ?_
    rw [← count_flatMap_out]
    exact List.nodup_iff_count.1 h.outs t
  outNamed n hn t ht := ⟨(h.made t (e.makes ⟨n, hn, ht⟩)).2, fun hc => (h.made t (e.makes ⟨n, hn, ht⟩)).1 ((e.isInit h t).1 hc).2.1⟩
  acyclic := ⟨q.node, List.Perm.refl _, e.topo⟩

/-- running an export -/
theorem Exported.same {absent : V} {l : Loaded V} (h : LoadOk absent l) {names : List String} {q : GraphProto V} (e : Exported l names q)
    {f : Node → List V → Nat → V} {x y : Env V} (hx : ∀ t, Makes l.graph.nodemap t → x t = none)
    (hy : ∀ t ∈ q.input, t ∉ l.graph.initials → ∀ v, (y t = some v ↔ Ev l.graph.nodemap f (startL l absent x) t v))
    (hy' : ∀ t, Makes q.node t → y t = none) {t : String} (ht : Reads q.node t ∨ Makes q.node t) (v : V) :
    Computes q f absent y t v ↔ Ev l.graph.nodemap f (startL l absent x) t v := by
  have hinp : ∀ t, Reads q.node t → ¬ Makes q.node t → t ∉ l.graph.initials → t ≠ "" → ∀ v, (y t = some v ↔ Ev l.graph.nodemap f (startL l absent x) t v) := by
    intro t a b c d
    exact hy t ((e.inp t).2 ⟨d, Or.inl ⟨a, b, c⟩⟩) c
  have hst : ∀ t, (Reads q.node t ∨ Makes q.node t) → (t ∈ l.graph.initials ∨ t = "") → start q absent y t = startL l absent x t := by
    intro t ht hi
    have hr : Reads q.node t := by
      refine ht.resolve_right fun hm => ?_
      have := h.made t (e.makes hm)
      rcases hi with hi | hi
      · exact this.1 hi
      · exact this.2 hi
    unfold startL
    by_cases he : t = ""
    · subst he
      rw [start_other fun hc => ((e.isInit h "").1 hc).2.2 rfl, if_pos rfl]
      by_cases hi : "" ∈ l.graph.initials
      · rw [if_pos hi, h.empty hi]
      · rw [if_neg hi, if_pos rfl]
    · have hi := hi.resolve_right he
      obtain ⟨w, hw⟩ := Option.isSome_iff_exists.1 (h.inits t hi)
      rw [if_pos hi, hw]
      have hm : (t, w) ∈ q.initializer := by rw [e.ini]; exact (mem_initialsOf l _ t w).2 ⟨hr, hi, he, hw⟩
      exact start_init (e.valid h) hm
  constructor
  · intro hc
    unfold Computes at hc
    induction hc with
    | @base t v hb =>
      by_cases hi : t ∈ l.graph.initials ∨ t = ""
      · rw [hst t ht hi] at hb
        exact Ev.base hb
      · have h1 : t ∉ l.graph.initials := fun a => hi (Or.inl a)
        have h2 : t ≠ "" := fun a => hi (Or.inr a)
        rw [start_other (fun a => h1 ((e.isInit h t).1 a).2.1), if_neg h2] at hb
        have hm : ¬ Makes q.node t := fun a => by rw [hy' t a] at hb; cases hb
        exact (hinp t (ht.resolve_right hm) hm h1 h2 v).1 hb
    | @node n k o vs hn hk hl _ ih =>
      exact Ev.node vs ((e.mem n).1 hn).1 hk hl fun i t v hi hv => ih i t v hi hv (Or.inl ⟨n, hn, List.mem_of_getElem? hi⟩)
  · intro hc
    unfold Computes
    induction hc with
    | @base t v hb =>
      by_cases hi : t ∈ l.graph.initials ∨ t = ""
      · rw [← hst t ht hi] at hb
        exact Ev.base hb
      · have h1 : t ∉ l.graph.initials := fun a => hi (Or.inl a)
        have h2 : t ≠ "" := fun a => hi (Or.inr a)
        have hb' := hb
        unfold startL at hb
        rw [if_neg h1, if_neg h2] at hb
        have hm : ¬ Makes q.node t := fun a => by rw [hx t (e.makes a)] at hb; cases hb
        refine Ev.base ?_
        rw [start_other (fun a => h1 ((e.isInit h t).1 a).2.1), if_neg h2]
        exact (hinp t (ht.resolve_right hm) hm h1 h2 v).2 (Ev.base hb')
    | @node n k o vs hn hk hl hev ih =>
      by_cases hin : n.name ∈ names
      · have hq : n ∈ q.node := (e.mem n).2 ⟨hn, hin⟩
        exact Ev.node vs hq hk hl fun i t v hi hv => ih i t v hi hv (Or.inl ⟨n, hq, List.mem_of_getElem? hi⟩)
      · have ho : o ∈ n.output := List.mem_of_getElem? hk
        have hm : ¬ Makes q.node o := by
          rintro ⟨m, a, b⟩
          obtain ⟨c, d⟩ := (e.mem m).1 a
          exact hin (producer_unique h hn c ho b ▸ d)
        obtain ⟨h1, h2⟩ := h.made o ⟨n, hn, ho⟩
        refine Ev.base ?_
        rw [start_other (fun a => h1 ((e.isInit h o).1 a).2.1), if_neg h2]
        exact (hinp o (ht.resolve_right hm) hm h1 h2 _).2 (Ev.node vs hn hk hl hev)

end OnnxTool.Export
