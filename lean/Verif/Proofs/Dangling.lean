import Verif.Proofs.Remove
/-! `remove_node` histories and `remove_dangling_nodes`. -/
namespace OnnxTool.Remove
open OnnxTool Topsort

theorem removeOne_missing {g : Graph} {name : String} (h : findNode g.nodemap name = none) :
    removeOne g name = .ok (g, []) := by unfold removeOne; rw [h]

theorem findNode_none {ns : List Node} {x : String} (h : findNode ns x = none) : ∀ n ∈ ns, n.name ≠ x := by
  intro n hn e
  unfold findNode at h
  rw [List.find?_eq_none] at h
  exact h n hn (by simpa using e)

theorem popNode_missing {ns : List Node} {x : String} (h : ∀ n ∈ ns, n.name ≠ x) : popNode ns x = ns := by
  unfold popNode
  rw [List.filter_eq_self]
  intro n hn; simpa using h n hn

theorem findNode_some {ns : List Node} {x : String} {n : Node} (h : findNode ns x = some n) : n ∈ ns ∧ n.name = x := by
  unfold findNode at h
  exact ⟨List.mem_of_find?_eq_some h, by simpa using List.find?_some h⟩

/-- `remove_node` (one node) never raises on a well-formed graph, whatever the name. -/
theorem removeOne_any {g : Graph} (hw : WF g) (name : String) :
    ∃ g' new, removeOne g name = .ok (g', new) ∧ WF g' ∧ g'.nodemap = popNode g.nodemap name := by
  cases h : findNode g.nodemap name with
  | none => exact ⟨g, [], removeOne_missing h, hw, (popNode_missing (findNode_none h)).symm⟩
  | some nd =>
    obtain ⟨hm, rfl⟩ := findNode_some h
    obtain ⟨g', new, h1, h2, h3, _⟩ := removeOne_ok hw hm
    exact ⟨g', new, h1, h2, h3⟩

theorem removeEach_any : ∀ (names : List String) {g : Graph} (_ : WF g),
    ∃ g', removeEach names g = .ok g' ∧ WF g' ∧ g'.nodemap = names.foldl popNode g.nodemap
  | [], g, hw => ⟨g, rfl, hw, rfl⟩
  | n :: ns, g, hw => by
    obtain ⟨g1, new, h1, h2, h3⟩ := removeOne_any hw n
    obtain ⟨g2, h4, h5, h6⟩ := removeEach_any ns h2
    refine ⟨g2, ?_, h5, by rw [h6, h3]; rfl⟩
    unfold removeEach; rw [h1]; exact h4

theorem fold_popNode (names : List String) (ns : List Node) :
    names.foldl popNode ns = ns.filter (fun n => !names.contains n.name) := by
  induction names generalizing ns with
  | nil => exact (List.filter_eq_self.mpr (by simp)).symm
  | cons a l ih =>
    rw [List.foldl_cons, ih, popNode, List.filter_filter]
    apply List.filter_congr
    intro n _
    simp only [List.contains_cons, Bool.not_or, Bool.beq_eq_decide_eq, decide_not]
    rw [Bool.and_comm]

theorem removeNode_any {g : Graph} (hw : WF g) (name : String) (r : Bool) :
    ∃ g' extra, removeNode g name r = .ok g' ∧ WF g' ∧ (r = false → extra = []) ∧
      g'.nodemap = (name :: extra).foldl popNode g.nodemap := by
  obtain ⟨g1, new, h1, h2, h3⟩ := removeOne_any hw name
  cases r with
  | false => exact ⟨g1, [], by unfold removeNode; rw [h1]; rfl, h2, fun _ => rfl, h3⟩
  | true =>
    obtain ⟨g2, h4, h5, h6⟩ := removeEach_any new h2
    exact ⟨g2, new, by unfold removeNode; rw [h1]; exact h4, h5, by simp, by rw [h6, h3]; rfl⟩

theorem removeAll_any : ∀ (calls : List (String × Bool)) {g : Graph} (_ : WF g),
    ∃ g' names, removeAll calls g = .ok g' ∧ WF g' ∧ (∀ c ∈ calls, c.1 ∈ names) ∧
      ((∀ c ∈ calls, c.2 = false) → names = calls.map (·.1)) ∧
      g'.nodemap = names.foldl popNode g.nodemap
  | [], g, hw => ⟨g, [], rfl, hw, by simp, by simp, rfl⟩
  | (n, r) :: cs, g, hw => by
    obtain ⟨g1, ex, h1, h2, h3, h4⟩ := removeNode_any hw n r
    obtain ⟨g2, nms, h5, h6, h7, h8, h9⟩ := removeAll_any cs h2
    refine ⟨g2, (n :: ex) ++ nms, ?_, h6, ?_, ?_, ?_⟩
    · unfold removeAll; rw [h1]; exact h5
    · intro c hc
      rcases List.mem_cons.mp hc with rfl | hc
      · simp
      · exact List.mem_append_right _ (h7 c hc)
    · intro hall
      rw [h3 (hall (n, r) (by simp)), h8 (fun c hc => hall c (List.mem_cons_of_mem _ hc))]
      rfl
    · rw [h9, h4, List.foldl_append]

/-! ### remove_dangling_nodes -/

/-- state during `remove_dangling_nodes` -/
structure DInv (gi g : Graph) : Prop where
  wf : WF g
  sub : g.nodemap.Sublist gi.nodemap
  out : g.output = gi.output
  keep : ∀ n, Needed gi.nodemap gi.output n → n ∈ g.nodemap

theorem foldl_erase_none {ts out : List String} (h : ∀ o ∈ ts, o ∉ out) : ts.foldl List.erase out = out := by
  induction ts with
  | nil => rfl
  | cons a ts ih =>
    rw [List.foldl_cons, List.erase_of_not_mem (h a (by simp))]
    exact ih (fun o ho => h o (List.mem_cons_of_mem _ ho))

theorem needed_mem {ns : List Node} {out : List String} {n : Node} (h : Needed ns out n) : n ∈ ns := by
  cases h <;> assumption

/-- removing a node without outputs in `out` and that is not needed keeps the invariant -/
theorem dinv_remove {gi g : Graph} (h : DInv gi g) {nd : Node} (hm : nd ∈ g.nodemap)
    (hout : ∀ o ∈ nd.output, o ∉ gi.output) (hnn : ¬ Needed gi.nodemap gi.output nd) :
    ∃ g' new, removeOne g nd.name = .ok (g', new) ∧ DInv gi g' ∧ g'.nodemap = popNode g.nodemap nd.name ∧
      ∀ pn ∈ new, Dangle (popNode g.nodemap nd.name) gi.output g'.consumedby nd.input pn := by
  obtain ⟨g', new, h1, h2, h3, h4, -, -, -, h5⟩ := removeOne_ok h.wf hm
  have ho : g'.output = gi.output := by
    rw [h4, h.out]; exact foldl_erase_none hout
  refine ⟨g', new, h1, ⟨h2, ?_, ho, ?_⟩, h3, by rw [ho] at h5; exact h5⟩
  · rw [h3]; exact (popNode_sub _ _).trans h.sub
  · intro n hn
    rw [h3, mem_popNode]
    refine ⟨h.keep n hn, ?_⟩
    intro e
    have : n = nd := name_inj h.wf.names (h.keep n hn) hm e
    subst this; exact hnn hn

/-- reported dangling producers are not needed -/
theorem dangle_not_needed {gi g : Graph} (h : DInv gi g) {ns : List Node} {ts : List String} {pn : String} {p : Node}
    (hsub : ns.Sublist gi.nodemap)
    (hnoout : ∀ t ∈ ts, t ∉ gi.output) (hd : Dangle ns gi.output g.consumedby ts pn) (hp : p ∈ gi.nodemap)
    (hpn : p.name = pn) (hnames : (gi.nodemap.map (·.name)).Nodup) :
    (∀ o ∈ p.output, o ∉ gi.output) ∧ ¬ Needed gi.nodemap gi.output p := by
  obtain ⟨q, hq, hqn, i, hi, hio, hnone, hno⟩ := hd.ex
  have : q = p := name_inj hnames (hsub.subset hq) hp (hqn.trans hpn.symm)
  subst this
  have hout : ∀ o ∈ q.output, o ∉ gi.output := by
    intro o ho
    by_cases e : o = i
    · subst e; exact hnoout _ hi
    · exact hno o ho e
  refine ⟨hout, ?_⟩
  intro hN
  cases hN with
  | output _ ho1 ho2 => exact hout _ ho1 ho2
  | feeds _ hM hdep =>
    obtain ⟨t, ht1, ht2⟩ := hdep
    have hmem := h.keep _ hM
    have hx := h.wf.exact_.1 t
    rw [hnone t ht2] at hx
    have hnil : consumersOf g.nodemap t = [] := norm_eq_none.mp hx.symm
    have : (_ : String) ∈ consumersOf g.nodemap t := (mem_occ (f := Node.input)).mpr ⟨_, hmem, rfl, ht1⟩
    rw [hnil] at this
    cases this

theorem dinv_removeEach {gi : Graph} (hnames : (gi.nodemap.map (·.name)).Nodup) :
    ∀ (names : List String) {g : Graph} (_ : DInv gi g)
      (_ : ∀ pn ∈ names, ∀ p ∈ gi.nodemap, p.name = pn →
        (∀ o ∈ p.output, o ∉ gi.output) ∧ ¬ Needed gi.nodemap gi.output p),
      ∃ g', removeEach names g = .ok g' ∧ DInv gi g' ∧ g'.nodemap = names.foldl popNode g.nodemap
  | [], g, h, _ => ⟨g, rfl, h, rfl⟩
  | n :: ns, g, h, hp => by
    cases hf : findNode g.nodemap n with
    | none =>
      obtain ⟨g', h1, h2, h3⟩ := dinv_removeEach hnames ns h (fun pn hpn => hp pn (List.mem_cons_of_mem _ hpn))
      refine ⟨g', ?_, h2, ?_⟩
      · unfold removeEach; rw [removeOne_missing hf]; exact h1
      · rw [h3, List.foldl_cons, popNode_missing (findNode_none hf)]
    | some nd =>
      obtain ⟨hm, rfl⟩ := findNode_some hf
      obtain ⟨ha, hb⟩ := hp nd.name (by simp) nd (h.sub.subset hm) rfl
      obtain ⟨g1, new, h1, h2, h3, -⟩ := dinv_remove h hm ha hb
      obtain ⟨g', h4, h5, h6⟩ := dinv_removeEach hnames ns h2 (fun pn hpn => hp pn (List.mem_cons_of_mem _ hpn))
      refine ⟨g', ?_, h5, ?_⟩
      · unfold removeEach; rw [h1]; exact h4
      · rw [h6, h3]; rfl

/-- load-time graph `g0`, call-time graph `gi` -/
structure DHyp (g0 gi : Graph) : Prop where
  wf0 : WF g0
  sub : gi.nodemap.Sublist g0.nodemap
  topo : TopoOrdered gi.nodemap
  noout : ∀ n ∈ gi.nodemap, ∀ t ∈ n.input, t ∉ gi.output

theorem mem_nextNames {g0 : Graph} (h : WF g0) {n : Node} {x : String} :
    x ∈ nextNames g0 n ↔ ∃ m ∈ g0.nodemap, m.name = x ∧ Dep m n := by
  simp only [nextNames, List.mem_flatMap]
  have key : ∀ o, (g0.consumedby.get? o).getD [] = consumersOf g0.nodemap o := by
    intro o; rw [h.exact_.1 o]; split <;> simp_all
  constructor
  · rintro ⟨o, ho, hx⟩
    rw [key] at hx
    obtain ⟨m, hm, hmx, hom⟩ := (mem_occ (f := Node.input)).mp hx
    exact ⟨m, hm, hmx, o, hom, ho⟩
  · rintro ⟨m, hm, hmx, o, hom, ho⟩
    exact ⟨o, ho, by rw [key]; exact (mem_occ (f := Node.input)).mpr ⟨m, hm, hmx, hom⟩⟩

theorem nodeUsed_iff {g0 gi g : Graph} (hh : DHyp g0 gi) (h : DInv gi g) (n : Node) :
    nodeUsed g0 g n = true ↔ (∃ o ∈ n.output, o ∈ gi.output) ∨ ∃ m ∈ g.nodemap, Dep m n := by
  unfold nodeUsed
  rw [Bool.or_eq_true, List.any_eq_true, List.any_eq_true, h.out]
  apply or_congr
  · simp
  · constructor
    · rintro ⟨x, hx, hs⟩
      obtain ⟨m, hm, hmx, hd⟩ := (mem_nextNames hh.wf0).mp hx
      obtain ⟨m', hm'⟩ := Option.isSome_iff_exists.mp hs
      obtain ⟨h1, h2⟩ := findNode_some hm'
      have : m' = m := name_inj hh.wf0.names (hh.sub.subset (h.sub.subset h1)) hm (h2.trans hmx.symm)
      subst this
      exact ⟨m', h1, hd⟩
    · rintro ⟨m, hm, hd⟩
      refine ⟨m.name, (mem_nextNames hh.wf0).mpr ⟨m, hh.sub.subset (h.sub.subset hm), rfl, hd⟩, ?_⟩
      rw [findNode_mem h.wf.names hm]; rfl

theorem unused_not_needed {g0 gi g : Graph} (hh : DHyp g0 gi) (h : DInv gi g) {n : Node}
    (hu : ¬ nodeUsed g0 g n = true) :
    (∀ o ∈ n.output, o ∉ gi.output) ∧ ¬ Needed gi.nodemap gi.output n := by
  rw [nodeUsed_iff hh h] at hu
  refine ⟨fun o ho hout => hu (Or.inl ⟨o, ho, hout⟩), ?_⟩
  intro hN
  cases hN with
  | output _ h1 h2 => exact hu (Or.inl ⟨_, h1, h2⟩)
  | feeds _ hM hd => exact hu (Or.inr ⟨_, h.keep _ hM, hd⟩)

/-- `remove_node(name, recursive=True)` of an unused node -/
theorem dinv_removeNode {g0 gi g : Graph} (hh : DHyp g0 gi) (h : DInv gi g) {nd : Node} (hm : nd ∈ g.nodemap)
    (hu : ¬ nodeUsed g0 g nd = true) :
    ∃ g', removeNode g nd.name true = .ok g' ∧ DInv gi g' ∧
      (∀ n ∈ g.nodemap, n ≠ nd → ¬ Dep nd n → n ∈ g'.nodemap) ∧ g'.nodemap.length < g.nodemap.length ∧
      g'.nodemap.Sublist g.nodemap := by
  have hnames : (gi.nodemap.map (·.name)).Nodup := nodup_names_sub hh.sub hh.wf0.names
  obtain ⟨ha, hb⟩ := unused_not_needed hh h hu
  obtain ⟨g1, new, h1, h2, h3, h4⟩ := dinv_remove h hm ha hb
  obtain ⟨g2, h5, h6, h7⟩ := dinv_removeEach hnames new h2 (by
    intro pn hpn p hp hpe
    exact dangle_not_needed h2 ((popNode_sub _ _).trans h.sub)
      (fun t ht => hh.noout nd (h.sub.subset hm) t ht) (h4 pn hpn) hp hpe hnames)
  have hsub : g2.nodemap.Sublist g1.nodemap := by
    rw [h7, fold_popNode]; exact List.filter_sublist
  refine ⟨g2, ?_, h6, ?_, ?_, ?_⟩
  · unfold removeNode; rw [h1]; exact h5
  · intro n hn hne hnd
    rw [h7, fold_popNode, List.mem_filter]
    refine ⟨?_, ?_⟩
    · rw [h3, mem_popNode]
      exact ⟨hn, fun e => hne (name_inj h.wf.names hn hm e)⟩
    · simp only [Bool.not_eq_true', ← Bool.not_eq_true, List.contains_iff_mem]
      intro hc
      obtain ⟨q, hq, hqn, i, hi, hio, -, -⟩ := (h4 _ hc).ex
      have : q = n := name_inj h.wf.names ((popNode_sub _ _).subset hq) hn hqn
      subst this
      exact hnd ⟨i, hi, hio⟩
  · refine Nat.lt_of_le_of_lt hsub.length_le ?_
    rw [h3]
    have hsl := popNode_sub g.nodemap nd.name
    rcases Nat.lt_or_eq_of_le hsl.length_le with hlt | heq
    · exact hlt
    · have := hsl.eq_of_length heq
      have hx : nd ∈ popNode g.nodemap nd.name := by rw [this]; exact hm
      exact absurd rfl (mem_popNode.mp hx).2
  · exact hsub.trans (by rw [h3]; exact popNode_sub _ _)

theorem danglingPass_ok {g0 gi : Graph} (hh : DHyp g0 gi) : ∀ (rem : List Node) (g : Graph) (again : Bool)
    (_ : DInv gi g) (_ : ∀ n ∈ rem, n ∈ g.nodemap) (_ : rem.Pairwise (fun a b => ¬ Dep a b)) (_ : rem.Nodup),
    ∃ g' b, danglingPass g0 (rem.map (·.name)) g again = .ok (g', b) ∧ DInv gi g' ∧
      g'.nodemap.Sublist g.nodemap ∧
      (b = false → again = false ∧ g' = g ∧ ∀ n ∈ rem, nodeUsed g0 g n = true) ∧
      (b = true → again = true ∨ g'.nodemap.length < g.nodemap.length)
  | [], g, again, h, hr, hp, hnd => ⟨g, again, rfl, h, List.Sublist.refl _, by intro e; simp [e], by intro e; simp [e]⟩
  | n :: rem, g, again, h, hr, hp, hnd => by
    rw [List.pairwise_cons] at hp
    rw [List.nodup_cons] at hnd
    have hfind : findNode g.nodemap n.name = some n := findNode_mem h.wf.names (hr n (by simp))
    by_cases hu : nodeUsed g0 g n = true
    · obtain ⟨g', b, h1, h2, h3, h4, h5⟩ := danglingPass_ok hh rem g again h
        (fun m hm => hr m (List.mem_cons_of_mem _ hm)) hp.2 hnd.2
      refine ⟨g', b, ?_, h2, h3, ?_, h5⟩
      · rw [List.map_cons]; unfold danglingPass; rw [hfind]; simp only [hu, if_true]; exact h1
      · intro hb
        obtain ⟨e1, e2, e3⟩ := h4 hb
        refine ⟨e1, e2, ?_⟩
        intro m hm
        rcases List.mem_cons.mp hm with rfl | hm
        · exact hu
        · exact e3 m hm
    · obtain ⟨g1, h1, h2, h3, h4, h5⟩ := dinv_removeNode hh h (hr n (by simp)) hu
      obtain ⟨g', b, k1, k2, k3, k4, k5⟩ := danglingPass_ok hh rem g1 true h2 (by
        intro m hm
        exact h3 m (hr m (List.mem_cons_of_mem _ hm)) (fun e => hnd.1 (e ▸ hm)) (hp.1 m hm)) hp.2 hnd.2
      refine ⟨g', b, ?_, k2, k3.trans h5, ?_, ?_⟩
      · rw [List.map_cons]; unfold danglingPass; rw [hfind]
        simp only [hu]
        rw [h1]; exact k1
      · intro hb; exact absurd (k4 hb).1 (by simp)
      · intro _; exact Or.inr (Nat.lt_of_le_of_lt k3.length_le h4)

theorem danglingLoop_ok {g0 gi : Graph} (hh : DHyp g0 gi) : ∀ (fuel : Nat) (g : Graph) (_ : DInv gi g)
    (_ : g.nodemap.length < fuel),
    ∃ g', danglingLoop g0 fuel g = .ok g' ∧ DInv gi g' ∧ ∀ n ∈ g'.nodemap, nodeUsed g0 g' n = true
  | 0, g, h, hf => by omega
  | fuel + 1, g, h, hf => by
    obtain ⟨g', b, h1, h2, h3, h4, h5⟩ := danglingPass_ok hh g.nodemap g false h (fun _ hn => hn)
      (hh.topo.1.sublist h.sub) (nodup_of_names h.wf.names)
    unfold danglingLoop
    rw [h1]
    cases b with
    | false =>
      obtain ⟨-, rfl, h6⟩ := h4 rfl
      exact ⟨g', rfl, h2, h6⟩
    | true =>
      have := (h5 rfl).resolve_left (by simp)
      exact danglingLoop_ok hh fuel g' h2 (by omega)

theorem used_needed {g0 gi g : Graph} (hh : DHyp g0 gi) (h : DInv gi g)
    (hu : ∀ n ∈ g.nodemap, nodeUsed g0 g n = true) : ∀ (l pre : List Node), g.nodemap = pre ++ l →
    ∀ n ∈ l, Needed gi.nodemap gi.output n
  | [], _, _, _, hn => by cases hn
  | a :: l, pre, e, n, hn => by
    have IH := used_needed hh h hu l (pre ++ [a]) (by simp [e])
    rcases List.mem_cons.mp hn with rfl | hn
    · have hm : n ∈ g.nodemap := by rw [e]; simp
      have hmi := h.sub.subset hm
      rcases (nodeUsed_iff hh h n).mp (hu n hm) with ⟨o, ho, ho2⟩ | ⟨m, hm2, hd⟩
      · exact Needed.output hmi ho ho2
      · refine Needed.feeds hmi ?_ hd
        have hpw : (pre ++ n :: l).Pairwise (fun a b => ¬ Dep a b) := by
          rw [← e]; exact hh.topo.1.sublist h.sub
        rw [e] at hm2
        rcases List.mem_append.mp hm2 with h1 | h1
        · exact absurd hd ((List.pairwise_append.mp hpw).2.2 m h1 n (by simp))
        · rcases List.mem_cons.mp h1 with rfl | h1
          · exact absurd hd (hh.topo.2 m hmi)
          · exact IH m h1
    · exact IH n hn

theorem removeDangling_ok {g0 gi : Graph} (hh : DHyp g0 gi) (hw : WF gi) :
    ∃ g', removeDangling g0 gi = .ok g' ∧ WF g' ∧ g'.output = gi.output ∧ g'.nodemap.Sublist gi.nodemap ∧
      ∀ n, n ∈ g'.nodemap ↔ Needed gi.nodemap gi.output n := by
  have h0 : DInv gi gi := ⟨hw, List.Sublist.refl _, rfl, fun n hn => needed_mem hn⟩
  obtain ⟨g', h1, h2, h3⟩ := danglingLoop_ok hh (gi.nodemap.length + 1) gi h0 (by omega)
  exact ⟨g', h1, h2.wf, h2.out, h2.sub, fun n => ⟨fun hn => used_needed hh h2 h3 g'.nodemap [] rfl n hn, h2.keep n⟩⟩

end OnnxTool.Remove
