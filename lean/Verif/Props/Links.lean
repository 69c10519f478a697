import Verif.Spec.Links
import Verif.Props.Edit
import Verif.Props.Skip
import Verif.Proofs.PatternMake
import Mathlib.Data.List.Flatten
/-!
# C111: removals after other edits
-/
namespace OnnxTool.Props
open OnnxTool Remove Topsort Subgraph Links

private theorem wf_load {g : Graph} (hn : (g.nodemap.map (·.name)).Nodup) (hu : UniqueProducers g.nodemap) : WF g.updateTensorRelations :=
  ⟨hn, updateConsumerProducer_exact g, (updateConsumerProducer_keys g).1, (updateConsumerProducer_keys g).2, hu⟩

/-! ### Histories of removals -/

private theorem pass_keeps : ∀ (names : List String) (s s' : State) (a b : Bool), WF s.graph → Links.danglingPass names s a = .ok (s', b) →
    WF s'.graph ∧ s'.graph.nodemap.Sublist s.graph.nodemap ∧ s'.next = s.next := by
  intro names
  induction names with
  | nil => intro s s' a b hw h; rw [Links.danglingPass] at h; injection h with h; injection h with h1 h2; subst h1; exact ⟨hw, List.Sublist.refl _, rfl⟩
  | cons x names ih =>
    intro s s' a b hw h
    rw [Links.danglingPass] at h
    split at h
    · cases h
    · split at h
      · cases h
      · exact ih s s' a b hw h
      · obtain ⟨g', ex, h1, h2, -, h3⟩ := removeNode_any hw x true
        rw [h1] at h
        obtain ⟨k1, k2, k3⟩ := ih _ s' _ b h2 h
        refine ⟨k1, k2.trans ?_, k3⟩
        show g'.nodemap.Sublist _
        rw [h3, fold_popNode]
        exact List.filter_sublist

private theorem loop_keeps : ∀ (fuel : Nat) (s s' : State), WF s.graph → Links.danglingLoop fuel s = .ok s' →
    WF s'.graph ∧ s'.graph.nodemap.Sublist s.graph.nodemap ∧ s'.next = s.next := by
  intro fuel
  induction fuel with
  | zero => intro s s' _ h; cases h
  | succ fuel ih =>
    intro s s' hw h
    rw [Links.danglingLoop] at h
    split at h
    · cases h
    · rename_i s1 again hp
      obtain ⟨k1, k2, k3⟩ := pass_keeps _ _ _ _ _ hw hp
      split at h
      · obtain ⟨j1, j2, j3⟩ := ih s1 s' k1 h
        exact ⟨j1, j2.trans k2, j3.trans k3⟩
      · injection h with h; subst h; exact ⟨k1, k2, k3⟩

private theorem step_keeps (depth : Nat) (iter : List String → List String) (s s' : State) (e : Edit) (he : e.Removes) (hw : WF s.graph)
    (h : step depth iter s e = .ok s') : WF s'.graph ∧ s'.graph.nodemap.Sublist s.graph.nodemap ∧ s'.next = s.next := by
  cases e with
  | remove x r =>
    obtain ⟨g', ex, h1, h2, -, h3⟩ := removeNode_any hw x r
    simp only [step, h1] at h
    injection h with h
    subst h
    exact ⟨h2, by show g'.nodemap.Sublist _; rw [h3, fold_popNode]; exact List.filter_sublist, rfl⟩
  | subtree x =>
    simp only [step, Links.removeSubtree] at h
    split at h
    · cases h
    · rename_i l _
      obtain ⟨g', h1, h2, h3⟩ := removeEach_any (iter (x :: l)) hw
      rw [h1] at h
      injection h with h
      subst h
      exact ⟨h2, by show g'.nodemap.Sublist _; rw [h3, fold_popNode]; exact List.filter_sublist, rfl⟩
  | dangling => exact loop_keeps _ _ _ hw h
  | relations =>
    simp only [step] at h
    injection h with h
    subst h
    exact ⟨wf_load hw.names hw.uniq, List.Sublist.refl _, rfl⟩
  | skip x => exact he.elim
  | fuse a b c => exact he.elim
  | postop a => exact he.elim

private theorem run_keeps (depth : Nat) (iter : List String → List String) : ∀ (es : List Edit) (s s' : State), (∀ e ∈ es, e.Removes) → WF s.graph →
    run depth iter es s = .ok s' → WF s'.graph ∧ s'.graph.nodemap.Sublist s.graph.nodemap ∧ s'.next = s.next := by
  intro es
  induction es with
  | nil => intro s s' _ hw h; rw [run] at h; injection h with h; subst h; exact ⟨hw, List.Sublist.refl _, rfl⟩
  | cons e es ih =>
    intro s s' hes hw h
    rw [run] at h
    split at h
    · cases h
    · rename_i s1 h1
      obtain ⟨k1, k2, k3⟩ := step_keeps depth iter s s1 e (hes e List.mem_cons_self) hw h1
      obtain ⟨j1, j2, j3⟩ := ih s1 s' (fun x hx => hes x (List.mem_cons_of_mem _ hx)) k1 h
      exact ⟨j1, j2.trans k2, j3.trans k3⟩

private theorem gather_eq (f : String → Except PyErr (List String)) : ∀ ns : List String, Links.gather f (ns.map .node) = Edit.gather f ns := by
  intro ns
  induction ns with
  | nil => rfl
  | cons n ns ih => rw [List.map_cons, Links.gather, Edit.gather, ih]; rfl

private theorem findNode_of {ns : List Node} (hn : (ns.map (·.name)).Nodup) {x : Node} (hx : x ∈ ns) : findNode ns x.name = some x := findNode_mem hn hx

private theorem collect_eq (g0 : Graph) (hn : (g0.nodemap.map (·.name)).Nodup) (s : State) (hs : s.graph.nodemap.Sublist g0.nodemap) (hnext : s.next = (load g0).next) :
    ∀ (depth : Nat) (x : String), Links.collect s depth x = Edit.collect g0.updateTensorRelations s.graph depth x := by
  intro depth
  induction depth with
  | zero => intro x; rfl
  | succ d ih =>
    intro x
    rw [Links.collect, Edit.collect]
    cases hf : findNode s.graph.nodemap x with
    | none => rfl
    | some nd =>
      obtain ⟨hm, rfl⟩ := findNode_some hf
      simp only
      rw [hnext]
      simp only [load, findNode_of hn (hs.subset hm)]
      rw [gather_eq, show Links.collect s d = Edit.collect g0.updateTensorRelations s.graph d from funext ih]
      rfl

private theorem acyclic_sub {ns ms : List Node} (hn : (ns.map (·.name)).Nodup) (hs : ms.Sublist ns) (h : Acyclic ns) : Acyclic ms := by
  obtain ⟨l, hp, ht1, ht2⟩ := h
  classical
  refine ⟨l.filter (· ∈ ms), ?_, ?_, ?_⟩
  · have hnd : ns.Nodup := List.Nodup.of_map _ hn
    apply (List.perm_ext_iff_of_nodup ((hp.nodup_iff.2 hnd).filter _) (hs.nodup hnd)).2
    intro a
    rw [List.mem_filter]
    constructor
    · intro h; simpa using h.2
    · intro h; exact ⟨hp.mem_iff.2 (hs.subset h), by simpa using h⟩
  · exact ht1.filter _
  · intro n hm; exact ht2 n (List.mem_filter.1 hm).1

/-- **C111, after removals.**  Load an acyclic graph and remove nodes by any calls in any order (`remove_node`, `remove_subtree`, `remove_dangling_nodes`,
`update_tensor_relations`): as long as the calls return, a further `remove_subtree` returns and removes exactly the node and those of the remaining nodes that depend on it. -/
theorem C111_after_removals (g0 : Graph) (hnames : (g0.nodemap.map (·.name)).Nodup) (huniq : UniqueProducers g0.nodemap) (hac : Acyclic g0.nodemap)
    (limit : Nat) (hlim : g0.nodemap.length < limit) (iter : List String → List String) (hiter : ∀ l x, x ∈ iter l ↔ x ∈ l)
    (es : List Edit) (hes : ∀ e ∈ es, e.Removes) (s : State) (hrun : run limit iter es (load g0) = .ok s) (root : Node) (hroot : root ∈ s.graph.nodemap) :
    ∃ s', step limit iter s (.subtree root.name) = .ok s' ∧ s'.graph.IndexExact ∧ s'.graph.nodemap.Sublist s.graph.nodemap ∧
      ∀ n ∈ s.graph.nodemap, (n ∈ s'.graph.nodemap ↔ ¬ Edit.InSubtree s.graph.nodemap root n) := by
  have hw0 := wf_load hnames huniq
  obtain ⟨hw, hsub, hnext⟩ := run_keeps limit iter es (load g0) s hes hw0 hrun
  have hsub : s.graph.nodemap.Sublist g0.nodemap := hsub
  have hn := hw.names
  obtain ⟨ms, hp, ht⟩ := acyclic_sub hnames hsub hac
  obtain ⟨pre, suf, he⟩ := List.append_of_mem (hp.mem_iff.mpr hroot)
  have hlen : ms.length = s.graph.nodemap.length := hp.length_eq
  have hle := hsub.length_le
  rw [he, List.length_append, List.length_cons] at hlen
  obtain ⟨l, hl⟩ := Edit.collect_ok (g0 := g0.updateTensorRelations) (g := s.graph) hw0 hsub hp ht suf.length pre root suf he (Nat.le_refl _) limit (by omega)
  have hmem := Edit.collect_mem (g0 := g0.updateTensorRelations) (g := s.graph) hw0 hsub limit root l hroot hl
  obtain ⟨g', k1, k2, k3⟩ := removeEach_any (iter (root.name :: l)) hw
  rw [fold_popNode] at k3
  refine ⟨{ s with graph := g' }, ?_, k2.exact_, ?_, ?_⟩
  · simp only [step, Links.removeSubtree, collect_eq g0 hnames s hsub hnext, hl, k1]
  · show g'.nodemap.Sublist _
    rw [k3]
    exact List.filter_sublist
  · intro n hnm
    show n ∈ g'.nodemap ↔ _
    rw [k3, List.mem_filter, Bool.not_eq_true', ← Bool.not_eq_true, List.contains_iff_mem, hiter, List.mem_cons]
    unfold Edit.InSubtree
    constructor
    · rintro ⟨-, h⟩ hh
      apply h
      rcases hh with rfl | hh
      · exact .inl rfl
      · exact .inr ((hmem n hnm).2 hh)
    · intro h
      refine ⟨hnm, fun hh => h ?_⟩
      rcases hh with e | hh
      · exact .inl (name_inj hn hnm hroot e)
      · exact .inr ((hmem n hnm).1 hh)

/-- **C111, removals never fail.**  Whatever the graph loaded, `remove_node` and `remove_subtree` return as long as names are distinct, tensors have one producer, and the graph is
acyclic and within the recursion limit; together with `C111_after_removals` every history of the two calls runs to its end. -/
theorem C111_removals_return (g0 : Graph) (hnames : (g0.nodemap.map (·.name)).Nodup) (huniq : UniqueProducers g0.nodemap) (hac : Acyclic g0.nodemap)
    (limit : Nat) (hlim : g0.nodemap.length < limit) (iter : List String → List String) (hiter : ∀ l x, x ∈ iter l ↔ x ∈ l)
    (es : List Edit) (hes : ∀ e ∈ es, e.Removes ∧ e ≠ .dangling) : ∃ s, run limit iter es (load g0) = .ok s := by
  suffices H : ∀ (done es : List Edit) (s : State), (∀ e ∈ done, e.Removes) → run limit iter done (load g0) = .ok s →
      (∀ e ∈ es, e.Removes ∧ e ≠ .dangling) → ∃ s', run limit iter es s = .ok s' from H [] es _ (by simp) rfl hes
  intro done es
  induction es generalizing done with
  | nil => intro s _ _ _; exact ⟨s, rfl⟩
  | cons e es ih =>
    intro s hd hrun hes
    obtain ⟨hw, hsub, hnext⟩ := run_keeps limit iter done (load g0) s hd (wf_load hnames huniq) hrun
    have hst : ∃ s', step limit iter s e = .ok s' := by
      obtain ⟨h1, h2⟩ := hes e List.mem_cons_self
      cases e with
      | remove x r =>
        obtain ⟨g', ex, h1, -⟩ := removeNode_any hw x r
        exact ⟨{ s with graph := g' }, by simp only [step, h1]⟩
      | subtree x =>
        cases hf : findNode s.graph.nodemap x with
        | some nd =>
          obtain ⟨hm, rfl⟩ := findNode_some hf
          obtain ⟨s', h, -⟩ := C111_after_removals g0 hnames huniq hac limit hlim iter hiter done hd s hrun nd hm
          exact ⟨s', h⟩
        | none =>
          obtain ⟨d, rfl⟩ : ∃ d, limit = d + 1 := ⟨limit - 1, by omega⟩
          obtain ⟨g', k1, -⟩ := removeEach_any (iter [x]) hw
          exact ⟨{ s with graph := g' }, by simp only [step, Links.removeSubtree, Links.collect, hf, k1]⟩
      | dangling => exact absurd rfl h2
      | relations => exact ⟨_, rfl⟩
      | skip x => exact h1.elim
      | fuse a b c => exact h1.elim
      | postop a => exact h1.elim
    obtain ⟨s1, h1⟩ := hst
    have happ : ∀ (a : List Edit) (t t' : State), run limit iter a t = .ok t' → ∀ b, run limit iter (a ++ b) t = run limit iter b t' := by
      intro a
      induction a with
      | nil => intro t t' h b; rw [run] at h; injection h with h; subst h; rfl
      | cons x a iha =>
        intro t t' h b
        rw [List.cons_append, run]
        rw [run] at h
        split at h
        · cases h
        · rename_i t1 ht; exact iha t1 t' h b
    obtain ⟨s', h'⟩ := ih (done ++ [e]) s1 (by
        intro x hx
        rcases List.mem_append.1 hx with hx | hx
        · exact hd x hx
        · rw [List.mem_singleton.1 hx]; exact (hes e List.mem_cons_self).1)
      (by rw [happ done _ _ hrun, run, h1]; rfl) (fun x hx => hes x (List.mem_cons_of_mem _ hx))
    exact ⟨s', by rw [run, h1]; exact h'⟩

/-! ### After a fusion -/

private theorem gather_ok {f : String → Except PyErr (List String)} : ∀ (ls : List Link) (l : List String), Links.gather f ls = .ok l →
    ∀ k ∈ ls, ∃ n, k = .node n ∧ ∃ l', f n = .ok l' := by
  intro ls
  induction ls with
  | nil => intro l _ k hk; simp at hk
  | cons a ls ih =>
    intro l h k hk
    cases a with
    | names ns => rw [Links.gather] at h; cases h
    | node n =>
      rw [Links.gather] at h
      split at h
      · cases h
      · rename_i l1 h1
        split at h
        · cases h
        · rename_i l2 h2
          rcases List.mem_cons.1 hk with rfl | hk
          · exact ⟨n, rfl, l1, h1⟩
          · exact ih l2 h2 k hk

/-- **C111, a node made by a fusion poisons its surroundings.**  If a node holds a list among its links, `remove_subtree` of every node from which the links lead to it fails and
removes nothing, whatever the recursion limit. -/
theorem C111_list_link_subtree (s : State) (x y : String) (nd : Node) (hy : findNode s.graph.nodemap y = some nd) (l : List String) (hl : .names l ∈ s.next y)
    (h : Reaches s x y) (limit : Nat) (iter : List String → List String) : ∃ e, step limit iter s (.subtree x) = .error e := by
  have main : ∀ limit, ∃ e, Links.collect s limit x = .error e := by
    induction h with
    | here z =>
      intro limit
      cases limit with
      | zero => exact ⟨_, rfl⟩
      | succ d =>
        rw [Links.collect, hy]
        simp only
        cases hg : Links.gather (Links.collect s d) (s.next z) with
        | error e => exact ⟨e, rfl⟩
        | ok r =>
          obtain ⟨n, hn, -⟩ := gather_ok _ _ hg _ hl
          cases hn
    | step nd' hx hl' h' ih =>
      intro limit
      cases limit with
      | zero => exact ⟨_, rfl⟩
      | succ d =>
        rw [Links.collect, hx]
        simp only
        cases hg : Links.gather (Links.collect s d) (s.next _) with
        | error e => exact ⟨e, rfl⟩
        | ok r =>
          obtain ⟨n, hn, l', hl''⟩ := gather_ok _ _ hg _ hl'
          injection hn with hn
          subst hn
          obtain ⟨e, he⟩ := ih hy hl d
          rw [he] at hl''
          cases hl''
  obtain ⟨e, he⟩ := main limit
  exact ⟨e, by simp only [step, Links.removeSubtree, he]⟩

/-- **C111, and `remove_dangling_nodes` never returns** while a node whose first link is a list is in the graph. -/
theorem C111_list_link_dangling (s : State) (y : String) (nd : Node) (hy : findNode s.graph.nodemap y = some nd) (l : List String) (ls : List Link)
    (hl : s.next y = .names l :: ls) (limit : Nat) (iter : List String → List String) : ∃ e, step limit iter s .dangling = .error e := by
  have pass : ∀ (names : List String) (t : State) (a : Bool), t.next = s.next → y ∈ names → ∃ e, Links.danglingPass names t a = .error e := by
    intro names
    induction names with
    | nil => intro t a _ h; simp at h
    | cons x names ih =>
      intro t a ht hmem
      rw [Links.danglingPass]
      cases hf : findNode t.graph.nodemap x with
      | none => exact ⟨_, rfl⟩
      | some nd' =>
        obtain ⟨-, rfl⟩ := findNode_some hf
        simp only
        by_cases hxy : nd'.name = y
        · rw [Links.nodeUsed, ht, hxy, hl]
          exact ⟨_, rfl⟩
        · have hm : y ∈ names := by
            rcases List.mem_cons.1 hmem with h | h
            · exact absurd h.symm hxy
            · exact h
          split
          · exact ⟨_, rfl⟩
          · exact ih t a ht hm
          · split
            · exact ⟨_, rfl⟩
            · exact ih _ true ht hm
  obtain ⟨hm, hname⟩ := findNode_some hy
  obtain ⟨e, he⟩ := pass (s.graph.nodemap.map (·.name)) s false rfl (by rw [← hname]; exact List.mem_map_of_mem hm)
  exact ⟨e, by simp only [step, Links.removeDangling, Links.danglingLoop, he]⟩

private theorem filterMap_lists {g : Graph} {O : List String} {t : String} (ht : t ∈ O) (hc : g.consumedby.has t = true) :
    ∃ l ls, fusedLinks g O = .names l :: ls := by
  have hmem : ∃ k, k ∈ fusedLinks g O := by
    obtain ⟨c, hc⟩ := Option.isSome_iff_exists.1 hc
    exact ⟨.names c, List.mem_filterMap.2 ⟨t, ht, by rw [hc]; rfl⟩⟩
  obtain ⟨k, hk⟩ := hmem
  cases hL : fusedLinks g O with
  | nil => rw [hL] at hk; simp at hk
  | cons a ls =>
    have : a ∈ fusedLinks g O := by rw [hL]; exact List.mem_cons_self
    obtain ⟨o, -, ho⟩ := List.mem_filterMap.1 this
    cases hc : g.consumedby.get? o with
    | none => rw [hc] at ho; cases ho
    | some c =>
      rw [hc] at ho
      injection ho with ho
      subst ho
      exact ⟨c, ls, rfl⟩

private theorem findNode_append {ns : List Node} {n : Node} (h : ((ns ++ [n]).map (·.name)).Nodup) : findNode (ns ++ [n]) n.name = some n :=
  findNode_mem h (by simp)

/-- **C111, after every fusion in the middle of a graph.**  Fuse a set of nodes of a loaded graph, one of whose results an outside node reads: the fusion returns, and then
`remove_subtree` of the fused node raises `AttributeError` and `remove_dangling_nodes` does not return. -/
theorem C111_after_fusion (g : Graph) (hnames : (g.nodemap.map (·.name)).Nodup) (huniq : UniqueProducers g.nodemap) (names : List String) (op name : String)
    (hex : ∀ x ∈ names, ∃ n ∈ g.nodemap, n.name = x) (hfresh : ∀ n ∈ g.nodemap, n.name = name → n.name ∈ names)
    (hone : ∀ n ∈ g.nodemap, n.name ∈ names → ∀ o ∈ n.output, (g.nodemap.flatMap (·.output)).count o ≤ 1)
    (n m : Node) (hn : n ∈ g.nodemap) (hout : n.name ∉ names) (hm : m ∈ g.nodemap) (hin : m.name ∈ names) (t : String) (htn : t ∈ n.input) (htm : t ∈ m.output)
    (limit : Nat) (iter : List String → List String) :
    ∃ s, step limit iter (load g) (.fuse names op name) = .ok s ∧
      step (limit + 1) iter s (.subtree name) = .error .attributeError ∧ (∃ e, step limit iter s .dangling = .error e) := by
  obtain ⟨g', I, O, h1, h2, h3, h4, h5, -⟩ := C14_fuse_exact_partial g hnames huniq names op name hex hfresh hone
  obtain ⟨I', O', k1, -, -, -, k5⟩ := C13_interface_exact g hnames names hex false
  rw [h1] at k1; cases k1
  have htO : t ∈ O := (k5 t).mpr ⟨⟨m, hm, hin, htm⟩, by simp, Or.inr ⟨n, hn, htn, hout⟩⟩
  have hfind : findNode g'.nodemap name = some ⟨name, op, I, O⟩ := by
    rw [h3] at h5 ⊢
    exact findNode_append (n := ⟨name, op, I, O⟩) h5
  have hn' : n ∈ g'.nodemap := by
    rw [h3]
    refine List.mem_append_left _ (List.mem_filter.mpr ⟨hn, ?_⟩)
    rw [Bool.not_eq_true', ← Bool.not_eq_true, List.contains_iff_mem]; exact hout
  have hc : g'.consumedby.has t = true := by
    have hne : consumersOf g'.nodemap t ≠ [] := by
      intro he
      have : n.name ∈ consumersOf g'.nodemap t := (Pattern.mem_consumersOf_iff).2 ⟨n, hn', rfl, htn⟩
      rw [he] at this
      simp at this
    have := h4.1 t
    rw [if_neg hne] at this
    unfold Dict.has
    rw [this]
    rfl
  obtain ⟨l, ls, hl⟩ := filterMap_lists htO hc
  refine ⟨withFused (load g) g' name O, ?_, ?_, ?_⟩
  · simp only [step]
    have e : (load g).graph = g.updateTensorRelations := rfl
    simp only [e, h2, hfind]
  · have hx : (withFused (load g) g' name O).next name = .names l :: ls := by
      unfold withFused
      simp only [if_true, hl]
    simp only [step, Links.removeSubtree, Links.collect]
    rw [hx]
    simp only [withFused, hfind, Links.gather]
  · exact C111_list_link_dangling _ name _ hfind l ls (by unfold withFused; simp only [if_true, hl]) limit iter

/-- **C111, after every post-op fusion in the middle of a graph**: the same. -/
theorem C111_after_postop (g : Graph) (hnames : (g.nodemap.map (·.name)).Nodup) (huniq : UniqueProducers g.nodemap) (main : Node) (post : List String)
    (hmain : main ∈ g.nodemap) (hex : ∀ x ∈ post, ∃ n ∈ g.nodemap, n.name = x)
    (hone : ∀ n ∈ g.nodemap, n.name ∈ main.name :: post → ∀ o ∈ n.output, (g.nodemap.flatMap (·.output)).count o ≤ 1)
    (n m : Node) (hn : n ∈ g.nodemap) (hout : n.name ∉ main.name :: post) (hm : m ∈ g.nodemap) (hin : m.name ∈ main.name :: post) (t : String) (htn : t ∈ n.input)
    (htm : t ∈ m.output) (limit : Nat) (iter : List String → List String) :
    ∃ s, step limit iter (load g) (.postop (main.name :: post)) = .ok s ∧
      step (limit + 1) iter s (.subtree main.name) = .error .attributeError ∧ (∃ e, step limit iter s .dangling = .error e) := by
  obtain ⟨g', A', I, O, h1, h2, h3, -, h5, -⟩ := C77_fused_node_partial g hnames huniq (fun _ => []) main post false [] hmain hex hone
  have hex' : ∀ x ∈ main.name :: post, ∃ n ∈ g.nodemap, n.name = x := by
    intro x hx
    rcases List.mem_cons.mp hx with rfl | hx
    · exact ⟨main, hmain, rfl⟩
    · exact hex x hx
  obtain ⟨I', O', k1, -, -, -, k5⟩ := C13_interface_exact g hnames (main.name :: post) hex' false
  rw [h1] at k1; cases k1
  have htO : t ∈ O := (k5 t).mpr ⟨⟨m, hm, hin, htm⟩, by simp, Or.inr ⟨n, hn, htn, hout⟩⟩
  have hnd : (g'.nodemap.map (·.name)).Nodup := by
    rw [h3, List.map_append, List.nodup_append]
    refine ⟨hnames.sublist (List.filter_sublist.map _), by simp, ?_⟩
    intro a ha b hb e
    obtain ⟨c, hc, rfl⟩ := List.mem_map.1 ha
    have hb : b = main.name := by simpa using hb
    have := (List.mem_filter.1 hc).2
    rw [e, hb] at this
    simp at this
  have hfind : findNode g'.nodemap main.name = some ⟨main.name, main.op, I, O⟩ := by
    rw [h3] at hnd ⊢
    exact findNode_append (n := ⟨main.name, main.op, I, O⟩) hnd
  have hc : g'.consumedby.has t = true := by
    unfold Dict.has
    rw [h5 t, if_pos ⟨n, hn, hout, htn⟩]
    rfl
  obtain ⟨l, ls, hl⟩ := filterMap_lists htO hc
  refine ⟨withFused (load g) g' main.name O, ?_, ?_, ?_⟩
  · have e : (load g).graph = g.updateTensorRelations := rfl
    simp only [step, e, h2, List.headD_cons, hfind]
  · have hx : (withFused (load g) g' main.name O).next main.name = .names l :: ls := by
      unfold withFused
      simp only [if_true, hl]
    simp only [step, Links.removeSubtree, Links.collect]
    rw [hx]
    simp only [withFused, hfind, Links.gather]
  · exact C111_list_link_dangling _ main.name _ hfind l ls (by unfold withFused; simp only [if_true, hl]) limit iter

/-! ### After skipping nodes -/

private theorem stale_collect (s : State) (ls : List Link) (hl : ∀ k ∈ ls, ∃ m, k = .node m ∧ ∀ n ∈ s.graph.nodemap, n.name ≠ m) (d : Nat) :
    ∃ l, Links.gather (Links.collect s (d + 1)) ls = .ok l ∧ ∀ x ∈ l, ∀ n ∈ s.graph.nodemap, n.name ≠ x := by
  induction ls with
  | nil => exact ⟨[], rfl, by simp⟩
  | cons k ls ih =>
    obtain ⟨m, rfl, hm⟩ := hl k List.mem_cons_self
    obtain ⟨l, h1, h2⟩ := ih fun k hk => hl k (List.mem_cons_of_mem _ hk)
    have hf : findNode s.graph.nodemap m = none := by
      cases hf : findNode s.graph.nodemap m with
      | none => rfl
      | some n => obtain ⟨a, b⟩ := findNode_some hf; exact absurd b (hm n a)
    refine ⟨m :: l, ?_, ?_⟩
    · rw [Links.gather, Links.collect, hf]
      simp only [h1]
      rfl
    · intro x hx
      rcases List.mem_cons.1 hx with rfl | hx
      · exact hm
      · exact h2 x hx

/-- **C111, links that lead nowhere.**  If every node that read the results of `p` when the graph was loaded is gone, `remove_subtree(p)` removes `p` alone, whoever reads its
results now. -/
theorem C111_stale_subtree (g : Graph) (next : String → List Link) (hnames : (g.nodemap.map (·.name)).Nodup) (huniq : UniqueProducers g.nodemap) (p : Node)
    (hp : p ∈ g.nodemap) (hl : ∀ k ∈ next p.name, ∃ m, k = .node m ∧ ∀ n ∈ g.nodemap, n.name ≠ m) (limit : Nat) (hlim : 1 < limit)
    (iter : List String → List String) (hiter : ∀ l x, x ∈ iter l ↔ x ∈ l) :
    ∃ s', step limit iter ⟨g.updateTensorRelations, next⟩ (.subtree p.name) = .ok s' ∧ s'.graph.nodemap = g.nodemap.filter fun n => n.name ≠ p.name := by
  obtain ⟨d, rfl⟩ : ∃ d, limit = d + 2 := ⟨limit - 2, by omega⟩
  have hw := wf_load hnames huniq
  obtain ⟨l, h1, h2⟩ := stale_collect ⟨g.updateTensorRelations, next⟩ (next p.name) hl d
  obtain ⟨g', k1, -, k3⟩ := removeEach_any (iter (p.name :: l)) hw
  refine ⟨⟨g', next⟩, ?_, ?_⟩
  · simp only [step, Links.removeSubtree]
    rw [Links.collect, show findNode g.updateTensorRelations.nodemap p.name = some p from findNode_mem hnames hp]
    simp only [h1, k1]
  · show g'.nodemap = _
    rw [k3, fold_popNode]
    apply List.filter_congr
    intro n hn
    have hn : n ∈ g.nodemap := hn
    by_cases e : n.name = p.name
    · have : p.name ∈ iter (p.name :: l) := by rw [hiter]; exact List.mem_cons_self
      simp [e, this]
    · have : n.name ∉ iter (p.name :: l) := by
        rw [hiter, List.mem_cons]
        rintro (h | h)
        · exact e h
        · exact h2 _ h n hn rfl
      simp [e, this]

private theorem linked_false (g : Graph) (ls : List Link) (h : Links.linked g ls = .ok true) : ∃ m, .node m ∈ ls ∧ (findNode g.nodemap m).isSome := by
  induction ls with
  | nil => cases h
  | cons k ls ih =>
    cases k with
    | names l => cases h
    | node m =>
      rw [Links.linked] at h
      split at h
      · rename_i hm; exact ⟨m, List.mem_cons_self, hm⟩
      · obtain ⟨m', h1, h2⟩ := ih h; exact ⟨m', List.mem_cons_of_mem _ h1, h2⟩

/-- **C111, what `remove_dangling_nodes` keeps**, whatever was done before: when it returns, every remaining node writes a graph output or holds a link to a node that is still
there. -/
theorem C111_kept_is_linked (s s' : State) (limit : Nat) (iter : List String → List String) (h : step limit iter s .dangling = .ok s') :
    s'.next = s.next ∧ ∀ x n, findNode s'.graph.nodemap x = some n → (∃ o ∈ n.output, o ∈ s'.graph.output) ∨
      ∃ m, .node m ∈ s.next n.name ∧ (findNode s'.graph.nodemap m).isSome := by
  have pass : ∀ (names : List String) (a b : State) (t u : Bool), Links.danglingPass names a t = .ok (b, u) → b.next = a.next ∧
      (u = false → t = false ∧ a = b ∧ ∀ x ∈ names, ∀ nd, findNode a.graph.nodemap x = some nd → Links.nodeUsed a nd = .ok true) := by
    intro names
    induction names with
    | nil =>
      intro a b t u h
      rw [Links.danglingPass] at h
      injection h with h
      injection h with h1 h2
      subst h1; subst h2
      exact ⟨rfl, fun h => ⟨h, rfl, by simp⟩⟩
    | cons x xs ih =>
      intro a b t u h
      rw [Links.danglingPass] at h
      split at h
      · cases h
      · rename_i nd hf
        split at h
        · cases h
        · rename_i hu
          obtain ⟨e0, e⟩ := ih a b t u h
          refine ⟨e0, fun hu' => ?_⟩
          obtain ⟨e1, e2, e3⟩ := e hu'
          refine ⟨e1, e2, ?_⟩
          intro y hy nd' hf'
          rcases List.mem_cons.mp hy with rfl | hy
          · rw [hf] at hf'; cases hf'; exact hu
          · exact e3 y hy nd' hf'
        · split at h
          · cases h
          · obtain ⟨e0, e⟩ := ih _ b true u h
            refine ⟨e0, fun hu' => ?_⟩
            obtain ⟨e1, -⟩ := e hu'
            cases e1
  have loop : ∀ (fuel : Nat) (a b : State), Links.danglingLoop fuel a = .ok b → b.next = a.next ∧
      ∀ x nd, findNode b.graph.nodemap x = some nd → Links.nodeUsed b nd = .ok true := by
    intro fuel
    induction fuel with
    | zero => intro a b h; cases h
    | succ fuel ih =>
      intro a b h
      rw [Links.danglingLoop] at h
      split at h
      · cases h
      · rename_i s1 again hp
        obtain ⟨e0, e⟩ := pass _ _ _ _ _ hp
        split at h
        · obtain ⟨j1, j2⟩ := ih s1 b h
          exact ⟨j1.trans e0, j2⟩
        · rename_i ha
          injection h with h
          subst h
          obtain ⟨-, e2, e3⟩ := e (by simpa using ha)
          refine ⟨e0, fun x nd hf => ?_⟩
          rw [← e2] at hf ⊢
          obtain ⟨hm, hname⟩ := findNode_some hf
          exact e3 x (by rw [← hname]; exact List.mem_map_of_mem hm) nd hf
  obtain ⟨h1, h2⟩ := loop _ s s' h
  refine ⟨h1, fun x n hf => ?_⟩
  have := h2 x n hf
  rw [Links.nodeUsed, h1] at this
  split at this
  · cases this
  · rename_i b hb
    injection this with this
    rw [Bool.or_eq_true] at this
    rcases this with h | h
    · obtain ⟨o, ho, hc⟩ := List.any_eq_true.1 h
      exact .inl ⟨o, ho, List.contains_iff_mem.1 hc⟩
    · subst h
      exact .inr (linked_false _ _ hb)

private theorem producers_output (name : String) : ∀ (os : List String) (g g' : Graph), rmProducers name os g = .ok g' → ∀ t ∈ g'.output, t ∈ g.output := by
  intro os
  induction os with
  | nil => intro g g' h; rw [rmProducers] at h; injection h with h; subst h; exact fun _ h => h
  | cons o os ih =>
    intro g g' h t ht
    rw [rmProducers] at h
    split at h
    · exact ih g g' h t ht
    · split at h
      · exact List.mem_of_mem_erase (ih _ g' h t ht)
      · cases h

private theorem consumers_output (name : String) : ∀ (is : List String) (g g' : Graph) (a b : List String), rmConsumers name is g a = .ok (g', b) → g'.output = g.output := by
  intro is
  induction is with
  | nil => intro g g' a b h; rw [rmConsumers] at h; injection h with h; injection h with h; subst h; rfl
  | cons i is ih =>
    intro g g' a b h
    rw [rmConsumers] at h
    split at h
    · cases h
    · rename_i d _
      exact ih { g with consumedby := eraseAt g.consumedby i name } g' _ b h

private theorem one_output (g g' : Graph) (x : String) (l : List String) (h : removeOne g x = .ok (g', l)) : ∀ t ∈ g'.output, t ∈ g.output := by
  unfold removeOne at h
  split at h
  · injection h with h; injection h with h; subst h; exact fun _ h => h
  · split at h
    · cases h
    · rename_i g1 h1
      split at h
      · cases h
      · rename_i g2 new h2
        injection h with h
        injection h with h
        subst h
        intro t ht
        have ht : t ∈ g2.output := ht
        rw [consumers_output _ _ _ _ _ _ h2] at ht
        exact producers_output _ _ _ _ h1 t ht

private theorem each_output : ∀ (xs : List String) (g g' : Graph), removeEach xs g = .ok g' → ∀ t ∈ g'.output, t ∈ g.output := by
  intro xs
  induction xs with
  | nil => intro g g' h; rw [removeEach] at h; injection h with h; subst h; exact fun _ h => h
  | cons x xs ih =>
    intro g g' h t ht
    rw [removeEach] at h
    split at h
    · cases h
    · rename_i g1 l h1
      exact one_output _ _ _ _ h1 t (ih g1 g' h t ht)

private theorem node_output (g g' : Graph) (x : String) (r : Bool) (h : removeNode g x r = .ok g') : ∀ t ∈ g'.output, t ∈ g.output := by
  unfold removeNode at h
  split at h
  · cases h
  · rename_i g1 l h1
    split at h
    · intro t ht; exact one_output _ _ _ _ h1 t (each_output _ _ _ h t ht)
    · injection h with h; subst h; exact one_output _ _ _ _ h1

private theorem pass_output : ∀ (names : List String) (s s' : State) (a b : Bool), Links.danglingPass names s a = .ok (s', b) → ∀ t ∈ s'.graph.output, t ∈ s.graph.output := by
  intro names
  induction names with
  | nil => intro s s' a b h; rw [Links.danglingPass] at h; injection h with h; injection h with h1 h2; subst h1; exact fun _ h => h
  | cons x names ih =>
    intro s s' a b h t ht
    rw [Links.danglingPass] at h
    split at h
    · cases h
    · split at h
      · cases h
      · exact ih s s' a b h t ht
      · split at h
        · cases h
        · rename_i g' h1
          exact node_output _ _ _ _ h1 t (ih _ s' _ b h t ht)

private theorem loop_output : ∀ (fuel : Nat) (s s' : State), Links.danglingLoop fuel s = .ok s' → ∀ t ∈ s'.graph.output, t ∈ s.graph.output := by
  intro fuel
  induction fuel with
  | zero => intro s s' h; cases h
  | succ fuel ih =>
    intro s s' h t ht
    rw [Links.danglingLoop] at h
    split at h
    · cases h
    · rename_i s1 again hp
      split at h
      · exact pass_output _ _ _ _ _ hp t (ih s1 s' h t ht)
      · injection h with h; subst h; exact pass_output _ _ _ _ _ hp t ht

/-- **C111, counterexample for every model with a skipped shape operator.**  In a graph to which `removeShapeOps` applies (C40), take a node `p` that only shape operators read and
that writes no graph output.  Afterwards `remove_subtree(p)` removes `p` alone and keeps the nodes that now read its result, and `remove_dangling_nodes()`, if it returns, has removed `p`. -/
theorem C111_after_skipping (g : Graph) (hnames : (g.nodemap.map (·.name)).Nodup) (hindex : g.IndexExact) (hac : Acyclic g.nodemap)
    (hprod : (g.nodemap.flatMap (·.output)).Nodup)
    (hshape : ∀ n ∈ g.nodemap, Skip.isShapeOp n = true → ∃ ind out, n.input.filter (fun t => g.dynamics.contains t) = [ind] ∧ n.output = [out] ∧ out ∈ g.dynamics ∧
      ∃ m ∈ g.nodemap, out ∈ m.input)
    (p : Node) (hp : p ∈ g.nodemap) (hps : Skip.isShapeOp p = false) (hread : ∀ n ∈ g.nodemap, ∀ t ∈ p.output, t ∈ n.input → Skip.isShapeOp n = true)
    (hpo : ∀ t ∈ p.output, t ∉ g.output) (limit : Nat) (hlim : 1 < limit) (iter : List String → List String) (hiter : ∀ l x, x ∈ iter l ↔ x ∈ l) :
    ∃ g', Skip.removeShapeOps g = .ok g' ∧ (∃ p' ∈ g'.nodemap, p'.name = p.name) ∧
      (∃ s', step limit iter ⟨g'.updateTensorRelations, (load g).next⟩ (.subtree p.name) = .ok s' ∧ s'.graph.nodemap = g'.nodemap.filter fun n => n.name ≠ p.name) ∧
      ∀ s', step limit iter ⟨g'.updateTensorRelations, (load g).next⟩ .dangling = .ok s' →
        ∀ n ∈ s'.graph.nodemap, n.name ≠ p.name := by
  obtain ⟨g', h1, hgo, -, h4, -, -, -⟩ := C40_remove_shape_ops_partial (V := Nat) g hnames hindex hac hprod hshape
  have hnm : g'.nodemap.map (·.name) = (g.nodemap.filter fun n => !Skip.isShapeOp n).map (·.name) := by
    have := congrArg (List.map fun x : String × String × List String => x.1) h4
    simpa [List.map_map, Function.comp_def] using this
  have hob : g'.nodemap.map (·.output) = (g.nodemap.filter fun n => !Skip.isShapeOp n).map (·.output) := by
    have := congrArg (List.map fun x : String × String × List String => x.2.2) h4
    simpa [List.map_map, Function.comp_def] using this
  have hn' : (g'.nodemap.map (·.name)).Nodup := by
    rw [hnm]
    exact hnames.sublist (List.filter_sublist.map _)
  have hu' : UniqueProducers g'.nodemap := by
    have hnd : (g'.nodemap.flatMap (·.output)).Nodup := by
      rw [List.flatMap_def, hob, ← List.flatMap_def]
      exact hprod.sublist (List.Sublist.flatMap List.filter_sublist _)
    intro _ _ t _
    exact List.nodup_iff_count_le_one.1 hnd t
  have hpm : p.name ∈ g'.nodemap.map (·.name) := by
    rw [hnm]
    exact List.mem_map_of_mem (List.mem_filter.2 ⟨hp, by simp [hps]⟩)
  obtain ⟨p', hp', hpn⟩ := List.mem_map.1 hpm
  have hlinks : ∀ k ∈ (load g).next p.name, ∃ m, k = .node m ∧ ∀ n ∈ g'.nodemap, n.name ≠ m := by
    intro k hk
    simp only [load, findNode_mem hnames hp] at hk
    obtain ⟨m, hm, rfl⟩ := List.mem_map.1 hk
    obtain ⟨t, ht, hm⟩ := List.mem_flatMap.1 hm
    have hx := (updateConsumerProducer_exact g).1 t
    have hmc : m ∈ consumersOf g.nodemap t := by
      have hx' : g.updateTensorRelations.consumedby.get? t = _ := hx
      rw [hx'] at hm
      split at hm
      · simp at hm
      · exact hm
    obtain ⟨c, hc, rfl, htc⟩ := Pattern.mem_consumersOf_iff.1 hmc
    refine ⟨c.name, rfl, fun n hn e => ?_⟩
    have : n.name ∈ (g.nodemap.filter fun n => !Skip.isShapeOp n).map (·.name) := by rw [← hnm]; exact List.mem_map_of_mem hn
    obtain ⟨c', hc', e'⟩ := List.mem_map.1 this
    obtain ⟨hc1, hc2⟩ := List.mem_filter.1 hc'
    have : c' = c := name_inj hnames hc1 hc (e'.trans e)
    subst this
    rw [hread c' hc t ht htc] at hc2
    simp at hc2
  refine ⟨g', h1, ⟨p', hp', hpn⟩, ?_, ?_⟩
  · have := C111_stale_subtree g' (load g).next hn' hu' p' hp' (by rw [hpn]; exact hlinks) limit hlim iter hiter
    rw [hpn] at this
    exact this
  · intro s' hs' n hn e
    have hw := wf_load hn' hu'
    obtain ⟨hw', hsub, -⟩ := step_keeps limit iter _ s' .dangling trivial hw hs'
    have hng : n ∈ g'.nodemap := hsub.subset hn
    have hout : ∀ t ∈ p.output, t ∉ s'.graph.output := by
      intro t ht h
      have := loop_output _ _ s' hs' t h
      exact hpo t ht (by rw [← hgo]; exact this)
    obtain ⟨-, hk⟩ := C111_kept_is_linked _ s' limit iter hs'
    rcases hk n.name n (findNode_mem hw'.names hn) with ⟨o, ho, hoo⟩ | ⟨m, hm, hmp⟩
    · refine hout o ?_ hoo
      have hmem : (n.name, n.op, n.output) ∈ (g.nodemap.filter fun n => !Skip.isShapeOp n).map fun n => (n.name, n.op, n.output) := by
        rw [← h4]; exact List.mem_map_of_mem hng
      obtain ⟨q, hq, e2⟩ := List.mem_map.1 hmem
      injection e2 with e2 e3
      injection e3 with e3 e4
      have : q = p := name_inj hnames (List.mem_filter.1 hq).1 hp (e2.trans e)
      subst this
      rw [e4]; exact ho
    · rw [e] at hm
      obtain ⟨m', e1, hne⟩ := hlinks _ hm
      injection e1 with e1
      subst e1
      obtain ⟨q, hq⟩ := Option.isSome_iff_exists.1 hmp
      obtain ⟨hq1, hq2⟩ := findNode_some hq
      exact hne q (hsub.subset hq1) hq2

private def skipChain : Graph :=
  Graph.updateTensorRelations { nodemap := [⟨"relu", "Relu", ["x"], ["y"]⟩, ⟨"flat", "Flatten", ["y"], ["a"]⟩, ⟨"neg", "Neg", ["a"], ["z"]⟩], input := ["x"], output := ["z"] }

/-- **C111, counterexample: skip, then clean up.**  `relu → flat → neg`: after skipping `flat`, cleaning up removes `relu`, although `neg` reads its result. -/
theorem C111_needed_node_removed :
    (run 10 id [.skip "flat", .relations, .dangling] (load skipChain)).toOption.map (fun s => (s.graph.nodemap, s.graph.output)) =
      some ([⟨"neg", "Neg", ["y"], ["z"]⟩], ["z"]) ∧
    (run 10 id [.skip "flat", .relations, .subtree "relu"] (load skipChain)).toOption.map (fun s => s.graph.nodemap) = some [⟨"neg", "Neg", ["y"], ["z"]⟩] := by
  constructor <;> decide

private def fuseChain : Graph :=
  { nodemap := [⟨"a", "Relu", ["x"], ["ta"]⟩, ⟨"b", "Exp", ["ta"], ["tb"]⟩, ⟨"c", "Neg", ["tb"], ["tc"]⟩, ⟨"d", "Abs", ["tc"], ["td"]⟩], input := ["x"], output := ["td"] }

/-- `C111_after_fusion` applies to fusing the middle of a chain. -/
example : (run 10 id [.fuse ["b", "c"] "F" "f"] (load fuseChain)).toOption.map (fun s => (s.graph.nodemap.map (·.name), s.next "f")) =
    some (["a", "d", "f"], [.names ["d"]]) := by decide

/-- **C111, the second fused chain**: under a new name the links of the node before it lead nowhere, so that `remove_subtree` keeps the fused node; under the name of a fused node it
raises. -/
theorem C111_fused_name :
    (run 10 id [.fuse ["b", "c"] "F" "f", .subtree "a"] (load fuseChain)).toOption.map (fun s => s.graph.nodemap.map (·.name)) = some ["d", "f"] ∧
    (match run 10 id [.fuse ["b", "c"] "F" "b", .subtree "a"] (load fuseChain) with | .error e => some e | .ok _ => none) = some .attributeError := by
  constructor <;> decide

/-- what `remove_dangling_nodes` raises there is an AttributeError, too -/
theorem C111_fused_dangling :
    (match run 10 id [.fuse ["b", "c"] "F" "f", .dangling] (load fuseChain) with | .error e => some e | .ok _ => none) = some .attributeError ∧
    (run 10 id [.dangling] (load fuseChain)).toOption.map (fun s => s.graph.nodemap.map (·.name)) = some (fuseChain.nodemap.map (·.name)) := by
  constructor <;> decide

/-- **C111, way out.**  Saving the graph and loading it again renews the links: on a loaded graph `remove_subtree` and the links are those of C78. -/
theorem C111_reload (g : Graph) (hnames : (g.nodemap.map (·.name)).Nodup) (limit : Nat) (x : String) :
    Links.collect (load g) limit x = Edit.collect g.updateTensorRelations g.updateTensorRelations limit x :=
  collect_eq g hnames (load g) (List.Sublist.refl _) rfl limit x

end OnnxTool.Props
