import Verif.Proofs.Kahn
/-!
# Properties C07-C09: `graph_reorder_nodes`
-/
namespace OnnxTool.Props
open OnnxTool OnnxTool.Topsort

/-- **C07** In the order left by `graph_reorder_nodes` every node comes after all producers of its inputs (whatever the
original order, cycles allowed), and no node appears twice. -/
theorem C07_producers_first (g : Graph) (hnames : (g.nodemap.map (·.name)).Nodup) (hu : UniqueProducers g.nodemap) :
    (graphReorderNodes g).nodemap.Nodup ∧
    (∀ n ∈ (graphReorderNodes g).nodemap, n ∈ g.nodemap) ∧
    ∀ before n after, (graphReorderNodes g).nodemap = before ++ n :: after →
      ∀ m ∈ g.nodemap, Dep n m → m ∈ before := by
  rw [reorder_eq g hnames hu]
  have h := kinv_kahn (nodup_of_names hnames) (g.nodemap.length + 1) (kinv_nil g.nodemap)
  exact ⟨h.nodup, h.sub, h.order⟩

private theorem stuck_reaches_cycle (ns : List Node) (bad : Node → Prop)
    (hstep : ∀ n ∈ ns, bad n → ∃ m ∈ ns, Dep n m ∧ bad m) (n : Node) (hn : n ∈ ns) (hb : bad n) : OnCycle ns n := by
  -- walk along bad dependencies, remembering the visited nodes
  have walk : ∀ (k : Nat) (seen : List Node) (cur : Node), seen.Nodup → (∀ x ∈ seen, x ∈ ns) → cur ∈ ns → bad cur →
      (cur = n ∨ DepPath ns n cur) → (∀ x ∈ seen, DepPath ns x cur ∧ (x = n ∨ DepPath ns n x)) →
      ns.length + 1 ≤ k + seen.length → OnCycle ns n := by
    intro k
    induction k with
    | zero =>
      intro seen cur hnd hsub _ _ _ _ hlen
      have := nodup_sub_length hnd hsub
      omega
    | succ k ih =>
      intro seen cur hnd hsub hcur hbad hreach hseen hlen
      by_cases hin : cur ∈ seen
      · obtain ⟨h1, h2⟩ := hseen cur hin
        rcases h2 with rfl | h2
        · exact Or.inl h1
        · exact Or.inr ⟨cur, h2, h1⟩
      · obtain ⟨m, hm, hd, hbm⟩ := hstep cur hcur hbad
        have snoc : ∀ {x}, DepPath ns x cur → DepPath ns x m := by
          intro x hx
          induction hx with
          | step hm' hd' => exact DepPath.trans hm' hd' (DepPath.step hm hd)
          | trans hm' hd' _ ih2 => exact DepPath.trans hm' hd' (ih2 hcur hbad hreach hseen hin hd)
        have hreach' : m = n ∨ DepPath ns n m := by
          rcases hreach with rfl | h
          · exact Or.inr (DepPath.step hm hd)
          · exact Or.inr (snoc h)
        refine ih (cur :: seen) m (List.nodup_cons.mpr ⟨hin, hnd⟩) ?_ hm hbm hreach' ?_ ?_
        · intro x hx
          rcases List.mem_cons.mp hx with rfl | hx
          · exact hcur
          · exact hsub x hx
        · intro x hx
          rcases List.mem_cons.mp hx with rfl | hx
          · exact ⟨DepPath.step hm hd, hreach⟩
          · exact ⟨snoc (hseen x hx).1, (hseen x hx).2⟩
        · simp only [List.length_cons]; omega
  exact walk (ns.length + 1) [] n (by simp) (by simp) hn hb (Or.inl rfl) (by simp) (by simp)

/-- **C08** `graph_reorder_nodes` keeps exactly the nodes that neither lie on nor depend on a dependency cycle. -/
theorem C08_keeps_exactly_acyclic_part (g : Graph) (hnames : (g.nodemap.map (·.name)).Nodup)
    (hu : UniqueProducers g.nodemap) (n : Node) (hn : n ∈ g.nodemap) :
    n ∈ (graphReorderNodes g).nodemap ↔ ¬ OnCycle g.nodemap n := by
  rw [reorder_eq g hnames hu]
  have hns := nodup_of_names hnames
  have h := kinv_kahn hns (g.nodemap.length + 1) (kinv_nil g.nodemap)
  have hdone := kahn_done hns (g.nodemap.length + 1) (kinv_nil g.nodemap) (by simp)
  generalize kahn g.nodemap (g.nodemap.length + 1) [] = F at *
  have closed : ∀ n ∈ F, ∀ m ∈ g.nodemap, Dep n m → m ∈ F := by
    intro n hn m hm hd
    obtain ⟨l1, l2, e⟩ := List.append_of_mem hn
    have := h.order l1 n l2 e m hm hd
    rw [e]; exact List.mem_append_left _ this
  constructor
  · intro hin hc
    -- a kept node has all its dependency paths going strictly backwards
    have back : ∀ {a b : Node}, DepPath g.nodemap a b → a ∈ F →
        ∀ l1 l2, F = l1 ++ a :: l2 → b ∈ l1 := by
      intro a b hp
      induction hp with
      | step hm hd => intro _ l1 l2 e; exact h.order l1 _ l2 e _ hm hd
      | trans hm hd _ ih =>
        intro _ l1 l2 e
        have hm1 := h.order l1 _ l2 e _ hm hd
        obtain ⟨a1, a2, e1⟩ := List.append_of_mem hm1
        have := ih (by rw [e]; exact List.mem_append_left _ hm1) a1 (a2 ++ _ :: l2) (by rw [e, e1]; simp; rfl)
        rw [e1]; exact List.mem_append_left _ this
    have noCycle : ∀ a ∈ F, ¬ DepPath g.nodemap a a := by
      intro a ha hp
      obtain ⟨l1, l2, e⟩ := List.append_of_mem ha
      have h1 := back hp ha l1 l2 e
      have hnd := h.nodup
      rw [e, List.nodup_append] at hnd
      exact hnd.2.2 a h1 a (by simp) rfl
    have pathIn : ∀ {a b : Node}, DepPath g.nodemap a b → a ∈ F → b ∈ F := by
      intro a b hp
      induction hp with
      | step hm hd => intro ha; exact closed _ ha _ hm hd
      | trans hm hd _ ih => intro ha; exact ih (closed _ ha _ hm hd)
    rcases hc with hc | ⟨m, h1, h2⟩
    · exact noCycle n hin hc
    · exact noCycle m (pathIn h1 hin) h2
  · intro hnc
    by_cases hin : n ∈ F
    · exact hin
    · exfalso
      apply hnc
      refine stuck_reaches_cycle g.nodemap (fun x => x ∉ F) ?_ n hn hin
      intro x hx hxF
      have : x ∉ next g.nodemap F := by rw [hdone]; simp
      rw [mem_next] at this
      by_cases hall : ∀ m ∈ g.nodemap, Dep x m → m ∈ F
      · exact absurd ⟨hx, hxF, hall⟩ this
      · have hex : ∃ m, m ∈ g.nodemap ∧ Dep x m ∧ m ∉ F := by
          apply Classical.byContradiction
          intro hno
          apply hall
          intro m hm hd
          apply Classical.byContradiction
          intro hmF; exact hno ⟨m, hm, hd, hmF⟩
        obtain ⟨m, hm, hd, hmF⟩ := hex
        exact ⟨m, hm, hd, hmF⟩

/-- **C08** On an acyclic graph the reordered nodes are a permutation of the original ones. -/
theorem C08_acyclic_permutation (g : Graph) (hnames : (g.nodemap.map (·.name)).Nodup)
    (hu : UniqueProducers g.nodemap) (hac : ∀ n ∈ g.nodemap, ¬ DepPath g.nodemap n n) :
    (graphReorderNodes g).nodemap.Perm g.nodemap := by
  have h7 := C07_producers_first g hnames hu
  have hmem : ∀ {a b : Node}, DepPath g.nodemap a b → b ∈ g.nodemap := by
    intro a b hp
    induction hp with
    | step hm _ => exact hm
    | trans _ _ _ ih => exact ih
  refine (List.perm_ext_iff_of_nodup h7.1 (nodup_of_names hnames)).mpr ?_
  intro n
  constructor
  · exact h7.2.1 n
  · intro hn
    rw [C08_keeps_exactly_acyclic_part g hnames hu n hn]
    rintro (h | ⟨m, h1, h2⟩)
    · exact hac n hn h
    · exact hac m (hmem h1) h2

/-- **C09** Reordering a reordered graph changes nothing (nodes, indexes, dynamic tensors). -/
theorem C09_idempotent (g : Graph) (hnames : (g.nodemap.map (·.name)).Nodup) (hu : UniqueProducers g.nodemap) :
    graphReorderNodes (graphReorderNodes g) = graphReorderNodes g := by
  have hns := nodup_of_names hnames
  have hk := reorder_eq g hnames hu
  have h := kinv_kahn hns (g.nodemap.length + 1) (kinv_nil g.nodemap)
  have hid := kahn_idem hns (g.nodemap.length + 1) (kinv_nil g.nodemap) _ rfl
    ((kahn g.nodemap (g.nodemap.length + 1) []).length + 1) (by simp)
  generalize hF : kahn g.nodemap (g.nodemap.length + 1) [] = F at *
  have hFn : (F.map (·.name)).Nodup := by
    exact List.pairwise_map.mpr (List.Pairwise.imp_of_mem
      (fun ha hb hne e => hne (name_inj hnames (h.sub _ ha) (h.sub _ hb) e)) h.nodup)
  have hFu : UniqueProducers F := by
    intro n hn t ht
    have h1 := hu n (h.sub n hn) t ht
    rw [count_flatMap_out] at h1 ⊢
    exact Nat.le_trans (outCount_perm_le h.nodup h.sub t) h1
  have e2 : (graphReorderNodes (graphReorderNodes g)).nodemap = (graphReorderNodes g).nodemap := by
    have h1 : ((graphReorderNodes g).nodemap.map (·.name)).Nodup := by rw [hk]; exact hFn
    have h2 : UniqueProducers (graphReorderNodes g).nodemap := by rw [hk]; exact hFu
    rw [reorder_eq _ h1 h2, hk]
    exact hid
  have e3 : ∀ g : Graph, graphReorderNodes (graphReorderNodes g) =
      { graphReorderNodes g with
        nodemap := (graphReorderNodes (graphReorderNodes g)).nodemap
        consumedby := (graphReorderNodes (graphReorderNodes g)).nodemap.foldl addConsumers []
        producedby := (graphReorderNodes (graphReorderNodes g)).nodemap.foldl addProducers []
        dynamics := ((graphReorderNodes (graphReorderNodes g)).nodemap.foldl addProducers []).keys } := by
    intro g; rfl
  rw [e3, e2]; rfl

/-! ### Non-vacuity and the excluded points -/

/-- a shuffled diamond -/
def shuffled : Graph :=
  { nodemap := [⟨"n3", "Add", ["a", "b"], ["c"]⟩, ⟨"n2", "Exp", ["a"], ["b"]⟩, ⟨"n1", "Relu", ["x"], ["a"]⟩],
    input := ["x"], output := ["c"] }

example : (shuffled.nodemap.map (·.name)).Nodup ∧ UniqueProducers shuffled.nodemap := by decide
example : (graphReorderNodes shuffled).nodemap.map (·.name) = ["n1", "n2", "n3"] := by decide

/-- a node on a cycle is dropped silently -/
example : (graphReorderNodes { nodemap := [⟨"p", "Relu", ["x"], ["y"]⟩, ⟨"q", "Add", ["y", "z"], ["z"]⟩] }).nodemap.map
    (·.name) = ["p"] := by decide

/-- **C08** (why the uniqueness hypothesis is needed) The empty name marks absent optional inputs and outputs.  A single
LSTM-like node with an absent optional input *and* an absent optional output counts as depending on itself and is
silently dropped by `graph_reorder_nodes`, although nothing it reads is produced by a node. -/
theorem C08_empty_optional_names_drop_node :
    (graphReorderNodes { nodemap := [⟨"lstm", "LSTM", ["x", "w", "r", ""], ["y", "", "c"]⟩],
                         input := ["x"], output := ["y", "c"] }).nodemap = [] := by decide

/-- **C07** (why the uniqueness hypothesis is needed) With a tensor produced twice the consumer's counter skips zero and
the consumer is dropped. -/
theorem C07_double_producer_drops_consumer :
    (graphReorderNodes { nodemap := [⟨"p1", "Relu", ["x"], ["t"]⟩, ⟨"p2", "Exp", ["x"], ["t"]⟩,
                                     ⟨"c", "Neg", ["t"], ["y"]⟩] }).nodemap.map (·.name) = ["p1", "p2"] := by decide

end OnnxTool.Props
