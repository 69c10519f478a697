import Verif.Proofs.Branch
/-!
# C79: loading with a fixed branch of the `If` nodes
-/
namespace OnnxTool.Props
open OnnxTool Remove Topsort Branch

/-- **C79, values.** Whatever the graph — any number of `If` nodes, nested or not — if the call returns, the new graph computes what the old one computes when every `If` takes the
selected branch: values that satisfy every node of the old graph satisfy every node of the new one. -/
theorem C79_values {V : Type} (f : String → List V → Nat → V) (br : String → Body) (env : String → V) (fuel count : Nat) (g g' : Graph)
    (hnames : ∀ n ∈ g.nodemap, n.name ≠ "") (hbr : ∀ x, ∀ o ∈ (br x).output, o ≠ "") (hg : ∀ n ∈ g.nodemap, Holds f br env n) (h : removeIf br fuel count g = .ok g') :
    ∀ n ∈ g'.nodemap, Holds f br env n :=
  fun n hn => (removeIf_hold hbr fuel count (fun m hm => ⟨hg m hm, hnames m hm⟩) h n hn).1

/-- **C79, no `If` left.** -/
theorem C79_no_if_left (br : String → Body) (fuel count : Nat) (g g' : Graph) (hnames : (g.nodemap.map (·.name)).Nodup) (h : removeIf br fuel count g = .ok g') :
    ∀ n ∈ g'.nodemap, n.op ≠ "If" := removeIf_noIf fuel count hnames h

/-- **C79 (partial): the usual case.** One `If`, with the side conditions spelled out in `Usual`: the call returns; the new graph has the nodes that do not serve the condition only,
unchanged and in order, followed by the nodes of the branch with its result renamed to the output of the `If`; inputs, outputs and initializers are the same.

Partial: dropping a condition of `Usual` makes the claim false — see the findings below. -/
theorem C79_inlined_partial (g0 : Graph) (n : Node) (br : String → Body) (pre new : String) (h : Usual g0.updateConsumerProducer n (br n.name) pre new) (fuel count : Nat) :
    ∃ g', removeIf br (fuel + 2) count g0.updateConsumerProducer = .ok g' ∧ g'.output = g0.output ∧ g'.input = g0.input ∧ g'.initials = g0.initials ∧
      ∃ keep : List Node, g'.nodemap = keep ++ renamed (br n.name) pre new ∧ keep.Sublist g0.nodemap ∧
        ∀ m ∈ g0.nodemap, (m ∈ keep ↔ ¬ OnlyFor g0.nodemap n ((br n.name).node.flatMap (·.input)) m) := by
  obtain ⟨g', R, h1, h2, h3, h4, h5, c, h6⟩ := removeIf_ok h rfl (updateConsumerProducer_keys g0).2 (updateConsumerProducer_exact g0) fuel count
  refine ⟨g', h1, h3, h4, h5, left g0.nodemap R, h2, List.filter_sublist, fun m hm => ?_⟩
  rw [mem_left, inv_only h6 m hm]
  exact ⟨fun h => h.2, fun h => ⟨hm, h⟩⟩

/-- **C79, nothing is cut off.** In the usual case every tensor that a node of the new graph reads, and that the old graph or the branch computes, is still computed, and so is every
output of the graph. -/
theorem C79_closed_partial (g0 : Graph) (n : Node) (br : String → Body) (pre new : String) (h : Usual g0.updateConsumerProducer n (br n.name) pre new) (fuel count : Nat) (g' : Graph)
    (hg : removeIf br (fuel + 2) count g0.updateConsumerProducer = .ok g') :
    (∀ t, Read g'.nodemap t → Produced (g0.nodemap ++ (br n.name).node) t → Produced g'.nodemap t) ∧ ∀ o ∈ g'.output, Produced g0.nodemap o → Produced g'.nodemap o := by
  obtain ⟨g1, R, h1, h2, h3, -, -, c, h6⟩ := removeIf_ok h rfl (updateConsumerProducer_keys g0).2 (updateConsumerProducer_exact g0) fuel count
  rw [h1] at hg
  cases hg
  have hnew : Produced g'.nodemap new := by
    obtain ⟨b0, hb0, hp⟩ := h.computed
    refine ⟨_, by rw [h2]; exact List.mem_append_right _ (List.mem_map.mpr ⟨b0, hb0, rfl⟩), ?_⟩
    exact List.mem_map.mpr ⟨pre, hp, by rw [if_pos rfl]⟩
  have hR : ∀ x, x ∈ R ++ [] ↔ x ∈ R := fun x => by rw [List.append_nil]
  constructor
  · rintro t ⟨k, hk, hkt⟩ ⟨m, hm, hmt⟩
    rcases List.mem_append.mp hm with hm | hm
    · by_cases hin : m.name ∈ R
      · by_cases e : m = n
        · subst e
          rw [h.output, List.mem_singleton] at hmt
          rw [hmt]; exact hnew
        · exfalso
          obtain ⟨o, ho, hs, -, hocc⟩ := h6.dead m hm ((hR _).mpr hin) e
          rw [ho, List.mem_singleton] at hmt
          subst hmt
          rw [h2] at hk
          rcases List.mem_append.mp hk with hk | hk
          · exact occ_nil.mp hocc k hk hkt
          · obtain ⟨k', hk', rfl⟩ := List.mem_map.mp hk
            exact hs (List.mem_flatMap.mpr ⟨k', hk', hkt⟩)
      · exact ⟨m, by rw [h2]; exact List.mem_append_left _ (mem_left.mpr ⟨hm, hin⟩), hmt⟩
    · refine ⟨_, by rw [h2]; exact List.mem_append_right _ (List.mem_map.mpr ⟨m, hm, rfl⟩), ?_⟩
      refine List.mem_map.mpr ⟨t, hmt, if_neg ?_⟩
      rintro rfl
      refine h.unread ?_
      rw [h2] at hk
      rcases List.mem_append.mp hk with hk | hk
      · exact ⟨k, List.mem_append_left _ (mem_left.mp hk).1, hkt⟩
      · obtain ⟨k', hk', rfl⟩ := List.mem_map.mp hk
        exact ⟨k', List.mem_append_right _ hk', hkt⟩
  · rintro o ho ⟨m, hm, hmo⟩
    rw [h3] at ho
    refine ⟨m, ?_, hmo⟩
    rw [h2]
    refine List.mem_append_left _ (mem_left.mpr ⟨hm, fun hin => ?_⟩)
    obtain ⟨k, hk, e, hanc⟩ := h6.names m.name ((hR _).mpr hin)
    have := name_inj h.namesN hk hm e
    subst this
    rcases hanc with rfl | hd
    · rw [h.output, List.mem_singleton] at hmo
      rw [hmo] at ho
      exact h.kept ho
    · obtain ⟨o', ho', hout⟩ := h.single k hk hd
      rw [ho', List.mem_singleton] at hmo
      rw [hmo] at ho
      exact hout ho

/-- **C79, unnamed nodes.** A branch with a node that has no name — names are optional in ONNX — cannot be loaded: the call raises (`KeyError`, unless something raises before). -/
theorem C79_unnamed_raises (br : String → Body) (fuel count : Nat) (g g' : Graph) (A B : List Node) (n : Node) (hsplit : g.nodemap = A ++ n :: B)
    (hnames : (g.nodemap.map (·.name)).Nodup) (hne : ∀ m ∈ g.nodemap, m.name ≠ "") (hA : ∀ m ∈ A, m.op ≠ "If") (hn : n.op = "If") (m : Node) (hm : m ∈ (br n.name).node) (he : m.name = "") :
    removeIf br fuel count g ≠ .ok g' := by
  intro h
  cases fuel with
  | zero => rw [removeIf] at h; cases h
  | succ fuel =>
    rw [removeIf] at h
    have hnm : n ∈ g.nodemap := by rw [hsplit]; simp
    have hp : pass br (g.nodemap.map (·.name)) count g [] = pass br (n.name :: B.map (·.name)) count g [] := by
      have e : g.nodemap.map (·.name) = A.map (·.name) ++ n.name :: B.map (·.name) := by rw [hsplit]; simp
      rw [e]
      refine pass_skip _ _ _ _ _ fun x hx => ?_
      obtain ⟨k, hk, rfl⟩ := List.mem_map.mp hx
      exact ⟨k, findNode_mem hnames (by rw [hsplit]; exact List.mem_append_left _ hk), hA k hk⟩
    rw [hp, pass, findNode_mem hnames hnm] at h
    simp only [if_pos hn] at h
    cases hi : Branch.inline (br n.name) n count g with
    | error e => rw [hi] at h; cases h
    | ok r =>
      unfold Branch.inline at hi
      split at hi
      · cases hi
      · split at hi
        · split at hi
          · cases hi
          · rename_i hr
            obtain ⟨k, hk, hkn⟩ := renameAll_names _ hr m.name (List.mem_map.mpr ⟨m, hm, rfl⟩)
            rw [he] at hkn
            rcases addNodes_mem _ _ _ k hk with hk | ⟨_, _, _, hx⟩
            · exact hne k hk hkn
            · exact hx hkn
        · cases hi

/-! ### a usual case -/

/-- `y = if (x > zero) then x * w else -x;  z = y + u` where `u = exp(x)`, the comparison being computed by `Greater` from `Cast(x)` -/
def ifGraph : Graph :=
  { nodemap := [⟨"exp", "Exp", ["x"], ["u"]⟩, ⟨"cast", "Cast", ["x"], ["xf"]⟩, ⟨"gt", "Greater", ["xf", "zero"], ["c"]⟩, ⟨"if", "If", ["c"], ["y"]⟩, ⟨"add", "Add", ["y", "u"], ["z"]⟩]
    input := ["x"]
    output := ["z"]
    initials := ["zero", "w"] }
def thenBranch : String → Body := fun _ => { node := [⟨"mul", "Mul", ["x", "w"], ["p"]⟩, ⟨"relu", "Relu", ["p"], ["r"]⟩], output := ["r"] }

private theorem ifGraph_step : ∀ a ∈ ifGraph.nodemap, ∀ m ∈ ifGraph.nodemap, Dep a m →
    (a.name = "if" → m.name = "gt") ∧ (a.name = "gt" → m.name = "cast") ∧ (a.name = "cast" → False) ∧ (a.name = "exp" → False) := by decide

private theorem ifGraph_anc : ∀ a b, DepPath ifGraph.nodemap a b → a ∈ ifGraph.nodemap →
    ((a.name = "if" → b.name = "gt" ∨ b.name = "cast") ∧ (a.name = "gt" → b.name = "cast") ∧ (a.name = "cast" → False) ∧ (a.name = "exp" → False)) ∧ b ∈ ifGraph.nodemap := by
  intro a b h
  induction h with
  | @step a m hm hd =>
    intro ha
    have key := ifGraph_step a ha m hm hd
    exact ⟨⟨fun e => .inl (key.1 e), key.2⟩, hm⟩
  | @trans a m k hm hd _ ih =>
    intro ha
    obtain ⟨h1, h2⟩ := ih hm
    refine ⟨?_, h2⟩
    have key : (a.name = "if" → m.name = "gt") ∧ (a.name = "gt" → m.name = "cast") ∧ (a.name = "cast" → False) ∧ (a.name = "exp" → False) := ifGraph_step a ha m hm hd
    refine ⟨fun e => .inr (h1.2.1 (key.1 e)), fun e => absurd (h1.2.2.1 (key.2.1 e)) id, key.2.2.1, key.2.2.2⟩

theorem ifGraph_usual : Usual ifGraph.updateConsumerProducer ⟨"if", "If", ["c"], ["y"]⟩ (thenBranch "if") "r" "y" where
  names := by decide
  named := by decide
  once := by decide
  node := by decide
  isIf := rfl
  only := by decide
  flat := by decide
  output := rfl
  result := rfl
  computed := by decide
  unread := by decide
  acyclic h := by
    have := ((ifGraph_anc _ _ h (by decide)).1.1 rfl)
    revert this; decide
  single m hm h := by
    have h1 := ((ifGraph_anc _ _ h (by decide)).1.1 rfl)
    have key : ∀ m ∈ ifGraph.nodemap, m.name = "gt" ∨ m.name = "cast" → ∃ o ∈ ["c", "xf"], m.output = [o] ∧ o ∉ ifGraph.output := by decide
    obtain ⟨o, -, ho⟩ := key m hm h1
    exact ⟨o, ho⟩
  kept := by decide

example : (removeIf thenBranch 2 5 ifGraph.updateConsumerProducer).toOption.map (fun g => (g.nodemap, g.output)) =
    some ([⟨"exp", "Exp", ["x"], ["u"]⟩, ⟨"add", "Add", ["y", "u"], ["z"]⟩, ⟨"mul", "Mul", ["x", "w"], ["p"]⟩, ⟨"relu", "Relu", ["p"], ["y"]⟩], ["z"]) := by decide
/-- values that satisfy the graph: `x = 3` -/
example : ∀ n ∈ ifGraph.nodemap, Holds (V := Int) (fun name vs _ => match name, vs with
    | "exp", [a] => a + 100 | "cast", [a] => a | "gt", [a, b] => if a > b then 1 else 0 | "add", [a, b] => a + b | "mul", [a, b] => a * b | "relu", [a] => if a > 0 then a else 0 | _, _ => 0)
    thenBranch (fun t => match t with | "x" => 3 | "xf" => 3 | "w" => 2 | "zero" => 0 | "c" => 1 | "u" => 103 | "p" => 6 | "r" => 6 | "y" => 6 | "z" => 109 | _ => 0) n := by
  have plain : ∀ n : Node, n.op ≠ "If" → ∀ o, n.output = [o] → ∀ f env, env o = f n.name (n.input.map env) 0 → Holds (V := Int) f thenBranch env n := by
    intro n hop o ho f env h
    refine .plain hop fun i o' hi _ => ?_
    rw [ho] at hi
    cases i with
    | zero => cases hi; exact h
    | succ i => cases hi
  intro n hn
  simp only [ifGraph, List.mem_cons, List.not_mem_nil, or_false] at hn
  rcases hn with rfl | rfl | rfl | rfl | rfl
  · exact plain _ (by decide) _ rfl _ _ (by decide)
  · exact plain _ (by decide) _ rfl _ _ (by decide)
  · exact plain _ (by decide) _ rfl _ _ (by decide)
  · refine .cond rfl ?_ ?_
    · intro m hm
      simp only [thenBranch, List.mem_cons, List.not_mem_nil, or_false] at hm
      rcases hm with rfl | rfl
      · exact plain _ (by decide) _ rfl _ _ (by decide)
      · exact plain _ (by decide) _ rfl _ _ (by decide)
    · intro i o b h1 h2 _
      cases i with
      | zero => cases h1; cases h2; decide
      | succ i => cases h1
  · exact plain _ (by decide) _ rfl _ _ (by decide)

/-! ### findings: what goes wrong otherwise -/

/-- **C79 finding: other outputs of the producer.** `Split` computes the condition and a tensor that `add` reads; it is removed with the condition, and `add` reads a tensor that nothing
computes. -/
theorem C79_other_output_lost :
    (removeIf thenBranch 2 3 ({ nodemap := [⟨"split", "Split", ["x"], ["c", "u"]⟩, ⟨"if", "If", ["c"], ["y"]⟩, ⟨"add", "Add", ["y", "u"], ["z"]⟩], input := ["x"], output := ["z"] } : Graph).updateConsumerProducer).toOption.map
      (fun g => (g.nodemap.map (·.name), decide (Read g.nodemap "u"), decide (Produced g.nodemap "u"))) = some (["add", "mul", "relu"], true, false) := by decide

/-- **C79 finding: graph outputs.** If the `If` computes an output of the graph, the graph loses that output. -/
theorem C79_graph_output_lost :
    (removeIf thenBranch 2 1 ({ nodemap := [⟨"if", "If", ["c"], ["y"]⟩], input := ["c", "x"], output := ["y"] } : Graph).updateConsumerProducer).toOption.map
      (fun g => (g.nodemap.map (·.output), g.output)) = some ([["p"], ["y"]], []) := by decide

/-- **C79 finding: a condition computed by an `If`.** Loading raises `ValueError`. -/
theorem C79_chained_ifs_raise :
    removeIf (fun x => if x = "if1" then ⟨[⟨"n1", "Not", ["c"], ["d"]⟩], ["d"], []⟩ else ⟨[⟨"n2", "Relu", ["x"], ["r"]⟩], ["r"], []⟩) 3 2
      ({ nodemap := [⟨"if1", "If", ["c"], ["e"]⟩, ⟨"if2", "If", ["e"], ["y"]⟩, ⟨"add", "Add", ["y", "x"], ["z"]⟩], input := ["c", "x"], output := ["z"] } : Graph).updateConsumerProducer =
      .error .valueError := rfl

/-- **C79 finding: a tensor used by the condition of one `If` and inside the branch of another.** Its producer is removed; the branch reads a tensor that nothing computes. -/
theorem C79_captured_elsewhere_lost :
    (removeIf (fun x => if x = "if1" then ⟨[⟨"n1", "Relu", ["x"], ["r1"]⟩], ["r1"], []⟩ else ⟨[⟨"n2", "Mul", ["x", "c"], ["r2"]⟩], ["r2"], []⟩) 3 4
      ({ nodemap := [⟨"gt", "Greater", ["x", "k"], ["c"]⟩, ⟨"if1", "If", ["c"], ["y"]⟩, ⟨"if2", "If", ["b"], ["w"]⟩, ⟨"add", "Add", ["y", "w"], ["z"]⟩], input := ["x", "b"], output := ["z"], initials := ["k"] } :
        Graph).updateConsumerProducer).toOption.map (fun g => (g.nodemap.map (·.name), decide (Read g.nodemap "c"), decide (Produced g.nodemap "c"))) =
      some (["add", "n1", "n2"], true, false) := by decide

/-- **C79 finding: initializers of the branch.** They are not taken over: the new node reads a tensor that is neither computed nor an initializer nor an input. -/
theorem C79_branch_initializer_lost :
    (removeIf (fun _ => ⟨[⟨"mul", "Mul", ["x", "scale"], ["r"]⟩], ["r"], ["scale"]⟩) 2 1
      ({ nodemap := [⟨"if", "If", ["c"], ["y"]⟩, ⟨"add", "Add", ["y", "x"], ["z"]⟩], input := ["c", "x"], output := ["z"] } : Graph).updateConsumerProducer).toOption.map
      (fun g => (decide (Read g.nodemap "scale"), decide (Produced g.nodemap "scale"), g.initials, g.input)) = some (true, false, [], ["c", "x"]) := by decide

/-- **C79 finding: a result that the branch also reads.** The result is renamed where it is computed, not where it is read. -/
theorem C79_result_read_inside_lost :
    (removeIf (fun _ => ⟨[⟨"mul", "Mul", ["x", "x"], ["r"]⟩, ⟨"print", "Identity", ["r"], ["copy"]⟩], ["r"], []⟩) 2 1
      ({ nodemap := [⟨"if", "If", ["c"], ["y"]⟩, ⟨"add", "Add", ["y", "x"], ["z"]⟩], input := ["c", "x"], output := ["z"] } : Graph).updateConsumerProducer).toOption.map
      (fun g => (decide (Read g.nodemap "r"), decide (Produced g.nodemap "r"))) = some (true, false) := by decide

/-- **C79 finding: a branch that passes on an outer tensor**, and **a second output**: nothing computes the output of the `If` any more. -/
theorem C79_pass_through_lost :
    (removeIf (fun _ => ⟨[], ["x"], []⟩) 2 1
      ({ nodemap := [⟨"if", "If", ["c"], ["y"]⟩, ⟨"add", "Add", ["y", "x"], ["z"]⟩], input := ["c", "x"], output := ["z"] } : Graph).updateConsumerProducer).toOption.map
      (fun g => (decide (Read g.nodemap "y"), decide (Produced g.nodemap "y"))) = some (true, false) ∧
    (removeIf (fun _ => ⟨[⟨"a", "Relu", ["x"], ["r"]⟩, ⟨"b", "Exp", ["x"], ["s"]⟩], ["r", "s"], []⟩) 2 1
      ({ nodemap := [⟨"if", "If", ["c"], ["y", "y2"]⟩, ⟨"add", "Add", ["y", "y2"], ["z"]⟩], input := ["c", "x"], output := ["z"] } : Graph).updateConsumerProducer).toOption.map
      (fun g => (decide (Read g.nodemap "y2"), decide (Produced g.nodemap "y2"))) = some (true, false) := by decide

end OnnxTool.Props
