import Verif.Proofs.PatternMake
import Verif.Props.Subgraph
/-!
# C88: fusing a region given by its tensors

`fuse_subgraph_iotensors(inputs, outputs, op)` takes the nodes between two sets of tensors, describes them as a pattern
(`create_descs_from_nodenames`), searches the graph for that pattern and fuses every match.  Proved: the pattern describes the region exactly;
the search, when it returns, finds a connected region from which it was made if no reader can be taken for another; and if no other node has
the operator of the region's first node, the call fuses exactly that region.

Not guaranteed, with counterexamples below: the region is not found when it is not connected or when a reader has a twin; overlapping matches,
candidates that read a graph input, and an empty region raise.
-/
namespace OnnxTool.Props
open OnnxTool Pattern Subgraph

/-- C88: the pattern made from nodes has one position per node, in order, that carries the node's name and operator and exactly the tensors the
node exchanges with the others. -/
theorem C88_descs (g : Graph) (names : List String) (h : Region g names) :
    ∃ ds, createDescs g names = .ok ds ∧ ds.length = names.length ∧
      ∀ (i : Nat) (d : Desc), ds[i]? = some d → ∃ n ∈ g.nodemap, names[i]? = some n.name ∧ Describes g names n d :=
  createDescs_ok h

/-- C88: a name that no node has raises `KeyError`. -/
theorem C88_unknown_name (g : Graph) (names : List String) (h : ∃ x ∈ names, ∀ n ∈ g.nodemap, n.name ≠ x) :
    createDescs g names = .error .keyError := by
  have main : ∀ (names : List String) (s : List Desc × Dict String), (∃ x ∈ names, ∀ n ∈ g.nodemap, n.name ≠ x) →
      startDescs g names s = .error .keyError := by
    intro names
    induction names with
    | nil => rintro _ ⟨x, hx, _⟩; cases hx
    | cons y names ih =>
      rintro ⟨ds, prod⟩ ⟨x, hx, hno⟩
      unfold startDescs
      cases hf : findNode g.nodemap y with
      | none => rfl
      | some nd =>
        rcases List.mem_cons.mp hx with rfl | hx
        · have h1 := findNode_mem hf
          obtain ⟨m, hm, he⟩ := List.mem_map.mp h1.1
          exact absurd he (hno m hm)
        · exact ih _ ⟨x, hx, hno⟩
  unfold createDescs
  rw [main names _ h]

theorem made_of {g : Graph} {names : List String} {ds : List Desc} {attrs : String → Dict AttrV} (hr : Region g names) (hix : g.IndexExact)
    (ht : NoTwin g names) (hany : ∀ n ∈ g.nodemap, n.name ∈ names → n.op ≠ "Any") (hc : createDescs g names = .ok ds) :
    Made ⟨g, attrs⟩ ⟨ds, false⟩ names ∧ ds.map (·.name) = names := by
  obtain ⟨ds', h1, h2, h3⟩ := createDescs_ok hr
  rw [hc] at h1; cases h1
  have hn : ds.map (·.name) = names := by
    apply List.ext_getElem?
    intro i
    by_cases hi : i < ds.length
    · obtain ⟨n, _, e1, e2⟩ := h3 i _ (List.getElem?_eq_getElem hi)
      rw [e1]; simp [hi, e2.name]
    · simp [List.getElem?_eq_none (show ds.length ≤ i by omega), List.getElem?_eq_none (show names.length ≤ i by omega)]
  refine ⟨⟨hr, hix, ht, hany, rfl, fun n hn1 hn2 => ?_⟩, hn⟩
  have hd : (ds.map (·.name)).Nodup := by rw [hn]; exact hr.distinct
  rw [← hn] at hn2
  obtain ⟨d, hd1, hd2⟩ := List.mem_map.mp hn2
  obtain ⟨i, hi⟩ := List.mem_iff_getElem?.mp hd1
  obtain ⟨m, m1, m2, m3⟩ := h3 i d hi
  have hmn : m = n := List.inj_on_of_nodup_map hr.keys m1 hn1 (by rw [← m3.name, hd2])
  subst hmn
  refine ⟨d, ?_, m3⟩
  have hsome : (⟨ds, false⟩ : Pat).desc? m.name ≠ none := by
    unfold Pat.desc?
    rw [Ne, List.find?_eq_none]
    intro hc
    exact hc d hd1 (by simp [hd2])
  cases hf : (⟨ds, false⟩ : Pat).desc? m.name with
  | none => exact absurd hf hsome
  | some d' =>
    have : d' = d := List.inj_on_of_nodup_map hd (List.mem_of_find?_eq_some hf) hd1 (by rw [desc_name hf, hd2])
    rw [this]

/-- what the search reports when it starts at the first node of the region -/
theorem first_found {g : Graph} {names : List String} {ds : List Desc} {attrs : String → Dict AttrV} (hr : Region g names) (hix : g.IndexExact)
    (ht : NoTwin g names) (hany : ∀ n ∈ g.nodemap, n.name ∈ names → n.op ≠ "Any") (hc : createDescs g names = .ok ds)
    {a : Node} (ha : a ∈ g.nodemap) (h0 : names[0]? = some a.name) (hconn : Connected g names a.name) :
    ∃ d rest path s, ds = d :: rest ∧ d.name = a.name ∧ (∀ m, d.isNode attrs m = .ok (m.op == a.op)) ∧
      searchNode ⟨g, attrs⟩ ⟨ds, false⟩ (g.nodemap.length + 1) a.name a.name [] = .ok (some path, s) ∧
      fillPath (ds.map (·.name)) path = names := by
  obtain ⟨hm, hn⟩ := made_of (attrs := attrs) hr hix ht hany hc
  have han : a.name ∈ names := List.mem_of_getElem? h0
  have hlen : names.length ≤ g.nodemap.length := by
    have := (hr.distinct.subperm (l₂ := g.nodemap.map (·.name)) fun x hx => by
      obtain ⟨n, h1, h2⟩ := hr.exist x hx; exact List.mem_map.mpr ⟨n, h1, h2⟩).length_le
    simpa using this
  obtain ⟨path, s, p1, p2, p3⟩ := search_region hm ha han hconn (g.nodemap.length + 1) (by omega)
  have hpre : Pre ⟨g, attrs⟩ ⟨ds, false⟩ (g.nodemap.length + 1) a.name a.name [] := by
    obtain ⟨d, d1, d2⟩ := hm.descs a ha han
    refine ⟨by simp, by simp, by simp, by simp [Ctx.names], d, a, d1, findNode_self hr.keys ha, ?_⟩
    exact (isNode_iff (isNode_described (c := ⟨g, attrs⟩) d2 (hany a ha han) a)).mp (by simp)
  have hg := ((searchNode_ok ⟨g, attrs⟩ ⟨ds, false⟩ (g.nodemap.length + 1) a.name a.name [] hpre).2 _ _ p1).genuine path rfl
  obtain ⟨ds', c1, c2, c3⟩ := createDescs_ok hr
  rw [hc] at c1; cases c1
  cases hds : ds with
  | nil => rw [hds] at c2; simp at c2; rw [List.eq_nil_of_length_eq_zero c2.symm] at h0; cases h0
  | cons d rest =>
    obtain ⟨m, m1, m2, m3⟩ := c3 0 d (by rw [hds]; rfl)
    rw [h0] at m2
    have : a = m := List.inj_on_of_nodup_map hr.keys ha m1 (by simpa using m2)
    subst this
    refine ⟨d, rest, path, s, rfl, m3.name, fun m => isNode_described (c := ⟨g, attrs⟩) m3 (hany a ha han) m, hds ▸ p1, ?_⟩
    rw [← hds, hn]
    refine fill_same names path p2 (fun x hx => ?_) hr.distinct p3
    obtain ⟨d', n', e1, _⟩ := hg.conditions x hx
    rw [← hn]; exact mem_of_desc e1

/-- C88: the pattern made from a connected region in which no reader has a twin matches that region: if the search over the graph returns,
the region is among the matches. -/
theorem C88_found (g : Graph) (names : List String) (attrs : String → Dict AttrV) (hr : Region g names) (hix : g.IndexExact)
    (ht : NoTwin g names) (hany : ∀ n ∈ g.nodemap, n.name ∈ names → n.op ≠ "Any") (ds : List Desc) (hc : createDescs g names = .ok ds)
    (a : Node) (ha : a ∈ g.nodemap) (h0 : names[0]? = some a.name) (hconn : Connected g names a.name)
    (ms : List (List String)) (hs : searchPattern ⟨g, attrs⟩ ⟨ds, false⟩ = .ok ms) : names ∈ ms := by
  obtain ⟨d, rest, path, s, e1, e2, e3, e4, e5⟩ := first_found (attrs := attrs) hr hix ht hany hc ha h0 hconn
  subst e1
  unfold searchPattern at hs
  simp only at hs
  have main : ∀ (ns : List Node) (ms : List (List String)), a ∈ ns →
      searchAll ⟨g, attrs⟩ ⟨d :: rest, false⟩ d (g.nodemap.length + 1) ns = .ok ms → names ∈ ms := by
    intro ns
    induction ns with
    | nil => intro _ h; cases h
    | cons n ns ih =>
      intro ms hmem h
      unfold searchAll at h
      rw [e3] at h
      cases ho : n.op == a.op with
      | false =>
        rw [ho] at h
        simp only at h
        rcases List.mem_cons.mp hmem with rfl | hmem
        · simp at ho
        · exact ih ms hmem h
      | true =>
        rw [ho] at h
        simp only at h
        rcases List.mem_cons.mp hmem with rfl | hmem
        · rw [e2, e4] at h
          simp only at h
          split at h
          · cases h
          · cases h
            rw [e5]; simp
        · split at h
          · cases h
          · exact ih ms hmem h
          · split at h
            · cases h
            · rename_i ms' hms'
              cases h
              exact List.mem_cons_of_mem _ (ih ms' hmem hms')
  exact main g.nodemap ms ha hs

/-- C88: if moreover no other node has the operator of the region's first node, the search returns exactly the region. -/
theorem C88_only (g : Graph) (names : List String) (attrs : String → Dict AttrV) (hr : Region g names) (hix : g.IndexExact)
    (ht : NoTwin g names) (hany : ∀ n ∈ g.nodemap, n.name ∈ names → n.op ≠ "Any") (ds : List Desc) (hc : createDescs g names = .ok ds)
    (a : Node) (ha : a ∈ g.nodemap) (h0 : names[0]? = some a.name) (hconn : Connected g names a.name)
    (huniq : ∀ n ∈ g.nodemap, n.op = a.op → n = a) : searchPattern ⟨g, attrs⟩ ⟨ds, false⟩ = .ok [names] := by
  obtain ⟨d, rest, path, s, e1, e2, e3, e4, e5⟩ := first_found (attrs := attrs) hr hix ht hany hc ha h0 hconn
  subst e1
  unfold searchPattern
  simp only
  have main : ∀ ns : List Node, (∀ x ∈ ns, x ∈ g.nodemap) → ns.Nodup →
      searchAll ⟨g, attrs⟩ ⟨d :: rest, false⟩ d (g.nodemap.length + 1) ns = .ok (if a ∈ ns then [names] else []) := by
    intro ns
    induction ns with
    | nil => intro _ _; simp [searchAll]
    | cons n ns ih =>
      intro hsub hnd
      obtain ⟨hnd1, hnd2⟩ := List.nodup_cons.mp hnd
      have ih := ih (fun x hx => hsub x (by simp [hx])) hnd2
      unfold searchAll
      rw [e3]
      cases ho : n.op == a.op with
      | false =>
        have : a ≠ n := fun h => by subst h; simp at ho
        simp only [ih, List.mem_cons, this, false_or]
      | true =>
        have : n = a := huniq n (hsub n (by simp)) (by simpa using ho)
        subst this
        rw [if_neg hnd1] at ih
        simp only [e2, e4, ih, e5, List.mem_cons, true_or, if_true]
  have := main g.nodemap (fun _ h => h) (List.Nodup.of_map _ hr.keys)
  rw [if_pos ha] at this
  exact this

private theorem fuseMatches_chain (op : String) (pre : Option String) : ∀ (ms : List (List String)) (i : Nat) (g g' : Graph), fuseMatches op pre i ms g = .ok g' →
    ∃ gs : List Graph, gs.length = ms.length + 1 ∧ gs[0]? = some g ∧ gs[ms.length]? = some g' ∧
      ∀ (k : Nat) m a b, ms[k]? = some m → gs[k]? = some a → gs[k + 1]? = some b →
        ∃ name, fuseNodes a m op name = .ok b ∧ (∀ s, pre = some s → name = s ++ "_" ++ toString (i + k)) ∧ (pre = none → m[0]? = some name)
  | [], i, g, g', h => by
    cases h
    exact ⟨[g], rfl, rfl, rfl, fun k m a b hm => by simp at hm⟩
  | m :: ms, i, g, g', h => by
    have step : ∃ name b, fuseNodes g m op name = .ok b ∧ fuseMatches op pre (i + 1) ms b = .ok g' ∧ (∀ s, pre = some s → name = s ++ "_" ++ toString i) ∧
        (pre = none → m[0]? = some name) := by
      cases pre with
      | none =>
        cases m with
        | nil => cases h
        | cons n m =>
          unfold fuseMatches at h
          simp only at h
          cases hf : fuseNodes g (n :: m) op n with
          | error e => rw [hf] at h; cases h
          | ok b => rw [hf] at h; exact ⟨n, b, hf, h, nofun, fun _ => rfl⟩
      | some s =>
        unfold fuseMatches at h
        simp only at h
        cases hf : fuseNodes g m op (s ++ "_" ++ toString i) with
        | error e => rw [hf] at h; cases h
        | ok b => rw [hf] at h; exact ⟨_, b, hf, h, fun t ht => by cases ht; rfl, nofun⟩
    obtain ⟨name, b, h1, h2, h3, h4⟩ := step
    obtain ⟨gs, g1, g2, g3, g4⟩ := fuseMatches_chain op pre ms (i + 1) b g' h2
    refine ⟨g :: gs, by simp [g1], rfl, g3, fun k m' a c hm ha hc => ?_⟩
    cases k with
    | zero =>
      simp only [List.getElem?_cons_zero, Option.some.injEq, Nat.zero_add, List.getElem?_cons_succ] at hm ha hc
      subst hm; subst ha
      rw [g2] at hc
      cases hc
      exact ⟨name, h1, h3, h4⟩
    | succ k =>
      simp only [List.getElem?_cons_succ] at hm ha hc
      have := g4 k m' a c hm ha hc
      rwa [show i + 1 + k = i + (k + 1) by omega] at this

/-- C88: a successful call fuses the matches of the region's pattern one after the other: the `k`-th (from 0) under the name of its first node, or under the given
prefix followed by `_k` — so never two under the same name. -/
theorem C88_every_match (g g' : Graph) (inputs outputs : List String) (op : String) (pre : Option String) (h : fuseByIO g inputs outputs op pre = .ok g') :
    ∃ l0 names l2 ds ms, subnodesByIO g inputs outputs = .ok (l0, names, l2) ∧ createDescs g names = .ok ds ∧
      searchPattern ⟨g, fun _ => []⟩ ⟨ds, false⟩ = .ok ms ∧
      ∃ gs : List Graph, gs.length = ms.length + 1 ∧ gs[0]? = some g ∧ gs[ms.length]? = some g' ∧
        ∀ (k : Nat) m a b, ms[k]? = some m → gs[k]? = some a → gs[k + 1]? = some b →
          ∃ name, fuseNodes a m op name = .ok b ∧ (∀ s, pre = some s → name = s ++ "_" ++ toString k) ∧ (pre = none → m[0]? = some name) := by
  unfold fuseByIO at h
  split at h
  · cases h
  · rename_i l0 names l2 hs
    split at h
    · cases h
    · rename_i ds hd
      split at h
      · cases h
      · rename_i ms hm
        refine ⟨l0, names, l2, ds, ms, hs, hd, hm, ?_⟩
        have := fuseMatches_chain op pre ms 0 g g' h
        simpa only [Nat.zero_add] using this

/-- two equal regions are both fused -/
example :
    let g := Graph.updateTensorRelations
      { nodemap := [⟨"e0", "Exp", ["x"], ["p"]⟩, ⟨"n0", "Neg", ["p"], ["q"]⟩, ⟨"s", "Sin", ["q"], ["r"]⟩, ⟨"e1", "Exp", ["r"], ["t"]⟩, ⟨"n1", "Neg", ["t"], ["o"]⟩],
        input := ["x"], output := ["o"] }
    (fuseByIO g ["x"] ["q"] "Fused" (some "f")).toOption.map (fun g => g.nodemap.map (·.name)) = some ["s", "f_0", "f_1"] := by decide

/-- C88 (partial): fusing the nodes between two sets of tensors, when they form a connected region without twins whose first node has an operator
of its own, replaces exactly this region: the call does what fusing the list of its nodes does (C14 says what that is), under the name of the
first node or the given prefix followed by `_0`.

Partial: the full property drops the conditions; the counterexamples below disprove it. -/
theorem C88_fuse_partial (g : Graph) (inputs outputs l0 names l2 : List String) (op : String) (hsel : subnodesByIO g inputs outputs = .ok (l0, names, l2))
    (hr : Region g names) (hix : g.IndexExact) (ht : NoTwin g names) (hany : ∀ n ∈ g.nodemap, n.name ∈ names → n.op ≠ "Any")
    (a : Node) (ha : a ∈ g.nodemap) (h0 : names[0]? = some a.name) (hconn : Connected g names a.name)
    (huniq : ∀ n ∈ g.nodemap, n.op = a.op → n = a) :
    fuseByIO g inputs outputs op none = fuseNodes g names op a.name ∧
    ∀ pre, fuseByIO g inputs outputs op (some pre) = fuseNodes g names op (pre ++ "_0") := by
  obtain ⟨ds, hc, _⟩ := createDescs_ok hr
  have hs := C88_only g names (fun _ => []) hr hix ht hany ds hc a ha h0 hconn huniq
  constructor
  · unfold fuseByIO
    simp only [hsel, hc, hs]
    cases names with
    | nil => cases h0
    | cons x xs =>
      simp only [List.getElem?_cons_zero, Option.some.injEq] at h0
      subst h0
      unfold fuseMatches
      cases hf : fuseNodes g (a.name :: xs) op a.name with
      | error e => simp only [hf]
      | ok g' => simp only [hf, fuseMatches]
  · intro pre
    unfold fuseByIO
    simp only [hsel, hc, hs]
    unfold fuseMatches
    have : pre ++ "_" ++ toString 0 = pre ++ "_0" := by rw [String.append_assoc]; rfl
    simp only [this]
    cases hf : fuseNodes g names op (pre ++ "_0") with
    | error e => simp only
    | ok g' => simp only [fuseMatches]

/-! ## The hypotheses are met, and examples -/

/-- Exp feeds Mul and Neg, Neg feeds Mul: a region with a side branch, followed by a Relu -/
def branchGraph : Graph := Graph.updateTensorRelations
  { nodemap := [⟨"e", "Exp", ["x"], ["p"]⟩, ⟨"n", "Neg", ["p"], ["q"]⟩, ⟨"m", "Mul", ["p", "q"], ["r"]⟩, ⟨"z", "Relu", ["r"], ["o"]⟩], input := ["x"], output := ["o"] }

example : subnodesByIO branchGraph ["x"] ["r"] = .ok ([], ["e", "n", "m"], ["z"]) := rfl
theorem branch_region : Region branchGraph ["e", "n", "m"] := ⟨by decide, by decide, by decide, by decide⟩
example : branchGraph.IndexExact := updateConsumerProducer_exact _
set_option synthInstance.maxHeartbeats 200000 in
set_option synthInstance.maxSize 1000 in
theorem branch_noTwin : NoTwin branchGraph ["e", "n", "m"] := by
  have key : ∀ p ∈ branchGraph.nodemap, p.name ∈ ["e", "n", "m"] → ∀ t ∈ p.output, ∀ c ∈ branchGraph.nodemap, c.name ∈ ["e", "n", "m"] →
      ∀ j ∈ [0, 1], c.input[j]? = some t → ∀ n ∈ branchGraph.nodemap, n.input[j]? = some t → n.op = c.op → n = c := by decide
  intro p hp hpn t ht c hc hcn j hj
  refine key p hp hpn t ht c hc hcn j ?_ hj
  rw [show ([0, 1] : List Nat) = List.range 2 from rfl, List.mem_range]
  have hl : ∀ c ∈ branchGraph.nodemap, c.input.length ≤ 2 := by decide
  have := (List.getElem?_eq_some_iff.mp hj).1
  have := hl c hc
  omega
theorem branch_connected : Connected branchGraph ["e", "n", "m"] "e" := by
  intro n hn hnn
  refine ⟨⟨"e", "Exp", ["x"], ["p"]⟩, by decide, rfl, ?_⟩
  have : n = ⟨"e", "Exp", ["x"], ["p"]⟩ ∨ n = ⟨"n", "Neg", ["p"], ["q"]⟩ ∨ n = ⟨"m", "Mul", ["p", "q"], ["r"]⟩ := by revert hnn; revert n; decide
  rcases this with rfl | rfl | rfl
  · exact .refl
  · exact .single ⟨.inl ⟨"p", by decide, by decide⟩, by decide, by decide⟩
  · exact .single ⟨.inl ⟨"p", by decide, by decide⟩, by decide, by decide⟩
example : (fuseByIO branchGraph ["x"] ["r"] "Fused" none).toOption.map (·.nodemap) =
    some [⟨"z", "Relu", ["r"], ["o"]⟩, ⟨"e", "Fused", ["x"], ["r"]⟩] := by decide
example : ∀ n ∈ branchGraph.nodemap, n.op = "Exp" → n = ⟨"e", "Exp", ["x"], ["p"]⟩ := by decide

/-- Finding: two chains Relu → Relu overlap; the second match names a node that the first fusion removed, and the call raises `KeyError`. -/
theorem C88_overlap_raises :
    let g := Graph.updateTensorRelations
      { nodemap := [⟨"r0", "Relu", ["x"], ["p"]⟩, ⟨"r1", "Relu", ["p"], ["q"]⟩, ⟨"r2", "Relu", ["q"], ["o"]⟩], input := ["x"], output := ["o"] }
    subnodesByIO g ["x"] ["q"] = .ok ([], ["r0", "r1"], ["r2"]) ∧ fuseByIO g ["x"] ["q"] "Fused" none = .error .keyError := ⟨rfl, rfl⟩

/-- Finding: a region that is not connected is never found whole: each half of the match is the placeholder `'a'`, and fusing it raises
`KeyError`. -/
theorem C88_disconnected_raises :
    let g := Graph.updateTensorRelations
      { nodemap := [⟨"e", "Exp", ["x"], ["p"]⟩, ⟨"n", "Neg", ["y"], ["q"]⟩, ⟨"m", "Mul", ["p", "q"], ["o"]⟩], input := ["x", "y"], output := ["o"] }
    subnodesByIO g ["x", "y"] ["p", "q"] = .ok ([], ["e", "n"], ["m"]) ∧
    (createDescs g ["e", "n"]).toOption.bind (fun ds => (searchPattern ⟨g, fun _ => []⟩ ⟨ds, false⟩).toOption) = some [["e", "a"]] ∧
    fuseByIO g ["x", "y"] ["p", "q"] "Fused" none = .error .keyError := ⟨rfl, rfl, rfl⟩

/-- Finding: with a twin (two Neg nodes read the tensor) the nodes between the given tensors are not the nodes that are fused: the search takes
the first Neg of the graph. -/
theorem C88_twin_taken :
    let g := Graph.updateTensorRelations
      { nodemap := [⟨"e", "Exp", ["x"], ["p"]⟩, ⟨"n0", "Neg", ["p"], ["q"]⟩, ⟨"n1", "Neg", ["p"], ["r"]⟩], input := ["x"], output := ["q", "r"] }
    (createDescs g ["e", "n1"]).toOption.bind (fun ds => (searchPattern ⟨g, fun _ => []⟩ ⟨ds, false⟩).toOption) = some [["e", "n0"]] := rfl

/-- Finding: the search raises `KeyError` when a candidate reads a graph input where the pattern has a tensor of the region: here the second
Neg, which reads `y`. -/
theorem C88_graph_input_raises :
    let g := Graph.updateTensorRelations
      { nodemap := [⟨"n0", "Neg", ["p"], ["o"]⟩, ⟨"e", "Exp", ["x"], ["p"]⟩, ⟨"n1", "Neg", ["y"], ["o1"]⟩], input := ["x", "y"], output := ["o", "o1"] }
    (createDescs g ["n0", "e"]).toOption.map (fun ds => searchPattern ⟨g, fun _ => []⟩ ⟨ds, false⟩) = some (.error .keyError) := rfl

/-- Finding: no node between the given tensors: `nodedescs[0]` raises `IndexError`. -/
theorem C88_empty_raises :
    fuseByIO branchGraph ["x"] ["x"] "Fused" none = .error .indexError := rfl

end OnnxTool.Props
