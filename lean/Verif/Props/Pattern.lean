import Verif.Proofs.Pattern
import Verif.Proofs.Relations
import Verif.Spec.Graph
/-!
# C38: what a pattern search reports

The search is a backtracking walk over producers and consumers.  Proved for every graph and every pattern with distinct position names: the
walk ends (it never exhausts the recursion budget of one level per node), and each reported match presents a set of (position, node) pairs in
which every node meets the operator and attribute conditions of its position, no node is used twice, and every pair is tied to the first
position's node by tensors that match the pattern's ports.  For the shipped pattern `ConvBN` the report is characterised exactly.

Not guaranteed, with counterexamples below: that all positions are filled; that an existing match is found.
-/
namespace OnnxTool.Props
open OnnxTool Pattern

/-- C38: the search ends on every graph, with any attribute table and pattern: the recursion is never deeper than the number of nodes. -/
theorem C38_terminates (c : Ctx) (p : Pat) (hd : (p.descs.map (·.name)).Nodup) (hn : (c.g.nodemap.map (·.name)).Nodup) :
    searchPattern c p ≠ .error .recursion := by
  unfold searchPattern
  cases hp : p.descs with
  | nil => simp
  | cons first rest => exact (searchAll_ok c p first rest hp hd hn _ (fun x hx => hx)).1

/-- C38: every reported match presents a genuine set of (position, node) pairs, grown from a node of the graph at the first position. -/
theorem C38_matches_genuine (c : Ctx) (p : Pat) (first : Desc) (rest : List Desc) (hp : p.descs = first :: rest)
    (hd : (p.descs.map (·.name)).Nodup) (hn : (c.g.nodemap.map (·.name)).Nodup) (ms : List (List String)) (h : searchPattern c p = .ok ms)
    (m : List String) (hm : m ∈ ms) :
    ∃ n path, n ∈ c.g.nodemap ∧ Genuine c p (first.name, n.name) path ∧ Presents p path m := by
  unfold searchPattern at h
  rw [hp] at h
  exact (searchAll_ok c p first rest hp hd hn _ (fun x hx => hx)).2 ms h m hm

/-- C38, entry by entry: an entry that is not the placeholder is a node of the graph that meets the conditions of its position. -/
theorem C38_entry_conditions (c : Ctx) (p : Pat) (hd : (p.descs.map (·.name)).Nodup) (hn : (c.g.nodemap.map (·.name)).Nodup)
    (ms : List (List String)) (h : searchPattern c p = .ok ms) (m : List String) (hm : m ∈ ms) :
    m.length = p.descs.length ∧ ∀ (i : Nat) (d : Desc) (s : String), p.descs[i]? = some d → m[i]? = some s → s ≠ "a" →
      ∃ nd ∈ c.g.nodemap, nd.name = s ∧ d.Holds c.attrs nd := by
  cases hp : p.descs with
  | nil => unfold searchPattern at h; rw [hp] at h; cases h
  | cons first rest =>
    obtain ⟨n, path, _, hg, hpr⟩ := C38_matches_genuine c p first rest hp hd hn ms h m hm
    rw [← hp]
    refine ⟨hpr.length, fun i d s h1 h2 h3 => ?_⟩
    rcases hpr.entries i d s h1 h2 with h4 | ⟨h4, _⟩
    · obtain ⟨d', nd, e1, e2, e3⟩ := hg.conditions _ h4
      have hdd : d' = d := by
        have := mem_of_desc e1
        unfold Pat.desc? at e1
        have hself : p.descs.find? (fun x => x.name = d.name) = some d := by
          obtain ⟨hlt, he⟩ := List.getElem?_eq_some_iff.mp h1
          rw [List.find?_eq_some_iff_getElem]
          refine ⟨by simp, i, hlt, he, ?_⟩
          intro j hj
          simp only [Bool.not_eq_true', decide_eq_false_iff_not]
          intro hc
          have hne := List.nodup_iff_injective_get.mp hd
          have : (⟨j, by simp; omega⟩ : Fin (p.descs.map (·.name)).length) = ⟨i, by simp; omega⟩ := by
            apply hne
            simp [hc, he]
          injection this with this
          omega
        simp only at e1
        rw [hself] at e1
        injection e1 with e1
        exact e1.symm
      refine ⟨nd, ?_, (findNode_mem e2).2, hdd ▸ e3⟩
      unfold findNode at e2
      exact List.mem_of_find?_eq_some e2
    · exact absurd h4 h3

/-- C38: no node fills two positions of a match. -/
theorem C38_nodes_distinct (c : Ctx) (p : Pat) (hd : (p.descs.map (·.name)).Nodup) (hn : (c.g.nodemap.map (·.name)).Nodup)
    (ms : List (List String)) (h : searchPattern c p = .ok ms) (m : List String) (hm : m ∈ ms) (i j : Nat) (s : String)
    (hi : m[i]? = some s) (hj : m[j]? = some s) (hs : s ≠ "a") : i = j := by
  cases hp : p.descs with
  | nil => unfold searchPattern at h; rw [hp] at h; cases h
  | cons first rest =>
    obtain ⟨n, path, _, hg, hpr⟩ := C38_matches_genuine c p first rest hp hd hn ms h m hm
    have key : ∀ k : Nat, m[k]? = some s → ∃ d : Desc, p.descs[k]? = some d ∧ (d.name, s) ∈ path := by
      intro k hk
      have hlt : k < p.descs.length := by rw [← hpr.length]; exact (List.getElem?_eq_some_iff.mp hk).1
      refine ⟨_, List.getElem?_eq_getElem hlt, ?_⟩
      rcases hpr.entries k _ s (List.getElem?_eq_getElem hlt) hk with h1 | h1
      · exact h1
      · exact absurd h1.1 hs
    obtain ⟨d1, e1, m1⟩ := key i hi
    obtain ⟨d2, e2, m2⟩ := key j hj
    have hpair : (d1.name, s) = (d2.name, s) := List.inj_on_of_nodup_map hg.nodes_distinct m1 m2 rfl
    injection hpair with hname _
    obtain ⟨l1, g1⟩ := List.getElem?_eq_some_iff.mp e1
    obtain ⟨l2, g2⟩ := List.getElem?_eq_some_iff.mp e2
    have hne := List.nodup_iff_injective_get.mp hd
    have : (⟨i, by simpa using l1⟩ : Fin (p.descs.map (·.name)).length) = ⟨j, by simpa using l2⟩ := by
      apply hne; simp [g1, g2, hname]
    injection this

/-! ## The shipped pattern `ConvBN`, exactly -/

/-- node `name` is a BatchNormalization that reads `t` as its first input -/
def isBNof (c : Ctx) (t name : String) : Bool :=
  match findNode c.g.nodemap name with
  | some nd => nd.op == "BatchNormalization" && nd.input[0]? == some t
  | none => false

theorem consumersOf_mem {ns : List Node} {t x : String} (h : x ∈ consumersOf ns t) : ∃ n ∈ ns, n.name = x ∧ t ∈ n.input := by
  unfold consumersOf at h
  obtain ⟨n, hn, hx⟩ := List.mem_flatMap.mp h
  obtain ⟨h1, h2⟩ := List.mem_replicate.mp hx
  exact ⟨n, hn, h2.symm, List.count_pos_iff.mp (by omega)⟩

theorem producersOf_mem {ns : List Node} {t : String} {n : Node} (hn : n ∈ ns) (ht : t ∈ n.output) : n.name ∈ producersOf ns t := by
  unfold producersOf
  exact List.mem_flatMap.mpr ⟨n, hn, List.mem_replicate.mpr ⟨by have := List.count_pos_iff.mpr ht; omega, rfl⟩⟩

theorem idxOf_zero {l : List String} {t : String} (h : t ∈ l) : (l.idxOf t == 0) = (l[0]? == some t) := by
  cases l with
  | nil => cases h
  | cons a l =>
    by_cases ha : a = t
    · simp [ha]
    · simp only [List.idxOf_cons, beq_eq_false_iff_ne.mpr ha, List.getElem?_cons_zero, cond_false]
      simp [ha]

theorem convBN_loop (c : Ctx) (rec : Rec) (t conv : String) (cs : List String)
    (hn : (c.g.nodemap.map (·.name)).Nodup)
    (hcs : ∀ x ∈ cs, ∃ n ∈ c.g.nodemap, n.name = x ∧ t ∈ n.input)
    (hconv : isBNof c t conv = false)
    (hrec : ∀ b, isBNof c t b = true → rec "bn_0" b [conv] = .ok (some [("bn_0", b)], [conv, b])) :
    tryConsumers c rec bnDesc (some 0) t true cs ⟨false, [], [conv]⟩ =
      match cs.find? (isBNof c t) with
      | none => .ok ⟨false, [], [conv]⟩
      | some b => .ok ⟨true, [[("bn_0", b)]], [conv, b]⟩ := by
  induction cs with
  | nil => rfl
  | cons x cs ih =>
    have ih := ih (fun y hy => hcs y (by simp [hy]))
    obtain ⟨nd, hnd, rfl, ht⟩ := hcs x (by simp)
    have hf := findNode_self hn hnd
    have hport : portOk (some 0) nd.input t = .ok (nd.input[0]? == some t) := by
      unfold portOk
      simp only [List.contains_iff_mem.mpr ht, if_true]
      rw [idxOf_zero ht]
    have hbn : bnDesc.isNode c.attrs nd = .ok (nd.op == "BatchNormalization") := by
      simp [Desc.isNode, bnDesc, attrsHold]
    unfold tryConsumers
    simp only [hf, hport]
    cases hb : nd.input[0]? == some t with
    | false =>
      simp only []
      have : isBNof c t nd.name = false := by simp [isBNof, hf, hb]
      rw [ih, List.find?_cons_of_neg (by simp [this])]
    | true =>
      simp only [hbn]
      cases ho : nd.op == "BatchNormalization" with
      | false =>
        simp only []
        have : isBNof c t nd.name = false := by simp [isBNof, hf, ho]
        rw [ih, List.find?_cons_of_neg (by simp [this])]
      | true =>
        have hthis : isBNof c t nd.name = true := by simp [isBNof, hf, ho, hb]
        have hne : nd.name ≠ conv := fun h => by rw [h, hconv] at hthis; cases hthis
        rw [List.find?_cons_of_pos hthis]
        simp [hne, hrec _ hthis, bnDesc]

theorem convBN_searchNode (c : Ctx) (n : Node) (hnn : n ∈ c.g.nodemap) (k : Nat) (hn : (c.g.nodemap.map (·.name)).Nodup)
    (hix : c.g.IndexExact) (huniq : ∀ t, (producersOf c.g.nodemap t).length ≤ 1) (hold : convDesc.Holds c.attrs n)
    (hconv : convDesc.isNode c.attrs n = .ok true) :
    (searchNode c convBN (k + 2) "conv_0" n.name []).toOption.map (·.1) =
      some ((n.output[0]?.bind fun t => (consumersOf c.g.nodemap t).find? (isBNof c t)).map fun b => [("conv_0", n.name), ("bn_0", b)]) := by
  have hf := findNode_self hn hnn
  have hop : n.op = "Conv" := by
    have := hold.1
    simpa [OpCond.Holds, convDesc] using this
  have hnot : ∀ t, isBNof c t n.name = false := by intro t; simp [isBNof, hf, hop]
  have hd1 : convBN.desc? "conv_0" = some convDesc := by decide
  have hd2 : convBN.desc? "bn_0" = some bnDesc := by decide
  cases ho : n.output[0]? with
  | none =>
    have hc : convDesc.inport = [] := rfl
    have hc2 : convDesc.outport = [⟨some 0, "bn_0", some 0⟩] := rfl
    simp only [searchNode, hd1, hf, hc, hc2, inPhase, outPhase, hd2, outPort, ho]
    simp [Except.toOption]
  | some t =>
    have hto : t ∈ n.output := List.mem_of_getElem? ho
    have hprod : producersOf c.g.nodemap t = [n.name] := by
      have h1 := producersOf_mem hnn hto
      have h2 := huniq t
      match hp : producersOf c.g.nodemap t with
      | [] => rw [hp] at h1; cases h1
      | [x] => rw [hp] at h1; rw [List.mem_singleton.mp h1]
      | _ :: _ :: _ => rw [hp] at h2; simp at h2
    have hpb : c.g.producedby.get? t = some [n.name] := by rw [hix.2 t, hprod]; simp
    have hrec : ∀ b, isBNof c t b = true → searchNode c convBN (k + 1) "bn_0" b [n.name] = .ok (some [("bn_0", b)], [n.name, b]) := by
      intro b hb
      unfold isBNof at hb
      cases hfb : findNode c.g.nodemap b with
      | none => rw [hfb] at hb; cases hb
      | some nd =>
        rw [hfb] at hb
        simp only [Bool.and_eq_true, beq_iff_eq] at hb
        have hbi : bnDesc.inport = [⟨some 0, "conv_0", some 0⟩] := rfl
        have hbo : bnDesc.outport = [] := rfl
        have hport : portOk (some 0) n.output t = .ok true := by
          unfold portOk
          simp only [List.contains_iff_mem.mpr hto, if_true]
          rw [idxOf_zero hto, ho]; simp
        simp only [searchNode, hd2, hfb, hbi, hbo, inPhase, outPhase, hd1, inPort, hb.2, hpb, tryProducers, hf, hport, hconv]
        simp
    have hl := convBN_loop c (searchNode c convBN (k + 1)) t n.name (consumersOf c.g.nodemap t) hn (fun x hx => consumersOf_mem hx) (hnot t) hrec
    have hc : convDesc.inport = [] := rfl
    have hc2 : convDesc.outport = [⟨some 0, "bn_0", some 0⟩] := rfl
    rw [searchNode]
    simp only [hd1, hf, hc, hc2, inPhase, outPhase, hd2, outPort, ho, tryOutput, hix.1 t]
    by_cases hemp : consumersOf c.g.nodemap t = []
    · simp [hemp, Except.toOption]
    · simp only [hemp, if_false, List.isEmpty_nil, Bool.not_true, Bool.false_eq_true, List.isEmpty_cons, List.nil_append]
      simp only [convBN, Bool.false_and, Bool.false_eq_true, if_false] at hl ⊢
      rw [hl]
      cases hfd : (consumersOf c.g.nodemap t).find? (isBNof c t) with
      | none => simp [Except.toOption, hfd]
      | some b => simp [Except.toOption, hfd]

/-- the match a convolution gives rise to: itself and the first BatchNormalization that reads its first output as first input -/
def convBNMatch (c : Ctx) (n : Node) : Option (List String) :=
  (n.output[0]?.bind fun t => (consumersOf c.g.nodemap t).find? (isBNof c t)).map fun b => [n.name, b]

/-- C38, exact for `ConvBN`: on a graph with an up-to-date index and one producer per tensor, whose nodes' `kernel_shape` attributes can be
compared, the search succeeds and reports, in node order, one match per convolution that meets the conditions and feeds a BatchNormalization. -/
theorem C38_convbn_list (c : Ctx) (hn : (c.g.nodemap.map (·.name)).Nodup) (hix : c.g.IndexExact)
    (huniq : ∀ t, (producersOf c.g.nodemap t).length ≤ 1) (hattr : ∀ n ∈ c.g.nodemap, ∃ b, convDesc.isNode c.attrs n = .ok b) :
    searchPattern c convBN = .ok (c.g.nodemap.filterMap fun n =>
      if (convDesc.isNode c.attrs n).toOption = some true then convBNMatch c n else none) := by
  have main : ∀ ns : List Node, (∀ x ∈ ns, x ∈ c.g.nodemap) → searchAll c convBN convDesc (c.g.nodemap.length + 1) ns =
      .ok (ns.filterMap fun n => if (convDesc.isNode c.attrs n).toOption = some true then convBNMatch c n else none) := by
    intro ns
    induction ns with
    | nil => intro _; rfl
    | cons n ns ih =>
      intro hsub
      have hms := ih (fun x hx => hsub x (by simp [hx]))
      have hnn := hsub n (by simp)
      obtain ⟨b, hb⟩ := hattr n hnn
      have hbi := isNode_iff hb
      unfold searchAll
      rw [List.filterMap_cons, hb]
      cases b with
      | false => simp [hms, Except.toOption]
      | true =>
        have hold := hbi.mp rfl
        obtain ⟨k, hk⟩ : ∃ k, c.g.nodemap.length + 1 = k + 2 := by
          have := List.length_pos_of_mem hnn
          exact ⟨c.g.nodemap.length - 1, by omega⟩
        have hs := convBN_searchNode c n hnn k hn hix huniq hold hb
        rw [← hk] at hs
        have hname : convDesc.name = "conv_0" := rfl
        simp only [hname]
        cases hx : searchNode c convBN (c.g.nodemap.length + 1) "conv_0" n.name [] with
        | error e => rw [hx] at hs; simp [Except.toOption] at hs
        | ok r =>
          obtain ⟨r, s'⟩ := r
          rw [hx] at hs
          simp only [Except.toOption, Option.map_some, Option.some.injEq] at hs
          cases hf : (n.output[0]?.bind fun t => (consumersOf c.g.nodemap t).find? (isBNof c t)) with
          | none =>
            rw [hf] at hs
            simp only [Option.map_none] at hs
            subst hs
            simp [hms, Except.toOption, convBNMatch, hf]
          | some b =>
            rw [hf] at hs
            simp only [Option.map_some] at hs
            subst hs
            simp only [hms, Except.toOption, convBNMatch, hf, Option.map_some, if_true]
            rfl
  unfold searchPattern
  simp only [convBN]
  exact main c.g.nodemap (fun x hx => hx)

/-- C38, exact for `ConvBN`, as a set: `m` is reported exactly when it consists of a convolution meeting the conditions and the first
BatchNormalization that reads the convolution's first output as its first input. -/
theorem C38_convbn_exact (c : Ctx) (hn : (c.g.nodemap.map (·.name)).Nodup) (hix : c.g.IndexExact)
    (huniq : ∀ t, (producersOf c.g.nodemap t).length ≤ 1) (hattr : ∀ n ∈ c.g.nodemap, ∃ b, convDesc.isNode c.attrs n = .ok b) :
    ∃ ms, searchPattern c convBN = .ok ms ∧ ∀ m, m ∈ ms ↔
      ∃ n ∈ c.g.nodemap, convDesc.Holds c.attrs n ∧ ∃ t b, n.output[0]? = some t ∧
        (consumersOf c.g.nodemap t).find? (isBNof c t) = some b ∧ m = [n.name, b] := by
  refine ⟨_, C38_convbn_list c hn hix huniq hattr, fun m => ?_⟩
  rw [List.mem_filterMap]
  constructor
  · rintro ⟨n, hnn, h⟩
    obtain ⟨b, hb⟩ := hattr n hnn
    rw [hb] at h
    split at h
    · rename_i ht
      simp only [Except.toOption, Option.some.injEq] at ht
      subst ht
      unfold convBNMatch at h
      rw [Option.map_eq_some_iff] at h
      obtain ⟨x, hx, rfl⟩ := h
      rw [Option.bind_eq_some_iff] at hx
      obtain ⟨t, e1, e2⟩ := hx
      exact ⟨n, hnn, (isNode_iff hb).mp rfl, t, x, e1, e2, rfl⟩
    · cases h
  · rintro ⟨n, hnn, hold, t, b, e1, e2, rfl⟩
    refine ⟨n, hnn, ?_⟩
    obtain ⟨r, hr⟩ := hattr n hnn
    have := (isNode_iff hr).mpr hold
    subst this
    simp [hr, Except.toOption, convBNMatch, e1, e2]

/-! ## Concrete searches -/

/-- conv → bn → relu; attributes of the convolution -/
def pConv : Node := ⟨"c", "Conv", ["x", "w"], ["y"]⟩
def pBn : Node := ⟨"b", "BatchNormalization", ["y", "g", "be", "m", "v"], ["z"]⟩
def pRelu : Node := ⟨"r", "Relu", ["z"], ["o"]⟩
def pAttrs (ks : List Int) : String → Dict AttrV := fun s => if s = "c" then [("kernel_shape", .nums ks)] else []
def pCtx (ns : List Node) (ks : List Int) : Ctx := ⟨({ nodemap := ns, input := ["x"], output := ["o"] } : Graph).updateConsumerProducer, pAttrs ks⟩

/-- the hypotheses of `C38_convbn_exact` hold here, and the match is found -/
example : (searchPattern (pCtx [pConv, pBn, pRelu] [3, 3]) convBN).toOption = some [["c", "b"]] := by decide
example : (pCtx [pConv, pBn, pRelu] [3, 3]).g.IndexExact := updateConsumerProducer_exact _
example : ((pCtx [pConv, pBn, pRelu] [3, 3]).g.nodemap.map (·.name)).Nodup := by decide
example : ∀ n ∈ (pCtx [pConv, pBn, pRelu] [3, 3]).g.nodemap, (convDesc.isNode (pAttrs [3, 3]) n).toOption.isSome := by decide
/-- a 9x9 kernel is excluded by the attribute conditions -/
example : (searchPattern (pCtx [pConv, pBn, pRelu] [9, 9]) convBN).toOption = some [] := by decide

/-- Finding: a one-dimensional convolution makes the search raise `IndexError` (`kernel_shape[1]`). -/
theorem C38_conv1d_raises : searchPattern (pCtx [pConv, pBn, pRelu] [3]) convBN = .error .indexError := rfl

/-- a pattern that starts at an activation and looks for any producer of its first input -/
def actFirst : Pat :=
  { descs := [{ name := "act", op := .one "Relu", inport := [⟨some 0, "any", some 0⟩] }, { name := "any", op := .one "Any" }] }
/-- Finding: an inport with an explicit index raises `KeyError` when the tensor there is a graph input (or a weight). -/
theorem C38_inport_on_input_raises :
    searchPattern (pCtx [⟨"r", "Relu", ["x"], ["o"]⟩] []) actFirst = .error .keyError := rfl

/-- Finding: unmatched positions stay as the placeholder `"a"`: a position with two inports needs only its last inport matched.  Here the
`Add` position asks for a `Conv` on input 0 and a `Relu` on input 1; input 0 comes from a `Sigmoid`, and the match is reported. -/
def twoIn : Pat :=
  { descs := [{ name := "add", op := .one "Add", inport := [⟨some 0, "conv", some 0⟩, ⟨some 1, "relu", some 0⟩] },
              { name := "conv", op := .one "Conv" }, { name := "relu", op := .one "Relu" }] }
theorem C38_placeholder :
    (searchPattern (pCtx [⟨"s", "Sigmoid", ["x"], ["p"]⟩, ⟨"r", "Relu", ["x"], ["q"]⟩, ⟨"d", "Add", ["p", "q"], ["o"]⟩] []) twoIn).toOption =
      some [["d", "a", "r"]] := by decide

/-- Finding: with the two inputs exchanged in the pattern's order, the same situation is not reported. -/
def twoIn' : Pat :=
  { descs := [{ name := "add", op := .one "Add", inport := [⟨some 1, "relu", some 0⟩, ⟨some 0, "conv", some 0⟩] },
              { name := "conv", op := .one "Conv" }, { name := "relu", op := .one "Relu" }] }
theorem C38_order_dependent :
    (searchPattern (pCtx [⟨"s", "Sigmoid", ["x"], ["p"]⟩, ⟨"r", "Relu", ["x"], ["q"]⟩, ⟨"d", "Add", ["p", "q"], ["o"]⟩] []) twoIn').toOption =
      some [] := by decide

/-- Finding: with `createSerialOpChain`, whether Relu → Add is found depends on which operand of the `Add` is the `Relu`: a later operand
produced by something else clears the flag. -/
theorem C38_serial_operand_order :
    (searchPattern (pCtx [⟨"r", "Relu", ["x"], ["q"]⟩, ⟨"s", "Sigmoid", ["x"], ["p"]⟩, ⟨"d", "Add", ["p", "q"], ["o"]⟩] [])
        ⟨serialChain ["Relu", "Add"], false⟩).toOption = some [["r", "d"]] ∧
    (searchPattern (pCtx [⟨"r", "Relu", ["x"], ["q"]⟩, ⟨"s", "Sigmoid", ["x"], ["p"]⟩, ⟨"d", "Add", ["q", "p"], ["o"]⟩] [])
        ⟨serialChain ["Relu", "Add"], false⟩).toOption = some [] := by decide

/-- C38: in the shipped patterns `ConvBN`, `Fused_Element`, `Conv_Res` and `layernorm_pattern` the positions agree about every connection; in
`MHAint8_Pattern` they do not. -/
theorem C38_shipped_coherent : Coherent convBN ∧ Coherent fusedElement ∧ Coherent convRes ∧ Coherent layernorm ∧ ¬ Coherent mhaInt8 := by decide

/-- C38: the shipped pattern `Conv_Res` finds a convolution, whose result is the second operand of the sum, and the activation. -/
theorem C38_convRes_example :
    (searchPattern (pCtx [⟨"c", "Conv", ["x", "w"], ["q"]⟩, ⟨"a", "Add", ["x", "q"], ["s"]⟩, ⟨"r", "LeakyRelu", ["s"], ["o"]⟩] []) convRes).toOption =
      some [["c", "a", "r"]] ∧
    (searchPattern (pCtx [⟨"c", "Conv", ["x", "w"], ["q"]⟩, ⟨"a", "Add", ["q", "x"], ["s"]⟩, ⟨"r", "LeakyRelu", ["s"], ["o"]⟩] []) convRes).toOption =
      some [] := by decide

/-- Finding: the shipped pattern `MHAint8_Pattern` does not match the chain it describes: its sixth position expects the `Add` as producer. -/
def mhaChain : List Node :=
  [⟨"m0", "QLinearMatMul", ["x"], ["a0"]⟩, ⟨"dq", "DequantizeLinear", ["a0"], ["a1"]⟩, ⟨"dv", "Div", ["a1"], ["a2"]⟩, ⟨"ad", "Add", ["a2"], ["a3"]⟩,
   ⟨"sm", "Softmax", ["a3"], ["a4"]⟩, ⟨"q", "QuantizeLinear", ["a4"], ["a5"]⟩, ⟨"m1", "QLinearMatMul", ["a5"], ["o"]⟩]
theorem C38_mhaint8_never : (searchPattern (pCtx mhaChain []) mhaInt8).toOption = some [] := by decide

/-- the shipped layer normalisation pattern finds its chain -/
def lnChain : List Node :=
  [⟨"rm", "ReduceMean", ["x"], ["mu"]⟩, ⟨"sb", "Sub", ["x", "mu"], ["d"]⟩, ⟨"pw", "Pow", ["d", "two"], ["d2"]⟩, ⟨"rv", "ReduceMean", ["d2"], ["v"]⟩,
   ⟨"ae", "Add", ["v", "eps"], ["ve"]⟩, ⟨"sq", "Sqrt", ["ve"], ["sd"]⟩, ⟨"dv", "Div", ["d", "sd"], ["o"]⟩]
example : (searchPattern (pCtx lnChain []) layernorm).toOption = some [["rm", "sb", "pw", "rv", "ae", "sq", "dv"]] := by decide

/-- Finding: reported matches overlap (`found_node_names` is never filled): in Relu → Relu → Relu the middle node is in both reports. -/
theorem C38_overlap :
    (searchPattern (pCtx [⟨"r0", "Relu", ["x"], ["p"]⟩, ⟨"r1", "Relu", ["p"], ["q"]⟩, ⟨"r2", "Relu", ["q"], ["o"]⟩] [])
        ⟨serialChain ["Relu", "Relu"], false⟩).toOption = some [["r0", "r1"], ["r1", "r2"]] := by decide

end OnnxTool.Props
