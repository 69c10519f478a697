import Verif.Proofs.ConvBN
import Verif.Props.Pattern
import Verif.Proofs.ConstFold
import Mathlib.Data.Rat.Defs
import Mathlib.Algebra.Field.Rat
import Mathlib.Tactic.NormNum
/-!
# C39: folding a batch normalisation into the preceding convolution

`C39_fold_algebra` is the numerical claim, for every field, every convolution geometry and every input.  `C39_fusion_preserves_values_partial`
is the claim about graphs: `ConvBNFusion` succeeds and every other tensor keeps its value, under the conditions stated in `Foldable`.
Each condition is needed: the counterexamples below drop them one at a time (a bias, another reader of the convolution's output, a shared
weight, a batch normalisation that produces a graph output).
-/
namespace OnnxTool.Props
open OnnxTool ConvBN ConstFold

variable {K : Type} [Field K]

/-- C39, the algebra: batch normalisation after a convolution without bias equals the convolution with the weights and bias that the loops
compute, for every input, every tap function (strides, padding, groups) and every weight of rank at least 4. -/
theorem C39_fold_algebra (sqrt : K → K) (eps : K) (c : Conv K) (x w gamma beta mean var : Tensor K) (d0 d1 d2 d3 : Nat) (ds : List Nat)
    (hw : w.shape = d0 :: d1 :: d2 :: d3 :: ds) :
    bnSem sqrt eps (convSem c x w fun _ => 0) gamma beta mean var =
      let r := foldChannels sqrt eps gamma beta mean var d1 d2 d3 (List.range d0) (w.val, fun _ => 0)
      convSem c x ⟨w.shape, r.1⟩ fun i => r.2 [i] := fold_eq sqrt eps c x w gamma beta mean var d0 d1 d2 d3 ds hw

/-- the conditions under which folding `b` into `c` is sound -/
structure Foldable (g : Graph) (env : String → Option (Tensor K)) (c b : Node) : Prop where
  /-- the convolution has no bias, and the two nodes have the usual operands -/
  shapes : ∃ x w y z ps, c.input = [x, w] ∧ x ≠ w ∧ c.output = [y] ∧ b.input = y :: ps ∧ ps.length = 4 ∧ b.output = [z] ∧
    -- the convolution's output is read by `b` only, the weight by `c` only
    (∀ n ∈ g.nodemap, y ∈ n.input → n = b) ∧ (∀ n ∈ g.nodemap, w ∈ n.input → n = c) ∧
    -- weight and parameters are initializers, the weight of rank 4 or more
    (∃ t, env w = some t ∧ 4 ≤ t.shape.length) ∧ (∀ p ∈ ps, ∃ t, env p = some t) ∧
    -- neither output is an output of the graph
    y ∉ g.output ∧ z ∉ g.output
  /-- the name of the new bias is not in use -/
  fresh : env (biasName c) = none ∧ ∀ n ∈ g.nodemap, biasName c ∉ n.input ∧ biasName c ∉ n.output

theorem flatMap_single {α : Type} {l : List α} (hnd : l.Nodup) {a : α} (ha : a ∈ l) {f : α → List String} {r : List String} (hf : f a = r)
    (ho : ∀ x ∈ l, x ≠ a → f x = []) : l.flatMap f = r := by
  induction l with
  | nil => cases ha
  | cons x l ih =>
    rw [List.nodup_cons] at hnd
    rw [List.flatMap_cons]
    rcases List.mem_cons.mp ha with rfl | ha
    · have : l.flatMap f = [] := by
        rw [List.flatMap_eq_nil_iff]
        intro y hy
        exact ho y (by simp [hy]) (fun e => hnd.1 (e ▸ hy))
      rw [this, hf, List.append_nil]
    · rw [ho x (by simp) (fun e => hnd.1 (e ▸ ha)), List.nil_append]
      exact ih hnd.2 ha (fun y hy => ho y (by simp [hy]))

omit [Field K] in
/-- a foldable pair in terms of the invariants of the proof -/
theorem foldable_good {g : Graph} {env : String → Option (Tensor K)} (hn : (g.nodemap.map (·.name)).Nodup) (hix : g.IndexExact)
    (ho : (g.nodemap.flatMap (·.output)).Nodup) (hgiven : ∀ n ∈ g.nodemap, ∀ o ∈ n.output, env o = none) {c b : Node} (hc : c ∈ g.nodemap)
    (hb : b ∈ g.nodemap) (hcop : c.op = "Conv") (hbop : b.op = "BatchNormalization") (h : Foldable g env c b) :
    ∃ q : Pair, q.c = c ∧ q.b = b ∧ q.Good ⟨g, env⟩ ∧ c.output[0]? = some q.y := by
  obtain ⟨x, w, y, z, ps, h1, h2, h3, h4, h5, h6, h7, h8, ⟨t, h9, h9'⟩, h10, h11, h12⟩ := h.shapes
  have hnn : g.nodemap.Nodup := List.Nodup.of_map _ hn
  have huniq : ∀ n ∈ g.nodemap, ∀ m ∈ g.nodemap, ∀ o, o ∈ n.output → o ∈ m.output → n = m := by
    intro n hn m hm o h1 h2
    obtain ⟨i, hi⟩ := List.mem_iff_getElem?.mp h1
    obtain ⟨j, hj⟩ := List.mem_iff_getElem?.mp h2
    exact (output_unique ho hn hm hi hj).1
  have hyps : y ∉ ps := by
    intro hp
    obtain ⟨t, ht⟩ := h10 y hp
    rw [hgiven c hc y (by rw [h3]; simp)] at ht; cases ht
  have hpr : ∀ n ∈ g.nodemap, ∀ o, n.output = [o] → g.producedby.get? o = some [n.name] := by
    intro n hnm o hno
    have : producersOf g.nodemap o = [n.name] := by
      unfold producersOf
      apply flatMap_single hnn hnm
      · rw [hno]; simp
      · intro m hm hne
        rw [List.count_eq_zero_of_not_mem]
        · rfl
        · intro hmo; exact hne (huniq m hm n hnm o hmo (by rw [hno]; simp))
    rw [hix.2 o, this]; simp
  have hcy : consumersOf g.nodemap y = [b.name] := by
    unfold consumersOf
    apply flatMap_single hnn hb
    · rw [h4, List.count_cons_self, List.count_eq_zero_of_not_mem hyps]; rfl
    · intro m hm hne
      rw [List.count_eq_zero_of_not_mem]
      · rfl
      · intro hmi; exact hne (h7 m hm hmi)
  refine ⟨⟨c, b, x, w, y, z, ps⟩, rfl, rfl, ?_, by rw [h3]; rfl⟩
  refine ⟨hc, hb, hcop, hbop, h1, h3, h4, h6, h5, h7, h8, h2, ?_, h10, h.fresh.2, h.fresh.1, hpr b hb z h6, ?_, hpr c hc y h3, ?_, h11, h12⟩
  · match hsh : t.shape, h9' with
    | d0 :: d1 :: d2 :: d3 :: ds, _ => exact ⟨t, d0, d1, d2, d3, ds, h9, hsh⟩
  · show g.consumedby.get? y = _
    rw [hix.1 y, hcy]; simp
  · intro p hp
    show g.producedby.get? p = none
    rw [hix.2 p, if_pos]
    obtain ⟨t, ht⟩ := h10 p hp
    unfold producersOf
    rw [List.flatMap_eq_nil_iff]
    intro n hnm
    rw [List.count_eq_zero_of_not_mem]
    · rfl
    · intro hpo
      rw [hgiven n hnm p hpo] at ht; cases ht

/-- C39 for graphs: if every convolution followed by a batch normalisation is foldable with it, `ConvBNFusion` succeeds, keeps the graph's
inputs and outputs, and every tensor other than the weights and outputs of the folded convolutions has, in the new graph, exactly the value it
had (`ins` are the values fed at run time; `other` the meaning of all other operators).
Missing: the code raises or changes values when a condition of `Foldable` fails, see below. -/
theorem C39_fusion_preserves_values_partial (g : Graph) (env : String → Option (Tensor K)) (attrs : String → Dict Pattern.AttrV)
    (sqrt : K → K) (eps : String → K) (hn : (g.nodemap.map (·.name)).Nodup) (hix : g.IndexExact) (ho : (g.nodemap.flatMap (·.output)).Nodup)
    (hgiven : ∀ n ∈ g.nodemap, ∀ o ∈ n.output, env o = none)
    (hattr : ∀ n ∈ g.nodemap, ∃ b, Pattern.convDesc.isNode attrs n = .ok b)
    (hfold : ∀ c ∈ g.nodemap, ∀ b ∈ g.nodemap, c.op = "Conv" → b.op = "BatchNormalization" → c.output[0]? = b.input[0]? → Foldable g env c b) :
    ∃ st', convBNFusion sqrt eps attrs ⟨g, env⟩ = .ok st' ∧ st'.g.output = g.output ∧ st'.g.input = g.input ∧
      ∀ (ins : String → Option (Tensor K)), (∀ n ∈ g.nodemap, ∀ o ∈ n.output, ins o = none) → (∀ c ∈ g.nodemap, ins (biasName c) = none) →
      ∀ (conv : String → Conv K) (other : Node → List (Tensor K) → Nat → Tensor K) (t : String) (v : Tensor K),
        (∀ c ∈ g.nodemap, c.op = "Conv" → c.input[1]? ≠ some t) →
        (∀ c ∈ g.nodemap, c.op = "Conv" → t ∈ c.output → ∀ b ∈ g.nodemap, b.op = "BatchNormalization" → t ∉ b.input) →
        Ev g.nodemap (sem conv sqrt eps other) (fun t => (env t).or (ins t)) t v →
        Ev st'.g.nodemap (sem conv sqrt eps other) (fun t => (st'.env t).or (ins t)) t v ∧
        ∀ u, Ev st'.g.nodemap (sem conv sqrt eps other) (fun t => (st'.env t).or (ins t)) t u → u = v := by
  have huniq : ∀ n ∈ g.nodemap, ∀ m ∈ g.nodemap, ∀ o, o ∈ n.output → o ∈ m.output → n = m := by
    intro n hn m hm o h1 h2
    obtain ⟨i, hi⟩ := List.mem_iff_getElem?.mp h1
    obtain ⟨j, hj⟩ := List.mem_iff_getElem?.mp h2
    exact (output_unique ho hn hm hi hj).1
  have houts : ∀ n ∈ g.nodemap, n.output.Nodup := by
    intro n hn
    obtain ⟨a, b, e⟩ := List.append_of_mem hn
    rw [e, List.flatMap_append, List.flatMap_cons, List.nodup_append, List.nodup_append] at ho
    exact ho.2.1.1
  have hbase : Base (⟨g, env⟩ : St K) := ⟨hn, huniq, hgiven, houts⟩
  have hprod : ∀ t, (producersOf g.nodemap t).length ≤ 1 := by
    intro t
    by_cases hex : ∃ n ∈ g.nodemap, t ∈ n.output
    · obtain ⟨n, hnm, hto⟩ := hex
      have : producersOf g.nodemap t = [n.name] := by
        unfold producersOf
        apply flatMap_single (List.Nodup.of_map _ hn) hnm
        · rw [List.count_eq_one_of_mem (houts n hnm) hto]; rfl
        · intro m hm hne
          rw [List.count_eq_zero_of_not_mem]
          · rfl
          · intro hmo; exact hne (huniq m hm n hnm t hmo hto)
      rw [this]; simp
    · have : producersOf g.nodemap t = [] := by
        unfold producersOf
        rw [List.flatMap_eq_nil_iff]
        intro n hnm
        rw [List.count_eq_zero_of_not_mem]
        · rfl
        · intro hto; exact hex ⟨n, hnm, hto⟩
      rw [this]; simp
  let ctx : Pattern.Ctx := ⟨g, attrs⟩
  have hlist := C38_convbn_list ctx hn hix hprod hattr
  -- the list of matches as a list of good pairs
  have hpairs : ∀ ns : List Node, ns.Nodup → (∀ x ∈ ns, x ∈ g.nodemap) →
      ∃ qs : List Pair, (ns.filterMap fun n => if (Pattern.convDesc.isNode attrs n).toOption = some true then convBNMatch ctx n else none) =
          qs.map (fun q => [q.c.name, q.b.name]) ∧
        (∀ q ∈ qs, q.c ∈ ns ∧ q.Good (⟨g, env⟩ : St K)) ∧ qs.Pairwise (fun p q => q.c ≠ p.c ∧ q.b ≠ p.b) := by
    intro ns
    induction ns with
    | nil => intro _ _; exact ⟨[], rfl, by simp, by simp⟩
    | cons n ns ih =>
      intro hnd hsub
      rw [List.nodup_cons] at hnd
      obtain ⟨qs, e1, e2, e3⟩ := ih hnd.2 (fun x hx => hsub x (by simp [hx]))
      rw [List.filterMap_cons]
      have hnm := hsub n (by simp)
      obtain ⟨bb, hbb⟩ := hattr n hnm
      split
      · exact ⟨qs, e1, fun q hq => ⟨by simp [(e2 q hq).1], (e2 q hq).2⟩, e3⟩
      · rename_i m hm
        split at hm
        · rename_i ht
          rw [hbb] at ht
          simp only [Except.toOption, Option.some.injEq] at ht
          subst ht
          have hcop : n.op = "Conv" := by
            have := ((Pattern.isNode_iff hbb).mp rfl).1
            simpa [Pattern.OpCond.Holds, Pattern.convDesc] using this
          unfold convBNMatch at hm
          rw [Option.map_eq_some_iff] at hm
          obtain ⟨bname, hbn, rfl⟩ := hm
          rw [Option.bind_eq_some_iff] at hbn
          obtain ⟨t, ht, hfind⟩ := hbn
          have hisbn := List.find?_some hfind
          unfold isBNof at hisbn
          cases hfb : findNode ctx.g.nodemap bname with
          | none => rw [hfb] at hisbn; cases hisbn
          | some b =>
            rw [hfb] at hisbn
            simp only [Bool.and_eq_true, beq_iff_eq] at hisbn
            have hbname := (Pattern.findNode_mem hfb).2
            have hbm : b ∈ g.nodemap := by
              unfold findNode at hfb
              exact List.mem_of_find?_eq_some hfb
            obtain ⟨q, hq1, hq2, hq3, hq4⟩ := foldable_good hn hix ho hgiven hnm hbm hcop hisbn.1
              (hfold n hnm b hbm hcop hisbn.1 (ht.trans hisbn.2.symm))
            refine ⟨q :: qs, ?_, ?_, ?_⟩
            · rw [List.map_cons, e1, hq1, hq2, hbname]
            · intro p hp
              rcases List.mem_cons.mp hp with rfl | hp
              · exact ⟨by simp [hq1], hq3⟩
              · exact ⟨by simp [(e2 p hp).1], (e2 p hp).2⟩
            · rw [List.pairwise_cons]
              refine ⟨fun p hp => ?_, e3⟩
              have hcne : p.c ≠ q.c := by
                intro e
                exact hnd.1 (by rw [← hq1, ← e]; exact (e2 p hp).1)
              refine ⟨hcne, fun e => hcne ?_⟩
              have g1 := (e2 p hp).2
              have hyy : p.y = q.y := by
                have i1 := g1.bin
                have i2 := hq3.bin
                rw [e, i2] at i1
                injection i1 with i1 _
                exact i1.symm
              exact huniq p.c g1.cmem q.c hq3.cmem p.y (by rw [g1.cout]; simp) (by rw [hq3.cout, hyy]; simp)
        · cases hm
  obtain ⟨qs, e1, e2, e3⟩ := hpairs g.nodemap (List.Nodup.of_map _ hn) (fun x hx => hx)
  obtain ⟨st', f1, f2, f3, f4, f5, f6⟩ := fuseAll_ok sqrt eps qs ⟨g, env⟩ hbase (fun q hq => (e2 q hq).2) e3
  refine ⟨st', ?_, f3, f4, ?_⟩
  · unfold convBNFusion
    have hl : Pattern.searchPattern ⟨g, attrs⟩ Pattern.convBN = .ok (qs.map fun q => [q.c.name, q.b.name]) := by rw [← e1]; exact hlist
    simp only [hl]
    exact f1
  · intro ins hi1 hi2 conv other t v ht1 ht2 hv
    have hv' := f6 ins hi1 (fun q hq => hi2 q.c (e2 q hq).2.cmem) conv other t v ?_ hv
    · refine ⟨hv', fun u hu => ?_⟩
      refine ev_det' f2 ?_ hu hv'
      intro n hn' o hon
      rcases (f5 n).mp hn' with ⟨q, hq, rfl⟩ | ⟨r1, _⟩
      · have : o = q.z := by simpa [folded] using hon
        exact hi1 q.b (e2 q hq).2.bmem o (by rw [(e2 q hq).2.bout, this]; simp)
      · exact hi1 n r1 o hon
    · intro q hq
      have gq := (e2 q hq).2
      refine ⟨?_, ?_⟩
      · intro e
        refine ht2 q.c gq.cmem gq.cop (by rw [gq.cout, e]; simp) q.b gq.bmem gq.bop ?_
        rw [gq.bin, e]; simp
      · intro e
        exact ht1 q.c gq.cmem gq.cop (by rw [gq.cin, e]; rfl)

/-! ## A concrete case, and what happens without the conditions -/

/-- one-element tensors -/
def cbScalar (v : ℚ) : Tensor ℚ := ⟨[1], fun _ => v⟩
/-- weight 3 (shape [1,1,1,1]), gamma 2, beta 5, mean 1, variance 4 -/
def cbEnv : String → Option (Tensor ℚ) := fun t =>
  if t = "w" then some ⟨[1, 1, 1, 1], fun _ => 3⟩ else if t = "g" then some (cbScalar 2) else if t = "be" then some (cbScalar 5)
  else if t = "m" then some (cbScalar 1) else if t = "v" then some (cbScalar 4) else none
def cbGraph (ns : List Node) (out : List String) : Graph := ({ nodemap := ns, input := ["x"], output := out } : Graph).updateConsumerProducer
def cbRun (ns : List Node) (out : List String) : Except PyErr (St ℚ) :=
  convBNFusion (fun x => x) (fun _ => 0) (pAttrs [1, 1]) ⟨cbGraph ns out, cbEnv⟩

/-- conv → bn → relu is folded: the batch normalisation is gone and the convolution has a bias -/
example : (cbRun [pConv, pBn, pRelu] ["o"]).toOption.map (fun st => (st.g.nodemap, st.g.output)) =
    some ([⟨"c", "Conv", ["x", "w", "c_bias_"], ["z"]⟩, pRelu], ["o"]) := by decide
/-- its hypotheses hold -/
example : (cbGraph [pConv, pBn, pRelu] ["o"]).IndexExact ∧ ((cbGraph [pConv, pBn, pRelu] ["o"]).nodemap.flatMap (·.output)).Nodup :=
  ⟨updateConsumerProducer_exact _, by decide⟩
example : Foldable (cbGraph [pConv, pBn, pRelu] ["o"]) cbEnv pConv pBn := by
  refine ⟨⟨"x", "w", "y", "z", ["g", "be", "m", "v"], rfl, by decide, rfl, rfl, rfl, rfl, by decide, by decide,
    ⟨_, rfl, by decide⟩, ?_, by decide, by decide⟩, rfl, by decide⟩
  intro p hp
  simp only [List.mem_cons, List.not_mem_nil, or_false] at hp
  rcases hp with rfl | rfl | rfl | rfl <;> exact ⟨_, rfl⟩

/-- Finding: a convolution WITH a bias makes `ConvBNFusion` raise `KeyError`: the bias tensor is looked up among the nodes. -/
theorem C39_bias_raises : cbRun [⟨"c", "Conv", ["x", "w", "b0"], ["y"]⟩, pBn, pRelu] ["o"] = .error .keyError := rfl

/-- Finding: when another node also reads the convolution's output, the fused graph reads a tensor that nothing produces. -/
theorem C39_other_reader_dangles : ∃ st', (cbRun [pConv, pBn, pRelu, ⟨"s", "Sigmoid", ["y"], ["p"]⟩] ["o", "p"]) = .ok st' ∧
    (⟨"s", "Sigmoid", ["y"], ["p"]⟩ : Node) ∈ st'.g.nodemap ∧ (∀ n ∈ st'.g.nodemap, "y" ∉ n.output) ∧ st'.env "y" = none ∧
    "y" ∉ st'.g.input := ⟨_, rfl, by decide, by decide, rfl, by decide⟩

/-- Finding: when the batch normalisation produces a graph output, that output is removed from the graph's outputs. -/
theorem C39_output_lost : ∃ st', (cbRun [pConv, pBn] ["z"]) = .ok st' ∧ st'.g.output = [] := ⟨_, rfl, rfl⟩

/-- Finding: a weight shared by two convolutions is scaled twice (here 3 becomes 3/4: twice the factor 2/4), so neither convolution is right. -/
theorem C39_shared_weight_scaled_twice : ∃ st' t, convBNFusion (fun x => x) (fun _ => 0) (fun _ => [("kernel_shape", .nums [1, 1])])
      ⟨cbGraph [pConv, pBn, ⟨"c2", "Conv", ["z", "w"], ["y2"]⟩, ⟨"b2", "BatchNormalization", ["y2", "g", "be", "m", "v"], ["o"]⟩] [], cbEnv⟩ = .ok st' ∧
    st'.env "w" = some t ∧ t.val [0, 0, 0, 0] = 3 / 4 := by
  refine ⟨_, _, rfl, rfl, ?_⟩
  simp [foldChannels, scaleRow, scaleAt, List.range_succ, cbScalar]
  norm_num

/-- Finding: the producer / consumer indexes are stale afterwards: the new bias has no consumer entry, the old output still has a producer. -/
theorem C39_index_stale : ∃ st', (cbRun [pConv, pBn, pRelu] ["o"]) = .ok st' ∧ st'.g.consumedby.get? "c_bias_" = none ∧
    st'.g.producedby.get? "y" = some ["c"] := ⟨_, rfl, rfl, rfl⟩

end OnnxTool.Props
