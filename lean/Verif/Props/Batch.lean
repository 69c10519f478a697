import Verif.Proofs.BatchCost
/-!
# C120: the cost of a batch

The same network with two batch sizes `b` and `c`.  `Pair` and `Scaled` (`Spec/Batch`) say what a tensor looks like in the two runs: the first axis is the batch and the rest of the shape is the same, or the
whole shape is the same.
-/
namespace OnnxTool.Props
open OnnxTool OnnxTool.ShapeInfer OnnxTool.Topsort OnnxTool.Profile OnnxTool.Batch

/-! ## networks -/

/-- **C120, shapes.** A sorted network of nodes that work sample by sample: if `shape_infer` succeeds with batch size `b`, then it succeeds with every batch size, and every tensor has the same shape but for
the batch. -/
theorem C120_shape_infer (run : Run Int) (g : Graph) (M : List String) (R : Roles) (b c : Nat) (htopo : TopoOrdered g.nodemap) (honce : (g.nodemap.flatMap (·.output)).Nodup)
    (hset : ∀ n ∈ g.nodemap, SetsAll run (M.contains n.name) n)
    (hnodes : ∀ n ∈ g.nodemap, BatchNode run (M.contains n.name) R b c n) (hinputs : ∀ t ∈ g.input, Unproduced g.nodemap t) (d d' : Dict (Arr Int)) (m m' r : TMap Int)
    (hu : ∀ t, Unproduced g.nodemap t → Pair R b c t (seen (updateInputs d m t)) (seen (updateInputs d' m' t)))
    (h : shapeInfer run g M d m = (r, none, true)) (hpos : ∀ n ∈ g.nodemap, ∀ o ∈ n.output, ∃ s, (r o).shape = asDims s) :
    ∃ r', shapeInfer run g M d' m' = (r', none, true) ∧ ∀ t, Pair R b c t (seen (r t)) (seen (r' t)) := by
  unfold shapeInfer at h ⊢
  have hcheck : checkInputs g (updateInputs d' m') = true := by
    unfold checkInputs
    rw [List.all_eq_true]
    intro t ht
    obtain ⟨s, s', _, h2, _⟩ := (hu t (hinputs t ht)).shape
    have h2' : (updateInputs d' m' t).shape = asDims s' := h2
    rw [h2']
    exact numeric_asDims s'
  simp only [hcheck, if_true]
  simp only [] at h
  split at h
  · cases hl : inferLoop run M g.nodemap (updateInputs d m) with
    | mk q e =>
      rw [hl] at h
      cases e with
      | some e => simp at h
      | none =>
        simp only [Prod.mk.injEq, and_true] at h
        subst h
        obtain ⟨r', h1, h2⟩ := loop_pair run M R b c g.nodemap htopo honce hset hnodes _ _ _ hu hl hpos
        exact ⟨r', by rw [h1], h2⟩
  · simp at h

private theorem loop_rows (P : Node → Row → Row → Prop) (prof : Prof) (tm tm' : Dict TInfo) (order : List Node)
    (hn : ∀ n ∈ order, ∀ row, profileNode prof tm n = .ok row → ∃ row', profileNode prof tm' n = .ok row' ∧ P n row row') :
    ∀ (tot tot' : Totals) rows t, profileLoop prof tm order tot = .ok (rows, t) → ∃ rows' t', profileLoop prof tm' order tot' = .ok (rows', t') ∧
      ∀ (i : Nat) (n : Node), order[i]? = some n → ∃ row row', rows[i]? = some (n.name, row) ∧ rows'[i]? = some (n.name, row') ∧ P n row row' := by
  induction order with
  | nil =>
    intro tot tot' rows t h
    exact ⟨[], tot', rfl, fun i n hi => by simp at hi⟩
  | cons n order ih =>
    intro tot tot' rows t h
    rw [profileLoop] at h
    split at h
    · cases h
    · rename_i row hrow
      obtain ⟨row', h1, h2⟩ := hn n (by simp) row hrow
      split at h
      · cases h
      · rename_i rows0 t0 hl
        simp only [Except.ok.injEq, Prod.mk.injEq] at h
        obtain ⟨rfl, rfl⟩ := h
        obtain ⟨rows', t', h3, h4⟩ := ih (fun k hk => hn k (by simp [hk])) _ ⟨tot'.macs + row'.macs, tot'.params + row'.params, tot'.memory + row'.memory⟩ _ _ hl
        refine ⟨(n.name, row') :: rows', t', by rw [profileLoop, h1]; simp only [h3], fun i k hi => ?_⟩
        cases i with
        | zero => simp only [List.getElem?_cons_zero, Option.some.injEq] at hi; subst hi; exact ⟨row, row', rfl, rfl, h2⟩
        | succ i => simpa using h4 i k (by simpa using hi)

private theorem sum_rows (f f' : String × Row → ℚ) (b c : ℚ) : ∀ (rows rows' : List (String × Row)), rows.length = rows'.length →
    (∀ (i : Nat) (p p' : String × Row), rows[i]? = some p → rows'[i]? = some p' → ∃ (A : ℚ) (k : Int), f p = A + b * k ∧ f' p' = A + c * k) →
    ∃ (A : ℚ) (k : Int), (rows.map f).sum = A + b * k ∧ (rows'.map f').sum = A + c * k := by
  intro rows
  induction rows with
  | nil => intro rows' hl _; cases rows' with
    | nil => exact ⟨0, 0, by simp, by simp⟩
    | cons _ _ => simp at hl
  | cons p rows ih =>
    intro rows' hl h
    cases rows' with
    | nil => simp at hl
    | cons p' rows' =>
      obtain ⟨A, k, h1, h2⟩ := h 0 p p' rfl rfl
      obtain ⟨A', k', h3, h4⟩ := ih rows' (by simpa using hl) fun i q q' hq hq' => h (i + 1) q q' (by simpa using hq) (by simpa using hq')
      exact ⟨A + A', k + k', by rw [List.map_cons, List.sum_cons, h1, h3]; push_cast; ring, by rw [List.map_cons, List.sum_cons, h2, h4]; push_cast; ring⟩

private theorem sum_rows_zero (f f' : String × Row → ℚ) (b c : ℚ) : ∀ (rows rows' : List (String × Row)), rows.length = rows'.length →
    (∀ (i : Nat) (p p' : String × Row), rows[i]? = some p → rows'[i]? = some p' → ∃ k : Int, f p = b * k ∧ f' p' = c * k) →
    ∃ k : Int, (rows.map f).sum = b * k ∧ (rows'.map f').sum = c * k := by
  intro rows
  induction rows with
  | nil => intro rows' hl _; cases rows' with
    | nil => exact ⟨0, by simp, by simp⟩
    | cons _ _ => simp at hl
  | cons p rows ih =>
    intro rows' hl h
    cases rows' with
    | nil => simp at hl
    | cons p' rows' =>
      obtain ⟨k, h1, h2⟩ := h 0 p p' rfl rfl
      obtain ⟨k', h3, h4⟩ := ih rows' (by simpa using hl) fun i q q' hq hq' => h (i + 1) q q' (by simpa using hq) (by simpa using hq')
      exact ⟨k + k', by rw [List.map_cons, List.sum_cons, h1, h3]; push_cast; ring, by rw [List.map_cons, List.sum_cons, h2, h4]; push_cast; ring⟩

/-- **C120, the profile.** A sorted network of nodes that work sample by sample, profiled with batch size `b`: with every other batch size `c` shape inference and profile succeed too, the parameters of every node
are the same, the MACs of a node on the batch are a cost per sample times the batch size, a node that does not see the batch has the same row, and the memory of a node on the batch is an amount per sample times
the batch size plus its weights.  The total is a fixed part plus a cost per sample times the batch size; without nodes that do not see the batch the fixed part is 0. -/
theorem C120_profile (run : Run Int) (g : Graph) (M : List String) (R : Roles) (b c : Nat) (hb : 0 < b) (hc : 0 < c) (htopo : TopoOrdered g.nodemap) (honce : (g.nodemap.flatMap (·.output)).Nodup)
    (hset : ∀ n ∈ g.nodemap, SetsAll run (M.contains n.name) n)
    (hnodes : ∀ n ∈ g.nodemap, BatchNode run (M.contains n.name) R b c n) (hinputs : ∀ t ∈ g.input, Unproduced g.nodemap t) (d d' : Dict (Arr Int)) (m m' r : TMap Int)
    (hu : ∀ t, Unproduced g.nodemap t → Pair R b c t (seen (updateInputs d m t)) (seen (updateInputs d' m' t)))
    (h : shapeInfer run g M d m = (r, none, true)) (hpos : ∀ n ∈ g.nodemap, ∀ o ∈ n.output, ∃ s, (r o).shape = asDims s)
    (static : String → Bool) (elesize : String → Nat) (attrs : String → NodeAttrs) (hs : ∀ t, static t = true → ¬ R.batched t) (order : List Node) (hord : ∀ n ∈ order, n ∈ g.nodemap)
    (hcost : ∀ n ∈ order, CostNode R (fun t => (r t).shape.length) (attrs n.name) n ∨ ∀ t ∈ n.input ++ n.output, ¬ R.batched t)
    (rows : List (String × Row)) (tot : Totals) (hp : profileLoop (profOf attrs) (infos static elesize r g) order ⟨0, 0, 0⟩ = .ok (rows, tot)) :
    ∃ r' rows' tot', shapeInfer run g M d' m' = (r', none, true) ∧ profileLoop (profOf attrs) (infos static elesize r' g) order ⟨0, 0, 0⟩ = .ok (rows', tot') ∧
      tot'.params = tot.params ∧
      (∀ (i : Nat) (n : Node), order[i]? = some n → ∃ row row', rows[i]? = some (n.name, row) ∧ rows'[i]? = some (n.name, row') ∧ row'.params = row.params ∧
        (CostNode R (fun t => (r t).shape.length) (attrs n.name) n → ∃ k : Int, row.macs = (b : ℚ) * k ∧ row'.macs = (c : ℚ) * k) ∧
        ((∀ t ∈ n.input ++ n.output, ¬ R.batched t) → row' = row) ∧
        ((∀ t ∈ n.output, R.batched t) → ∀ x, n.input.head? = some x → ∃ v : Nat, row.memory = b * v + row.params * elesize x ∧ row'.memory = c * v + row.params * elesize x)) ∧
      (∃ (A : ℚ) (k : Int), tot.macs = A + b * k ∧ tot'.macs = A + c * k) ∧
      ((∀ n ∈ order, CostNode R (fun t => (r t).shape.length) (attrs n.name) n) → ∃ k : Int, tot.macs = (b : ℚ) * k ∧ tot'.macs = (c : ℚ) * k) := by
  obtain ⟨r', h1, h2⟩ := C120_shape_infer run g M R b c htopo honce hset hnodes hinputs d d' m m' r hu h hpos
  obtain ⟨rows', tot', h3, h4⟩ := loop_rows _ (profOf attrs) _ (infos static elesize r' g) order
    (fun n hn row hrow => node_rows R b c hb hc g r r' static elesize attrs h2 hs n (hord n hn) (hcost n hn) row hrow) ⟨0, 0, 0⟩ ⟨0, 0, 0⟩ rows tot hp
  obtain ⟨a1, a2, a3, a4⟩ := C35_totals_are_sums _ _ _ _ _ hp
  obtain ⟨b1, b2, b3, b4⟩ := C35_totals_are_sums _ _ _ _ _ h3
  have hl : rows.length = order.length := by simpa using congrArg List.length a1
  have hl' : rows'.length = order.length := by simpa using congrArg List.length b1
  have hpairs : ∀ (i : Nat) (p p' : String × Row), rows[i]? = some p → rows'[i]? = some p' → ∃ n, order[i]? = some n ∧ n ∈ order := by
    intro i p p' hi _
    have : i < order.length := by rw [← hl]; exact (List.getElem?_eq_some_iff.1 hi).1
    exact ⟨order[i], List.getElem?_eq_getElem this, List.getElem_mem this⟩
  refine ⟨r', rows', tot', h1, h3, ?_, h4, ?_, fun hall => ?_⟩
  · rw [a3, b3]
    congr 1
    refine List.ext_getElem? fun i => ?_
    rw [List.getElem?_map, List.getElem?_map]
    cases e : rows[i]? with
    | none =>
      have : rows'[i]? = none := by rw [List.getElem?_eq_none_iff] at e ⊢; omega
      rw [this]
    | some p =>
      have hi : i < order.length := by rw [← hl]; exact (List.getElem?_eq_some_iff.1 e).1
      obtain ⟨row, row', g1, g2, g3, _⟩ := h4 i order[i] (List.getElem?_eq_getElem hi)
      rw [e] at g1; cases g1
      rw [g2, Option.map_some, Option.map_some, g3]
  · rw [a2, b2]
    refine sum_rows _ _ _ _ rows rows' (by omega) fun i p p' hi hi' => ?_
    obtain ⟨n, hn, hmem⟩ := hpairs i p p' hi hi'
    obtain ⟨row, row', g1, g2, _, g4, g5, _⟩ := h4 i n hn
    rw [hi] at g1; rw [hi'] at g2
    cases g1; cases g2
    rcases hcost n hmem with h | h
    · obtain ⟨k, k1, k2⟩ := g4 h
      exact ⟨0, k, by rw [k1, zero_add], by rw [k2, zero_add]⟩
    · exact ⟨row.macs, 0, by simp, by simp [g5 h]⟩
  · rw [a2, b2]
    refine sum_rows_zero _ _ _ _ rows rows' (by omega) fun i p p' hi hi' => ?_
    obtain ⟨n, hn, hmem⟩ := hpairs i p p' hi hi'
    obtain ⟨row, row', g1, g2, _, g4, _⟩ := h4 i n hn
    rw [hi] at g1; rw [hi'] at g2
    cases g1; cases g2
    exact g4 (hall n hmem)

/-- **C120, samples.** In particular, a profile with batch size one gives the MACs of every batch size: they are that many times as many. -/
theorem C120_samples (run : Run Int) (g : Graph) (M : List String) (R : Roles) (c : Nat) (hc : 0 < c) (htopo : TopoOrdered g.nodemap) (honce : (g.nodemap.flatMap (·.output)).Nodup)
    (hset : ∀ n ∈ g.nodemap, SetsAll run (M.contains n.name) n)
    (hnodes : ∀ n ∈ g.nodemap, BatchNode run (M.contains n.name) R 1 c n) (hinputs : ∀ t ∈ g.input, Unproduced g.nodemap t) (d d' : Dict (Arr Int)) (m m' r : TMap Int)
    (hu : ∀ t, Unproduced g.nodemap t → Pair R 1 c t (seen (updateInputs d m t)) (seen (updateInputs d' m' t)))
    (h : shapeInfer run g M d m = (r, none, true)) (hpos : ∀ n ∈ g.nodemap, ∀ o ∈ n.output, ∃ s, (r o).shape = asDims s)
    (static : String → Bool) (elesize : String → Nat) (attrs : String → NodeAttrs) (hs : ∀ t, static t = true → ¬ R.batched t)
    (hcost : ∀ n ∈ g.nodemap, CostNode R (fun t => (r t).shape.length) (attrs n.name) n)
    (rows : List (String × Row)) (tot : Totals) (hp : profileLoop (profOf attrs) (infos static elesize r g) g.nodemap ⟨0, 0, 0⟩ = .ok (rows, tot)) :
    ∃ r' rows' tot', shapeInfer run g M d' m' = (r', none, true) ∧ profileLoop (profOf attrs) (infos static elesize r' g) g.nodemap ⟨0, 0, 0⟩ = .ok (rows', tot') ∧
      tot'.macs = c * tot.macs ∧ tot'.params = tot.params := by
  obtain ⟨r', rows', tot', h1, h2, h3, _, _, h5⟩ := C120_profile run g M R 1 c Nat.one_pos hc htopo honce hset hnodes hinputs d d' m m' r hu h hpos static elesize attrs hs g.nodemap (fun _ h => h)
    (fun n hn => .inl (hcost n hn)) rows tot hp
  obtain ⟨k, k1, k2⟩ := h5 hcost
  refine ⟨r', rows', tot', h1, h2, ?_, h3⟩
  rw [k1, k2]; simp

/-! ## costs of operators -/

/-- **C120, the MACs of a node.** For every operator of the cost tables but LSTM and GRU (whose batch is the second axis, C90), the first operand and the first output with the batch in front: the MACs are a cost
per sample times the batch size, and the operator raises for one batch size exactly if it does for the other, with the same exception. -/
theorem C120_node_macs (a : NodeAttrs) (op : String) (b c : Nat) (hb : 0 < b) (hc : 0 < c) (ins ins' outs outs' : List (List Nat)) (h : CostOk a op b c ins ins' outs outs') :
    (∃ k : Int, coreMacs a op ins outs = .ok (b * k) ∧ coreMacs a op ins' outs' = .ok (c * k)) ∨ ∃ e, coreMacs a op ins outs = .error e ∧ coreMacs a op ins' outs' = .error e := by
  obtain ⟨q, h1, h2⟩ := core_times a op b c hb hc ins ins' outs outs' h
  cases q with
  | error e => exact .inr ⟨e, h1, h2⟩
  | ok k => exact .inl ⟨k, h1, h2⟩

end OnnxTool.Props
