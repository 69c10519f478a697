import Verif.Proofs.Report
/-! # C84 and C85: the profile report, and profiling several models -/
namespace OnnxTool.Props
open OnnxTool OnnxTool.Report

/-- **C84, CSV (iff)**: reading a CSV file back gives the table that was written exactly if no cell contains a comma or a line break — nothing is quoted. -/
theorem C84_csv_iff_partial (header : List String) (table : List (List String)) (hne : ∀ row ∈ header :: table, row ≠ []) :
    readCsv (csvFile header table) = header :: table ↔ ∀ row ∈ header :: table, ∀ c ∈ row, Plain c :=
  ⟨fun h => h ▸ read_plain _, read_write hne⟩

theorem plain_of (s : String) (h : (s.toList.contains ',' || s.toList.contains '\n') = false) : Plain s := by
  simp only [Bool.or_eq_false_iff, List.contains_eq_mem, decide_eq_false_iff_not] at h
  exact h

theorem nodeRow_plain {pct : ℚ → String} (hp : ∀ x, Plain (pct x)) (sparse : Bool) (factor : ℕ) (t : Sums) {n : NodeInfo} (h1 : Plain n.name) (h2 : Plain n.op) :
    ∀ c ∈ nodeRow pct sparse factor t n, Plain c := by
  intro c hc
  unfold nodeRow at hc
  cases sparse <;> simp only [Bool.false_eq_true, if_false, if_true, List.append_nil, List.mem_append, List.mem_cons, List.not_mem_nil, or_false] at hc
  · rcases hc with (rfl | rfl) | rfl | rfl | rfl | rfl | rfl | rfl | rfl | rfl
    exacts [h1, h2, num_plain _, hp _, num_plain _, hp _, num_plain _, hp _, tuple_plain _, tuple_plain _]
  · rcases hc with ((rfl | rfl) | rfl | rfl | rfl) | rfl | rfl | rfl | rfl | rfl | rfl | rfl | rfl
    exacts [h1, h2, tuple_plain _, hp _, hp _, num_plain _, hp _, num_plain _, hp _, num_plain _, hp _, tuple_plain _, tuple_plain _]

theorem totalRow_plain (sparse : Bool) (factor : ℕ) (t : Sums) : ∀ c ∈ totalRow sparse factor t, Plain c := by
  intro c hc
  unfold totalRow at hc
  have u : Plain "_" := plain_of _ (by decide)
  have p : Plain "100%" := plain_of _ (by decide)
  have v : Plain "Total" := plain_of _ (by decide)
  cases sparse <;> simp only [Bool.false_eq_true, if_false, if_true, List.append_nil, List.mem_append, List.mem_cons, List.not_mem_nil, or_false] at hc
  · rcases hc with (rfl | rfl) | rfl | rfl | rfl | rfl | rfl | rfl | rfl | rfl
    exacts [v, u, num_plain _, p, num_plain _, p, num_plain _, p, u, u]
  · rcases hc with ((rfl | rfl) | rfl | rfl | rfl) | rfl | rfl | rfl | rfl | rfl | rfl | rfl | rfl
    exacts [v, u, u, u, u, num_plain _, p, num_plain _, p, num_plain _, p, u, u]

theorem dedupRow_plain (sparse : Bool) (t : Sums) : ∀ c ∈ dedupRow sparse t, Plain c := by
  intro c hc
  unfold dedupRow at hc
  have u : Plain "_" := plain_of _ (by decide)
  have v : Plain "Dedup_Params" := plain_of _ (by decide)
  cases sparse <;> simp only [Bool.false_eq_true, if_false, if_true, List.append_nil, List.mem_append, List.mem_cons, List.not_mem_nil, or_false] at hc
  · rcases hc with (rfl | rfl) | rfl | rfl | rfl | rfl | rfl | rfl | rfl | rfl <;> first | exact u | exact v | exact num_plain _
  · rcases hc with ((rfl | rfl) | rfl | rfl | rfl) | rfl | rfl | rfl | rfl | rfl | rfl | rfl | rfl <;> first | exact u | exact v | exact num_plain _

theorem header_plain (sparse : Bool) (metric : String) (h : metric = "MACs" ∨ metric = "FLOPs") : ∀ c ∈ Report.header sparse metric, Plain c := by
  rcases h with rfl | rfl <;> cases sparse <;> exact fun c hc => plain_of c (by revert c; decide)

theorem nodeRow_states (pct : ℚ → String) (sparse : Bool) (factor : ℕ) (t : Sums) (n : NodeInfo) (h1 : n.inshape ≠ []) (h2 : n.outshape ≠ []) :
    States (nodeRow pct sparse factor t n) (if sparse then 3 else 0) factor n := by
  cases sparse
  · exact ⟨rfl, rfl, num_read _, num_read _, num_read _, tuple_read h1, tuple_read h2⟩
  · exact ⟨rfl, rfl, num_read _, num_read _, num_read _, tuple_read h1, tuple_read h2⟩

private theorem share_eq {a b : ℕ} (h : b = 0 → a = 0) : (a : ℚ) / divisor b = (a : ℚ) / (f64 b : ℚ) := by
  unfold divisor
  by_cases hb : b = 0
  · rw [if_pos hb, h hb]; simp
  · rw [if_neg hb]

theorem nodeRow_shares (pct : ℚ → String) (sparse : Bool) (factor : ℕ) (t : Sums) (n : NodeInfo) : Shares pct (nodeRow pct sparse factor t n) sparse t n := by
  cases sparse
  · exact ⟨fun h => by rw [← share_eq h]; rfl, fun h => by rw [← share_eq h]; rfl, fun h => by rw [← share_eq h]; rfl, fun h => (nomatch h), fun h => (nomatch h),
      fun h => (nomatch h)⟩
  · exact ⟨fun h => by rw [← share_eq h]; rfl, fun h => by rw [← share_eq h]; rfl, fun h => by rw [← share_eq h]; rfl, fun _ h => tuple_read h, fun _ => rfl, fun _ => rfl⟩

theorem totalRow_states (sparse : Bool) (factor : ℕ) (t : Sums) : StatesTotal (totalRow sparse factor t) (if sparse then 3 else 0) (f64 t.macs * factor) (f64 t.memory) (f64 t.params) := by
  cases sparse
  · exact ⟨rfl, num_read _, num_read _, num_read _⟩
  · exact ⟨rfl, num_read _, num_read _, num_read _⟩

/-- **C84, the report**: if no node name and no operator contains a comma or a line break, reading the CSV report gives, after the header, one row for each node, with its name, operator, MACs
(FLOPs: twice that), memory, parameters, their shares of the totals, sparsity and shapes, in the order of the nodes; then the totals, rounded to 53 bits; then, exactly if they differ, the parameters without repetitions. -/
theorem C84_report (pct : ℚ → String) (hp : ∀ x, Plain (pct x)) (sparse : Bool) (metric : String) (hm : metric = "MACs" ∨ metric = "FLOPs") (t : Sums) (nodes : List NodeInfo)
    (hn : ∀ n ∈ nodes, Plain n.name ∧ Plain n.op ∧ n.inshape ≠ [] ∧ n.outshape ≠ []) :
    ∃ file h rows total rest, report pct sparse metric t nodes = .ok file ∧ readCsv file = h :: (rows ++ total :: rest) ∧
      List.Forall₂ (fun row n => States row (if sparse then 3 else 0) (if metric = "FLOPs" then 2 else 1) n ∧ Shares pct row sparse t n) rows nodes ∧
      StatesTotal total (if sparse then 3 else 0) (f64 t.macs * if metric = "FLOPs" then 2 else 1) (f64 t.memory) (f64 t.params) ∧
      (if t.dedup = t.params then rest = [] else ∃ row, rest = [row] ∧ row[0]? = some "Dedup_Params" ∧ row[(if sparse then 3 else 0) + 6]?.bind String.toNat? = some t.dedup) := by
  unfold report
  rw [if_pos hm]
  generalize hf : (if metric = "FLOPs" then 2 else 1) = factor
  refine ⟨_, Report.header sparse metric, nodes.map (nodeRow pct sparse factor t), totalRow sparse factor t, if t.dedup ≠ t.params then [dedupRow sparse t] else [], rfl, ?_, ?_,
    totalRow_states _ _ _, ?_⟩
  · rw [read_write]
    · simp
    · intro row hr
      rcases List.mem_cons.mp hr with rfl | hr
      · cases sparse <;> exact List.cons_ne_nil _ _
      · rcases List.mem_append.mp hr with hr | hr
        · rcases List.mem_append.mp hr with hr | hr
          · obtain ⟨n, -, rfl⟩ := List.mem_map.mp hr
            exact List.cons_ne_nil _ _
          · rw [List.mem_singleton.mp hr]; exact List.cons_ne_nil _ _
        · split at hr
          · rw [List.mem_singleton.mp hr]; exact List.cons_ne_nil _ _
          · cases hr
    · intro row hr
      rcases List.mem_cons.mp hr with rfl | hr
      · exact header_plain _ _ hm
      · rcases List.mem_append.mp hr with hr | hr
        · rcases List.mem_append.mp hr with hr | hr
          · obtain ⟨n, hnm, rfl⟩ := List.mem_map.mp hr
            exact nodeRow_plain hp _ _ _ (hn n hnm).1 (hn n hnm).2.1
          · rw [List.mem_singleton.mp hr]; exact totalRow_plain _ _ _
        · split at hr
          · rw [List.mem_singleton.mp hr]; exact dedupRow_plain _ _
          · cases hr
  · rw [List.forall₂_map_left_iff, List.forall₂_same]
    exact fun n hnm => ⟨nodeRow_states _ _ _ _ _ (hn n hnm).2.2.1 (hn n hnm).2.2.2, nodeRow_shares _ _ _ _ _⟩
  · by_cases h : t.dedup = t.params
    · rw [if_pos h, if_neg (not_not.mpr h)]
    · rw [if_neg h, if_pos h]
      refine ⟨_, rfl, rfl, ?_⟩
      cases sparse <;> exact num_read _

/-- **C84, totals**: as long as they are at most `2 ^ 53`, the MACs accumulated by `profile` and all the totals shown are exact. -/
theorem C84_totals_exact (macs : List ℕ) (h : macs.sum ≤ 2 ^ 53) : f64 (accumulate macs) = macs.sum := by
  have : accumulate macs = macs.sum := by
    have := accumulate_from (ms := macs) (acc := 0) (by omega)
    rw [Nat.zero_add] at this
    exact this
  rw [this, f64_small h]

private theorem mem_le_sum {m : ℕ} : ∀ {l : List ℕ}, m ∈ l → m ≤ l.sum
  | a :: l, h => by
    rw [List.sum_cons]
    rcases List.mem_cons.1 h with rfl | h
    · omega
    · have := mem_le_sum h; omega

/-- **C84, shares**: with totals up to `2 ^ 53` each share is between 0 and 1, and together they are 1. -/
theorem C84_shares (macs : List ℕ) (h : macs.sum ≤ 2 ^ 53) (h0 : macs.sum ≠ 0) :
    (∀ m ∈ macs, 0 ≤ (m : ℚ) / (f64 macs.sum : ℚ) ∧ (m : ℚ) / (f64 macs.sum : ℚ) ≤ 1) ∧ (macs.map fun m : ℕ => (m : ℚ) / (f64 macs.sum : ℚ)).sum = 1 := by
  rw [f64_small h]
  have hp : (0 : ℚ) < (macs.sum : ℚ) := by exact_mod_cast Nat.pos_of_ne_zero h0
  refine ⟨fun m hm => ⟨div_nonneg (by exact_mod_cast Nat.zero_le _) hp.le, ?_⟩, ?_⟩
  · rw [div_le_one hp]
    exact_mod_cast mem_le_sum hm
  · have : ∀ (l : List ℕ) (d : ℚ), (l.map fun m : ℕ => (m : ℚ) / d).sum = (l.sum : ℚ) / d := by
      intro l d
      induction l with
      | nil => simp
      | cons a l ih => rw [List.map_cons, List.sum_cons, List.sum_cons, ih]; push_cast; ring
    rw [this, div_self hp.ne']

/-- **C84, larger totals** are off by at most one part in `2 ^ 53` … -/
theorem C84_totals_close (n : ℕ) : 2 ^ 53 * (f64 n - n) ≤ n ∧ 2 ^ 53 * (n - f64 n) ≤ n := f64_error n

/-- **C84, rounding.** The printed total is the 53-bit number nearest to the sum — the even one, if two are equally near. -/
theorem C84_totals_nearest (n d : ℕ) (h1 : 2 ^ (53 + d) ≤ n) (h2 : n < 2 ^ (54 + d)) :
    ∃ q, f64 n = q * 2 ^ (d + 1) ∧ 2 * n ≤ (2 * q + 1) * 2 ^ (d + 1) ∧ 2 * q * 2 ^ (d + 1) ≤ 2 * n + 2 ^ (d + 1) ∧
      (2 * n = (2 * q + 1) * 2 ^ (d + 1) ∨ 2 * q * 2 ^ (d + 1) = 2 * n + 2 ^ (d + 1) → Even q) := f64_nearest h1 h2

example : f64 (2 ^ 53 + 1) = 2 ^ 53 ∧ f64 (2 ^ 53 + 3) = 2 ^ 53 + 4 := by decide +kernel

/-- … **C84 finding**: so the total need not be the sum of the rows, which are exact, not even for a single node. -/
theorem C84_total_differs : ∃ n : NodeInfo, ∃ t : Sums, t.params = n.params ∧ t.memory = n.memory ∧
    ((nodeRow (fun _ => "") false 1 t n)[6]?.bind String.toNat?) ≠ ((totalRow false 1 t)[6]?.bind String.toNat?) := by
  refine ⟨⟨"a", "b", 0, 0, 2 ^ 53 + 1, [1], [1], [], 0, 0⟩, ⟨0, 0, 2 ^ 53 + 1, 2 ^ 53 + 1⟩, rfl, rfl, ?_⟩
  show (num2str (2 ^ 53 + 1)).toNat? ≠ (num2str (f64 (2 ^ 53 + 1))).toNat?
  rw [num_read, num_read]
  decide +kernel

/-- **C84 finding**: a node name with a comma shifts the columns of its row. -/
theorem C84_comma_shifts : ∃ (file : String) (row : List String), report (fun _ => "") false "MACs" ⟨1, 1, 1, 1⟩ [⟨"conv,1", "Conv", 1, 1, 1, [1], [1], [], 0, 0⟩] = .ok file ∧
    (readCsv file)[1]? = some row ∧ row[0]? = some "conv" ∧ row[1]? = some "1" ∧ row.length = 11 := by
  refine ⟨_, ["conv", "1", "Conv", "1", "", "1", "", "1", "", "1", "1"], rfl, by decide +kernel, rfl, rfl, rfl⟩

/-! ### profiling several models -/

theorem mem_union (s ops : List String) (o : String) : o ∈ union s ops ↔ o ∈ s ∨ o ∈ ops := by
  unfold union
  rw [List.mem_append, List.mem_filter]
  simp only [List.contains_eq_mem, Bool.not_eq_true', decide_eq_false_iff_not]
  constructor
  · rintro (h | h)
    · exact .inl h
    · exact .inr h.1
  · rintro (h | h)
    · exact .inl h
    · by_cases hs : o ∈ s
      · exact .inl hs
      · exact .inr ⟨h, hs⟩

theorem step_noMacs (valid : List String) (s : Sets) (c : Call) (o : String) :
    o ∈ (modelProfile valid s c).1.noMacs ↔ o ∈ s.noMacs ∨ o ∈ excludedByDefault valid [c] := by
  obtain ⟨ex, hid⟩ := c
  unfold modelProfile updateHidden excludedByDefault excludedByDefault
  by_cases h1 : ex = []
  · subst h1
    rw [if_pos rfl]
    cases hid <;> simp
  · rw [if_neg h1]
    by_cases h2 : ∃ x ∈ ex, x ∉ valid
    · rw [if_pos h2]
      have h3 : ¬ ∀ x ∈ ex, x ∈ valid := fun h => by obtain ⟨x, hx, hv⟩ := h2; exact hv (h x hx)
      cases hid <;> simp [h3]
    · rw [if_neg h2]
      have h3 : ∀ x ∈ ex, x ∈ valid := fun x hx => Classical.byContradiction fun hv => h2 ⟨x, hx, hv⟩
      cases hid
      · simp only [if_pos h3, List.append_nil]; exact mem_union _ _ _
      · simp
      · simp

/-- **C85, what a call hides (partial)**: for every sequence of calls, the set of operators hidden by default afterwards is the initial one with everything that the successful calls with default
`hidden_ops` have excluded. -/
theorem C85_default_grows_partial (valid : List String) (s : Sets) (cs : List Call) (o : String) :
    o ∈ (session valid s cs).1.noMacs ↔ o ∈ s.noMacs ∨ o ∈ excludedByDefault valid cs := by
  induction cs generalizing s with
  | nil => simp [session, excludedByDefault]
  | cons c cs ih =>
    rw [session]
    simp only
    rw [ih, step_noMacs, excludedByDefault, excludedByDefault.eq_def valid (c :: cs)]
    simp only [excludedByDefault, List.append_nil, List.mem_append, or_assoc]

/-- **C85 finding**: a call without arguments leaves out every operator that an earlier call excluded. -/
theorem C85_leaks (valid : List String) (s : Sets) (before after : List Call) (ops : List String) (h : ∀ o ∈ ops, o ∈ valid) (o : String) (ho : o ∈ ops) :
    ∃ hid, (modelProfile valid (session valid s (before ++ ⟨ops, .default⟩ :: after)).1 ⟨[], .default⟩).2 = .ok hid ∧ o ∈ hid := by
  refine ⟨(session valid s (before ++ ⟨ops, .default⟩ :: after)).1.noMacs, rfl, (C85_default_grows_partial _ _ _ _).mpr (.inr ?_)⟩
  have : ∀ (xs ys : List Call), o ∈ excludedByDefault valid ys → o ∈ excludedByDefault valid (xs ++ ys) := by
    intro xs ys hy
    induction xs with
    | nil => exact hy
    | cons x xs ih => exact List.mem_append_right _ ih
  refine this _ _ ?_
  rw [excludedByDefault]
  simp only
  rw [if_pos h]
  exact List.mem_append_left _ ho

/-- **C85, no exclusions**: calls that exclude nothing leave all sets alone, and hide exactly what they were given. -/
theorem C85_pure_calls (valid : List String) (s : Sets) (hid : Hidden) : modelProfile valid s ⟨[], hid⟩ = (s, .ok (s.get hid)) := by
  unfold modelProfile updateHidden
  rw [if_pos rfl]

/-- **C85, a set of the caller's own**: the call hides its elements and the excluded operators, whatever happened before; the default stays as it is; but the set itself is changed. -/
theorem C85_own_set (valid : List String) (s : Sets) (obj : String) (ops : List String) (h : ∀ o ∈ ops, o ∈ valid) :
    ∃ s' hid, modelProfile valid s ⟨ops, .set obj⟩ = (s', .ok hid) ∧ (∀ o, o ∈ hid ↔ o ∈ s.user obj ∨ o ∈ ops) ∧ s'.noMacs = s.noMacs ∧ s'.user obj = hid ∧
      ∀ x, x ≠ obj → s'.user x = s.user x := by
  by_cases h1 : ops = []
  · subst h1
    exact ⟨s, s.user obj, C85_pure_calls _ _ _, by simp, rfl, rfl, fun _ _ => rfl⟩
  · have h2 : ¬ ∃ o ∈ ops, o ∉ valid := fun ⟨o, ho, hv⟩ => hv (h o ho)
    refine ⟨{ s with user := fun x => if x = obj then union (s.user obj) ops else s.user x }, union (s.user obj) ops, ?_, mem_union _ _, rfl, if_pos rfl, fun x hx => if_neg hx⟩
    unfold modelProfile updateHidden
    simp only [if_neg h1, if_neg h2, Sets.get, if_pos]

/-- **C85, the default call** hides what the set holds and what it excludes. -/
theorem C85_default_set (valid : List String) (s : Sets) (ops : List String) (h : ∀ o ∈ ops, o ∈ valid) :
    ∃ s' hid, modelProfile valid s ⟨ops, .default⟩ = (s', .ok hid) ∧ (∀ o, o ∈ hid ↔ o ∈ s.noMacs ∨ o ∈ ops) ∧ s'.noMacs = hid ∧ s'.user = s.user := by
  by_cases h1 : ops = []
  · subst h1
    exact ⟨s, s.noMacs, C85_pure_calls _ _ _, by simp, rfl, rfl⟩
  · have h2 : ¬ ∃ o ∈ ops, o ∉ valid := fun ⟨o, ho, hv⟩ => hv (h o ho)
    refine ⟨{ s with noMacs := union s.noMacs ops }, union s.noMacs ops, ?_, mem_union _ _, rfl, rfl⟩
    unfold modelProfile updateHidden
    simp only [if_neg h1, if_neg h2, Sets.get]

/-- **C85, errors**: an operator that ONNX does not know raises `AssertionError` and changes nothing; a list of hidden operators — which the signature announces — raises `AttributeError` as soon
as anything is excluded. -/
theorem C85_errors (valid : List String) (s : Sets) (ops l : List String) (hid : Hidden) (hne : ops ≠ []) :
    ((∃ o ∈ ops, o ∉ valid) → modelProfile valid s ⟨ops, hid⟩ = (s, .error .assertion)) ∧
    ((∀ o ∈ ops, o ∈ valid) → modelProfile valid s ⟨ops, .list l⟩ = (s, .error .attributeError)) := by
  constructor
  · intro h
    unfold modelProfile updateHidden
    simp only [if_neg hne, if_pos h]
  · intro h
    have h2 : ¬ ∃ o ∈ ops, o ∉ valid := fun ⟨o, ho, hv⟩ => hv (h o ho)
    unfold modelProfile updateHidden
    simp only [if_neg hne, if_neg h2]

/-! ### examples -/

/-- profiling one model without its convolutions hides the convolutions of the next one -/
example : (session ["Conv", "Relu"] ⟨["Identity"], fun _ => []⟩ [⟨[], .default⟩, ⟨["Conv"], .default⟩, ⟨[], .default⟩]).2.map Except.toOption =
    [some ["Identity"], some ["Identity", "Conv"], some ["Identity", "Conv"]] := by decide

/-- the hypotheses of `C84_report` hold for a network of two nodes -/
example : ∀ n ∈ [(⟨"conv1", "Conv", 100, 10, 20, [1, 3], [1, 4], [1, 1], 0, 0⟩ : NodeInfo), ⟨"relu1", "Relu", 4, 10, 0, [1, 4], [1, 4], [1, 1], 0, 0⟩],
    Plain n.name ∧ Plain n.op ∧ n.inshape ≠ [] ∧ n.outshape ≠ [] := by
  intro n hn
  simp only [List.mem_cons, List.not_mem_nil, or_false] at hn
  rcases hn with rfl | rfl <;> exact ⟨plain_of _ (by decide), plain_of _ (by decide), by decide, by decide⟩

end OnnxTool.Props
