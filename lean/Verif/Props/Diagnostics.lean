import Mathlib.Tactic.Ring
import Mathlib.Tactic.Linarith
import Mathlib.Tactic.FieldSimp
import Mathlib.Tactic.NormNum
import Mathlib.Algebra.BigOperators.Group.List.Basic
import Verif.Proofs.Dict
import Verif.Spec.Diagnostics
/-!
# C110: the engine's diagnostics describe the run that happened
-/
namespace OnnxTool.Props
open OnnxTool OnnxTool.Diagnostics

private theorem addTo_get {α : Type} [AddCommMonoid α] (d : Dict α) (k q : String) (v : α) :
    (addTo d k v).get? q = if k = q then some ((d.get? k).getD 0 + v) else d.get? q := Dict.get?_set ..

/-- accumulating into a dictionary -/
private theorem fold_get {β α : Type} [AddCommMonoid α] (key : β → String) (val : β → α) (l : List β) (d : Dict α) (q : String) :
    (l.foldl (fun d b => addTo d (key b) (val b)) d).get? q =
      if (l.filter fun b => key b = q) = [] then d.get? q
      else some ((d.get? q).getD 0 + ((l.filter fun b => key b = q).map val).sum) := by
  induction l generalizing d with
  | nil => rfl
  | cons b l ih =>
    rw [List.foldl_cons, ih, addTo_get]
    by_cases hb : key b = q
    · subst hb
      have : (b :: l).filter (fun c => key c = key b) = b :: l.filter (fun c => key c = key b) := by
        rw [List.filter_cons_of_pos (by simp)]
      rw [this, if_pos rfl, if_neg (List.cons_ne_nil _ _), List.map_cons, List.sum_cons]
      split
      · rename_i h
        rw [h]
        simp
      · rw [Option.getD_some, add_assoc]
    · rw [if_neg hb, List.filter_cons_of_neg (by simpa using hb)]

private theorem set_sum {α : Type} [AddCommMonoid α] (d : Dict α) (hd : d.keys.Nodup) (k : String) (v : α) :
    ((addTo d k v).map (·.2)).sum = (d.map (·.2)).sum + v := by
  unfold addTo
  induction d with
  | nil => simp [Dict.set, Dict.get?]
  | cons a d ih =>
    obtain ⟨k', w⟩ := a
    have hd' : Dict.keys d |>.Nodup := (List.nodup_cons.1 hd).2
    by_cases h : k' = k
    · simp [Dict.set, Dict.get?, h]
      ac_rfl
    · have := ih hd'
      simp only [Dict.set, Dict.get?, h, if_false, List.map_cons, List.sum_cons] at this ⊢
      rw [this]
      ac_rfl

private theorem fold_sum {β α : Type} [AddCommMonoid α] (key : β → String) (val : β → α) (l : List β) (d : Dict α) (hd : d.keys.Nodup) :
    ((l.foldl (fun d b => addTo d (key b) (val b)) d).map (·.2)).sum = (d.map (·.2)).sum + (l.map val).sum ∧
    (l.foldl (fun d b => addTo d (key b) (val b)) d).keys.Nodup := by
  induction l generalizing d with
  | nil => simp [hd]
  | cons b l ih =>
    obtain ⟨h1, h2⟩ := ih (addTo d (key b) (val b)) (Dict.nodup_keys_set _ _ hd)
    refine ⟨?_, h2⟩
    rw [List.foldl_cons, h1, set_sum d hd, List.map_cons, List.sum_cons, add_assoc]

private theorem record_eq (cs : List Clock) (p : Prof) : (cs.foldl note p) =
    { opTime := cs.foldl (fun d c => addTo d c.op (c.t3 - c.t2)) p.opTime
      opCount := cs.foldl (fun d c => addTo d c.op 1) p.opCount
      laps := p.laps ++ cs.map fun c => ⟨c.node, c.op, c.resolve - c.t0, c.prepare - c.resolve, c.lookup - c.prepare, c.t3 - c.t2⟩
      overhead := p.overhead + (cs.map fun c => c.lookup - c.t0).sum } := by
  induction cs generalizing p with
  | nil => simp
  | cons c cs ih =>
    rw [List.foldl_cons, ih]
    simp only [note, List.foldl_cons, List.map_cons, List.sum_cons, List.append_assoc, List.singleton_append, add_assoc]

/-- **C110, per operator.**  The time and the count of an operator are those of exactly its nodes; an operator that did not run has no entry. -/
theorem C110_times (cs : List Clock) (op : String) :
    (record cs).opTime.get? op = (if nodesOf cs op = 0 then none else some (kernelTime cs op)) ∧
    (record cs).opCount.get? op = (if nodesOf cs op = 0 then none else some (nodesOf cs op)) := by
  unfold record
  rw [record_eq]
  have e : (nodesOf cs op = 0) = ((cs.filter fun c => decide (c.op = op)) = []) := by
    simp [nodesOf]
  constructor
  · show (cs.foldl (fun d c => addTo d c.op (c.t3 - c.t2)) []).get? op = _
    rw [fold_get]
    simp only [e]
    split
    · rfl
    · simp [Dict.get?, kernelTime]
  · show (cs.foldl (fun d c => addTo d c.op 1) ([] : Dict Nat)).get? op = _
    rw [fold_get]
    simp only [e]
    split
    · rfl
    · simp [Dict.get?, nodesOf]

/-- **C110, totals.**  The operator times add up to the time of all kernels, the counts to the number of nodes, and the three parts of the
overhead to the overhead; every node has one entry, in order. -/
theorem C110_totals (cs : List Clock) : ((record cs).opTime.map (·.2)).sum = allKernels cs ∧ ((record cs).opCount.map (·.2)).sum = cs.length ∧
    (record cs).overhead = allBefore cs ∧
    (breakdown (record cs)).1 + (breakdown (record cs)).2.1 + (breakdown (record cs)).2.2 = (record cs).overhead ∧
    (record cs).laps.map (fun l => (l.node, l.op, l.kernel)) = cs.map fun c => (c.node, c.op, c.t3 - c.t2) := by
  unfold record
  rw [record_eq]
  refine ⟨?_, ?_, ?_, ?_, ?_⟩
  · rw [(fold_sum (fun c : Clock => c.op) (fun c : Clock => c.t3 - c.t2) cs [] List.nodup_nil).1]
    simp [allKernels]
  · rw [(fold_sum (fun c : Clock => c.op) (fun _ => 1) cs ([] : Dict Nat) List.nodup_nil).1]
    simp
  · simp [allBefore]
  · simp only [breakdown, List.nil_append, List.map_map, zero_add]
    induction cs with
    | nil => simp
    | cons c cs ih =>
      simp only [List.map_cons, List.sum_cons, Function.comp_apply] at ih ⊢
      linarith
  · simp

private theorem opTime_nodup (cs : List Clock) : (record cs).opTime.keys.Nodup := by
  unfold record
  rw [record_eq]
  exact (fold_sum (fun c : Clock => c.op) (fun c : Clock => c.t3 - c.t2) cs [] List.nodup_nil).2

private theorem desc_perm {α : Type} (key : α → ℚ) (l : List α) : (descending key l).Perm l := List.perm_insertionSort _ l

private theorem desc_sorted {α : Type} (key : α → ℚ) (l : List α) : (descending key l).Pairwise fun a b => key b ≤ key a := by
  have : Std.Total (fun a b : α => key b ≤ key a) := ⟨fun a b => le_total _ _⟩
  have : IsTrans α (fun a b : α => key b ≤ key a) := ⟨fun a b c h1 h2 => le_trans h2 h1⟩
  exact List.pairwise_insertionSort _ l

private theorem rows_ok (p : Prof) (total : ℚ) (es : List (String × ℚ)) (ht : total ≠ 0)
    (hc : ∀ e ∈ es, ∃ c, p.opCount.get? e.1 = some c ∧ c ≠ 0) : ∃ rs, rows p total es = .ok rs ∧
    rs.map (fun r => (r.op, r.time)) = es ∧ (∀ r ∈ rs, p.opCount.get? r.op = some r.count ∧ r.avg = r.time / r.count * 1000 ∧ r.pct = r.time / total * 100) := by
  induction es with
  | nil => exact ⟨[], rfl, rfl, by simp⟩
  | cons e es ih =>
    obtain ⟨rs, h1, h2, h3⟩ := ih fun x hx => hc x (List.mem_cons_of_mem _ hx)
    obtain ⟨c, h4, h5⟩ := hc e List.mem_cons_self
    refine ⟨⟨e.1, c, e.2, e.2 / c * 1000, e.2 / total * 100⟩ :: rs, ?_, ?_, ?_⟩
    · rw [rows, row, h4]
      simp only [if_neg h5, if_neg ht, h1]
    · rw [List.map_cons, h2]
    · intro r hr
      rcases List.mem_cons.1 hr with rfl | hr
      · exact ⟨h4, rfl, rfl⟩
      · exact h3 r hr

private theorem get_of_mem {α : Type} {d : Dict α} (hd : d.keys.Nodup) {e : String × α} (he : e ∈ d) : d.get? e.1 = some e.2 := by
  induction d with
  | nil => simp at he
  | cons a d ih =>
    obtain ⟨k, v⟩ := a
    have hd2 := List.nodup_cons.1 hd
    rcases List.mem_cons.1 he with rfl | he
    · simp [Dict.get?]
    · have : e.1 ∈ Dict.keys d := List.mem_map_of_mem he
      rw [Dict.get?, if_neg (fun h : k = e.1 => hd2.1 (h ▸ this)), ih hd2.2 he]

/-- what a report says, all at once -/
private theorem report_ok (cs : List Clock) (ht : allKernels cs + allBefore cs ≠ 0) : ∃ r, report (record cs) = .ok r ∧
    r.total = allKernels cs + allBefore cs ∧ r.kernel = allKernels cs ∧ r.overhead = allBefore cs ∧ r.nodes = cs.length ∧
    r.kernelPct = allKernels cs / r.total * 100 ∧ r.overheadPct = allBefore cs / r.total * 100 ∧
    (r.table.map (fun x => (x.op, x.time)) = descending (·.2) (record cs).opTime) ∧
    (∀ x ∈ r.table, (record cs).opCount.get? x.op = some x.count ∧ x.avg = x.time / x.count * 1000 ∧ x.pct = x.time / r.total * 100) ∧
    r.shares = (pctOr0 (breakdown (record cs)).1 (allBefore cs), pctOr0 (breakdown (record cs)).2.1 (allBefore cs), pctOr0 (breakdown (record cs)).2.2 (allBefore cs)) ∧
    r.slowest = (descending Lap.time (record cs).laps).take 10 := by
  obtain ⟨k1, k2, k3, -, -⟩ := C110_totals cs
  have hc : ∀ e ∈ descending (·.2) (record cs).opTime, ∃ c, (record cs).opCount.get? e.1 = some c ∧ c ≠ 0 := by
    intro e he
    have he := (desc_perm _ _).mem_iff.1 he
    have hg := get_of_mem (opTime_nodup cs) he
    obtain ⟨t1, t2⟩ := C110_times cs e.1
    rw [hg] at t1
    by_cases hz : nodesOf cs e.1 = 0
    · rw [if_pos hz] at t1
      exact absurd t1 (by simp)
    · rw [if_neg hz] at t2
      exact ⟨_, t2, hz⟩
  obtain ⟨rs, h1, h2, h3⟩ := rows_ok (record cs) (allKernels cs + allBefore cs) _ ht hc
  unfold report
  simp only [k1, k2, k3, h1, if_neg ht]
  exact ⟨_, rfl, rfl, rfl, rfl, rfl, rfl, rfl, h2, h3, rfl, rfl⟩

/-- **C110, the table.**  Every operator that ran has exactly one line, showing its number of nodes, its kernel time, its mean in milliseconds
and its percentage of the total; the lines are in descending order of time. -/
theorem C110_table (cs : List Clock) (r : Report) (h : report (record cs) = .ok r) :
    (r.table.map (·.op)).Nodup ∧ (∀ op, op ∈ r.table.map (·.op) ↔ ∃ c ∈ cs, c.op = op) ∧
    (∀ x ∈ r.table, x.count = nodesOf cs x.op ∧ x.time = kernelTime cs x.op ∧ x.avg = kernelTime cs x.op / nodesOf cs x.op * 1000 ∧
      x.pct = kernelTime cs x.op / r.total * 100) ∧
    r.table.Pairwise fun a b => b.time ≤ a.time := by
  by_cases ht : allKernels cs + allBefore cs = 0
  · obtain ⟨k1, k2, k3, -, -⟩ := C110_totals cs
    unfold report at h
    simp only [k1, k3, ht] at h
    split at h <;> simp at h
  · obtain ⟨r', h', -, -, -, -, -, -, h2, h3, -, -⟩ := report_ok cs ht
    rw [h] at h'
    injection h' with h'
    subst h'
    have hp : (r.table.map (·.op)).Perm (record cs).opTime.keys := by
      have := ((desc_perm (·.2) (record cs).opTime).map (·.1))
      rw [← h2, List.map_map] at this
      exact this
    refine ⟨hp.nodup_iff.2 (opTime_nodup cs), ?_, ?_, ?_⟩
    · intro op
      rw [hp.mem_iff, ← Dict.get?_isSome_iff, (C110_times cs op).1]
      by_cases hz : nodesOf cs op = 0
      · rw [if_pos hz]
        have : ∀ c ∈ cs, ¬ c.op = op := by simpa [nodesOf] using hz
        simpa using this
      · rw [if_neg hz]
        have : ∃ c ∈ cs, c.op = op := by simpa [nodesOf] using hz
        simpa using this
    · intro x hx
      obtain ⟨a1, a2, a3⟩ := h3 x hx
      have hm : (x.op, x.time) ∈ (record cs).opTime := by
        rw [← (desc_perm (·.2) _).mem_iff, ← h2]
        exact List.mem_map_of_mem hx
      have hg := get_of_mem (opTime_nodup cs) hm
      obtain ⟨t1, t2⟩ := C110_times cs x.op
      by_cases hz : nodesOf cs x.op = 0
      · rw [if_pos hz] at t1
        rw [t1] at hg
        exact absurd hg (by simp)
      · rw [if_neg hz] at t1 t2
        rw [t1] at hg
        rw [t2] at a1
        injection hg with hg
        injection a1 with a1
        simp only at hg
        rw [a2, a3, ← hg, ← a1]
        exact ⟨rfl, rfl, rfl, rfl⟩
    · have := desc_sorted (·.2) (record cs).opTime
      rw [← h2, List.pairwise_map] at this
      exact this

/-- **C110, percentages.**  Kernel and overhead percentages add up to 100, the table's percentages to the kernel percentage, the total is kernel
time plus overhead, and, when there was any overhead, the shares of its three parts add up to 100. -/
theorem C110_percentages (cs : List Clock) (r : Report) (h : report (record cs) = .ok r) :
    r.kernelPct + r.overheadPct = 100 ∧ (r.table.map (·.pct)).sum = r.kernelPct ∧ (r.table.map (·.count)).sum = r.nodes ∧ r.nodes = cs.length ∧
    r.total = allKernels cs + allBefore cs ∧ r.kernel = allKernels cs ∧ r.overhead = allBefore cs ∧
    (0 < r.overhead → r.shares.1 + r.shares.2.1 + r.shares.2.2 = 100) := by
  by_cases ht : allKernels cs + allBefore cs = 0
  · obtain ⟨k1, k2, k3, -, -⟩ := C110_totals cs
    unfold report at h
    simp only [k1, k3, ht] at h
    split at h <;> simp at h
  · have htab := C110_table cs r h
    obtain ⟨r', h', e1, e2, e3, e4, e5, e6, h2, h3, e7, -⟩ := report_ok cs ht
    rw [h] at h'
    injection h' with h'
    subst h'
    obtain ⟨k1, k2, k3, k4, -⟩ := C110_totals cs
    refine ⟨?_, ?_, ?_, e4, e1, e2, e3, ?_⟩
    · rw [e5, e6, e1]
      field_simp
    · have e : r.table.map (·.pct) = (r.table.map (·.time)).map (fun t => t / r.total * 100) := by
        rw [List.map_map]
        apply List.map_congr_left
        intro x hx
        exact (h3 x hx).2.2
      have hs : ∀ l : List ℚ, (l.map fun t => t / r.total * 100).sum = l.sum / r.total * 100 := by
        intro l
        induction l with
        | nil => simp
        | cons a l ih => simp only [List.map_cons, List.sum_cons, ih]; ring
      have e' : (r.table.map (·.time)).sum = allKernels cs := by
        have := ((desc_perm (·.2) (record cs).opTime).map (·.2)).sum_eq
        rw [← h2, List.map_map, k1] at this
        exact this
      rw [e, hs, e', e5]
    · rw [e4, ← k2]
      have hc : (record cs).opCount.keys.Nodup := by
        unfold record
        rw [record_eq]
        exact (fold_sum (fun c : Clock => c.op) (fun _ => 1) cs ([] : Dict Nat) List.nodup_nil).2
      have hp : (r.table.map fun x => (x.op, x.count)).Perm (record cs).opCount := by
        apply (List.perm_ext_iff_of_nodup ?_ ?_).2
        · intro e
          constructor
          · intro he
            obtain ⟨x, hx, rfl⟩ := List.mem_map.1 he
            exact Dict.get?_mem (h3 x hx).1
          · intro he
            have hg := get_of_mem hc he
            have hz : nodesOf cs e.1 ≠ 0 := by
              intro hz
              rw [(C110_times cs e.1).2, if_pos hz] at hg
              exact absurd hg (by simp)
            have : e.1 ∈ r.table.map (·.op) := by
              rw [htab.2.1]
              simpa [nodesOf] using hz
            obtain ⟨x, hx, hxe⟩ := List.mem_map.1 this
            have h5 := (h3 x hx).1
            rw [hxe, hg] at h5
            injection h5 with h5
            exact List.mem_map.2 ⟨x, hx, Prod.ext hxe h5.symm⟩
        · apply List.Nodup.of_map (·.1)
          rw [List.map_map]
          exact htab.1
        · exact List.Nodup.of_map Prod.fst hc
      have := (hp.map (·.2)).sum_eq
      rw [List.map_map] at this
      exact this
    · intro ho
      rw [e3] at ho
      rw [e7]
      simp only [pctOr0, if_pos ho]
      rw [k3] at k4
      have : allBefore cs ≠ 0 := ne_of_gt ho
      field_simp
      linarith

/-- **C110, the report exists** exactly when the total is not 0; with a total of 0, in particular for a graph without nodes, printing fails. -/
theorem C110_printable (cs : List Clock) : (∃ r, report (record cs) = .ok r) ↔ allKernels cs + allBefore cs ≠ 0 := by
  constructor
  · rintro ⟨r, h⟩ ht
    obtain ⟨k1, k2, k3, -, -⟩ := C110_totals cs
    unfold report at h
    simp only [k1, k3, ht] at h
    split at h <;> simp at h
  · intro ht
    obtain ⟨r, h, -⟩ := report_ok cs ht
    exact ⟨r, h⟩

/-- **C110, the failure** is a division by zero; a graph without nodes always fails so. -/
theorem C110_zero_total (cs : List Clock) (ht : allKernels cs + allBefore cs = 0) : report (record cs) = .error .zeroDivision := by
  obtain ⟨k1, k2, k3, -, -⟩ := C110_totals cs
  unfold report
  simp only [k1, k3, ht]
  cases hd : descending (·.2) (record cs).opTime with
  | nil => rfl
  | cons e es =>
    have he : e ∈ (record cs).opTime := (desc_perm (·.2) _).mem_iff.1 (by rw [hd]; exact List.mem_cons_self)
    have hg := get_of_mem (opTime_nodup cs) he
    obtain ⟨t1, t2⟩ := C110_times cs e.1
    by_cases hz : nodesOf cs e.1 = 0
    · rw [if_pos hz] at t1
      rw [t1] at hg
      exact absurd hg (by simp)
    · rw [if_neg hz] at t2
      simp only [rows, row, t2, if_neg hz, if_true]

example : allKernels [] + allBefore [] = 0 := by decide +kernel

private theorem readings_cons (c : Clock) (cs : List Clock) : readings (c :: cs) = [c.t0, c.resolve, c.prepare, c.lookup, c.t2, c.t3] ++ readings cs := rfl

/-- **C110, no more than was measured.**  If the clock never runs backwards, nothing shown is negative and the total is at most the time between
the first and the last reading. -/
theorem C110_elapsed (cs : List Clock) (a b : ℚ) (hc : ClockOk cs) (ha : ∀ t ∈ readings cs, a ≤ t) (hb : ∀ t ∈ readings cs, t ≤ b) (hab : a ≤ b) :
    allKernels cs + allBefore cs ≤ b - a ∧ 0 ≤ allKernels cs ∧ 0 ≤ allBefore cs ∧ (∀ op, 0 ≤ kernelTime cs op) := by
  have main : ∀ (cs : List Clock) (a : ℚ), ClockOk cs → (∀ t ∈ readings cs, a ≤ t) → (∀ t ∈ readings cs, t ≤ b) → a ≤ b →
      allKernels cs + allBefore cs ≤ b - a := by
    intro cs
    induction cs with
    | nil => intro a _ _ _ h; simp [allKernels, allBefore]; linarith
    | cons c cs ih =>
      intro a hc ha hb hab
      unfold ClockOk at hc
      rw [readings_cons, List.pairwise_append] at hc
      obtain ⟨h1, h2, h3⟩ := hc
      simp only [List.pairwise_cons, List.mem_cons, forall_eq_or_imp, List.not_mem_nil] at h1
      have h0 : a ≤ c.t0 := ha _ (by rw [readings_cons]; simp)
      have ht : c.t3 ≤ b := hb _ (by rw [readings_cons]; simp)
      have := ih c.t3 h2 (fun t ht => h3 _ (by simp) t ht) (fun t ht => hb t (by rw [readings_cons]; exact List.mem_append_right _ ht)) ht
      simp only [allKernels, allBefore, List.map_cons, List.sum_cons] at this ⊢
      linarith [h1.2.2.2.1.1]
  have each : ∀ c ∈ cs, 0 ≤ c.t3 - c.t2 ∧ 0 ≤ c.lookup - c.t0 := by
    clear ha hb hab main
    induction cs with
    | nil => simp
    | cons c cs ih =>
      unfold ClockOk at hc
      rw [readings_cons, List.pairwise_append] at hc
      obtain ⟨h1, h2, h3⟩ := hc
      simp only [List.pairwise_cons, List.mem_cons, forall_eq_or_imp, List.not_mem_nil] at h1
      intro x hx
      rcases List.mem_cons.1 hx with rfl | hx
      · exact ⟨by linarith [h1.2.2.2.2.1.1], by linarith [h1.1.2.2.1]⟩
      · exact ih h2 x hx
  have nn : ∀ (l : List Clock) (f : Clock → ℚ), (∀ c ∈ l, 0 ≤ f c) → 0 ≤ (l.map f).sum := by
    intro l f hf
    induction l with
    | nil => simp
    | cons c l ih =>
      rw [List.map_cons, List.sum_cons]
      exact add_nonneg (hf c List.mem_cons_self) (ih fun x hx => hf x (List.mem_cons_of_mem _ hx))
  refine ⟨main cs a hc ha hb hab, nn _ _ fun c h => (each c h).1, nn _ _ fun c h => (each c h).2, fun op => nn _ _ fun c h => (each c (List.mem_filter.1 h).1).1⟩

/-- what a node took: its kernel and the three steps before it -/
def tookAll (l : Lap) : ℚ := l.kernel + l.resolve + l.prepare + l.lookup

/-- **C110, the slowest nodes.**  The list shows ten nodes, or all of them if there are fewer; it is in descending order of time, and no node left
out took longer than one shown. -/
theorem C110_slowest (cs : List Clock) (r : Report) (h : report (record cs) = .ok r) : r.slowest.length = min 10 cs.length ∧
    (r.slowest.Pairwise fun a b => tookAll b ≤ tookAll a) ∧ ∃ rest, (r.slowest ++ rest).Perm (record cs).laps ∧ ∀ a ∈ r.slowest, ∀ b ∈ rest, tookAll b ≤ tookAll a := by
  obtain ⟨r', h', -, -, -, -, -, -, -, -, -, e⟩ := report_ok cs ((C110_printable cs).1 ⟨r, h⟩)
  rw [h] at h'
  injection h' with h'
  subst h'
  have hs := desc_sorted Lap.time (record cs).laps
  have hp := desc_perm Lap.time (record cs).laps
  have hl : (record cs).laps.length = cs.length := by
    have := congrArg List.length (C110_totals cs).2.2.2.2
    simpa using this
  rw [e]
  refine ⟨by rw [List.length_take, hp.length_eq, hl], hs.sublist (List.take_sublist _ _), (descending Lap.time (record cs).laps).drop 10, ?_, ?_⟩
  · rw [List.take_append_drop]; exact hp
  · rw [← List.take_append_drop 10 (descending Lap.time (record cs).laps), List.pairwise_append] at hs
    exact hs.2.2

private def sampleRun : List Clock :=
  [⟨"a", "Conv", 0, 1, 2, 3, 3, 10⟩, ⟨"b", "Relu", 10, 11, 11, 12, 13, 14⟩, ⟨"c", "Conv", 14, 15, 16, 17, 17, 19⟩]

example : ClockOk sampleRun := by unfold ClockOk readings sampleRun; simp; norm_num

example : (report (record sampleRun)).toOption.map (fun r => (r.total, r.table.map fun x => (x.op, x.count, x.time))) =
    some (18, [("Conv", 2, 9), ("Relu", 1, 1)]) := by decide +kernel

/-! ### Overlaps -/

/-- **C110, overlap check.**  `[OK]` is printed exactly when no two of the listed blocks share a byte, blocks of no bytes aside. -/
theorem C110_overlap (blocks : Dict (Nat × Nat)) (input output : List String) (hpos : ∀ t b, blocks.get? t = some b → 0 < b.2) :
    checkOverlap blocks input output = [] ↔ (input ++ output).Pairwise fun s t => ∀ a b, blocks.get? s = some a → blocks.get? t = some b → ¬ ShareByte a b := by
  unfold checkOverlap nodeBlocks
  generalize input ++ output = ts
  induction ts with
  | nil => simp [overlaps]
  | cons s ts ih =>
    cases hs : blocks.get? s with
    | none =>
      rw [List.filterMap_cons_none (by rw [hs]; rfl), ih, List.pairwise_cons]
      simp [hs]
    | some a =>
      rw [List.filterMap_cons_some (b := (s, a.1, a.1 + a.2)) (by rw [hs]; rfl), overlaps, List.append_eq_nil_iff, ih, List.pairwise_cons,
        List.map_eq_nil_iff, List.filter_eq_nil_iff]
      apply and_congr_left'
      have hap := hpos s a hs
      constructor
      · intro h t ht a' b ha' hb hsh
        rw [hs] at ha'
        injection ha' with ha'
        subst ha'
        have := h (t, b.1, b.1 + b.2) (List.mem_filterMap.2 ⟨t, ht, by rw [hb]; rfl⟩)
        obtain ⟨i, hi⟩ := hsh
        simp only [decide_eq_true_eq] at this
        omega
      · intro h x hx
        obtain ⟨t, ht, hx⟩ := List.mem_filterMap.1 hx
        cases hb : blocks.get? t with
        | none => rw [hb] at hx; cases hx
        | some b =>
          rw [hb] at hx
          injection hx with hx
          subst hx
          have hbp := hpos t b hb
          have := h t ht a b hs hb
          simp only [decide_eq_true_eq]
          intro hh
          apply this
          rcases Nat.le_total a.1 b.1 with hle | hle
          · exact ⟨b.1, by omega, by omega⟩
          · exact ⟨a.1, by omega, by omega⟩

/-- **C110, a false alarm.**  A node that reads the same tensor twice is reported although nothing is wrong. -/
theorem C110_same_operand (blocks : Dict (Nat × Nat)) (t : String) (b : Nat × Nat) (hb : blocks.get? t = some b) (hp : 0 < b.2) :
    checkOverlap blocks [t, t] [] = [(t, t)] := by
  unfold checkOverlap nodeBlocks
  have : b.1 < b.1 + b.2 := by omega
  simp [hb, overlaps, this]

example : checkOverlap [("x", 0, 64), ("y", 64, 64), ("z", 32, 64)] ["x", "y"] ["z"] = [("x", "z"), ("y", "z")] := by decide

/-! ### Summary -/

/-- **C110, operator counts.**  The summary's count of an operator is the number of its nodes. -/
theorem C110_counts (ops : List String) (op : String) : ((opCounts ops).get? op).getD 0 = ops.count op ∧
    ((opCounts ops).map (·.2)).sum = ops.length ∧ (opCounts ops).keys.Nodup := by
  unfold opCounts
  refine ⟨?_, ?_, ?_⟩
  · rw [fold_get (fun s : String => s) (fun _ => 1) ops ([] : Dict Nat) op]
    rw [List.count_eq_length_filter]
    have e : (ops.filter fun b => decide (b = op)) = ops.filter (· == op) := rfl
    split
    · rename_i h
      rw [e] at h
      rw [h]
      rfl
    · rw [e]
      simp [Dict.get?]
  · rw [(fold_sum (fun s : String => s) (fun _ => 1) ops ([] : Dict Nat) List.nodup_nil).1]
    simp
  · exact (fold_sum (fun s : String => s) (fun _ => 1) ops ([] : Dict Nat) List.nodup_nil).2

/-- **C110, the largest tensor** shown is a pooled tensor, none is larger, and it is the first of its size; without pooled tensors the summary
fails. -/
theorem C110_largest (l : List (String × Nat × Nat)) : (l = [] → largest l = .error .valueError) ∧
    (l ≠ [] → ∃ pre m post, l = pre ++ m :: post ∧ largest l = .ok m ∧ (∀ x ∈ pre, x.2.2 < m.2.2) ∧ ∀ x ∈ post, x.2.2 ≤ m.2.2) := by
  constructor
  · rintro rfl; rfl
  · have main : ∀ (l : List (String × Nat × Nat)) (pre : List (String × Nat × Nat)) (a : String × Nat × Nat) (mid : List (String × Nat × Nat)),
        (∀ x ∈ pre, x.2.2 < a.2.2) → (∀ x ∈ mid, x.2.2 ≤ a.2.2) → ∃ p m q, pre ++ a :: (mid ++ l) = p ++ m :: q ∧ l.foldl larger a = m ∧
          (∀ x ∈ p, x.2.2 < m.2.2) ∧ ∀ x ∈ q, x.2.2 ≤ m.2.2 := by
      intro l
      induction l with
      | nil => intro pre a mid h1 h2; exact ⟨pre, a, mid, by simp, rfl, h1, h2⟩
      | cons b l ih =>
        intro pre a mid h1 h2
        rw [List.foldl_cons]
        unfold larger
        split
        · rename_i hlt
          obtain ⟨p, m, q, e, r⟩ := ih (pre ++ a :: mid) b [] (by
            intro x hx
            rcases List.mem_append.1 hx with hx | hx
            · exact lt_trans (h1 x hx) hlt
            · rcases List.mem_cons.1 hx with rfl | hx
              · exact hlt
              · exact lt_of_le_of_lt (h2 x hx) hlt) (by simp)
          exact ⟨p, m, q, by rw [← e]; simp, r⟩
        · rename_i hlt
          obtain ⟨p, m, q, e, r⟩ := ih pre a (mid ++ [b]) h1 (by
            intro x hx
            rcases List.mem_append.1 hx with hx | hx
            · exact h2 x hx
            · rw [List.mem_singleton.1 hx]; exact not_lt.1 hlt)
          exact ⟨p, m, q, by rw [← e]; simp, r⟩
    intro hl
    cases l with
    | nil => exact absurd rfl hl
    | cons a l =>
      obtain ⟨p, m, q, e, h1, h2⟩ := main l [] a [] (by simp) (by simp)
      exact ⟨p, m, q, by simpa using e, by rw [largest, h1], h2⟩

example : (largest [("x", 0, 64), ("y", 64, 128), ("z", 192, 128)]).toOption = some ("y", 64, 128) := rfl

/-! ### Comparing outputs -/

/-- **C110, comparison.**  Two arrays of equal length that are not empty are reported as matching exactly when every element of the first is
within `atol + rtol * |element of the second|` of it; arrays of different shape never match. -/
theorem C110_compare (rtol atol : ℚ) (sa sb : List Nat) (a b : List ℚ) : (sa ≠ sb → compareOutputs rtol atol sa a sb b = .ok false) ∧
    (sa = sb → a ≠ [] → a.length = b.length → ∃ v, compareOutputs rtol atol sa a sb b = .ok v ∧ (v = true ↔ Agrees rtol atol a b)) := by
  constructor
  · intro h
    rw [compareOutputs, if_pos h]
  · intro h hne hl
    subst h
    refine ⟨_, by rw [compareOutputs, if_neg (by simp), if_neg (by simpa using hne)], ?_⟩
    rw [List.all_eq_true]
    constructor
    · intro hh
      refine ⟨hl, fun i x y hx hy => ?_⟩
      have := hh (x, y) (List.mem_of_getElem? (i := i) (by rw [List.getElem?_zip_eq_some]; exact ⟨hx, hy⟩))
      simpa using this
    · rintro ⟨-, hh⟩ p hp
      obtain ⟨i, hi⟩ := List.mem_iff_getElem?.1 hp
      rw [List.getElem?_zip_eq_some] at hi
      simpa using hh i p.1 p.2 hi.1 hi.2

/-- **C110, exact equality always matches** for tolerances that are not negative. -/
theorem C110_compare_self (rtol atol : ℚ) (hr : 0 ≤ rtol) (ha : 0 ≤ atol) (s : List Nat) (a : List ℚ) (hne : a ≠ []) :
    compareOutputs rtol atol s a s a = .ok true := by
  obtain ⟨v, h, hv⟩ := (C110_compare rtol atol s s a a).2 rfl hne rfl
  rw [h, hv.2]
  refine ⟨rfl, fun i x y hx hy => ?_⟩
  rw [hx] at hy
  injection hy with hy
  subst hy
  rw [sub_self, abs_zero]
  have := mul_nonneg hr (abs_nonneg x)
  linarith

/-- **C110, counterexample: the comparison is not symmetric.**  The tolerance is relative to the second array, so exchanging the arrays can
change the verdict. -/
theorem C110_compare_asymmetric : ∃ (rtol atol : ℚ) (s : List Nat) (a b : List ℚ), compareOutputs rtol atol s a s b = .ok true ∧
    compareOutputs rtol atol s b s a = .ok false := ⟨1/2, 0, [1], [1], [2], by decide +kernel, by decide +kernel⟩

/-- **C110, counterexample: empty outputs.**  Two equal arrays without elements are not reported as matching; the comparison fails. -/
theorem C110_compare_empty (rtol atol : ℚ) (s : List Nat) : compareOutputs rtol atol s [] s [] = .error .valueError := by
  rw [compareOutputs, if_neg (by simp)]
  rfl

end OnnxTool.Props
