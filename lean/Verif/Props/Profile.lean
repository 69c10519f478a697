import Mathlib.Algebra.Order.BigOperators.Group.List
import Mathlib.Algebra.BigOperators.Group.List.Lemmas
import Mathlib.Tactic.Linarith
import Mathlib.Tactic.Ring
import Verif.Model.Profile
import Verif.Spec.Graph
/-!
# C35: profile totals
-/
namespace OnnxTool.Props
open OnnxTool OnnxTool.Profile

/-- totals are the initial values plus the column sums -/
theorem profileLoop_sums (prof : Prof) (tm : Dict TInfo) (ns : List Node) (t0 : Totals) (rows : List (String × Row)) (t : Totals)
    (h : profileLoop prof tm ns t0 = .ok (rows, t)) :
    t.macs = t0.macs + (rows.map (·.2.macs)).sum ∧ t.params = t0.params + (rows.map (·.2.params)).sum ∧
    t.memory = t0.memory + (rows.map (·.2.memory)).sum ∧
    List.Forall₂ (fun n r => r.1 = n.name ∧ profileNode prof tm n = .ok r.2) ns rows := by
  induction ns generalizing t0 rows with
  | nil => simp only [profileLoop] at h; cases h; simp
  | cons n ns ih =>
    simp only [profileLoop] at h
    split at h
    · cases h
    · rename_i r hr
      split at h
      · cases h
      · rename_i rows' t' hl
        cases h
        obtain ⟨a, b, c, d⟩ := ih _ _ hl
        refine ⟨?_, ?_, ?_, .cons ⟨rfl, hr⟩ d⟩
        · rw [a]; simp [add_assoc]
        · rw [b]; simp [add_assoc]
        · rw [c]; simp [add_assoc]

theorem profileLoop_ok_iff (prof : Prof) (tm : Dict TInfo) (ns : List Node) (t0 : Totals) :
    (∃ x, profileLoop prof tm ns t0 = .ok x) ↔ ∀ n ∈ ns, ∃ r, profileNode prof tm n = .ok r := by
  induction ns generalizing t0 with
  | nil => simp [profileLoop]
  | cons n ns ih =>
    simp only [profileLoop, List.mem_cons, forall_eq_or_imp]
    cases hr : profileNode prof tm n with
    | error e => simp
    | ok r =>
      simp only []
      rw [← ih ⟨t0.macs + r.macs, t0.params + r.params, t0.memory + r.memory⟩]
      cases profileLoop prof tm ns ⟨t0.macs + r.macs, t0.params + r.params, t0.memory + r.memory⟩ with
      | error e => simp
      | ok x => simp

/-- **C35, totals.** `profile` computes one row per covered node and its totals are the sums of the three columns. -/
theorem C35_totals_are_sums (prof : Prof) (tm : Dict TInfo) (order : List Node) (rows : List (String × Row)) (t : Totals)
    (h : profileLoop prof tm order ⟨0, 0, 0⟩ = .ok (rows, t)) :
    rows.map (·.1) = order.map (·.name) ∧ t.macs = (rows.map (·.2.macs)).sum ∧ t.params = (rows.map (·.2.params)).sum ∧
    t.memory = (rows.map (·.2.memory)).sum := by
  obtain ⟨a, b, c, d⟩ := profileLoop_sums prof tm order _ rows t h
  refine ⟨?_, by simpa using a, by simpa using b, by simpa using c⟩
  clear h a b c
  induction d with
  | nil => rfl
  | cons h _ ih => simp [ih, h.1]

/-- **C35, order.** With an exclude list the covered nodes are iterated in arbitrary (hash) order: any two orders give the same totals and the
same row for each node. -/
theorem C35_order_irrelevant (prof : Prof) (tm : Dict TInfo) (ns : List Node) (exclude : List String) (o1 o2 : List Node)
    (h1 : o1.Perm (covered ns exclude)) (h2 : o2.Perm (covered ns exclude)) (rows : List (String × Row)) (t : Totals)
    (h : profileLoop prof tm o1 ⟨0, 0, 0⟩ = .ok (rows, t)) :
    ∃ rows', profileLoop prof tm o2 ⟨0, 0, 0⟩ = .ok (rows', t) ∧ rows'.Perm rows := by
  have hp : o1.Perm o2 := h1.trans h2.symm
  have hok : ∃ x, profileLoop prof tm o2 ⟨0, 0, 0⟩ = .ok x := by
    rw [profileLoop_ok_iff]
    intro n hn
    exact (profileLoop_ok_iff prof tm o1 ⟨0, 0, 0⟩).mp ⟨_, h⟩ n (hp.mem_iff.mpr hn)
  obtain ⟨⟨rows', t'⟩, h'⟩ := hok
  obtain ⟨a, b, c, d⟩ := profileLoop_sums prof tm o1 _ rows t h
  obtain ⟨a', b', c', d'⟩ := profileLoop_sums prof tm o2 _ rows' t' h'
  have hf : ∀ (ns : List Node) (rows : List (String × Row)),
      List.Forall₂ (fun n r => r.1 = n.name ∧ profileNode prof tm n = .ok r.2) ns rows →
      rows = ns.map fun n => (n.name, (profileNode prof tm n).toOption.getD ⟨0, 0, 0⟩) := by
    intro ns rows h
    induction h with
    | nil => rfl
    | @cons x r xs rs hx _ ih =>
      obtain ⟨r1, r2⟩ := r
      obtain ⟨e1, e2⟩ := hx
      simp only at e1 e2
      rw [List.map_cons, ← ih, e2, e1]; rfl
  have hperm : rows'.Perm rows := by
    rw [hf _ _ d, hf _ _ d']
    exact hp.symm.map _
  refine ⟨rows', ?_, hperm⟩
  have : t' = t := by
    obtain ⟨m, p, q⟩ := t
    obtain ⟨m', p', q'⟩ := t'
    simp only at a b c a' b' c'
    rw [a, b, c, a', b', c', (hperm.map _).sum_eq, (hperm.map _).sum_eq, (hperm.map _).sum_eq]
  rw [h', this]

/-! ## Shared weights -/

/-- `tensormap` is consistent with the graph: keys are the tensors' names and distinct, initials are distinct and present, a named tensor
is static exactly when it is an initial, the absent-input name has no volume. -/
structure TensorsConsistent (tm : Dict TInfo) (g : Graph) : Prop where
  name : ∀ k i, tm.get? k = some i → i.name = k
  keys : tm.keys.Nodup
  initials : g.initials.Nodup
  present : ∀ k ∈ g.initials, k ∈ tm.keys
  static : ∀ k i, tm.get? k = some i → k ≠ "" → (i.static = true ↔ k ∈ g.initials)
  empty : vol tm "" = 0

/-- the parameter column of one node: every occurrence of an initial among its inputs -/
theorem node_params (prof : Prof) (tm : Dict TInfo) (g : Graph) (hc : TensorsConsistent tm g) (n : Node) (r : Row)
    (h : profileNode prof tm n = .ok r) :
    r.params = (g.initials.map fun k => n.input.count k * vol tm k).sum := by
  unfold profileNode at h
  split at h
  · cases h
  · rename_i its hits
    split at h
    · cases h
    · split at h
      · cases h
      · cases h
        simp only []
        clear * - hits hc
        generalize n.input = inp at hits
        induction inp generalizing its with
        | nil => simp only [lookups] at hits; cases hits; simp
        | cons t ts ih =>
          simp only [lookups] at hits
          split at hits
          · cases hits
          · rename_i i hi
            split at hits
            · cases hits
            · rename_i is his
              cases hits
              have ih := ih is his
              have hv : vol tm t = volume i.shape := by unfold vol; rw [hi]
              have hn := hc.name t i hi
              have split1 : (g.initials.map fun k => (t :: ts).count k * vol tm k).sum =
                  (g.initials.map fun k => ts.count k * vol tm k).sum + (if t ∈ g.initials then vol tm t else 0) := by
                have hnd := hc.initials
                generalize g.initials = l at hnd
                clear * - hnd
                induction l with
                | nil => rfl
                | cons a l ih =>
                  obtain ⟨ha, hl⟩ := List.nodup_cons.mp hnd
                  rw [List.map_cons, List.sum_cons, List.map_cons, List.sum_cons, ih hl, List.count_cons]
                  by_cases e : t = a
                  · subst e; simp [ha]; ring
                  · simp [e]; ring
              rw [split1, ← ih]
              rw [List.filter_cons]
              by_cases he : t = ""
              · subst he
                rw [hn]
                simp [hc.empty]
              · have hs := hc.static t i hi he
                rw [hn]
                by_cases hin : t ∈ g.initials
                · simp [he, hs.mpr hin, hin, hv]; ring
                · have : i.static = false := by
                    cases hst : i.static with
                    | false => rfl
                    | true => exact absurd (hs.mp hst) hin
                  simp [this, hin]

theorem sum_map_add (l : List String) (f h : String → Nat) : (l.map fun k => f k + h k).sum = (l.map f).sum + (l.map h).sum := by
  induction l with
  | nil => rfl
  | cons a l ih => simp only [List.map_cons, List.sum_cons, ih]; omega

theorem consumersOf_length (ns : List Node) (t : String) : (consumersOf ns t).length = (ns.map fun n => n.input.count t).sum := by
  induction ns with
  | nil => rfl
  | cons n ns ih => simp only [consumersOf] at ih ⊢; simp [ih]

/-- summing over a list of names or over the keys that are in it is the same -/
theorem sum_over_keys (ks l : List String) (f : String → Nat) (hk : ks.Nodup) (hl : l.Nodup) (hsub : ∀ x ∈ l, x ∈ ks) :
    (ks.map fun k => if l.contains k then f k else 0).sum = (l.map f).sum := by
  have h1 : (ks.map fun k => if l.contains k then f k else 0).sum = ((ks.filter fun k => l.contains k).map f).sum := by
    clear hk hsub
    induction ks with
    | nil => rfl
    | cons a ks ih =>
      simp only [List.map_cons, List.sum_cons, List.filter_cons, ih]
      split <;> simp
  rw [h1]
  apply List.Perm.sum_eq
  apply List.Perm.map
  rw [List.perm_ext_iff_of_nodup (hk.filter _) hl]
  intro a
  simp only [List.mem_filter, List.contains_iff_mem]
  exact ⟨fun h => h.2, fun h => ⟨hsub a h, h⟩⟩

/-- **C35, shared weights.** When no operator is excluded and the consumer index is exact, total Params minus Dedup_Params is exactly the
reported size of shared weights: each weight read `n` times is counted once in one and `n` times in the other. -/
theorem C35_dedup (prof : Prof) (tm : Dict TInfo) (g : Graph) (hc : TensorsConsistent tm g) (hx : g.IndexExact)
    (rows : List (String × Row)) (t : Totals) (h : profileLoop prof tm (covered g.nodemap []) ⟨0, 0, 0⟩ = .ok (rows, t)) :
    t.params = dedupParams tm g + sharedSize tm g := by
  obtain ⟨ha, b, hm, d⟩ := profileLoop_sums prof tm _ _ rows t h
  clear ha hm
  simp only [covered, if_true] at d
  have hp : t.params = (g.initials.map fun k => (consumersOf g.nodemap k).length * vol tm k).sum := by
    rw [b]
    simp only [Nat.zero_add]
    clear h b hx
    generalize g.nodemap = ns at d
    induction d with
    | nil => simp [consumersOf]
    | @cons n r ns rs hn _ ih =>
      simp only [List.map_cons, List.sum_cons]
      rw [ih, node_params prof tm g hc n r.2 hn.2, ← sum_map_add]
      congr 1
      apply List.map_congr_left
      intro k _
      rw [consumersOf_length, consumersOf_length, List.map_cons, List.sum_cons]
      ring
  have hidx := hx.1
  have hded : dedupParams tm g = (g.initials.map fun k => if (consumersOf g.nodemap k).length > 0 then vol tm k else 0).sum := by
    unfold dedupParams
    generalize g.initials = l
    induction l with
    | nil => rfl
    | cons a l ih =>
      simp only [List.map_cons, List.sum_cons, List.filter_cons, ← ih, hidx a]
      by_cases e : consumersOf g.nodemap a = []
      · simp [e]
      · have : 0 < (consumersOf g.nodemap a).length := List.length_pos_iff.mpr e
        simp [e, this]
  have hsh : sharedSize tm g = (g.initials.map fun k => vol tm k * ((consumersOf g.nodemap k).length - 1)).sum := by
    unfold sharedSize
    rw [sum_over_keys tm.keys g.initials _ hc.keys hc.initials hc.present]
    congr 1
    apply List.map_congr_left
    intro k _
    simp only [hidx k]
    by_cases e : consumersOf g.nodemap k = []
    · simp [e]
    · simp only [e, if_false]
      split
      · rfl
      · rename_i h1
        have : (consumersOf g.nodemap k).length - 1 = 0 := by omega
        rw [this, Nat.mul_zero]
  rw [hp, hded, hsh, ← sum_map_add]
  congr 1
  apply List.map_congr_left
  intro k _
  generalize (consumersOf g.nodemap k).length = c
  cases c with
  | zero => simp
  | succ c => simp; ring

/-- **C35, parameters counted once.** Dedup_Params is the size of the initializers that some node reads, each once; an initializer nobody reads (any
more) is not counted, also when the consumer index still has an empty entry for it, as removing nodes leaves it. -/
theorem C35_counted_once (tm : Dict TInfo) (g : Graph) (hx : ∀ k, (g.consumedby.get? k).getD [] = consumersOf g.nodemap k) :
    dedupParams tm g = ((g.initials.filter fun k => g.nodemap.any fun n => n.input.contains k).map (vol tm)).sum := by
  unfold dedupParams
  congr 2
  refine List.filter_congr fun k _ => ?_
  have hk := hx k
  have hmem : (g.nodemap.any fun n => n.input.contains k) = decide (consumersOf g.nodemap k ≠ []) := by
    rw [Bool.eq_iff_iff]
    simp only [List.any_eq_true, List.contains_iff_mem, decide_eq_true_eq, ← List.length_pos_iff, consumersOf_length]
    constructor
    · rintro ⟨n, hn, hi⟩
      have h1 : 0 < n.input.count k := List.count_pos_iff.mpr hi
      have h2 : n.input.count k ≤ (g.nodemap.map fun n => n.input.count k).sum := by
        generalize g.nodemap = ns at hn
        induction ns with
        | nil => cases hn
        | cons m ns ih =>
          simp only [List.map_cons, List.sum_cons]
          rcases List.mem_cons.mp hn with rfl | hn
          · omega
          · have := ih hn; omega
      omega
    · intro h
      refine Classical.byContradiction fun hno => ?_
      have : (g.nodemap.map fun n => n.input.count k).sum = 0 := by
        apply List.sum_eq_zero
        intro x hx
        obtain ⟨n, hn, rfl⟩ := List.mem_map.mp hx
        exact List.count_eq_zero.mpr fun hi => hno ⟨n, hn, hi⟩
      omega
  rw [hmem]
  cases hg : g.consumedby.get? k with
  | none => rw [hg] at hk; simp only [Option.getD_none] at hk; simp [← hk]
  | some c => rw [hg] at hk; simp only [Option.getD_some] at hk; simp [← hk, List.length_pos_iff]

/-- an initializer whose only reader was removed -/
example : ∃ g : Graph, ∃ tm : Dict TInfo, (∀ k, (g.consumedby.get? k).getD [] = consumersOf g.nodemap k) ∧ g.consumedby.get? "w" = some [] ∧
    "w" ∈ g.initials ∧ vol tm "w" = 12 ∧ dedupParams tm g = 0 :=
  ⟨{ nodemap := [], input := [], output := [], initials := ["w"], dynamics := [], producedby := [], consumedby := [("w", [])] },
    [("w", ⟨"w", true, [3, 4], 4⟩)], by intro k; simp only [Dict.get?]; split <;> rfl, rfl, by decide, by decide, by decide⟩

/-- **C35, coverage.** The profiled nodes are those whose operator is not in the exclude list. -/
theorem C35_covered (ns : List Node) (exclude : List String) (n : Node) : n ∈ covered ns exclude ↔ n ∈ ns ∧ n.op ∉ exclude := by
  unfold covered
  split
  · rename_i h; simp [h]
  · simp

/-- **C35, rows.** The Params column of a node counts every occurrence of a weight among its inputs with the weight's number of elements. -/
theorem C35_row_params (prof : Prof) (tm : Dict TInfo) (g : Graph) (hc : TensorsConsistent tm g) (n : Node) (r : Row)
    (h : profileNode prof tm n = .ok r) :
    r.params = (g.initials.map fun k => n.input.count k * vol tm k).sum := node_params prof tm g hc n r h

/-- a graph with one weight read by two MatMuls -/
def sharedGraph : Graph :=
  ({ nodemap := [⟨"m1", "MatMul", ["x", "w"], ["a"]⟩, ⟨"r", "Relu", ["a"], ["b"]⟩, ⟨"m2", "MatMul", ["b", "w"], ["y"]⟩],
     input := ["x"], output := ["y"], initials := ["w"] } : Graph).updateConsumerProducer
def sharedTM : Dict TInfo := [("x", ⟨"x", false, [1, 4], 4⟩), ("w", ⟨"w", true, [4, 4], 4⟩), ("a", ⟨"a", false, [1, 4], 4⟩),
  ("b", ⟨"b", false, [1, 4], 4⟩), ("y", ⟨"y", false, [1, 4], 4⟩)]
def unitProf : Prof := fun _ _ _ => .ok (1, 4, 16)

/-- the hypotheses of `C35_dedup` hold for a graph with a shared weight, and the numbers are as expected: 32 = 16 + 16 -/
example : (profileLoop unitProf sharedTM (covered sharedGraph.nodemap []) ⟨0, 0, 0⟩).toOption.map (fun x => x.2.params) = some 32 ∧
    dedupParams sharedTM sharedGraph = 16 ∧ sharedSize sharedTM sharedGraph = 16 := by
  refine ⟨rfl, by decide, by decide⟩

example : TensorsConsistent sharedTM sharedGraph := by
  have hk : ∀ k i, sharedTM.get? k = some i → (k, i) ∈ sharedTM := by
    intro k i h
    simp only [sharedTM, Dict.get?] at h
    repeat' (split at h)
    all_goals first | (cases h; done) | (cases h; subst_vars; decide)
  have h1 : ∀ p ∈ sharedTM, p.2.name = p.1 := by decide
  have h2 : ∀ p ∈ sharedTM, (p.2.static = true ↔ p.1 ∈ sharedGraph.initials) := by decide
  exact ⟨fun k i h => h1 _ (hk k i h), by decide, by decide, by decide, fun k i h _ => h2 _ (hk k i h), by decide⟩

/-- **C35 (finding).** With an exclude list the Dedup_Params row and the shared size still count the weights of excluded nodes, so the
identity fails: excluding MatMul leaves Params 0 but Dedup_Params 16. -/
theorem C35_dedup_ignores_exclude :
    (profileLoop unitProf sharedTM (covered sharedGraph.nodemap ["MatMul"]) ⟨0, 0, 0⟩).toOption.map (fun x => x.2.params) = some 0 ∧
    dedupParams sharedTM sharedGraph = 16 := by
  refine ⟨rfl, by decide⟩

/-- **C35 (finding).** A scalar (rank 0) weight has `volume` 0, so it is never counted as a parameter. -/
theorem C35_scalar_weight_uncounted : volume [] = 0 := rfl

theorem C35_volume (d : Nat) (ds : List Nat) : volume (d :: ds) = (d :: ds).prod := by
  unfold volume
  have : ∀ (l : List Nat) (a : Nat), l.foldl (· * ·) a = a * l.prod := by
    intro l
    induction l with
    | nil => intro a; simp
    | cons x xs ih => intro a; simp [ih, Nat.mul_assoc]
  simp [this]

/-- **C35, memory column.** A row's MACs are those the operator's formula gives and its memory is the formula's activation elements
times the element size of the first output plus its weight elements times the element size of the first input. -/
theorem C35_row_memory (prof : Prof) (tm : Dict TInfo) (n : Node) (r : Row) (h : profileNode prof tm n = .ok r) :
    ∃ its ots macs io st, lookups tm n.input = .ok its ∧ lookups tm n.output = .ok ots ∧ prof n its ots = .ok (macs, io, st) ∧
      r.macs = macs ∧ (∀ (i0 o0 : TInfo), its.head? = some i0 → ots.head? = some o0 → r.memory = io * o0.elesize + st * i0.elesize) ∧
      (its = [] → ots = [] → r.memory = 4 * (io + st)) := by
  unfold profileNode at h
  cases hi : lookups tm n.input with
  | error e => simp [hi] at h
  | ok its =>
    cases ho : lookups tm n.output with
    | error e => simp [hi, ho] at h
    | ok ots =>
      cases hp : prof n its ots with
      | error e => simp [hi, ho, hp] at h
      | ok x =>
        obtain ⟨macs, io, st⟩ := x
        simp only [hi, ho, hp, Except.ok.injEq] at h
        subst h
        refine ⟨its, ots, macs, io, st, rfl, rfl, hp, rfl, ?_, ?_⟩
        · intro i0 o0 h1 h2
          cases its <;> cases ots <;> simp_all
        · rintro rfl rfl
          simp; omega

example : (profileNode unitProf sharedTM ⟨"m1", "MatMul", ["x", "w"], ["a"]⟩).toOption.map (·.memory) = some 80 := by decide

end OnnxTool.Props
