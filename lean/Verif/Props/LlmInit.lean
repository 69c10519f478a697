import Verif.Proofs.LlmInit
/-!
# C104: what an LLM session tells the engine about the model's inputs
-/
namespace OnnxTool.Props
open OnnxTool OnnxTool.Engine OnnxTool.LlmInit OnnxTool.LlmInit.Spec

/-- `LLMInfer(onnx_path, max_seq_len=maxSeq)`: the description and ranges it gives to the engine -/
def llmDescription (m : Facts) (maxSeq : Int) : Except PyErr (Desc × LlmInit.Range) := build m.inputs m.initials m.shapes maxSeq

private theorem mem_names (m : Facts) (n : String) : n ∈ inputNames m.inputs m.initials ↔ Fed m n := by
  simp [inputNames, Fed]

private theorem first_get (m : Facts) (maxSeq : Int) (n : String) (ds : List Dim) :
    ((inputNames m.inputs m.initials).foldl (describe m.shapes maxSeq) ([], [])).1.get? n = some ds ↔
    (n = "n_past" ∧ Fed m n ∧ (∃ s, m.shapes.get? n = some s) ∧ ds = []) ∨
      ∃ s, Declares m n s ∧ ds = described n 0 s := by
  rw [fold_fst]
  by_cases hf : n ∈ inputNames m.inputs m.initials
  · have hf' := (mem_names m n).1 hf
    rw [if_pos hf]
    simp only [Dict.get?_nil, Option.or_none]
    unfold entry
    by_cases hx : (n = "ids" ∨ n = "position" ∨ n = "kv_cache")
    · obtain ⟨hd, hp⟩ := (dyn_iff n).2 hx
      rw [if_pos hd]
      cases hs : m.shapes.get? n with
      | none => simp [Declares, hs, hp]
      | some s =>
        simp only [hp, if_false, false_and, false_or]
        by_cases he : s.isEmpty = true
        · have he2 : s = [] := by simpa using he
          subst he2
          simp [Declares, hs]
        · have he2 : s ≠ [] := by simpa using he
          rw [if_neg he]
          constructor
          · intro h; injection h with h; exact ⟨s, ⟨hf', hx, hs, he2⟩, h.symm⟩
          · rintro ⟨s', ⟨_, _, h, _⟩, rfl⟩; rw [hs] at h; injection h with h; rw [h]
    · have hno : ¬ ∃ s, Declares m n s ∧ ds = described n 0 s := by rintro ⟨s, ⟨_, h, _⟩, _⟩; exact hx h
      simp only [hno, or_false]
      by_cases hd : dynamicNames.contains n = true
      · have hp : n = "n_past" := Classical.byContradiction fun h => hx ((dyn_iff n).1 ⟨hd, h⟩)
        rw [if_pos hd]
        cases hs : m.shapes.get? n with
        | none => simp
        | some s => simp only [hp, if_true]; rw [hp] at hf'; simp [hf', eq_comm]
      · rw [if_neg hd]
        have : n ≠ "n_past" := by rintro rfl; exact hd (by decide)
        simp [this]
  · rw [if_neg hf]
    have hf' : ¬ Fed m n := fun h => hf ((mem_names m n).2 h)
    simp [Declares, hf']

private theorem freeAt_iff (m : Facts) (n : String) (i : Nat) : FreeAt m.shapes (inputNames m.inputs m.initials) n i ↔
    ∃ s d, Declares m n s ∧ s[i]? = some d ∧ ¬ Known d := by
  unfold FreeAt
  rw [mem_names]
  constructor
  · rintro ⟨h1, h2, s, d, h3, h4, h5⟩
    exact ⟨s, d, ⟨h1, h2, h3, by rintro rfl; simp at h4⟩, h4, h5⟩
  · rintro ⟨s, d, ⟨h1, h2, h3, _⟩, h4, h5⟩; exact ⟨h1, h2, s, d, h3, h4, h5⟩

private theorem first_range (m : Facts) (maxSeq : Int) (v : String) (x : Int × Int) :
    ((inputNames m.inputs m.initials).foldl (describe m.shapes maxSeq) ([], [])).2.get? v = some x ↔
    ∃ n i s d, Declares m n s ∧ s[i]? = some d ∧ ¬ Known d ∧ v = dimVar n i ∧ x = (1, upper n maxSeq) := by
  rw [fold_snd]
  · simp only [Dict.get?_nil]
    constructor
    · rintro (⟨n, i, h1, h2, h3⟩ | ⟨_, h⟩)
      · obtain ⟨s, d, h4, h5, h6⟩ := (freeAt_iff m n i).1 h1; exact ⟨n, i, s, d, h4, h5, h6, h2, h3⟩
      · simp at h
    · rintro ⟨n, i, s, d, h4, h5, h6, h2, h3⟩
      exact .inl ⟨n, i, (freeAt_iff m n i).2 ⟨s, d, h4, h5, h6⟩, h2, h3⟩
  · intro n i y _ h; simp at h

private theorem range_empty (m : Facts) (maxSeq : Int) :
    ((inputNames m.inputs m.initials).foldl (describe m.shapes maxSeq) ([], [])).2.isEmpty = true ↔ ¬ HasFree m := by
  rw [empty_iff]
  constructor
  · rintro h ⟨n, s, d, h1, h2, h3⟩
    obtain ⟨i, hi⟩ := List.getElem?_of_mem h2
    have := (first_range m maxSeq (dimVar n i) (1, upper n maxSeq)).2 ⟨n, i, s, d, h1, hi, h3, rfl, rfl⟩
    rw [h] at this; cases this
  · intro h v
    cases hv : Dict.get? _ v with
    | none => rfl
    | some x =>
      obtain ⟨n, i, s, d, h1, h2, h3, _⟩ := (first_range m maxSeq v x).1 hv
      exact absurd ⟨n, s, d, h1, List.mem_of_getElem? h2, h3⟩ h

private theorem desc_empty (m : Facts) (maxSeq : Int) :
    ((inputNames m.inputs m.initials).foldl (describe m.shapes maxSeq) ([], [])).1.isEmpty = true ↔ ¬ Understood m := by
  rw [empty_iff]
  constructor
  · rintro h (⟨n, s, hd⟩ | ⟨hf, s, hs⟩)
    · have := (first_get m maxSeq n _).2 (.inr ⟨s, hd, rfl⟩); rw [h] at this; cases this
    · have := (first_get m maxSeq "n_past" []).2 (.inl ⟨rfl, hf, ⟨s, hs⟩, rfl⟩); rw [h] at this; cases this
  · intro h n
    cases hv : Dict.get? _ n with
    | none => rfl
    | some ds =>
      rcases (first_get m maxSeq n ds).1 hv with ⟨rfl, h1, h2, _⟩ | ⟨s, hs, _⟩
      · exact absurd (.inr ⟨h1, h2⟩) h
      · exact absurd (.inl ⟨n, s, hs⟩) h

/-- the three outcomes of the constructor -/
private theorem llmDescription_eq (m : Facts) (maxSeq : Int) : llmDescription m maxSeq =
    let first := (inputNames m.inputs m.initials).foldl (describe m.shapes maxSeq) ([], [])
    if first.1.isEmpty then fallback (inputNames m.inputs m.initials) maxSeq
    else if first.2.isEmpty then .ok (first.1.keys.foldl makeSeq (first.1, first.2)) else .ok (first.1, first.2) := by
  unfold llmDescription build
  simp only [fixCache_eq]

private theorem described_ok (n : String) (s : List Dim) : DescribesFree n s (described n 0 s) := by
  refine ⟨described_length _ _ _, fun i d hi => ⟨fun hk => ?_, fun hk => ?_⟩⟩
  · rw [described_get, hi, Option.map_some, if_pos ((fixed_iff d).2 hk)]
  · rw [described_get, hi, Option.map_some, if_neg fun h => hk ((fixed_iff d).1 h)]
    simp [dimVar, freeVar]

/-- **Inputs with a free dimension.**  When some understood input has a dimension of unknown size, every understood input is described
dimension by dimension — known sizes kept, one variable for each unknown size — each such variable may range from 1 to the session's
maximum (32 times that for the cache), and there are no other variables. -/
theorem C104_free_dimensions (m : Facts) (maxSeq : Int) (hfree : HasFree m) : ∃ d r, llmDescription m maxSeq = .ok (d, r) ∧
    (∀ n s, Declares m n s → ∃ ds, d.get? n = some ds ∧ DescribesFree n s ds) ∧
    (∀ v x, r.get? v = some x ↔ ∃ n i s dim, Declares m n s ∧ s[i]? = some dim ∧ ¬ Known dim ∧ v = freeVar n i ∧
      x = (1, if n = "kv_cache" then 32 * maxSeq else maxSeq)) := by
  obtain ⟨n0, s0, d0, h0, h1, h2⟩ := hfree
  have hu : Understood m := .inl ⟨n0, s0, h0⟩
  rw [llmDescription_eq]
  simp only []
  rw [if_neg (fun h => (desc_empty m maxSeq).1 h hu), if_neg (fun h => (range_empty m maxSeq).1 h ⟨n0, s0, d0, h0, h1, h2⟩)]
  refine ⟨_, _, rfl, ?_, ?_⟩
  · intro n s hd
    exact ⟨_, (first_get m maxSeq n _).2 (.inr ⟨s, hd, rfl⟩), described_ok n s⟩
  · intro v x
    rw [first_range]
    have : ∀ n, upper n maxSeq = if n = "kv_cache" then 32 * maxSeq else maxSeq := by
      intro n; unfold upper; split <;> omega
    simp only [this]
    exact Iff.rfl

private theorem lastToSeq_known {s : List Dim} (h : ∀ d ∈ s, Known d) :
    (2 ≤ s.length → ∃ k, s.getLast? = some (.num k) ∧ lastToSeq s = some (s.dropLast ++ [.var "seq"], k)) ∧
    (s.length < 2 → lastToSeq s = none) := by
  constructor
  · intro hl
    cases hg : s.getLast? with
    | none => rw [List.getLast?_eq_none_iff] at hg; subst hg; simp at hl
    | some d =>
      obtain ⟨k, rfl, _⟩ := h d (List.mem_of_getLast? hg)
      exact ⟨k, rfl, by unfold lastToSeq; rw [if_pos hl, hg]⟩
  · intro hl; unfold lastToSeq; rw [if_neg (by omega)]

private theorem noFree {m : Facts} (hfree : ¬ HasFree m) {n : String} {s : List Dim} (hd : Declares m n s) : ∀ d ∈ s, Known d := by
  intro d hds
  exact Classical.byContradiction fun h => hfree ⟨n, s, d, hd, hds, h⟩

/-- **Inputs of fixed size.**  When the declared sizes are all known, the token inputs get the variable `seq` for their last dimension
(if they have at least two), the cache is described exactly as declared, and `n_past` is a scalar.  The session's maximum plays no role. -/
theorem C104_fixed_dimensions (m : Facts) (maxSeq : Int) (hu : Understood m) (hfree : ¬ HasFree m) : ∃ d r, llmDescription m maxSeq = .ok (d, r) ∧
    (∀ n s, Declares m n s → n ≠ "kv_cache" → ∃ ds, d.get? n = some ds ∧ DescribesSeq s ds) ∧
    (∀ s, Declares m "kv_cache" s → d.get? "kv_cache" = some s) ∧
    (∀ other, llmDescription m other = .ok (d, r)) := by
  have key : ∀ o : Int, llmDescription m o = .ok ((((inputNames m.inputs m.initials).foldl (describe m.shapes o) ([], [])).1.keys.foldl makeSeq
      (((inputNames m.inputs m.initials).foldl (describe m.shapes o) ([], [])).1, []))) := by
    intro o
    rw [llmDescription_eq]
    simp only []
    have he := (range_empty m o).2 hfree
    rw [if_neg (fun h => (desc_empty m o).1 h hu), if_pos he]
    have : ((inputNames m.inputs m.initials).foldl (describe m.shapes o) ([], [])).2 = [] := by simpa using he
    rw [this]
  have same : ∀ o : Int, ((inputNames m.inputs m.initials).foldl (describe m.shapes o) ([], [])).1 =
      ((inputNames m.inputs m.initials).foldl (describe m.shapes maxSeq) ([], [])).1 := by
    intro o
    generalize inputNames m.inputs m.initials = names
    have aux : ∀ (l : List String) (a b : Desc × LlmInit.Range), a.1 = b.1 →
        (l.foldl (describe m.shapes o) a).1 = (l.foldl (describe m.shapes maxSeq) b).1 := by
      intro l
      induction l with
      | nil => intro a b h; exact h
      | cons x l ih =>
        intro a b h
        rw [List.foldl_cons, List.foldl_cons]
        refine ih _ _ ?_
        unfold describe
        repeat' split
        all_goals simp [h, dims_fst]
    exact aux names _ _ rfl
  have hnd := fold_nodup m.shapes maxSeq (inputNames m.inputs m.initials) ([], []) (by simp [Dict.keys])
  refine ⟨_, _, key maxSeq, ?_, ?_, ?_⟩
  · intro n s hd hkv
    have hg := (first_get m maxSeq n _).2 (.inr ⟨s, hd, rfl⟩)
    have hk := noFree hfree hd
    rw [described_fixed _ _ _ hk] at hg
    refine ⟨seqDesc n s, ?_, ?_⟩
    · rw [foldSeq_fst _ _ _ hnd, if_pos ((Dict.get?_isSome_iff _ _).1 (by rw [hg]; rfl))]
      simp only [hg, Option.map_some]
    · have hp : n ≠ "n_past" := by
        obtain ⟨_, h, _⟩ := hd
        rintro rfl
        simp at h
      unfold seqDesc
      rw [if_neg (by simp [hkv, hp])]
      refine ⟨fun hl => ?_, fun hl => ?_⟩
      · obtain ⟨k, _, h⟩ := (lastToSeq_known hk).1 hl
        rw [h]; rfl
      · rw [(lastToSeq_known hk).2 hl]; rfl
  · intro s hd
    have hg := (first_get m maxSeq "kv_cache" _).2 (.inr ⟨s, hd, rfl⟩)
    rw [described_fixed _ _ _ (noFree hfree hd)] at hg
    rw [foldSeq_fst _ _ _ hnd, if_pos ((Dict.get?_isSome_iff _ _).1 (by rw [hg]; rfl))]
    simp [hg, seqDesc]
  · intro o; rw [key o, same o]

/-- `n_past` is described as a scalar whenever the model declares it. -/
theorem C104_n_past (m : Facts) (maxSeq : Int) (hf : Fed m "n_past") (hs : (m.shapes.get? "n_past").isSome) :
    ∃ d r, llmDescription m maxSeq = .ok (d, r) ∧ d.get? "n_past" = some [] := by
  obtain ⟨s, hs⟩ := Option.isSome_iff_exists.1 hs
  have hu : Understood m := .inr ⟨hf, s, hs⟩
  have hg := (first_get m maxSeq "n_past" []).2 (.inl ⟨rfl, hf, ⟨s, hs⟩, rfl⟩)
  rw [llmDescription_eq]
  simp only []
  rw [if_neg (fun h => (desc_empty m maxSeq).1 h hu)]
  split
  · refine ⟨_, _, rfl, ?_⟩
    rw [foldSeq_fst _ _ _ (fold_nodup m.shapes maxSeq _ ([], []) (by simp [Dict.keys])), if_pos ((Dict.get?_isSome_iff _ _).1 (by rw [hg]; rfl))]
    simp [hg, seqDesc]
  · exact ⟨_, _, rfl, hg⟩

/-- **Only understood inputs.**  Once one input is understood, the others are not described at all: only the four names appear. -/
theorem C104_only_understood (m : Facts) (maxSeq : Int) (hu : Understood m) : ∃ d r, llmDescription m maxSeq = .ok (d, r) ∧
    ∀ n, (∃ ds, d.get? n = some ds) ↔ (∃ s, Declares m n s) ∨ (n = "n_past" ∧ Fed m n ∧ (m.shapes.get? n).isSome) := by
  have hg : ∀ n, (((inputNames m.inputs m.initials).foldl (describe m.shapes maxSeq) ([], [])).1.get? n).isSome ↔
      ((∃ s, Declares m n s) ∨ (n = "n_past" ∧ Fed m n ∧ (m.shapes.get? n).isSome)) := by
    intro n
    rw [Option.isSome_iff_exists]
    simp only [first_get]
    constructor
    · rintro ⟨ds, ⟨rfl, h, ⟨s, hs⟩, _⟩ | ⟨s, h, _⟩⟩
      · exact .inr ⟨rfl, h, by rw [hs]; rfl⟩
      · exact .inl ⟨s, h⟩
    · rintro (⟨s, h⟩ | ⟨rfl, h, hs⟩)
      · exact ⟨_, .inr ⟨s, h, rfl⟩⟩
      · exact ⟨[], .inl ⟨rfl, h, Option.isSome_iff_exists.1 hs, rfl⟩⟩
  rw [llmDescription_eq]
  simp only []
  rw [if_neg (fun h => (desc_empty m maxSeq).1 h hu)]
  split
  · refine ⟨_, _, rfl, fun n => ?_⟩
    rw [← Option.isSome_iff_exists, ← hg, foldSeq_fst _ _ _ (fold_nodup m.shapes maxSeq _ ([], []) (by simp [Dict.keys]))]
    split <;> simp
  · refine ⟨_, _, rfl, fun n => ?_⟩
    rw [← Option.isSome_iff_exists, ← hg]

/-- **No variable without a range, and no range without a variable**, for every model the constructor accepts. -/
theorem C104_ranges_match (m : Facts) (maxSeq : Int) (d : Desc) (r : LlmInit.Range) (h : llmDescription m maxSeq = .ok (d, r)) :
    AllRanged d r ∧ NoSpare d r := by
  rw [llmDescription_eq] at h
  simp only [] at h
  by_cases he : ((inputNames m.inputs m.initials).foldl (describe m.shapes maxSeq) ([], [])).1.isEmpty = true
  · rw [if_pos he] at h
    generalize inputNames m.inputs m.initials = names at h
    match names, h with
    | [a], h =>
      simp only [fallback, Except.ok.injEq, Prod.mk.injEq] at h
      obtain ⟨rfl, rfl⟩ := h
      constructor
      · intro n ds v hn hv
        simp only [Dict.get?] at hn
        split at hn
        · injection hn with hn; subst hn; simp at hv; subst hv; exact ⟨maxSeq, by simp [Dict.get?]⟩
        · cases hn
      · intro v x hv
        simp only [Dict.get?] at hv
        split at hv
        · rename_i hv'; subst hv'; exact ⟨a, [.num 1, .var "seq"], by simp [Dict.get?], by simp⟩
        · cases hv
    | a :: b :: l, h =>
      simp only [fallback, Except.ok.injEq, Prod.mk.injEq] at h
      obtain ⟨rfl, rfl⟩ := h
      constructor
      · intro n ds v hn hv
        rw [Dict.get?_set] at hn
        have : ds = [.num 1, .var "seq"] := by
          split at hn
          · injection hn with hn; exact hn.symm
          · simp only [Dict.get?] at hn
            split at hn
            · injection hn with hn; exact hn.symm
            · cases hn
        subst this
        simp at hv; subst hv; exact ⟨maxSeq, by simp [Dict.get?]⟩
      · intro v x hv
        simp only [Dict.get?] at hv
        split at hv
        · rename_i hv'; subst hv'; exact ⟨b, _, Dict.get?_set_self _ _ _, by simp⟩
        · cases hv
  · rw [if_neg he] at h
    have hu : Understood m := Classical.byContradiction fun hn => he ((desc_empty m maxSeq).2 hn)
    by_cases hr : ((inputNames m.inputs m.initials).foldl (describe m.shapes maxSeq) ([], [])).2.isEmpty = true
    · rw [if_pos hr] at h
      have hfree := (range_empty m maxSeq).1 hr
      have hr' : ((inputNames m.inputs m.initials).foldl (describe m.shapes maxSeq) ([], [])).2 = [] := by simpa using hr
      have hnd := fold_nodup m.shapes maxSeq (inputNames m.inputs m.initials) ([], []) (by simp [Dict.keys])
      rw [hr'] at h
      generalize hd0 : ((inputNames m.inputs m.initials).foldl (describe m.shapes maxSeq) ([], [])).1 = d0 at h hnd
      injection h with h
      have h1 := congrArg Prod.fst h
      have h2 := congrArg Prod.snd h
      simp only at h1 h2
      have get0 : ∀ n ds, d0.get? n = some ds → (∀ x ∈ ds, Known x) := by
        intro n ds hg
        rw [← hd0, first_get] at hg
        rcases hg with ⟨_, _, _, rfl⟩ | ⟨s, hs, rfl⟩
        · simp
        · rw [described_fixed _ _ _ (noFree hfree hs)]; exact noFree hfree hs
      constructor
      · intro n ds v hn hv
        rw [← h1, foldSeq_fst _ _ _ hnd] at hn
        by_cases hmem : n ∈ d0.keys
        · rw [if_pos hmem] at hn
          cases hg : d0.get? n with
          | none => simp [hg] at hn
          | some s =>
            simp only [hg, Option.map_some, Option.some.injEq] at hn
            have hk := get0 n s hg
            have notvar : Dim.var v ∉ s := by
              intro hmem; obtain ⟨k, hk, _⟩ := hk _ hmem; cases hk
            unfold seqDesc at hn
            split at hn
            · subst hn; exact absurd hv notvar
            · rename_i hx
              by_cases hl : 2 ≤ s.length
              · obtain ⟨k, hlast, hs⟩ := (lastToSeq_known hk).1 hl
                rw [hs] at hn
                simp only [Option.map_some, Option.getD_some] at hn
                subst hn
                have hvs : v = "seq" := by
                  rcases List.mem_append.1 hv with hv | hv
                  · exact absurd ((List.dropLast_sublist s).subset hv) notvar
                  · simpa using hv
                subst hvs
                rw [← h2, foldSeq_snd _ _ _ hnd, if_pos rfl]
                have hb : k ∈ d0.keys.filterMap fun n => (d0.get? n).bind (seqBound n) := by
                  rw [List.mem_filterMap]
                  refine ⟨n, hmem, ?_⟩
                  rw [hg]; simp only [Option.bind_some]; unfold seqBound; rw [if_neg hx, hs]; rfl
                cases hgl : (d0.keys.filterMap fun n => (d0.get? n).bind (seqBound n)).getLast? with
                | none => rw [List.getLast?_eq_none_iff] at hgl; rw [hgl] at hb; simp at hb
                | some k' => exact ⟨k', rfl⟩
              · rw [(lastToSeq_known hk).2 (by omega)] at hn
                simp only [Option.map_none, Option.getD_none] at hn
                subst hn; exact absurd hv notvar
        · rw [if_neg hmem] at hn
          exact absurd ((Dict.get?_isSome_iff _ _).1 (by rw [hn]; rfl)) hmem
      · intro v x hv
        rw [← h2, foldSeq_snd _ _ _ hnd] at hv
        split at hv
        · rename_i hvs
          subst hvs
          simp only [Dict.get?_nil, Option.or_none] at hv
          cases hgl : (d0.keys.filterMap fun n => (d0.get? n).bind (seqBound n)).getLast? with
          | none => simp [hgl] at hv
          | some k =>
            have := List.mem_of_getLast? hgl
            rw [List.mem_filterMap] at this
            obtain ⟨n, hn, hb⟩ := this
            cases hg : d0.get? n with
            | none => simp [hg] at hb
            | some s =>
              simp only [hg, Option.bind_some] at hb
              unfold seqBound at hb
              split at hb
              · cases hb
              · rename_i hx
                cases hs : lastToSeq s with
                | none => simp [hs] at hb
                | some p =>
                  refine ⟨n, p.1, ?_, ?_⟩
                  · rw [← h1, foldSeq_fst _ _ _ hnd, if_pos hn]
                    simp only [hg, Option.map_some]; unfold seqDesc; rw [if_neg hx, hs]; rfl
                  · unfold lastToSeq at hs
                    split at hs
                    · split at hs
                      · injection hs with hs; subst hs; simp
                      · cases hs
                    · cases hs
        · simp at hv
    · rw [if_neg hr] at h
      injection h with h
      have h1 := congrArg Prod.fst h
      have h2 := congrArg Prod.snd h
      simp only at h1 h2
      constructor
      · intro n ds v hn hv
        rw [← h1, first_get] at hn
        rcases hn with ⟨_, _, _, rfl⟩ | ⟨s, hs, rfl⟩
        · simp at hv
        · obtain ⟨i, hi⟩ := List.getElem?_of_mem hv
          rw [described_get] at hi
          cases hd : s[i]? with
          | none => simp [hd] at hi
          | some dim =>
            simp only [hd, Option.map_some, Option.some.injEq] at hi
            by_cases hf : fixed dim = true
            · rw [if_pos hf] at hi
              obtain ⟨k, hk, _⟩ := (fixed_iff dim).1 hf
              rw [hi] at hk; cases hk
            · rw [if_neg hf] at hi
              injection hi with hi
              refine ⟨upper n maxSeq, ?_⟩
              rw [← h2, first_range]
              exact ⟨n, i, s, dim, hs, hd, fun h => hf ((fixed_iff dim).2 h), by rw [← hi]; simp, rfl⟩
      · intro v x hv
        rw [← h2, first_range] at hv
        obtain ⟨n, i, s, dim, hs, hd, hk, rfl, _⟩ := hv
        refine ⟨n, described n 0 s, ?_, ?_⟩
        · rw [← h1]; exact (first_get m maxSeq n _).2 (.inr ⟨s, hs, rfl⟩)
        · refine List.mem_of_getElem? (i := i) ?_
          rw [described_get, hd, Option.map_some, if_neg fun h => hk ((fixed_iff dim).1 h)]
          simp

/-- **Which size bounds `seq`.**  With fixed shapes and distinct inputs, `seq` may range up to the last dimension of the token input
listed last among those with at least two dimensions. -/
theorem C104_seq_bound (m : Facts) (maxSeq : Int) (hn : m.inputs.Nodup) (hfree : ¬ HasFree m) (pre post : List String) (n : String)
    (s : List Dim) (k : Int) (hin : m.inputs = pre ++ n :: post) (hd : Declares m n s) (hkv : n ≠ "kv_cache") (hl : 2 ≤ s.length)
    (hk : s.getLast? = some (.num k)) (hlast : ∀ n' ∈ post, n' ≠ "kv_cache" → ∀ s', Declares m n' s' → s'.length < 2) :
    ∃ d r, llmDescription m maxSeq = .ok (d, r) ∧ r.get? "seq" = some (1, k) := by
  have hu : Understood m := .inl ⟨n, s, hd⟩
  have hr := (range_empty m maxSeq).2 hfree
  have hr' : ((inputNames m.inputs m.initials).foldl (describe m.shapes maxSeq) ([], [])).2 = [] := by simpa using hr
  have hnd := fold_nodup m.shapes maxSeq (inputNames m.inputs m.initials) ([], []) (by simp [Dict.keys])
  rw [llmDescription_eq]
  simp only []
  rw [if_neg (fun h => (desc_empty m maxSeq).1 h hu), if_pos hr, hr']
  refine ⟨_, _, rfl, ?_⟩
  rw [foldSeq_snd _ _ _ hnd, if_pos rfl]
  have hkeys := fold_keys m.shapes maxSeq (inputNames m.inputs m.initials) ([], []) (hn.sublist List.filter_sublist) (by simp [Dict.keys])
  have hnames : inputNames m.inputs m.initials = inputNames pre m.initials ++ n :: inputNames post m.initials := by
    unfold inputNames
    rw [hin, List.filter_append, List.filter_cons, if_pos (by simpa using hd.1.2)]
  have hgn := (first_get m maxSeq n _).2 (.inr ⟨s, hd, rfl⟩)
  rw [described_fixed _ _ _ (noFree hfree hd)] at hgn
  have hen : (entry m.shapes n).isSome = true := by
    rw [fold_fst, if_pos ((mem_names m n).2 hd.1)] at hgn
    simp only [Dict.get?_nil, Option.or_none] at hgn
    rw [hgn]; rfl
  rw [hkeys, hnames, List.filter_append, List.filter_cons, if_pos hen, List.filterMap_append, List.filterMap_append, List.filterMap_cons]
  have hnp : ¬ (n = "kv_cache" ∨ n = "n_past") := by
    rintro (h | rfl)
    · exact hkv h
    · have := hd.2.1; simp at this
  have hb : ((Dict.get? ((inputNames m.inputs m.initials).foldl (describe m.shapes maxSeq) ([], [])).1 n).bind (seqBound n)) = some k := by
    rw [hgn]
    simp only [Option.bind_some]
    obtain ⟨k', h1, h2⟩ := (lastToSeq_known (noFree hfree hd)).1 hl
    rw [hk] at h1; injection h1 with h1; injection h1 with h1
    unfold seqBound; rw [if_neg hnp, h2, h1]; rfl
  have hpost : ((inputNames post m.initials).filter fun n => (entry m.shapes n).isSome).filterMap (fun n' =>
      (Dict.get? ((inputNames m.inputs m.initials).foldl (describe m.shapes maxSeq) ([], [])).1 n').bind (seqBound n')) = [] := by
    rw [List.filterMap_eq_nil_iff]
    intro n' hn'
    have hpn : n' ∈ post := by
      have := (List.mem_filter.1 hn').1
      exact (List.mem_filter.1 this).1
    cases hg : Dict.get? ((inputNames m.inputs m.initials).foldl (describe m.shapes maxSeq) ([], [])).1 n' with
    | none => rfl
    | some ds =>
      simp only [Option.bind_some]
      unfold seqBound
      split
      · rfl
      · rename_i hx
        rcases (first_get m maxSeq n' ds).1 hg with ⟨rfl, _⟩ | ⟨s', hs', rfl⟩
        · simp at hx
        · have := hlast n' hpn (fun h => hx (.inl h)) s' hs'
          rw [described_fixed _ _ _ (noFree hfree hs'), (lastToSeq_known (noFree hfree hs')).2 this]; rfl
  rw [hnames] at hb hpost
  rw [hb]
  simp only [hpost]
  simp

/-- **Fallback.**  A model none of whose fed inputs is understood is described by its first two inputs, both as `(1, seq)`; with no fed
input at all the constructor raises. -/
theorem C104_fallback (m : Facts) (maxSeq : Int) (hu : ¬ Understood m) :
    (inputNames m.inputs m.initials = [] → llmDescription m maxSeq = .error .indexError) ∧
    (∀ a rest, inputNames m.inputs m.initials = a :: rest → ∃ d, llmDescription m maxSeq = .ok (d, [("seq", (1, maxSeq))]) ∧
      ∀ n, d.get? n = if n ∈ (a :: rest).take 2 then some [.num 1, .var "seq"] else none) := by
  have he := (desc_empty m maxSeq).2 hu
  constructor
  · intro hn
    rw [llmDescription_eq]; simp only []; rw [if_pos he, hn]; rfl
  · intro a rest hn
    rw [llmDescription_eq]; simp only []; rw [if_pos he, hn]
    cases rest with
    | nil =>
      refine ⟨_, rfl, fun n => ?_⟩
      simp only [Dict.get?, List.take, List.mem_cons, List.not_mem_nil, or_false]
      by_cases h : a = n
      · simp [h]
      · simp [h, Ne.symm h]
    | cons b rest =>
      refine ⟨_, rfl, fun n => ?_⟩
      rw [Dict.get?_set]
      simp only [Dict.get?, List.take, List.mem_cons, List.not_mem_nil, or_false]
      by_cases h : b = n
      · simp [h]
      · by_cases h2 : a = n
        · simp [h, h2]
        · simp [h, h2, Ne.symm h, Ne.symm h2]

/-- A GPT-2 style model with free sizes, and a cached decoder with fixed ones. -/
private def freeModel : Facts :=
  { inputs := ["ids", "wte", "position"], initials := ["wte"],
    shapes := [("ids", [.num 1, .var "n"]), ("position", [.num 1, .num (-1)]), ("wte", [.num 50257, .num 768])] }
private def cacheModel : Facts :=
  { inputs := ["ids", "n_past", "kv_cache"], initials := [],
    shapes := [("ids", [.num 1, .num 128]), ("n_past", []), ("kv_cache", [.num 1, .num 56, .num 2048, .num 1024])] }

example : HasFree freeModel ∧ llmDescription freeModel 64 = .ok
    ([("ids", [.num 1, .var "dim_ids_1"]), ("position", [.num 1, .var "dim_position_1"])],
     [("dim_ids_1", (1, 64)), ("dim_position_1", (1, 64))]) := by
  refine ⟨⟨"ids", [.num 1, .var "n"], .var "n", ⟨⟨by decide, by decide⟩, by decide, by decide, by decide⟩, by decide, ?_⟩, rfl⟩
  rintro ⟨k, h, _⟩; cases h
example : ¬ HasFree cacheModel ∧ Understood cacheModel ∧ llmDescription cacheModel 64 = .ok
    ([("ids", [.num 1, .var "seq"]), ("n_past", []), ("kv_cache", [.num 1, .num 56, .num 2048, .num 1024])], [("seq", (1, 128))]) := by
  refine ⟨?_, .inr ⟨⟨by decide, by decide⟩, [], rfl⟩, rfl⟩
  rintro ⟨n, s, d, ⟨_, hn, hs, _⟩, hd, hk⟩
  rcases hn with rfl | rfl | rfl
  · cases (show some [.num 1, .num 128] = some s from hs)
    simp at hd; rcases hd with rfl | rfl <;> exact hk ⟨_, rfl, by decide⟩
  · cases (show none = some s from hs)
  · cases (show some [.num 1, .num 56, .num 2048, .num 1024] = some s from hs)
    simp at hd; rcases hd with rfl | rfl | rfl | rfl <;> exact hk ⟨_, rfl, by decide⟩

/-- The session's `max_seq_len` is not a bound on the sequence length: a model declared for 128 tokens may be run with 128 although the
session asked for at most 64. -/
theorem C104_limit_ignored : ∃ m : Facts, ∃ d r, llmDescription m 64 = .ok (d, r) ∧ d.get? "ids" = some [.num 1, .var "seq"] ∧
    r.get? "seq" = some (1, 128) :=
  ⟨cacheModel, _, _, rfl, rfl, rfl⟩

/-- An attention mask is not described, although it has to be fed. -/
theorem C104_input_left_out : ∃ m : Facts, ∃ d r, Fed m "attention_mask" ∧ m.shapes.get? "attention_mask" = some [.num 1, .num 128] ∧
    llmDescription m 128 = .ok (d, r) ∧ d.get? "attention_mask" = none :=
  ⟨{ inputs := ["ids", "attention_mask"], initials := [],
     shapes := [("ids", [.num 1, .num 128]), ("attention_mask", [.num 1, .num 128])] }, _, _, ⟨by decide, by decide⟩, rfl, rfl, rfl⟩

/-- Two token inputs of different lengths share one variable, bounded by the later one: here `ids` of 128 tokens is described as at
most 64 long. -/
theorem C104_bound_of_the_other : ∃ m : Facts, ∃ d r, m.shapes.get? "ids" = some [.num 1, .num 128] ∧
    llmDescription m 128 = .ok (d, r) ∧ d.get? "ids" = some [.num 1, .var "seq"] ∧ r.get? "seq" = some (1, 64) :=
  ⟨{ inputs := ["ids", "position"], initials := [], shapes := [("ids", [.num 1, .num 128]), ("position", [.num 1, .num 64])] },
   _, _, rfl, rfl, rfl, rfl⟩

/-- One free dimension anywhere keeps the other inputs at their declared size: here the positions must always be 128 long while the
tokens may be anything up to 64. -/
theorem C104_mixed : ∃ m : Facts, ∃ d r, llmDescription m 64 = .ok (d, r) ∧ d.get? "position" = some [.num 1, .num 128] ∧
    d.get? "ids" = some [.num 1, .var "dim_ids_1"] ∧ r.get? "dim_ids_1" = some (1, 64) :=
  ⟨{ inputs := ["ids", "position"], initials := [], shapes := [("ids", [.num 1, .num (-1)]), ("position", [.num 1, .num 128])] },
   _, _, rfl, rfl, rfl, rfl⟩

end OnnxTool.Props
