import Verif.Model.Compare
import Mathlib.Tactic.Linarith
import Mathlib.Tactic.Ring
import Mathlib.Tactic.Positivity
import Mathlib.Tactic.NormNum
import Mathlib.Data.List.Perm.Basic
/-!
# C123: the accuracy reports
-/
namespace OnnxTool.Props
open OnnxTool OnnxTool.Compare

/-- `v` is element `j` of sample `i` of an output -/
def At (x : List (List Num)) (i j : Nat) (v : Num) : Prop := ∃ row, x[i]? = some row ∧ row[j]? = some v

/-- an output without NaN -/
def numbers (x : List (List ℚ)) : List (List Num) := x.map fun row => row.map some

private theorem maxFrom_some (l : List Num) (m d : ℚ) (h : maxFrom m l = some d) : (∀ x ∈ l, ∃ v, x = some v ∧ v ≤ d) ∧ m ≤ d ∧ (d = m ∨ some d ∈ l) := by
  induction l generalizing m with
  | nil =>
    cases h
    exact ⟨fun x hx => by simp at hx, le_refl _, Or.inl rfl⟩
  | cons a l ih =>
    cases a with
    | none => cases h
    | some a =>
      obtain ⟨h1, h2, h3⟩ := ih (max m a) h
      refine ⟨fun x hx => ?_, le_trans (le_max_left _ _) h2, ?_⟩
      · rcases List.mem_cons.1 hx with rfl | hx
        · exact ⟨a, rfl, le_trans (le_max_right _ _) h2⟩
        · exact h1 x hx
      · rcases h3 with h3 | h3
        · rcases max_choice m a with e | e
          · exact Or.inl (h3.trans e)
          · exact Or.inr (by rw [h3, e]; simp)
        · exact Or.inr (by simp [h3])

private theorem maxFrom_none (l : List Num) (m : ℚ) : maxFrom m l = none ↔ none ∈ l := by
  induction l generalizing m with
  | nil => simp [maxFrom]
  | cons a l ih =>
    cases a with
    | none => simp [maxFrom]
    | some a => simp [maxFrom, ih]

private theorem npMax_some (l : List Num) (d : ℚ) (h : npMax l = .ok (some d)) : (∀ x ∈ l, ∃ v, x = some v ∧ v ≤ d) ∧ some d ∈ l := by
  cases l with
  | nil => cases h
  | cons a l =>
    cases a with
    | none => cases h
    | some a =>
      have h' : maxFrom a l = some d := by injection h
      obtain ⟨h1, h2, h3⟩ := maxFrom_some l a d h'
      refine ⟨fun x hx => ?_, ?_⟩
      · rcases List.mem_cons.1 hx with rfl | hx
        · exact ⟨a, rfl, h2⟩
        · exact h1 x hx
      · rcases h3 with rfl | h3
        · simp
        · simp [h3]

private theorem npMax_none (l : List Num) : npMax l = .ok none ↔ none ∈ l := by
  cases l with
  | nil => simp [npMax]
  | cons a l =>
    cases a with
    | none => simp [npMax]
    | some a =>
      rw [show npMax (some a :: l) = .ok (maxFrom a l) from rfl]
      constructor
      · intro h
        have h' : maxFrom a l = none := by injection h
        simp [(maxFrom_none l a).1 h']
      · intro h
        rw [(maxFrom_none l a).2 (by simpa using h)]

private theorem npMax_ok (l : List Num) (h : l ≠ []) : ∃ m, npMax l = .ok m := by
  cases l with
  | nil => exact absurd rfl h
  | cons a l => cases a <;> exact ⟨_, rfl⟩

private theorem mem_diffs (a b : List Num) (x : Num) : x ∈ List.zipWith diff a b ↔ ∃ (j : Nat) (u v : Num), a[j]? = some u ∧ b[j]? = some v ∧ diff u v = x := by
  rw [List.mem_iff_getElem?]
  constructor
  · rintro ⟨j, hj⟩
    rw [List.getElem?_zipWith] at hj
    cases ha : a[j]? with
    | none => simp [ha] at hj
    | some u =>
      cases hb : b[j]? with
      | none => simp [ha, hb] at hj
      | some v => exact ⟨j, u, v, ha, hb, by simpa [ha, hb] using hj⟩
  · rintro ⟨j, u, v, ha, hb, e⟩
    exact ⟨j, by rw [List.getElem?_zipWith]; simp [ha, hb, e]⟩

private theorem perSample_spec (A B : List (List Num)) (l : List Num) (h : perSample A B = .ok l) :
    l.length = A.length ∧ ∀ (i : Nat) (a : List Num), A[i]? = some a → ∃ b d, B[i]? = some b ∧ l[i]? = some d ∧ sampleDiff a b = .ok d := by
  induction A generalizing B l with
  | nil => cases h; exact ⟨rfl, fun i a ha => by simp at ha⟩
  | cons a A ih =>
    cases B with
    | nil => cases h
    | cons b B =>
      rw [perSample] at h
      cases hd : sampleDiff a b with
      | error e => rw [hd] at h; cases h
      | ok d =>
        rw [hd] at h
        simp only [] at h
        cases hl : perSample A B with
        | error e => rw [hl] at h; cases h
        | ok l' =>
          rw [hl] at h
          cases h
          obtain ⟨h1, h2⟩ := ih B l' hl
          refine ⟨by simp [h1], fun i x hx => ?_⟩
          cases i with
          | zero =>
            have e : a = x := by simpa using hx
            subst e
            exact ⟨b, d, rfl, rfl, hd⟩
          | succ i => exact h2 i x (by simpa using hx)

private theorem report_parts {pt gi : List (List Num)} {r : Report} (h : compareOutputs pt gi = .ok r) :
    perSample pt gi = .ok r.perSample ∧ npMax r.perSample = .ok r.maxDiff ∧ r.meanDiff = npMean r.perSample ∧ pt.length = gi.length := by
  unfold compareOutputs at h
  cases hl : perSample pt gi with
  | error e => rw [hl] at h; cases h
  | ok l =>
    rw [hl] at h
    simp only [] at h
    cases hm : npMax l with
    | error e => rw [hm] at h; cases h
    | ok m =>
      rw [hm] at h
      simp only [] at h
      by_cases hn : pt.length = gi.length
      · rw [if_pos hn] at h
        cases h
        exact ⟨rfl, hm, rfl, hn⟩
      · rw [if_neg hn] at h; cases h

private theorem sampleDiff_parts {a b : List Num} {d : Num} (h : sampleDiff a b = .ok d) : a.length = b.length ∧ npMax (List.zipWith diff a b) = .ok d := by
  unfold sampleDiff at h
  by_cases hn : a.length = b.length
  · rw [if_pos hn] at h; exact ⟨hn, h⟩
  · rw [if_neg hn] at h; cases h

/-- **C123, when there is a report.** If there is a sample, as many on both sides, and every sample has elements, as many on both sides. -/
theorem C123_report (pt gi : List (List Num)) :
    (∃ r, compareOutputs pt gi = .ok r) ↔ pt ≠ [] ∧ pt.length = gi.length ∧ ∀ (i : Nat) (a b : List Num), pt[i]? = some a → gi[i]? = some b → a ≠ [] ∧ a.length = b.length := by
  constructor
  · rintro ⟨r, h⟩
    obtain ⟨h1, h2, h3, h4⟩ := report_parts h
    obtain ⟨hl, hs⟩ := perSample_spec _ _ _ h1
    refine ⟨?_, h4, fun i a b ha hb => ?_⟩
    · rintro rfl
      rw [List.length_eq_zero_iff.1 hl] at h2
      cases h2
    · obtain ⟨b', d, hb', _, hd⟩ := hs i a ha
      have e : b' = b := by rw [hb] at hb'; injection hb' with e; exact e.symm
      subst e
      obtain ⟨hn, hm⟩ := sampleDiff_parts hd
      refine ⟨?_, hn⟩
      rintro rfl
      cases hm
  · rintro ⟨hne, hlen, hs⟩
    have key : ∀ A B : List (List Num), A.length = B.length → (∀ (i : Nat) (a b : List Num), A[i]? = some a → B[i]? = some b → a ≠ [] ∧ a.length = b.length) →
        ∃ l, perSample A B = .ok l ∧ l.length = A.length := by
      intro A
      induction A with
      | nil => intro B _ _; exact ⟨[], rfl, rfl⟩
      | cons a A ih =>
        intro B hB hs
        cases B with
        | nil => simp at hB
        | cons b B =>
          obtain ⟨l, hl, hll⟩ := ih B (by simpa using hB) fun i x y hx hy => hs (i + 1) x y (by simpa using hx) (by simpa using hy)
          obtain ⟨hne, hab⟩ := hs 0 a b rfl rfl
          have hz : List.zipWith diff a b ≠ [] := by
            cases a with
            | nil => exact absurd rfl hne
            | cons u a => cases b with
              | nil => simp at hab
              | cons v b => simp
          obtain ⟨d, hd⟩ := npMax_ok _ hz
          refine ⟨d :: l, ?_, by simp [hll]⟩
          rw [perSample, sampleDiff, if_pos hab, hd, hl]
    obtain ⟨l, hl, hll⟩ := key pt gi hlen hs
    have hl0 : l ≠ [] := by
      rintro rfl
      exact hne (List.length_eq_zero_iff.1 hll.symm)
    obtain ⟨m, hm⟩ := npMax_ok l hl0
    exact ⟨⟨m, npMean l, l⟩, by unfold compareOutputs; rw [hl]; simp only []; rw [hm]; simp only []; rw [if_pos hlen]⟩

private theorem diff_some {u v : Num} {d : ℚ} (h : diff u v = some d) : ∃ a b, u = some a ∧ v = some b ∧ |a - b| = d := by
  cases u with
  | none => cases h
  | some a =>
    cases v with
    | none => cases h
    | some b => exact ⟨a, b, rfl, rfl, by injection h⟩

/-- **C123, max_diff.** A number that is reported bounds the difference at every position, and is reached at one; there is no NaN. -/
theorem C123_max (pt gi : List (List Num)) (r : Report) (m : ℚ) (h : compareOutputs pt gi = .ok r) (hm : r.maxDiff = some m) :
    (∀ i j v, At pt i j v → ∃ a b : ℚ, v = some a ∧ At gi i j (some b) ∧ |a - b| ≤ m) ∧ ∃ (i j : Nat) (a b : ℚ), At pt i j (some a) ∧ At gi i j (some b) ∧ |a - b| = m := by
  obtain ⟨h1, h2, h3, h4⟩ := report_parts h
  obtain ⟨hl, hs⟩ := perSample_spec _ _ _ h1
  rw [hm] at h2
  obtain ⟨hall, hex⟩ := npMax_some _ _ h2
  constructor
  · rintro i j v ⟨row, hrow, hv⟩
    obtain ⟨b, d, hb, hd, hsd⟩ := hs i row hrow
    obtain ⟨hn, hmx⟩ := sampleDiff_parts hsd
    obtain ⟨d', rfl, hd'⟩ := hall d (List.mem_of_getElem? hd)
    obtain ⟨hin, _⟩ := npMax_some _ _ hmx
    have hj : j < b.length := by
      rw [← hn]
      exact (List.getElem?_eq_some_iff.1 hv).1
    obtain ⟨x, hx, hxd⟩ := hin _ ((mem_diffs row b _).2 ⟨j, v, b[j], hv, List.getElem?_eq_getElem hj, rfl⟩)
    obtain ⟨a, c, rfl, hc, e⟩ := diff_some hx
    exact ⟨a, c, rfl, ⟨b, hb, by rw [List.getElem?_eq_getElem hj, hc]⟩, by rw [e]; exact le_trans hxd hd'⟩
  · obtain ⟨i, hi⟩ := List.mem_iff_getElem?.1 hex
    have hi' : i < pt.length := by
      rw [← hl]
      exact (List.getElem?_eq_some_iff.1 hi).1
    obtain ⟨b, d, hb, hd, hsd⟩ := hs i _ (List.getElem?_eq_getElem hi')
    rw [hi] at hd
    cases hd
    obtain ⟨_, hmx⟩ := sampleDiff_parts hsd
    obtain ⟨_, hmem⟩ := npMax_some _ _ hmx
    obtain ⟨j, u, v, hu, hv, e⟩ := (mem_diffs _ _ _).1 hmem
    obtain ⟨x, y, rfl, rfl, e2⟩ := diff_some e
    exact ⟨i, j, x, y, ⟨_, List.getElem?_eq_getElem hi', hu⟩, ⟨b, hb, hv⟩, e2⟩

/-- **C123, a NaN is not missed.** If either network put out a NaN, `max_diff` is NaN, and only then. -/
theorem C123_nan (pt gi : List (List Num)) (r : Report) (h : compareOutputs pt gi = .ok r) :
    r.maxDiff = none ↔ (∃ i j, At pt i j none) ∨ ∃ i j, At gi i j none := by
  obtain ⟨h1, h2, h3, h4⟩ := report_parts h
  obtain ⟨hl, hs⟩ := perSample_spec _ _ _ h1
  constructor
  · intro hm
    rw [hm] at h2
    obtain ⟨i, hi⟩ := List.mem_iff_getElem?.1 ((npMax_none _).1 h2)
    have hi' : i < pt.length := by
      rw [← hl]
      exact (List.getElem?_eq_some_iff.1 hi).1
    obtain ⟨b, d, hb, hd, hsd⟩ := hs i _ (List.getElem?_eq_getElem hi')
    rw [hi] at hd
    cases hd
    obtain ⟨j, u, v, hu, hv, e⟩ := (mem_diffs _ _ _).1 ((npMax_none _).1 (sampleDiff_parts hsd).2)
    cases u with
    | none => exact Or.inl ⟨i, j, _, List.getElem?_eq_getElem hi', hu⟩
    | some u =>
      cases v with
      | none => exact Or.inr ⟨i, j, b, hb, hv⟩
      | some v => cases e
  · intro hnan
    cases hm : r.maxDiff with
    | none => rfl
    | some m =>
      exfalso
      have hmax := (C123_max pt gi r m h hm).1
      rcases hnan with ⟨i, j, hat⟩ | ⟨i, j, row, hrow, hv⟩
      · obtain ⟨a, b, e, _⟩ := hmax i j none hat
        cases e
      · have hi : i < pt.length := by
          rw [h4]
          exact (List.getElem?_eq_some_iff.1 hrow).1
        obtain ⟨b, d, hb, hd, hsd⟩ := hs i _ (List.getElem?_eq_getElem hi)
        have e : b = row := by rw [hrow] at hb; injection hb with e; exact e.symm
        subst e
        have hj : j < pt[i].length := by
          rw [(sampleDiff_parts hsd).1]
          exact (List.getElem?_eq_some_iff.1 hv).1
        obtain ⟨a, c, _, ⟨row', hr', hv'⟩, _⟩ := hmax i j _ ⟨_, List.getElem?_eq_getElem hi, List.getElem?_eq_getElem hj⟩
        rw [hrow] at hr'
        cases hr'
        rw [hv] at hv'
        cases hv'

/-- **C123, a difference of nothing.** `max_diff` is zero exactly when the outputs are the same, element by element, and have no NaN. -/
theorem C123_zero (pt gi : List (List Num)) (r : Report) (h : compareOutputs pt gi = .ok r) :
    r.maxDiff = some 0 ↔ pt = gi ∧ ∀ i j, ¬ At pt i j none := by
  obtain ⟨h1, h2, h3, h4⟩ := report_parts h
  obtain ⟨hl, hs⟩ := perSample_spec _ _ _ h1
  constructor
  · intro hm
    have hmax := (C123_max pt gi r 0 h hm).1
    refine ⟨?_, fun i j hat => ?_⟩
    · refine List.ext_getElem h4 fun i hi hi' => ?_
      obtain ⟨b, d, hb, hd, hsd⟩ := hs i _ (List.getElem?_eq_getElem hi)
      have e : b = gi[i] := by rw [List.getElem?_eq_getElem hi'] at hb; injection hb with e; exact e.symm
      subst e
      refine List.ext_getElem (sampleDiff_parts hsd).1 fun j hj hj' => ?_
      obtain ⟨x, y, e, ⟨row, hrow, hy⟩, hle⟩ := hmax i j _ ⟨_, List.getElem?_eq_getElem hi, List.getElem?_eq_getElem hj⟩
      rw [List.getElem?_eq_getElem hi'] at hrow
      cases hrow
      rw [List.getElem?_eq_getElem hj'] at hy
      injection hy with hy
      have h0 : |x - y| = 0 := le_antisymm hle (abs_nonneg _)
      have hxy : x = y := by linarith [abs_eq_zero.1 h0]
      rw [e, hy, hxy]
    · obtain ⟨a, _, e, _⟩ := hmax i j none hat
      cases e
  · rintro ⟨rfl, hno⟩
    cases hm : r.maxDiff with
    | none =>
      rcases (C123_nan pt pt r h).1 hm with ⟨i, j, hat⟩ | ⟨i, j, hat⟩ <;> exact absurd hat (hno i j)
    | some m =>
      obtain ⟨i, j, a, b, ⟨row, hrow, ha⟩, ⟨row', hrow', hb⟩, e⟩ := (C123_max pt pt r m h hm).2
      rw [hrow] at hrow'
      cases hrow'
      rw [ha] at hb
      cases hb
      rw [← e]
      simp

private theorem num_diffs (a b : List ℚ) : List.zipWith diff (a.map some) (b.map some) = (List.zipWith (fun x y => |x - y|) a b).map some := by
  induction a generalizing b with
  | nil => rfl
  | cons x a ih =>
    cases b with
    | nil => rfl
    | cons y b => simp [ih, diff]

private theorem sum_le_of_le (l : List ℚ) (d : ℚ) (h : ∀ x ∈ l, x ≤ d) : l.sum ≤ l.length * d := by
  induction l with
  | nil => simp
  | cons x l ih =>
    have h1 := h x (by simp)
    have h2 := ih fun y hy => h y (by simp [hy])
    simp only [List.sum_cons, List.length_cons]
    push_cast
    linarith

/-- what is below: the maxima of the rows, as numbers -/
private theorem num_perSample (pt gi : List (List ℚ)) (w : Nat) (l : List Num) (h : perSample (numbers pt) (numbers gi) = .ok l) (hw : ∀ a ∈ pt, a.length = w) :
    ∃ ds : List ℚ, l = ds.map some ∧ (List.zipWith (fun a b => (List.zipWith (fun x y => |x - y|) a b).sum) pt gi).sum ≤ w * ds.sum := by
  induction pt generalizing gi l with
  | nil => cases h; exact ⟨[], rfl, by simp⟩
  | cons a pt ih =>
    cases gi with
    | nil => cases h
    | cons b gi =>
      rw [show numbers (a :: pt) = a.map some :: numbers pt from rfl, show numbers (b :: gi) = b.map some :: numbers gi from rfl, perSample] at h
      cases hd : sampleDiff (a.map some) (b.map some) with
      | error e => rw [hd] at h; cases h
      | ok d =>
        rw [hd] at h
        simp only [] at h
        cases hl : perSample (numbers pt) (numbers gi) with
        | error e => rw [hl] at h; cases h
        | ok l' =>
          rw [hl] at h
          cases h
          obtain ⟨ds, rfl, hle⟩ := ih gi l' hl fun x hx => hw x (by simp [hx])
          obtain ⟨hab, hm⟩ := sampleDiff_parts hd
          rw [num_diffs] at hm
          cases d with
          | none =>
            obtain ⟨x, _, hx⟩ := List.mem_map.1 ((npMax_none _).1 hm)
            cases hx
          | some d =>
            refine ⟨d :: ds, rfl, ?_⟩
            obtain ⟨hin, _⟩ := npMax_some _ _ hm
            have h1 : (List.zipWith (fun x y => |x - y|) a b).sum ≤ w * d := by
              have h2 := sum_le_of_le (List.zipWith (fun x y => |x - y|) a b) d fun x hx => by
                obtain ⟨v, e, hv⟩ := hin (some x) (List.mem_map_of_mem hx)
                cases e
                exact hv
              have h3 : (List.zipWith (fun x y => |x - y|) a b).length = w := by
                have := hw a (by simp)
                simp at hab
                simp [← hab, this]
              rw [h3] at h2
              exact h2
            simp only [List.zipWith_cons_cons, List.sum_cons]
            linarith

private theorem npSum_num (l : List ℚ) : npSum (l.map some) = some l.sum := by
  induction l with
  | nil => rfl
  | cons x l ih => simp [npSum, ih]

/-- **C123, mean_diff.** It lies between the mean of the absolute differences of all elements and `max_diff`. -/
theorem C123_mean (pt gi : List (List ℚ)) (w : Nat) (r : Report) (h : compareOutputs (numbers pt) (numbers gi) = .ok r) (hw : ∀ a ∈ pt, a.length = w) :
    ∃ mean mx : ℚ, r.meanDiff = some mean ∧ r.maxDiff = some mx ∧ mean ≤ mx ∧
      (List.zipWith (fun a b => (List.zipWith (fun x y => |x - y|) a b).sum) pt gi).sum / (pt.length * w) ≤ mean := by
  obtain ⟨h1, h2, h3, h4⟩ := report_parts h
  obtain ⟨hl, hs⟩ := perSample_spec _ _ _ h1
  obtain ⟨hne, -, hrow⟩ := (C123_report _ _).1 ⟨r, h⟩
  obtain ⟨ds, hds, hle⟩ := num_perSample pt gi w _ h1 hw
  have hlen : ds.length = pt.length := by
    rw [hds] at hl
    simpa [numbers] using hl
  have hpos : 0 < pt.length := by
    cases pt with
    | nil => exact absurd rfl hne
    | cons a pt => simp
  have hwpos : 0 < w := by
    cases pt with
    | nil => exact absurd rfl hne
    | cons a pt =>
      cases gi with
      | nil => simp [numbers] at h4
      | cons b gi =>
        have := (hrow 0 (a.map some) (b.map some) rfl rfl).1
        have hwa := hw a (by simp)
        cases a with
        | nil => exact absurd rfl this
        | cons x a => rw [← hwa]; simp
  have hn : (0 : ℚ) < pt.length := by exact_mod_cast hpos
  have hwq : (0 : ℚ) < w := by exact_mod_cast hwpos
  cases hm : r.maxDiff with
  | none =>
    rw [hm, hds] at h2
    have := (npMax_none _).1 h2
    simp at this
  | some mx =>
    rw [hm, hds] at h2
    obtain ⟨hin, _⟩ := npMax_some _ _ h2
    refine ⟨ds.sum / ds.length, mx, ?_, rfl, ?_, ?_⟩
    · rw [h3, hds, npMean, npSum_num]
      simp
    · have := sum_le_of_le ds mx fun x hx => by
        obtain ⟨v, e, hv⟩ := hin (some x) (List.mem_map_of_mem hx)
        cases e
        exact hv
      rw [hlen] at this ⊢
      rw [div_le_iff₀ hn]
      linarith
    · rw [hlen, div_le_div_iff₀ (by positivity) hn]
      calc _ ≤ (w * ds.sum) * (pt.length : ℚ) := by gcongr
        _ = ds.sum * ((pt.length : ℚ) * w) := by ring

/-- **C123 (finding), what `mean_diff` is.** Not the mean of the differences, as printed, but the mean of the largest of every sample: here 8 instead of 2. -/
theorem C123_mean_is_not_the_mean : compareOutputs (numbers [[8, 0, 0, 0], [8, 0, 0, 0]]) (numbers [[0, 0, 0, 0], [0, 0, 0, 0]]) = .ok ⟨some 8, some 8, [some 8, some 8]⟩ := by
  have h : (compareOutputs (numbers [[8, 0, 0, 0], [8, 0, 0, 0]]) (numbers [[0, 0, 0, 0], [0, 0, 0, 0]])).toOption = some ⟨some 8, some 8, [some 8, some 8]⟩ := by decide +kernel
  cases hc : compareOutputs (numbers [[8, 0, 0, 0], [8, 0, 0, 0]]) (numbers [[0, 0, 0, 0], [0, 0, 0, 0]]) with
  | error e => rw [hc] at h; cases h
  | ok r => rw [hc] at h; injection h with h; rw [h]

private theorem dot_self_nonneg (a : List ℚ) : 0 ≤ dot a a := by
  induction a with
  | nil => simp [dot]
  | cons x a ih =>
    have e : dot (x :: a) (x :: a) = x * x + dot a a := by simp [dot]
    rw [e]
    nlinarith [mul_self_nonneg x]

private theorem cauchy (a b : List ℚ) : dot a b ^ 2 ≤ dot a a * dot b b := by
  induction a generalizing b with
  | nil =>
    simp [dot]
  | cons x a ih =>
    cases b with
    | nil => simp [dot]
    | cons y b =>
      have e1 : dot (x :: a) (y :: b) = x * y + dot a b := by simp [dot]
      have e2 : dot (x :: a) (x :: a) = x * x + dot a a := by simp [dot]
      have e3 : dot (y :: b) (y :: b) = y * y + dot b b := by simp [dot]
      rw [e1, e2, e3]
      have hA := dot_self_nonneg a
      have hB := dot_self_nonneg b
      have h := ih b
      have key : 2 * (x * y * dot a b) ≤ x * x * dot b b + y * y * dot a a := by
        have hx := mul_self_nonneg x
        have hy := mul_self_nonneg y
        refine le_of_abs_le (abs_le_of_sq_le_sq ?_ (add_nonneg (mul_nonneg hx hB) (mul_nonneg hy hA)))
        have h1 : (2 * (x * y * dot a b)) ^ 2 ≤ 4 * (x * x * dot b b) * (y * y * dot a a) := by
          have := mul_le_mul_of_nonneg_left h (show 0 ≤ 4 * (x * x) * (y * y) from mul_nonneg (mul_nonneg (by norm_num) hx) hy)
          nlinarith
        nlinarith [sq_nonneg (x * x * dot b b - y * y * dot a a)]
      nlinarith

private theorem norm_sq (a : List ℚ) : Compare.norm a * Compare.norm a = ((dot a a : ℚ) : ℝ) := by
  unfold Compare.norm
  exact Real.mul_self_sqrt (by exact_mod_cast dot_self_nonneg a)

private theorem abs_dot_le (a b : List ℚ) : |((dot a b : ℚ) : ℝ)| ≤ Compare.norm a * Compare.norm b := by
  have hn : 0 ≤ Compare.norm a * Compare.norm b := mul_nonneg (Real.sqrt_nonneg _) (Real.sqrt_nonneg _)
  refine abs_le_of_sq_le_sq ?_ hn
  have : (Compare.norm a * Compare.norm b) ^ 2 = ((dot a a : ℚ) : ℝ) * ((dot b b : ℚ) : ℝ) := by
    rw [← norm_sq a, ← norm_sq b]; ring
  rw [this]
  exact_mod_cast cauchy a b

/-- **C123, the cosine.** It is always between -1 and 1, and never one of them. -/
theorem C123_cosine (a b : List ℚ) : |cosine a b| < 1 := by
  have hn : 0 ≤ Compare.norm a * Compare.norm b := mul_nonneg (Real.sqrt_nonneg _) (Real.sqrt_nonneg _)
  have hd : 0 < Compare.norm a * Compare.norm b + 1 / 10 ^ 12 := by positivity
  unfold cosine
  rw [abs_div, abs_of_pos hd, div_lt_one hd]
  have := abs_dot_le a b
  have : (0 : ℝ) < 1 / 10 ^ 12 := by positivity
  linarith

private theorem dot_zero (a b : List ℚ) (h : ∀ x ∈ a, x = 0) : dot a b = 0 := by
  induction a generalizing b with
  | nil => simp [dot]
  | cons x a ih =>
    cases b with
    | nil => simp [dot]
    | cons y b =>
      have e1 : dot (x :: a) (y :: b) = x * y + dot a b := by simp [dot]
      rw [e1, ih b fun z hz => h z (by simp [hz]), h x (by simp)]
      ring

/-- **C123 (finding), outputs of zero.** If the reference is zero the cosine is zero: also when the engine puts out the same. -/
theorem C123_cosine_zero (a b : List ℚ) (h : ∀ x ∈ a, x = 0) : cosine a b = 0 := by
  unfold cosine
  rw [dot_zero a b h]
  simp

private theorem dot_scale (c : ℚ) (a b : List ℚ) : dot a (b.map (c * ·)) = c * dot a b := by
  induction a generalizing b with
  | nil => simp [dot]
  | cons x a ih =>
    cases b with
    | nil => simp [dot]
    | cons y b =>
      have e1 : dot (x :: a) (y :: b) = x * y + dot a b := by simp [dot]
      have e2 : dot (x :: a) ((y :: b).map (c * ·)) = x * (c * y) + dot a (b.map (c * ·)) := by simp [dot]
      rw [e1, e2, ih]
      ring

private theorem dot_comm (a b : List ℚ) : dot a b = dot b a := by
  induction a generalizing b with
  | nil => simp [dot]
  | cons x a ih =>
    cases b with
    | nil => simp [dot]
    | cons y b =>
      have e1 : dot (x :: a) (y :: b) = x * y + dot a b := by simp [dot]
      have e2 : dot (y :: b) (x :: a) = y * x + dot b a := by simp [dot]
      rw [e1, e2, ih]
      ring

/-- **C123 (finding), the cosine does not see a factor.** An engine whose output is the reference times a positive `c` has this cosine (of a vector with squared norm `q`): nearly one. -/
theorem C123_cosine_scale (a : List ℚ) (c : ℚ) (hc : 0 < c) :
    cosine a (a.map (c * ·)) = (c : ℝ) * ((dot a a : ℚ) : ℝ) / ((c : ℝ) * ((dot a a : ℚ) : ℝ) + 1 / 10 ^ 12) := by
  have hcr : (0 : ℝ) < c := by exact_mod_cast hc
  have e : Compare.norm (a.map (c * ·)) = (c : ℝ) * Compare.norm a := by
    have e2 : dot (a.map (c * ·)) (a.map (c * ·)) = c ^ 2 * dot a a := by
      rw [dot_scale, dot_comm, dot_scale]; ring
    unfold Compare.norm
    rw [e2]
    push_cast
    rw [Real.sqrt_mul (by positivity), Real.sqrt_sq hcr.le]
  unfold cosine
  rw [dot_scale, e]
  rw [show Compare.norm a * ((c : ℝ) * Compare.norm a) = (c : ℝ) * (Compare.norm a * Compare.norm a) by ring, norm_sq]
  push_cast
  rfl

end OnnxTool.Props
