import Verif.Model.Broadcast
import Verif.Spec.Broadcast
/-! # Lemmas on broadcasting -/
namespace OnnxTool.Shape
open OnnxTool

theorem listMax_go (ds : List Nat) : ∀ m, m ≤ ds.foldl max m ∧ (∀ d ∈ ds, d ≤ ds.foldl max m) ∧
    (ds.foldl max m = m ∨ ds.foldl max m ∈ ds) := by
  induction ds with
  | nil => intro m; simp
  | cons a ds ih =>
    intro m
    obtain ⟨h1, h2, h3⟩ := ih (max m a)
    simp only [List.foldl_cons, List.mem_cons]
    refine ⟨by omega, ?_, ?_⟩
    · rintro d (rfl | h)
      · omega
      · exact h2 d h
    · rcases h3 with h | h
      · rw [h]; rcases Nat.le_total m a with e | e
        · right; left; omega
        · left; omega
      · exact Or.inr (Or.inr h)

theorem maxLen_go (ss : List Shp) : ∀ m, m ≤ ss.foldl (fun m s => if s.length > m then s.length else m) m ∧
    (∀ s ∈ ss, s.length ≤ ss.foldl (fun m s => if s.length > m then s.length else m) m) ∧
    (ss.foldl (fun m s => if s.length > m then s.length else m) m = m ∨
      ∃ s ∈ ss, s.length = ss.foldl (fun m s => if s.length > m then s.length else m) m) := by
  induction ss with
  | nil => intro m; simp
  | cons a ds ih =>
    intro m
    obtain ⟨h1, h2, h3⟩ := ih (if a.length > m then a.length else m)
    have hge : m ≤ (if a.length > m then a.length else m) ∧ a.length ≤ (if a.length > m then a.length else m) := by
      split <;> omega
    simp only [List.foldl_cons, List.mem_cons]
    refine ⟨Nat.le_trans hge.1 h1, ?_, ?_⟩
    · rintro d (rfl | h)
      · exact Nat.le_trans hge.2 h1
      · exact h2 d h
    · rcases h3 with h | ⟨s, hs, h⟩
      · rw [h]; split
        · right; exact ⟨a, Or.inl rfl, rfl⟩
        · left; rfl
      · exact Or.inr ⟨s, Or.inr hs, h⟩

theorem le_maxLen {ss : List Shp} {s : Shp} (h : s ∈ ss) : s.length ≤ maxLen ss := (maxLen_go ss 0).2.1 s h
theorem maxLen_attained (ss : List Shp) : maxLen ss = 0 ∨ ∃ s ∈ ss, s.length = maxLen ss := (maxLen_go ss 0).2.2

/-- right-aligned entry of a padded shape -/
theorem padTo_getD {n : Nat} {s : Shp} (h : s.length ≤ n) {j : Nat} (hj : j < n) :
    (padTo n s).getD j 1 = dimR s (n - 1 - j) := by
  unfold padTo dimR
  split
  · rename_i hlt
    rw [List.getD_eq_getElem?_getD, List.getElem?_append]
    split
    · rename_i h2
      rw [List.length_replicate] at h2
      rw [List.getElem?_replicate_of_lt h2, List.getElem?_eq_none (by simp; omega)]
      rfl
    · rename_i h2
      rw [List.length_replicate] at h2 ⊢
      rw [List.getElem?_reverse (by omega)]
      congr 2
      omega
  · have : s.length = n := by omega
    rw [List.getElem?_reverse (by omega), List.getD_eq_getElem?_getD]
    congr 2
    omega

theorem padTo_length {n : Nat} {s : Shp} (h : s.length ≤ n) : (padTo n s).length = n := by
  unfold padTo
  split
  · simp; omega
  · omega

/-- what one position computes -/
theorem mergeDims_iff {ds : List Nat} (hne : ds ≠ []) (d : Nat) :
    mergeDims ds = .ok d ↔ (∀ x ∈ ds, x = 1 ∨ x = d) ∧ (d ∈ ds ∨ d = 1) := by
  have hgo := listMax_go ds 0
  have hmem : listMax ds ∈ ds := by
    rcases hgo.2.2 with h | h
    · obtain ⟨a, l, rfl⟩ := List.exists_cons_of_ne_nil hne
      have := hgo.2.1 a (by simp)
      have e : listMax (a :: l) = 0 := h
      rw [e]
      rw [h] at this
      have : a = 0 := by omega
      simp [this]
    · exact h
  have hub : ∀ x ∈ ds, x ≤ listMax ds := hgo.2.1
  unfold mergeDims
  simp only
  by_cases h0 : 0 ∈ ds
  · rw [if_pos (List.contains_iff_mem.mpr h0)]
    constructor
    · intro h
      split at h
      · rename_i hall
        cases h
        rw [List.all_eq_true] at hall
        refine ⟨fun x hx => ?_, Or.inl h0⟩
        have := hall x hx
        simp at this
        omega
      · cases h
    · rintro ⟨h1, h2⟩
      have hd : d = 0 := by rcases h1 0 h0 with h | h; · omega
                            · exact h.symm
      subst hd
      rw [if_pos]
      rw [List.all_eq_true]
      intro x hx
      rcases h1 x hx with h | h <;> simp [h]
  · rw [if_neg (by rw [List.contains_iff_mem]; exact h0)]
    constructor
    · intro h
      split at h
      · rename_i hall
        cases h
        rw [List.all_eq_true] at hall
        refine ⟨fun x hx => ?_, Or.inl hmem⟩
        have := hall x hx
        simp at this
        omega
      · cases h
    · rintro ⟨h1, h2⟩
      have hd : d = listMax ds := by
        rcases h2 with h2 | h2
        · have a := hub d h2
          rcases h1 _ hmem with b | b
          · have : d ≠ 0 := fun e => h0 (e ▸ h2)
            omega
          · exact b.symm
        · subst h2
          rcases h1 _ hmem with b | b <;> exact b.symm
      subst hd
      rw [if_pos]
      rw [List.all_eq_true]
      intro x hx
      rcases h1 x hx with h | h
      · simp [h]
      · rw [h]; simp

theorem mergeDims_error {ds : List Nat} {e : PyErr} (h : mergeDims ds = .error e) : e = .valueError := by
  unfold mergeDims at h
  simp only at h
  split at h
  · split at h
    · cases h
    · cases h; rfl
  · split at h
    · cases h
    · cases h; rfl

theorem mergeAll_iff {padded : List Shp} {js : List Nat} {r : Shp} :
    mergeAll padded js = .ok r ↔ r.length = js.length ∧
      ∀ k (hk : k < js.length), mergeDims (padded.map (fun s => s.getD js[k] 1)) = .ok (r.getD k 1) := by
  induction js generalizing r with
  | nil =>
    simp only [mergeAll, List.length_nil]
    constructor
    · intro h; cases h; simp
    · rintro ⟨h, -⟩; rw [List.eq_nil_of_length_eq_zero h]
  | cons j js ih =>
    unfold mergeAll
    constructor
    · intro h
      split at h
      · cases h
      · rename_i d hd
        split at h
        · cases h
        · rename_i r' hr'
          cases h
          obtain ⟨h1, h2⟩ := ih.mp hr'
          refine ⟨by simp [h1], ?_⟩
          intro k hk
          cases k with
          | zero => simpa using hd
          | succ k =>
            have := h2 k (by simpa using hk)
            simp only [List.getElem_cons_succ, List.getD_cons_succ]
            exact this
    · rintro ⟨h1, h2⟩
      cases r with
      | nil => simp at h1
      | cons d r =>
        have h3 := h2 0 (by simp)
        simp only [List.getElem_cons_zero, List.getD_cons_zero] at h3
        rw [h3]
        have h4 : mergeAll padded js = .ok r := ih.mpr ⟨by simpa using h1, fun k hk => by
          have := h2 (k + 1) (by simpa using hk)
          simp only [List.getElem_cons_succ, List.getD_cons_succ] at this
          exact this⟩
        simp only [h4]

theorem mergeAll_error {padded : List Shp} {js : List Nat} {e : PyErr} (h : mergeAll padded js = .error e) :
    e = .valueError := by
  induction js with
  | nil => cases h
  | cons j js ih =>
    unfold mergeAll at h
    split at h
    · rename_i hd; cases h; exact mergeDims_error hd
    · split at h
      · rename_i he; cases h; exact ih he
      · cases h

theorem getD_reverse {r : Shp} {k : Nat} (hk : k < r.length) : r.getD k 1 = dimR r (r.length - 1 - k) := by
  unfold dimR
  rw [List.getElem?_reverse (by omega), List.getD_eq_getElem?_getD]
  congr 2
  omega

theorem broadcast_iff (ss : List Shp) (r : Shp) : broadcastShape ss = .ok r ↔ IsBroadcast ss r := by
  unfold broadcastShape
  rw [mergeAll_iff]
  simp only [List.length_range, List.getElem_range, List.map_map]
  have key : ∀ k, k < maxLen ss → ss ≠ [] → ∀ d,
      (mergeDims (ss.map ((fun s => s.getD k 1) ∘ padTo (maxLen ss))) = .ok d ↔
        (∀ s ∈ ss, dimR s (maxLen ss - 1 - k) = 1 ∨ dimR s (maxLen ss - 1 - k) = d) ∧
        ((∃ s ∈ ss, dimR s (maxLen ss - 1 - k) = d) ∨ d = 1)) := by
    intro k hk hne d
    rw [mergeDims_iff (by simpa using hne)]
    have e : ss.map ((fun s => s.getD k 1) ∘ padTo (maxLen ss)) = ss.map (fun s => dimR s (maxLen ss - 1 - k)) := by
      apply List.map_congr_left
      intro s hs
      exact padTo_getD (le_maxLen hs) hk
    rw [e]
    simp only [List.mem_map, forall_exists_index, and_imp, forall_apply_eq_imp_iff₂]
  constructor
  · rintro ⟨h1, h2⟩
    have hss : 0 < maxLen ss → ss ≠ [] := by rintro h rfl; simp [maxLen] at h
    refine ⟨fun s hs => by rw [h1]; exact le_maxLen hs, ?_, ?_, ?_⟩
    · rcases maxLen_attained ss with h | ⟨s, hs, h⟩
      · left; exact List.eq_nil_of_length_eq_zero (by omega)
      · exact Or.inr ⟨s, hs, by omega⟩
    · intro i hi s hs
      have := ((key (maxLen ss - 1 - i) (by omega) (hss (by omega)) _).mp (h2 (maxLen ss - 1 - i) (by omega))).1 s hs
      rw [getD_reverse (by omega), show maxLen ss - 1 - (maxLen ss - 1 - i) = i by omega,
        show r.length - 1 - (maxLen ss - 1 - i) = i by omega] at this
      exact this
    · intro i hi
      have := ((key (maxLen ss - 1 - i) (by omega) (hss (by omega)) _).mp (h2 (maxLen ss - 1 - i) (by omega))).2
      rw [getD_reverse (by omega), show maxLen ss - 1 - (maxLen ss - 1 - i) = i by omega,
        show r.length - 1 - (maxLen ss - 1 - i) = i by omega] at this
      exact this.symm
  · intro h
    have hlen : r.length = maxLen ss := by
      rcases h.rank_le with e | ⟨s, hs, e⟩
      · subst e
        rcases maxLen_attained ss with h' | ⟨s, hs, h'⟩
        · rw [h']; rfl
        · have := h.rank_ge s hs; simp at this ⊢; simp [this] at h'; omega
      · have h1 := le_maxLen hs
        rcases maxLen_attained ss with h' | ⟨s', hs', h'⟩
        · omega
        · have := h.rank_ge s' hs'; omega
    refine ⟨hlen, ?_⟩
    intro k hk
    have hss : ss ≠ [] := by rintro rfl; simp [maxLen] at hk
    rw [key k hk hss, getD_reverse (by omega), hlen]
    have hi : maxLen ss - 1 - k < r.length := by omega
    exact ⟨h.compat _ hi, (h.attained _ hi).symm⟩

theorem broadcast_error {ss : List Shp} {e : PyErr} (h : broadcastShape ss = .error e) : e = .valueError :=
  mergeAll_error h

end OnnxTool.Shape
