import Verif.Proofs.Axes
/-! # C24: Reshape -/
namespace OnnxTool.Props
open OnnxTool OnnxTool.Axes OnnxTool.Conv OnnxTool.Shape

/-- **C24.** For a non-scalar input with positive dimensions and a non-empty target whose entries are at least -1, with at most one -1
and zeros only at positions the input has: shape inference returns exactly when the reshape exists, and then returns it (so all
dimensions are non-negative and the element count is unchanged); otherwise it raises. -/
theorem C24_reshape_partial (src : List Nat) (t : List Int) (hs : src ≠ []) (hsp : ∀ d ∈ src, 0 < d) (ht : t ≠ [])
    (hge : ∀ v ∈ t, -1 ≤ v) (hone : ∀ i j : Nat, t[i]? = some (-1) → t[j]? = some (-1) → i = j)
    (hz : ∀ j, j < t.length → t.getD j 0 = 0 → j < src.length) (out' : List Int) :
    reshapeShape src t = .ok out' ↔ ∃ out, out' = out.map Int.ofNat ∧ IsReshape src t out :=
  reshape_iff hs hsp ht hge hone hz out'

/-- The reshape, when it exists, is unique, so the theorem above determines the result. -/
theorem C24_reshape_unique (src : List Nat) (t : List Int) (out out' : List Nat) (hsp : ∀ d ∈ src, 0 < d) (hs : src ≠ []) (ht : t ≠ [])
    (hge : ∀ v ∈ t, -1 ≤ v) (hone : ∀ i j : Nat, t[i]? = some (-1) → t[j]? = some (-1) → i = j)
    (hz : ∀ j, j < t.length → t.getD j 0 = 0 → j < src.length)
    (h1 : IsReshape src t out) (h2 : IsReshape src t out') : out = out' := by
  have e1 := (reshape_iff hs hsp ht hge hone hz (out.map Int.ofNat)).mpr ⟨out, rfl, h1⟩
  have e2 := (reshape_iff hs hsp ht hge hone hz (out'.map Int.ofNat)).mpr ⟨out', rfl, h2⟩
  rw [e1] at e2
  injection e2 with e2
  exact (List.map_inj_right (fun a b h => Int.ofNat.inj h)).mp e2

/-- **C24, exactly when.** For every input with at least one dimension (sizes may be zero) and every target of entries from -1 up with at most one -1: unless the target has a -1 and copies a
zero dimension (the -1 is then not determined), the tool returns a shape if and only if the reshape exists, and it is that one. -/
theorem C24_reshape_iff (src : List Nat) (t : List Int) (hs : src ≠ []) (ht : t ≠ []) (hge : ∀ v ∈ t, -1 ≤ v)
    (hone : ∀ i j : Nat, t[i]? = some (-1) → t[j]? = some (-1) → i = j)
    (hdet : ¬ ((-1 : Int) ∈ t ∧ ∃ j, j < t.length ∧ j < src.length ∧ t.getD j 0 = 0 ∧ src.getD j 0 = 0)) (out' : List Int) :
    reshapeShape src t = .ok out' ↔ ∃ out, out' = out.map Int.ofNat ∧ IsReshape src t out ∧ ∀ j, j < t.length → t.getD j 0 = 0 → j < src.length := by
  by_cases hz : ∀ j, j < t.length → t.getD j 0 = 0 → j < src.length
  · rw [reshape_iff_wild hs (fun hm j hj h0 => Nat.pos_of_ne_zero fun e => hdet ⟨hm, j, hj, hz j hj h0, h0, e⟩) ht hge hone hz out']
    constructor
    · rintro ⟨out, h1, h2⟩; exact ⟨out, h1, h2, hz⟩
    · rintro ⟨out, h1, h2, _⟩; exact ⟨out, h1, h2⟩
  · constructor
    · intro h
      simp only [Classical.not_forall] at hz
      obtain ⟨j, hj, h0, hl⟩ := hz
      simp only [reshapeShape, copyZeros_error src t 0 j hj h0 (by omega), bind, Except.bind] at h
      cases h
    · rintro ⟨out, h1, h2, h3⟩; exact absurd h3 hz

/-- **C24, the remaining case**: a target with a -1 that also copies a zero dimension. The tool returns a shape with a negative dimension whatever the sizes are. -/
theorem C24_undetermined (src : List Nat) (t : List Int) (hm : (-1 : Int) ∈ t)
    (hcopy : ∃ j, j < t.length ∧ t.getD j 0 = 0 ∧ src.getD j 0 = 0) (hz : ∀ j, j < t.length → t.getD j 0 = 0 → j < src.length) :
    ∃ out, reshapeShape src t = .ok out ∧ (-1 : Int) ∈ out := by
  obtain ⟨new, e1, e2, e3⟩ := copyZeros_ok src t 0 (by simpa using hz)
  simp only [Nat.zero_add] at e3
  obtain ⟨j, hj, h0, hs⟩ := hcopy
  have hj' := hz j hj h0
  have hnew : (0 : Int) ∈ new := by
    have := e3 j hj
    rw [if_pos h0, hs] at this
    have hl : j < new.length := by omega
    rw [List.getD_eq_getElem?_getD, List.getElem?_eq_getElem hl] at this
    have h := List.getElem_mem hl
    rwa [show new[j] = 0 from this] at h
  have hsrc : (0 : Int) ∈ src.map Int.ofNat := by
    rw [List.getD_eq_getElem?_getD, List.getElem?_eq_getElem hj'] at hs
    exact List.mem_map.2 ⟨_, List.getElem_mem hj', by simpa using hs⟩
  have v1 : volumeInt (src.map Int.ofNat) = 0 := by rw [volumeInt_eq (List.ne_nil_of_mem hsrc), prodI_zero hsrc]
  have v2 : volumeInt new = 0 := by rw [volumeInt_eq (List.ne_nil_of_mem hnew), prodI_zero hnew]
  refine ⟨new, ?_, ?_⟩
  · simp only [reshapeShape, e1, bind, Except.bind, v1, v2]
    simp [v2]
  · obtain ⟨i, hi, e⟩ := List.getElem_of_mem hm
    have := e3 i hi
    have ht : t.getD i 0 = -1 := by rw [List.getD_eq_getElem?_getD, List.getElem?_eq_getElem hi, e]; rfl
    rw [ht, if_neg (by decide)] at this
    have hl : i < new.length := by omega
    rw [List.getD_eq_getElem?_getD, List.getElem?_eq_getElem hl] at this
    have h := List.getElem_mem hl
    rwa [show new[i] = -1 from this] at h

example : reshapeShape [0, 3] [-1, 2] = .ok [0, 2] ∧ reshapeShape [0, 3, 5] [5, 0, 0] = .error .assertion ∧ reshapeShape [0, 3] [0, 7] = .ok [0, 7] := ⟨rfl, rfl, rfl⟩

/-- Whatever the input, a returned shape has the element count the tool computes for the input (`volume`, 0 for a scalar). -/
theorem C24_count_preserved (src : List Nat) (t out : List Int) (h : reshapeShape src t = .ok out) :
    volumeInt out = volumeInt (src.map Int.ofNat) := by
  simp only [reshapeShape, bind, Except.bind] at h
  split at h
  · cases h
  · rename_i new _
    generalize (if volumeInt new < 0 then fillFirst (Int.fdiv (volumeInt (src.map Int.ofNat)) (-volumeInt new)) new else new) = n' at h
    split at h
    · rename_i hv
      injection h with h
      rw [← h]; exact hv.symm
    · cases h

/-- **C24, findings.** Several -1 are accepted and only the first is replaced; with a zero-sized input a -1 is left in the result;
a scalar cannot be reshaped to `[1]` (its element count is taken to be 0). -/
theorem C24_wildcards_left :
    reshapeShape [6] [-1, -1, -1] = .ok [6, -1, -1] ∧ reshapeShape [0, 3] [0, -1] = .ok [0, -1] ∧
    reshapeShape [] [1] = .error .assertion := ⟨rfl, rfl, rfl⟩

example : reshapeShape [2, 3, 4] [0, -1, 2] = .ok [2, 6, 2] := rfl
example : reshapeShape [2, 3, 4] [5, -1] = .error .assertion := rfl
example := C24_reshape_partial [2, 3, 4] [0, -1, 2] (by decide) (by decide) (by decide) (by decide)
  (by intro i j h1 h2
      match i, j with
      | 0, _ => simp at h1
      | 1, 0 => simp at h2
      | 1, 1 => rfl
      | 1, 2 => simp at h2
      | 1, k + 3 => simp at h2
      | 2, _ => simp at h1
      | k + 3, _ => simp at h1)
  (by intro j hj h; simp only [List.length_cons, List.length_nil] at hj ⊢; omega) [2, 6, 2]

end OnnxTool.Props
