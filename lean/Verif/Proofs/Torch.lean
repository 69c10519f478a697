import Verif.Model.Torch
import Mathlib.Tactic.Ring
/-!
# Torch tensors: row-major order, broadcasting
-/
namespace OnnxTool.Torch
open OnnxTool

variable {V : Type}

theorem inb_length {s idx : List Nat} (h : InB s idx) : idx.length = s.length := by
  induction s generalizing idx with
  | nil => cases idx with
    | nil => rfl
    | cons _ _ => exact h.elim
  | cons d s ih => cases idx with
    | nil => exact h.elim
    | cons i idx => simp [ih h.2]

theorem inb_iff {s idx : List Nat} : InB s idx ↔ idx.length = s.length ∧ ∀ k, k < s.length → idx.getD k 0 < s.getD k 0 := by
  induction s generalizing idx with
  | nil => cases idx with
    | nil => simp [InB]
    | cons _ _ => simp [InB]
  | cons d s ih => cases idx with
    | nil => simp [InB]
    | cons i idx =>
      rw [InB, ih]
      simp only [List.length_cons, Nat.add_right_cancel_iff]
      constructor
      · rintro ⟨h1, h2, h3⟩
        refine ⟨h2, fun k hk => ?_⟩
        cases k with
        | zero => exact h1
        | succ k => exact h3 k (by omega)
      · rintro ⟨h1, h2⟩
        exact ⟨h2 0 (by omega), h1, fun k hk => h2 (k + 1) (by omega)⟩

theorem ravel_lt {s idx : List Nat} (h : InB s idx) : ravel s idx < numel s := by
  induction s generalizing idx with
  | nil => cases idx with
    | nil => simp [ravel, numel]
    | cons _ _ => exact h.elim
  | cons d s ih => cases idx with
    | nil => exact h.elim
    | cons i idx =>
      have h2 := ih h.2
      have h1 : i + 1 ≤ d := h.1
      simp only [ravel, numel]
      calc i * numel s + ravel s idx < i * numel s + numel s := by omega
        _ = (i + 1) * numel s := by ring
        _ ≤ d * numel s := Nat.mul_le_mul_right _ h1

theorem unravel_ravel {s idx : List Nat} (h : InB s idx) : unravel s (ravel s idx) = idx := by
  induction s generalizing idx with
  | nil => cases idx with
    | nil => rfl
    | cons _ _ => exact h.elim
  | cons d s ih => cases idx with
    | nil => exact h.elim
    | cons i idx =>
      have hl := ravel_lt h.2
      have hp : 0 < numel s := by omega
      simp only [ravel, unravel]
      rw [Nat.add_comm, Nat.add_mul_div_right _ _ hp, Nat.div_eq_of_lt hl, Nat.zero_add, Nat.add_mul_mod_self_right,
        Nat.mod_eq_of_lt hl, ih h.2]

theorem unravel_inb {s : List Nat} {n : Nat} (h : n < numel s) : InB s (unravel s n) := by
  induction s generalizing n with
  | nil => trivial
  | cons d s ih =>
    have hp : 0 < numel s := by
      rcases Nat.eq_zero_or_pos (numel s) with h0 | h0
      · rw [numel, h0] at h; omega
      · exact h0
    refine ⟨?_, ih (Nat.mod_lt _ hp)⟩
    exact Nat.div_lt_of_lt_mul (by rw [Nat.mul_comm]; exact h)

theorem ravel_unravel {s : List Nat} {n : Nat} (h : n < numel s) : ravel s (unravel s n) = n := by
  induction s generalizing n with
  | nil => simp only [numel] at h; simp [ravel]; omega
  | cons d s ih =>
    have hp : 0 < numel s := by
      rcases Nat.eq_zero_or_pos (numel s) with h0 | h0
      · rw [numel, h0] at h; omega
      · exact h0
    simp only [unravel, ravel]
    rw [ih (Nat.mod_lt _ hp), Nat.mul_comm, Nat.div_add_mod]

theorem same_refl (t : Tensor V) : t.Same t := ⟨rfl, fun _ _ => rfl⟩

theorem same_trans {t u v : Tensor V} (h : t.Same u) (k : u.Same v) : t.Same v :=
  ⟨h.1.trans k.1, fun idx hi => (h.2 idx hi).trans (k.2 idx (h.1 ▸ hi))⟩

theorem same_flat {t u : Tensor V} (h : t.Same u) : t.flat = u.flat := by
  unfold Tensor.flat
  rw [← h.1]
  refine List.map_congr_left fun n hn => h.2 _ (unravel_inb (List.mem_range.1 hn))

/-- the elements in row-major order determine the tensor -/
theorem flat_same {t u : Tensor V} (hs : t.shape = u.shape) (h : t.flat = u.flat) : t.Same u := by
  refine ⟨hs, fun idx hi => ?_⟩
  have hl := ravel_lt hi
  unfold Tensor.flat at h
  rw [← hs] at h
  have := congrArg (fun l => l[ravel t.shape idx]?) h
  simp only [List.getElem?_map, List.getElem?_range hl, Option.map_some, Option.some.injEq] at this
  rwa [unravel_ravel hi] at this

theorem bcastIdx_self {s idx : List Nat} (h : InB s idx) : bcastIdx s idx = idx := by
  unfold bcastIdx
  rw [inb_length h, Nat.sub_self, List.drop_zero]
  induction s generalizing idx with
  | nil => cases idx with
    | nil => rfl
    | cons _ _ => exact h.elim
  | cons d s ih => cases idx with
    | nil => exact h.elim
    | cons i idx =>
      rw [List.zipWith_cons_cons, ih h.2]
      have := h.1
      congr 1
      split <;> omega

theorem canExpand_self (s : List Nat) : canExpand s s = true := by
  simp only [canExpand, Nat.le_refl, decide_true, Bool.true_and, Nat.sub_self, List.drop_zero]
  induction s with
  | nil => rfl
  | cons d s ih => simp only [List.zipWith_cons_cons, List.all_cons, ih, decide_true, Bool.or_true, id, Bool.and_self]

/-- copying into a tensor of the same shape gives the same tensor -/
theorem copyTo_same (t : Tensor V) {os : List Nat} (h : t.shape = os) : ∃ y, copyTo os t = .ok y ∧ y.Same t := by
  subst h
  refine ⟨⟨t.shape, fun idx => t.at (bcastIdx t.shape idx)⟩, by rw [copyTo, if_pos (canExpand_self _)], rfl, fun idx hi => ?_⟩
  show t.at (bcastIdx t.shape idx) = t.at idx
  rw [bcastIdx_self hi]

theorem reshape_flat {t u : Tensor V} {s : List Nat} (h : t.reshape s = .ok u) : u.shape = s ∧ u.flat = t.flat := by
  unfold Tensor.reshape at h
  split at h
  · rename_i hn
    injection h with h
    subst h
    refine ⟨rfl, ?_⟩
    unfold Tensor.flat
    simp only [hn]
    refine List.map_congr_left fun n hn' => ?_
    rw [ravel_unravel (by rw [hn]; exact List.mem_range.1 hn')]
  · cases h

theorem reshape_ok (t : Tensor V) {s : List Nat} (h : numel s = numel t.shape) : ∃ u, t.reshape s = .ok u ∧ u.shape = s ∧ u.flat = t.flat := by
  have e : ∃ u, t.reshape s = .ok u := ⟨_, by rw [Tensor.reshape, if_pos h]⟩
  obtain ⟨u, hu⟩ := e
  exact ⟨u, hu, reshape_flat hu⟩

theorem numel_insert (s : List Nat) (k : Nat) : numel (s.insertIdx k 1) = numel s := by
  induction s generalizing k with
  | nil => cases k <;> simp [numel]
  | cons d s ih =>
    cases k with
    | zero => simp [numel]
    | succ k => simp only [List.insertIdx_succ_cons, numel, ih]

theorem unravel_insert (s : List Nat) (k : Nat) (hk : k ≤ s.length) (n : Nat) (hn : n < numel s) :
    (unravel (s.insertIdx k 1) n).eraseIdx k = unravel s n := by
  induction s generalizing k n with
  | nil =>
    have : k = 0 := by simpa using hk
    subst this
    rfl
  | cons d s ih =>
    cases k with
    | zero =>
      simp only [List.insertIdx_zero]
      rw [unravel, List.eraseIdx_cons_zero, Nat.mod_eq_of_lt hn]
    | succ k =>
      have hp : 0 < numel s := by
        rcases Nat.eq_zero_or_pos (numel s) with h0 | h0
        · rw [numel, h0] at hn; omega
        · exact h0
      simp only [List.insertIdx_succ_cons, unravel, List.eraseIdx_cons_succ]
      rw [numel_insert, ih k (by simpa using hk) _ (Nat.mod_lt _ hp)]

theorem unsqueeze_flat {t u : Tensor V} {a : Int} (h : t.unsqueeze a = .ok u) : u.flat = t.flat := by
  unfold Tensor.unsqueeze at h
  simp only at h
  split at h
  · rename_i hr
    injection h with h
    subst h
    unfold Tensor.flat
    simp only
    rw [numel_insert]
    refine List.map_congr_left fun n hn => ?_
    rw [unravel_insert _ _ _ _ (List.mem_range.1 hn)]
    split <;> omega
  · cases h

/-! ### A copy that does not change the number of elements changes nothing -/

theorem expand_le {s B : List Nat} (hl : s.length = B.length) (h : (List.zipWith (fun d e => decide (d = 1) || decide (d = e)) s B).all id = true)
    (hn : numel B ≠ 0) : numel s ≤ numel B ∧ (numel s = numel B → s = B) := by
  induction s generalizing B with
  | nil => cases B with
    | nil => exact ⟨Nat.le_refl _, fun _ => rfl⟩
    | cons _ _ => simp at hl
  | cons d s ih => cases B with
    | nil => simp at hl
    | cons e B =>
      rw [List.zipWith_cons_cons, List.all_cons, Bool.and_eq_true] at h
      obtain ⟨h1, h2⟩ := h
      simp only [id, Bool.or_eq_true, decide_eq_true_eq] at h1
      simp only [numel] at hn ⊢
      have he : e ≠ 0 := fun h0 => hn (by rw [h0, Nat.zero_mul])
      have hB : numel B ≠ 0 := fun h0 => hn (by rw [h0, Nat.mul_zero])
      obtain ⟨i1, i2⟩ := ih (by simpa using hl) h2 hB
      have hde : d ≤ e := by omega
      have hd : 0 < d := by omega
      refine ⟨Nat.mul_le_mul hde i1, fun heq => ?_⟩
      have hs : numel s = numel B := by
        rcases Nat.lt_or_ge (numel s) (numel B) with hlt | hge
        · have := Nat.mul_lt_mul_of_le_of_lt hde hlt (by omega : 0 < e)
          omega
        · omega
      rw [hs] at heq
      have : d = e := Nat.eq_of_mul_eq_mul_right (by omega) heq
      rw [this, i2 hs]

theorem numel_app (s t : List Nat) : numel (s ++ t) = numel s * numel t := by
  induction s with
  | nil => simp [numel]
  | cons d s ih => simp only [List.cons_append, numel, ih]; ring

theorem numel_one {A : List Nat} (h : numel A = 1) : A = List.replicate A.length 1 := by
  induction A with
  | nil => rfl
  | cons d A ih =>
    simp only [numel] at h
    have h1 := Nat.eq_one_of_mul_eq_one_right h
    have h2 := Nat.eq_one_of_mul_eq_one_left h
    rw [List.length_cons, List.replicate_succ, ← ih h2, h1]

theorem unravel_ones (k : Nat) (s : List Nat) (n : Nat) (hn : n < numel s) :
    unravel (List.replicate k 1 ++ s) n = List.replicate k 0 ++ unravel s n := by
  induction k with
  | zero => rfl
  | succ k ih =>
    have e : numel (List.replicate k 1 ++ s) = numel s := by
      rw [numel_app]
      have : numel (List.replicate k 1) = 1 := by
        clear ih
        induction k with
        | zero => rfl
        | succ k ih => simp only [List.replicate_succ, numel, ih]
      rw [this, Nat.one_mul]
    simp only [List.replicate_succ, List.cons_append, unravel]
    rw [e, Nat.div_eq_of_lt hn, Nat.mod_eq_of_lt hn, ih]

/-- what `copy_` can make of a tensor with as many elements as the target: only leading ones are added -/
theorem copyTo_count {t y : Tensor V} {os : List Nat} (h : copyTo os t = .ok y) (hn : numel os = numel t.shape) :
    y.shape = os ∧ y.flat = t.flat := by
  unfold copyTo at h
  split at h
  · rename_i hc
    injection h with h
    subst h
    refine ⟨rfl, ?_⟩
    unfold Tensor.flat
    simp only [hn]
    refine List.map_congr_left fun n hlt => ?_
    have hlt := List.mem_range.1 hlt
    unfold canExpand at hc
    rw [Bool.and_eq_true, decide_eq_true_eq] at hc
    obtain ⟨h1, h2⟩ := hc
    have hsplit := List.take_append_drop (os.length - t.shape.length) os
    generalize hA : os.take (os.length - t.shape.length) = A at hsplit
    generalize hB : os.drop (os.length - t.shape.length) = B at hsplit h2
    have hlB : t.shape.length = B.length := by rw [← hB, List.length_drop]; omega
    have hprod : numel A * numel B = numel t.shape := by rw [← numel_app, hsplit, hn]
    have hne : numel t.shape ≠ 0 := by omega
    have hB0 : numel B ≠ 0 := fun h0 => hne (by rw [← hprod, h0, Nat.mul_zero])
    have hA0 : numel A ≠ 0 := fun h0 => hne (by rw [← hprod, h0, Nat.zero_mul])
    obtain ⟨e1, e2⟩ := expand_le hlB h2 hB0
    have hge : numel B ≤ numel A * numel B := Nat.le_mul_of_pos_left _ (by omega)
    have hsB : numel t.shape = numel B := by omega
    have hA1 : numel A = 1 := by
      rw [hsB] at hprod
      exact Nat.eq_of_mul_eq_mul_right (by omega : 0 < numel B) (by rw [hprod, Nat.one_mul])
    have hos : os = List.replicate A.length 1 ++ t.shape := by rw [← hsplit, ← numel_one hA1, e2 hsB]
    rw [hos, unravel_ones _ _ _ hlt]
    have hb := bcastIdx_self (unravel_inb hlt)
    have hlen := inb_length (unravel_inb hlt)
    unfold bcastIdx at hb ⊢
    rw [List.length_append, hlen, Nat.add_sub_cancel, List.drop_append_of_le_length (Nat.le_refl _), List.drop_length, List.nil_append]
    rw [hlen, Nat.sub_self, List.drop_zero] at hb
    rw [hb]
  · cases h

end OnnxTool.Torch
