import Verif.Proofs.Broadcast
/-! # Element counts and `_max_shape` -/
namespace OnnxTool.Shape
open OnnxTool

theorem foldl_mul (s : Shp) : ∀ v, s.foldl (fun v d => v * d) v = v * elems s := by
  induction s with
  | nil => simp [elems]
  | cons a s ih => intro v; simp only [List.foldl_cons, ih, elems, List.foldr_cons, Nat.mul_assoc]

theorem volume_eq (s : Shp) : volume s = if s = [] then 0 else elems s := by
  unfold volume
  rw [foldl_mul]
  cases s with
  | nil => simp
  | cons a s => simp

theorem elems_append (a b : Shp) : elems (a ++ b) = elems a * elems b := by
  induction a with
  | nil => simp [elems]
  | cons x a ih =>
    show x * elems (a ++ b) = x * elems a * elems b
    rw [ih, Nat.mul_assoc]

theorem elems_replicate_one (n : Nat) : elems (List.replicate n 1) = 1 := by
  induction n with
  | zero => rfl
  | succ n ih => rw [List.replicate_succ]; show 1 * elems _ = 1; rw [ih]

theorem elems_padTo (n : Nat) (s : Shp) : elems (padTo n s) = elems s := by
  unfold padTo
  split
  · rw [elems_append, elems_replicate_one, Nat.one_mul]
  · rfl

theorem elems_pos {s : Shp} (h : ∀ d ∈ s, 0 < d) : 0 < elems s := by
  induction s with
  | nil => simp [elems]
  | cons a s ih =>
    show 0 < a * elems s
    exact Nat.mul_pos (h a (by simp)) (ih (fun d hd => h d (List.mem_cons_of_mem _ hd)))

/-- pointwise `≤` lists of the same length: the products compare, and equal products force equality when positive -/
theorem elems_le {t s : Shp} (hl : t.length = s.length) (h : ∀ k, k < s.length → t.getD k 1 ≤ s.getD k 1) :
    elems t ≤ elems s := by
  induction t generalizing s with
  | nil => cases s with
    | nil => exact Nat.le_refl _
    | cons => simp at hl
  | cons a t ih =>
    cases s with
    | nil => simp at hl
    | cons b s =>
      have h0 := h 0 (by simp)
      have h1 := ih (s := s) (by simpa using hl) (fun k hk => by
        have := h (k + 1) (by simpa using hk)
        rwa [List.getD_cons_succ, List.getD_cons_succ] at this)
      exact Nat.mul_le_mul (by simpa using h0) h1

theorem elems_eq {t s : Shp} (hl : t.length = s.length) (h : ∀ k, k < s.length → t.getD k 1 ≤ s.getD k 1)
    (ht : ∀ d ∈ t, 0 < d) (he : elems t = elems s) : t = s := by
  induction t generalizing s with
  | nil => cases s with
    | nil => rfl
    | cons => simp at hl
  | cons a t ih =>
    cases s with
    | nil => simp at hl
    | cons b s =>
      have h0 : a ≤ b := by simpa using h 0 (by simp)
      have hrec : ∀ k, k < s.length → t.getD k 1 ≤ s.getD k 1 := fun k hk => by
        have := h (k + 1) (by simpa using hk)
        rwa [List.getD_cons_succ, List.getD_cons_succ] at this
      have h1 := elems_le (t := t) (s := s) (by simpa using hl) hrec
      have hap : 0 < a := ht a (by simp)
      have htp : 0 < elems t := elems_pos (fun d hd => ht d (List.mem_cons_of_mem _ hd))
      have he' : a * elems t = b * elems s := he
      have hab : a = b := by
        apply Nat.le_antisymm h0
        apply Classical.byContradiction
        intro hc
        have h2 : a * elems t < b * elems t := Nat.mul_lt_mul_of_pos_right (by omega) htp
        have h3 : b * elems t ≤ b * elems s := Nat.mul_le_mul_left b h1
        omega
      subst hab
      have h4 : elems t = elems s := Nat.eq_of_mul_eq_mul_left hap he'
      rw [ih (by simpa using hl) hrec (fun d hd => ht d (List.mem_cons_of_mem _ hd)) h4]

theorem dimR_pos {s : Shp} (h : ∀ d ∈ s, 0 < d) (i : Nat) : 0 < dimR s i := by
  unfold dimR
  cases e : s.reverse[i]? with
  | none => simp
  | some d => exact h d (List.mem_reverse.mp (List.mem_of_getElem? e))

theorem dimR_ge {s : Shp} {i : Nat} (h : s.length ≤ i) : dimR s i = 1 := by
  unfold dimR
  rw [List.getElem?_eq_none (by simpa using h)]
  rfl

/-- an operand has at most as many elements as a shape it broadcasts to -/
theorem elems_bc_le {t s : Shp} (hl : t.length ≤ s.length) (hs : ∀ d ∈ s, 0 < d)
    (hc : ∀ i, i < s.length → dimR t i = 1 ∨ dimR t i = dimR s i) : elems t ≤ elems s := by
  rw [← elems_padTo s.length t]
  apply elems_le (padTo_length hl)
  intro k hk
  rw [padTo_getD hl hk, getD_reverse hk]
  have := dimR_pos hs (s.length - 1 - k)
  rcases hc (s.length - 1 - k) (by omega) with h | h <;> omega

theorem elems_bc_eq {t s : Shp} (hl : t.length = s.length) (ht : ∀ d ∈ t, 0 < d) (hs : ∀ d ∈ s, 0 < d)
    (hc : ∀ i, i < s.length → dimR t i = 1 ∨ dimR t i = dimR s i) (he : elems t = elems s) : t = s := by
  apply elems_eq hl _ ht he
  intro k hk
  rw [getD_reverse hk, getD_reverse (by omega), hl]
  have := dimR_pos hs (s.length - 1 - k)
  rcases hc (s.length - 1 - k) (by omega) with h | h <;> omega

theorem maxLoop_ok : ∀ (ss : List Shp) (m : Shp),
    ∃ r, maxLoop ss (m, volume m) = (r, volume r) ∧ (r = m ∨ r ∈ ss) ∧ volume m ≤ volume r ∧
      (volume m = volume r → m.length ≤ r.length) ∧
      ∀ s ∈ ss, volume s ≤ volume r ∧ (volume s = volume r → s.length ≤ r.length)
  | [], m => ⟨m, rfl, Or.inl rfl, Nat.le_refl _, fun _ => Nat.le_refl _, by simp⟩
  | s :: ss, m => by
    unfold maxLoop
    split
    · rename_i h
      obtain ⟨r, h1, h2, h3, h4, h5⟩ := maxLoop_ok ss s
      refine ⟨r, h1, ?_, by omega, by intro e; omega, ?_⟩
      · rcases h2 with e | e
        · right; simp [e]
        · right; simp [e]
      · intro t ht
        rcases List.mem_cons.mp ht with e | e
        · subst e; exact ⟨h3, h4⟩
        · exact h5 t e
    · rename_i h
      split
      · rename_i he
        split
        · rename_i hl
          rw [← he]
          obtain ⟨r, h1, h2, h3, h4, h5⟩ := maxLoop_ok ss s
          refine ⟨r, h1, ?_, by omega, by intro e; have := h4 (by omega); omega, ?_⟩
          · rcases h2 with e | e
            · right; simp [e]
            · right; simp [e]
          · intro t ht
            rcases List.mem_cons.mp ht with e | e
            · subst e; exact ⟨h3, h4⟩
            · exact h5 t e
        · rename_i hl
          obtain ⟨r, h1, h2, h3, h4, h5⟩ := maxLoop_ok ss m
          refine ⟨r, h1, ?_, h3, h4, ?_⟩
          · rcases h2 with e | e
            · left; exact e
            · right; simp [e]
          · intro t ht
            rcases List.mem_cons.mp ht with e | e
            · subst e; exact ⟨by omega, by intro e; have := h4 (by omega); omega⟩
            · exact h5 t e
      · rename_i he
        obtain ⟨r, h1, h2, h3, h4, h5⟩ := maxLoop_ok ss m
        refine ⟨r, h1, ?_, h3, h4, ?_⟩
        · rcases h2 with e | e
          · left; exact e
          · right; simp [e]
        · intro t ht
          rcases List.mem_cons.mp ht with e | e
          · subst e; exact ⟨by omega, by intro e; omega⟩
          · exact h5 t e

end OnnxTool.Shape
