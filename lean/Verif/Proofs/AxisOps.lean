import Verif.Proofs.Axes
/-! # Transpose, Squeeze, Unsqueeze, Reduce, Gather -/
namespace OnnxTool.Axes
open OnnxTool OnnxTool.Conv OnnxTool.Slice OnnxTool.Shape

theorem elems_perm {a b : List Nat} (h : a.Perm b) : elems a = elems b := by
  induction h with
  | nil => rfl
  | cons x _ ih => show x * elems _ = x * elems _; rw [ih]
  | swap x y l =>
    show y * (x * elems l) = x * (y * elems l)
    rw [Nat.mul_left_comm]
  | trans _ _ h1 h2 => rw [h1, h2]

theorem map_getD_range (x : List Nat) : (List.range x.length).map (fun i => x.getD i 0) = x := by
  apply List.ext_getElem (by simp)
  intro i h1 h2
  simp [List.getD_eq_getElem?_getD, h2]

theorem gatherAll_ok (x : List Nat) : ∀ p : List Nat, (∀ i ∈ p, i < x.length) →
    gatherAll x (p.map Int.ofNat) = .ok (p.map (fun i => x.getD i 0)) := by
  intro p
  induction p with
  | nil => intro _; rfl
  | cons a p ih =>
    intro h
    have ha := h a List.mem_cons_self
    have hn : normIndex x.length (Int.ofNat a) = .ok a := by
      unfold normIndex
      rw [if_pos (by simp), if_pos (by simpa using ha)]; rfl
    simp only [List.map_cons, gatherAll, pyGet, hn, ih (fun i hi => h i (List.mem_cons_of_mem _ hi)), bind, Except.bind, pure, Except.pure]

theorem dropAxes_eq (axes : List Int) : ∀ (x : List Nat) (i : Nat),
    dropAxes axes i x = ((List.range x.length).filter (fun j => !axes.contains ((i + j : Nat) : Int))).map (fun j => x.getD j 0) := by
  intro x
  induction x with
  | nil => intro i; rfl
  | cons d x ih =>
    intro i
    simp only [dropAxes, List.length_cons, List.range_succ_eq_map, List.filter_cons, Nat.add_zero]
    have hrest : (List.filter (fun j => !axes.contains ((i + j : Nat) : Int)) (List.map Nat.succ (List.range x.length))).map
        (fun j => (d :: x).getD j 0) = dropAxes axes (i + 1) x := by
      rw [ih (i + 1), List.filter_map, List.map_map]
      congr 1
      apply List.filter_congr
      intro j _
      simp only [Function.comp, Nat.succ_eq_add_one]
      rw [show i + (j + 1) = i + 1 + j by omega]
    by_cases h : axes.contains (i : Int)
    · simp only [h, if_true, Bool.not_true, Bool.false_eq_true, if_false]
      rw [hrest]
    · simp only [Bool.not_eq_true] at h
      simp only [h, Bool.false_eq_true, if_false, Bool.not_false, if_true, List.map_cons, List.getD_cons_zero]
      rw [hrest]

theorem onesAt_length (axes : List Int) : ∀ (x : List Nat) (i : Nat), (onesAt axes i x).length = x.length := by
  intro x
  induction x with
  | nil => intro i; rfl
  | cons d x ih => intro i; simp [onesAt, ih]

theorem onesAt_getD (axes : List Int) : ∀ (x : List Nat) (i j : Nat), j < x.length →
    (onesAt axes i x).getD j 0 = if axes.contains ((i + j : Nat) : Int) then 1 else x.getD j 0 := by
  intro x
  induction x with
  | nil => intro i j h; simp at h
  | cons d x ih =>
    intro i j h
    cases j with
    | zero => simp [onesAt]
    | succ j =>
      simp only [onesAt, List.getD_cons_succ]
      rw [ih (i + 1) j (by simpa using h), show i + 1 + j = i + (j + 1) by omega]

theorem gatherLoop_eq (ids : List Nat) : ∀ (x : List Nat) (i k : Nat), i ≤ k → k < i + x.length →
    gatherLoop (k : Int) ids i x = x.take (k - i) ++ ids ++ x.drop (k - i + 1) := by
  intro x
  induction x with
  | nil => intro i k _ h; simp at h; omega
  | cons d x ih =>
    intro i k h1 h2
    simp only [gatherLoop]
    by_cases hik : i = k
    · subst hik
      have hrest : ∀ (y : List Nat) (j : Nat), i < j → gatherLoop (i : Int) ids j y = y := by
        intro y
        induction y with
        | nil => intro j _; rfl
        | cons e y ihy => intro j hj; simp only [gatherLoop]; rw [if_neg (by omega), ihy (j + 1) (by omega)]; rfl
      simp [hrest x (i + 1) (by omega)]
    · rw [if_neg (by omega), ih (i + 1) k (by omega) (by simp at h2; omega)]
      obtain ⟨m, hm⟩ : ∃ m, k - i = m + 1 := ⟨k - i - 1, by omega⟩
      rw [hm, show k - (i + 1) = m by omega]
      rfl

/-- membership of a position in the normalised axes -/
theorem contains_neg2pos {r : Nat} {axes : List Int} (h : ∀ a ∈ axes, -(r : Int) ≤ a) (j : Nat) :
    (axesNeg2Pos r axes).contains (j : Int) = decide (j ∈ axes.map (axisOf r)) := by
  rw [Bool.eq_iff_iff, List.contains_iff_mem, decide_eq_true_iff, axesNeg2Pos, List.mem_map, List.mem_map]
  constructor
  · rintro ⟨a, ha, e⟩
    exact ⟨a, ha, by have := h a ha; unfold axisOf; rw [e]; simp⟩
  · rintro ⟨a, ha, e⟩
    refine ⟨a, ha, ?_⟩
    have := h a ha
    unfold axisOf at e
    split at e
    · rename_i hlt; rw [if_pos hlt]; omega
    · rename_i hlt; rw [if_neg hlt]; omega

/-- Unsqueeze: the kept dimensions are the input's. -/
theorem insLoop_ok {axes : List Int} : ∀ {n i : Nat} {x y : List Nat}, insLoop axes n i x = .ok y →
    y.length = n ∧ (∃ rest, x = dropAxes axes i y ++ rest) ∧ elems y = elems (dropAxes axes i y) ∧
      ∀ j, j < n → axes.contains ((i + j : Nat) : Int) = true → y.getD j 0 = 1 := by
  intro n
  induction n with
  | zero =>
    intro i x y h
    simp only [insLoop, Except.ok.injEq] at h
    subst h
    exact ⟨rfl, ⟨x, rfl⟩, rfl, fun j hj => by omega⟩
  | succ n ih =>
    intro i x y h
    simp only [insLoop] at h
    split at h
    · rename_i hc
      simp only [bind, Except.bind, pure, Except.pure] at h
      split at h
      · cases h
      · rename_i r hr
        simp only [Except.ok.injEq] at h
        subst h
        obtain ⟨h1, h2, h3, h4⟩ := ih hr
        refine ⟨by simp [h1], by simpa only [dropAxes, hc, if_true] using h2, ?_, ?_⟩
        · simp only [dropAxes, hc, if_true]
          rw [← h3]; show 1 * elems r = elems r; omega
        · intro j hj hcj
          cases j with
          | zero => rfl
          | succ j =>
            simp only [List.getD_cons_succ]
            exact h4 j (by omega) (by rw [show i + 1 + j = i + (j + 1) by omega]; exact hcj)
    · rename_i hc
      split at h
      · cases h
      · rename_i d ds
        simp only [bind, Except.bind, pure, Except.pure] at h
        split at h
        · cases h
        · rename_i r hr
          simp only [Except.ok.injEq] at h
          subst h
          obtain ⟨h1, ⟨rest, h2⟩, h3, h4⟩ := ih hr
          refine ⟨by simp [h1], ⟨rest, ?_⟩, ?_, ?_⟩
          · simp only [dropAxes, hc, Bool.false_eq_true, if_false, List.cons_append, ← h2]
          · simp only [dropAxes, hc, Bool.false_eq_true, if_false]
            show d * elems r = d * elems _
            rw [h3]
          · intro j hj hcj
            cases j with
            | zero => rw [Nat.add_zero] at hcj; exact absurd hcj hc
            | succ j =>
              simp only [List.getD_cons_succ]
              exact h4 j (by omega) (by rw [show i + 1 + j = i + (j + 1) by omega]; exact hcj)

theorem insLoop_returns {axes : List Int} : ∀ {n i : Nat} {x : List Nat},
    ((List.range n).filter (fun j => !axes.contains ((i + j : Nat) : Int))).length ≤ x.length →
    ∃ y, insLoop axes n i x = .ok y := by
  intro n
  induction n with
  | zero => intro i x _; exact ⟨[], rfl⟩
  | succ n ih =>
    intro i x h
    have hrest : ((List.map Nat.succ (List.range n)).filter (fun j => !axes.contains ((i + j : Nat) : Int))).length =
        ((List.range n).filter (fun j => !axes.contains ((i + 1 + j : Nat) : Int))).length := by
      rw [List.filter_map, List.length_map]
      congr 2
      funext j
      simp only [Function.comp, Nat.succ_eq_add_one]
      rw [show i + (j + 1) = i + 1 + j by omega]
    simp only [List.range_succ_eq_map, List.filter_cons, Nat.add_zero] at h
    simp only [insLoop]
    split
    · rename_i hc
      simp only [hc, Bool.not_true, Bool.false_eq_true, if_false] at h
      rw [hrest] at h
      obtain ⟨y, hy⟩ := ih h
      exact ⟨1 :: y, by simp only [hy, bind, Except.bind, pure, Except.pure]⟩
    · rename_i hc
      simp only [Bool.not_eq_true] at hc
      simp only [hc, Bool.not_false, if_true, List.length_cons] at h
      rw [hrest] at h
      cases x with
      | nil => simp at h
      | cons d ds =>
        simp only [List.length_cons] at h
        obtain ⟨y, hy⟩ := ih (i := i + 1) (x := ds) (by omega)
        exact ⟨d :: y, by simp only [hy, bind, Except.bind, pure, Except.pure]⟩

theorem filter_split {α : Type} (p : α → Bool) (l : List α) :
    (l.filter p).length + (l.filter (fun a => !p a)).length = l.length := by
  induction l with
  | nil => rfl
  | cons a l ih =>
    simp only [List.filter_cons]
    cases h : p a <;> simp <;> omega

/-- at most `axes.length` positions are hit -/
theorem hits_le (axes : List Int) (n : Nat) :
    ((List.range n).filter (fun j => axes.contains ((0 + j : Nat) : Int))).length ≤ axes.length := by
  have : ((List.range n).filter (fun j => axes.contains ((0 + j : Nat) : Int))).length =
      (((List.range n).filter (fun j => axes.contains ((0 + j : Nat) : Int))).map Int.ofNat).length := by simp
  rw [this]
  apply OnnxTool.Topsort.nodup_sub_length
  · rw [List.nodup_iff_pairwise_ne, List.pairwise_map]
    refine List.Pairwise.imp ?_ (List.Pairwise.filter _ List.nodup_range)
    intro a b hab h
    exact hab (Int.ofNat.inj h)
  · intro v hv
    obtain ⟨j, hj, rfl⟩ := List.mem_map.mp hv
    have := (List.mem_filter.mp hj).2
    rw [Nat.zero_add, List.contains_iff_mem] at this
    exact this

end OnnxTool.Axes
