import Verif.Props.Broadcast
/-!
# C42: shapes of matrix products
-/
namespace OnnxTool.Props
open OnnxTool Shape

/-- **C42 (partial).** `a = batchA ++ [am, ak]`, `b = batchB ++ [bk, bn]` (already transposed for `MatMul`), positive batch
dimensions.  If one operand's batch already is the broadcast of both (and is the one with more elements, or `a`'s), the
result is that batch followed by the two matrix dimensions; `Gemm` raises when the inner dimensions differ. -/
theorem C42_gemm_partial (ba bb r : List Nat) (p q s t : Nat) (transA transB : Bool)
    (hb : IsBroadcast [ba, bb] r) (hpa : ∀ d ∈ ba, 0 < d) (hpb : ∀ d ∈ bb, 0 < d)
    (hr : r = ba ∨ (r = bb ∧ (ba = [] ∨ elems ba ≠ elems bb))) :
    gemmShape true transA transB (ba ++ [p, q]) (bb ++ [s, t]) =
      (if (if transA then p else q) = (if transB then t else s) then
        .ok (r ++ [if transA then q else p, if transB then s else t]) else .error .runtimeError) ∧
    gemmShape false transA transB (ba ++ [p, q]) (bb ++ [s, t]) = .ok (r ++ [p, t]) := by
  have hbatch : (if volume ba ≥ volume bb then ba else bb) = r := by
    rw [volume_eq, volume_eq]
    rcases hr with e | ⟨e, hne⟩
    · subst e
      have h1 := hb.rank_ge bb (by simp)
      have h2 := elems_bc_le h1 hpa (fun i hi => hb.compat i hi bb (by simp))
      by_cases e2 : r = []
      · subst e2
        have : bb = [] := List.eq_nil_of_length_eq_zero (by simpa using h1)
        simp [this]
      · rw [if_neg e2, if_pos]
        split <;> omega
    · subst e
      have h1 := hb.rank_ge ba (by simp)
      have h2 := elems_bc_le h1 hpb (fun i hi => hb.compat i hi ba (by simp))
      by_cases e2 : r = []
      · subst e2
        have : ba = [] := List.eq_nil_of_length_eq_zero (by simpa using h1)
        simp [this]
      · rw [if_neg e2]
        have := elems_pos hpb
        split
        · rw [if_neg (by omega)]
        · rename_i h3
          rcases hne with h4 | h4
          · exact absurd h4 h3
          · rw [if_neg (by omega)]
  have l1 : ¬ ((ba ++ [p, q]).length < 2 ∨ (bb ++ [s, t]).length < 2) := by simp
  unfold gemmShape
  rw [if_neg l1, if_neg l1]
  simp only [List.length_append, List.length_cons, List.length_nil]
  simp only [show ba.length + (0 + 1 + 1) - 2 = ba.length by omega, show bb.length + (0 + 1 + 1) - 2 = bb.length by omega,
    show ba.length + (0 + 1 + 1) - 1 = ba.length + 1 by omega, show bb.length + (0 + 1 + 1) - 1 = bb.length + 1 by omega]
  have g1 : ∀ (l : List Nat) (x y : Nat), (l ++ [x, y]).getD l.length 0 = x := by
    intro l x y; rw [List.getD_eq_getElem?_getD, List.getElem?_append_right (by omega)]; simp
  have g2 : ∀ (l : List Nat) (x y : Nat), (l ++ [x, y]).getD (l.length + 1) 0 = y := by
    intro l x y; rw [List.getD_eq_getElem?_getD, List.getElem?_append_right (by omega)]; simp
  have g3 : ∀ (l : List Nat) (x y : Nat), (l ++ [x, y]).take l.length = l := by
    intro l x y; simp
  simp only [g1, g2, g3, hbatch, if_true, Bool.false_eq_true, if_false, and_true]
  cases transA <;> cases transB <;> simp only [if_true, Bool.false_eq_true, if_false, ne_eq, ite_not]

/-- **C42, exactly when.** For operands whose batches broadcast to `r`, with positive batch dimensions and equal inner dimensions, the inferred shape is the one of the definition (the broadcast
batch, then the matrix dimensions) if and only if `r` is the batch of `a`, or that of `b` and `a` has no batch or one of another size. -/
theorem C42_gemm_iff (ba bb r : List Nat) (p q s t : Nat) (gemm transA transB : Bool) (hinner : gemm = true → (if transA then p else q) = (if transB then t else s))
    (hb : IsBroadcast [ba, bb] r) (hpa : ∀ d ∈ ba, 0 < d) (hpb : ∀ d ∈ bb, 0 < d) :
    gemmShape gemm transA transB (ba ++ [p, q]) (bb ++ [s, t]) = .ok (r ++ [if gemm && transA then q else p, if gemm && transB then s else t]) ↔
      r = ba ∨ (r = bb ∧ (ba = [] ∨ elems ba ≠ elems bb)) := by
  constructor
  · intro h
    have l1 : ¬ ((ba ++ [p, q]).length < 2 ∨ (bb ++ [s, t]).length < 2) := by simp
    unfold gemmShape at h
    rw [if_neg l1] at h
    simp only [List.length_append, List.length_cons, List.length_nil] at h
    simp only [show ba.length + (0 + 1 + 1) - 2 = ba.length by omega, show bb.length + (0 + 1 + 1) - 2 = bb.length by omega,
      show ba.length + (0 + 1 + 1) - 1 = ba.length + 1 by omega, show bb.length + (0 + 1 + 1) - 1 = bb.length + 1 by omega] at h
    have g3 : ∀ (l : List Nat) (x y : Nat), (l ++ [x, y]).take l.length = l := by
      intro l x y; simp
    simp only [g3] at h
    have hbatch : r = if volume ba ≥ volume bb then ba else bb := by
      generalize (if volume ba ≥ volume bb then ba else bb) = c at h
      have key : ∀ (x y z w : Nat), (Except.ok (c ++ [x, y]) : Except PyErr Shp) = .ok (r ++ [z, w]) → r = c := by
        intro x y z w h
        injection h with h
        exact ((List.append_inj' h rfl).1).symm
      cases gemm
      · simp only [Bool.false_eq_true, if_false] at h
        exact key _ _ _ _ h
      · simp only [if_true] at h
        by_cases hk : (if transA = true then (ba ++ [p, q]).getD ba.length 0 else (ba ++ [p, q]).getD (ba.length + 1) 0) ≠
            if transB = true then (bb ++ [s, t]).getD (bb.length + 1) 0 else (bb ++ [s, t]).getD bb.length 0
        · rw [if_pos hk] at h; cases h
        · rw [if_neg hk] at h; exact key _ _ _ _ h
    rw [volume_eq, volume_eq] at hbatch
    by_cases hv : (if ba = [] then 0 else elems ba) ≥ (if bb = [] then 0 else elems bb)
    · rw [if_pos hv] at hbatch; exact .inl hbatch
    · rw [if_neg hv] at hbatch
      refine .inr ⟨hbatch, ?_⟩
      by_cases e : ba = []
      · exact .inl e
      · right
        rw [if_neg e] at hv
        split at hv <;> omega
  · intro h
    obtain ⟨h1, h2⟩ := C42_gemm_partial ba bb r p q s t transA transB hb hpa hpb h
    cases gemm
    · simpa using h2
    · rw [h1, if_pos (hinner rfl)]; simp

example : IsBroadcast [[1, 5], [2, 1]] [2, 5] ∧ gemmShape false false false [1, 5, 3, 4] [2, 1, 4, 6] = .ok [1, 5, 3, 6] := ⟨(C19_broadcast_exact _).1 _ |>.mp rfl, rfl⟩

/-- **C42, rank.** Operands of rank below two raise. -/
theorem C42_rank_checked (gemm ta tb : Bool) (a b : List Nat) (h : a.length < 2 ∨ b.length < 2) :
    gemmShape gemm ta tb a b = .error .runtimeError := by
  unfold gemmShape; rw [if_pos h]

example : IsBroadcast [[2, 5], [5]] [2, 5] ∧ gemmShape true false true [2, 5, 3, 4] [5, 7, 4] = .ok [2, 5, 3, 7] ∧
    gemmShape true false false [2, 5, 3, 4] [5, 7, 4] = .error .runtimeError :=
  ⟨(C19_broadcast_exact _).1 _ |>.mp rfl, rfl, rfl⟩

/-- **C42 findings**: batches that broadcast to neither operand's batch are wrong; on a tie the shorter batch of `a` wins;
`MatMul` accepts different inner dimensions. -/
theorem C42_wrong_batch :
    gemmShape false false false [2, 1, 3, 4] [1, 5, 4, 6] = .ok [1, 5, 3, 6] ∧
    gemmShape false false false [3, 2, 4] [1, 3, 4, 6] = .ok [3, 2, 6] ∧
    gemmShape false false false [3, 4] [9, 6] = .ok [3, 6] := ⟨rfl, rfl, rfl⟩

end OnnxTool.Props
