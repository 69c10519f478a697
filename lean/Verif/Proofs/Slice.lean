import Verif.Model.Slice
import Verif.Spec.Slice
import Verif.Proofs.Kahn
/-! # Slice sizes count selected indices -/
namespace OnnxTool.Slice
open OnnxTool OnnxTool.Conv

theorem lt_ceilDiv {a b : Int} (hb : 0 < b) (j : Int) : j < ceilDiv a b ↔ j * b < a := by
  unfold ceilDiv
  rw [Int.fdiv_eq_ediv_of_nonneg _ (by omega)]
  have := @Int.ediv_lt_iff_lt_mul (-a) (-j) b hb
  rw [Int.neg_mul] at this
  omega

theorem ceilDiv_pos {a b : Int} (hb : 0 < b) (ha : 0 < a) : 0 < ceilDiv a b := by
  rw [lt_ceilDiv hb]; omega

/-- `a, a+st, a+2st, …` below (above) the bound `e`: the `j` that stay inside are those below the rounded-up quotient. -/
theorem count_pos {dim : Nat} {s e st : Int} (hst : 0 < st) :
    CountSelected dim s e st
      ((if (effOf dim s e st).2.1 - (effOf dim s e st).1 ≤ 0 then 0
        else (ceilDiv ((effOf dim s e st).2.1 - (effOf dim s e st).1) st).toNat)) := by
  have hs1 : (effOf dim s e st).1 = firstPos dim s st := by
    simp only [effOf, firstPos, fromEnd, show ¬ st < 0 by omega, if_false]
    split <;> omega
  have he1 : (effOf dim s e st).2.1 = max 0 (min (fromEnd dim e) dim) := by
    simp only [effOf, fromEnd, show ¬ st < 0 by omega, if_false]
    split <;> omega
  have hf0 : 0 ≤ firstPos dim s st := by unfold firstPos; omega
  rw [hs1, he1]
  generalize hf : firstPos dim s st = f at *
  generalize hE : fromEnd dim e = E
  refine ⟨(List.range (if max 0 (min E (dim : Int)) - f ≤ 0 then 0 else (ceilDiv (max 0 (min E dim) - f) st).toNat)).map
    (fun j : Nat => (f + j * st).toNat), ?_, by simp, ?_⟩
  · refine List.Pairwise.map (R := fun a b : Nat => a ≠ b) _ ?_ List.nodup_range
    intro a b hab h
    apply hab
    have ha : 0 ≤ (a : Int) * st := Int.mul_nonneg (by omega) (by omega)
    have hb : 0 ≤ (b : Int) * st := Int.mul_nonneg (by omega) (by omega)
    have : (a : Int) * st = b * st := by omega
    have := Int.eq_of_mul_eq_mul_right (by omega) this
    omega
  · intro i
    simp only [List.mem_map, List.mem_range, Selected, hf, hE, show ¬ st < 0 by omega, if_false]
    constructor
    · rintro ⟨j, hj, rfl⟩
      have ha : 0 ≤ (j : Int) * st := Int.mul_nonneg (by omega) (by omega)
      split at hj
      · omega
      · have hlt : (j : Int) < ceilDiv (max 0 (min E dim) - f) st := by omega
        rw [lt_ceilDiv hst] at hlt
        refine ⟨by omega, ⟨j, by omega⟩, by omega⟩
    · rintro ⟨hi, ⟨j, hj⟩, he⟩
      have ha : 0 ≤ (j : Int) * st := Int.mul_nonneg (by omega) (by omega)
      refine ⟨j, ?_, by omega⟩
      rw [if_neg (by omega)]
      have : (j : Int) < ceilDiv (max 0 (min E dim) - f) st := by
        rw [lt_ceilDiv hst]; omega
      omega

theorem count_neg {dim : Nat} {s e st : Int} (hst : st < 0) (hd : 0 < dim) :
    CountSelected dim s e st
      ((if (effOf dim s e st).1 - (effOf dim s e st).2.1 ≤ 0 then 0
        else (ceilDiv ((effOf dim s e st).1 - (effOf dim s e st).2.1) (-st)).toNat)) := by
  have hs1 : (effOf dim s e st).1 = firstPos dim s st := by
    simp only [effOf, firstPos, fromEnd, hst, if_true]
    split <;> omega
  have he1 : (effOf dim s e st).2.1 = max (-1) (min (fromEnd dim e) ((dim : Int) - 1)) := by
    simp only [effOf, fromEnd, hst, if_true]
    split <;> omega
  have hf0 : 0 ≤ firstPos dim s st ∧ firstPos dim s st < dim := by unfold firstPos; rw [if_pos hst]; omega
  rw [hs1, he1]
  generalize hf : firstPos dim s st = f at *
  generalize hE : fromEnd dim e = E
  obtain ⟨k, rfl⟩ : ∃ k, st = -k := ⟨-st, by omega⟩
  have hk : 0 < k := by omega
  rw [Int.neg_neg]
  refine ⟨(List.range (if f - max (-1) (min E ((dim : Int) - 1)) ≤ 0 then 0
      else (ceilDiv (f - max (-1) (min E ((dim : Int) - 1))) k).toNat)).map
    (fun j : Nat => (f - j * k).toNat), ?_, by simp, ?_⟩
  · rw [List.nodup_iff_pairwise_ne, List.pairwise_map]
    refine List.Pairwise.imp_of_mem (R := fun a b : Nat => a ≠ b) ?_ List.nodup_range
    intro a b hma hmb hab h
    apply hab
    have key : ∀ a : Nat, a ∈ List.range (if f - max (-1) (min E ((dim : Int) - 1)) ≤ 0 then 0
      else (ceilDiv (f - max (-1) (min E ((dim : Int) - 1))) k).toNat) → (a : Int) * k ≤ f := by
      intro a ha
      rw [List.mem_range] at ha
      split at ha
      · omega
      · have hlt : (a : Int) < ceilDiv (f - max (-1) (min E ((dim : Int) - 1))) k := by omega
        rw [lt_ceilDiv hk] at hlt
        omega
    have h1 := key a hma
    have h2 := key b hmb
    have : (a : Int) * k = b * k := by omega
    have := Int.eq_of_mul_eq_mul_right (by omega) this
    omega
  · intro i
    simp only [List.mem_map, List.mem_range, Selected, hf, hE, hst, if_true, Int.mul_neg]
    constructor
    · rintro ⟨j, hj, rfl⟩
      have ha : 0 ≤ (j : Int) * k := Int.mul_nonneg (by omega) (by omega)
      split at hj
      · omega
      · have hlt : (j : Int) < ceilDiv (f - max (-1) (min E ((dim : Int) - 1))) k := by omega
        rw [lt_ceilDiv hk] at hlt
        refine ⟨by omega, ⟨j, by omega⟩, by omega⟩
    · rintro ⟨hi, ⟨j, hj⟩, he⟩
      have ha : 0 ≤ (j : Int) * k := Int.mul_nonneg (by omega) (by omega)
      refine ⟨j, ?_, by omega⟩
      rw [if_neg (by omega)]
      have : (j : Int) < ceilDiv (f - max (-1) (min E ((dim : Int) - 1))) k := by
        rw [lt_ceilDiv hk]; omega
      omega

/-- One axis: the inferred size is the number of selected indices. -/
theorem axisSize_count {dim : Nat} {s e st : Int} (hst : st ≠ 0) (hd : 0 < dim ∨ 0 < st) :
    ∃ n, axisSize (effOf dim s e st) = .ok n ∧ CountSelected dim s e st n := by
  have hst2 : (effOf dim s e st).2.2 = st := rfl
  by_cases h : 0 < st
  · refine ⟨_, ?_, count_pos (dim := dim) (s := s) (e := e) h⟩
    unfold axisSize
    rw [hst2, if_pos h]
    simp only []
    split <;> rfl
  · refine ⟨_, ?_, count_neg (dim := dim) (s := s) (e := e) (by omega) (by omega)⟩
    unfold axisSize
    rw [hst2, if_neg h]
    simp only [if_neg hst]
    split <;> rfl

/-- An untouched axis keeps its size. -/
theorem axisSize_full (d : Nat) : axisSize ((0 : Int), (d : Int), (1 : Int)) = .ok d := by
  unfold axisSize
  simp only [show (1 : Int) > 0 by omega, if_true]
  split
  · congr 1; omega
  · congr 1
    unfold ceilDiv
    simp

theorem countSelected_unique {dim : Nat} {s e st : Int} {n m : Nat} (h1 : CountSelected dim s e st n)
    (h2 : CountSelected dim s e st m) : n = m := by
  obtain ⟨l1, n1, e1, m1⟩ := h1
  obtain ⟨l2, n2, e2, m2⟩ := h2
  have key : ∀ l1 l2 : List Nat, l1.Nodup → l2.Nodup → (∀ i, i ∈ l1 → i ∈ l2) → l1.length ≤ l2.length := by
    intro l1 l2 hn1 hn2 hsub
    exact OnnxTool.Topsort.nodup_sub_length hn1 hsub
  have := key l1 l2 n1 n2 (fun i hi => (m2 i).mpr ((m1 i).mp hi))
  have := key l2 l1 n2 n1 (fun i hi => (m1 i).mpr ((m2 i).mp hi))
  omega

theorem sizes_ok : ∀ (ts : List (Int × Int × Int)) (vs : List Nat), ts.length = vs.length →
    (∀ (i : Nat) t, ts[i]? = some t → ∃ v, vs[i]? = some v ∧ axisSize t = .ok v) → sizes ts = .ok vs := by
  intro ts
  induction ts with
  | nil => intro vs hl _; cases vs with
    | nil => rfl
    | cons _ _ => simp at hl
  | cons t ts ih =>
    intro vs hl h
    cases vs with
    | nil => simp at hl
    | cons v vs =>
      obtain ⟨w, hw, ha⟩ := h 0 t rfl
      have hvw : v = w := by simpa using hw
      subst hvw
      have := ih vs (by simpa using hl) (fun i t' hi => h (i + 1) t' hi)
      simp only [sizes, ha, this, bind, Except.bind, pure, Except.pure]

theorem sizes_length : ∀ {ts : List (Int × Int × Int)} {vs : List Nat}, sizes ts = .ok vs →
    vs.length = ts.length ∧ ∀ (i : Nat) t, ts[i]? = some t → ∃ v, vs[i]? = some v ∧ axisSize t = .ok v := by
  intro ts
  induction ts with
  | nil => intro vs h; simp only [sizes] at h; injection h with h; subst h; simp
  | cons t ts ih =>
    intro vs h
    simp only [sizes, bind, Except.bind, pure, Except.pure] at h
    split at h
    · cases h
    · rename_i v hv
      split at h
      · cases h
      · rename_i vs' hvs
        injection h with h
        subst h
        obtain ⟨h1, h2⟩ := ih hvs
        refine ⟨by simp [h1], ?_⟩
        intro i t' hi
        cases i with
        | zero => simp at hi; subst hi; exact ⟨v, rfl, hv⟩
        | succ i => exact h2 i t' hi

theorem normIndex_ok {r : Nat} {a : Int} (h : -(r : Int) ≤ a ∧ a < r) :
    normIndex r (if a < 0 then (r : Int) + a else a) = .ok (axisOf r a) ∧ axisOf r a < r := by
  unfold normIndex axisOf
  split
  · rw [if_pos (by omega), if_pos (by omega)]
    exact ⟨rfl, by omega⟩
  · rw [if_pos (by omega), if_pos (by omega)]
    exact ⟨rfl, by omega⟩

theorem idx_ok {xs : List Int} {i : Nat} (h : i < xs.length) : idx xs i = .ok (xs.getD i 0) := by
  unfold idx
  rw [List.getElem?_eq_getElem h]
  simp [List.getD_eq_getElem?_getD, List.getElem?_eq_getElem h]

theorem effLoop_ok {inshape : List Nat} {starts ends steps : List Int} : ∀ (axes : List Int) (i : Nat) (eff : List (Int × Int × Int)),
    i + axes.length ≤ starts.length → i + axes.length ≤ ends.length → i + axes.length ≤ steps.length →
    eff.length = inshape.length →
    (∀ a ∈ axes, -(inshape.length : Int) ≤ a ∧ a < inshape.length) →
    (axes.map (axisOf inshape.length)).Nodup →
    ∃ eff', effLoop inshape starts ends steps i (axesNeg2Pos inshape.length axes) eff = .ok eff' ∧ eff'.length = eff.length ∧
      (∀ k, k ∉ axes.map (axisOf inshape.length) → eff'[k]? = eff[k]?) ∧
      (∀ j, j < axes.length → eff'[axisOf inshape.length (axes.getD j 0)]? =
        some (effOf (inshape.getD (axisOf inshape.length (axes.getD j 0)) 0) (starts.getD (i + j) 0) (ends.getD (i + j) 0) (steps.getD (i + j) 0))) := by
  intro axes
  induction axes with
  | nil => intro i eff _ _ _ _ _ _; exact ⟨eff, rfl, rfl, fun _ _ => rfl, fun j hj => by simp at hj⟩
  | cons a as ih =>
    intro i eff h1 h2 h3 hl hr hn
    simp only [List.length_cons] at h1 h2 h3
    simp only [List.map_cons, List.nodup_cons] at hn
    obtain ⟨hk, hlt⟩ := normIndex_ok (hr a List.mem_cons_self)
    obtain ⟨eff', e1, e2, e3, e4⟩ := ih (i + 1)
      (eff.set (axisOf inshape.length a) (effOf (inshape.getD (axisOf inshape.length a) 0) (starts.getD i 0) (ends.getD i 0) (steps.getD i 0)))
      (by omega) (by omega) (by omega) (by simpa using hl) (fun b hb => hr b (List.mem_cons_of_mem _ hb)) hn.2
    refine ⟨eff', ?_, by simpa using e2, ?_, ?_⟩
    · simp only [axesNeg2Pos, List.map_cons, effLoop, idx_ok (show i < starts.length by omega), idx_ok (show i < ends.length by omega),
        idx_ok (show i < steps.length by omega), bind, Except.bind]
      rw [hk]
      exact e1
    · intro k hk'
      simp only [List.map_cons, List.mem_cons, not_or] at hk'
      rw [e3 k hk'.2, List.getElem?_set_ne (fun h => hk'.1 h.symm)]
    · intro j hj
      cases j with
      | zero =>
        have hnm : axisOf inshape.length a ∉ as.map (axisOf inshape.length) := hn.1
        simp only [List.getD_cons_zero, Nat.add_zero]
        rw [e3 _ hnm, List.getElem?_set_self (by omega)]
      | succ j =>
        simp only [List.getD_cons_succ]
        have := e4 j (by simpa using hj)
        rw [this]
        have : i + 1 + j = i + (j + 1) := by omega
        rw [this]

/-- Python's slice length is the ONNX one except for a negative step with a start before the beginning (or an empty axis). -/
theorem pySliceLen_eq {dim : Nat} {s e st : Int} (hst : st ≠ 0) (h : 0 < st ∨ (0 < dim ∧ -(dim : Int) ≤ s)) :
    pySliceLen dim s e st = axisSize (effOf dim s e st) := by
  have cd : ∀ {a b : Int}, 0 < b → ((a - 1) / b + 1) = ceilDiv a b := by
    intro a b hb
    have h1 := lt_ceilDiv (a := a) hb (((a - 1) / b))
    have h2 := lt_ceilDiv (a := a) hb (((a - 1) / b + 1))
    have h3 := Int.ediv_mul_le (a - 1) (show b ≠ 0 by omega)
    have h4 := Int.lt_ediv_add_one_mul_self (a - 1) hb
    omega
  unfold pySliceLen axisSize effOf
  rw [if_neg hst]
  simp only []
  by_cases hp : 0 < st
  · simp only [show ¬ st < 0 by omega, if_false, show st > 0 from hp, if_true]
    rw [cd hp]
    have aux : ∀ v : Int, (if (if v < 0 then v + (dim : Int) else v) < 0 then (0 : Int)
        else if (if v < 0 then v + (dim : Int) else v) ≥ dim then (dim : Int) else (if v < 0 then v + (dim : Int) else v)) =
        max 0 (min (if v < 0 then (dim : Int) + v else v) dim) := by
      intro v
      split <;> split <;> (try split) <;> omega
    rw [aux s, aux e]
    generalize max (0 : Int) (min (if s < 0 then (dim : Int) + s else s) dim) = S
    generalize max (0 : Int) (min (if e < 0 then (dim : Int) + e else e) dim) = E
    by_cases hc : S < E
    · rw [if_pos hc, if_neg (by omega)]
    · rw [if_neg hc, if_pos (by omega)]
  · have hneg : st < 0 := by omega
    simp only [hneg, if_true, show ¬ (st > 0) by omega, if_false, hst]
    rw [cd (show 0 < -st by omega)]
    have auxe : ∀ v : Int, (if (if v < 0 then v + (dim : Int) else v) < 0 then (-1 : Int)
        else if (if v < 0 then v + (dim : Int) else v) ≥ dim then (dim : Int) - 1 else (if v < 0 then v + (dim : Int) else v)) =
        max (-1) (min (if v < 0 then (dim : Int) + v else v) ((dim : Int) - 1)) := by
      intro v
      split <;> split <;> (try split) <;> omega
    have auxs : max (-1 : Int) (min (if s < 0 then (dim : Int) + s else s) ((dim : Int) - 1)) =
        max 0 (min (if s < 0 then (dim : Int) + s else s) ((dim : Int) - 1)) := by
      split <;> omega
    rw [auxe s, auxe e, auxs]
    generalize max (0 : Int) (min (if s < 0 then (dim : Int) + s else s) ((dim : Int) - 1)) = S
    generalize max (-1 : Int) (min (if e < 0 then (dim : Int) + e else e) ((dim : Int) - 1)) = E
    by_cases hc : E < S
    · rw [if_pos hc, if_neg (by omega)]
    · rw [if_neg hc, if_pos (by omega)]

end OnnxTool.Slice
