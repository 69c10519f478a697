import Verif.Model.ValueMove
import Verif.Spec.Values
import Verif.Proofs.KernelsCut
/-!
# Value inference: gathering and slicing
-/
namespace OnnxTool.Values
open OnnxTool OnnxTool.Torch OnnxTool.Slice OnnxTool.Kernels

variable {V : Type}

/-! ### Gather -/

theorem all_valid {d : Nat} {ids : Tensor Int} : ids.flat.all (validIndex d) = true ↔ ∀ i, InB ids.shape i → -(d : Int) ≤ ids.at i ∧ ids.at i < d := by
  rw [List.all_eq_true]
  constructor
  · intro h i hi
    have hm : ids.at i ∈ ids.flat := by
      refine List.mem_map.2 ⟨ravel ids.shape i, List.mem_range.2 (ravel_lt hi), ?_⟩
      rw [unravel_ravel hi]
    simpa [validIndex] using h _ hm
  · intro h v hv
    obtain ⟨idx, hidx, rfl⟩ := mem_flat ids hv
    simpa [validIndex] using h idx hidx

theorem take_ok (axis : Int) (x : Tensor V) (ids : Tensor Int) (h : -(x.shape.length : Int) ≤ axis ∧ axis < x.shape.length)
    (hi : GatherIndicesOk (axisOf x.shape.length axis) x ids) : ∃ y, take axis x ids = .ok y ∧ IsGather (axisOf x.shape.length axis) x ids y := by
  obtain ⟨h1, h2⟩ := normIndex_axis h
  unfold take
  simp only [h1]
  rw [if_pos (all_valid.2 hi)]
  refine ⟨_, rfl, rfl, fun pre i post hpre hii hpost => ?_⟩
  have e1 : pre.length = axisOf x.shape.length axis := by
    rw [inb_length hpre, List.length_take]; omega
  have e2 : i.length = ids.shape.length := inb_length hii
  have a1 : (pre ++ i ++ post).take (axisOf x.shape.length axis) = pre := by
    rw [List.append_assoc, ← e1, List.take_left]
  have a2 : ((pre ++ i ++ post).drop (axisOf x.shape.length axis)).take ids.shape.length = i := by
    rw [List.append_assoc, ← e1, List.drop_left, ← e2, List.take_left]
  have a3 : (pre ++ i ++ post).drop (axisOf x.shape.length axis + ids.shape.length) = post := by
    rw [show axisOf x.shape.length axis + ids.shape.length = (pre ++ i).length by rw [List.length_append, e1, e2], List.drop_left]
  show x.at _ = _
  rw [a1, a2, a3]
  rfl

theorem take_error (axis : Int) (x : Tensor V) (ids : Tensor Int) (h : -(x.shape.length : Int) ≤ axis ∧ axis < x.shape.length)
    (hi : ¬ GatherIndicesOk (axisOf x.shape.length axis) x ids) : take axis x ids = .error .indexError := by
  obtain ⟨h1, h2⟩ := normIndex_axis h
  unfold take
  simp only [h1]
  rw [if_neg]
  rw [all_valid]
  exact hi

/-! ### Slice -/

theorem slice_pos {d n i : Nat} {s e st : Int} (h : pySliceLen d s e st = .ok n) (hi : i < n) :
    0 ≤ pyFirst d s st + i * st ∧ pyFirst d s st + i * st < d := by
  unfold pySliceLen at h
  by_cases h0 : st = 0
  · rw [if_pos h0] at h; cases h
  rw [if_neg h0] at h
  simp only [] at h
  have hbound : ∀ v : Int, -1 ≤ (if (if v < 0 then v + (d : Int) else v) < 0 then (if st < 0 then (-1 : Int) else 0)
        else if (if v < 0 then v + (d : Int) else v) ≥ d then (if st < 0 then (d : Int) - 1 else d) else (if v < 0 then v + (d : Int) else v)) ∧
      (0 < st → 0 ≤ (if (if v < 0 then v + (d : Int) else v) < 0 then (if st < 0 then (-1 : Int) else 0)
        else if (if v < 0 then v + (d : Int) else v) ≥ d then (if st < 0 then (d : Int) - 1 else d) else (if v < 0 then v + (d : Int) else v)) ∧
        (if (if v < 0 then v + (d : Int) else v) < 0 then (if st < 0 then (-1 : Int) else 0)
        else if (if v < 0 then v + (d : Int) else v) ≥ d then (if st < 0 then (d : Int) - 1 else d) else (if v < 0 then v + (d : Int) else v)) ≤ d) ∧
      (st < 0 → (if (if v < 0 then v + (d : Int) else v) < 0 then (if st < 0 then (-1 : Int) else 0)
        else if (if v < 0 then v + (d : Int) else v) ≥ d then (if st < 0 then (d : Int) - 1 else d) else (if v < 0 then v + (d : Int) else v)) ≤ d - 1) := by
    intro v
    split_ifs <;> omega
  have hs := hbound s
  have he := hbound e
  unfold pyFirst
  simp only []
  generalize (if (if s < 0 then s + (d : Int) else s) < 0 then (if st < 0 then (-1 : Int) else 0)
        else if (if s < 0 then s + (d : Int) else s) ≥ d then (if st < 0 then (d : Int) - 1 else d) else (if s < 0 then s + (d : Int) else s)) = S at *
  generalize (if (if e < 0 then e + (d : Int) else e) < 0 then (if st < 0 then (-1 : Int) else 0)
        else if (if e < 0 then e + (d : Int) else e) ≥ d then (if st < 0 then (d : Int) - 1 else d) else (if e < 0 then e + (d : Int) else e)) = E at *
  by_cases hneg : st < 0
  · rw [if_pos hneg] at h
    by_cases hc : E < S
    · rw [if_pos hc] at h
      injection h with h
      have hq := Int.ediv_mul_le (S - E - 1) (show (-st) ≠ 0 by omega)
      have hq0 : 0 ≤ (S - E - 1) / (-st) := Int.ediv_nonneg (by omega) (by omega)
      have hin : (i : Int) ≤ (S - E - 1) / (-st) := by omega
      have hm : (i : Int) * (-st) ≤ (S - E - 1) / (-st) * (-st) := Int.mul_le_mul_of_nonneg_right hin (by omega)
      have hneg2 : (i : Int) * (-st) = -((i : Int) * st) := by rw [Int.mul_neg]
      have hnn : 0 ≤ (i : Int) * (-st) := Int.mul_nonneg (by omega) (by omega)
      have := hs.2.2 hneg
      omega
    · rw [if_neg hc] at h; injection h with h; omega
  · have hpos : 0 < st := by omega
    rw [if_neg hneg] at h
    by_cases hc : S < E
    · rw [if_pos hc] at h
      injection h with h
      have hq := Int.ediv_mul_le (E - S - 1) h0
      have hq0 : 0 ≤ (E - S - 1) / st := Int.ediv_nonneg (by omega) (by omega)
      have hin : (i : Int) ≤ (E - S - 1) / st := by omega
      have hm : (i : Int) * st ≤ (E - S - 1) / st * st := Int.mul_le_mul_of_nonneg_right hin (by omega)
      have hnn : 0 ≤ (i : Int) * st := Int.mul_nonneg (by omega) (by omega)
      have := (hs.2.1 hpos)
      have := (he.2.1 hpos)
      omega
    · rw [if_neg hc] at h; injection h with h; omega

theorem pyFirst_eq {d : Nat} {s st : Int} (h : 0 < st ∨ (0 < d ∧ -(d : Int) ≤ s)) (h0 : st ≠ 0) : pyFirst d s st = firstPos d s st := by
  unfold pyFirst firstPos fromEnd
  simp only []
  split_ifs <;> omega

theorem getD_set (l : List Nat) (k v j : Nat) (hk : k < l.length) : (l.set k v).getD j 0 = if j = k then v else l.getD j 0 := by
  rw [List.getD_eq_getElem?_getD, List.getD_eq_getElem?_getD, List.getElem?_set]
  by_cases h : k = j
  · subst h; rw [if_pos rfl, if_pos hk, if_pos rfl, Option.getD_some]
  · rw [if_neg h, if_neg (fun e => h e.symm)]

theorem sliceLoop_ok {starts ends steps : List Int} : ∀ (axes : List Nat) (i : Nat) (x : Tensor V),
    i + axes.length ≤ starts.length → i + axes.length ≤ ends.length → i + axes.length ≤ steps.length →
    (∀ a ∈ axes, a < x.shape.length ∧ a ≤ 4) → axes.Nodup →
    (∀ j, j < axes.length → steps.getD (i + j) 0 ≠ 0) →
    ∃ (y : Tensor V) (F : List Nat → List Nat), sliceLoop starts ends steps i (axes.map Int.ofNat) x = .ok y ∧ y.shape.length = x.shape.length ∧
      (∀ k, k ∉ axes → y.shape.getD k 0 = x.shape.getD k 0) ∧
      (∀ j, j < axes.length → pySliceLen (x.shape.getD (axes.getD j 0) 0) (starts.getD (i + j) 0) (ends.getD (i + j) 0) (steps.getD (i + j) 0) =
        .ok (y.shape.getD (axes.getD j 0) 0)) ∧
      (∀ idx, y.at idx = x.at (F idx)) ∧
      (∀ idx, idx.length = x.shape.length → (F idx).length = x.shape.length ∧ (∀ k, k ∉ axes → (F idx).getD k 0 = idx.getD k 0) ∧
        ∀ j, j < axes.length → (F idx).getD (axes.getD j 0) 0 =
          (pyFirst (x.shape.getD (axes.getD j 0) 0) (starts.getD (i + j) 0) (steps.getD (i + j) 0) +
            idx.getD (axes.getD j 0) 0 * steps.getD (i + j) 0).toNat) := by
  intro axes
  induction axes with
  | nil =>
    intro i x _ _ _ _ _ _
    exact ⟨x, id, rfl, rfl, fun _ _ => rfl, fun j hj => by simp at hj, fun _ => rfl, fun idx h => ⟨h, fun _ _ => rfl, fun j hj => by simp at hj⟩⟩
  | cons a as ih =>
    intro i x h1 h2 h3 hr hn hst
    simp only [List.length_cons] at h1 h2 h3
    obtain ⟨ha, ha4⟩ := hr a List.mem_cons_self
    have hna : a ∉ as := (List.nodup_cons.1 hn).1
    have hst0 := hst 0 (by simp)
    rw [Nat.add_zero] at hst0
    have hlen : ∃ n, pySliceLen (x.shape.getD a 0) (starts.getD i 0) (ends.getD i 0) (steps.getD i 0) = .ok n := by
      unfold pySliceLen
      rw [if_neg hst0]
      simp only []
      split_ifs <;> exact ⟨_, rfl⟩
    obtain ⟨n, hn1⟩ := hlen
    let x1 : Tensor V := ⟨x.shape.set a n, fun idx => x.at (idx.set a (pyFirst (x.shape.getD a 0) (starts.getD i 0) (steps.getD i 0) +
      idx.getD a 0 * steps.getD i 0).toNat)⟩
    have hx1 : sliceStep starts ends steps i (Int.ofNat a) x = .ok x1 := by
      unfold sliceStep
      rw [if_pos (by constructor <;> simp; omega)]
      have g : ∀ (xs : List Int), i < xs.length → xs[i]? = some (xs.getD i 0) := by
        intro xs h
        rw [List.getElem?_eq_getElem h, List.getD_eq_getElem _ _ h]
      rw [g starts (by omega), g ends (by omega), g steps (by omega)]
      simp only [sliceAxis, Int.ofNat_eq_natCast, Int.toNat_natCast]
      rw [if_pos ha, hn1]
    have hx1l : x1.shape.length = x.shape.length := by simp [x1]
    obtain ⟨y, F, e1, e2, e3, e4, e5, e6⟩ := ih (i + 1) x1 (by omega) (by omega) (by omega)
      (fun b hb => by rw [hx1l]; exact hr b (List.mem_cons_of_mem _ hb)) (List.nodup_cons.1 hn).2
      (fun j hj => by rw [show i + 1 + j = i + (j + 1) by omega]; exact hst (j + 1) (by simpa using hj))
    have hget : ∀ k, x1.shape.getD k 0 = if k = a then n else x.shape.getD k 0 := fun k => getD_set _ _ _ _ ha
    have hne : ∀ j, j < as.length → as.getD j 0 ≠ a := by
      intro j hj e
      apply hna
      rw [← e, List.getD_eq_getElem _ _ hj]
      exact List.getElem_mem hj
    refine ⟨y, fun idx => (F idx).set a (pyFirst (x.shape.getD a 0) (starts.getD i 0) (steps.getD i 0) +
      (F idx).getD a 0 * steps.getD i 0).toNat, ?_, by rw [e2, hx1l], ?_, ?_, ?_, ?_⟩
    · simp only [List.map_cons, sliceLoop, hx1]
      exact e1
    · intro k hk
      rw [List.mem_cons, not_or] at hk
      rw [e3 k hk.2, hget, if_neg hk.1]
    · intro j hj
      cases j with
      | zero =>
        simp only [List.getD_cons_zero, Nat.add_zero]
        rw [hn1, e3 a hna, hget, if_pos rfl]
      | succ j =>
        simp only [List.getD_cons_succ]
        have hj' : j < as.length := by simpa using hj
        rw [show i + (j + 1) = i + 1 + j by omega, ← e4 j hj', hget, if_neg (hne j hj')]
    · intro idx
      rw [e5]
    · intro idx hidx
      obtain ⟨f1, f2, f3⟩ := e6 idx (by rw [hx1l]; exact hidx)
      rw [hx1l] at f1
      refine ⟨by simpa using f1, ?_, ?_⟩
      · intro k hk
        rw [List.mem_cons, not_or] at hk
        rw [getD_set _ _ _ _ (by omega), if_neg hk.1, f2 k hk.2]
      · intro j hj
        cases j with
        | zero =>
          simp only [List.getD_cons_zero, Nat.add_zero]
          rw [getD_set _ _ _ _ (by omega), if_pos rfl, f2 a hna]
        | succ j =>
          simp only [List.getD_cons_succ]
          have hj' : j < as.length := by simpa using hj
          rw [getD_set _ _ _ _ (by omega), if_neg (hne j hj'), f3 j hj', hget, if_neg (hne j hj'), show i + (j + 1) = i + 1 + j by omega]

theorem axisOf_nat (r a : Nat) : axisOf r (Int.ofNat a) = a := by
  unfold axisOf
  rw [if_neg (by simp)]
  rfl

theorem sliceValue_ok (starts ends : List Int) (axes : List Nat) (steps : Option (List Int)) (x : Tensor V)
    (h1 : axes.length = starts.length) (h2 : axes.length = ends.length) (h3 : ∀ l, steps = some l → axes.length = l.length)
    (hr : ∀ a ∈ axes, a < x.shape.length ∧ a ≤ 4) (hn : axes.Nodup)
    (hst : ∀ l, steps = some l → ∀ j, j < axes.length → l.getD j 0 ≠ 0 ∧
      (0 < l.getD j 0 ∨ (0 < x.shape.getD (axes.getD j 0) 0 ∧ -(x.shape.getD (axes.getD j 0) 0 : Int) ≤ starts.getD j 0))) :
    ∃ y, sliceValue starts ends (axes.map Int.ofNat) steps x = .ok y ∧
      IsSlice starts ends (axes.map Int.ofNat) (steps.getD (List.replicate starts.length 1)) x y := by
  unfold sliceValue
  generalize hst' : steps.getD (List.replicate starts.length 1) = sts
  have hlen : axes.length = sts.length := by
    cases steps with
    | none => rw [← hst']; simp [h1]
    | some l => rw [← hst']; exact h3 l rfl
  have hsts : ∀ j, j < axes.length → sts.getD j 0 ≠ 0 ∧
      (0 < sts.getD j 0 ∨ (0 < x.shape.getD (axes.getD j 0) 0 ∧ -(x.shape.getD (axes.getD j 0) 0 : Int) ≤ starts.getD j 0)) := by
    intro j hj
    cases steps with
    | none =>
      rw [← hst', Option.getD_none, List.getD_eq_getElem _ _ (by simp; omega), List.getElem_replicate]
      exact ⟨by simp, Or.inl (by simp)⟩
    | some l => rw [← hst']; exact hst l rfl j hj
  obtain ⟨y, F, e1, e2, e3, e4, e5, e6⟩ := sliceLoop_ok (starts := starts) (ends := ends) (steps := sts) axes 0 x (by omega) (by omega) (by omega)
    hr hn (fun j hj => by rw [Nat.zero_add]; exact (hsts j hj).1)
  simp only [Nat.zero_add] at e4 e6
  have hax : ∀ j, j < axes.length → axisOf x.shape.length ((axes.map Int.ofNat).getD j 0) = axes.getD j 0 := by
    intro j hj
    rw [List.getD_eq_getElem _ _ (by simpa using hj), List.getD_eq_getElem _ _ hj, List.getElem_map]
    exact axisOf_nat _ _
  have hmap : (axes.map Int.ofNat).map (axisOf x.shape.length) = axes := by
    rw [List.map_map]
    conv_rhs => rw [← List.map_id axes]
    exact List.map_congr_left fun a _ => axisOf_nat _ a
  have hcount : ∀ j, j < axes.length → CountSelected (x.shape.getD (axes.getD j 0) 0) (starts.getD j 0) (ends.getD j 0) (sts.getD j 0)
      (y.shape.getD (axes.getD j 0) 0) := by
    intro j hj
    have hp := e4 j hj
    have hc := hsts j hj
    rw [pySliceLen_eq hc.1 hc.2] at hp
    obtain ⟨n, hn1, hn2⟩ := axisSize_count (dim := x.shape.getD (axes.getD j 0) 0) (s := starts.getD j 0) (e := ends.getD j 0) hc.1
      (by rcases hc.2 with h | h <;> [exact Or.inr h; exact Or.inl h.1])
    rw [hn1] at hp
    injection hp with hp
    rw [← hp]
    exact hn2
  -- the source index
  have hF : ∀ idx, InB y.shape idx → InB x.shape (F idx) ∧
      (∀ j, j < axes.length → ((F idx).getD (axes.getD j 0) 0 : Int) =
        firstPos (x.shape.getD (axes.getD j 0) 0) (starts.getD j 0) (sts.getD j 0) + idx.getD (axes.getD j 0) 0 * sts.getD j 0) ∧
      (∀ k, k ∉ axes → (F idx).getD k 0 = idx.getD k 0) := by
    intro idx hidx
    have hil := inb_length hidx
    obtain ⟨f1, f2, f3⟩ := e6 idx (by omega)
    have hnamed : ∀ j, j < axes.length → ((F idx).getD (axes.getD j 0) 0 : Int) =
        firstPos (x.shape.getD (axes.getD j 0) 0) (starts.getD j 0) (sts.getD j 0) + idx.getD (axes.getD j 0) 0 * sts.getD j 0 ∧
        (F idx).getD (axes.getD j 0) 0 < x.shape.getD (axes.getD j 0) 0 := by
      intro j hj
      have ha : axes.getD j 0 < x.shape.length := by
        rw [List.getD_eq_getElem _ _ hj]; exact (hr _ (List.getElem_mem hj)).1
      have hlt := (inb_iff.1 hidx).2 (axes.getD j 0) (by omega)
      have hp := slice_pos (e4 j hj) hlt
      rw [f3 j hj]
      rw [← pyFirst_eq (hsts j hj).2 (hsts j hj).1]
      omega
    refine ⟨inb_iff.2 ⟨f1, fun k hk => ?_⟩, fun j hj => (hnamed j hj).1, f2⟩
    by_cases hm : k ∈ axes
    · obtain ⟨j, hj, rfl⟩ := List.getElem_of_mem hm
      have := (hnamed j hj).2
      rwa [List.getD_eq_getElem _ _ hj] at this
    · rw [f2 k hm]
      have := (inb_iff.1 hidx).2 k (by omega)
      rwa [e3 k hm] at this
  refine ⟨y, e1, ⟨e2, ?_, ?_⟩, ?_, ?_⟩
  · intro j hj
    rw [List.length_map] at hj
    rw [hax j hj]
    exact hcount j hj
  · intro k hk hm
    rw [hmap] at hm
    exact e3 k hm
  · intro idx src hidx hsrc hj hk
    obtain ⟨f1, f2, f3⟩ := hF idx hidx
    rw [e5]
    congr 1
    refine ext_getD (by rw [inb_length f1, inb_length hsrc]) fun k hkl => ?_
    rw [inb_length f1] at hkl
    by_cases hm : k ∈ axes
    · obtain ⟨j, hjl, rfl⟩ := List.getElem_of_mem hm
      have g1 := f2 j hjl
      have g2 := hj j (by simpa using hjl)
      rw [hax j hjl] at g2
      rw [List.getD_eq_getElem axes _ hjl] at g1 g2
      omega
    · rw [f3 k hm, hk k hkl (by rw [hmap]; exact hm)]
  · intro idx hidx
    obtain ⟨f1, f2, f3⟩ := hF idx hidx
    refine ⟨F idx, f1, fun j hj => ?_, fun k _ hm => ?_⟩
    · rw [List.length_map] at hj
      rw [hax j hj]
      exact f2 j hj
    · rw [hmap] at hm
      exact f3 k hm

/-- axes that are negative or above 4 do nothing -/
theorem sliceLoop_ignored {starts ends steps : List Int} : ∀ (axes : List Int) (i : Nat) (x : Tensor V), (∀ a ∈ axes, a < 0 ∨ 4 < a) →
    sliceLoop starts ends steps i axes x = .ok x := by
  intro axes
  induction axes with
  | nil => intro i x _; rfl
  | cons a as ih =>
    intro i x h
    have := h a List.mem_cons_self
    have h1 : sliceStep starts ends steps i a x = .ok x := by
      unfold sliceStep
      rw [if_neg (by omega)]
    simp only [sliceLoop, h1]
    exact ih (i + 1) x fun b hb => h b (List.mem_cons_of_mem _ hb)

end OnnxTool.Values
