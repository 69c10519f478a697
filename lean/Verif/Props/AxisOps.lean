import Verif.Proofs.AxisOps
/-! # C26: Transpose, Squeeze, Unsqueeze, Gather, Reduce, Pad, OneHot -/
namespace OnnxTool.Props
open OnnxTool OnnxTool.Axes OnnxTool.Slice OnnxTool.Conv OnnxTool.Shape

/-- **C26, Transpose.** For every shape and every permutation of its axes: output axis `i` has the size of input axis `perm[i]`, and the
dimensions are only rearranged (so the element count is unchanged). -/
theorem C26_transpose (x p : List Nat) (hp : p.Perm (List.range x.length)) :
    ∃ y, transposeShape (some (p.map Int.ofNat)) x = .ok y ∧ y.length = x.length ∧
      (∀ i, i < x.length → y.getD i 0 = x.getD (p.getD i 0) 0) ∧ y.Perm x ∧ elems y = elems x := by
  have hlen : p.length = x.length := by rw [hp.length_eq]; simp
  have hperm : (p.map (fun i => x.getD i 0)).Perm x := by
    have := hp.map (fun i => x.getD i 0)
    rwa [map_getD_range] at this
  refine ⟨p.map (fun i => x.getD i 0), gatherAll_ok x p (fun i hi => ?_), by simpa using hlen, ?_, hperm, elems_perm hperm⟩
  · simpa using (hp.mem_iff).mp hi
  · intro i hi
    have hi' : i < p.length := by omega
    have hpi : p.getD i 0 = p[i] := by simp [List.getD_eq_getElem?_getD, hi']
    rw [hpi, List.getD_eq_getElem?_getD, List.getElem?_map, List.getElem?_eq_getElem hi']
    rfl

/-- **C26, inverse Transpose.** Transposing by `p` and then by an inverse `q` of `p` gives back the shape. -/
theorem C26_transpose_inverse (x p q : List Nat) (hp : p.Perm (List.range x.length)) (hq : q.length = x.length)
    (hinv : ∀ j, j < x.length → q.getD j 0 < x.length ∧ p.getD (q.getD j 0) 0 = j) (y : List Nat)
    (hy : transposeShape (some (p.map Int.ofNat)) x = .ok y) :
    transposeShape (some (q.map Int.ofNat)) y = .ok x := by
  obtain ⟨y', h1, h2, h3, _⟩ := C26_transpose x p hp
  rw [hy] at h1
  injection h1 with h1
  subst h1
  have hmem : ∀ i ∈ q, i < y.length := by
    intro i hi
    obtain ⟨j, hj, rfl⟩ := List.getElem_of_mem hi
    have := (hinv j (by omega)).1
    rw [List.getD_eq_getElem?_getD, List.getElem?_eq_getElem hj] at this
    simpa [h2] using this
  show gatherAll y _ = _
  rw [gatherAll_ok y q hmem]
  congr 1
  apply List.ext_getElem (by simpa using hq)
  intro j hj1 hj2
  have hjq : j < q.length := by omega
  obtain ⟨g1, g2⟩ := hinv j hj2
  rw [show q.getD j 0 = q[j] by simp [List.getD_eq_getElem?_getD, hjq]] at g1 g2
  rw [List.getElem_map, h3 _ g1, g2]
  simp [List.getD_eq_getElem?_getD, hj2]

/-- Without a permutation the axes are reversed; twice is the identity. -/
theorem C26_transpose_default (x : List Nat) :
    ∃ y, transposeShape none x = .ok y ∧ transposeShape none y = .ok x ∧ elems y = elems x :=
  ⟨x.reverse, rfl, by simp [transposeShape], elems_perm (List.reverse_perm x)⟩

/-- **C26, Squeeze.** The result lists, in order, the dimensions at the positions that are not named (for axes at least `-rank`). -/
theorem C26_squeeze (axes : List Int) (x : List Nat) (h : ∀ a ∈ axes, -(x.length : Int) ≤ a) :
    squeezeShape axes x =
      ((List.range x.length).filter (fun j => decide (j ∉ axes.map (axisOf x.length)))).map (fun j => x.getD j 0) := by
  unfold squeezeShape
  rw [dropAxes_eq]
  congr 1
  apply List.filter_congr
  intro j _
  rw [Nat.zero_add, contains_neg2pos h, decide_not]

/-- **C26, Unsqueeze then Squeeze.** Whatever the axes, if Unsqueeze returns a shape then it has one more dimension per axis, the same
element count, the dimension 1 at every named axis, and Squeeze with the same axes gives back the input. -/
theorem C26_unsqueeze_squeeze (axes : List Int) (x y : List Nat) (h : unsqueezeShape axes x = .ok y) :
    y.length = x.length + axes.length ∧ elems y = elems x ∧ squeezeShape axes y = x ∧
      ∀ j, j < y.length → (j : Int) ∈ axes ∨ (j : Int) - y.length ∈ axes → y.getD j 0 = 1 := by
  obtain ⟨h1, ⟨rest, h2⟩, h3, h4⟩ := insLoop_ok h
  have hrest : rest = [] := by
    have hl : x.length = (dropAxes (axesNeg2Pos (x.length + axes.length) axes) 0 y).length + rest.length := by
      rw [← List.length_append, ← h2]
    rw [dropAxes_eq, List.length_map, h1] at hl
    have hf := filter_split (fun j => (axesNeg2Pos (x.length + axes.length) axes).contains ((0 + j : Nat) : Int))
      (List.range (x.length + axes.length))
    have hh := hits_le (axesNeg2Pos (x.length + axes.length) axes) (x.length + axes.length)
    have ha : (axesNeg2Pos (x.length + axes.length) axes).length = axes.length := by simp [axesNeg2Pos]
    rw [List.length_range] at hf
    apply List.length_eq_zero_iff.mp
    omega
  rw [hrest, List.append_nil] at h2
  refine ⟨h1, by rw [h3, ← h2], ?_, ?_⟩
  · unfold squeezeShape
    rw [h1]; exact h2.symm
  · intro j hj hm
    apply h4 j (by omega)
    rw [Nat.zero_add, List.contains_iff_mem]
    unfold axesNeg2Pos
    rw [List.mem_map]
    rcases hm with hm | hm
    · exact ⟨j, hm, by rw [if_neg (by omega)]⟩
    · refine ⟨_, hm, ?_⟩
      rw [if_pos (by omega)]
      rw [h1]; omega

/-- **C26, when Unsqueeze returns.** It returns for every list of distinct in-range axes (negative ones counted from the end of the
result). -/
theorem C26_unsqueeze_returns (axes : List Int) (x : List Nat)
    (hr : ∀ a ∈ axes, -((x.length + axes.length : Nat) : Int) ≤ a ∧ a < (x.length + axes.length : Nat))
    (hn : (axes.map (axisOf (x.length + axes.length))).Nodup) : ∃ y, unsqueezeShape axes x = .ok y := by
  apply insLoop_returns
  have hf := filter_split (fun j => (axesNeg2Pos (x.length + axes.length) axes).contains ((0 + j : Nat) : Int))
      (List.range (x.length + axes.length))
  rw [List.length_range] at hf
  have : axes.length ≤ ((List.range (x.length + axes.length)).filter
      (fun j => (axesNeg2Pos (x.length + axes.length) axes).contains ((0 + j : Nat) : Int))).length := by
    have hl : axes.length = (axes.map (axisOf (x.length + axes.length))).length := by simp
    conv => lhs; rw [hl]
    apply OnnxTool.Topsort.nodup_sub_length hn
    intro j hj
    rw [List.mem_filter, List.mem_range]
    refine ⟨?_, ?_⟩
    · obtain ⟨a, ha, rfl⟩ := List.mem_map.mp hj
      exact (normIndex_ok (hr a ha)).2
    · rw [Nat.zero_add, contains_neg2pos (fun a ha => (hr a ha).1)]
      simpa using hj
  omega

/-- **C26, Reduce.** With `keepdims` the named axes become 1 and the others keep their size; without, the named axes are dropped (as in
Squeeze). -/
theorem C26_reduce (axes : List Int) (x : List Nat) (h : ∀ a ∈ axes, -(x.length : Int) ≤ a) :
    (∃ y, reduceShape true (some axes) x = some y ∧ y.length = x.length ∧
      ∀ j, j < x.length → y.getD j 0 = if j ∈ axes.map (axisOf x.length) then 1 else x.getD j 0) ∧
    reduceShape false (some axes) x =
      some (((List.range x.length).filter (fun j => decide (j ∉ axes.map (axisOf x.length)))).map (fun j => x.getD j 0)) := by
  refine ⟨⟨_, rfl, onesAt_length _ _ _, ?_⟩, ?_⟩
  · intro j hj
    simp only [if_true]
    rw [onesAt_getD _ _ _ _ hj, Nat.zero_add, contains_neg2pos h]
    simp
  · have := C26_squeeze axes x h
    unfold squeezeShape at this
    simp only [reduceShape, Bool.false_eq_true, if_false, this]

/-- **C26, finding.** Reduce without axes leaves the output tensor's shape untouched instead of reducing all axes; Squeeze drops a
named axis even if it is not 1. -/
theorem C26_reduce_all_missing : reduceShape true none [2, 3] = none ∧ squeezeShape [0] [5, 3] = [3] := ⟨rfl, rfl⟩

/-- **C26, Gather.** The named axis is replaced by the index shape; everything else keeps its place. -/
theorem C26_gather (axis : Int) (x ids : List Nat) (h : -(x.length : Int) ≤ axis ∧ axis < x.length) :
    gatherShape axis x ids = x.take (axisOf x.length axis) ++ ids ++ x.drop (axisOf x.length axis + 1) := by
  unfold gatherShape
  have hk : (if axis < 0 then (x.length : Int) + axis else axis) = ((axisOf x.length axis : Nat) : Int) := by
    unfold axisOf; split <;> omega
  have hlt : axisOf x.length axis < x.length := by unfold axisOf; split <;> omega
  rw [hk, gatherLoop_eq ids x 0 _ (by omega) (by omega)]
  simp

/-- **C26, OneHot.** The depth is inserted at the named axis of the result; removing it gives back the indices' shape. -/
theorem C26_onehot (axis : Int) (depth : Nat) (x : List Nat)
    (h : -((x.length + 1 : Nat) : Int) ≤ axis ∧ axis < (x.length + 1 : Nat)) :
    (oneHotShape axis depth x).length = x.length + 1 ∧
    (oneHotShape axis depth x).getD (axisOf (x.length + 1) axis) 0 = depth ∧
    (oneHotShape axis depth x).eraseIdx (axisOf (x.length + 1) axis) = x := by
  have hk : oneHotShape axis depth x = x.take (axisOf (x.length + 1) axis) ++ depth :: x.drop (axisOf (x.length + 1) axis) := by
    unfold oneHotShape axisOf
    simp only []
    have : (if (if axis < 0 then ((x.length + 1 : Nat) : Int) + axis else axis) < 0 then
        (max 0 ((if axis < 0 then ((x.length + 1 : Nat) : Int) + axis else axis) + x.length)).toNat
        else min (if axis < 0 then ((x.length + 1 : Nat) : Int) + axis else axis).toNat x.length) =
        (if axis < 0 then ((x.length + 1 : Nat) : Int) + axis else axis).toNat := by
      generalize hg : (if axis < 0 then ((x.length + 1 : Nat) : Int) + axis else axis) = g
      have h1 : 0 ≤ g ∧ g ≤ x.length := by subst hg; split <;> omega
      rw [if_neg (by omega)]; omega
    rw [this]
  have hlt : axisOf (x.length + 1) axis ≤ x.length := by unfold axisOf; split <;> omega
  rw [hk]
  generalize axisOf (x.length + 1) axis = k at *
  have htl : (x.take k).length = k := by simp; omega
  refine ⟨by simp; omega, ?_, ?_⟩
  · rw [List.getD_eq_getElem?_getD, List.getElem?_append_right (by omega), htl]; simp
  · rw [List.eraseIdx_append_of_length_le (by omega), htl]
    simp

private theorem padLoop_ok (r : Nat) (pads : List Nat) : ∀ (x : List Nat) (i : Nat), i + x.length = r → pads.length = 2 * r →
    padLoop (pads.map Int.ofNat) r i x =
      .ok (((List.range x.length).map (fun j => x.getD j 0 + pads.getD (i + j) 0 + pads.getD (i + j + r) 0)).map Int.ofNat) := by
  intro x
  induction x with
  | nil => intro i _ _; rfl
  | cons d x ih =>
    intro i hi hp
    simp only [List.length_cons] at hi
    have hg : ∀ j, j < 2 * r → idx (pads.map Int.ofNat) j = .ok (pads.getD j 0 : Int) := by
      intro j hj
      unfold idx
      rw [List.getElem?_map, List.getElem?_eq_getElem (by omega)]
      simp [List.getD_eq_getElem?_getD, show j < pads.length by omega]
    simp only [padLoop, hg i (by omega), hg (i + r) (by omega), ih (i + 1) (by omega) hp, bind, Except.bind, pure, Except.pure,
      List.length_cons, List.range_succ_eq_map, List.map_cons, List.map_map]
    congr 2
    apply List.map_congr_left
    intro j _
    simp only [Function.comp, Nat.succ_eq_add_one, List.getD_cons_succ]
    rw [show i + (j + 1) = i + 1 + j by omega]

/-- **C26, Pad.** Every dimension grows by its begin and end padding. -/
theorem C26_pad (x pads : List Nat) (hp : pads.length = 2 * x.length) :
    padShape (some (pads.map Int.ofNat)) x =
      .ok (((List.range x.length).map (fun j => x.getD j 0 + pads.getD j 0 + pads.getD (j + x.length) 0)).map Int.ofNat) := by
  have := padLoop_ok x.length pads x 0 (by omega) hp
  simp only [Nat.zero_add] at this
  exact this

/-- **C26, negative axes.** For in-range axes every operator gives the same result for an axis and for its non-negative form. -/
theorem C26_negative_axes (axes : List Int) (axis : Int) (x ids : List Nat) (kd : Bool)
    (h : ∀ a ∈ axes, -(x.length : Int) ≤ a) (hx : -(x.length : Int) ≤ axis ∧ axis < x.length) :
    squeezeShape (axes.map (fun a => (axisOf x.length a : Int))) x = squeezeShape axes x ∧
    reduceShape kd (some (axes.map (fun a => (axisOf x.length a : Int)))) x = reduceShape kd (some axes) x ∧
    gatherShape (axisOf x.length axis : Int) x ids = gatherShape axis x ids := by
  have hnorm : axesNeg2Pos x.length (axes.map (fun a => (axisOf x.length a : Int))) = axesNeg2Pos x.length axes := by
    unfold axesNeg2Pos
    rw [List.map_map]
    apply List.map_congr_left
    intro a ha
    have := h a ha
    simp only [Function.comp, axisOf]
    split <;> split <;> omega
  refine ⟨by unfold squeezeShape; rw [hnorm], by simp only [reduceShape, hnorm], ?_⟩
  have : axisOf x.length (axisOf x.length axis : Int) = axisOf x.length axis := by
    unfold axisOf; split <;> split <;> omega
  rw [C26_gather _ x ids (by unfold axisOf; split <;> omega), C26_gather axis x ids hx, this]

/-- the same for Unsqueeze, whose axes refer to the result -/
theorem C26_negative_axes_unsqueeze (axes : List Int) (x : List Nat) (h : ∀ a ∈ axes, -((x.length + axes.length : Nat) : Int) ≤ a) :
    unsqueezeShape (axes.map (fun a => (axisOf (x.length + axes.length) a : Int))) x = unsqueezeShape axes x := by
  have hnorm : axesNeg2Pos (x.length + axes.length) (axes.map (fun a => (axisOf (x.length + axes.length) a : Int))) =
      axesNeg2Pos (x.length + axes.length) axes := by
    unfold axesNeg2Pos
    rw [List.map_map]
    apply List.map_congr_left
    intro a ha
    have := h a ha
    simp only [Function.comp, axisOf]
    split <;> split <;> omega
  unfold unsqueezeShape
  simp only [List.length_map, hnorm]

example : transposeShape (some [2, 0, 1]) [4, 5, 6] = .ok [6, 4, 5] := rfl
example := C26_transpose_inverse [4, 5, 6] [2, 0, 1] [1, 2, 0] (by decide) rfl
  (by intro j hj; match j, hj with
      | 0, _ => decide
      | 1, _ => decide
      | 2, _ => decide) [6, 4, 5] rfl
example : unsqueezeShape [0, -1] [4, 5] = .ok [1, 4, 5, 1] ∧ squeezeShape [0, -1] [1, 4, 5, 1] = [4, 5] := ⟨rfl, rfl⟩
example := C26_unsqueeze_returns [0, -1] [4, 5] (by decide) (by decide)
example : gatherShape (-2) [4, 5, 6] [7, 8] = [4, 7, 8, 6] := rfl
example : oneHotShape (-1) 9 [4, 5] = [4, 5, 9] := rfl
example : padShape (some [1, 0, 2, 3]) [4, 5] = .ok [7, 8] := rfl

end OnnxTool.Props
