import Verif.Proofs.Axes
/-! # C25: Split and Concat -/
namespace OnnxTool.Props
open OnnxTool OnnxTool.Axes OnnxTool.Slice OnnxTool.Conv

private theorem splitOne_eq : ∀ (k i : Nat) (e v : Int) (d : Nat) (xs : List Nat), i ≤ k →
    xs[k - i]? = some d → splitOne (k : Int) e v i xs = (xs.map Int.ofNat).set (k - i) (if e + v < d then v else d - e) := by
  intro k i e v d xs
  induction xs generalizing i with
  | nil => intro _ h; simp at h
  | cons a xs ih =>
    intro hik h
    simp only [splitOne, List.map_cons]
    by_cases hki : i = k
    · subst hki
      simp only [Nat.sub_self, List.getElem?_cons_zero, Option.some.injEq] at h
      subst h
      simp only [if_true, Nat.sub_self, List.set_cons_zero]
      congr 1
      have : ∀ (j : Nat) (ys : List Nat), i < j → splitOne (i : Int) e v j ys = ys.map Int.ofNat := by
        intro j ys
        induction ys generalizing j with
        | nil => intro _; rfl
        | cons b ys ih2 =>
          intro hj
          simp only [splitOne, List.map_cons, ih2 (j + 1) (by omega)]
          rw [if_neg (by omega)]; rfl
      exact this _ _ (by omega)
    · obtain ⟨m, hm⟩ : ∃ m, k - i = m + 1 := ⟨k - i - 1, by omega⟩
      rw [hm] at h ⊢
      simp only [List.getElem?_cons_succ] at h
      rw [if_neg (by omega), List.set_cons_succ, ih (i + 1) (by omega) (by rw [show k - (i + 1) = m by omega]; exact h),
        show k - (i + 1) = m by omega]
      rfl

private theorem splitLoop_eq (x : List Nat) (k d : Nat) (hk : x[k]? = some d) : ∀ (sp : List Nat) (e : Nat),
    e + sp.sum = d → splitLoop x (k : Int) (e : Int) (sp.map Int.ofNat) = sp.map (fun v => (x.set k v).map Int.ofNat) := by
  intro sp
  induction sp with
  | nil => intro e _; rfl
  | cons v sp ih =>
    intro e hs
    simp only [List.sum_cons] at hs
    simp only [List.map_cons, splitLoop]
    rw [show ((e : Int) + Int.ofNat v) = ((e + v : Nat) : Int) by push_cast; rfl, ih (e + v) (by omega)]
    rw [splitOne_eq k 0 e (Int.ofNat v) d x (by omega) (by simpa using hk)]
    congr 1
    rw [List.map_set]
    congr 1
    split
    · rfl
    · simp only [Int.ofNat_eq_natCast] at *; omega

/-- an in-range axis, and the position it names -/
private theorem axis_pos {r : Nat} {axis : Int} (h : -(r : Int) ≤ axis ∧ axis < r) :
    (if axis < 0 then (r : Int) + axis else axis) = ((axisOf r axis : Nat) : Int) ∧ axisOf r axis < r := by
  unfold axisOf
  split <;> omega

/-- **C25, explicit split.** For every shape, every in-range (possibly negative) axis and every list of non-negative parts adding up to
that dimension, with one output per part: output `j` has the shape of the input with the axis replaced by part `j`. -/
theorem C25_split (x : List Nat) (axis : Int) (parts : List Nat) (h : -(x.length : Int) ≤ axis ∧ axis < x.length)
    (hs : parts.sum = x.getD (axisOf x.length axis) 0) :
    splitShape x (some axis) (some (parts.map Int.ofNat)) parts.length =
      .ok (parts.map (fun v => (x.set (axisOf x.length axis) v).map Int.ofNat)) := by
  obtain ⟨ha, hlt⟩ := axis_pos h
  simp only [splitShape, bind, Except.bind]
  rw [ha]
  have := splitLoop_eq x (axisOf x.length axis) (x.getD (axisOf x.length axis) 0)
    (by simp [List.getD_eq_getElem?_getD, hlt]) parts 0 (by omega)
  rw [show ((0 : Int)) = ((0 : Nat) : Int) from rfl, this]
  simp

/-- **C25, equal split.** Without a split list, `n` outputs of a dimension divisible by `n` are equal parts; they add up to the
dimension. -/
theorem C25_equal_split (x : List Nat) (axis : Int) (n q : Nat) (h : -(x.length : Int) ≤ axis ∧ axis < x.length) (hn : 0 < n)
    (hd : x.getD (axisOf x.length axis) 0 = n * q) :
    splitShape x (some axis) none n = .ok (List.replicate n ((x.set (axisOf x.length axis) q).map Int.ofNat)) := by
  obtain ⟨ha, hlt⟩ := axis_pos h
  have hget : pyGet x axis = .ok (n * q) := by
    have hni : normIndex x.length axis = .ok (axisOf x.length axis) := by
      unfold normIndex axisOf
      by_cases hneg : axis < 0
      · rw [if_neg (by omega), if_pos (by omega), if_pos hneg, Int.add_comm]
      · rw [if_pos (by omega), if_pos (by omega), if_neg hneg]
    simp only [pyGet, hni, bind, Except.bind, pure, Except.pure, hd]
  have hsp := C25_split x axis (List.replicate n q) h (by rw [hd]; simp)
  simp only [splitShape, bind, Except.bind, List.length_replicate, List.map_replicate] at hsp
  simp only [splitShape, bind, Except.bind, hget, defaultSplit, if_neg (show n ≠ 0 by omega), Nat.mul_mod_right, if_true,
    Nat.mul_div_cancel_left q hn]
  exact hsp

/-- **C25, uneven split.** Without a split list and with a dimension not divisible by `n`, all parts but the last are
`dim / n + 1` provided `n - 1` of them fit; the parts then add up to the dimension. -/
theorem C25_uneven_split_partial (x : List Nat) (axis : Int) (n : Nat) (h : -(x.length : Int) ≤ axis ∧ axis < x.length) (hn : 0 < n)
    (hd : x.getD (axisOf x.length axis) 0 % n ≠ 0)
    (hfit : (n - 1) * (x.getD (axisOf x.length axis) 0 / n + 1) ≤ x.getD (axisOf x.length axis) 0) :
    ∃ parts : List Nat, parts.length = n ∧ (parts.sum = x.getD (axisOf x.length axis) 0 ∧ ∀ i, i + 1 < n → parts[i]? = some (x.getD (axisOf x.length axis) 0 / n + 1)) ∧
      splitShape x (some axis) none n = .ok (parts.map (fun v => (x.set (axisOf x.length axis) v).map Int.ofNat)) := by
  obtain ⟨ha, hlt⟩ := axis_pos h
  generalize hD : x.getD (axisOf x.length axis) 0 = D at *
  have hget : pyGet x axis = .ok D := by
    have hni : normIndex x.length axis = .ok (axisOf x.length axis) := by
      unfold normIndex axisOf
      by_cases hneg : axis < 0
      · rw [if_neg (by omega), if_pos (by omega), if_pos hneg, Int.add_comm]
      · rw [if_pos (by omega), if_pos (by omega), if_neg hneg]
    simp only [pyGet, hni, bind, Except.bind, pure, Except.pure, hD]
  have hsum : (List.replicate (n - 1) (D / n + 1) ++ [D - (n - 1) * (D / n + 1)]).sum = D := by
    simp only [List.sum_append, List.sum_replicate_nat, List.sum_cons, List.sum_nil]
    omega
  have hlen : (List.replicate (n - 1) (D / n + 1) ++ [D - (n - 1) * (D / n + 1)]).length = n := by
    simp; omega
  refine ⟨_, hlen, ⟨hsum, fun i hi => ?_⟩, ?_⟩
  · rw [List.getElem?_append_left (by simp; omega), List.getElem?_replicate, if_pos (by omega)]
  have hsp := C25_split x axis (List.replicate (n - 1) (D / n + 1) ++ [D - (n - 1) * (D / n + 1)]) h (by rw [hD, hsum])
  rw [hlen] at hsp
  rw [← hsp]
  simp only [splitShape, bind, Except.bind, hget, defaultSplit, if_neg (show n ≠ 0 by omega), if_neg hd]
  have : List.replicate (n - 1) (((D / n : Nat) : Int) + 1) ++ [((D / n : Nat) : Int) + 1 + ((D : Int) - n * (((D / n : Nat) : Int) + 1))] =
      (List.replicate (n - 1) (D / n + 1) ++ [D - (n - 1) * (D / n + 1)]).map Int.ofNat := by
    simp only [List.map_append, List.map_replicate, List.map_cons, List.map_nil]
    congr 2
    obtain ⟨m, rfl⟩ : ∃ m, n = m + 1 := ⟨n - 1, by omega⟩
    simp only [Nat.add_sub_cancel] at hfit ⊢
    simp only [Int.ofNat_eq_natCast]
    rw [Int.natCast_sub hfit]
    push_cast
    rw [Int.add_mul]
    omega
  rw [this]

private theorem splitLoop_append (x : List Nat) (axis : Int) : ∀ (sp : List Int) (e w : Int),
    splitLoop x axis e (sp ++ [w]) = splitLoop x axis e sp ++ [splitOne axis (e + sp.sum) w 0 x]
  | [], e, w => by simp [splitLoop]
  | v :: sp, e, w => by
    simp only [List.cons_append, splitLoop, splitLoop_append x axis sp (e + v) w, List.sum_cons]
    rw [Int.add_assoc]

private theorem splitLoop_length (x : List Nat) (axis : Int) : ∀ (sp : List Int) (e : Int), (splitLoop x axis e sp).length = sp.length
  | [], e => rfl
  | v :: sp, e => by simp [splitLoop, splitLoop_length x axis sp]

/-- **C25, uneven split, exactly when.** With a dimension not divisible by the number of outputs, the outputs are parts of the dimension (all but the last of the rounded-up
quotient, the last the rest) if and only if the first `n - 1` fit; otherwise the last output has a negative size, so no list of parts is returned. -/
theorem C25_uneven_split_iff (x : List Nat) (axis : Int) (n : Nat) (h : -(x.length : Int) ≤ axis ∧ axis < x.length) (hn : 0 < n)
    (hd : x.getD (axisOf x.length axis) 0 % n ≠ 0) :
    (∃ parts : List Nat, splitShape x (some axis) none n = .ok (parts.map (fun v => (x.set (axisOf x.length axis) v).map Int.ofNat))) ↔
      (n - 1) * (x.getD (axisOf x.length axis) 0 / n + 1) ≤ x.getD (axisOf x.length axis) 0 := by
  constructor
  · rintro ⟨parts, hp⟩
    refine Classical.byContradiction fun hfit => ?_
    obtain ⟨ha, hlt⟩ := axis_pos h
    generalize hD : x.getD (axisOf x.length axis) 0 = D at *
    have hget : pyGet x axis = .ok D := by
      have hni : normIndex x.length axis = .ok (axisOf x.length axis) := by
        unfold normIndex axisOf
        by_cases hneg : axis < 0
        · rw [if_neg (by omega), if_pos (by omega), if_pos hneg, Int.add_comm]
        · rw [if_pos (by omega), if_pos (by omega), if_neg hneg]
      simp only [pyGet, hni, bind, Except.bind, pure, Except.pure, hD]
    simp only [splitShape, bind, Except.bind, hget, defaultSplit, if_neg (show n ≠ 0 by omega), if_neg hd] at hp
    rw [ha, splitLoop_append] at hp
    have hlen : (splitLoop x ((axisOf x.length axis : Nat) : Int) 0 (List.replicate (n - 1) (((D / n : Nat) : Int) + 1)) ++
        [splitOne ((axisOf x.length axis : Nat) : Int) (0 + (List.replicate (n - 1) (((D / n : Nat) : Int) + 1)).sum) (((D / n : Nat) : Int) + 1 + ((D : Int) - n * (((D / n : Nat) : Int) + 1))) 0 x]).length ≤ n := by
      simp [splitLoop_length]; omega
    rw [if_pos hlen] at hp
    injection hp with hp
    have hsum : (List.replicate (n - 1) (((D / n : Nat) : Int) + 1)).sum = ((n - 1 : Nat) : Int) * (((D / n : Nat) : Int) + 1) := by simp
    rw [hsum, splitOne_eq (axisOf x.length axis) 0 _ _ D x (by omega) (by simp only [Nat.sub_zero]; rw [← hD, List.getD_eq_getElem?_getD]; simp [hlt])] at hp
    have hlast := congrArg List.getLast? hp
    rw [List.getLast?_concat] at hlast
    have hm := List.mem_of_getLast? hlast.symm
    obtain ⟨v, -, hv⟩ := List.mem_map.1 hm
    have hk := congrArg (fun l => l[axisOf x.length axis]?) hv
    simp only [Nat.sub_zero] at hk
    rw [List.getElem?_map, List.getElem?_set_self hlt, List.getElem?_set_self (by simpa using hlt)] at hk
    simp only [Option.map_some, Option.some.injEq, Int.ofNat_eq_natCast] at hk
    obtain ⟨m, rfl⟩ : ∃ m, n = m + 1 := ⟨n - 1, by omega⟩
    simp only [Nat.add_sub_cancel] at hfit hk
    have hfit' : (D : Int) < (m : Int) * (((D / (m + 1) : Nat) : Int) + 1) := by exact_mod_cast Nat.lt_of_not_le hfit
    push_cast at hk hfit'
    rw [Int.add_mul] at hk
    split at hk <;> omega
  · intro hfit
    obtain ⟨parts, -, -, h3⟩ := C25_uneven_split_partial x axis n h hn hd hfit
    exact ⟨parts, h3⟩

/-- **C25, finding.** Splitting 5 into 4 outputs gives sizes 2, 2, 1, -1 (sum 4); a Split node without an axis attribute raises. -/
theorem C25_uneven_split_wrong :
    splitShape [5] (some 0) none 4 = .ok [[2], [2], [1], [-1]] ∧ splitShape [4] none none 2 = .error .typeError := ⟨rfl, rfl⟩

private theorem set_set_same {x : List Nat} {k : Nat} (a b : Nat) : (x.set k a).set k b = x.set k b := by simp

private theorem normIndex_axis {r : Nat} {axis : Int} (h : -(r : Int) ≤ axis ∧ axis < r) :
    normIndex r axis = .ok (axisOf r axis) := by
  unfold normIndex axisOf
  by_cases hneg : axis < 0
  · rw [if_neg (by omega), if_pos (by omega), if_pos hneg, Int.add_comm]
  · rw [if_pos (by omega), if_pos (by omega), if_neg hneg]

private theorem concatLoop_eq (axis : Int) : ∀ (ss : List (List Nat)) (s : List Nat), -(s.length : Int) ≤ axis ∧ axis < s.length →
    (∀ t ∈ ss, t.length = s.length) →
    concatLoop axis s ss = .ok (s.set (axisOf s.length axis)
      (s.getD (axisOf s.length axis) 0 + (ss.map (fun t => t.getD (axisOf s.length axis) 0)).sum)) := by
  intro ss
  induction ss with
  | nil =>
    intro s h _
    have hlt := (axis_pos h).2
    simp [concatLoop, List.getD_eq_getElem?_getD, hlt]
  | cons t ss ih =>
    intro s h hl
    have hlt := (axis_pos h).2
    have ht := hl t List.mem_cons_self
    simp only [concatLoop, pyGet, ht, normIndex_axis h, bind, Except.bind, pure, Except.pure]
    rw [ih _ (by simpa using h) (by intro u hu; simpa using hl u (List.mem_cons_of_mem _ hu))]
    simp only [List.length_set, set_set_same, List.map_cons, List.sum_cons]
    congr 2
    rw [List.getD_eq_getElem?_getD, List.getElem?_set_self hlt]
    simp only [Option.getD_some]
    omega

/-- **C25, concatenation.** Concat of shapes of equal rank on an in-range axis: the axis is the sum of the inputs' axes, every other
dimension is that of the first input. -/
theorem C25_concat (axis : Int) (s : List Nat) (ss : List (List Nat)) (h : -(s.length : Int) ≤ axis ∧ axis < s.length)
    (hl : ∀ t ∈ ss, t.length = s.length) :
    concatShape axis (s :: ss) = .ok (s.set (axisOf s.length axis)
      (((s :: ss).map (fun t => t.getD (axisOf s.length axis) 0)).sum)) := by
  simp only [concatShape, List.map_cons, List.sum_cons]
  exact concatLoop_eq axis ss s h hl

/-- **C25, rejoining.** Concatenating the parts of an explicit split on the same axis gives back the original shape. -/
theorem C25_concat_of_split (x : List Nat) (axis : Int) (parts : List Nat) (h : -(x.length : Int) ≤ axis ∧ axis < x.length)
    (hs : parts.sum = x.getD (axisOf x.length axis) 0) (hne : parts ≠ []) :
    ∃ shapes : List (List Nat),
      splitShape x (some axis) (some (parts.map Int.ofNat)) parts.length = .ok (shapes.map (·.map Int.ofNat)) ∧
      concatShape axis shapes = .ok x := by
  refine ⟨parts.map (fun v => x.set (axisOf x.length axis) v), ?_, ?_⟩
  · rw [C25_split x axis parts h hs, List.map_map]; rfl
  · have hlt := (axis_pos h).2
    cases parts with
    | nil => exact absurd rfl hne
    | cons p ps =>
      simp only [List.map_cons]
      rw [C25_concat axis _ _ (by simpa using h) (by
        intro t ht; obtain ⟨v, _, rfl⟩ := List.mem_map.mp ht; simp)]
      simp only [List.length_set, set_set_same, ← List.map_cons (f := fun v => x.set (axisOf x.length axis) v), List.map_map]
      have : ((fun t : List Nat => t.getD (axisOf x.length axis) 0) ∘ fun v => x.set (axisOf x.length axis) v) = id := by
        funext v
        simp [List.getD_eq_getElem?_getD, List.getElem?_set_self hlt]
      rw [this, List.map_id, hs]
      simp [List.getD_eq_getElem?_getD, hlt]

example : splitShape [2, 7] (some (-1)) (some [3, 4, 0]) 3 = .ok [[2, 3], [2, 4], [2, 0]] := rfl
example : concatShape (-1) [[2, 3], [2, 4], [2, 0]] = .ok [2, 7] := rfl
example := C25_concat_of_split [2, 7] (-1) [3, 4, 0] (by decide) (by decide) (by decide)
example := C25_uneven_split_partial [2, 7] 1 3 (by decide) (by decide) (by decide) (by decide)

end OnnxTool.Props
