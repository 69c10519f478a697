import Verif.Proofs.Slice
/-! # C23: Slice shape inference -/
namespace OnnxTool.Props
open OnnxTool OnnxTool.Slice OnnxTool.Conv

/-- **C23.** For every shape and every `starts`, `ends`, `axes`, `steps` of equal length with distinct in-range (possibly negative)
axes and non-zero steps (a negative step on a non-empty axis), shape inference returns; axes that are not named keep their size, and
the size of each named axis is the number of indices the slice selects on it. -/
theorem C23_slice (inshape : List Nat) (starts ends axes steps : List Int)
    (h1 : axes.length = starts.length) (h2 : axes.length = ends.length) (h3 : axes.length = steps.length)
    (hr : ∀ a ∈ axes, -(inshape.length : Int) ≤ a ∧ a < inshape.length)
    (hn : (axes.map (axisOf inshape.length)).Nodup)
    (hst : ∀ j, j < axes.length → steps.getD j 0 ≠ 0 ∧
      (0 < inshape.getD (axisOf inshape.length (axes.getD j 0)) 0 ∨ 0 < steps.getD j 0)) :
    ∃ out, sliceShape inshape starts ends (some axes) (some steps) = .ok out ∧ out.length = inshape.length ∧
      (∀ k, k < inshape.length → k ∉ axes.map (axisOf inshape.length) → out.getD k 0 = inshape.getD k 0) ∧
      (∀ j, j < axes.length →
        CountSelected (inshape.getD (axisOf inshape.length (axes.getD j 0)) 0) (starts.getD j 0) (ends.getD j 0) (steps.getD j 0)
          (out.getD (axisOf inshape.length (axes.getD j 0)) 0)) := by
  obtain ⟨eff, e1, e2, e3, e4⟩ := effLoop_ok (inshape := inshape) (starts := starts) (ends := ends) (steps := steps) axes 0
    (inshape.map (fun d : Nat => ((0 : Int), (d : Int), (1 : Int)))) (by omega) (by omega) (by omega) (by simp) hr hn
  simp only [List.length_map] at e2
  -- every axis has a size
  have hall : ∀ k, k < inshape.length → ∃ t v, eff[k]? = some t ∧ axisSize t = .ok v := by
    intro k hk
    by_cases hm : k ∈ axes.map (axisOf inshape.length)
    · obtain ⟨a, ha, rfl⟩ := List.mem_map.mp hm
      obtain ⟨j, hj, rfl⟩ := List.getElem_of_mem ha
      have := e4 j hj
      rw [show axes.getD j 0 = axes[j] by simp [List.getD_eq_getElem?_getD, hj]] at this
      obtain ⟨n, hn1, _⟩ := axisSize_count (dim := inshape.getD (axisOf inshape.length axes[j]) 0) (s := starts.getD (0 + j) 0)
        (e := ends.getD (0 + j) 0) (st := steps.getD (0 + j) 0) (by simpa using (hst j hj).1)
        (by have := (hst j hj).2; rw [show axes.getD j 0 = axes[j] by simp [List.getD_eq_getElem?_getD, hj]] at this; simpa using this)
      exact ⟨_, n, this, hn1⟩
    · refine ⟨_, inshape[k], ?_, axisSize_full _⟩
      rw [e3 k hm]
      simp [hk]
  have hsz : ∃ out, sizes eff = .ok out := by
    have : ∀ ts : List (Int × Int × Int), (∀ t ∈ ts, ∃ v, axisSize t = .ok v) → ∃ out, sizes ts = .ok out := by
      intro ts
      induction ts with
      | nil => intro _; exact ⟨[], rfl⟩
      | cons t ts ih =>
        intro h
        obtain ⟨v, hv⟩ := h t List.mem_cons_self
        obtain ⟨vs, hvs⟩ := ih (fun t' ht' => h t' (List.mem_cons_of_mem _ ht'))
        exact ⟨v :: vs, by simp only [sizes, hv, hvs, bind, Except.bind, pure, Except.pure]⟩
    apply this
    intro t ht
    obtain ⟨k, hk, rfl⟩ := List.getElem_of_mem ht
    obtain ⟨t', v, ht', hv⟩ := hall k (by omega)
    rw [List.getElem?_eq_getElem hk] at ht'
    injection ht' with ht'
    exact ⟨v, ht' ▸ hv⟩
  obtain ⟨out, hout⟩ := hsz
  obtain ⟨hl, hv⟩ := sizes_length hout
  refine ⟨out, ?_, by omega, ?_, ?_⟩
  · simp only [sliceShape, Option.getD_some, bind, Except.bind]
    rw [e1]
    exact hout
  · intro k hk hm
    have h0 := e3 k hm
    rw [show (inshape.map (fun d : Nat => ((0 : Int), (d : Int), (1 : Int))))[k]? = some ((0 : Int), (inshape[k] : Int), (1 : Int)) by
      simp [hk]] at h0
    obtain ⟨v, hv1, hv2⟩ := hv k _ h0
    rw [axisSize_full] at hv2
    injection hv2 with hv2
    simp [List.getD_eq_getElem?_getD, hv1, ← hv2, hk]
  · intro j hj
    obtain ⟨v, hv1, hv2⟩ := hv _ _ (e4 j hj)
    obtain ⟨n, hn1, hn2⟩ := axisSize_count (dim := inshape.getD (axisOf inshape.length (axes.getD j 0)) 0) (s := starts.getD (0 + j) 0)
        (e := ends.getD (0 + j) 0) (st := steps.getD (0 + j) 0) (by simpa using (hst j hj).1) (by simpa using (hst j hj).2)
    rw [hn1] at hv2
    injection hv2 with hv2
    subst hv2
    have hg : out.getD (axisOf inshape.length (axes.getD j 0)) 0 = n := by rw [List.getD_eq_getElem?_getD, hv1]; rfl
    rw [hg]
    simpa using hn2

/-- Omitted axes mean all axes in order, omitted steps mean 1. -/
theorem C23_defaults (inshape : List Nat) (starts ends : List Int) (axes steps : Option (List Int)) :
    sliceShape inshape starts ends axes steps =
    sliceShape inshape starts ends (some (axes.getD ((List.range inshape.length).map Int.ofNat)))
      (some (steps.getD (List.replicate starts.length 1))) := rfl

private theorem valueLoop_ok {inshape : List Nat} {starts ends steps : List Int} :
    ∀ (axes : List Int) (i : Nat) (x : List Nat), i + axes.length ≤ starts.length → i + axes.length ≤ ends.length →
    i + axes.length ≤ steps.length → x.length = inshape.length →
    (∀ a ∈ axes, 0 ≤ a ∧ a < inshape.length ∧ a ≤ 4 ∧ x.getD a.toNat 0 = inshape.getD a.toNat 0) →
    (axes.map (axisOf inshape.length)).Nodup →
    (∀ j, j < axes.length → steps.getD (i + j) 0 ≠ 0 ∧
      (0 < steps.getD (i + j) 0 ∨ (0 < inshape.getD (axes.getD j 0).toNat 0 ∧
        -(inshape.getD (axes.getD j 0).toNat 0 : Int) ≤ starts.getD (i + j) 0))) →
    ∃ x', valueLoop starts ends steps i axes x = .ok x' ∧ x'.length = x.length ∧
      (∀ k, k ∉ axes.map (axisOf inshape.length) → x'[k]? = x[k]?) ∧
      (∀ j, j < axes.length → ∃ v, x'[axisOf inshape.length (axes.getD j 0)]? = some v ∧
        axisSize (effOf (inshape.getD (axisOf inshape.length (axes.getD j 0)) 0) (starts.getD (i + j) 0) (ends.getD (i + j) 0)
          (steps.getD (i + j) 0)) = .ok v) := by
  intro axes
  induction axes with
  | nil => intro i x _ _ _ _ _ _ _; exact ⟨x, rfl, rfl, fun _ _ => rfl, fun j hj => by simp at hj⟩
  | cons a as ih =>
    intro i x h1 h2 h3 hl hr hn hst
    simp only [List.length_cons] at h1 h2 h3
    simp only [List.map_cons, List.nodup_cons] at hn
    obtain ⟨ha0, halt, ha4, hax⟩ := hr a List.mem_cons_self
    have hao : axisOf inshape.length a = a.toNat := by unfold axisOf; rw [if_neg (by omega)]
    have hs0 := hst 0 (by simp)
    simp only [Nat.add_zero, List.getD_cons_zero] at hs0
    have hpy := pySliceLen_eq (dim := inshape.getD a.toNat 0) (s := starts.getD i 0) (e := ends.getD i 0) (st := steps.getD i 0) hs0.1 hs0.2
    obtain ⟨n, hn1, _⟩ := axisSize_count (dim := inshape.getD a.toNat 0) (s := starts.getD i 0) (e := ends.getD i 0)
      (st := steps.getD i 0) hs0.1 (by rcases hs0.2 with h | h; exact Or.inr h; exact Or.inl h.1)
    obtain ⟨x', e1, e2, e3, e4⟩ := ih (i + 1) (x.set a.toNat n) (by omega) (by omega) (by omega) (by simpa using hl)
      (by
        intro b hb
        obtain ⟨hb0, hblt, hb4, hbx⟩ := hr b (List.mem_cons_of_mem _ hb)
        refine ⟨hb0, hblt, hb4, ?_⟩
        have hne : a.toNat ≠ b.toNat := by
          intro h
          apply hn.1
          rw [hao, h]
          refine List.mem_map.mpr ⟨b, hb, ?_⟩
          unfold axisOf; rw [if_neg (by omega)]
        rw [List.getD_eq_getElem?_getD, List.getElem?_set_ne hne, ← List.getD_eq_getElem?_getD, hbx])
      hn.2
      (by
        intro j hj
        have := hst (j + 1) (by simpa using hj)
        simp only [List.getD_cons_succ] at this
        rw [show i + (j + 1) = i + 1 + j by omega] at this
        exact this)
    refine ⟨x', ?_, by simpa using e2, ?_, ?_⟩
    · simp only [valueLoop, ha0, ha4, and_self, if_true, idx_ok (show i < starts.length by omega),
        idx_ok (show i < ends.length by omega), idx_ok (show i < steps.length by omega), bind, Except.bind]
      rw [if_pos (by omega), hax, hpy, hn1]
      exact e1
    · intro k hk
      simp only [List.map_cons, List.mem_cons, not_or, hao] at hk
      rw [e3 k hk.2, List.getElem?_set_ne (fun h => hk.1 h.symm)]
    · intro j hj
      cases j with
      | zero =>
        simp only [List.getD_cons_zero, Nat.add_zero]
        refine ⟨n, ?_, by rw [hao]; exact hn1⟩
        rw [e3 _ hn.1, hao, List.getElem?_set_self (by omega)]
      | succ j =>
        simp only [List.getD_cons_succ]
        have := e4 j (by simpa using hj)
        rw [show i + 1 + j = i + (j + 1) by omega] at this
        exact this

/-- **C23, agreement with the value.** When the axes are given as distinct non-negative inputs up to 4, the steps are non-zero, and
no negative step starts before the beginning of its axis, the shape of the value computed by `value_infer` is the inferred shape. -/
theorem C23_value_agrees_partial (inshape : List Nat) (starts ends axes : List Int) (steps : Option (List Int))
    (h1 : axes.length = starts.length) (h2 : axes.length = ends.length) (h3 : ∀ l, steps = some l → axes.length = l.length)
    (hr : ∀ a ∈ axes, 0 ≤ a ∧ a < inshape.length ∧ a ≤ 4) (hn : axes.Nodup)
    (hst : ∀ l, steps = some l → ∀ j, j < axes.length → l.getD j 0 ≠ 0 ∧
      (0 < l.getD j 0 ∨ (0 < inshape.getD (axes.getD j 0).toNat 0 ∧
        -(inshape.getD (axes.getD j 0).toNat 0 : Int) ≤ starts.getD j 0))) :
    ∃ out, valueShape inshape starts ends axes steps = .ok out ∧ sliceShape inshape starts ends (some axes) steps = .ok out := by
  generalize hst' : steps.getD (List.replicate starts.length 1) = sts
  have hlen : axes.length = sts.length := by
    cases steps with
    | none => rw [← hst']; simp [h1]
    | some l => rw [← hst']; exact h3 l rfl
  have hsts : ∀ j, j < axes.length → sts.getD j 0 ≠ 0 ∧ (0 < sts.getD j 0 ∨ (0 < inshape.getD (axes.getD j 0).toNat 0 ∧
        -(inshape.getD (axes.getD j 0).toNat 0 : Int) ≤ starts.getD j 0)) := by
    intro j hj
    cases steps with
    | none =>
      rw [← hst']
      simp only [Option.getD_none]
      rw [List.getD_eq_getElem?_getD, List.getElem?_replicate, if_pos (by omega)]
      exact ⟨by simp, Or.inl (by simp)⟩
    | some l => rw [← hst']; exact hst l rfl j hj
  have hao : ∀ a ∈ axes, axisOf inshape.length a = a.toNat := by
    intro a ha; have := hr a ha; unfold axisOf; rw [if_neg (by omega)]
  have hnm : (axes.map (axisOf inshape.length)).Nodup := by
    rw [List.nodup_iff_pairwise_ne, List.pairwise_map]
    refine List.Pairwise.imp_of_mem ?_ hn
    intro a b ha hb hab h
    rw [hao a ha, hao b hb] at h
    have := hr a ha
    have := hr b hb
    omega
  obtain ⟨x, e1, e2, e3, e4⟩ := valueLoop_ok (inshape := inshape) (starts := starts) (ends := ends) (steps := sts) axes 0 inshape
    (by omega) (by omega) (by omega) rfl (fun a ha => ⟨(hr a ha).1, (hr a ha).2.1, (hr a ha).2.2, rfl⟩) hnm
    (fun j hj => by simpa using hsts j hj)
  obtain ⟨eff, f1, f2, f3, f4⟩ := effLoop_ok (inshape := inshape) (starts := starts) (ends := ends) (steps := sts) axes 0
    (inshape.map (fun d : Nat => ((0 : Int), (d : Int), (1 : Int)))) (by omega) (by omega) (by omega) (by simp)
    (fun a ha => by have := hr a ha; omega) hnm
  refine ⟨x, ?_, ?_⟩
  · unfold valueShape; rw [hst']; exact e1
  · simp only [sliceShape, Option.getD_some, bind, Except.bind]
    rw [hst', f1]
    apply sizes_ok
    · simp only [List.length_map] at f2; omega
    · intro k t hk
      by_cases hm : k ∈ axes.map (axisOf inshape.length)
      · obtain ⟨a, ha, rfl⟩ := List.mem_map.mp hm
        obtain ⟨j, hj, rfl⟩ := List.getElem_of_mem ha
        have g1 := e4 j hj
        have g2 := f4 j hj
        rw [show axes.getD j 0 = axes[j] by simp [List.getD_eq_getElem?_getD, hj]] at g1 g2
        rw [hk] at g2
        injection g2 with g2
        subst g2
        exact g1
      · rw [f3 k hm] at hk
        rw [e3 k hm]
        simp only [List.getElem?_map, Option.map_eq_some_iff] at hk
        obtain ⟨d, hd, rfl⟩ := hk
        exact ⟨d, hd, axisSize_full d⟩

/-- **C23, finding.** A negative step whose start lies before the beginning of the axis: shape inference (following the ONNX text)
says one element, the computed value (numpy) has none; an empty axis sliced backwards is inferred to have one element. -/
theorem C23_backward_wrong :
    sliceShape [4] [-9] [-9] (some [0]) (some [-1]) = .ok [1] ∧ valueShape [4] [-9] [-9] [0] (some [-1]) = .ok [0] ∧
    sliceShape [0] [-1] [-9] (some [0]) (some [-1]) = .ok [1] ∧ valueShape [0] [-1] [-9] [0] (some [-1]) = .ok [0] :=
  ⟨rfl, rfl, rfl, rfl⟩

/-- **C23, finding.** The computed value ignores negative axes, and with three inputs slices only the first axis. -/
theorem C23_value_ignores_axes :
    sliceShape [4, 6] [1] [3] (some [-1]) none = .ok [4, 2] ∧ valueShape [4, 6] [1] [3] [-1] none = .ok [4, 6] ∧
    sliceShape [4, 6] [1, 1] [3, 3] none none = .ok [2, 2] ∧ valueShape3 [4, 6] [1, 1] [3, 3] = .ok [2, 6] :=
  ⟨rfl, rfl, rfl, rfl⟩

/-- The hypotheses of the theorems above on a non-trivial case, and the sizes they give. -/
example : ∃ out, sliceShape [10, 20, 30] [-8, 25] [9, 2] (some [0, -1]) (some [2, -3]) = .ok out ∧ out = [4, 20, 8] := ⟨_, rfl, rfl⟩

example := C23_slice [10, 20, 30] [-8, 25] [9, 2] [0, -1] [2, -3] rfl rfl rfl (by decide) (by decide)
  (by intro j hj; match j, hj with
      | 0, _ => exact ⟨by decide, Or.inl (by decide)⟩
      | 1, _ => exact ⟨by decide, Or.inl (by decide)⟩)

end OnnxTool.Props
