import Verif.Model.KernelsCut
import Verif.Spec.KernelsCut
import Verif.Proofs.Torch
import Verif.Proofs.Kernels
import Verif.Proofs.Slice
/-!
# Kernels that cut and join tensors
-/
namespace OnnxTool.Kernels
open OnnxTool OnnxTool.Torch OnnxTool.Slice

variable {V : Type}

/-! ### Slice -/

theorem normIndex_axis {r : Nat} {a : Int} (h : -(r : Int) ≤ a ∧ a < r) : normIndex r a = .ok (axisOf r a) ∧ axisOf r a < r := by
  unfold normIndex axisOf
  by_cases ha : 0 ≤ a
  · rw [if_pos ha, if_pos h.2, if_neg (by omega)]
    exact ⟨rfl, by omega⟩
  · rw [if_neg ha, if_pos h.1, if_pos (by omega), Int.add_comm]
    exact ⟨rfl, by omega⟩

theorem slicesLoop_ok {shape : List Nat} {starts ends steps : List Int} : ∀ (axes : List Int) (i : Nat) (l : List (Int × Int × Int)),
    i + axes.length ≤ starts.length → i + axes.length ≤ ends.length → i + axes.length ≤ steps.length → l.length = shape.length →
    (∀ a ∈ axes, -(shape.length : Int) ≤ a ∧ a < shape.length) → (axes.map (axisOf shape.length)).Nodup →
    ∃ l', slicesLoop shape starts ends steps i axes l = .ok l' ∧ l'.length = l.length ∧
      (∀ k, k ∉ axes.map (axisOf shape.length) → l'[k]? = l[k]?) ∧
      (∀ j, j < axes.length → l'[axisOf shape.length (axes.getD j 0)]? =
        some (starts.getD (i + j) 0, ends.getD (i + j) 0, steps.getD (i + j) 0)) := by
  intro axes
  induction axes with
  | nil => intro i l _ _ _ _ _ _; exact ⟨l, rfl, rfl, fun _ _ => rfl, fun j hj => by simp at hj⟩
  | cons a as ih =>
    intro i l h1 h2 h3 hl hr hn
    simp only [List.length_cons] at h1 h2 h3
    simp only [List.map_cons, List.nodup_cons] at hn
    obtain ⟨hk, hlt⟩ := normIndex_axis (hr a List.mem_cons_self)
    obtain ⟨l', e1, e2, e3, e4⟩ := ih (i + 1)
      (l.set (axisOf shape.length a) (starts.getD i 0, ends.getD i 0, steps.getD i 0))
      (by omega) (by omega) (by omega) (by simpa using hl) (fun b hb => hr b (List.mem_cons_of_mem _ hb)) hn.2
    have g : ∀ (xs : List Int) (d : Int), i < xs.length → (xs[i]?).getD d = xs.getD i 0 := by
      intro xs d h
      rw [List.getElem?_eq_getElem h, Option.getD_some, List.getD_eq_getElem _ _ h]
    refine ⟨l', ?_, by simpa using e2, ?_, ?_⟩
    · simp only [slicesLoop, hk]
      rw [g starts _ (by omega), g ends _ (by omega), g steps _ (by omega)]
      exact e1
    · intro k hk'
      simp only [List.map_cons, List.mem_cons, not_or] at hk'
      rw [e3 k hk'.2, List.getElem?_set_ne (fun h => hk'.1 h.symm)]
    · intro j hj
      cases j with
      | zero =>
        simp only [List.getD_cons_zero, Nat.add_zero]
        rw [e3 _ hn.1, List.getElem?_set_self (by omega)]
      | succ j =>
        simp only [List.getD_cons_succ]
        rw [e4 j (by simpa using hj), show i + 1 + j = i + (j + 1) from by omega]

theorem sliceSize_count {d : Nat} {s e st : Int} (h : 0 < st) : ∃ n, sliceSize d (s, e, st) = .ok n ∧ CountSelected d s e st n := by
  obtain ⟨n, hn, hc⟩ := axisSize_count (dim := d) (s := s) (e := e) (st := st) (by omega) (Or.inr h)
  refine ⟨n, ?_, hc⟩
  unfold sliceSize
  rw [if_neg (by simp only; omega), pySliceLen_eq (by omega) (Or.inl h)]
  exact hn

theorem sliceFirst_eq {d : Nat} {s st : Int} (h : 0 < st) : sliceFirst d s = firstPos d s st := by
  unfold sliceFirst firstPos fromEnd
  simp only [show ¬ st < 0 from by omega, if_false]
  split <;> split <;> (try split) <;> omega

/-- the elements that lie in the slice are in the axis -/
theorem slice_in {d n i : Nat} {s e st : Int} (h : 0 < st) (hc : CountSelected d s e st n) (hi : i < n) :
    0 ≤ firstPos d s st + i * st ∧ firstPos d s st + i * st < d := by
  have hf : 0 ≤ firstPos d s st := by unfold firstPos; omega
  refine ⟨by have : 0 ≤ (i : Int) * st := Int.mul_nonneg (by omega) (by omega); omega, ?_⟩
  -- the selected indices are at least `first`, in steps; if `first + i*st ≥ d` there would be at most `i` of them
  obtain ⟨l, hnd, hlen, hm⟩ := hc
  by_contra hcon
  have hsub : l ⊆ (List.range i).map fun j : Nat => (firstPos d s st + (j : Int) * st).toNat := by
    intro a ha
    obtain ⟨had, ⟨j, hj⟩, _⟩ := (hm a).1 ha
    refine List.mem_map.2 ⟨j, List.mem_range.2 ?_, by rw [← hj]; rfl⟩
    by_contra hji
    have : (i : Int) * st ≤ (j : Int) * st := Int.mul_le_mul_of_nonneg_right (by omega) (by omega)
    omega
  have := (List.Subperm.length_le (List.subperm_of_subset hnd hsub))
  rw [List.length_map, List.length_range] at this
  omega

theorem sliceSizes_ok : ∀ (s : List Nat) (l : List (Int × Int × Int)) (os : List Nat), l.length = s.length → os.length = s.length →
    (∀ (k : Nat) p, k < s.length → l[k]? = some p → sliceSize (s.getD k 0) p = .ok (os.getD k 0)) → sliceSizes s l = .ok os := by
  intro s
  induction s with
  | nil =>
    intro l os h1 h2 _
    cases l with
    | nil => cases os with
      | nil => rfl
      | cons _ _ => simp at h2
    | cons _ _ => simp at h1
  | cons d s ih =>
    intro l os h1 h2 h
    cases l with
    | nil => simp at h1
    | cons p l => cases os with
      | nil => simp at h2
      | cons o os =>
        have h0 := h 0 p (by simp) rfl
        simp only [List.getD_cons_zero] at h0
        have := ih l os (by simpa using h1) (by simpa using h2) fun k q hk hq => by
          have := h (k + 1) q (by simpa using hk) (by simpa using hq)
          simpa using this
        simp only [sliceSizes, h0, this]

theorem sliceSrc_getD : ∀ (s : List Nat) (l : List (Int × Int × Int)) (idx : List Nat), l.length = s.length → idx.length = s.length →
    (sliceSrc s l idx).length = s.length ∧ ∀ (k : Nat) p, l[k]? = some p →
      (sliceSrc s l idx).getD k 0 = (sliceFirst (s.getD k 0) p.1 + idx.getD k 0 * p.2.2).toNat := by
  intro s
  induction s with
  | nil =>
    intro l idx h1 h2
    cases l with
    | nil => exact ⟨by simp [sliceSrc], fun k p h => by simp at h⟩
    | cons _ _ => simp at h1
  | cons d s ih =>
    intro l idx h1 h2
    cases l with
    | nil => simp at h1
    | cons p l => cases idx with
      | nil => simp at h2
      | cons i idx =>
        obtain ⟨e1, e2⟩ := ih l idx (by simpa using h1) (by simpa using h2)
        refine ⟨by simp [sliceSrc, e1], fun k q hq => ?_⟩
        cases k with
        | zero => simp at hq; subst hq; simp [sliceSrc]
        | succ k =>
          simp only [sliceSrc, List.getD_cons_succ]
          exact e2 k q (by simpa using hq)

theorem ext_getD {a b : List Nat} (h : a.length = b.length) (hk : ∀ k, k < a.length → a.getD k 0 = b.getD k 0) : a = b := by
  refine List.ext_getElem h fun k h1 h2 => ?_
  have := hk k h1
  rwa [List.getD_eq_getElem _ _ h1, List.getD_eq_getElem _ _ h2] at this

theorem slice_ok (starts ends axes steps : List Int) (x : Tensor V) (os : List Nat)
    (h1 : axes.length = starts.length) (h2 : axes.length = ends.length) (h3 : axes.length = steps.length)
    (hr : ∀ a ∈ axes, -(x.shape.length : Int) ≤ a ∧ a < x.shape.length) (hn : (axes.map (axisOf x.shape.length)).Nodup)
    (hst : ∀ st ∈ steps, 0 < st) (hos : IsSliceShape starts ends axes steps x.shape os) :
    ∃ y, sliceKernel starts ends (some axes) (some steps) x os = .ok y ∧ IsSlice starts ends axes steps x y := by
  obtain ⟨l, e1, e2, e3, e4⟩ := slicesLoop_ok (shape := x.shape) (starts := starts) (ends := ends) (steps := steps) axes 0
    (x.shape.map fun d : Nat => ((0 : Int), (d : Int), (1 : Int))) (by omega) (by omega) (by omega) (by simp) hr hn
  simp only [List.length_map] at e2
  simp only [Nat.zero_add] at e4
  -- what is at position k
  have hpos : ∀ k, k < x.shape.length →
      (k ∉ axes.map (axisOf x.shape.length) ∧ l[k]? = some ((0 : Int), (x.shape.getD k 0 : Int), (1 : Int))) ∨
      (∃ j, j < axes.length ∧ axisOf x.shape.length (axes.getD j 0) = k ∧ 0 < steps.getD j 0 ∧
        l[k]? = some (starts.getD j 0, ends.getD j 0, steps.getD j 0)) := by
    intro k hk
    by_cases hm : k ∈ axes.map (axisOf x.shape.length)
    · right
      obtain ⟨a, ha, rfl⟩ := List.mem_map.mp hm
      obtain ⟨j, hj, rfl⟩ := List.getElem_of_mem ha
      have hg : axes.getD j 0 = axes[j] := List.getD_eq_getElem _ _ hj
      refine ⟨j, hj, by rw [hg], ?_, by rw [← hg]; exact e4 j hj⟩
      rw [List.getD_eq_getElem _ _ (by omega)]
      exact hst _ (List.getElem_mem _)
    · left
      refine ⟨hm, ?_⟩
      rw [e3 k hm, List.getElem?_map, List.getElem?_eq_getElem hk, Option.map_some, List.getD_eq_getElem _ _ hk]
  have hfull : ∀ d : Nat, sliceSize d ((0 : Int), (d : Int), (1 : Int)) = .ok d := by
    intro d
    unfold sliceSize
    rw [if_neg (by simp), pySliceLen_eq (by simp) (Or.inl (by simp))]
    have : effOf d 0 d 1 = ((0 : Int), (d : Int), (1 : Int)) := by
      simp only [effOf, show ¬ ((d : Int) < 0) from by omega, if_false]
      simp
    simp only [this]
    exact axisSize_full d
  have hsizes : sliceSizes x.shape l = .ok os := by
    refine sliceSizes_ok _ _ _ e2 hos.rank fun k p hk hp => ?_
    rcases hpos k hk with ⟨hm, hl⟩ | ⟨j, hj, hjk, hs, hl⟩
    · rw [hl] at hp
      injection hp with hp
      rw [← hp, hfull, hos.other k hk hm]
    · rw [hl] at hp
      injection hp with hp
      obtain ⟨n, hn1, hn2⟩ := sliceSize_count (d := x.shape.getD k 0) (s := starts.getD j 0) (e := ends.getD j 0) hs
      have hc := hos.named j hj
      rw [hjk] at hc
      rw [← hp, hn1, countSelected_unique hn2 hc]
  unfold sliceKernel
  simp only [Option.getD_some, e1, slice, hsizes]
  obtain ⟨y, hy, hsame⟩ := copyTo_same (os := os) (⟨os, fun idx => x.at (sliceSrc x.shape l idx)⟩ : Tensor V) rfl
  have hys : y.shape = os := hsame.1
  -- the source index
  have hsrc : ∀ idx, InB os idx → InB x.shape (sliceSrc x.shape l idx) ∧
      (∀ j, j < axes.length → ((sliceSrc x.shape l idx).getD (axisOf x.shape.length (axes.getD j 0)) 0 : Int) =
        firstPos (x.shape.getD (axisOf x.shape.length (axes.getD j 0)) 0) (starts.getD j 0) (steps.getD j 0) +
        idx.getD (axisOf x.shape.length (axes.getD j 0)) 0 * steps.getD j 0) ∧
      (∀ k, k < x.shape.length → k ∉ axes.map (axisOf x.shape.length) → (sliceSrc x.shape l idx).getD k 0 = idx.getD k 0) := by
    intro idx hi
    have hil : idx.length = x.shape.length := (inb_length hi).trans hos.rank
    obtain ⟨g1, g2⟩ := sliceSrc_getD x.shape l idx e2 hil
    have hidx := fun k hk => (inb_iff.1 hi).2 k hk
    have hnamed : ∀ j, j < axes.length → ((sliceSrc x.shape l idx).getD (axisOf x.shape.length (axes.getD j 0)) 0 : Int) =
        firstPos (x.shape.getD (axisOf x.shape.length (axes.getD j 0)) 0) (starts.getD j 0) (steps.getD j 0) +
        idx.getD (axisOf x.shape.length (axes.getD j 0)) 0 * steps.getD j 0 ∧
        (sliceSrc x.shape l idx).getD (axisOf x.shape.length (axes.getD j 0)) 0 < x.shape.getD (axisOf x.shape.length (axes.getD j 0)) 0 := by
      intro j hj
      have hs : 0 < steps.getD j 0 := by
        rw [List.getD_eq_getElem _ _ (by omega)]
        exact hst _ (List.getElem_mem _)
      have hkr : axisOf x.shape.length (axes.getD j 0) < x.shape.length := by
        rw [List.getD_eq_getElem _ _ hj]
        exact (normIndex_axis (hr _ (List.getElem_mem _))).2
      have hin := slice_in hs (hos.named j hj) (hidx _ (by rw [hos.rank]; exact hkr))
      have := g2 _ _ (e4 j hj)
      simp only [sliceFirst_eq (d := x.shape.getD (axisOf x.shape.length (axes.getD j 0)) 0) (s := starts.getD j 0) hs] at this
      rw [this]
      constructor <;> omega
    have hother : ∀ k, k < x.shape.length → k ∉ axes.map (axisOf x.shape.length) → (sliceSrc x.shape l idx).getD k 0 = idx.getD k 0 := by
      intro k hk hm
      rcases hpos k hk with ⟨_, hl⟩ | ⟨j, hj, hjk, _, _⟩
      · have := g2 _ _ hl
        have hlt := hidx k (by rw [hos.rank]; exact hk)
        rw [hos.other k hk hm] at hlt
        rw [this]
        have : sliceFirst (x.shape.getD k 0) 0 = 0 := by
          unfold sliceFirst
          simp only [Int.lt_irrefl, if_false]
          split <;> omega
        simp only [this]
        omega
      · refine absurd (List.mem_map.2 ⟨axes.getD j 0, ?_, hjk⟩) hm
        rw [List.getD_eq_getElem _ _ hj]
        exact List.getElem_mem _
    refine ⟨inb_iff.2 ⟨g1, fun k hk => ?_⟩, fun j hj => (hnamed j hj).1, hother⟩
    rcases hpos k hk with ⟨hm, _⟩ | ⟨j, hj, hjk, _, _⟩
    · rw [hother k hk hm]
      have hlt := hidx k (by rw [hos.rank]; exact hk)
      rwa [hos.other k hk hm] at hlt
    · rw [← hjk]; exact (hnamed j hj).2
  refine ⟨y, hy, ⟨by rw [hys]; exact hos, fun idx src hi hs hnm hot => ?_, fun idx hi => ?_⟩⟩
  · rw [hsame.2 idx hi]
    rw [hys] at hi
    obtain ⟨q1, q2, q3⟩ := hsrc idx hi
    show x.at (sliceSrc x.shape l idx) = x.at src
    congr 1
    refine ext_getD ((inb_length q1).trans (inb_length hs).symm) fun k hk => ?_
    rw [inb_length q1] at hk
    rcases hpos k hk with ⟨hm, _⟩ | ⟨j, hj, hjk, _, _⟩
    · rw [q3 k hk hm, hot k hk hm]
    · have a := q2 j hj
      have b := hnm j hj
      rw [hjk] at a b
      omega
  · rw [hys] at hi
    exact ⟨_, hsrc idx hi⟩

/-- a step that is not positive raises -/
theorem slice_negative (starts ends axes steps : List Int) (x : Tensor V) (os : List Nat)
    (h1 : axes.length = starts.length) (h2 : axes.length = ends.length) (h3 : axes.length = steps.length)
    (hr : ∀ a ∈ axes, -(x.shape.length : Int) ≤ a ∧ a < x.shape.length) (hn : (axes.map (axisOf x.shape.length)).Nodup)
    (hst : ∃ st ∈ steps, st ≤ 0) : ∀ y, sliceKernel starts ends (some axes) (some steps) x os ≠ .ok y := by
  obtain ⟨l, e1, e2, e3, e4⟩ := slicesLoop_ok (shape := x.shape) (starts := starts) (ends := ends) (steps := steps) axes 0
    (x.shape.map fun d : Nat => ((0 : Int), (d : Int), (1 : Int))) (by omega) (by omega) (by omega) (by simp) hr hn
  simp only [List.length_map] at e2
  simp only [Nat.zero_add] at e4
  obtain ⟨st, hm, hle⟩ := hst
  obtain ⟨j, hj, rfl⟩ := List.getElem_of_mem hm
  have hl := e4 j (by omega)
  rw [List.getD_eq_getElem steps _ hj] at hl
  have hbad : ∀ (s : List Nat) (l : List (Int × Int × Int)), l.length = s.length → (∃ (k : Nat) (p : Int × Int × Int), l[k]? = some p ∧ p.2.2 ≤ 0) →
      ∀ os, sliceSizes s l ≠ .ok os := by
    intro s
    induction s with
    | nil =>
      intro l hll ⟨k, p, hk, _⟩ os
      cases l with
      | nil => simp at hk
      | cons _ _ => simp at hll
    | cons d s ih =>
      intro l hll ⟨k, p, hk, hp⟩ os h
      cases l with
      | nil => simp at hk
      | cons q l =>
        unfold sliceSizes at h
        cases hsz : sliceSize d q with
        | error e => rw [hsz] at h; cases h
        | ok n =>
          rw [hsz] at h
          simp only at h
          cases k with
          | zero =>
            simp at hk
            subst hk
            unfold sliceSize at hsz
            rw [if_pos hp] at hsz
            cases hsz
          | succ k =>
            cases hrest : sliceSizes s l with
            | error e => rw [hrest] at h; cases h
            | ok r => exact ih l (by simpa using hll) ⟨k, p, by simpa using hk, hp⟩ r hrest
  intro y hy
  unfold sliceKernel at hy
  simp only [Option.getD_some, e1, slice] at hy
  cases hsz : sliceSizes x.shape l with
  | error e => rw [hsz] at hy; cases hy
  | ok r => exact hbad _ _ e2 ⟨_, _, hl, hle⟩ r hsz

/-! ### Split -/

theorem narrow_part (x : Tensor V) (a off len : Nat) (ha : a < x.shape.length) : IsPart a off len x (narrow x a off len) := by
  refine ⟨set_split _ _ _ ha, fun pre j post h1 _ _ => ?_⟩
  have hl : pre.length = a := by rw [inb_length h1, List.length_take]; omega
  show x.at ((pre ++ j :: post).set a (off + (pre ++ j :: post).getD a 0)) = _
  rw [getD_mid _ _ _ _ _ hl, set_mid _ _ _ _ _ hl]

theorem part_same {x y z : Tensor V} {a off len : Nat} (h : IsPart a off len x y) (hs : z.Same y) : IsPart a off len x z := by
  refine ⟨hs.1.trans h.shape, fun pre j post h1 h2 h3 => ?_⟩
  rw [hs.2 _ (by rw [hs.1, h.shape]; exact inb_append h1 ⟨h2, h3⟩)]
  exact h.value pre j post h1 h2 h3

theorem parts_get (x : Tensor V) (a : Nat) (sizes : List Nat) : ∀ (off i : Nat), (parts x a off sizes)[i]? =
    (sizes[i]?).map fun n => narrow x a (off + (sizes.take i).sum) n := by
  induction sizes with
  | nil => intro off i; simp [parts]
  | cons n sizes ih =>
    intro off i
    cases i with
    | zero => simp [parts]
    | succ i =>
      simp only [parts, List.getElem?_cons_succ, List.take_succ_cons, List.sum_cons, ih]
      rw [Nat.add_assoc]

theorem parts_length (x : Tensor V) (a : Nat) (sizes : List Nat) : ∀ off, (parts x a off sizes).length = sizes.length := by
  induction sizes with
  | nil => intro off; rfl
  | cons n sizes ih => intro off; simp [parts, ih]

theorem fill_same : ∀ (ps : List (Tensor V)), ∃ ys : List (Tensor V), fill (ps.map (·.shape)) ps = .ok (ys.map some) ∧ ys.length = ps.length ∧
    ∀ (i : Nat) (y : Tensor V), ys[i]? = some y → ∃ p, ps[i]? = some p ∧ y.Same p := by
  intro ps
  induction ps with
  | nil => exact ⟨[], rfl, rfl, fun i y h => by simp at h⟩
  | cons p ps ih =>
    obtain ⟨ys, h1, h2, h3⟩ := ih
    obtain ⟨y, hy, hs⟩ := copyTo_same p rfl
    refine ⟨y :: ys, by simp only [List.map_cons, fill, hy, h1], by simp [h2], fun i z hz => ?_⟩
    cases i with
    | zero => simp at hz; subst hz; exact ⟨p, rfl, hs⟩
    | succ i => simpa using h3 i z (by simpa using hz)

theorem parts_ok (x : Tensor V) (a : Nat) (sizes : List Nat) (ha : a < x.shape.length) (hsum : sizes.sum = x.shape.getD a 0) :
    ∃ ys : List (Tensor V), fill (sizes.map fun n => x.shape.take a ++ n :: x.shape.drop (a + 1)) (parts x a 0 sizes) = .ok (ys.map some) ∧ IsSplit a sizes x ys := by
  have hsh : (parts x a 0 sizes).map (·.shape) = sizes.map fun n => x.shape.take a ++ n :: x.shape.drop (a + 1) := by
    refine List.ext_getElem? fun i => ?_
    rw [List.getElem?_map, List.getElem?_map, parts_get]
    cases sizes[i]? with
    | none => rfl
    | some n => simp only [Option.map_some]; exact congrArg some (set_split _ _ _ ha)
  obtain ⟨ys, h1, h2, h3⟩ := fill_same (parts x a 0 sizes)
  rw [hsh] at h1
  refine ⟨ys, h1, hsum, by rw [h2, parts_length], fun i y hy => ?_⟩
  obtain ⟨p, hp, hs⟩ := h3 i y hy
  rw [parts_get, Nat.zero_add] at hp
  cases hn : sizes[i]? with
  | none => rw [hn] at hp; cases hp
  | some n =>
    rw [hn] at hp
    injection hp with hp
    have hg : sizes.getD i 0 = n := by rw [List.getD_eq_getElem?_getD, hn]; rfl
    rw [hg]
    exact part_same (narrow_part x a _ n ha) (by rw [show narrow x a (sizes.take i).sum n = p from hp]; exact hs)

theorem split_ok (axis : Int) (a : Nat) (sizes : List Nat) (x : Tensor V) (hp : axisPos x.shape.length axis = a) (ha : a < x.shape.length)
    (hsum : sizes.sum = x.shape.getD a 0) :
    ∃ ys : List (Tensor V), splitKernel axis (some (sizes.map Int.ofNat)) x (sizes.map fun n => x.shape.take a ++ n :: x.shape.drop (a + 1)) = .ok (ys.map some) ∧
      IsSplit a sizes x ys := by
  have hm : (sizes.map Int.ofNat).map Int.toNat = sizes := by
    rw [List.map_map]
    conv_rhs => rw [← List.map_id sizes]
    rfl
  have hall : (sizes.map Int.ofNat).all (0 ≤ ·) = true := by
    rw [List.all_eq_true]
    intro z hz
    obtain ⟨a, _, rfl⟩ := List.mem_map.1 hz
    simp
  unfold splitKernel torchSplit
  simp only [hp, hm, hall, ha, hsum, true_and, if_true]
  exact parts_ok x a sizes ha hsum

theorem chunkSizes_even (d n : Nat) (hn : 0 < n) (h : (n - 1) * ((d + n - 1) / n) < d) :
    chunkSizes d n = List.replicate (n - 1) ((d + n - 1) / n) ++ [d - (n - 1) * ((d + n - 1) / n)] := by
  unfold chunkSizes
  rw [if_neg (by omega)]
  generalize hc : (d + n - 1) / n = c at h
  have hle : d ≤ n * c := by
    have h1 := Nat.div_add_mod (d + n - 1) n
    have h2 := Nat.mod_lt (d + n - 1) hn
    rw [hc] at h1
    omega
  have hcp : 0 < c := by
    rcases Nat.eq_zero_or_pos c with h0 | h0
    · rw [h0, Nat.mul_zero] at hle; omega
    · exact h0
  obtain ⟨m, rfl⟩ : ∃ m, n = m + 1 := ⟨n - 1, by omega⟩
  simp only [Nat.add_sub_cancel] at h ⊢
  rw [Nat.add_mul, Nat.one_mul] at hle
  by_cases he : d = m * c + c
  · have h1 : d / c = m + 1 := by rw [he, ← Nat.succ_mul, Nat.mul_div_cancel _ hcp]
    have h2 : d % c = 0 := by rw [he, ← Nat.succ_mul, Nat.mul_mod_left]
    simp only [h1, h2, if_true, List.append_nil]
    rw [List.replicate_succ', show d - m * c = c from by omega]
  · have h1 : d / c = m := by
      refine Nat.div_eq_of_lt_le (by omega) ?_
      rw [Nat.succ_mul]; omega
    have h2 : d % c = d - m * c := by rw [Nat.mod_eq_sub_mul_div, h1, Nat.mul_comm]
    simp only [h1, h2]
    rw [if_neg (by omega)]

theorem chunk_ok (axis : Int) (a n : Nat) (x : Tensor V) (hp : axisPos x.shape.length axis = a) (ha : a < x.shape.length) (hn : 0 < n)
    (h : (n - 1) * ((x.shape.getD a 0 + n - 1) / n) < x.shape.getD a 0) (sizes : List Nat)
    (hs : sizes = List.replicate (n - 1) ((x.shape.getD a 0 + n - 1) / n) ++ [x.shape.getD a 0 - (n - 1) * ((x.shape.getD a 0 + n - 1) / n)]) :
    ∃ ys : List (Tensor V), splitKernel axis none x (sizes.map fun n => x.shape.take a ++ n :: x.shape.drop (a + 1)) = .ok (ys.map some) ∧ IsSplit a sizes x ys := by
  have hlen : sizes.length = n := by rw [hs]; simp; omega
  unfold splitKernel chunk
  simp only [hp, ha, List.length_map, hlen, hn, and_self, if_true, chunkSizes_even _ n hn h, ← hs]
  refine parts_ok x a sizes ha ?_
  rw [hs]
  simp only [List.sum_append, List.sum_replicate_nat, List.sum_cons, List.sum_nil]
  omega

/-! ### Concat -/

theorem locate_ok (sizes : List Nat) : ∀ (i j : Nat), i < sizes.length → j < sizes.getD i 0 → locate sizes ((sizes.take i).sum + j) = (i, j) := by
  induction sizes with
  | nil => intro i j h _; simp at h
  | cons n sizes ih =>
    intro i j hi hj
    cases i with
    | zero =>
      simp only [List.getD_cons_zero] at hj
      simp [locate, hj]
    | succ i =>
      simp only [List.getD_cons_succ] at hj
      have := ih i j (by simpa using hi) hj
      rw [show ((n :: sizes).take (i + 1)).sum = n + (sizes.take i).sum from by simp]
      unfold locate
      rw [if_neg (by omega), show n + (sizes.take i).sum + j - n = (sizes.take i).sum + j from by omega, this]

theorem concat_ok (axis : Int) (lead trail : List Nat) (xs : List (Tensor V)) (hne : xs ≠ [])
    (hs : ∀ x ∈ xs, ∃ d, x.shape = lead ++ d :: trail) (hp : axisPos (lead.length + 1 + trail.length) axis = lead.length) :
    ∃ y, concatKernel axis xs = .ok y ∧ IsConcat lead.length xs y ∧ y.shape = lead ++ (xs.map fun x => x.shape.getD lead.length 0).sum :: trail := by
  cases xs with
  | nil => exact absurd rfl hne
  | cons x xs =>
    obtain ⟨d, hd⟩ := hs x List.mem_cons_self
    have hset : ∀ (e v : Nat), (lead ++ e :: trail).set lead.length v = lead ++ v :: trail := fun e v => set_mid _ _ _ _ _ rfl
    have hrank : ((x :: xs).map (·.shape.length)).headD 0 = lead.length + 1 + trail.length := by
      simp [hd]; omega
    have hall : xs.all (fun u => decide (u.shape.set lead.length 0 = x.shape.set lead.length 0)) = true := by
      rw [List.all_eq_true]
      intro u hu
      obtain ⟨e, he⟩ := hs u (List.mem_cons_of_mem _ hu)
      rw [he, hd, hset, hset]
      simp
    have hlt : lead.length < x.shape.length := by rw [hd]; simp
    unfold concatKernel
    rw [hrank, hp]
    unfold cat
    simp only [hlt, hall, and_self, if_true]
    have hshape : x.shape.set lead.length ((x :: xs).map fun u => u.shape.getD lead.length 0).sum =
        lead ++ ((x :: xs).map fun u => u.shape.getD lead.length 0).sum :: trail := by rw [hd, hset]
    refine ⟨_, rfl, ⟨?_, by simp, fun i u hu => ⟨?_, fun pre j post h1 h2 h3 => ?_⟩⟩, hshape⟩
    · show _ = (x.shape.set lead.length _).getD lead.length 0
      rw [hshape, getD_mid _ _ _ _ _ rfl]
    · obtain ⟨e, he⟩ := hs u (List.mem_of_getElem? hu)
      show _ = (x.shape.set lead.length _).take lead.length ++ _ :: (x.shape.set lead.length _).drop (lead.length + 1)
      rw [hshape, List.getD_eq_getElem?_getD, List.getElem?_map, hu]
      simp only [Option.map_some, Option.getD_some]
      rw [he, getD_mid _ _ _ _ _ rfl]
      simp [List.drop_append]
    · have hl : pre.length = lead.length := by
        have := inb_length h1
        rw [this]
        show ((x.shape.set lead.length _).take lead.length).length = _
        rw [hshape]; simp
      have hi : i < ((x :: xs).map fun u => u.shape.getD lead.length 0).length := by
        rw [List.length_map]
        exact (List.getElem?_eq_some_iff.1 hu).1
      have hloc := locate_ok ((x :: xs).map fun u => u.shape.getD lead.length 0) i j hi h2
      simp only [getD_mid _ _ _ _ _ hl, hloc, set_mid _ _ _ _ _ hl]
      have : (x :: xs).getD i x = u := by rw [List.getD_eq_getElem?_getD, hu]; rfl
      rw [this]

theorem locate_inv (sizes : List Nat) : ∀ j, j < sizes.sum → (locate sizes j).1 < sizes.length ∧ (locate sizes j).2 < sizes.getD (locate sizes j).1 0 ∧
    (sizes.take (locate sizes j).1).sum + (locate sizes j).2 = j := by
  induction sizes with
  | nil => intro j h; simp at h
  | cons n sizes ih =>
    intro j h
    rw [List.sum_cons] at h
    by_cases hj : j < n
    · have e : locate (n :: sizes) j = (0, j) := by unfold locate; rw [if_pos hj]
      rw [e]
      simpa using hj
    · have e : locate (n :: sizes) j = ((locate sizes (j - n)).1 + 1, (locate sizes (j - n)).2) := by
        conv_lhs => unfold locate
        rw [if_neg hj]
      obtain ⟨h1, h2, h3⟩ := ih (j - n) (by omega)
      rw [e]
      simp only [List.length_cons, List.getD_cons_succ, List.take_succ_cons, List.sum_cons]
      exact ⟨by omega, h2, by omega⟩

/-- joining the parts of a tensor gives the tensor -/
theorem concat_split (axis : Int) (a : Nat) (sizes : List Nat) (x : Tensor V) (ys : List (Tensor V)) (hp : axisPos x.shape.length axis = a)
    (ha : a < x.shape.length) (hne : sizes ≠ []) (h : IsSplit a sizes x ys) : ∃ z, concatKernel axis ys = .ok z ∧ z.Same x := by
  obtain ⟨hsum, hlen, hpart⟩ := h
  have htl : (x.shape.take a).length = a := by rw [List.length_take]; omega
  have hx : x.shape = x.shape.take a ++ x.shape.getD a 0 :: x.shape.drop (a + 1) := by
    conv_lhs => rw [← List.take_append_drop a x.shape, List.drop_eq_getElem_cons ha]
    rw [List.getD_eq_getElem _ _ ha]
  have hxl : x.shape.length = a + 1 + (x.shape.drop (a + 1)).length := by rw [List.length_drop]; omega
  have hsizes : ys.map (fun y => y.shape.getD a 0) = sizes := by
    refine List.ext_getElem (by simpa using hlen) fun i h1 h2 => ?_
    rw [List.getElem_map]
    have hi : i < ys.length := by simpa using h1
    have := (hpart i ys[i] (List.getElem?_eq_getElem hi)).shape
    rw [this, getD_mid _ _ _ _ _ htl, List.getD_eq_getElem _ _ h2]
  obtain ⟨z, hz, hc, hzs⟩ := concat_ok axis (x.shape.take a) (x.shape.drop (a + 1)) ys
    (by intro h0; rw [h0] at hlen; exact hne (List.length_eq_zero_iff.1 hlen.symm))
    (fun y hy => by
      obtain ⟨i, hi, rfl⟩ := List.getElem_of_mem hy
      exact ⟨_, (hpart i ys[i] (List.getElem?_eq_getElem hi)).shape⟩)
    (by rw [htl, ← hxl]; exact hp)
  rw [htl] at hc hzs
  rw [hsizes, hsum, ← hx] at hzs
  refine ⟨z, hz, hzs, fun idx hi => ?_⟩
  rw [hzs] at hi
  obtain ⟨_, _, hcp⟩ := hc
  rw [hsizes] at hcp
  have hil := inb_length hi
  have hsplit : idx = idx.take a ++ idx.getD a 0 :: idx.drop (a + 1) := by
    conv_lhs => rw [← List.take_append_drop a idx, List.drop_eq_getElem_cons (show a < idx.length by omega)]
    rw [List.getD_eq_getElem _ _ (show a < idx.length by omega)]
  have hja := (inb_iff.1 hi).2 a ha
  have hpre : InB (x.shape.take a) (idx.take a) := inb_iff.2 ⟨by simp [hil], fun k hk => by
    have hk' : k < a := by omega
    have := (inb_iff.1 hi).2 k (by omega)
    rw [List.getD_eq_getElem _ _ (by omega), List.getD_eq_getElem _ _ (by omega)] at this
    rw [List.getD_eq_getElem _ _ (by rw [List.length_take]; omega), List.getD_eq_getElem _ _ hk, List.getElem_take, List.getElem_take]
    exact this⟩
  have hpost : InB (x.shape.drop (a + 1)) (idx.drop (a + 1)) := inb_iff.2 ⟨by simp [hil], fun k hk => by
    have hk' : k < x.shape.length - (a + 1) := by simpa using hk
    have := (inb_iff.1 hi).2 (a + 1 + k) (by omega)
    rw [List.getD_eq_getElem _ _ (by omega), List.getD_eq_getElem _ _ (by omega)] at this
    rw [List.getD_eq_getElem _ _ (by rw [List.length_drop]; omega), List.getD_eq_getElem _ _ hk, List.getElem_drop, List.getElem_drop]
    exact this⟩
  obtain ⟨l1, l2, l3⟩ := locate_inv sizes (idx.getD a 0) (by rw [hsum]; exact hja)
  generalize hL : locate sizes (idx.getD a 0) = L at l1 l2 l3
  have hi' : L.1 < ys.length := by omega
  have a1 := (hpart L.1 ys[L.1] (List.getElem?_eq_getElem hi')).value (idx.take a) L.2 (idx.drop (a + 1)) hpre l2 hpost
  have a2 := (hcp L.1 ys[L.1] (List.getElem?_eq_getElem hi')).value (idx.take a) L.2 (idx.drop (a + 1)) (by rw [hzs]; exact hpre) l2
    (by rw [hzs]; exact hpost)
  rw [l3, ← hsplit] at a1 a2
  exact a2.symm.trans a1

/-! ### Expand -/

theorem canExpand_of {s os : List Nat} (hl : s.length ≤ os.length)
    (h : ∀ k, k < s.length → s.getD k 0 = 1 ∨ s.getD k 0 = os.getD (os.length - s.length + k) 0) : canExpand s os = true := by
  unfold canExpand
  rw [Bool.and_eq_true, decide_eq_true_eq]
  refine ⟨hl, List.all_eq_true.2 fun b hb => ?_⟩
  obtain ⟨k, hk, rfl⟩ := List.getElem_of_mem hb
  rw [List.getElem_zipWith, List.getElem_drop]
  have hk' : k < s.length := by
    have := hk
    rw [List.length_zipWith] at this
    omega
  have := h k hk'
  rw [List.getD_eq_getElem _ _ hk', List.getD_eq_getElem _ _ (by omega)] at this
  simpa using this

theorem bcastIdx_of {s idx src : List Nat} (hl : s.length ≤ idx.length) (hs : src.length = s.length)
    (h : ∀ k, k < s.length → src.getD k 0 = if s.getD k 0 = 1 then 0 else idx.getD (idx.length - s.length + k) 0) : bcastIdx s idx = src := by
  unfold bcastIdx
  have hlen : (List.zipWith (fun d i => if d = 1 then 0 else i) s (idx.drop (idx.length - s.length))).length = s.length := by
    rw [List.length_zipWith, List.length_drop]; omega
  refine List.ext_getElem (by rw [hlen, hs]) fun k h1 h2 => ?_
  have hk : k < s.length := by omega
  rw [List.getElem_zipWith, List.getElem_drop]
  have := h k hk
  rw [List.getD_eq_getElem _ _ h2, List.getD_eq_getElem _ _ hk, List.getD_eq_getElem _ _ (by omega)] at this
  exact this.symm

theorem expand_ok (x : Tensor V) (os : List Nat) (hl : x.shape.length ≤ os.length)
    (h : ∀ k, k < x.shape.length → x.shape.getD k 0 = 1 ∨ x.shape.getD k 0 = os.getD (os.length - x.shape.length + k) 0) :
    ∃ y, expandKernel os x os = .ok y ∧ IsExpand os x y := by
  unfold expandKernel expand
  rw [canExpand_of hl h, if_pos rfl]
  obtain ⟨y, hy, hs⟩ := copyTo_same (os := os) (⟨os, fun idx => x.at (bcastIdx x.shape idx)⟩ : Tensor V) rfl
  refine ⟨y, hy, hs.1, fun idx src h1 h2 h3 => ?_⟩
  rw [hs.2 _ (by rw [hs.1]; exact h1)]
  show x.at (bcastIdx x.shape idx) = _
  have hi := inb_length h1
  rw [bcastIdx_of (by omega) (inb_length h2) (by rw [hi]; exact h3)]

end OnnxTool.Kernels
