import Verif.Model.Predict
import Verif.Spec.Predict
import Verif.Props.ValueConv
import Verif.Props.Gemm
import Verif.Props.Slice
import Verif.Props.Split
import Verif.Props.AxisOps
import Verif.Proofs.Axes
import Verif.Proofs.ValueReduce
/-!
# C72: the shape inferred without values is the shape of the computed value

`Agrees` is in `Spec/Predict.lean`; the inferred shapes are those of `Model/Broadcast.lean`, `Axes.lean`, `Slice.lean`, `Conv.lean` and `Predict.lean`.
-/
namespace OnnxTool.Props
open OnnxTool OnnxTool.Torch OnnxTool.Kernels OnnxTool.Values OnnxTool.Shape OnnxTool.Axes OnnxTool.Slice

section
variable {U V W : Type}

private theorem agrees_ufunc2 (f : U → V → W) (x : Tensor U) (y : Tensor V) : Agrees (broadcastShape [x.shape, y.shape]) (ufunc2 f x y) := by
  intro z hz
  unfold ufunc2 at hz
  split at hz
  · cases hz
  · rename_i r hr
    injection hz with hz
    subst hz
    exact (broadcast_iff _ _).2 ((npShape_iff _ _ _).1 hr)

private theorem refuse_ufunc2 (f : U → V → W) (x : Tensor U) (y : Tensor V) {s : List Nat} (h : broadcastShape [x.shape, y.shape] = .ok s) :
    ∃ z, ufunc2 f x y = .ok z ∧ z.shape = s := by
  obtain ⟨z, h1, h2, _⟩ := ufunc2_ok f x y s ((broadcast_iff _ _).1 h)
  exact ⟨z, h1, h2⟩

/-! ### Elementwise operators -/

/-- Add, Sub, Mul: the inferred shape is that of the value, and one exists exactly when the other does. -/
theorem C72_arithmetic [Add V] [Sub V] [Mul V] (x y : Tensor V) :
    Agrees (broadcastShape [x.shape, y.shape]) (addValue x y) ∧ Agrees (broadcastShape [x.shape, y.shape]) (subValue x y) ∧
    Agrees (broadcastShape [x.shape, y.shape]) (mulValue x y) ∧
    (∀ s, broadcastShape [x.shape, y.shape] = .ok s → (∃ z, addValue x y = .ok z ∧ z.shape = s) ∧ (∃ z, subValue x y = .ok z ∧ z.shape = s) ∧
      ∃ z, mulValue x y = .ok z ∧ z.shape = s) :=
  ⟨agrees_ufunc2 _ x y, agrees_ufunc2 _ x y, agrees_ufunc2 _ x y, fun _ h => ⟨refuse_ufunc2 _ x y h, refuse_ufunc2 _ x y h, refuse_ufunc2 _ x y h⟩⟩

/-- Div, Mod, Pow. -/
theorem C72_division (s t : DType) (x y : Tensor ℚ) (a b : Tensor Int) :
    Agrees (broadcastShape [x.shape, y.shape]) (divValue s t x y) ∧ Agrees (broadcastShape [a.shape, b.shape]) (modValue a b) ∧
    Agrees (broadcastShape [a.shape, b.shape]) (powValue a b) := by
  refine ⟨agrees_ufunc2 _ x y, agrees_ufunc2 _ a b, fun z hz => ?_⟩
  unfold powValue at hz
  split at hz
  · cases hz
  · split_ifs at hz
    exact agrees_ufunc2 _ a b z hz

/-- Comparisons (with a shape inference of their own) and logical operators. -/
theorem C72_comparison (x y : Tensor ℚ) (a b : Tensor Bool) :
    Agrees (broadcastShape [x.shape, y.shape]) (lessValue x y) ∧ Agrees (broadcastShape [x.shape, y.shape]) (lessEqualValue x y) ∧
    Agrees (broadcastShape [a.shape, b.shape]) (andValue a b) ∧ Agrees (broadcastShape [a.shape, b.shape]) (orValue a b) ∧
    Agrees (broadcastShape [a.shape, b.shape]) (xorValue a b) ∧ Agrees (broadcastShape [a.shape]) (.ok (notValue a)) := by
  refine ⟨agrees_ufunc2 _ x y, agrees_ufunc2 _ x y, agrees_ufunc2 _ a b, agrees_ufunc2 _ a b, agrees_ufunc2 _ a b, fun z hz => ?_⟩
  injection hz with hz
  subst hz
  exact (broadcast_iff _ _).2 (broadcast_single a.shape)

/-- Max over any number of operands. -/
theorem C72_max (xs : List (Tensor ℚ)) : Agrees (broadcastShape (xs.map (·.shape))) (maxValue xs) := by
  intro z hz
  cases xs with
  | nil => cases hz
  | cons a xs =>
    by_cases h : ∃ r, IsBroadcast ((a :: xs).map (·.shape)) r
    · obtain ⟨r, hr⟩ := h
      obtain ⟨y, h1, h2, _⟩ := foldFrom_ok max xs a r hr
      have : foldFrom max a xs = .ok z := hz
      rw [h1] at this
      injection this with this
      subst this
      rw [h2]
      exact (broadcast_iff _ _).2 hr
    · have : foldFrom max a xs = .ok z := hz
      rw [foldFrom_error max xs a h] at this
      cases this

/-- Sum (shape inference picks the largest operand) when an operand already has the full shape and no size is zero. -/
theorem C72_sum_partial [Add V] (xs : List (Tensor V)) (x : Tensor V) (hx : x ∈ xs) (hb : IsBroadcast (xs.map (·.shape)) x.shape)
    (hpos : ∀ t ∈ xs, ∀ d ∈ t.shape, 0 < d) : Agrees (maxShape (xs.map (·.shape))) (sumValue xs) := by
  intro z hz
  have hm := C20_returns_broadcast (xs.map (·.shape)) x.shape (List.mem_map.2 ⟨x, hx, rfl⟩) hb (fun s hs d hd => by
    obtain ⟨t, ht, rfl⟩ := List.mem_map.1 hs
    exact hpos t ht d hd)
  rw [hm]
  cases xs with
  | nil => cases hx
  | cons a xs =>
    obtain ⟨y, h1, h2, _⟩ := foldFrom_ok (· + ·) xs a x.shape hb
    have : foldFrom (· + ·) a xs = .ok z := hz
    rw [h1] at this
    injection this with this
    subst this
    rw [h2]

/-- Falsifies the rest for Sum. -/
theorem C72_sum_counterexample :
    maxShape ([ofFlatQ [2, 1] [1, 2], ofFlatQ [1, 2] [10, 20]].map (·.shape)) = .ok [2, 1] ∧
    shown (sumValue [ofFlatQ [2, 1] [1, 2], ofFlatQ [1, 2] [10, 20]]) = some ([2, 2], [11, 21, 12, 22]) := ⟨rfl, by decide +kernel⟩

/-- Where. -/
theorem C72_where (c : Tensor Bool) (x y : Tensor V) : Agrees (broadcastShape [c.shape, x.shape, y.shape]) (whereValue c x y) := by
  intro z hz
  unfold whereValue at hz
  split at hz
  · cases hz
  · rename_i p hp
    have h1 := (broadcast_iff _ _).1 (agrees_ufunc2 _ x y p hp)
    have h2 := (broadcast_iff _ _).1 (agrees_ufunc2 _ c p z hz)
    have h3 : IsBroadcast [p.shape, c.shape] z.shape := (broadcast_iff _ _).1 (by
      rw [C19_order_independent [p.shape, c.shape] [c.shape, p.shape] (by intro s; simp [or_comm])]
      exact (broadcast_iff _ _).2 h2)
    have h4 := (broadcast_group h1).1 h3
    rw [C19_order_independent [c.shape, x.shape, y.shape] ([x.shape, y.shape] ++ [c.shape]) (by intro s; simp; tauto)]
    exact (broadcast_iff _ _).2 h4

/-- Min: falsified for every pair of one-element vectors — the value has no axes. -/
theorem C72_min_counterexample (x y : Tensor ℚ) (hx : x.shape = [1]) (hy : y.shape = [1]) :
    broadcastShape [x.shape, y.shape] = .ok [1] ∧ ∃ z, minValue [x, y] = .ok z ∧ z.shape = [] := by
  rw [hx, hy]
  refine ⟨rfl, ?_⟩
  obtain ⟨m, h1, h2, _⟩ := ufunc2_ok min x y [1] (by rw [hx, hy]; exact (broadcast_iff _ _).1 rfl)
  refine ⟨⟨[], fun _ => if m.at (unravel m.shape 0) = 0 then 1 else 0⟩, ?_, rfl⟩
  simp only [minValue, minFrom, h1, notArray, h2, numel, Nat.mul_one, if_true]

/-- Operators on one operand. -/
theorem C72_unary (x : Tensor ℚ) : Agrees (broadcastShape [x.shape]) (.ok (negValue x)) ∧ Agrees (broadcastShape [x.shape]) (.ok (absValue x)) ∧
    Agrees (broadcastShape [x.shape]) (.ok (ceilValue x)) ∧ Agrees (maxShape [x.shape]) (.ok (signValue x)) ∧ Agrees (maxShape [x.shape]) (.ok (reluValue x)) ∧
    Agrees (maxShape [x.shape]) (.ok (relu6Value x)) ∧ Agrees (.ok (firstShape x.shape [])) (.ok (floorValue x)) ∧
    ∀ (W : Type) (cast : ℚ → W), Agrees (.ok (firstShape x.shape [])) (.ok (castValue cast x)) := by
  have hb := (broadcast_iff _ _).2 (broadcast_single x.shape)
  have hm : maxShape [x.shape] = .ok x.shape := by simp [maxShape, OnnxTool.Shape.maxLoop]
  refine ⟨?_, ?_, ?_, ?_, ?_, ?_, ?_, ?_⟩
  all_goals
    first
      | intro z hz
        injection hz with hz
        subst hz
        first | exact hb | exact hm | rfl
      | intro W cast z hz
        injection hz with hz
        subst hz
        rfl

/-- Clip with scalar bounds, given or left out (as ONNX demands). -/
theorem C72_clip (lo hi : Option (Tensor ℚ)) (x : Tensor ℚ) (hlo : ∀ b, lo = some b → b.shape = []) (hhi : ∀ b, hi = some b → b.shape = []) :
    Agrees (maxShape [x.shape, [], []]) (clipValue [lo, hi] x) := by
  intro z hz
  have h1 : ∀ f (x : Tensor ℚ) (o : Option (Tensor ℚ)) (z : Tensor ℚ), (∀ b, o = some b → b.shape = []) → clipBound f x o = .ok z → z.shape = x.shape := by
    intro f x o z ho hz
    unfold clipBound at hz
    cases o with
    | none => injection hz with hz; rw [hz]
    | some b =>
      obtain ⟨w, g1, g2, _⟩ := ufunc2_scalar f x b (ho b rfl)
      simp only [] at hz
      rw [g1] at hz
      injection hz with hz
      rw [← hz, g2]
  have hm : maxShape [x.shape, [], []] = .ok x.shape := by simp [maxShape, OnnxTool.Shape.maxLoop, volume]
  rw [hm]
  unfold clipValue at hz
  simp only [] at hz
  split at hz
  · cases hz
  · rename_i y hy
    rw [h1 _ _ _ _ hhi hz, h1 _ _ _ _ hlo hy]

/-- HardSigmoid: falsified — outside the linear part the value has no axes. -/
theorem C72_hardsigmoid_counterexample : maxShape [[1]] = .ok [1] ∧ shown (hardSigmoidValue (1 / 5) (1 / 2) (ofFlatQ [1] [9])) = some ([], [1]) :=
  ⟨rfl, by decide +kernel⟩

/-- Expand when no size is zero. -/
theorem C72_expand_partial [MulOneClass V] (e : List Nat) (x : Tensor V) (hx : ∀ d ∈ x.shape, 0 < d) (he : ∀ d ∈ e, 0 < d) :
    Agrees (.ok (expandShape x.shape e)) (expandValue e x) := by
  intro z hz
  have hb := (broadcast_iff _ _).1 (agrees_ufunc2 _ x ⟨e, fun _ => 1⟩ z hz)
  rw [C19_expand_partial x.shape e z.shape hb hx he]

/-- Falsifies the rest: a size 0 is inferred as the other size, and shapes that cannot be broadcast are accepted. -/
theorem C72_expand_counterexample :
    expandShape [1] [0] = [1] ∧ shown (expandValue [0] (ofFlatQ [1] [5])) = some ([0], []) ∧
    expandShape [2] [3] = [3] ∧ shown (expandValue [3] (ofFlatQ [2] [5, 6])) = none := ⟨rfl, by decide +kernel, rfl, by decide +kernel⟩

/-! ### Operators that move data -/

/-- Transpose: every permutation. -/
theorem C72_transpose (perm : Option (List Nat)) (x : Tensor V) :
    Agrees (transposeShape (perm.map (·.map Int.ofNat)) x.shape) (transposeValue perm x) := by
  intro y hy
  cases perm with
  | none =>
    injection hy with hy
    subst hy
    rfl
  | some p =>
    have hy : asValueError (x.permute p) = .ok y := hy
    unfold Tensor.permute at hy
    split_ifs at hy with hp
    · injection hy with hy
      subst hy
      have hp := List.isPerm_iff.1 hp
      exact gatherAll_ok x.shape p (fun i hi => by simpa using hp.mem_iff.1 hi)
    · cases hy

/-- Gather: every axis in range. -/
theorem C72_gather (axis : Int) (x : Tensor V) (ids : Tensor Int) : Agrees (.ok (gatherShape axis x.shape ids.shape)) (gatherValue axis x ids) := by
  intro y hy
  unfold gatherValue take at hy
  split at hy
  · cases hy
  · rename_i a ha
    split_ifs at hy
    injection hy with hy
    subst hy
    have hr : -(x.shape.length : Int) ≤ axis ∧ axis < x.shape.length := by
      unfold normIndex at ha
      split_ifs at ha <;> omega
    rw [C26_gather axis x.shape ids.shape hr]
    have := (normIndex_axis hr).1
    rw [ha] at this
    injection this with this
    rw [this]

/-- Concat: every value that can be computed. -/
theorem C72_concat (axis : Int) (xs : List (Tensor V)) : Agrees (concatShape axis (xs.map (·.shape))) (concatValue axis xs) := by
  intro y hy
  cases xs with
  | nil => cases hy
  | cons x xs =>
    unfold concatValue at hy
    simp only [] at hy
    split at hy
    · cases hy
    · rename_i a ha
      have hr : -(x.shape.length : Int) ≤ axis ∧ axis < x.shape.length := by
        unfold normIndex at ha
        split_ifs at ha <;> omega
      have hax := (normIndex_axis hr).1
      rw [ha] at hax
      injection hax with hax
      unfold cat at hy
      simp only [] at hy
      split_ifs at hy with hc
      · injection hy with hy
        subst hy
        rw [List.map_cons, C25_concat axis x.shape (xs.map (·.shape)) hr]
        · simp only [hax, List.map_cons, List.map_map]
          rfl
        · intro t ht
          obtain ⟨u, hu, rfl⟩ := List.mem_map.1 ht
          have := List.all_eq_true.1 hc.2 u hu
          simp only [decide_eq_true_eq] at this
          have := congrArg List.length this
          simpa using this
      · cases hy

/-- Split with sizes that add up, the last not zero. -/
theorem C72_split_partial (axis : Int) (sizes : List Nat) (x : Tensor V) (h : -(x.shape.length : Int) ≤ axis ∧ axis < x.shape.length)
    (hsum : sizes.sum = x.shape.getD (axisOf x.shape.length axis) 0) (hne : sizes ≠ []) (hlast : sizes.length = 1 ∨ 0 < sizes.getLast hne) :
    ∃ ys : List (Tensor V), splitValue axis (some (sizes.map Int.ofNat)) sizes.length x = .ok ys ∧
      splitShape x.shape (some axis) (some (sizes.map Int.ofNat)) sizes.length = .ok (ys.map fun y => y.shape.map Int.ofNat) := by
  obtain ⟨ys, h1, h2⟩ := splitValue_ok axis sizes x h hsum hne hlast
  refine ⟨ys, h1, ?_⟩
  rw [C25_split x.shape axis sizes h hsum]
  congr 1
  apply List.ext_getElem?
  intro i
  rw [List.getElem?_map, List.getElem?_map]
  by_cases hi : i < ys.length
  · have hpart := h2.2.2 i ys[i] (List.getElem?_eq_getElem hi)
    have hi' : i < sizes.length := by rw [← h2.2.1]; exact hi
    rw [List.getElem?_eq_getElem hi, List.getElem?_eq_getElem hi']
    simp only [Option.map_some, hpart.shape, List.getD_eq_getElem _ _ hi']
    rw [List.set_eq_take_append_cons_drop, if_pos (normIndex_axis h).2]
  · have hl := h2.2.1
    rw [List.getElem?_eq_none (l := sizes) (by omega), List.getElem?_eq_none (l := ys) (by omega)]
    rfl

/-- Falsifies the rest: the last output of size 0 has an inferred shape but gets no value. -/
theorem C72_split_counterexample :
    splitShape [2] (some 0) (some [2, 0]) 2 = .ok [[2], [0]] ∧
    ((splitValue 0 (some [2, 0]) 2 (ofFlatQ [2] [5, 6])).toOption.map fun l => l.map fun y => (y.shape, y.flat)) = some [([2], [5, 6])] := ⟨rfl, by decide +kernel⟩

private theorem sliceLoop_shape {starts ends steps : List Int} : ∀ (axes : List Int) (i : Nat) (x y : Tensor V), sliceLoop starts ends steps i axes x = .ok y →
    valueLoop starts ends steps i axes x.shape = .ok y.shape := by
  intro axes
  induction axes with
  | nil =>
    intro i x y h
    injection h with h
    subst h
    rfl
  | cons a axes ih =>
    intro i x y h
    unfold sliceLoop at h
    split at h
    · cases h
    · rename_i z hz
      have hr := ih (i + 1) z y h
      unfold sliceStep at hz
      unfold valueLoop
      split_ifs at hz with ha
      · rw [if_pos ha]
        split at hz
        · rename_i s e st hs he hst
          unfold sliceAxis at hz
          split_ifs at hz with hl
          split at hz
          · cases hz
          · rename_i n hn
            injection hz with hz
            subst hz
            simp only [Conv.idx, hs, he, hst, bind, Except.bind, if_pos hl, hn]
            exact hr
        · cases hz
      · injection hz with hz
        subst hz
        rw [if_neg ha]
        exact hr

/-- Slice: distinct axes from 0 to 4, negative steps starting inside the axis. -/
theorem C72_slice_partial (starts ends axes : List Int) (steps : Option (List Int)) (x : Tensor V)
    (h1 : axes.length = starts.length) (h2 : axes.length = ends.length) (h3 : ∀ l, steps = some l → axes.length = l.length)
    (hr : ∀ a ∈ axes, 0 ≤ a ∧ a < x.shape.length ∧ a ≤ 4) (hn : axes.Nodup)
    (hst : ∀ l, steps = some l → ∀ j, j < axes.length → l.getD j 0 ≠ 0 ∧
      (0 < l.getD j 0 ∨ (0 < x.shape.getD (axes.getD j 0).toNat 0 ∧ -(x.shape.getD (axes.getD j 0).toNat 0 : Int) ≤ starts.getD j 0))) :
    Agrees (sliceShape x.shape starts ends (some axes) steps) (sliceValue starts ends axes steps x) := by
  intro y hy
  obtain ⟨out, e1, e2⟩ := C23_value_agrees_partial x.shape starts ends axes steps h1 h2 h3 hr hn hst
  have := sliceLoop_shape axes 0 x y hy
  unfold valueShape at e1
  rw [this] at e1
  injection e1 with e1
  rw [e2, e1]

/-- Falsifies the rest: a negative axis. -/
theorem C72_slice_counterexample :
    sliceShape [4, 2] [0] [1] (some [-1]) none = .ok [4, 1] ∧
    ((sliceValue [0] [1] [-1] none (ofFlatQ [4, 2] [1, 2, 3, 4, 5, 6, 7, 8])).toOption.map (·.shape)) = some [4, 2] := ⟨rfl, rfl⟩

private theorem squeezeFrom_inv : ∀ (axes : List Nat) (i : Nat) (x y : Tensor V), axes.Pairwise (· < ·) → (∀ a ∈ axes, i ≤ a) →
    squeezeFrom i (axes.map Int.ofNat) x = .ok y → ∀ a ∈ axes, a - i < x.shape.length ∧ x.shape.getD (a - i) 0 = 1 := by
  intro axes
  induction axes with
  | nil => intro i x y _ _ _ a ha; cases ha
  | cons b axes ih =>
    intro i x y hp hi h
    have hib := hi b List.mem_cons_self
    rw [List.map_cons] at h
    unfold squeezeFrom at h
    split at h
    · cases h
    · rename_i z hz
      unfold squeezeAt normIndex at hz
      simp only [Int.ofNat_eq_natCast] at hz
      rw [if_pos (by omega)] at hz
      have hlt : b - i < x.shape.length := by
        by_contra hc
        rw [if_neg (by omega)] at hz
        cases hz
      rw [if_pos (by omega), show ((b : Int) - i).toNat = b - i by omega] at hz
      simp only [] at hz
      split_ifs at hz with hone
      injection hz with hz
      have hgt := (List.pairwise_cons.1 hp).1
      have hrec := ih (i + 1) z y (List.pairwise_cons.1 hp).2 (fun a ha => by have := hgt a ha; omega) h
      intro a ha
      rcases List.mem_cons.1 ha with rfl | ha
      · exact ⟨hlt, hone⟩
      · obtain ⟨h1, h2⟩ := hrec a ha
        have := hgt a ha
        rw [← hz] at h1 h2
        simp only [List.length_eraseIdx, if_pos hlt] at h1
        have hl2 : a - i < x.shape.length := by omega
        refine ⟨hl2, ?_⟩
        simp only [] at h2
        rw [List.getD_eq_getElem _ _ (by rw [List.length_eraseIdx, if_pos hlt]; omega), List.getElem_eraseIdx_of_ge (h' := by omega)] at h2
        have e : a - (i + 1) + 1 = a - i := by omega
        simp only [e] at h2
        rw [List.getD_eq_getElem _ _ hl2]
        exact h2

private theorem map_axisOf_nat (r : Nat) (axes : List Nat) : (axes.map Int.ofNat).map (axisOf r) = axes := by
  rw [List.map_map]
  conv_rhs => rw [← List.map_id axes]
  apply List.map_congr_left
  intro a _
  exact axisOf_nat r a

/-- Squeeze of increasing non-negative axes. -/
theorem C72_squeeze_partial (axes : List Nat) (x : Tensor V) (hp : axes.Pairwise (· < ·)) :
    Agrees (.ok (squeezeShape (axes.map Int.ofNat) x.shape)) (squeezeValue (some (axes.map Int.ofNat)) x) := by
  intro y hy
  have hy : squeezeFrom 0 (axes.map Int.ofNat) x = .ok y := hy
  have hinv := squeezeFrom_inv axes 0 x y hp (fun _ _ => Nat.zero_le _) hy
  obtain ⟨z, h1, h2⟩ := squeezeFrom_ok axes 0 x hp (fun a ha => ⟨Nat.zero_le _, (hinv a ha).1⟩) (fun a ha => (hinv a ha).2)
  rw [hy] at h1
  injection h1 with h1
  subst h1
  rw [h2, C26_squeeze _ _ (by intro a ha; obtain ⟨b, _, rfl⟩ := List.mem_map.1 ha; simp only [Int.ofNat_eq_natCast]; omega), map_axisOf_nat, keep_range]
  rfl

/-- Falsifies the rest: axes in descending order; without axes only the first axis is squeezed, and an axis that is not 1 is inferred away. -/
theorem C72_squeeze_counterexample :
    squeezeShape [1, 0] [1, 1, 5] = [5] ∧ shown (squeezeValue (some [1, 0]) (ofFlatQ [1, 1, 2] [3, 4])) = none := ⟨rfl, rfl⟩

/-- Unsqueeze of increasing non-negative axes in range. -/
theorem C72_unsqueeze_partial (axes : List Nat) (x : Tensor V) (hp : axes.Pairwise (· < ·)) (hb : ∀ a ∈ axes, a < x.shape.length + axes.length) :
    Agrees (unsqueezeShape (axes.map Int.ofNat) x.shape) (unsqueezeValue (axes.map Int.ofNat) x) := by
  intro y hy
  obtain ⟨s, hs⟩ := C26_unsqueeze_returns (axes.map Int.ofNat) x.shape
    (by
      intro a ha
      obtain ⟨b, hb', rfl⟩ := List.mem_map.1 ha
      have := hb b hb'
      simp only [Int.ofNat_eq_natCast, List.length_map]
      omega)
    (by rw [map_axisOf_nat]; exact hp.imp (fun h => Nat.ne_of_lt h))
  obtain ⟨g1, _, g3, g4⟩ := C26_unsqueeze_squeeze _ _ _ hs
  rw [List.length_map] at g1
  rw [C26_squeeze _ _ (by intro a ha; obtain ⟨b, _, rfl⟩ := List.mem_map.1 ha; simp only [Int.ofNat_eq_natCast]; omega), map_axisOf_nat] at g3
  obtain ⟨z, h1, h2⟩ := unsqueezeValue_ok axes x s hp hb ⟨g1, fun a ha => g4 a (by have := hb a ha; omega) (Or.inl (List.mem_map.2 ⟨a, ha, rfl⟩)), g3⟩
  rw [hy] at h1
  injection h1 with h1
  rw [hs, h1, h2.shape]

/-- Falsifies the rest: axes in descending order. -/
theorem C72_unsqueeze_counterexample :
    unsqueezeShape [1, 0] [5] = .ok [1, 1, 5] ∧ ((unsqueezeValue [1, 0] (ofFlatQ [5] [1, 2, 3, 4, 5])).toOption.map (·.shape)) = some [1, 5, 1] :=
  ⟨rfl, rfl⟩

/-- GatherND: shape inference succeeds exactly when the last axis of the indices is at most the rank of the data. -/
theorem C72_gather_nd_defined (x ids : List Nat) :
    (∃ s, gatherNDShape x ids = .ok s) ↔ ∃ rest q, ids = rest ++ [q] ∧ q ≤ x.length := by
  unfold gatherNDShape
  constructor
  · rintro ⟨s, hs⟩
    cases hr : ids.reverse with
    | nil => rw [hr] at hs; cases hs
    | cons q rest =>
      rw [hr] at hs
      refine ⟨rest.reverse, q, by rw [← List.reverse_reverse ids, hr, List.reverse_cons], ?_⟩
      simp only [] at hs
      by_cases hq : q ≤ x.length
      · exact hq
      · rw [if_neg hq] at hs; cases hs
  · rintro ⟨rest, q, rfl, hq⟩
    rw [List.reverse_append]
    simp only [List.reverse_cons, List.reverse_nil, List.nil_append, List.cons_append]
    rw [if_pos hq]
    split_ifs
    · exact ⟨_, rfl⟩
    · exact ⟨_, rfl⟩

/-- GatherND, GatherElements, ScatterND, Trilu. -/
theorem C72_gather_scatter [Zero V] (axis : Int) (cast : V → V) (x upd : Tensor V) (ids : Tensor Int) (upper : Bool) (k : Int) :
    Agrees (gatherNDShape x.shape ids.shape) (gatherNDValue x ids) ∧
    Agrees (.ok (gatherElementsShape x.shape ids.shape)) (gatherElementsValue cast axis x ids) ∧
    Agrees (.ok (firstShape x.shape [ids.shape, upd.shape])) (scatterNDValue x ids upd) ∧
    Agrees (.ok (firstShape x.shape [])) (.ok (triluValue upper k x)) := by
  refine ⟨fun y hy => ?_, fun y hy => ?_, fun y hy => ?_, fun y hy => ?_⟩
  · unfold gatherNDValue at hy
    unfold gatherNDShape
    split at hy
    · cases hy
    · rename_i q rest hrev
      simp only [] at hy
      split_ifs at hy with c1 c2 c3
      injection hy with hy
      subst hy
      rw [hrev]
      simp only []
      rw [if_pos (by omega)]
      split_ifs with c4
      · rw [c4, List.drop_length, List.append_nil]
      · rfl
  · unfold gatherElementsValue at hy
    split_ifs at hy
    · injection hy with hy
      subst hy
      rfl
    · split at hy
      · cases hy
      · split_ifs at hy
        injection hy with hy
        subst hy
        rfl
  · unfold scatterNDValue at hy
    split at hy
    · cases hy
    · simp only [] at hy
      split_ifs at hy
      injection hy with hy
      subst hy
      rw [scatterLoop_shape]
      rfl
  · injection hy with hy
    subst hy
    rfl

/-- Pad with the pads as second input. -/
theorem C72_pad (before after : List Nat) (value : V) (x : Tensor V) (hb : before.length = x.shape.length) (ha : after.length = x.shape.length) :
    AgreesInt (padShape (some ((before ++ after).map Int.ofNat)) x.shape) (padValue (.input ((before ++ after).map Int.ofNat)) .constant value x) := by
  intro y hy
  obtain ⟨z, h1, h2⟩ := pad_ok before after value x hb ha
  rw [hy] at h1
  injection h1 with h1
  subst h1
  rw [C26_pad x.shape (before ++ after) (by rw [List.length_append]; omega)]
  congr 2
  apply List.ext_getElem
  · rw [List.length_map, List.length_range, h2.rank]
  · intro i hi hi'
    rw [List.length_map, List.length_range] at hi
    have hs := h2.sizes i hi
    rw [List.getElem_map, List.getElem_range]
    rw [List.getD_eq_getElem _ _ (by omega : i < y.shape.length)] at hs
    have e1 : (before ++ after).getD i 0 = before.getD i 0 := by
      rw [List.getD_eq_getElem?_getD, List.getElem?_append_left (by omega), ← List.getD_eq_getElem?_getD]
    have e2 : (before ++ after).getD (i + x.shape.length) 0 = after.getD i 0 := by
      rw [List.getD_eq_getElem?_getD, List.getElem?_append_right (by omega), ← List.getD_eq_getElem?_getD, hb, Nat.add_sub_cancel]
    have e3 : (before.map Int.ofNat).getD i 0 = (before.getD i 0 : Int) := by
      rw [List.getD_eq_getElem?_getD, List.getElem?_map, List.getElem?_eq_getElem (by omega), List.getD_eq_getElem _ _ (by omega)]
      rfl
    have e4 : (after.map Int.ofNat).getD i 0 = (after.getD i 0 : Int) := by
      rw [List.getD_eq_getElem?_getD, List.getElem?_map, List.getElem?_eq_getElem (by omega), List.getD_eq_getElem _ _ (by omega)]
      rfl
    rw [e3, e4] at hs
    rw [e1, e2]
    omega

private theorem count_one {v : Int} : ∀ {l : List Int} {i j : Nat}, l.count v ≤ 1 → l[i]? = some v → l[j]? = some v → i = j := by
  intro l
  induction l with
  | nil => intro i j _ h; simp at h
  | cons a l ih =>
    intro i j hc hi hj
    have hpos : ∀ k, l[k]? = some v → 0 < l.count v := fun k hk => List.count_pos_iff.2 (List.mem_of_getElem? hk)
    rw [List.count_cons] at hc
    cases i with
    | zero =>
      cases j with
      | zero => rfl
      | succ j =>
        simp only [List.getElem?_cons_zero, Option.some.injEq] at hi
        rw [List.getElem?_cons_succ] at hj
        have := hpos j hj
        rw [hi, beq_self_eq_true, if_pos rfl] at hc
        omega
    | succ i =>
      cases j with
      | zero =>
        simp only [List.getElem?_cons_zero, Option.some.injEq] at hj
        rw [List.getElem?_cons_succ] at hi
        have := hpos i hi
        rw [hj, beq_self_eq_true, if_pos rfl] at hc
        omega
      | succ j =>
        rw [List.getElem?_cons_succ] at hi hj
        rw [ih (by omega) hi hj]

private theorem numel_elems : ∀ s : List Nat, numel s = elems s
  | [] => rfl
  | d :: s => by
    show d * numel s = _
    rw [numel_elems s]
    rfl

private theorem copyDims_get (xs : List Nat) : ∀ (target : List Int) (si : Nat) (s : List Int), copyDims xs si target = .ok s →
    s.length = target.length ∧ ∀ j, j < target.length → (target.getD j 0 = 0 → si + j < xs.length) ∧
      s.getD j 0 = if target.getD j 0 = 0 then ((xs.getD (si + j) 0 : Nat) : Int) else target.getD j 0 := by
  intro target
  induction target with
  | nil =>
    intro si s h
    injection h with h
    subst h
    exact ⟨rfl, fun j hj => by cases hj⟩
  | cons t target ih =>
    intro si s h
    unfold copyDims at h
    split at h
    · cases h
    · rename_i r hr
      obtain ⟨g1, g2⟩ := ih (si + 1) r hr
      by_cases ht : t = 0
      · rw [if_pos ht] at h
        split at h
        · rename_i d hd
          injection h with h
          subst h
          refine ⟨by simp [g1], fun j hj => ?_⟩
          cases j with
          | zero =>
            have := (List.getElem?_eq_some_iff.1 hd).1
            refine ⟨fun _ => this, ?_⟩
            simp only [List.getD_cons_zero, ht, if_true, Nat.add_zero]
            rw [List.getD_eq_getElem?_getD, hd]
            rfl
          | succ j =>
            have := g2 j (by simpa using hj)
            simp only [List.getD_cons_succ]
            rw [show si + (j + 1) = si + 1 + j by omega]
            exact this
        · cases h
      · rw [if_neg ht] at h
        injection h with h
        subst h
        refine ⟨by simp [g1], fun j hj => ?_⟩
        cases j with
        | zero =>
          simp only [List.getD_cons_zero, if_neg ht]
          exact ⟨fun h => absurd h ht, trivial⟩
        | succ j =>
          have := g2 j (by simpa using hj)
          simp only [List.getD_cons_succ]
          rw [show si + (j + 1) = si + 1 + j by omega]
          exact this

/-- Reshape of a tensor without empty axes. -/
theorem C72_reshape_partial (target : List Int) (x : Tensor V) (hs : x.shape ≠ []) (hsp : ∀ d ∈ x.shape, 0 < d) (ht : target ≠ []) :
    AgreesInt (reshapeShape x.shape target) (reshapeValue target x) := by
  intro y hy
  unfold reshapeValue at hy
  split at hy
  · cases hy
  · rename_i s hc
    obtain ⟨hl, hg⟩ := copyDims_get x.shape target 0 s hc
    simp only [Nat.zero_add] at hg
    have hshape : ¬ (s.any (· < -1) = true ∨ 1 < s.count (-1)) ∧ numel y.shape = numel x.shape ∧ y.shape.length = s.length ∧
        ∀ j, j < s.length → s.getD j 0 ≠ -1 → y.shape.getD j 0 = (s.getD j 0).toNat := by
      unfold reshapeInts at hy
      have hmap : ∀ f : Int → Nat, ∀ j, j < s.length → (s.map f).getD j 0 = f (s.getD j 0) := by
        intro f j hj
        rw [List.getD_eq_getElem _ _ (by rw [List.length_map]; exact hj), List.getElem_map, List.getD_eq_getElem _ _ hj]
      split_ifs at hy with c1 c2 c3
      · cases hy
      · unfold Tensor.reshape at hy
        split_ifs at hy with c4
        · injection hy with hy
          subst hy
          refine ⟨c1, c4, by simp, fun j hj hne => ?_⟩
          simp only []
          rw [hmap _ j hj, if_neg hne]
        · cases hy
      · cases hy
      · unfold Tensor.reshape at hy
        split_ifs at hy with c4
        · injection hy with hy
          subst hy
          refine ⟨c1, c4, by simp, fun j hj _ => ?_⟩
          simp only []
          rw [hmap _ j hj]
        · cases hy
    obtain ⟨c1, c2, c3, c4⟩ := hshape
    have hget : ∀ j : Nat, target[j]? = some (-1) → s[j]? = some (-1) := by
      intro j hj
      obtain ⟨hj1, hj2⟩ := List.getElem?_eq_some_iff.1 hj
      have := (hg j hj1).2
      rw [List.getD_eq_getElem _ _ hj1, hj2, if_neg (by omega), List.getD_eq_getElem _ _ (by omega)] at this
      rw [List.getElem?_eq_getElem (by omega), this]
    refine (reshape_iff hs hsp ht ?_ ?_ (fun j hj h0 => (hg j hj).1 h0) _).2 ⟨y.shape, rfl, ⟨by omega, ?_, ?_, ?_⟩⟩
    · intro v hv
      obtain ⟨j, hj, rfl⟩ := List.getElem_of_mem hv
      by_contra hlt
      apply c1
      left
      rw [List.any_eq_true]
      refine ⟨s[j], List.getElem_mem _, ?_⟩
      have := (hg j hj).2
      rw [List.getD_eq_getElem _ _ hj, if_neg (by omega), List.getD_eq_getElem _ _ (by omega)] at this
      rw [this]
      simp only [decide_eq_true_eq]
      omega
    · intro i j hi hj
      exact count_one (by omega) (hget i hi) (hget j hj)
    · intro i hi h0
      have e := (hg i hi).2
      rw [if_pos h0] at e
      rw [c4 i (by omega) (by omega), e]
      rfl
    · intro i hi h0
      have e := (hg i hi).2
      rw [if_neg (by omega)] at e
      rw [c4 i (by omega) (by omega), e]
      omega
    · rw [← numel_elems, ← numel_elems, c2]

/-- OneHot: every axis and depth. -/
theorem C72_onehot (axis : Int) (depth : Nat) (x : Tensor Int) (values : Tensor ℚ) :
    Agrees (.ok (oneHotShape axis depth x.shape)) (.ok (oneHotValue axis x depth values)) := by
  intro y hy
  injection hy with hy
  subst hy
  unfold oneHotValue oneHot oneHotShape
  simp only []
  have e : (if axis < 0 then axis + ((x.shape.length : Int) + 1) else axis) = if axis < 0 then ((x.shape.length + 1 : Nat) : Int) + axis else axis := by
    split_ifs <;> omega
  rw [e]
  generalize (if axis < 0 then ((x.shape.length + 1 : Nat) : Int) + axis else axis) = a
  have e2 : (if a < 0 then max 0 (a + (x.shape.length : Int)) else min a (x.shape.length : Int)).toNat =
      if a < 0 then (max 0 (a + (x.shape.length : Int))).toNat else min a.toNat x.shape.length := by
    split_ifs <;> omega
  rw [e2]

/-- ConstantOfShape: every value that can be computed. -/
theorem C72_constant_of_shape [Zero V] (value : Option (List V)) (shape : List Int) :
    AgreesInt (.ok (constantOfShapeShape shape)) (constantOfShapeValue value shape) := by
  intro y hy
  unfold constantOfShapeValue at hy
  split at hy
  · cases hy
  · split_ifs at hy with hn
    injection hy with hy
    subst hy
    unfold constantOfShapeShape
    simp only [List.map_map]
    congr 1
    conv_lhs => rw [← List.map_id shape]
    apply List.map_congr_left
    intro d hd
    have : ¬ d < 0 := fun h => hn (List.any_eq_true.2 ⟨d, hd, by simpa using h⟩)
    simp only [id, Function.comp, Int.ofNat_eq_natCast]
    omega

/-! ### Reductions -/

theorem reduced_shape (l : List Int) (keep : Bool) (s ks : List Nat) (h : npAxes s.length l = .ok ks) :
    reduceShape keep (some l) s = some (reducedShape ks keep 0 s) := by
  have hg : GoodAxes s.length l := by
    by_contra hc
    rw [npAxes_error hc] at h
    cases h
  obtain ⟨ks', h1, h2⟩ := npAxes_ok hg
  rw [h] at h1
  injection h1 with h1
  subst h1
  have hm : ∀ j : Nat, j ∈ l.map (axisOf s.length) ↔ j ∈ ks := by
    intro j
    rw [h2 j, List.mem_map]
    unfold Listed axisOf
    constructor
    · rintro ⟨a, ha, rfl⟩
      refine ⟨a, ha, ?_⟩
      have := hg.1 a ha
      split_ifs <;> omega
    · rintro ⟨a, ha, e⟩
      refine ⟨a, ha, ?_⟩
      have := hg.1 a ha
      split_ifs at e <;> split_ifs <;> omega
  obtain ⟨⟨y, g1, g2, g3⟩, g4⟩ := C26_reduce l s (fun a ha => (hg.1 a ha).1)
  cases keep with
  | true =>
    rw [g1, reducedShape_keep]
    congr 1
    apply List.ext_getElem
    · simp [g2]
    · intro j h1 h2
      have := g3 j (by omega)
      rw [List.getD_eq_getElem _ _ h1] at this
      rw [this, List.getElem_map, List.getElem_range, Nat.zero_add]
      by_cases hj : j ∈ ks
      · rw [if_pos hj, if_pos ((hm j).2 hj)]
      · rw [if_neg hj, if_neg (fun h => hj ((hm j).1 h))]
  | false =>
    rw [g4, reducedShape_drop]
    congr 2
    apply List.filter_congr
    intro j _
    rw [Nat.zero_add, decide_eq_decide, not_iff_not]
    exact hm j

/-- ReduceMean, ReduceProd, ReduceSum, ReduceMin, ReduceMax with axes; `keepdims` is 0 or 1. -/
theorem C72_reduce_partial (l : List Int) (keep : Bool) (x : Tensor ℚ) :
    AgreesOpt (reduceShape keep (some l) x.shape) (reduceMeanValue (.attr (some l)) (if keep then 1 else 0) x) ∧
    AgreesOpt (reduceShape keep (some l) x.shape) (reduceProdValue (.attr (some l)) (if keep then 1 else 0) x) ∧
    AgreesOpt (reduceShape keep (some l) x.shape) (reduceSumValue (.attr (some l)) (if keep then 1 else 0) x) ∧
    AgreesOpt (reduceShape keep (some l) x.shape) (reduceSumValue (.input l) (if keep then 1 else 0) x) ∧
    AgreesOpt (reduceShape keep (some l) x.shape) (reduceMinValue (.attr (some l)) (if keep then 1 else 0) x) ∧
    AgreesOpt (reduceShape keep (some l) x.shape) (reduceMaxValue (.attr (some l)) (if keep then 1 else 0) x) := by
  have hk : ((if keep then 1 else 0 : Int) == 1) = keep := by cases keep <;> rfl
  have main : ∀ (op : List ℚ → ℚ) (y : Tensor ℚ),
      (match npAxes x.shape.length l with
        | .error e => .error e
        | .ok ax => .ok (reduceOver ax keep op x)) = Except.ok (ε := PyErr) y → reduceShape keep (some l) x.shape = some y.shape := by
    intro op y hy
    cases h : npAxes x.shape.length l with
    | error e => rw [h] at hy; cases hy
    | ok ks =>
      rw [h] at hy
      injection hy with hy
      subst hy
      exact reduced_shape l keep x.shape ks h
  have main2 : ∀ (f : ℚ → ℚ → ℚ) (y : Tensor ℚ),
      (match npAxes x.shape.length l with
        | .error e => .error e
        | .ok ax => reduceFrom f ax keep x) = Except.ok (ε := PyErr) y → reduceShape keep (some l) x.shape = some y.shape := by
    intro f y hy
    cases h : npAxes x.shape.length l with
    | error e => rw [h] at hy; cases hy
    | ok ks =>
      rw [h] at hy
      unfold reduceFrom at hy
      simp only [] at hy
      split_ifs at hy
      injection hy with hy
      subst hy
      exact reduced_shape l keep x.shape ks h
  refine ⟨fun y hy => ?_, fun y hy => ?_, fun y hy => ?_, fun y hy => ?_, fun y hy => ?_, fun y hy => ?_⟩
  · unfold reduceMeanValue at hy; rw [hk] at hy; exact main _ y hy
  · unfold reduceProdValue at hy; rw [hk] at hy; exact main _ y hy
  · unfold reduceSumValue at hy; rw [hk] at hy; exact main _ y hy
  · unfold reduceSumValue at hy; rw [hk] at hy; exact main _ y hy
  · unfold reduceMinValue at hy; rw [hk] at hy; exact main2 _ y hy
  · unfold reduceMaxValue at hy; rw [hk] at hy; exact main2 _ y hy

/-- Falsifies the rest, for every operand: without axes the shape of the output is left as it was although the value is computed. -/
theorem C72_reduce_counterexample (keep : Bool) (keepdims : Int) (x : Tensor ℚ) :
    reduceShape keep none x.shape = none ∧ (∃ y, reduceSumValue (.attr none) keepdims x = .ok y) ∧ (∃ y, reduceMeanValue (.attr none) keepdims x = .ok y) ∧
    ∃ y, reduceProdValue (.attr none) keepdims x = .ok y := ⟨rfl, ⟨_, rfl⟩, ⟨_, rfl⟩, ⟨_, rfl⟩⟩

/-- CumSum, when the operand is not empty. -/
theorem C72_cumsum_partial (exclusive reverse axis : Int) (x : Tensor ℚ) (h : ∀ d ∈ x.shape, 0 < d) :
    Agrees (maxShape [x.shape, []]) (cumSumValue exclusive reverse axis x) := by
  intro y hy
  have hm : maxShape [x.shape, []] = .ok x.shape :=
    C20_returns_broadcast [x.shape, []] x.shape (by simp)
      ((broadcast_iff _ _).1 (by
        rw [C19_order_independent [x.shape, []] [[], x.shape] (by intro s; simp [or_comm])]
        exact (broadcast_iff _ _).2 ((broadcast_group (ss := []) (r := []) (ts := [x.shape]) ((broadcast_iff [] []).1 rfl)).2 (broadcast_single x.shape))))
      (by intro s hs d hd; rcases List.mem_cons.1 hs with rfl | hs; exact h d hd; simp at hs; subst hs; simp at hd)
  unfold cumSumValue at hy
  split_ifs at hy
  split at hy
  · cases hy
  · injection hy with hy
    subst hy
    exact hm

/-! ### Products, pooling, normalisation -/

section
variable {F : Type} [Field F]

/-- MatMul of operands with at least two axes, when one of them already has the broadcast leading axes. -/
theorem C72_matmul_partial (a b : Tensor F) (la lb r : List Nat) (m k n : Nat) (ha : a.shape = la ++ [m, k]) (hb : b.shape = lb ++ [k, n])
    (hr : IsBroadcast [la, lb] r) (hpa : ∀ d ∈ la, 0 < d) (hpb : ∀ d ∈ lb, 0 < d) (h : r = la ∨ (r = lb ∧ (la = [] ∨ elems la ≠ elems lb))) :
    (∃ y, matMulValue a b = .ok y) ∧ Agrees (gemmShape false false false a.shape b.shape) (matMulValue a b) := by
  obtain ⟨y, h1, h2, _⟩ := C71_matmul a b la lb r m k n ha hb hr
  refine ⟨⟨y, h1⟩, fun z hz => ?_⟩
  rw [h1] at hz
  injection hz with hz
  subst hz
  rw [ha, hb, (C42_gemm_partial la lb r m k k n false false hr hpa hpb h).2, h2]

/-- Falsifies the rest: leading axes that are broadcast on both sides; a vector on the left is refused by shape inference but has a value. -/
theorem C72_matmul_counterexample :
    gemmShape false false false [2, 1, 1, 1] [1, 3, 1, 1] = .ok [1, 3, 1, 1] ∧
    shown (matMulValue (ofFlatQ [2, 1, 1, 1] [1, 2]) (ofFlatQ [1, 3, 1, 1] [3, 4, 5])) = some ([2, 3, 1, 1], [3, 4, 5, 6, 8, 10]) ∧
    gemmShape false false false [2] [2, 1] = .error .runtimeError ∧ shown (matMulValue (ofFlatQ [2] [1, 2]) (ofFlatQ [2, 1] [3, 4])) = some ([1], [11]) :=
  ⟨rfl, by decide +kernel, rfl, by decide +kernel⟩

/-- Gemm of matrices, as ONNX demands. -/
theorem C72_gemm_partial (ta tb : Bool) (a b : Tensor F) (c : Option (Tensor F)) (m k n : Nat) (ha : a.shape = if ta then [k, m] else [m, k])
    (hb : b.shape = if tb then [n, k] else [k, n]) (hc : ∀ c', c = some c' → IsBroadcast [[m, n], c'.shape] [m, n]) :
    (∃ y, gemmValue (if ta then 1 else 0) (if tb then 1 else 0) a b c = .ok y) ∧
    Agrees (gemmShape true ta tb a.shape b.shape) (gemmValue (if ta then 1 else 0) (if tb then 1 else 0) a b c) := by
  obtain ⟨y, h1, h2⟩ := C71_gemm_partial ta tb a b c m k n ha hb hc
  refine ⟨⟨y, h1⟩, fun z hz => ?_⟩
  rw [h1] at hz
  injection hz with hz
  subst hz
  rw [h2.shape, ha, hb]
  cases ta <;> cases tb <;> simp [gemmShape]

/-- Gemm: falsified — a bias that widens the result is not seen by shape inference. -/
theorem C72_gemm_counterexample :
    gemmShape true false false [1, 1] [1, 2] = .ok [1, 2] ∧
    shown (gemmValue 0 0 (ofFlatQ [1, 1] [2]) (ofFlatQ [1, 2] [3, 4]) (some (ofFlatQ [2, 1] [10, 20]))) = some ([2, 2], [16, 18, 26, 28]) :=
  ⟨rfl, by decide +kernel⟩

/-- Conv and MaxPool: every computed value has the inferred shape. -/
theorem C72_conv (at' : Conv.Attrs) (x w : Tensor F) (b old : Option (Tensor F)) (z oldz : Tensor ℚ) :
    AgreesInt (Conv.convShape at' (x.shape.map Int.ofNat) (w.shape.map Int.ofNat)) (convValue at' x w b old) ∧
    AgreesInt (Conv.poolShape at' (z.shape.map Int.ofNat)) (maxPoolValue at' z (some oldz)) ∧
    AgreesInt (Conv.poolShape at' (z.shape.map Int.ofNat)) (maxPoolValue at' z none) := by
  have back : ∀ os : List Int, ¬ (os.any (· < 0) = true) → os = (os.map Int.toNat).map Int.ofNat := by
    intro os hn
    rw [List.map_map]
    conv_lhs => rw [← List.map_id os]
    apply List.map_congr_left
    intro d hd
    have : ¬ d < 0 := fun h => hn (List.any_eq_true.2 ⟨d, hd, by simpa using h⟩)
    simp only [id, Function.comp, Int.ofNat_eq_natCast]
    omega
  have pool : ∀ old : Option (Tensor ℚ), AgreesInt (Conv.poolShape at' (z.shape.map Int.ofNat)) (maxPoolValue at' z old) := by
    intro old y hy
    unfold maxPoolValue at hy
    split at hy
    · cases hy
    · rename_i os hos
      rw [hos]
      split_ifs at hy with c1
      split at hy
      · cases hy
      · injection hy with hy
        subst hy
        exact congrArg _ (back os c1)
  refine ⟨fun y hy => ?_, pool _, pool _⟩
  unfold convValue at hy
  by_cases c0 : at'.group ≠ 1
  · rw [if_pos c0] at hy; cases hy
  rw [if_neg c0] at hy
  split at hy
  · cases hy
  · rename_i os hos
    rw [hos]
    split_ifs at hy with c1
    split at hy
    · cases hy
    · injection hy with hy
      subst hy
      exact congrArg _ (back os c1)

/-- GlobalAveragePool: falsified for every operand. -/
theorem C72_global_average_counterexample (x y : Tensor F) (h : globalAveragePoolValue x = .ok y) : globalAveragePoolShape x.shape ≠ y.shape := by
  unfold globalAveragePoolValue at h
  split at h
  · rename_i n c hh w hx
    split_ifs at h
    injection h with h
    subst h
    rw [hx]
    simp [globalAveragePoolShape]
  · cases h

/-- … and by how much: the axes that shape inference keeps as 1 are missing. -/
theorem C72_global_average_partial (n c h w : Nat) (x : Tensor F) (hx : x.shape = [n, c, h, w]) (h0 : h * w ≠ 0) :
    globalAveragePoolShape x.shape = [n, c, 1, 1] ∧ ∃ y, globalAveragePoolValue x = .ok y ∧ y.shape = [n, c] := by
  obtain ⟨y, h1, h2, _⟩ := C71_global_average_partial n c h w x hx h0
  exact ⟨by rw [hx]; rfl, y, h1, h2⟩

/-- BatchNormalization and Softmax keep the shape. -/
theorem C72_normalisation (sqrt exp : F → F) (eps : F) (axis : Option Int) (x scale b mean var : Tensor F) :
    Agrees (.ok (firstShape x.shape [scale.shape, b.shape, mean.shape, var.shape])) (batchNormValue sqrt eps x scale b mean var) ∧
    Agrees (maxShape [x.shape]) (softmaxValue exp axis x) := by
  refine ⟨fun y hy => ?_, fun y hy => ?_⟩
  · unfold batchNormValue at hy
    split_ifs at hy
    injection hy with hy
    subst hy
    rfl
  · cases axis with
    | none => cases hy
    | some axis =>
      by_cases hr : -(x.shape.length : Int) ≤ axis ∧ axis < x.shape.length
      · obtain ⟨z, h1, h2⟩ := C71_softmax_partial exp axis x hr (if axis < 0 then axis + x.shape.length else axis).toNat (by split_ifs <;> omega)
        rw [h1] at hy
        injection hy with hy
        subst hy
        rw [h2.shape]
        simp [maxShape, OnnxTool.Shape.maxLoop]
      · unfold softmaxValue at hy
        simp only [npAxis_error hr] at hy
        cases hy
end

/-! ### Operators without a shape inference of their own: the value of made-up zeros -/

private theorem reshapeInts_shape (x y : Tensor V) (h : x.shape = y.shape) (l : List Int) : (reshapeInts x l).toOption.map (·.shape) = (reshapeInts y l).toOption.map (·.shape) := by
  unfold reshapeInts Tensor.reshape
  rw [h]
  split_ifs <;> rfl

private theorem agrees_of_shapes {x y : Except PyErr (Tensor V)} (h : y.toOption.map (·.shape) = x.toOption.map (·.shape)) : Agrees (shapeOf x) y := by
  intro z hz
  rw [hz] at h
  cases x with
  | error e => cases h
  | ok w =>
    injection h with h
    have h : z.shape = w.shape := h
    rw [h]
    rfl

private theorem asValueError_shape (r : Except PyErr (Tensor V)) : (asValueError r).toOption.map (·.shape) = r.toOption.map (·.shape) := by
  cases r <;> rfl

/-- Flatten. -/
theorem C72_zeros_flatten [Zero V] (axis : Option Int) (x : Tensor V) : Agrees (shapeOf (flattenValue axis (zerosOf x.shape : Tensor V))) (flattenValue axis x) := by
  apply agrees_of_shapes
  unfold flattenValue zerosOf
  cases axis with
  | none =>
    cases h : x.shape with
    | nil => rfl
    | cons d s =>
      simp only []
      rw [asValueError_shape, asValueError_shape, reshapeInts_shape x ⟨d :: s, fun _ => 0⟩ h]
  | some a =>
    simp only []
    cases leading x.shape a.toNat with
    | error e => rfl
    | ok v =>
      simp only []
      rw [asValueError_shape, asValueError_shape]
      exact reshapeInts_shape x ⟨x.shape, fun _ => 0⟩ rfl _

/-- Equal, Greater, GreaterOrEqual. -/
theorem C72_zeros_comparison (x y : Tensor ℚ) :
    Agrees (shapeOf (equalValue (zerosOf x.shape : Tensor ℚ) (zerosOf y.shape))) (equalValue x y) ∧
    Agrees (shapeOf (greaterValue (zerosOf x.shape) (zerosOf y.shape))) (greaterValue x y) ∧
    Agrees (shapeOf (greaterEqualValue (zerosOf x.shape) (zerosOf y.shape))) (greaterEqualValue x y) := by
  have main : ∀ f : ℚ → ℚ → Bool, Agrees (shapeOf (ufunc2 f (zerosOf x.shape : Tensor ℚ) (zerosOf y.shape))) (ufunc2 f x y) := by
    intro f
    apply agrees_of_shapes
    unfold ufunc2 zerosOf
    simp only []
    cases npShape x.shape y.shape <;> rfl
  exact ⟨main _, main _, main _⟩

/-- ArgMax and ReduceL2 (axes as an attribute or absent). -/
theorem C72_zeros_argmax (sqrt : ℚ → ℚ) (axis keepdims : Int) (axes : Option (List Int)) (x : Tensor ℚ) :
    Agrees (shapeOf (argMaxValue axis keepdims (zerosOf x.shape))) (argMaxValue axis keepdims x) ∧
    Agrees (shapeOf (reduceL2Value sqrt axes keepdims (zerosOf x.shape))) (reduceL2Value sqrt axes keepdims x) := by
  refine ⟨agrees_of_shapes ?_, agrees_of_shapes ?_⟩
  · unfold argMaxValue zerosOf
    simp only []
    cases npAxis x.shape.length axis with
    | error e => rfl
    | ok k =>
      simp only []
      split_ifs <;> rfl
  · unfold reduceL2Value zerosOf
    simp only []
    cases axesOf false x.shape.length (.attr axes) with
    | error e => rfl
    | ok k => rfl

/-- Shape: not only the shape, the made-up operand has the same value. -/
theorem C72_zeros_shape [Zero V] (x : Tensor V) : shapeValue (zerosOf x.shape : Tensor V) = shapeValue x := rfl

/-- NonZero: falsified for every operand that has a zero and a nonzero element — the zeros made up for shape inference give as many positions as there are elements. -/
theorem C72_zeros_nonzero_counterexample (x : Tensor ℚ) (i j : List Nat) (hi : InB x.shape i) (hj : InB x.shape j) (h0 : x.at i = 0) (h1 : x.at j ≠ 0)
    (hr : x.shape ≠ []) : (nonZeroValue (zerosOf x.shape)).shape = [x.shape.length, numel x.shape] ∧ (nonZeroValue x).shape ≠ (nonZeroValue (zerosOf x.shape)).shape := by
  have hall : (allIdx x.shape).length = numel x.shape := by simp [allIdx]
  have hz : (nonZeroValue (zerosOf x.shape)).shape = [x.shape.length, numel x.shape] := by
    unfold nonZeroValue zerosOf columns
    simp [hall]
  refine ⟨hz, ?_⟩
  rw [hz]
  have hlen : ((allIdx x.shape).filter fun i => decide (x.at i ≠ 0)).length < numel x.shape := by
    rw [← hall]
    refine List.length_filter_lt_length_iff_exists.2 ⟨i, allIdx_inb.2 hi, ?_⟩
    simp [h0]
  have hpos : 0 < ((allIdx x.shape).filter fun i => decide (x.at i ≠ 0)).length := by
    refine List.length_pos_of_mem (a := j) (List.mem_filter.2 ⟨allIdx_inb.2 hj, ?_⟩)
    simp [h1]
  have hr' : 0 < x.shape.length := List.length_pos_iff.2 hr
  unfold nonZeroValue
  simp only []
  rw [if_neg (by have := Nat.mul_pos hr' hpos; omega)]
  unfold columns
  simp only []
  intro h
  injection h with _ h
  injection h with h _
  omega

/-- Range, Tile and Compress, whose shape depends on values: falsified when the values are not known while shapes are inferred. -/
theorem C72_zeros_counterexample :
    (rangeValue 0 0 0).toOption.map (·.shape) = none ∧ (rangeValue 0 3 1).toOption.map (·.shape) = some [3] ∧
    (tileValue [0] (ofFlatQ [2] [1, 2])).shape = [0] ∧ (tileValue [3] (ofFlatQ [2] [1, 2])).shape = [6] ∧
    (compressValue (some 0) [false, false] (ofFlatQ [2] [0, 0])).toOption.map (·.shape) = some [0] ∧
    (compressValue (some 0) [true, false] (ofFlatQ [2] [1, 2])).toOption.map (·.shape) = some [1] := ⟨rfl, rfl, rfl, rfl, rfl, rfl⟩

/-! ### The hypotheses are met -/

example : shown (addValue (ofFlatQ [2, 1] [1, 2]) (ofFlatQ [2] [10, 20])) = some ([2, 2], [11, 21, 12, 22]) := by decide +kernel
example : broadcastShape [[2, 1], [2]] = .ok [2, 2] := rfl
example : shown (reduceSumValue (.attr (some [-1])) 0 (ofFlatQ [2, 2] [1, 2, 3, 4])) = some ([2], [3, 7]) ∧ reduceShape false (some [-1]) [2, 2] = some [2] :=
  ⟨by decide +kernel, rfl⟩
example : (reshapeValue [0, -1] (ofFlatQ [2, 3, 2] [1, 2, 3, 4, 5, 6, 7, 8, 9, 10, 11, 12])).toOption.map (·.shape) = some [2, 6] ∧
    reshapeShape [2, 3, 2] [0, -1] = .ok [2, 6] := ⟨rfl, rfl⟩
example : (sliceValue [3] [0] [0] (some [-1]) (ofFlatQ [4] [1, 2, 3, 4])).toOption.map (·.shape) = some [3] ∧ sliceShape [4] [3] [0] (some [0]) (some [-1]) = .ok [3] := ⟨rfl, rfl⟩
example : (matMulValue (ofFlatQ [2, 1, 2] [1, 2, 3, 4]) (ofFlatQ [2, 1] [5, 6])).toOption.map (·.shape) = some [2, 1, 1] ∧
    gemmShape false false false [2, 1, 2] [2, 1] = .ok [2, 1, 1] := ⟨by decide +kernel, rfl⟩
example : InB [2] [0] ∧ InB [2] [1] ∧ (ofFlatQ [2] [0, 5]).at [0] = 0 ∧ (ofFlatQ [2] [0, 5]).at [1] ≠ 0 := by decide +kernel

end
end OnnxTool.Props
