import Verif.Spec.Resample
import Mathlib.Data.Rat.Floor
import Mathlib.Data.List.Nodup
import Mathlib.Data.List.Perm.Subperm
import Mathlib.Tactic.SplitIfs
import Mathlib.Tactic.Ring
/-!
# C81: shapes of selecting, resampling and recurrent operators
-/
namespace OnnxTool.Props
open OnnxTool OnnxTool.Shape OnnxTool.Slice OnnxTool.Macs OnnxTool.Resample

/-! ### TopK -/

/-- **C81, TopK.** With an axis attribute in range the outputs have the input's shape with `k` at the axis; the node is not changed. -/
theorem C81_topk (a : Int) (x : List Nat) (k : Nat) (h1 : -(x.length : Int) ≤ a) (h2 : a < x.length) : ∃ out, topkShape (some a) x k = .ok (some a, out) ∧ ReplacedAt a k x out := by
  have key : ∃ p : Nat, p < x.length ∧ axesNeg2Pos x.length [a] = [(p : Int)] ∧ ((p : Int) = a ∨ (p : Int) = a + x.length) := by
    by_cases ha : a < 0
    · refine ⟨(x.length + a).toNat, by omega, ?_, .inr (by omega)⟩
      simp only [axesNeg2Pos, List.map_cons, List.map_nil, if_pos ha]
      congr 1; omega
    · refine ⟨a.toNat, by omega, ?_, .inl (by omega)⟩
      simp only [axesNeg2Pos, List.map_cons, List.map_nil, if_neg ha]
      congr 1; omega
  obtain ⟨p, hp, he, hpa⟩ := key
  have hx : x = x.take p ++ x[p] :: x.drop (p + 1) := by simp
  have hl : (x.take p).length = p := by rw [List.length_take]; omega
  refine ⟨x.mapIdx fun i d => if [(i : Int)] = axesNeg2Pos x.length [a] then k else d, by simp [topkShape], x.take p, x[p], x.drop (p + 1), hx, ?_, ?_⟩
  · rw [he]
    refine List.ext_getElem ?_ fun i hi1 hi2 => ?_
    · simp; omega
    · rw [List.getElem_mapIdx]
      rcases Nat.lt_trichotomy i p with h | h | h
      · rw [List.getElem_append_left (by omega), List.getElem_take, if_neg (by simp; omega)]
      · subst h
        rw [if_pos rfl, List.getElem_append_right (by omega)]
        simp [hl]
      · rw [List.getElem_append_right (by omega), if_neg (by simp; omega)]
        simp only [hl]
        obtain ⟨j, rfl⟩ : ∃ j, i = p + 1 + j := ⟨i - p - 1, by omega⟩
        have e : p + 1 + j - p = j + 1 := by omega
        simp only [e, List.getElem_cons_succ, List.getElem_drop]
  · rw [hl]; exact hpa
example : topkShape (some (-2)) [4, 7, 5] 3 = .ok (some (-2), [4, 3, 5]) := rfl

/-- **C81 finding: TopK without `axis`.** ONNX's default is the last axis; the code raises `TypeError` for every tensor that is not one-dimensional, and for one-dimensional tensors stores
axis 0 in the node, so that a later call with another shape replaces the first dimension instead of the last. -/
theorem C81_topk_default (x : List Nat) (k : Nat) :
    (x.length ≠ 1 → topkShape none x k = .error .typeError) ∧
    ∀ (n : Nat) (y : List Nat), (topkShape none [n] k).toOption.bind (fun r => (topkShape r.1 (x.length :: y) k).toOption.map (·.2)) = some (k :: y) := by
  constructor
  · intro h
    simp [topkShape, h]
  · intro n y
    have : y.mapIdx (fun i d => if [((i + 1 : Nat) : Int)] = axesNeg2Pos (y.length + 1) [0] then k else d) = y := by
      refine List.ext_getElem (by simp) fun i h1 h2 => ?_
      rw [List.getElem_mapIdx, if_neg]
      simp [axesNeg2Pos]
      omega
    simp only [topkShape, List.length_singleton, true_and, if_true, Except.toOption, Option.bind_some]
    simp only [show (x.length :: y).length = y.length + 1 from rfl]
    simp only [reduceCtorEq, and_false, if_false, Option.map_some]
    rw [List.mapIdx_cons, if_pos (by simp [axesNeg2Pos]), this]

/-! ### Resize -/

/-- **C81, Resize by scales.** With one scale per dimension every dimension is the floor of its scaled value. -/
theorem C81_resize_scales (nin : Nat) (x : List Nat) (scales : List Rat) (hn : nin = 2 ∨ nin = 3) (hl : scales.length = x.length) (hpos : ∀ s ∈ scales, 0 ≤ s) :
    ∃ out, resizeShape nin x scales [] = .ok out ∧ ScaledBy scales x out := by
  refine ⟨List.zipWith (fun (d : Nat) s => ((d : Rat) * s).floor.toNat) x scales, ?_, by simp [hl], ?_⟩
  · rw [resizeShape, if_neg (by simp), if_neg (by omega)]
  · intro i d o s hd hs ho
    rw [List.getElem?_zipWith, hd, hs] at ho
    cases ho
    have h0 : 0 ≤ (d : Rat) * s := mul_nonneg (Nat.cast_nonneg d) (hpos s (List.mem_of_getElem? hs))
    have h1 : (((((d : Rat) * s).floor.toNat : Nat) : Int) : Rat) = ((((d : Rat) * s).floor : Int) : Rat) := by
      rw [Int.toNat_of_nonneg (Rat.le_floor_iff.mpr (by simpa using h0))]
    have h2 : ((((d : Rat) * s).floor.toNat : Nat) : Rat) = ((((d : Rat) * s).floor : Int) : Rat) := by
      rw [← h1]; norm_cast
    rw [h2]
    exact ⟨Rat.floor_le _, by have := Rat.lt_floor_add_one ((d : Rat) * s); exact_mod_cast this⟩

/-- **C81, Resize by sizes.** With four inputs and one size per dimension the shape is the sizes — unless the tensor is two-dimensional. -/
theorem C81_resize_sizes_partial (nin : Nat) (x : List Nat) (scales : List Rat) (sizes : List Nat) (hn : 4 ≤ nin) (hl : sizes.length = x.length) (h0 : x ≠ []) (h2 : x.length ≠ 2) :
    resizeShape nin x scales sizes = .ok sizes := by
  have hs : sizes ≠ [] := by rintro rfl; exact h0 (List.length_eq_zero_iff.mp hl.symm)
  rw [resizeShape, if_pos ⟨hn, hs⟩, resizeBySizes]
  · rw [if_pos hl]
  · rintro s t rfl
    simp at hl; omega

/-- **C81 finding: Resize of a matrix by sizes, and sizes for the two last axes.** The two sizes are added to the first two dimensions instead of replacing the last two: `list + array` is
element-wise, and a single dimension is added to both. -/
theorem C81_resize_two_sizes_wrong (nin : Nat) (a b s t : Nat) (rest : List Nat) (scales : List Rat) (hn : 4 ≤ nin) : resizeShape nin (a :: b :: rest) scales [s, t] = .ok [a + s, b + t] ∧
    resizeShape nin [a] scales [s, t] = .ok [a + s, a + t] ∧ resizeShape nin [] scales [s, t] = .error .valueError := by
  rw [resizeShape, if_pos ⟨hn, by simp⟩, resizeShape, if_pos ⟨hn, by simp⟩, resizeShape, if_pos ⟨hn, by simp⟩]
  exact ⟨rfl, rfl, rfl⟩
example : resizeShape 4 [2, 3] [] [4, 6] = .ok [6, 9] := rfl

/-- **C81 finding: Upsample with its scales as an attribute** (opset 7 and 8, one input) always raises. -/
theorem C81_upsample_attribute_raises (x : List Nat) (scales : List Rat) (sizes : List Nat) : resizeShape 1 x scales sizes = .error .runtimeError := by
  rw [resizeShape, if_neg (by omega), if_pos (by omega)]

/-- **C81 finding: scales for some of the axes** (attribute `axes`, opset 18): the other dimensions are dropped. -/
theorem C81_resize_axes_dropped (x : List Nat) (scales : List Rat) (hl : scales.length < x.length) : ∃ out, resizeShape 3 x scales [] = .ok out ∧ out.length = scales.length := by
  refine ⟨_, by rw [resizeShape, if_neg (by simp), if_neg (by omega)], ?_⟩
  rw [List.length_zipWith]; omega

/-! ### DepthToSpace, GridSample, RoiAlign, ArrayFeatureExtractor -/

/-- **C81, DepthToSpace.** The shape is the one prescribed, with the same number of elements, whenever the channels can be split; otherwise the code makes up a shape with fewer elements
instead of rejecting the node. -/
theorem C81_depthToSpace (b n c h w : Nat) (hb : 0 < b) : (∃ out, depthToSpaceShape b [n, b * b * c, h, w] = .ok out ∧ DepthToSpace b [n, b * b * c, h, w] out ∧ volume out = volume [n, b * b * c, h, w]) ∧
    ∀ c', ¬ b * b ∣ c' → 0 < n → 0 < h → 0 < w → ∃ out, depthToSpaceShape b [n, c', h, w] = .ok out ∧ volume out < volume [n, c', h, w] := by
  have hbb : 0 < b * b := Nat.mul_pos hb hb
  constructor
  · refine ⟨[n, c, h * b, w * b], ?_, ⟨n, c, h, w, rfl, rfl⟩, ?_⟩
    · rw [depthToSpaceShape, if_neg (by omega), Nat.mul_div_cancel_left _ hbb]
    · simp only [volume, List.length_cons, List.foldl_cons, List.foldl_nil]
      simp only [Nat.zero_lt_succ, gt_iff_lt, if_true]
      ring
  · intro c' hd hn hh hw
    refine ⟨[n, c' / (b * b), h * b, w * b], ?_, ?_⟩
    · rw [depthToSpaceShape, if_neg (by omega)]
    · simp only [volume, List.length_cons, List.foldl_cons, List.foldl_nil, Nat.zero_lt_succ, gt_iff_lt, if_true, Nat.one_mul]
      have h1 : c' / (b * b) * (b * b) < c' := by
        rcases Nat.lt_or_ge (c' / (b * b) * (b * b)) c' with h | h
        · exact h
        · exact absurd (Nat.dvd_of_mul_dvd_mul_left (by omega : 0 < 1) (by simpa using ⟨c' / (b * b), by have := Nat.div_mul_le_self c' (b * b); rw [Nat.mul_comm (b * b)]; omega⟩)) hd
      calc n * (c' / (b * b)) * (h * b) * (w * b) = (n * h * w) * (c' / (b * b) * (b * b)) := by ring
        _ < (n * h * w) * c' := Nat.mul_lt_mul_of_pos_left h1 (Nat.mul_pos (Nat.mul_pos hn hh) hw)
        _ = n * c' * h * w := by ring

/-- **C81, GridSample.** For matching operands the shape is the one prescribed, if the two shapes are of the same kind of Python sequence. -/
theorem C81_gridSample (kind : Bool) (x grid out : List Nat) (h : GridSampled x grid out) : gridSampleShape ⟨kind, x⟩ ⟨kind, grid⟩ = .ok ⟨kind, out⟩ := by
  obtain ⟨n, c, xs, os, rfl, rfl, hl, rfl⟩ := h
  have : (n :: os ++ [xs.length]).getLast? = some xs.length := List.getLast?_concat
  rw [gridSampleShape]
  simp only [this, if_true]
  simp [← hl]
example : GridSampled [2, 3, 8, 8] [2, 4, 5, 2] [2, 3, 4, 5] := ⟨2, 3, [8, 8], [4, 5], rfl, rfl, rfl, rfl⟩

/-- **C81 finding: GridSample raises `TypeError` for every model whose input is given as an array** — its shape is then a tuple — while the grid is computed by a node that sets its shape to
a list, or the other way round. -/
theorem C81_gridSample_kinds_raise (k : Bool) (x grid : List Nat) (h : grid ≠ []) : gridSampleShape ⟨k, x⟩ ⟨!k, grid⟩ = .error .typeError := by
  rw [gridSampleShape]
  obtain ⟨r, hr⟩ : ∃ r, grid.getLast? = some r := ⟨grid.getLast h, List.getLast?_eq_some_getLast h⟩
  simp only [hr]
  cases k <;> rfl

/-- **C81, RoiAlign.** `[rois, channels, output_height, output_width]`; without the attributes, whose default is 1 in ONNX, the code raises. -/
theorem C81_roiAlign (h w n c a b : Nat) (rest brest : List Nat) : roiAlignShape (some h) (some w) [a, c, b, b] (n :: 4 :: rest) (n :: brest) = .ok [n, c, h, w] ∧
    ∀ o, roiAlignShape none o [a, c, b, b] (n :: 4 :: rest) (n :: brest) = .error .attributeError ∧ roiAlignShape o none [a, c, b, b] (n :: 4 :: rest) (n :: brest) = .error .attributeError := by
  refine ⟨by simp [roiAlignShape], fun o => ⟨by simp [roiAlignShape], ?_⟩⟩
  cases o <;> simp [roiAlignShape]

/-- **C81 finding: ArrayFeatureExtractor** selects columns, so its output has the rows of the data; the code predicts the shape of the list of columns. -/
theorem C81_arrayFeature_rows_lost (rows cols k : Nat) : arrayFeatureShape [rows, cols] [1, k] = [rows, k] ↔ rows = 1 := by
  simp [arrayFeatureShape, eq_comm]

/-! ### NonMaxSuppression -/

theorem sum_const_le (f : Nat → Nat) (B : Nat) (l : List Nat) (h : ∀ x ∈ l, f x ≤ B) : (l.map f).sum ≤ l.length * B := by
  induction l with
  | nil => simp
  | cons a l ih =>
    have h1 := h a List.mem_cons_self
    have h2 := ih fun x hx => h x (List.mem_cons_of_mem _ hx)
    rw [List.map_cons, List.sum_cons, List.length_cons, Nat.succ_mul]; omega

/-- counting a list by a key -/
theorem length_by_key {α : Type} (key : α → Nat) (n : Nat) (l : List α) (h : ∀ x ∈ l, key x < n) : l.length = ((List.range n).map fun k => (l.filter fun x => key x = k).length).sum := by
  induction l with
  | nil => simp
  | cons a l ih =>
    have hk : ∀ k, ((a :: l).filter fun x => key x = k).length = (l.filter fun x => key x = k).length + if key a = k then 1 else 0 := by
      intro k
      by_cases e : key a = k
      · simp [e]
      · simp [e]
    have hsum : ∀ (m : Nat) (f : Nat → Nat), ((List.range m).map fun k => f k + if key a = k then 1 else 0).sum = ((List.range m).map f).sum + if key a < m then 1 else 0 := by
      intro m f
      induction m with
      | zero => simp
      | succ m ihm =>
        rw [List.range_succ, List.map_append, List.map_append, List.sum_append_nat, List.sum_append_nat, ihm]
        simp only [List.map_cons, List.map_nil, List.sum_cons, List.sum_nil]
        split_ifs <;> omega
    rw [List.length_cons, ih fun x hx => h x (List.mem_cons_of_mem _ hx)]
    simp only [hk]
    rw [hsum, if_pos (h a List.mem_cons_self)]

/-- no selection is larger than one box list per batch and class -/
theorem selection_bound {N C B m : Nat} {sel : List (Nat × Nat × Nat)} (h : Selection N C B m sel) : sel.length ≤ N * C * min m B := by
  rw [length_by_key (·.1) N sel fun t ht => (h.inRange t ht).1, Nat.mul_assoc]
  refine Nat.le_trans (sum_const_le _ (C * min m B) _ fun b _ => ?_) (by simp)
  rw [length_by_key (·.2.1) C _ fun t ht => (h.inRange t (List.mem_filter.mp ht).1).2.1]
  refine Nat.le_trans (sum_const_le _ (min m B) _ fun c _ => ?_) (by simp)
  refine Nat.le_min.mpr ⟨?_, ?_⟩
  · refine Nat.le_trans (Nat.le_of_eq ?_) (h.most b c)
    rw [List.filter_filter]
    refine congrArg List.length (List.filter_congr fun t _ => ?_)
    by_cases h1 : t.1 = b <;> by_cases h2 : t.2.1 = c <;> simp [h1, h2]
  · -- distinct boxes
    have hnd : ((List.filter (fun t : Nat × Nat × Nat => decide (t.2.1 = c)) (List.filter (fun t => decide (t.1 = b)) sel)).map fun t => t.2.2).Nodup := by
      refine List.Nodup.map_on ?_ ((h.distinct.filter _).filter _)
      intro x hx y hy e
      simp only [List.mem_filter, decide_eq_true_eq] at hx hy
      obtain ⟨x1, x2, x3⟩ := x
      obtain ⟨y1, y2, y3⟩ := y
      simp_all
    have hsub : ∀ z ∈ (List.filter (fun t : Nat × Nat × Nat => decide (t.2.1 = c)) (List.filter (fun t => decide (t.1 = b)) sel)).map fun t => t.2.2, z ∈ List.range B := by
      intro z hz
      obtain ⟨t, ht, rfl⟩ := List.mem_map.mp hz
      simp only [List.mem_filter] at ht
      exact List.mem_range.mpr (h.inRange t ht.1.1).2.2
    have := (List.subperm_of_subset hnd hsub).length_le
    simpa using this

/-- the largest selection -/
def allSelected (N C k : Nat) : List (Nat × Nat × Nat) := (List.range N).flatMap fun b => (List.range C).flatMap fun c => (List.range k).map fun i => (b, c, i)

theorem allSelected_length (N C k : Nat) : (allSelected N C k).length = N * C * k := by
  simp [allSelected, List.length_flatMap, Nat.mul_assoc]

theorem allSelected_selection (N C B m : Nat) : Selection N C B m (allSelected N C (min m B)) := by
  refine ⟨?_, ?_, ?_⟩
  · unfold allSelected
    rw [List.nodup_flatMap]
    refine ⟨fun b _ => ?_, ?_⟩
    · rw [List.nodup_flatMap]
      refine ⟨fun c _ => ?_, ?_⟩
      · exact List.nodup_range.map (by intro a a' h; simpa using h)
      · refine List.Pairwise.imp ?_ List.nodup_range
        intro a a' hne x hx hx'
        simp only [List.mem_map, List.mem_range] at hx hx'
        obtain ⟨i, _, rfl⟩ := hx
        obtain ⟨j, _, e⟩ := hx'
        simp at e; exact hne e.1.symm
    · refine List.Pairwise.imp ?_ List.nodup_range
      intro a a' hne x hx hx'
      simp only [List.mem_flatMap, List.mem_map, List.mem_range] at hx hx'
      obtain ⟨_, _, i, _, rfl⟩ := hx
      obtain ⟨_, _, j, _, e⟩ := hx'
      simp at e; exact hne e.1.symm
  · intro t ht
    simp only [allSelected, List.mem_flatMap, List.mem_map, List.mem_range] at ht
    obtain ⟨b, hb, c, hc, i, hi, rfl⟩ := ht
    exact ⟨hb, hc, by simp only; omega⟩
  · intro b c
    have hnd : (((allSelected N C (min m B)).filter fun t => t.1 = b ∧ t.2.1 = c).map fun t => t.2.2).Nodup := by
      refine List.Nodup.map_on ?_ (List.Nodup.filter _ ?_)
      · intro x hx y hy e
        simp only [List.mem_filter, decide_eq_true_eq] at hx hy
        obtain ⟨x1, x2, x3⟩ := x
        obtain ⟨y1, y2, y3⟩ := y
        simp_all
      · unfold allSelected
        rw [List.nodup_flatMap]
        refine ⟨fun b _ => ?_, ?_⟩
        · rw [List.nodup_flatMap]
          refine ⟨fun c _ => ?_, ?_⟩
          · exact List.nodup_range.map (by intro a a' h; simpa using h)
          · refine List.Pairwise.imp ?_ List.nodup_range
            intro a a' hne x hx hx'
            simp only [List.mem_map, List.mem_range] at hx hx'
            obtain ⟨i, _, rfl⟩ := hx
            obtain ⟨j, _, e⟩ := hx'
            simp at e; exact hne e.1.symm
        · refine List.Pairwise.imp ?_ List.nodup_range
          intro a a' hne x hx hx'
          simp only [List.mem_flatMap, List.mem_map, List.mem_range] at hx hx'
          obtain ⟨_, _, i, _, rfl⟩ := hx
          obtain ⟨_, _, j, _, e⟩ := hx'
          simp at e; exact hne e.1.symm
    have hsub : ∀ z ∈ ((allSelected N C (min m B)).filter fun t => t.1 = b ∧ t.2.1 = c).map fun t => t.2.2, z ∈ List.range (min m B) := by
      intro z hz
      obtain ⟨t, ht, rfl⟩ := List.mem_map.mp hz
      have ht := (List.mem_filter.mp ht).1
      simp only [allSelected, List.mem_flatMap, List.mem_map, List.mem_range] at ht
      obtain ⟨_, _, _, _, i, hi, rfl⟩ := ht
      exact List.mem_range.mpr hi
    have := (List.subperm_of_subset hnd hsub).length_le
    simp only [List.length_map, List.length_range] at this
    omega

/-- **C81, NonMaxSuppression.** The number of rows depends on the data; the code predicts `min m (batches * boxes)`.  That is enough for every possible result exactly if
`batches * classes * min m boxes` is no larger — so it is for one batch and one class. -/
theorem C81_nms_iff (N C B m : Nat) : nmsShape [N, B, 4] [N, C, B] (some m) = .ok [min m (N * B), 3] ∧
    ((∀ sel, Selection N C B m sel → sel.length ≤ min m (N * B)) ↔ N * C * min m B ≤ min m (N * B)) := by
  refine ⟨by simp [nmsShape, volume], fun h => ?_, fun h sel hs => Nat.le_trans (selection_bound hs) h⟩
  have := h _ (allSelected_selection N C B m)
  rwa [allSelected_length] at this

/-- **C81, NonMaxSuppression of one class in one image.** -/
theorem C81_nms_one (B m : Nat) (sel : List (Nat × Nat × Nat)) (h : Selection 1 1 B m sel) : sel.length ≤ min m (1 * B) := (C81_nms_iff 1 1 B m).2.mpr (by simp) sel h

/-- **C81 finding: several classes.** `m` is the number of boxes per class, but the code reads it as the total: with two or more classes and at least one box a possible result is larger
than predicted. -/
theorem C81_nms_classes_wrong (C B m : Nat) (hC : 2 ≤ C) (hB : 1 ≤ B) (hm : 1 ≤ m) : ∃ sel, Selection 1 C B m sel ∧ min m (1 * B) < sel.length := by
  refine ⟨_, allSelected_selection 1 C B m, ?_⟩
  rw [allSelected_length, Nat.one_mul, Nat.one_mul]
  have h1 : 1 ≤ min m B := by omega
  have h2 : 2 * min m B ≤ C * min m B := Nat.mul_le_mul_right _ hC
  omega

/-! ### LSTM and GRU -/

/-- **C81, LSTM and GRU** in the default layout: the shapes prescribed. -/
theorem C81_recurrent (seq batch dirs hidden inp nout : Nat) (hn : 1 ≤ nout) (h3 : nout ≤ 3) (attr : Option Nat) (ha : attr = none ∨ attr = some hidden) :
    lstmShape attr nout [seq, batch, inp] [dirs, 4 * hidden, inp] = .ok (rnnShapes false (nout - 1) seq batch dirs hidden) ∧
    (nout = 2 → gruShape nout [seq, batch, inp] [dirs, 3 * hidden, inp] = .ok (rnnShapes false 1 seq batch dirs hidden)) := by
  constructor
  · have e : 4 * hidden / 4 = hidden := by omega
    simp only [lstmShape, List.getElem?_cons_zero, List.getElem?_cons_succ, e]
    rw [if_neg (by rcases ha with rfl | rfl <;> simp)]
    obtain rfl | rfl | rfl : nout = 1 ∨ nout = 2 ∨ nout = 3 := by omega
    all_goals simp [rnnShapes, List.replicate]
  · rintro rfl
    have e : 3 * hidden / 3 = hidden := by omega
    simp only [gruShape, List.getElem?_cons_zero, List.getElem?_cons_succ, e]
    simp [rnnShapes, List.replicate]

/-- **C81 finding: `layout = 1`** (batch first) is ignored: the shape of the sequence output is right only if there are as many steps as directions. -/
theorem C81_layout_ignored (seq batch dirs hidden inp : Nat) :
    lstmShape none 1 [batch, seq, inp] [dirs, 4 * hidden, inp] = .ok (rnnShapes true 0 seq batch dirs hidden) ↔ seq = dirs := by
  have e : 4 * hidden / 4 = hidden := by omega
  simp only [lstmShape, List.getElem?_cons_zero, List.getElem?_cons_succ, e]
  simp [rnnShapes]
  exact fun h => h.symm

/-- **C81 finding: a GRU with only the sequence output raises.** -/
theorem C81_gru_one_output_raises (x w : List Nat) : ∃ e, gruShape 1 x w = .error e := by
  unfold gruShape
  split
  · exact ⟨_, rfl⟩
  · exact ⟨_, rfl⟩

theorem rnnTerms_length (d s b g w : Nat) : (rnnTerms d s b g w).length = d * s * b * g * w := by
  simp [rnnTerms, List.length_flatMap, Nat.mul_assoc]

/-- the other operations for one unit of one step: activations, products and sums of an LSTM cell, of a GRU cell -/
def lstmCell : Nat := 3 * EXP + 2 * TANH + 3 * MUL + 5 * ADD
def gruCell : Nat := 2 * EXP + TANH + 3 * MUL + 5 * ADD

/-- **C81, cost of an LSTM.** The matrix part of the cost is the number of scalar multiplications, for all directions; the rest is counted for one direction only. -/
theorem C81_lstm_macs (attr : Option Nat) (seq batch dirs hidden inp : Nat) (ha : attr = none ∨ attr = some hidden) :
    lstmMacs attr [seq, batch, inp] [dirs, 4 * hidden, inp] [dirs, 4 * hidden, hidden] (some [dirs, 8 * hidden]) =
      .ok ((rnnTerms dirs seq batch (4 * hidden) inp).length + (rnnTerms dirs seq batch (4 * hidden) hidden).length + dirs * seq * batch * 8 * hidden + seq * batch * hidden * lstmCell) := by
  have e : 4 * hidden / 4 = hidden := by omega
  simp only [lstmMacs, List.getElem?_cons_zero, List.getElem?_cons_succ, e, rnnTerms_length]
  rw [if_neg (by rcases ha with rfl | rfl <;> simp)]
  simp only [volume, List.length_cons, List.length_nil, List.foldl_cons, List.foldl_nil, gt_iff_lt, Nat.zero_lt_succ, if_true, lstmCell, TANH, EXP, ADD, MUL, DIV, Except.ok.injEq]
  ring

/-- **C81, cost of a GRU.** -/
theorem C81_gru_macs (seq batch dirs hidden inp : Nat) :
    gruMacs [seq, batch, inp] [dirs, 3 * hidden, inp] [dirs, 3 * hidden, hidden] (some [dirs, 6 * hidden]) =
      .ok ((rnnTerms dirs seq batch (3 * hidden) inp).length + (rnnTerms dirs seq batch (3 * hidden) hidden).length + dirs * seq * batch * 6 * hidden + seq * batch * hidden * gruCell) := by
  have e : 3 * hidden / 3 = hidden := by omega
  simp only [gruMacs, List.getElem?_cons_zero, List.getElem?_cons_succ, e, rnnTerms_length]
  simp only [volume, List.length_cons, List.length_nil, List.foldl_cons, List.foldl_nil, gt_iff_lt, Nat.zero_lt_succ, if_true, gruCell, TANH, EXP, ADD, MUL, DIV, Except.ok.injEq]
  ring

/-- **C81 finding: bidirectional layers.** Two directions cost less than twice one direction: the cost of the activations is counted once. -/
theorem C81_bidirectional_undercounted (seq batch hidden inp : Nat) (h1 : 0 < seq) (h2 : 0 < batch) (h3 : 0 < hidden) :
    ∃ one two, lstmMacs none [seq, batch, inp] [1, 4 * hidden, inp] [1, 4 * hidden, hidden] (some [1, 8 * hidden]) = .ok one ∧
      lstmMacs none [seq, batch, inp] [2, 4 * hidden, inp] [2, 4 * hidden, hidden] (some [2, 8 * hidden]) = .ok two ∧ two + seq * batch * hidden * lstmCell = 2 * one ∧ two < 2 * one := by
  refine ⟨_, _, C81_lstm_macs none seq batch 1 hidden inp (.inl rfl), C81_lstm_macs none seq batch 2 hidden inp (.inl rfl), ?_⟩
  have hp : 0 < seq * batch * hidden * lstmCell := Nat.mul_pos (Nat.mul_pos (Nat.mul_pos h1 h2) h3) (by decide)
  have e : (rnnTerms 2 seq batch (4 * hidden) inp).length + (rnnTerms 2 seq batch (4 * hidden) hidden).length + 2 * seq * batch * 8 * hidden + seq * batch * hidden * lstmCell + seq * batch * hidden * lstmCell =
      2 * ((rnnTerms 1 seq batch (4 * hidden) inp).length + (rnnTerms 1 seq batch (4 * hidden) hidden).length + 1 * seq * batch * 8 * hidden + seq * batch * hidden * lstmCell) := by
    simp only [rnnTerms_length]
    ring
  exact ⟨e, by omega⟩

/-- **C81 finding: no bias, no `mode`.** Profiling an LSTM or GRU without bias, or a Resize without `mode` (whose default is `nearest`), raises. -/
theorem C81_profile_defaults_raise (attr : Option Nat) (x w r y : List Nat) :
    (∃ e, lstmMacs attr x w r none = .error e) ∧ (∃ e, gruMacs x w r none = .error e) ∧ resizeMacs none y = .error .attributeError := ⟨⟨_, rfl⟩, ⟨_, rfl⟩, rfl⟩

/-- **C81, cost of a Resize** by `nearest`, `linear` or `cubic`: nothing, four or eight operations for each output element — the cost of interpolating in two dimensions, whatever the number of
resized axes. -/
theorem C81_resize_macs (y : List Nat) : resizeMacs (some "nearest") y = .ok 0 ∧ resizeMacs (some "linear") y = .ok (4 * volume y) ∧ resizeMacs (some "cubic") y = .ok (8 * volume y) := by
  refine ⟨rfl, ?_, ?_⟩
  · simp [resizeMacs, Nat.mul_comm]
  · simp [resizeMacs, Nat.mul_comm]

end OnnxTool.Props
