import Verif.Proofs.ValueMove
import Verif.Props.Kernels
import Verif.Props.KernelsNorm
/-!
# C68: value inference of the operators that move data computes what ONNX says

`IsGather`, `IsSlice`, `IsConcat`, … are the ONNX meanings on elements (`Spec/Kernels.lean`, `Spec/KernelsCut.lean`, `Spec/Values.lean`).
-/
namespace OnnxTool.Props
open OnnxTool OnnxTool.Torch OnnxTool.Kernels OnnxTool.Slice OnnxTool.Values

section
variable {V : Type}

/-! ### Gather -/

/-- Gather: any axis (negative too), any index tensor (scalars and negative entries included). -/
theorem C68_gather (axis : Int) (x : Tensor V) (ids : Tensor Int) (h : -(x.shape.length : Int) ≤ axis ∧ axis < x.shape.length)
    (hi : GatherIndicesOk (axisOf x.shape.length axis) x ids) :
    ∃ y, gatherValue axis x ids = .ok y ∧ IsGather (axisOf x.shape.length axis) x ids y := take_ok axis x ids h hi

/-- An index outside the axis is refused, never read as something else. -/
theorem C68_gather_refused (axis : Int) (x : Tensor V) (ids : Tensor Int) (h : -(x.shape.length : Int) ≤ axis ∧ axis < x.shape.length)
    (hi : ¬ GatherIndicesOk (axisOf x.shape.length axis) x ids) : gatherValue axis x ids = .error .indexError := take_error axis x ids h hi

/-! ### Slice -/

/-- Slice on axes 0 to 4 given as non-negative numbers, steps of both signs.  (Missing: negative axes and axes above 4.) -/
theorem C68_slice_partial (starts ends : List Int) (axes : List Nat) (steps : Option (List Int)) (x : Tensor V)
    (h1 : axes.length = starts.length) (h2 : axes.length = ends.length) (h3 : ∀ l, steps = some l → axes.length = l.length)
    (hr : ∀ a ∈ axes, a < x.shape.length ∧ a ≤ 4) (hn : axes.Nodup)
    (hst : ∀ l, steps = some l → ∀ j, j < axes.length → l.getD j 0 ≠ 0 ∧
      (0 < l.getD j 0 ∨ (0 < x.shape.getD (axes.getD j 0) 0 ∧ -(x.shape.getD (axes.getD j 0) 0 : Int) ≤ starts.getD j 0))) :
    ∃ y, sliceValue starts ends (axes.map Int.ofNat) steps x = .ok y ∧
      IsSlice starts ends (axes.map Int.ofNat) (steps.getD (List.replicate starts.length 1)) x y :=
  sliceValue_ok starts ends axes steps x h1 h2 h3 hr hn hst

/-- Falsifies the rest: an axis that is negative or above 4 is skipped, whatever the bounds are — the value is the whole operand. -/
theorem C68_slice_ignored (starts ends axes : List Int) (steps : Option (List Int)) (x : Tensor V) (h : ∀ a ∈ axes, a < 0 ∨ 4 < a) :
    sliceValue starts ends axes steps x = .ok x := sliceLoop_ignored axes 0 x h

/-! ### Concat and Split -/

/-- Concat: the operands are the consecutive parts of the result. -/
theorem C68_concat (axis : Int) (lead trail : List Nat) (xs : List (Tensor V)) (hne : xs ≠ []) (hs : ∀ x ∈ xs, ∃ d, x.shape = lead ++ d :: trail)
    (hr : -((lead.length + 1 + trail.length : Nat) : Int) ≤ axis ∧ axis < (lead.length + 1 + trail.length : Nat))
    (hp : axisOf (lead.length + 1 + trail.length) axis = lead.length) :
    ∃ y, concatValue axis xs = .ok y ∧ IsConcat lead.length xs y ∧ y.shape = lead ++ (xs.map fun x => x.shape.getD lead.length 0).sum :: trail :=
  concatValue_ok axis lead trail xs hne hs hr hp

/-- Split with sizes.  (Missing: a last size of zero.) -/
theorem C68_split_partial (axis : Int) (sizes : List Nat) (x : Tensor V) (h : -(x.shape.length : Int) ≤ axis ∧ axis < x.shape.length)
    (hsum : sizes.sum = x.shape.getD (axisOf x.shape.length axis) 0) (hne : sizes ≠ []) (hlast : sizes.length = 1 ∨ 0 < sizes.getLast hne) :
    ∃ ys, splitValue axis (some (sizes.map Int.ofNat)) sizes.length x = .ok ys ∧ IsSplit (axisOf x.shape.length axis) sizes x ys :=
  splitValue_ok axis sizes x h hsum hne hlast

/-- Falsifies the rest: when the sizes already fill the axis and more (necessarily zero) sizes follow, the outputs of those get no value. -/
theorem C68_split_tail_counterexample (axis : Int) (sizes : List Nat) (tail : List Nat) (x : Tensor V)
    (h : -(x.shape.length : Int) ≤ axis ∧ axis < x.shape.length) (hsum : sizes.sum = x.shape.getD (axisOf x.shape.length axis) 0) (hne : sizes ≠ [])
    (ys : List (Tensor V)) (hy : splitValue axis (some ((sizes ++ tail).map Int.ofNat)) (sizes ++ tail).length x = .ok ys) :
    ys.length ≤ sizes.length := by
  obtain ⟨h1, h2⟩ := normIndex_axis h
  unfold splitValue at hy
  simp only [h1] at hy
  cases hp : pieces x (axisOf x.shape.length axis) 0
      (splitPositions (x.shape.getD (axisOf x.shape.length axis) 0) 0 ((sizes ++ tail).map Int.ofNat)) with
  | error e => rw [hp] at hy; cases hy
  | ok ps =>
    rw [hp] at hy
    simp only [] at hy
    split at hy
    · injection hy with hy
      subst hy
      have hl := pieces_length x _ _ _ _ hp
      have hd : ((x.shape.getD (axisOf x.shape.length axis) 0 : Nat) : Int) ≤ 0 + (sizes.map Int.ofNat).sum := by
        have : ∀ l : List Nat, (l.map Int.ofNat).sum = (l.sum : Int) := by
          intro l
          induction l with
          | nil => rfl
          | cons a l ih => rw [List.map_cons, List.sum_cons, ih, List.sum_cons]; simp
        rw [this, hsum]
        omega
      have hne' : sizes.map Int.ofNat ≠ [] := by simpa using hne
      rw [List.map_append, positions_tail _ _ _ hne' hd] at hl
      have := positions_length _ _ _ hne' hd
      rw [List.length_map] at this
      omega
    · cases hy

/-- Split into `n` equal parts. -/
theorem C68_split_equal (axis : Int) (n q : Nat) (x : Tensor V) (h : -(x.shape.length : Int) ≤ axis ∧ axis < x.shape.length) (hn : 0 < n) (hq : 0 < q)
    (hd : x.shape.getD (axisOf x.shape.length axis) 0 = n * q) :
    ∃ ys, splitValue axis none n x = .ok ys ∧ IsSplit (axisOf x.shape.length axis) (List.replicate n q) x ys := by
  have hdef : Axes.defaultSplit (x.shape.getD (axisOf x.shape.length axis) 0) n = .ok ((List.replicate n q).map Int.ofNat) := by
    unfold Axes.defaultSplit
    rw [if_neg (by omega), hd, if_pos (Nat.mul_mod_right _ _), Nat.mul_div_cancel_left _ hn, List.map_replicate]
    rfl
  have hne : List.replicate n q ≠ [] := by simp; omega
  obtain ⟨ys, h1, h2⟩ := splitValue_ok axis (List.replicate n q) x h (by rw [List.sum_replicate_nat, hd]) hne
    (Or.inr (by rw [List.getLast_replicate]; exact hq))
  rw [List.length_replicate] at h1
  exact ⟨ys, by rw [splitValue_default axis n _ x h hdef]; exact h1, h2⟩

/-- Split into `n` parts of the rounded-up size and a smaller last one, as ONNX 18 says, provided something is left for the last. -/
theorem C68_split_uneven_partial (axis : Int) (n : Nat) (x : Tensor V) (h : -(x.shape.length : Int) ≤ axis ∧ axis < x.shape.length) (hn : 0 < n)
    (hd : x.shape.getD (axisOf x.shape.length axis) 0 % n ≠ 0)
    (hfit : (n - 1) * (x.shape.getD (axisOf x.shape.length axis) 0 / n + 1) < x.shape.getD (axisOf x.shape.length axis) 0) :
    ∃ ys, splitValue axis none n x = .ok ys ∧ IsSplit (axisOf x.shape.length axis)
      (List.replicate (n - 1) (x.shape.getD (axisOf x.shape.length axis) 0 / n + 1) ++
        [x.shape.getD (axisOf x.shape.length axis) 0 - (n - 1) * (x.shape.getD (axisOf x.shape.length axis) 0 / n + 1)]) x ys := by
  generalize hD : x.shape.getD (axisOf x.shape.length axis) 0 = D at *
  generalize hc : D / n + 1 = c at *
  have hdef : Axes.defaultSplit D n = .ok ((List.replicate (n - 1) c ++ [D - (n - 1) * c]).map Int.ofNat) := by
    unfold Axes.defaultSplit
    rw [if_neg (by omega), if_neg hd]
    simp only [List.map_append, List.map_replicate, List.map_cons, List.map_nil, ← hc]
    have e : ((D / n : Nat) : Int) + 1 + ((D : Int) - n * (((D / n : Nat) : Int) + 1)) = Int.ofNat (D - (n - 1) * (D / n + 1)) := by
      rw [hc]
      have hc' : ((D / n : Nat) : Int) + 1 = (c : Int) := by omega
      rw [hc']
      have : ((n - 1 : Nat) : Int) = (n : Int) - 1 := by omega
      simp only [Int.ofNat_eq_natCast]
      rw [Int.natCast_sub (Nat.le_of_lt hfit), Int.natCast_mul, this, Int.sub_mul]
      omega
    simp only [e]
    rfl
  have hlen : (List.replicate (n - 1) c ++ [D - (n - 1) * c]).length = n := by simp; omega
  obtain ⟨ys, h1, h2⟩ := splitValue_ok axis (List.replicate (n - 1) c ++ [D - (n - 1) * c]) x h (by
      rw [List.sum_append_nat, List.sum_replicate_nat, hD, List.sum_singleton]
      omega) (by simp) (Or.inr (by rw [List.getLast_append_singleton]; omega))
  rw [hlen] at h1
  exact ⟨ys, by rw [splitValue_default axis n _ x h (by rw [hD]; exact hdef)]; exact h1, h2⟩

/-! ### Changing only the shape -/

/-- Unsqueeze with ascending non-negative axes.  (Missing: any other order, negative axes.) -/
theorem C68_unsqueeze_partial (axes : List Nat) (x : Tensor V) (os : List Nat) (hp : axes.Pairwise (· < ·))
    (hb : ∀ a ∈ axes, a < x.shape.length + axes.length) (h : IsUnsqueezed axes x.shape os) :
    ∃ y, unsqueezeValue (axes.map Int.ofNat) x = .ok y ∧ IsRelaid x os y := unsqueezeValue_ok axes x os hp hb h

/-- Whatever the axes are, the elements and their order stay. -/
theorem C68_unsqueeze_elements (axes : List Int) (x y : Tensor V) (h : unsqueezeValue axes x = .ok y) : y.flat = x.flat := loop_flat axes x y h

/-- Squeeze with ascending non-negative axes.  (Missing: any other order, negative axes, no axes.) -/
theorem C68_squeeze_partial (axes : List Nat) (x : Tensor V) (os : List Nat) (hp : axes.Pairwise (· < ·)) (hr : ∀ a ∈ axes, a < x.shape.length)
    (h : IsUnsqueezed axes os x.shape) : ∃ y, squeezeValue (some (axes.map Int.ofNat)) x = .ok y ∧ IsRelaid x os y :=
  squeezeValue_ok axes x os hp hr h

theorem C68_squeeze_elements (axes : Option (List Int)) (x y : Tensor V) (h : squeezeValue axes x = .ok y) : y.flat = x.flat :=
  squeezeFrom_flat _ _ _ _ h

/-- Squeeze undoes Unsqueeze. -/
theorem C68_squeeze_unsqueeze (axes : List Nat) (x : Tensor V) (os : List Nat) (hp : axes.Pairwise (· < ·))
    (hb : ∀ a ∈ axes, a < x.shape.length + axes.length) (h : IsUnsqueezed axes x.shape os) :
    ∃ y z, unsqueezeValue (axes.map Int.ofNat) x = .ok y ∧ squeezeValue (some (axes.map Int.ofNat)) y = .ok z ∧ z.shape = x.shape ∧ z.flat = x.flat := by
  obtain ⟨y, h1, h2, h3⟩ := unsqueezeValue_ok axes x os hp hb h
  obtain ⟨z, h4, h5, h6⟩ := squeezeValue_ok axes y x.shape hp (fun a ha => by rw [h2, h.rank]; exact hb a ha) (by rw [h2]; exact h)
  exact ⟨y, z, h1, h4, h5, h6.trans h3⟩

/-- Reshape (of the default `allowzero = 0`): zeros copy, one `-1` is computed. -/
theorem C68_reshape_partial (target : List Int) (x : Tensor V) (os : List Nat) (h : IsReshaped x.shape target os)
    (hneg : ∀ d ∈ target, -1 ≤ d) (hone : target.count (-1) ≤ 1) (hpos : 0 < numel x.shape ∨ target.count (-1) = 0) :
    ∃ y, reshapeValue target x = .ok y ∧ IsRelaid x os y := reshapeValue_ok target x os h hneg hone hpos

theorem C68_reshape_elements (target : List Int) (x y : Tensor V) (h : reshapeValue target x = .ok y) : y.flat = x.flat := reshapeValue_flat h

/-- Flatten at a non-negative axis, when the leading axes are not empty. -/
theorem C68_flatten_partial (a : Nat) (x : Tensor V) (ha : a ≤ x.shape.length) (hz : numel (x.shape.take a) ≠ 0) :
    ∃ y, flattenValue (some (a : Int)) x = .ok y ∧ IsRelaid x [numel (x.shape.take a), numel (x.shape.drop a)] y := flattenValue_ok a x ha hz

/-- Without the attribute the axis is 1. -/
theorem C68_flatten_default_partial (x : Tensor V) (ha : 0 < x.shape.length) (hz : x.shape.getD 0 0 ≠ 0) :
    ∃ y, flattenValue none x = .ok y ∧ IsRelaid x [x.shape.getD 0 0, numel (x.shape.drop 1)] y := flattenValue_none x ha hz

/-- Falsifies the rest: a negative axis always gives one row, and an empty leading part is refused. -/
theorem C68_flatten_counterexample (x : Tensor V) :
    (∀ a : Int, a < 0 → ∃ y, flattenValue (some a) x = .ok y ∧ IsRelaid x [1, numel x.shape] y) ∧
    (∀ a : Nat, a ≤ x.shape.length → numel (x.shape.take a) = 0 → flattenValue (some (a : Int)) x = .error .valueError) :=
  ⟨fun a ha => flattenValue_negative a x ha, fun a ha hz => flattenValue_zero a x ha hz⟩

/-! ### Permuting and repeating -/

theorem C68_transpose (perm : List Nat) (x : Tensor V) (h : perm.Perm (List.range x.shape.length)) :
    ∃ y, transposeValue (some perm) x = .ok y ∧ IsTranspose perm x y := transposeValue_ok perm x h

/-- Without `perm` the axes are reversed. -/
theorem C68_transpose_default (x : Tensor V) : ∃ y, transposeValue none x = .ok y ∧ IsTranspose (List.range x.shape.length).reverse x y :=
  transposeValue_default x

theorem C68_tile (reps : List Nat) (x : Tensor V) (h : reps.length = x.shape.length) : IsTile reps x (tileValue reps x) := tileValue_ok reps x h

/-! ### Picking and placing -/

/-- GatherElements, for data the index type can hold (`cast` keeps it): in particular for integers. -/
theorem C68_gather_elements_partial (cast : V → V) (axis : Int) (x : Tensor V) (ids : Tensor Int) (hl : ids.shape.length = x.shape.length)
    (h : -(x.shape.length : Int) ≤ axis ∧ axis < x.shape.length)
    (hle : ∀ k, k < x.shape.length → k ≠ axisOf x.shape.length axis → ids.shape.getD k 0 ≤ x.shape.getD k 0)
    (hv : ∀ i, InB ids.shape i → -(x.shape.getD (axisOf x.shape.length axis) 0 : Int) ≤ ids.at i ∧ ids.at i < x.shape.getD (axisOf x.shape.length axis) 0)
    (hcast : ∀ i, cast (x.at i) = x.at i) :
    ∃ y, gatherElementsValue cast axis x ids = .ok y ∧ IsGatherElements (axisOf x.shape.length axis) x ids y := by
  obtain ⟨y, h1, h2, h3⟩ := gatherElements_ok cast axis x ids hl h hle hv
  exact ⟨y, h1, h2, fun i hi => by rw [h3 i hi, hcast]⟩

/-- GatherND without batch axes. -/
theorem C68_gather_nd_partial (q : Nat) (I : List Nat) (x : Tensor V) (ids : Tensor Int) (hs : ids.shape = I ++ [q]) (h0 : 0 < q) (hq : q ≤ x.shape.length)
    (hv : TuplesOk q I x ids) : ∃ y, gatherNDValue x ids = .ok y ∧ IsGatherND 0 q I x ids y := gatherND_ok q I x ids hs h0 hq hv

theorem C68_gather_nd_refused (q : Nat) (I : List Nat) (x : Tensor V) (ids : Tensor Int) (hs : ids.shape = I ++ [q]) (h0 : 0 < q) (hq : q ≤ x.shape.length)
    (hv : ¬ TuplesOk q I x ids) : gatherNDValue x ids = .error .indexError := gatherND_error q I x ids hs h0 hq hv

/-- ScatterND without reduction. -/
theorem C68_scatter_nd_partial (q : Nat) (I : List Nat) (x : Tensor V) (ids : Tensor Int) (updates : Tensor V) (hs : ids.shape = I ++ [q])
    (hq : q ≤ x.shape.length) (hu : updates.shape = I ++ x.shape.drop q) (hv : TuplesOk q I x ids) :
    ∃ y, scatterNDValue x ids updates = .ok y ∧ IsScatterND q I x ids updates y := scatterND_ok q I x ids updates hs hq hu hv

/-- Pad with a constant, the mode written out and the pads given as an input. -/
theorem C68_pad_partial (before after : List Nat) (value : V) (x : Tensor V) (hb : before.length = x.shape.length) (ha : after.length = x.shape.length) :
    ∃ y, padValue (.input ((before ++ after).map Int.ofNat)) .constant value x = .ok y ∧
      IsPad (before.map Int.ofNat) (after.map Int.ofNat) value x y := pad_ok before after value x hb ha

/-- Falsifies the rest: without a mode attribute (ONNX: constant), or with the pads as an attribute (opset < 11), no value is ever produced. -/
theorem C68_pad_counterexample (value : V) (x : Tensor V) :
    (∀ l, padValue (.input l) .absent value x = .error .attributeError) ∧
    (∀ l mode, padValue (.attr l) mode value x = .error .attributeError) := ⟨fun _ => rfl, fun _ _ => rfl⟩

theorem C68_trilu [Zero V] (upper : Bool) (k : Int) (x : Tensor V) : IsTrilu upper k x (triluValue upper k x) := trilu_ok upper k x

theorem C68_compress (axis : Int) (cond : List Bool) (x : Tensor V) (h : -(x.shape.length : Int) ≤ axis ∧ axis < x.shape.length)
    (hc : ∀ src : Nat, cond[src]? = some true → src < x.shape.getD (axisOf x.shape.length axis) 0) :
    ∃ y, compressValue (some axis) cond x = .ok y ∧ IsCompress (axisOf x.shape.length axis) cond x y := compress_ok axis cond x h hc

/-- Compress without an axis works on the flattened data. -/
theorem C68_compress_flat (cond : List Bool) (x : Tensor V) (hc : ∀ src : Nat, cond[src]? = some true → src < numel x.shape) :
    ∃ y, compressValue none cond x = .ok y ∧ y.shape = [(cond.filter id).length] ∧
      ∀ j src : Nat, cond[src]? = some true → ((cond.take src).filter id).length = j → some (y.at [j]) = x.flat[src]? := by
  obtain ⟨y, h1, h2⟩ := compress_ok 0 cond (⟨[numel x.shape], fun idx => x.at (unravel x.shape (idx.getD 0 0))⟩ : Tensor V) (by simp) (by simpa [axisOf] using hc)
  refine ⟨y, h1, by simpa [axisOf] using h2.shape, fun j src hs hj => ?_⟩
  have := h2.value [] j src [] trivial trivial hs hj
  rw [List.nil_append, List.nil_append] at this
  rw [this]
  have hlt := hc src hs
  unfold Tensor.flat
  rw [List.getElem?_map, List.getElem?_range hlt]
  rfl

/-- Shape: the sizes, in order (the whole shape: `start` and `end` are not read). -/
theorem C68_shape_partial (x : Tensor V) : (shapeValue x).shape = [x.shape.length] ∧ (shapeValue x).flat = x.shape.map Int.ofNat := by
  refine ⟨rfl, List.ext_getElem? fun k => ?_⟩
  unfold Tensor.flat shapeValue
  simp only [List.getElem?_map]
  by_cases hk : k < x.shape.length
  · rw [List.getElem?_range (by simpa [numel] using hk), List.getElem?_eq_getElem hk]
    simp only [Option.map_some, unravel, numel, List.getD_cons_zero, Nat.div_one]
    rw [List.getD_eq_getElem _ _ hk]
    rfl
  · rw [List.getElem?_eq_none (by simpa [numel] using hk), List.getElem?_eq_none (by omega)]
    rfl
end

/-! ### Cases -/

/-- shape and elements of a result -/
def shown {V : Type} (r : Except PyErr (Tensor V)) : Option (List Nat × List V) := r.toOption.map fun t => (t.shape, t.flat)

example : shown (gatherValue 1 (ofFlat [2, 3] [0, 1, 2, 3, 4, 5]) (ofFlat [2, 2] [0, -1, 2, 1])) =
    some ([2, 2, 2], [0, 2, 2, 1, 3, 5, 5, 4]) := by decide

example : shown (gatherValue 0 (ofFlat [4] [7, 8, 9, 10]) (ofFlat [] [-2])) = some ([], [9]) := by decide

/-- the hypotheses of `C68_gather` are met -/
example : ∃ y, gatherValue (-1) (ofFlat [2, 3] [0, 1, 2, 3, 4, 5]) (ofFlat [1] [-1]) = .ok y ∧
    IsGather 1 (ofFlat [2, 3] [0, 1, 2, 3, 4, 5]) (ofFlat [1] [-1]) y :=
  C68_gather (-1) (ofFlat [2, 3] [0, 1, 2, 3, 4, 5]) (ofFlat [1] [-1]) (by decide) (by
    intro i hi
    match i, hi with
    | [0], _ => decide)

example : shown (sliceValue [2, -3] [0, 100] [0, 1] (some [-1, 2]) (ofFlat [3, 4] [0, 1, 2, 3, 4, 5, 6, 7, 8, 9, 10, 11])) =
    some ([2, 2], [9, 11, 5, 7]) := by decide

example : ∃ y, sliceValue [2, -3] [0, 100] [0, 1] (some [-1, 2]) (ofFlat [3, 4] [0, 1, 2, 3, 4, 5, 6, 7, 8, 9, 10, 11]) = .ok y ∧
    IsSlice [2, -3] [0, 100] [0, 1] [-1, 2] (ofFlat [3, 4] [0, 1, 2, 3, 4, 5, 6, 7, 8, 9, 10, 11]) y :=
  C68_slice_partial [2, -3] [0, 100] [0, 1] (some [-1, 2]) (ofFlat [3, 4] [0, 1, 2, 3, 4, 5, 6, 7, 8, 9, 10, 11]) rfl rfl (by simp) (by decide) (by decide)
    (by
      intro l hl
      injection hl with hl
      subst hl
      decide)

/-- The slice `x[:, -2:]` written with axis -1 is not taken. -/
theorem C68_slice_negative_axis_counterexample :
    shown (sliceValue [-2] [100] [-1] none (ofFlat [2, 3] [0, 1, 2, 3, 4, 5])) = some ([2, 3], [0, 1, 2, 3, 4, 5]) := by decide

/-- Slice with three inputs: only the first axis is cut, although bounds for two axes are given. -/
theorem C68_slice_no_axes_counterexample :
    shown (sliceValue3 [1, 1] [2, 2] (ofFlat [2, 3] [0, 1, 2, 3, 4, 5])) = some ([1, 3], [3, 4, 5]) := by decide

example : shown (concatValue (-1) [ofFlat [2, 1] [0, 3], ofFlat [2, 2] [1, 2, 4, 5]]) = some ([2, 3], [0, 1, 2, 3, 4, 5]) := by decide

example : ((splitValue (-1) (some [1, 0, 2]) 3 (ofFlat [2, 3] [0, 1, 2, 3, 4, 5])).toOption.map fun l => l.map fun t => (t.shape, t.flat)) =
    some [([2, 1], [0, 3]), ([2, 0], []), ([2, 2], [1, 2, 4, 5])] := by decide

/-- sizes 3 and 0: the second output gets no value -/
theorem C68_split_zero_counterexample : ((splitValue 0 (some [3, 0]) 2 (ofFlat [3] [1, 2, 3])).toOption.map fun l => l.map fun t => (t.shape, t.flat)) =
    some [([3], [1, 2, 3])] := by decide

example : ((splitValue 0 none 3 (ofFlat [7] [1, 2, 3, 4, 5, 6, 7])).toOption.map fun l => l.map fun t => (t.shape, t.flat)) =
    some [([3], [1, 2, 3]), ([3], [4, 5, 6]), ([1], [7])] := by decide

/-- ONNX: `[1, 1, 5]` in both cases (the axes count in the result). -/
theorem C68_unsqueeze_counterexample :
    shown (unsqueezeValue [1, 0] (ofFlat [5] [1, 2, 3, 4, 5])) = some ([1, 5, 1], [1, 2, 3, 4, 5]) ∧
    shown (unsqueezeValue [-3, -2] (ofFlat [5] [1, 2, 3, 4, 5])) = none := by decide

example : shown (unsqueezeValue [0, 2] (ofFlat [5] [1, 2, 3, 4, 5])) = some ([1, 5, 1], [1, 2, 3, 4, 5]) := by decide

/-- Squeezing the two last axes of `[5, 1, 1]` (negative numbers) raises; without axes ONNX removes every 1, the code only axis 0. -/
theorem C68_squeeze_counterexample :
    shown (squeezeValue (some [-2, -1]) (ofFlat [5, 1, 1] [1, 2, 3, 4, 5])) = none ∧
    shown (squeezeValue (some [2, 1]) (ofFlat [5, 1, 1] [1, 2, 3, 4, 5])) = none ∧
    shown (squeezeValue none (ofFlat [5, 1, 1] [1, 2, 3, 4, 5])) = none := by decide

example : shown (squeezeValue (some [1, 2]) (ofFlat [5, 1, 1] [1, 2, 3, 4, 5])) = some ([5], [1, 2, 3, 4, 5]) := by decide

example : shown (reshapeValue [0, -1, 2] (ofFlat [2, 6] [0, 1, 2, 3, 4, 5, 6, 7, 8, 9, 10, 11])) =
    some ([2, 3, 2], [0, 1, 2, 3, 4, 5, 6, 7, 8, 9, 10, 11]) := by decide

/-- `allowzero = 1` asks for the empty shape `[0, 3]`; the value keeps the size 2 (and so fits only shapes that copy it). -/
theorem C68_reshape_allowzero_counterexample : shown (reshapeValue [0, 3] (ofFlat [2, 0] [])) = none := by decide

example : shown (flattenValue (some 2) (ofFlat [1, 2, 3] [0, 1, 2, 3, 4, 5])) = some ([2, 3], [0, 1, 2, 3, 4, 5]) := by decide

/-- ONNX: axis -1 of `[2, 3]` gives `[2, 3]`. -/
theorem C68_flatten_negative_counterexample : shown (flattenValue (some (-1)) (ofFlat [2, 3] [0, 1, 2, 3, 4, 5])) = some ([1, 6], [0, 1, 2, 3, 4, 5]) := by decide

example : shown (transposeValue (some [2, 0, 1]) (ofFlat [1, 2, 3] [0, 1, 2, 3, 4, 5])) = some ([3, 1, 2], [0, 3, 1, 4, 2, 5]) := by decide

example : shown (.ok (tileValue [2, 1] (ofFlat [1, 2] [7, 8]))) = some ([2, 2], [7, 8, 7, 8]) := by decide

example : shown (gatherElementsValue id 0 (ofFlat [2, 2] [1, 2, 3, 4]) (ofFlat [1, 2] [-1, 0])) = some ([1, 2], [3, 2]) := by decide

/-- truncation, what an integer array does to the numbers written into it -/
def truncQ (q : Rat) : Rat := (q.num.tdiv q.den : Int)

/-- Falsifies the rest: fractions are cut off, because the result array has the type of the indices. -/
theorem C68_gather_elements_counterexample :
    shown (gatherElementsValue truncQ 0 (ofFlatQ [2] [1/2, -3/2]) (ofFlat [2] [1, 0])) = some ([2], [-1, 0]) := by decide +kernel

example : shown (gatherNDValue (ofFlat [2, 2] [1, 2, 3, 4]) (ofFlat [2, 1] [1, 0])) = some ([2, 2], [3, 4, 1, 2]) := by decide

/-- With one batch axis ONNX picks `x[0][1]` and `x[1][0]`, shape `[2]`; the code reads `batch_dims = 0`. -/
theorem C68_gather_nd_counterexample :
    shown (gatherNDValue (ofFlat [2, 2] [1, 2, 3, 4]) (ofFlat [2, 1] [1, 0])) ≠ some ([2], [2, 3]) ∧
    ¬ ∃ y, gatherNDValue (ofFlat [2, 2] [1, 2, 3, 4]) (ofFlat [2, 1] [1, 0]) = .ok y ∧
      IsGatherND 1 1 [] (ofFlat [2, 2] [1, 2, 3, 4]) (ofFlat [2, 1] [1, 0]) y := by
  refine ⟨by decide, ?_⟩
  rintro ⟨y, h1, h2⟩
  have e : ((gatherNDValue (ofFlat [2, 2] [1, 2, 3, 4]) (ofFlat [2, 1] [1, 0])).toOption.map (·.shape)) = some [2, 2] := by decide
  rw [h1] at e
  injection e with e
  have e : y.shape = [2, 2] := e
  have := h2.shape
  rw [e] at this
  exact absurd this (by decide)

example : shown (scatterNDValue (ofFlat [4] [1, 2, 3, 4]) (ofFlat [2, 1] [-1, 1]) (ofFlat [2] [9, 8])) = some ([4], [1, 8, 3, 9]) := by decide

/-- With `reduction = "add"` ONNX gives `[1, 10, 3, 13]`; the attribute is not read. -/
theorem C68_scatter_nd_counterexample :
    shown (scatterNDValue (ofFlat [4] [1, 2, 3, 4]) (ofFlat [2, 1] [-1, 1]) (ofFlat [2] [9, 8])) ≠ some ([4], [1, 10, 3, 13]) := by decide

example : shown (padValue (.input [1, 0, 0, 2]) .constant 7 (ofFlat [1, 2] [1, 2])) = some ([2, 4], [7, 7, 7, 7, 1, 2, 7, 7]) := by decide

example : shown (.ok (triluValue false 0 (ofFlat [2, 3] [1, 2, 3, 4, 5, 6]))) = some ([2, 3], [1, 0, 0, 4, 5, 0]) := by decide

example : shown (compressValue (some 1) [true, false, true] (ofFlat [2, 3] [1, 2, 3, 4, 5, 6])) = some ([2, 2], [1, 3, 4, 6]) := by decide

/-- With `start = 1` ONNX gives `[3]`; the value is the whole shape. -/
theorem C68_shape_counterexample : shown (.ok (shapeValue (ofFlat [2, 3] [1, 2, 3, 4, 5, 6]))) = some ([2], [2, 3]) := by decide

/-! ### One axis of either sign -/

/-- Unsqueeze with one axis, of either sign. -/
theorem C68_unsqueeze_one {V : Type} (a : Int) (x : Tensor V) (os : List Nat) (hb : -((x.shape.length : Int) + 1) ≤ a ∧ a < (x.shape.length : Int) + 1)
    (h : IsUnsqueezed [(if a < 0 then a + x.shape.length + 1 else a).toNat] x.shape os) : ∃ y, unsqueezeValue [a] x = .ok y ∧ IsRelaid x os y := by
  have key : unsqueezeValue [a] x = unsqueezeValue ([(if a < 0 then a + x.shape.length + 1 else a).toNat].map Int.ofNat) x := by
    generalize hk : (if a < 0 then a + x.shape.length + 1 else a).toNat = k
    have hk' : k ≤ x.shape.length := by split at hk <;> omega
    simp only [unsqueezeValue, List.map_cons, List.map_nil, unsqueezeLoop, Tensor.unsqueeze]
    have e1 : -((x.shape.length : Int) + 1) ≤ a ∧ a ≤ (x.shape.length : Int) := by omega
    have e2 : -((x.shape.length : Int) + 1) ≤ Int.ofNat k ∧ Int.ofNat k ≤ (x.shape.length : Int) := by
      simp only [Int.ofNat_eq_natCast]
      omega
    have e3 : ¬ (Int.ofNat k < 0) := by simp
    simp only [if_pos e1, if_pos e2, hk, if_neg e3]
    rfl
  rw [key]
  refine unsqueezeValue_ok _ x os (by simp) ?_ h
  intro k hk
  simp only [List.mem_singleton] at hk
  subst hk
  simp only [List.length_singleton]
  split <;> omega

/-- Squeeze with one axis, of either sign. -/
theorem C68_squeeze_one {V : Type} (a : Int) (x : Tensor V) (os : List Nat) (hb : -(x.shape.length : Int) ≤ a ∧ a < x.shape.length)
    (h : IsUnsqueezed [(if a < 0 then a + x.shape.length else a).toNat] os x.shape) : ∃ y, squeezeValue (some [a]) x = .ok y ∧ IsRelaid x os y := by
  have key : squeezeValue (some [a]) x = squeezeValue (some ([(if a < 0 then a + x.shape.length else a).toNat].map Int.ofNat)) x := by
    have : Slice.normIndex x.shape.length a = Slice.normIndex x.shape.length (Int.ofNat (if a < 0 then a + x.shape.length else a).toNat) := by
      unfold Slice.normIndex
      by_cases hn : a < 0
      · simp only [if_pos hn]
        rw [if_neg (by omega), if_pos (by omega), if_pos (by simp), if_pos (by simp; omega)]
        simp only [Int.ofNat_eq_natCast, Int.toNat_natCast]
      · simp only [if_neg hn]
        have : Int.ofNat a.toNat = a := by simp; omega
        rw [this]
    simp only [squeezeValue, List.map_cons, List.map_nil, Option.getD_some, squeezeFrom, squeezeAt, Nat.cast_zero, Int.sub_zero, this]
  rw [key]
  refine squeezeValue_ok _ x os (by simp) ?_ h
  intro k hk
  simp only [List.mem_singleton] at hk
  subst hk
  split <;> omega

example : shown (unsqueezeValue [-1] (ofFlat [5] [1, 2, 3, 4, 5])) = some ([5, 1], [1, 2, 3, 4, 5]) ∧ shown (squeezeValue (some [-2]) (ofFlat [1, 5] [1, 2, 3, 4, 5])) = some ([5], [1, 2, 3, 4, 5]) := by decide

example : IsUnsqueezed [((-1 : Int) + 1 + 1).toNat] [5] [5, 1] := ⟨rfl, by decide, by decide⟩

end OnnxTool.Props
