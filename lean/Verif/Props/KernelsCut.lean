import Verif.Proofs.KernelsCut
import Verif.Props.Slice
import Verif.Props.Kernels
/-!
# C62: kernels that cut and join tensors compute what ONNX says
-/
namespace OnnxTool.Props
open OnnxTool OnnxTool.Torch OnnxTool.Kernels OnnxTool.Slice

section
variable {V : Type}

/-- Slice with positive steps, axes in any order and negative ones included. -/
theorem C62_slice_partial (starts ends axes steps : List Int) (x : Tensor V) (os : List Nat)
    (h1 : axes.length = starts.length) (h2 : axes.length = ends.length) (h3 : axes.length = steps.length)
    (hr : ∀ a ∈ axes, -(x.shape.length : Int) ≤ a ∧ a < x.shape.length) (hn : (axes.map (axisOf x.shape.length)).Nodup)
    (hst : ∀ st ∈ steps, 0 < st) (hos : IsSliceShape starts ends axes steps x.shape os) :
    ∃ y, sliceKernel starts ends (some axes) (some steps) x os = .ok y ∧ IsSlice starts ends axes steps x y :=
  slice_ok starts ends axes steps x os h1 h2 h3 hr hn hst hos

/-- Shape inference and kernel together: into an output of the inferred shape the kernel writes the slice. -/
theorem C62_slice_inferred_partial (starts ends axes steps : List Int) (x : Tensor V)
    (h1 : axes.length = starts.length) (h2 : axes.length = ends.length) (h3 : axes.length = steps.length)
    (hr : ∀ a ∈ axes, -(x.shape.length : Int) ≤ a ∧ a < x.shape.length) (hn : (axes.map (axisOf x.shape.length)).Nodup)
    (hst : ∀ st ∈ steps, 0 < st) :
    ∃ os y, sliceShape x.shape starts ends (some axes) (some steps) = .ok os ∧ sliceKernel starts ends (some axes) (some steps) x os = .ok y ∧
      IsSlice starts ends axes steps x y := by
  have hpos : ∀ j, j < axes.length → 0 < steps.getD j 0 := by
    intro j hj
    rw [List.getD_eq_getElem _ _ (by omega)]
    exact hst _ (List.getElem_mem _)
  obtain ⟨os, e1, e2, e3, e4⟩ := C23_slice x.shape starts ends axes steps h1 h2 h3 hr hn fun j hj =>
    ⟨by have := hpos j hj; omega, Or.inr (hpos j hj)⟩
  obtain ⟨y, hy, hs⟩ := slice_ok starts ends axes steps x os h1 h2 h3 hr hn hst ⟨e2, e4, e3⟩
  exact ⟨os, y, e1, hy, hs⟩

/-- Without axes the bounds are those of the leading axes, and without steps every step is 1. -/
theorem C62_slice_defaults (starts ends : List Int) (x : Tensor V) (os : List Nat) (h1 : starts.length = ends.length)
    (hr : starts.length ≤ x.shape.length)
    (hos : IsSliceShape starts ends ((List.range starts.length).map fun k : Nat => (k : Int)) (starts.map fun _ => 1) x.shape os) :
    ∃ y, sliceKernel starts ends none none x os = .ok y ∧
      IsSlice starts ends ((List.range starts.length).map fun k : Nat => (k : Int)) (starts.map fun _ => 1) x y := by
  have hm : ((List.range starts.length).map fun k : Nat => (k : Int)).map (axisOf x.shape.length) = List.range starts.length := by
    rw [List.map_map]
    conv_rhs => rw [← List.map_id (List.range starts.length)]
    refine List.map_congr_left fun k _ => ?_
    simp only [Function.comp_apply, axisOf, id]
    rw [if_neg (by omega)]
    rfl
  have := slice_ok starts ends ((List.range starts.length).map fun k : Nat => (k : Int)) (starts.map fun _ => 1) x os (by simp) (by simp [h1]) (by simp)
    (by
      intro a ha
      obtain ⟨k, hk, rfl⟩ := List.mem_map.mp ha
      have := List.mem_range.mp hk
      omega) (by rw [hm]; exact List.nodup_range) (by
      intro st hst
      obtain ⟨_, _, rfl⟩ := List.mem_map.mp hst
      decide) hos
  rw [show sliceKernel starts ends none none x os = sliceKernel starts ends (some ((List.range starts.length).map fun k : Nat => (k : Int)))
    (some (starts.map fun _ => 1)) x os from by
      simp only [sliceKernel, Option.getD_none, Option.getD_some, List.map_const']
      rfl]
  exact this

example : ((sliceKernel [1, -2] [3, 4] none none (ofFlat [3, 4] [0, 1, 2, 3, 4, 5, 6, 7, 8, 9, 10, 11]) [2, 2]).toOption.map (·.flat)) =
    some [6, 7, 10, 11] := by decide

/-- Falsifies the rest: with a negative step, which ONNX allows and shape inference handles, the kernel never succeeds. -/
theorem C62_slice_step_counterexample (starts ends axes steps : List Int) (x : Tensor V) (os : List Nat)
    (h1 : axes.length = starts.length) (h2 : axes.length = ends.length) (h3 : axes.length = steps.length)
    (hr : ∀ a ∈ axes, -(x.shape.length : Int) ≤ a ∧ a < x.shape.length) (hn : (axes.map (axisOf x.shape.length)).Nodup)
    (hst : ∃ st ∈ steps, st ≤ 0) : ∀ y, sliceKernel starts ends (some axes) (some steps) x os ≠ .ok y :=
  slice_negative starts ends axes steps x os h1 h2 h3 hr hn hst

/-- Split with sizes: every output is written with its part. -/
theorem C62_split (axis : Int) (a : Nat) (sizes : List Nat) (x : Tensor V)
    (hp : (if axis < 0 then axis + x.shape.length else axis) = (a : Int)) (ha : a < x.shape.length) (hsum : sizes.sum = x.shape.getD a 0) :
    ∃ ys : List (Tensor V), splitKernel axis (some (sizes.map Int.ofNat)) x (sizes.map fun n => x.shape.take a ++ n :: x.shape.drop (a + 1)) =
      .ok (ys.map some) ∧ IsSplit a sizes x ys :=
  split_ok axis a sizes x (by unfold axisPos; rw [hp]; rfl) ha hsum

/-- Split into `n` parts of the rounded-up size, the last one smaller: every output is written, provided something is left for the last. -/
theorem C62_split_even (axis : Int) (a n : Nat) (x : Tensor V) (hp : (if axis < 0 then axis + x.shape.length else axis) = (a : Int))
    (ha : a < x.shape.length) (hn : 0 < n) (c : Nat) (hc : c = (x.shape.getD a 0 + n - 1) / n) (h : (n - 1) * c < x.shape.getD a 0) (sizes : List Nat)
    (hs : sizes = List.replicate (n - 1) c ++ [x.shape.getD a 0 - (n - 1) * c]) :
    ∃ ys : List (Tensor V), splitKernel axis none x (sizes.map fun n => x.shape.take a ++ n :: x.shape.drop (a + 1)) = .ok (ys.map some) ∧
      IsSplit a sizes x ys := by
  subst hc
  exact chunk_ok axis a n x (by unfold axisPos; rw [hp]; rfl) ha hn h sizes hs

/-- Concat: the operands are the consecutive parts of the result. -/
theorem C62_concat (axis : Int) (lead trail : List Nat) (xs : List (Tensor V)) (hne : xs ≠ []) (hs : ∀ x ∈ xs, ∃ d, x.shape = lead ++ d :: trail)
    (hp : (if axis < 0 then axis + (lead.length + 1 + trail.length : Nat) else axis) = (lead.length : Int)) :
    ∃ y, concatKernel axis xs = .ok y ∧ IsConcat lead.length xs y ∧ y.shape = lead ++ (xs.map fun x => x.shape.getD lead.length 0).sum :: trail :=
  concat_ok axis lead trail xs hne hs (by unfold axisPos; rw [hp]; rfl)

/-- Split followed by Concat is the identity. -/
theorem C62_split_concat (axis : Int) (a : Nat) (sizes : List Nat) (x : Tensor V)
    (hp : (if axis < 0 then axis + x.shape.length else axis) = (a : Int)) (ha : a < x.shape.length) (hsum : sizes.sum = x.shape.getD a 0)
    (hne : sizes ≠ []) :
    ∃ ys z, splitKernel axis (some (sizes.map Int.ofNat)) x (sizes.map fun n => x.shape.take a ++ n :: x.shape.drop (a + 1)) = .ok (ys.map some) ∧
      concatKernel axis ys = .ok z ∧ z.Same x := by
  have hp' : axisPos x.shape.length axis = a := by unfold axisPos; rw [hp]; rfl
  obtain ⟨ys, h1, h2⟩ := split_ok axis a sizes x hp' ha hsum
  obtain ⟨z, h3, h4⟩ := concat_split axis a sizes x ys hp' ha hne h2
  exact ⟨ys, z, h1, h3, h4⟩

/-- Expand to a shape every size of the operand fits into. -/
theorem C62_expand_partial (x : Tensor V) (os : List Nat) (hl : x.shape.length ≤ os.length)
    (h : ∀ k, k < x.shape.length → x.shape.getD k 0 = 1 ∨ x.shape.getD k 0 = os.getD (os.length - x.shape.length + k) 0) :
    ∃ y, expandKernel os x os = .ok y ∧ IsExpand os x y := expand_ok x os hl h
end

/-! ### Cases -/

/-- ONNX Expand broadcasts both ways: a vector of 3 expanded to `[1]` is the vector; the kernel raises. -/
theorem C62_expand_counterexample : (expandKernel [1] (ofFlat [3] [1, 2, 3]) [3]).toOption.isNone = true := by decide

/-- Five elements into four outputs: torch makes only three parts, the fourth output keeps whatever was in its memory. -/
theorem C62_split_counterexample :
    ((splitKernel 0 none (ofFlat [5] [1, 2, 3, 4, 5]) [[2], [2], [1], [0]]).toOption.map fun l => l.map fun o => o.map (·.flat)) =
      some [some [1, 2], some [3, 4], some [5], none] := by decide

example : ((sliceKernel [-3, 1] [100, 3] (some [-1, 0]) (some [2, 1]) (ofFlat [3, 4] [0, 1, 2, 3, 4, 5, 6, 7, 8, 9, 10, 11]) [2, 2]).toOption.map (·.flat)) =
    some [5, 7, 9, 11] := by decide

/-- the hypotheses of `C62_slice_inferred_partial` are met by this call -/
example : ∃ os y, sliceShape [3, 4] [-3, 1] [100, 3] (some [-1, 0]) (some [2, 1]) = .ok os ∧
    sliceKernel [-3, 1] [100, 3] (some [-1, 0]) (some [2, 1]) (ofFlat [3, 4] [0, 1, 2, 3, 4, 5, 6, 7, 8, 9, 10, 11]) os = .ok y ∧
      IsSlice [-3, 1] [100, 3] [-1, 0] [2, 1] (ofFlat [3, 4] [0, 1, 2, 3, 4, 5, 6, 7, 8, 9, 10, 11]) y :=
  C62_slice_inferred_partial [-3, 1] [100, 3] [-1, 0] [2, 1] (ofFlat [3, 4] [0, 1, 2, 3, 4, 5, 6, 7, 8, 9, 10, 11]) rfl rfl rfl
    (by decide) (by decide) (by decide)

example : ((splitKernel (-1) (some [1, 2]) (ofFlat [2, 3] [0, 1, 2, 3, 4, 5]) [[2, 1], [2, 2]]).toOption.map fun l => l.map fun o => o.map (·.flat)) =
    some [some [0, 3], some [1, 2, 4, 5]] := by decide

example : ((concatKernel 1 [ofFlat [2, 1] [0, 3], ofFlat [2, 2] [1, 2, 4, 5]]).toOption.map (·.flat)) = some [0, 1, 2, 3, 4, 5] := by decide

/-- seven elements into three outputs: 3, 3 and 1 -/
example : ((splitKernel 0 none (ofFlat [7] [1, 2, 3, 4, 5, 6, 7]) [[3], [3], [1]]).toOption.map fun l => l.map fun o => o.map (·.flat)) =
    some [some [1, 2, 3], some [4, 5, 6], some [7]] := by decide

end OnnxTool.Props
