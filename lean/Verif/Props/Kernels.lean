import Verif.Proofs.Kernels
import Mathlib.Tactic.IntervalCases
/-!
# C61: kernels that move data compute what ONNX says
-/
namespace OnnxTool.Props
open OnnxTool OnnxTool.Torch OnnxTool.Kernels

section
variable {V : Type}

/-- Flatten, for every axis (also negative): the elements keep their order. -/
theorem C61_flatten (axis : Int) (x : Tensor V) (os : List Nat) (h : numel os = numel x.shape) :
    ∃ y, flattenKernel axis x os = .ok y ∧ IsRelaid x os y := flatten_ok axis x os h

/-- Reshape with zeros and one `-1`: the output shape is any shape that satisfies the ONNX rules for the target. -/
theorem C61_reshape (target : List Int) (x : Tensor V) (os : List Nat) (h : IsReshaped x.shape target os) (hneg : ∀ d ∈ target, -1 ≤ d)
    (hone : target.count (-1) ≤ 1) (hpos : 0 < numel x.shape) : ∃ y, reshapeKernel target x os = .ok y ∧ IsRelaid x os y :=
  reshape_kernel_ok target x os h hneg hone hpos

/-- Unsqueeze with non-negative axes in any order. -/
theorem C61_unsqueeze_partial (axes : List Nat) (x : Tensor V) (os : List Nat) (hd : axes.Nodup) (hb : ∀ a ∈ axes, a < x.shape.length + axes.length)
    (h : IsUnsqueezed axes x.shape os) : ∃ y, unsqueezeKernel (axes.map Int.ofNat) x os = .ok y ∧ IsRelaid x os y :=
  unsqueeze_ok axes x os hd hb h

/-- Squeeze with the axes as attribute, negative or not. -/
theorem C61_squeeze (axes : List Int) (x : Tensor V) (os : List Nat) (hb : ∀ a ∈ axes, -(x.shape.length : Int) ≤ a ∧ a < x.shape.length)
    (hd : (axes.map (position x.shape.length)).Nodup) (h : IsUnsqueezed (axes.map (position x.shape.length)) os x.shape) :
    ∃ y, squeezeKernel (some axes) x os = .ok y ∧ IsRelaid x os y := squeeze_ok axes x os hb hd h

/-- Whatever the attributes - negative axes, axes the kernel never reads, wrong targets -, a kernel of this family that returns has written
the elements of its operand in their order: mistakes raise, they do not corrupt. -/
theorem C61_relayout_never_wrong (x y : Tensor V) (os : List Nat) (hn : numel os = numel x.shape)
    (h : (∃ axis, flattenKernel axis x os = .ok y) ∨ (∃ target, reshapeKernel target x os = .ok y) ∨ (∃ axes, unsqueezeKernel axes x os = .ok y) ∨
      (∃ axes, squeezeKernel axes x os = .ok y)) : IsRelaid x os y := by
  rcases h with ⟨a, h⟩ | ⟨a, h⟩ | ⟨a, h⟩ | ⟨a, h⟩
  · exact flatten_safe hn h
  · exact reshape_safe hn h
  · exact unsqueeze_safe hn h
  · exact squeeze_safe hn h

theorem C61_transpose (perm : List Nat) (x : Tensor V) (h : perm.Perm (List.range x.shape.length)) :
    ∃ y, transposeKernel (some perm) x (perm.map fun p => x.shape.getD p 0) = .ok y ∧ IsTranspose perm x y := transpose_ok perm x h

/-- Transpose without `perm` reverses the axes. -/
theorem C61_transpose_default (x : Tensor V) :
    ∃ y, transposeKernel none x x.shape.reverse = .ok y ∧ IsTranspose (List.range x.shape.length).reverse x y := transpose_default x

/-- Gather with a vector of non-negative indices, on every axis. -/
theorem C61_gather_vector_partial (axis : Int) (a : Nat) (data : Tensor V) (indices : Tensor Int) (n : Nat)
    (hp : (if axis < 0 then axis + data.shape.length else axis) = (a : Int)) (ha : a < data.shape.length) (hs : indices.shape = [n])
    (hi : GatherIndicesOk a data indices) (hn : ∀ i, InB indices.shape i → 0 ≤ indices.at i) :
    ∃ y, gatherKernel axis data indices (data.shape.take a ++ indices.shape ++ data.shape.drop (a + 1)) = .ok y ∧ IsGather a data indices y :=
  gather_one axis a data indices n (by unfold position; rw [hp]; rfl) ha hs hi hn

/-- Embedding lookup: rows selected by ids of shape 1 x ... x 1 x n. -/
theorem C61_gather_embedding_partial (data : Tensor V) (ids : Tensor Int) (k n : Nat) (ha : 0 < data.shape.length) (hs : ids.shape = List.replicate k 1 ++ [n])
    (hi : GatherIndicesOk 0 data ids) (hn : ∀ i, InB ids.shape i → 0 ≤ ids.at i) :
    ∃ y, gatherKernel 0 data ids (ids.shape ++ data.shape.drop 1) = .ok y ∧ IsGather 0 data ids y := gather_rows data ids k n ha hs hi hn

/-- Falsifies the rest of the clause: embedding lookup with two or more rows of ids never succeeds. -/
theorem C61_gather_batch_counterexample (data : Tensor V) (ids : Tensor Int) (b n : Nat) (hs : ids.shape = [b, n]) (hb : 2 ≤ b) (hn : 0 < n) :
    ∀ y, gatherKernel 0 data ids (ids.shape ++ data.shape.drop 1) ≠ .ok y := gather_batch data ids b n hs hb hn

/-- A negative index, which ONNX allows, always raises. -/
theorem C61_gather_negative_counterexample (axis : Int) (data : Tensor V) (indices : Tensor Int) (os i : List Nat) (hi : InB indices.shape i)
    (hneg : indices.at i < 0) : gatherKernel axis data indices os = .error .indexError := gather_negative axis data indices os i hi hneg

/-- A scalar index on axis 0 always raises. -/
theorem C61_gather_scalar_counterexample (data : Tensor V) (indices : Tensor Int) (hs : indices.shape = []) :
    ∀ y, gatherKernel 0 data indices (indices.shape ++ data.shape.drop 1) ≠ .ok y := by
  rw [hs]; exact gather_scalar data indices

/-- Pad writes the beginnings at the end of each axis and the ends at the beginning. -/
theorem C61_pad_exchanged (begins ends : List Int) (value : V) (x : Tensor V) (os : List Nat) (hb : begins.length = x.shape.length)
    (he : ends.length = x.shape.length) (hos : os.length = x.shape.length)
    (hsz : ∀ k, k < x.shape.length → (os.getD k 0 : Int) = begins.getD k 0 + x.shape.getD k 0 + ends.getD k 0) :
    ∃ y, padKernel (begins ++ ends) value x os = .ok y ∧ IsPad ends begins value x y := pad_swapped begins ends value x os hb he hos hsz

/-- so it is right for symmetric padding -/
theorem C61_pad_partial (pads : List Int) (value : V) (x : Tensor V) (os : List Nat) (hb : pads.length = x.shape.length) (hos : os.length = x.shape.length)
    (hsz : ∀ k, k < x.shape.length → (os.getD k 0 : Int) = pads.getD k 0 + x.shape.getD k 0 + pads.getD k 0) :
    ∃ y, padKernel (pads ++ pads) value x os = .ok y ∧ IsPad pads pads value x y := pad_swapped pads pads value x os hb hb hos hsz
end

/-! ### Cases that meet the hypotheses, and cases the code gets wrong -/

/-- a tensor from its elements in row-major order -/
def ofFlat (s : List Nat) (l : List Int) : Tensor Int := ⟨s, fun idx => l.getD (ravel s idx) 0⟩

example : IsReshaped [2, 3, 4] [0, -1, 2] [2, 6, 2] :=
  ⟨rfl, by decide, by decide, rfl⟩

example : (reshapeKernel [0, -1, 2] (ofFlat [2, 3, 2] [0, 1, 2, 3, 4, 5, 6, 7, 8, 9, 10, 11]) [2, 3, 2]).toOption.map (·.flat) =
    some [0, 1, 2, 3, 4, 5, 6, 7, 8, 9, 10, 11] := by decide

example : IsUnsqueezed [3, 0] [2, 5] [1, 2, 5, 1] := ⟨rfl, by decide, by decide⟩

example : IsUnsqueezed ([-1, 0].map (position 4)) [2, 5] [1, 2, 5, 1] := ⟨rfl, by decide, by decide⟩

example : (transposeKernel (some [2, 0, 1]) (ofFlat [2, 3, 2] [0, 1, 2, 3, 4, 5, 6, 7, 8, 9, 10, 11]) [2, 2, 3]).toOption.map (·.flat) =
    some [0, 2, 4, 6, 8, 10, 1, 3, 5, 7, 9, 11] := by decide

example : [2, 0, 1].Perm (List.range 3) := by decide

/-- an embedding table and a row of ids that meet the hypotheses of `C61_gather_embedding_partial` -/
example : GatherIndicesOk 0 (ofFlat [3, 2] [10, 11, 20, 21, 30, 31]) (ofFlat [1, 3] [2, 0, 2]) := by
  intro i hi
  obtain ⟨a, b, rfl⟩ := List.length_eq_two.1 (inb_length hi)
  obtain ⟨h1, h2, _⟩ := hi
  have : a = 0 := by omega
  subst this
  interval_cases b <;> decide

example : (gatherKernel 0 (ofFlat [3, 2] [10, 11, 20, 21, 30, 31]) (ofFlat [1, 3] [2, 0, 2]) [1, 3, 2]).toOption.map (·.flat) =
    some [30, 31, 10, 11, 30, 31] := by decide

/-- Unsqueeze with axes -2 and -1: the ONNX result of a 2x3 tensor is 2x3x1x1; the kernel makes 2x1x3x1 and raises. -/
theorem C61_unsqueeze_counterexample : IsUnsqueezed [2, 3] [2, 3] [2, 3, 1, 1] ∧
    (unsqueezeKernel [-1, -2] (ofFlat [2, 3] [0, 1, 2, 3, 4, 5]) [2, 3, 1, 1]).toOption.isNone = true :=
  ⟨⟨rfl, by decide, by decide⟩, by decide⟩

/-- Squeeze with the axes as second input (opset 13): squeezing axis 0 of 1x3x1 gives 3x1, the kernel squeezes everything and raises. -/
theorem C61_squeeze_input_counterexample : IsUnsqueezed [0] [3, 1] [1, 3, 1] ∧
    (squeezeKernel none (ofFlat [1, 3, 1] [0, 1, 2]) [3, 1]).toOption.isNone = true :=
  ⟨⟨rfl, by decide, by decide⟩, by decide⟩

/-- Pad one element before and none after: ONNX gives `[9, 5, 6]`, the kernel `[5, 6, 9]`. -/
theorem C61_pad_counterexample :
    (padKernel [1, 0] 9 (ofFlat [2] [5, 6]) [3]).toOption.map (·.flat) = some [5, 6, 9] ∧
    ∀ y, padKernel [1, 0] 9 (ofFlat [2] [5, 6]) [3] = .ok y → ¬ IsPad [1] [0] 9 (ofFlat [2] [5, 6]) y := by
  refine ⟨by decide, fun y hy h => ?_⟩
  obtain ⟨y', hy', hp⟩ := C61_pad_exchanged [1] [0] (9 : Int) (ofFlat [2] [5, 6]) [3] rfl rfl rfl (by decide)
  have e : y' = y := by
    have := hy'.symm.trans hy
    injection this
  subst e
  have hs : y'.shape = [3] := by
    have h1 := hp.rank
    obtain ⟨d, hd⟩ := List.length_eq_one_iff.1 h1
    have h2 := hp.sizes 0 (by decide)
    rw [hd] at h2 ⊢
    have : (d : Int) = 3 := by simpa [ofFlat] using h2
    have : d = 3 := by omega
    rw [this]
  have a := hp.inside [0] [0] (by rw [hs]; decide) (by decide) (by decide)
  have b := h.outside [0] (by rw [hs]; decide) ⟨0, by decide, by decide⟩
  rw [a] at b
  exact absurd b (by decide)

end OnnxTool.Props
