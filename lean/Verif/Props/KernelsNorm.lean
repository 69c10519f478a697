import Verif.Proofs.KernelsNorm
import Verif.Props.Kernels
import Mathlib.Data.Rat.Defs
import Mathlib.Algebra.Field.Rat
import Mathlib.Tactic.NormNum
/-!
# C64: normalisation kernels compute what ONNX and the builder mean
-/
namespace OnnxTool.Props
open OnnxTool OnnxTool.Torch OnnxTool.Kernels

section
variable {F : Type} [Field F]

/-- A weight as long as a row: every row is normalised as a whole. -/
theorem C64_rows (rms : Bool) (sqrt rsqrt : F → F) (eps : F) (lead : List Nat) (d : Nat) (x w : Tensor F) (b : Option (Tensor F))
    (hx : x.shape = lead ++ [d]) (hw : w.shape = [d]) (hb : ∀ b', b = some b' → b'.shape = [d]) :
    ∃ y, layerNormKernel rms sqrt rsqrt eps x w b x.shape = .ok y ∧ IsGroupNorm rms sqrt rsqrt eps lead 1 d x w b y :=
  layerNorm_plain rms sqrt rsqrt eps lead d x w b hx hw hb

/-- A weight as long as a head of a row of `g` heads: every head is normalised on its own. -/
theorem C64_heads (rms : Bool) (sqrt rsqrt : F → F) (eps : F) (lead : List Nat) (g d : Nat) (x w : Tensor F) (b : Option (Tensor F)) (hg : 1 < g) (hd : 0 < d)
    (hx : x.shape = lead ++ [g * d]) (hw : w.shape = [d]) (hb : ∀ b', b = some b' → b'.shape = [d]) :
    ∃ y, layerNormKernel rms sqrt rsqrt eps x w b x.shape = .ok y ∧ IsGroupNorm rms sqrt rsqrt eps lead g d x w b y :=
  layerNorm_heads rms sqrt rsqrt eps lead g d x w b hg hd hx hw hb

/-- A weight that is shorter than a row but does not divide it is refused: nothing is written. -/
theorem C64_ragged (rms : Bool) (sqrt rsqrt : F → F) (eps : F) (lead : List Nat) (d r : Nat) (x w : Tensor F) (b : Option (Tensor F)) (os : List Nat)
    (hl : 0 < numel lead) (hx : x.shape = lead ++ [r]) (hw : w.shape = [d]) (hlt : d < r) (hr : r % d ≠ 0) :
    ∃ e, layerNormKernel rms sqrt rsqrt eps x w b os = .error e := by
  have e1 : lastDim w.shape = d := by rw [hw]; rfl
  have e2 : lastDim x.shape = r := by rw [hx]; exact lastDim_append ..
  unfold layerNormKernel
  simp only [e1, e2, hlt, if_true]
  by_cases hd : d = 0
  · rw [if_pos hd]; exact ⟨_, rfl⟩
  rw [if_neg hd]
  have hn : ¬ numel (x.shape.dropLast ++ [r / d, d]) = numel x.shape := by
    rw [hx, List.dropLast_concat, numel_append, numel_append]
    simp only [numel, Nat.mul_one]
    intro h
    have h' := Nat.eq_of_mul_eq_mul_left hl h
    exact hr (Nat.mod_eq_zero_of_dvd ⟨r / d, by rw [Nat.mul_comm]; exact h'.symm⟩)
  have : x.reshape (x.shape.dropLast ++ [r / d, d]) = .error .runtimeError := by rw [Tensor.reshape, if_neg hn]
  rw [this]
  exact ⟨_, rfl⟩

/-- BatchNormalization works channel by channel, for every rank from 2 on. -/
theorem C64_batchnorm (sqrt : F → F) (eps : F) (x scale bias mean var : Tensor F) (hr : 2 ≤ x.shape.length) (h1 : scale.shape = [x.shape.getD 1 0])
    (h2 : bias.shape = [x.shape.getD 1 0]) (h3 : mean.shape = [x.shape.getD 1 0]) (h4 : var.shape = [x.shape.getD 1 0]) :
    ∃ y, batchNormKernel sqrt eps x scale bias mean var x.shape = .ok y ∧ IsBatchNorm sqrt eps x scale bias mean var y :=
  batchNorm_ok sqrt eps x scale bias mean var hr h1 h2 h3 h4

end

/-- a rational tensor from its row-major elements -/
def ofFlatQ (s : List Nat) (l : List Rat) : Tensor Rat := ⟨s, fun idx => l.getD (ravel s idx) 0⟩

/-- the hypotheses are met: two rows of two heads of two elements, rms norm per head -/
example : ∃ y, layerNormKernel true id id (1 : Rat) (ofFlatQ [2, 4] [1, 2, 3, 4, 5, 6, 7, 8]) (ofFlatQ [2] [1, 2]) none [2, 4] = .ok y ∧
    IsGroupNorm true id id (1 : Rat) [2] 2 2 (ofFlatQ [2, 4] [1, 2, 3, 4, 5, 6, 7, 8]) (ofFlatQ [2] [1, 2]) none y :=
  C64_heads true id id 1 [2] 2 2 _ _ none (by decide) (by decide) rfl rfl (fun _ h => nomatch h)

/-- ... and layer norm with a bias over whole rows -/
example : ∃ y, layerNormKernel false id id (1 : Rat) (ofFlatQ [2, 2] [1, 3, 2, 6]) (ofFlatQ [2] [1, 2]) (some (ofFlatQ [2] [5, 7])) [2, 2] = .ok y ∧
    IsGroupNorm false id id (1 : Rat) [2] 1 2 (ofFlatQ [2, 2] [1, 3, 2, 6]) (ofFlatQ [2] [1, 2]) (some (ofFlatQ [2] [5, 7])) y :=
  C64_rows false id id 1 [2] 2 _ _ _ rfl rfl (fun _ h => by injection h with h; subst h; rfl)

/-- The model computes: rows (1,3) and (2,6), "deviation" `id (variance + 1)` -/
example : (layerNormKernel false id id (1 : Rat) (ofFlatQ [2, 2] [1, 3, 2, 6]) (ofFlatQ [2] [1, 2]) (some (ofFlatQ [2] [5, 7])) [2, 2]).toOption.map
    (fun y => (y.at [0, 0], y.at [0, 1], y.at [1, 1])) = some (9 / 2, 8, 7 + 4 / 5) := by
  norm_num [layerNormKernel, normBody, lastDim, ofFlatQ, broadcastOp, canExpand, layerRows, rowMean, rowVar, Finset.sum_range_succ, ravel, numel, bcastIdx,
    copyTo, Except.toOption]

example : ∃ y, batchNormKernel id (0 : Rat) (ofFlatQ [1, 2, 2] [1, 2, 3, 4]) (ofFlatQ [2] [1, 2]) (ofFlatQ [2] [0, 1]) (ofFlatQ [2] [1, 1]) (ofFlatQ [2] [1, 4])
    [1, 2, 2] = .ok y ∧ IsBatchNorm id (0 : Rat) (ofFlatQ [1, 2, 2] [1, 2, 3, 4]) (ofFlatQ [2] [1, 2]) (ofFlatQ [2] [0, 1]) (ofFlatQ [2] [1, 1])
      (ofFlatQ [2] [1, 4]) y :=
  C64_batchnorm id 0 _ _ _ _ _ (by decide) rfl rfl rfl rfl

/-! ### What the code gets wrong -/

/-- An ONNX scale of shape `[1]` is legal (it broadcasts over the row).  The kernel takes it for heads of length one: after centring every
element is zero, whatever the operand. -/
theorem C64_scalar_scale_wrong {F : Type} [Field F] (sqrt rsqrt : F → F) (eps : F) (x w : Tensor F) (n g : Nat) (hg : 1 < g) (hx : x.shape = [n, g]) (hw : w.shape = [1]) :
    ∃ y, layerNormKernel false sqrt rsqrt eps x w none x.shape = .ok y ∧ ∀ i k, i < n → k < g → y.at [i, k] = 0 := by
  obtain ⟨y, hy, hv⟩ := layerNorm_heads false sqrt rsqrt eps [n] g 1 x w none hg (by decide) (by simpa using hx) hw (fun _ h => nomatch h)
  refine ⟨y, hy, fun i k hi hk => ?_⟩
  have := hv.value [i] k 0 ⟨hi, trivial⟩ hk (by decide)
  simpa [layerOf, mean, biasOf] using this

/-- The ONNX `axis` attribute is not read: with `axis = 0` and a scale of the shape of the operand, ONNX normalises the whole tensor, the kernel each
row, so that a column vector becomes zero, whatever its elements. -/
theorem C64_axis_ignored {F : Type} [Field F] (sqrt rsqrt : F → F) (eps : F) (x w : Tensor F) (n : Nat) (hx : x.shape = [n, 1]) (hw : w.shape = [n, 1]) :
    ∃ y, layerNormKernel false sqrt rsqrt eps x w none x.shape = .ok y ∧ ∀ i, i < n → y.at [i, 0] = 0 := by
  have hb : ∃ r, normBody false sqrt rsqrt eps x w none = .ok r ∧ r.shape = [n, 1] ∧ ∀ i, r.at [i, 0] = 0 := by
    have hc : canExpand w.shape (layerRows sqrt eps x).shape = true := by
      show canExpand w.shape x.shape = true
      rw [hx, hw]; simp [canExpand]
    unfold normBody broadcastOp
    simp only [hc, if_true, Bool.false_eq_true, if_false]
    refine ⟨_, rfl, hx, fun i => ?_⟩
    simp [layerRows, rowMean, hx, lastDim]
  obtain ⟨r, hr, hrs, hrv⟩ := hb
  unfold layerNormKernel
  have e1 : lastDim w.shape = 1 := by rw [hw]; rfl
  have e2 : lastDim x.shape = 1 := by rw [hx]; rfl
  simp only [e1, e2, Nat.lt_irrefl, if_false, hr]
  obtain ⟨y, hy, hs⟩ := copyTo_same r (hrs.trans hx.symm)
  exact ⟨y, hy, fun i hi => by rw [hs.2 _ (by rw [hs.1, hrs]; exact ⟨hi, Nat.zero_lt_one, trivial⟩), hrv i]⟩

/-- With `type = 'rms'` a bias operand has no effect. -/
theorem C64_rms_bias_ignored {F : Type} [Field F] (sqrt rsqrt : F → F) (eps : F) (x w : Tensor F) (b b' : Option (Tensor F)) (os : List Nat) :
    layerNormKernel true sqrt rsqrt eps x w b os = layerNormKernel true sqrt rsqrt eps x w b' os := rfl

end OnnxTool.Props
