import Verif.Proofs.ValueConv
import Verif.Props.ValueReduce
import Verif.Props.KernelsConv
/-!
# C71: value inference of MatMul, Gemm, Conv, pooling and normalisation

`IsMatMul`, `IsGemm`, … are in `Spec/ValueConv.lean`, `IsConv`, `IsMaxPool` in `Spec/KernelsConv.lean`, `IsBatchNorm` in `Spec/KernelsNorm.lean`.
-/
namespace OnnxTool.Props
open OnnxTool OnnxTool.Torch OnnxTool.Kernels OnnxTool.Values OnnxTool.Conv OnnxTool.Shape

section
variable {F : Type} [Field F]

/-! ### MatMul and Gemm -/

/-- MatMul of operands with at least two axes, leading axes broadcast. -/
theorem C71_matmul (a b : Tensor F) (la lb r : List Nat) (m k n : Nat) (ha : a.shape = la ++ [m, k]) (hb : b.shape = lb ++ [k, n]) (hr : IsBroadcast [la, lb] r) :
    ∃ y, matMulValue a b = .ok y ∧ y.shape = r ++ [m, n] ∧ IsMatMul la lb m k n a b y := by
  obtain ⟨y, h1, h2⟩ := npMatmul_ok ha hb hr
  refine ⟨y, ?_, h2⟩
  unfold matMulValue
  rw [ha, hb, rev_two, rev_two]
  simp only [if_true]
  exact h1

/-- A vector on the left. -/
theorem C71_matmul_row (a b : Tensor F) (lb : List Nat) (k n : Nat) (ha : a.shape = [k]) (hb : b.shape = lb ++ [k, n]) :
    ∃ y, matMulValue a b = .ok y ∧ y.shape = lb ++ [n] ∧
      ∀ bi j, InB lb bi → j < n → y.at (bi ++ [j]) = ∑ l ∈ Finset.range k, a.at [l] * b.at (bi ++ [l, j]) := by
  obtain ⟨y, h1, h2⟩ := npMatmul_row ha hb
  refine ⟨y, ?_, h2⟩
  unfold matMulValue
  rw [ha, hb, rev_two]
  simp only [List.reverse_cons, List.reverse_nil, List.nil_append, if_true]
  exact h1

/-- Inner sizes that differ are refused. -/
theorem C71_matmul_refused (a b : Tensor F) (la lb : List Nat) (m k k' n : Nat) (ha : a.shape = la ++ [m, k]) (hb : b.shape = lb ++ [k', n]) (h : k ≠ k') :
    matMulValue a b = .error .assertion := by
  unfold matMulValue
  rw [ha, hb, rev_two, rev_two]
  simp only [if_neg h]

/-- Falsifies the property for MatMul: ONNX allows a vector on the right, the node raises. -/
theorem C71_matmul_vector_counterexample (a b : Tensor F) (n : Nat) (hb : b.shape = [n]) : matMulValue a b = .error .indexError := by
  unfold matMulValue
  rw [hb]
  cases h : a.shape.reverse with
  | nil => rfl
  | cons k l => rfl

/-- Gemm with `alpha = beta = 1`, all four transpositions, any third operand that broadcasts to the result. -/
theorem C71_gemm_partial (ta tb : Bool) (a b : Tensor F) (c : Option (Tensor F)) (m k n : Nat) (ha : a.shape = if ta then [k, m] else [m, k])
    (hb : b.shape = if tb then [n, k] else [k, n]) (hc : ∀ c', c = some c' → IsBroadcast [[m, n], c'.shape] [m, n]) :
    ∃ y, gemmValue (if ta then 1 else 0) (if tb then 1 else 0) a b c = .ok y ∧ IsGemm 1 1 ta tb m k n a b c y := gemm_ok ta tb a b c m k n ha hb hc

/-- Falsifies the rest: `alpha` is ignored, so any other `alpha` is wrong as soon as one element of the product is not zero. -/
theorem C71_gemm_counterexample (ta tb : Bool) (a b : Tensor F) (m k n i j : Nat) (ha : a.shape = if ta then [k, m] else [m, k])
    (hb : b.shape = if tb then [n, k] else [k, n]) (hi : i < m) (hj : j < n) (hne : ∑ l ∈ Finset.range k, entry ta a i l * entry tb b l j ≠ 0) (alpha : F)
    (h1 : alpha ≠ 1) : ∃ y, gemmValue (if ta then 1 else 0) (if tb then 1 else 0) a b none = .ok y ∧ ¬ IsGemm alpha 1 ta tb m k n a b none y := by
  obtain ⟨y, hy, hg⟩ := gemm_ok ta tb a b none m k n ha hb (fun c' hc => by simp at hc)
  refine ⟨y, hy, fun h => h1 ?_⟩
  have e1 := hg.plain rfl i j hi hj
  have e2 := h.plain rfl i j hi hj
  rw [e1] at e2
  exact (mul_right_cancel₀ hne e2).symm

/-- MatMulInteger without zero points. -/
theorem C71_matmul_integer_partial (a b : Tensor F) (m k n : Nat) (ha : a.shape = [m, k]) (hb : b.shape = [k, n]) :
    ∃ y, matMulIntegerValue a b none none = .ok y ∧ IsMatMulInteger m k n 0 0 a b y := by
  obtain ⟨y, hy, hg⟩ := gemm_ok false false a b none m k n ha hb (fun c' hc => by simp at hc)
  refine ⟨y, hy, hg.shape, fun i j hi hj => ?_⟩
  rw [hg.plain rfl i j hi hj, one_mul]
  refine Finset.sum_congr rfl fun l _ => ?_
  rw [sub_zero, sub_zero]
  rfl

/-! ### Conv -/

/-- Conv with one group and explicit padding, bias given or the output tensor without a value of the same shape. -/
theorem C71_conv_partial {n c h wd m kh kw : Nat} {s d : Nat × Nat} (p : Kernels.Pads) {x w : Tensor F} (b old : Option (Tensor F))
    (hx : x.shape = [n, c, h, wd]) (hw : w.shape = [m, c, kh, kw]) (hs1 : 0 < s.1) (hs2 : 0 < s.2) (hk1 : 0 < kh) (hk2 : 0 < kw)
    (hf1 : extent kh d.1 ≤ h + p.top + p.bottom) (hf2 : extent kw d.2 ≤ wd + p.left + p.right) (hold : b.isSome ∨ old = none) :
    ∃ y, convValue (convAttrs p s d) x w b old = .ok y ∧ IsConv n c h wd m c kh kw s d p 1 x w b y := by
  obtain ⟨y, h1, h2, h3⟩ := convValue_ok (s := s) (d := d) p b old hx hw hs1 hs2 hk1 hk2 hf1 hf2
  refine ⟨y, h1, h2, fun xp hp i o a e hi ho ha he => ?_⟩
  rw [h3, conv_sum_spec hx hs1 hs2 hp hi ho ha he, add_comm]
  cases b with
  | some b => rfl
  | none =>
    rcases hold with hold | rfl
    · simp at hold
    · rfl

/-- Falsifies the property for every Conv without bias: evaluating the node again (as `value_infer` and `shape_infer` do on every call) adds the result to the previous one. -/
theorem C71_conv_rerun_counterexample {n c h wd m kh kw : Nat} {s d : Nat × Nat} (p : Kernels.Pads) {x w : Tensor F}
    (hx : x.shape = [n, c, h, wd]) (hw : w.shape = [m, c, kh, kw]) (hs1 : 0 < s.1) (hs2 : 0 < s.2) (hk1 : 0 < kh) (hk2 : 0 < kw)
    (hf1 : extent kh d.1 ≤ h + p.top + p.bottom) (hf2 : extent kw d.2 ≤ wd + p.left + p.right) :
    ∃ y z, convValue (convAttrs p s d) x w none none = .ok y ∧ convValue (convAttrs p s d) x w none (some y) = .ok z ∧ z.shape = y.shape ∧
      ∀ i o a e, z.at [i, o, a, e] = y.at [i, o, a, e] + y.at [i, o, a, e] := by
  obtain ⟨y, h1, h2, h3⟩ := convValue_ok (s := s) (d := d) p none none hx hw hs1 hs2 hk1 hk2 hf1 hf2
  obtain ⟨z, g1, g2, g3⟩ := convValue_ok (s := s) (d := d) p none (some y) hx hw hs1 hs2 hk1 hk2 hf1 hf2
  refine ⟨y, z, h1, g1, g2.trans h2.symm, fun i o a e => ?_⟩
  have e0 : (startValue (some y) z.shape).at [i, o, a, e] = y.at [i, o, a, e] := by
    unfold startValue
    rw [g2, ← h2]
    simp only [if_true]
  have e1 : (startValue (none : Option (Tensor F)) y.shape).at [i, o, a, e] = 0 := rfl
  rw [g3]
  simp only [e0]
  congr 1
  rw [h3]
  simp only [e1, zero_add]

/-- Groups are refused, not computed wrongly. -/
theorem C71_conv_groups_refused (a : Attrs) (x w : Tensor F) (b old : Option (Tensor F)) (h : a.group ≠ 1) :
    convValue a x w b old = .error .notImplemented := by
  unfold convValue
  rw [if_pos h]

/-! ### Pooling -/

/-- GlobalAveragePool computes the mean of every channel … -/
theorem C71_global_average_partial (n c h w : Nat) (x : Tensor F) (hx : x.shape = [n, c, h, w]) (h0 : h * w ≠ 0) :
    ∃ y, globalAveragePoolValue x = .ok y ∧ y.shape = [n, c] ∧
      ∀ i o, y.at [i, o] = (∑ a ∈ Finset.range h, ∑ b ∈ Finset.range w, x.at [i, o, a, b]) / ((h * w : Nat) : F) := by
  unfold globalAveragePoolValue
  rw [hx]
  simp only []
  rw [if_neg (by tauto)]
  refine ⟨_, rfl, rfl, fun i o => ?_⟩
  simp only []
  congr 1
  rw [sum_allIdx_cons]
  refine Finset.sum_congr rfl fun a _ => ?_
  rw [sum_allIdx_cons]
  refine Finset.sum_congr rfl fun b _ => ?_
  rw [sum_allIdx_nil]
  rfl

/-- … but falsifies the property for every operand: the two spatial axes are missing from the result. -/
theorem C71_global_average_counterexample (n c h w : Nat) (x y : Tensor F) (hx : x.shape = [n, c, h, w]) (hy : globalAveragePoolValue x = .ok y) :
    ¬ IsGlobalAverage n c h w x y := by
  intro hg
  unfold globalAveragePoolValue at hy
  rw [hx] at hy
  simp only [] at hy
  split_ifs at hy
  injection hy with hy
  have := hg.shape
  rw [← hy] at this
  simp at this

/-- BatchNormalization, one parameter for every channel. -/
theorem C71_batchnorm (sqrt : F → F) (eps : F) (x scale b mean var : Tensor F) (h : 2 ≤ x.shape.length) :
    ∃ y, batchNormValue sqrt eps x scale b mean var = .ok y ∧ IsBatchNorm sqrt eps x scale b mean var y := by
  refine ⟨⟨x.shape, fun i => (x.at i - mean.at [i.getD 1 0]) * (scale.at [i.getD 1 0] / sqrt (var.at [i.getD 1 0] + eps)) + b.at [i.getD 1 0]⟩,
    by unfold batchNormValue; rw [if_neg (by omega)], rfl, fun n c rest _ => ?_⟩
  simp only [List.getD_cons_succ, List.getD_cons_zero]
  ring

/-- Softmax along any axis, negative ones counted from the end. -/
theorem C71_softmax_partial (exp : F → F) (axis : Int) (x : Tensor F) (h : -(x.shape.length : Int) ≤ axis ∧ axis < x.shape.length) (k : Nat)
    (hk : (k : Int) = if axis < 0 then axis + x.shape.length else axis) : ∃ y, softmaxValue exp (some axis) x = .ok y ∧ IsSoftmax exp k x y := by
  have hkk : (if axis < 0 then axis + x.shape.length else axis).toNat = k := by omega
  have hkl : k < x.shape.length := by
    split_ifs at hk <;> omega
  have hsh : (reduceOver [k] true List.sum (⟨x.shape, fun i => exp (x.at i)⟩ : Tensor F)).shape = x.shape.set k 1 := by
    have := reducedShape_one true x.shape 0 k hkl
    rw [Nat.zero_add] at this
    exact this
  have hset : ∀ j, j < x.shape.length → (x.shape.set k 1).getD j 0 = if k = j then 1 else x.shape.getD j 0 := by
    intro j hj
    rw [List.getD_eq_getElem _ _ (by rw [List.length_set]; exact hj), List.getElem_set, List.getD_eq_getElem _ _ hj]
  have hb : IsBroadcast [x.shape, x.shape.set k 1] x.shape := by
    refine ⟨fun t ht => ?_, Or.inr ⟨x.shape, by simp, rfl⟩, fun i hi t ht => ?_, fun i _ => Or.inr ⟨x.shape, by simp, rfl⟩⟩
    · simp only [List.mem_cons, List.not_mem_nil, or_false] at ht
      rcases ht with rfl | rfl <;> simp
    · simp only [List.mem_cons, List.not_mem_nil, or_false] at ht
      rcases ht with rfl | rfl
      · exact Or.inr rfl
      · have e1 := dimR_getD (s := x.shape) (k := x.shape.length - 1 - i) (by omega)
        have e2 := dimR_getD (s := x.shape.set k 1) (k := x.shape.length - 1 - i) (by rw [List.length_set]; omega)
        rw [List.length_set, show x.shape.length - 1 - (x.shape.length - 1 - i) = i by omega, hset _ (by omega)] at e2
        rw [show x.shape.length - 1 - (x.shape.length - 1 - i) = i by omega] at e1
        rw [e2, e1]
        split_ifs
        · exact Or.inl rfl
        · exact Or.inr rfl
  obtain ⟨z, h1, h2, h3⟩ := ufunc2_ok (· / ·) (⟨x.shape, fun i => exp (x.at i)⟩ : Tensor F) (reduceOver [k] true List.sum (⟨x.shape, fun i => exp (x.at i)⟩ : Tensor F))
    x.shape (by rw [hsh]; exact hb)
  refine ⟨z, ?_, h2, fun idx hi => ?_⟩
  · simp only [softmaxValue, npAxis_ok h, hkk]
    exact h1
  · have hil := inb_length hi
    have s1 : Source x.shape z.shape idx idx := by
      refine ⟨hi, fun j hj => ?_⟩
      have := (inb_iff.1 hi).2 j hj
      rw [h2, Nat.sub_self, Nat.zero_add]
      split_ifs with hc
      · omega
      · rfl
    have hg : ∀ j, j < x.shape.length → (idx.set k 0).getD j 0 = if k = j then 0 else idx.getD j 0 := by
      intro j hj
      rw [List.getD_eq_getElem _ _ (by rw [List.length_set]; omega), List.getElem_set, List.getD_eq_getElem _ _ (by omega)]
    have s2 : Source (x.shape.set k 1) z.shape idx (idx.set k 0) := by
      constructor
      · rw [inb_iff]
        refine ⟨by rw [List.length_set, List.length_set]; exact hil, fun j hj => ?_⟩
        rw [List.length_set] at hj
        rw [hset j hj, hg j hj]
        have := (inb_iff.1 hi).2 j hj
        split_ifs <;> omega
      · intro j hj
        rw [List.length_set] at hj
        rw [h2, List.length_set, Nat.sub_self, Nat.zero_add, hset j hj, hg j hj]
        have := (inb_iff.1 hi).2 j hj
        by_cases hkj : k = j
        · simp [hkj]
        · rw [if_neg hkj, if_neg hkj]
          split_ifs <;> omega
    have e := h3.value idx idx (idx.set k 0) (by rw [h2]; exact hi) s1 (by rw [hsh]; exact s2)
    rw [e]
    have hf := fibre_one true x.shape 0 k idx hkl hi
    rw [Nat.zero_add] at hf
    simp only [if_true] at hf
    simp only [reduceOver, hf, List.map_map]
    rw [← sum_range_list]
    rfl

/-- Falsifies the rest: without the attribute (ONNX: the last axis) it raises. -/
theorem C71_softmax_counterexample (exp : F → F) (x : Tensor F) : softmaxValue exp none x = .error .attributeError := rfl
end

/-- MaxPool of numbers that are not negative, pads smaller than the window, no dilations, output tensor without a value. -/
theorem C71_maxpool_partial {n c h wd : Nat} {k s : Nat × Nat} (p : Kernels.Pads) {x : Tensor ℚ}
    (hx : x.shape = [n, c, h, wd]) (hs1 : 0 < s.1) (hs2 : 0 < s.2) (hh : 0 < h) (hw : 0 < wd)
    (hp1 : p.top < k.1) (hp2 : p.bottom < k.1) (hp3 : p.left < k.2) (hp4 : p.right < k.2)
    (hf1 : k.1 ≤ h + p.top + p.bottom) (hf2 : k.2 ≤ wd + p.left + p.right) (hpos : ∀ idx, InB x.shape idx → 0 ≤ x.at idx) :
    ∃ y, maxPoolValue (poolAttrs k p s (1, 1)) x none = .ok y ∧ IsMaxPool n c h wd k s p x y := by
  have hx1 : extent k.1 1 = k.1 := by unfold extent; omega
  have hx2 : extent k.2 1 = k.2 := by unfold extent; omega
  obtain ⟨y, h1, h2, h3⟩ := maxPoolValue_ok (k := k) (s := s) (d := (1, 1)) p none hx hs1 hs2 (by omega) (by omega) (by simp only [hx1]; exact hf1) (by simp only [hx2]; exact hf2)
  simp only [hx1, hx2] at h2
  refine ⟨y, h1, h2, fun i o a e hi ho ha he => ?_, fun i o a e hi ho ha he r q hr hq hw1 hw2 => ?_⟩
  · obtain ⟨g1, g2, g3⟩ := maxLoop_ok hx k s (p.top, p.left) i o a e ((startValue none y.shape).at [i, o, a, e])
    rw [← h3] at g1 g2 g3
    have e0 : (startValue (none : Option (Tensor ℚ)) y.shape).at [i, o, a, e] = 0 := rfl
    rw [e0] at g1 g3
    rcases g3 with g3 | g3
    · have hfa := window_fits hs1 ha
      have hfe := window_fits hs2 he
      refine ⟨a * s.1 - p.top, e * s.2 - p.left, by omega, by omega, ⟨by omega, by omega⟩, ⟨by omega, by omega⟩, ?_⟩
      have hle := g2 (a * s.1 - p.top) (e * s.2 - p.left) (by omega) (by omega) ⟨by simp only; omega, by simp only; omega⟩ ⟨by simp only; omega, by simp only; omega⟩
      have hge := hpos [i, o, a * s.1 - p.top, e * s.2 - p.left] (by rw [hx]; exact ⟨hi, ho, by omega, by omega, trivial⟩)
      rw [g3] at hle ⊢
      exact le_antisymm hge hle
    · exact g3
  · obtain ⟨_, g2, _⟩ := maxLoop_ok hx k s (p.top, p.left) i o a e ((startValue none y.shape).at [i, o, a, e])
    rw [← h3] at g2
    exact g2 r q hr hq hw1 hw2

/-- Falsifies the rest: with negative numbers only, every element of the result is 0. -/
theorem C71_maxpool_negative_counterexample {n c h wd : Nat} {k s d : Nat × Nat} (p : Kernels.Pads) {x : Tensor ℚ}
    (hx : x.shape = [n, c, h, wd]) (hs1 : 0 < s.1) (hs2 : 0 < s.2) (hk1 : 0 < k.1) (hk2 : 0 < k.2)
    (hf1 : extent k.1 d.1 ≤ h + p.top + p.bottom) (hf2 : extent k.2 d.2 ≤ wd + p.left + p.right) (hneg : ∀ idx, x.at idx < 0) :
    ∃ y, maxPoolValue (poolAttrs k p s d) x none = .ok y ∧ (∀ i o a e, y.at [i, o, a, e] = 0) ∧
      (0 < n → 0 < c → 0 < windows (h + p.top + p.bottom) k.1 s.1 → 0 < windows (wd + p.left + p.right) k.2 s.2 → ¬ IsMaxPool n c h wd k s p x y) := by
  obtain ⟨y, h1, h2, h3⟩ := maxPoolValue_ok (k := k) (s := s) (d := d) p none hx hs1 hs2 hk1 hk2 hf1 hf2
  have h0 : ∀ i o a e, y.at [i, o, a, e] = 0 := by
    intro i o a e
    obtain ⟨g1, _, g3⟩ := maxLoop_ok hx k s (p.top, p.left) i o a e ((startValue none y.shape).at [i, o, a, e])
    rw [← h3] at g1 g3
    have e0 : (startValue (none : Option (Tensor ℚ)) y.shape).at [i, o, a, e] = 0 := rfl
    rw [e0] at g1 g3
    rcases g3 with g3 | ⟨r, q, _, _, _, _, g3⟩
    · exact g3
    · have := hneg [i, o, r, q]
      rw [← g3] at this
      exact absurd g1 (not_le.2 this)
  refine ⟨y, h1, h0, fun hn hc hw1 hw2 hm => ?_⟩
  obtain ⟨r, q, _, _, _, _, hv⟩ := hm.attained 0 0 0 0 hn hc hw1 hw2
  rw [h0] at hv
  have := hneg [0, 0, r, q]
  rw [← hv] at this
  exact absurd this (lt_irrefl _)

/-- The loops index exactly four result axes and two window axes: whatever the attributes and operand, if there is a result then it has four axes and the window two (a 1-D
or 3-D pooling raises). -/
theorem C71_maxpool_rank {a : OnnxTool.Conv.Attrs} {x y : Tensor ℚ} {old : Option (Tensor ℚ)} (h : maxPoolValue a x old = .ok y) : y.shape.length = 4 ∧ a.kernel.length = 2 := by
  unfold maxPoolValue at h
  split at h
  · cases h
  · rename_i os _
    by_cases h1 : os.any (· < 0) = true
    · rw [if_pos h1] at h; cases h
    rw [if_neg h1] at h
    by_cases h2 : os.length ≠ 4 ∨ a.kernel.length ≠ 2
    · rw [if_pos h2] at h; cases h
    rw [if_neg h2] at h
    split at h
    · cases h
    · injection h with h
      subst h
      simp only [List.length_map]
      omega

/-- Falsifies the property on repeated evaluation: the result is never below the one of the previous run, whatever the new operand is. -/
theorem C71_maxpool_rerun_counterexample {n c h wd : Nat} {k s d : Nat × Nat} (p : Kernels.Pads) {x old : Tensor ℚ}
    (hx : x.shape = [n, c, h, wd]) (hs1 : 0 < s.1) (hs2 : 0 < s.2) (hk1 : 0 < k.1) (hk2 : 0 < k.2)
    (hf1 : extent k.1 d.1 ≤ h + p.top + p.bottom) (hf2 : extent k.2 d.2 ≤ wd + p.left + p.right)
    (hold : old.shape = [n, c, windows (h + p.top + p.bottom) (extent k.1 d.1) s.1, windows (wd + p.left + p.right) (extent k.2 d.2) s.2]) :
    ∃ y, maxPoolValue (poolAttrs k p s d) x (some old) = .ok y ∧ ∀ i o a e, old.at [i, o, a, e] ≤ y.at [i, o, a, e] := by
  obtain ⟨y, h1, h2, h3⟩ := maxPoolValue_ok (k := k) (s := s) (d := d) p (some old) hx hs1 hs2 hk1 hk2 hf1 hf2
  refine ⟨y, h1, fun i o a e => ?_⟩
  obtain ⟨g1, _, _⟩ := maxLoop_ok hx k s (p.top, p.left) i o a e ((startValue (some old) y.shape).at [i, o, a, e])
  rw [← h3] at g1
  have e0 : (startValue (some old) y.shape).at [i, o, a, e] = old.at [i, o, a, e] := by
    unfold startValue
    rw [h2, ← hold]
    simp only [if_true]
  rwa [e0] at g1

/-! ### Cases -/

example : shown (matMulValue (ofFlatQ [2, 1, 2] [1, 2, 3, 4]) (ofFlatQ [2, 1] [5, 7])) = some ([2, 1, 1], [19, 43]) := by decide +kernel
example : shown (gemmValue 1 0 (ofFlatQ [2, 1] [1, 2]) (ofFlatQ [2, 2] [1, 2, 3, 4]) (some (ofFlatQ [2] [10, 20]))) = some ([1, 2], [17, 30]) := by decide +kernel
/-- the hypothesis on the third operand of `C71_gemm_partial` is met -/
example : IsBroadcast [[1, 2], [2]] [1, 2] := (broadcast_iff _ _).1 rfl
/-- MatMulInteger with a zero point: ONNX says (3 - 1) * 4 = 8. -/
theorem C71_matmul_integer_counterexample :
    shown (matMulIntegerValue (ofFlatQ [1, 1] [3]) (ofFlatQ [1, 1] [4]) (some (ofFlatQ [] [1])) (some (ofFlatQ [] [0]))) = some ([1, 1], [13]) := by decide +kernel
example : shown (convValue (convAttrs ⟨1, 0, 0, 0⟩ (1, 1) (1, 1)) (ofFlatQ [1, 1, 2, 2] [1, 2, 3, 4]) (ofFlatQ [1, 1, 2, 2] [1, 1, 1, 1]) none none) =
    some ([1, 1, 2, 1], [3, 10]) := by decide +kernel
/-- `auto_pad = SAME_UPPER` pads below and to the right … -/
example : shown (convValue { autoPad := some .same } (ofFlatQ [1, 1, 1, 2] [1, 2]) (ofFlatQ [1, 1, 1, 2] [1, 1]) none none) = some ([1, 1, 1, 2], [3, 2]) := by decide +kernel
/-- … but SAME with a window of three has to pad one on each side: ONNX says [3, 3]. -/
theorem C71_conv_same_counterexample :
    shown (convValue { autoPad := some .same } (ofFlatQ [1, 1, 1, 2] [1, 2]) (ofFlatQ [1, 1, 1, 3] [1, 1, 1]) none none) = some ([1, 1, 1, 2], [3, 2]) := by decide +kernel
example : shown (maxPoolValue (poolAttrs (2, 2) ⟨0, 0, 0, 0⟩ (2, 2) (1, 1)) (ofFlatQ [1, 1, 2, 4] [1, 2, 3, 4, 5, 6, 7, 8]) none) = some ([1, 1, 1, 2], [6, 8]) := by
  decide +kernel
/-- dilations change the shape but not the window: ONNX says max(1, 3) = 3. -/
theorem C71_maxpool_dilation_counterexample :
    shown (maxPoolValue (poolAttrs (1, 2) ⟨0, 0, 0, 0⟩ (1, 1) (1, 2)) (ofFlatQ [1, 1, 1, 3] [1, 2, 3]) none) = some ([1, 1, 1, 1], [2]) := by decide +kernel

end OnnxTool.Props
