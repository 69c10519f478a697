import Verif.Proofs.ValueReduce
import Verif.Props.ValueMath
/-!
# C70: value inference of reductions, CumSum, NonZero, ConstantOfShape, OneHot and ArgMax

`IsReduce`, `IsCumSum`, … are in `Spec/ValueReduce.lean`.
-/
namespace OnnxTool.Props
open OnnxTool OnnxTool.Torch OnnxTool.Kernels OnnxTool.Values

/-! ### Reductions -/

/-- Which axes are reduced: all of them without the attribute, the listed ones otherwise. -/
def Reduced (r : Nat) : Option (List Int) → Nat → Prop
  | none, _ => True
  | some l, k => Listed r l k

instance (r : Nat) (o : Option (List Int)) : DecidablePred (Reduced r o) := fun k =>
  match o with
  | none => inferInstanceAs (Decidable True)
  | some l => inferInstanceAs (Decidable (Listed r l k))

theorem axesOf_attr (sum : Bool) (r : Nat) (o : Option (List Int)) (h : ∀ l, o = some l → GoodAxes r l) :
    ∃ ax, axesOf sum r (.attr o) = .ok ax ∧ ∀ k, k < r → (k ∈ ax ↔ Reduced r o k) := by
  cases o with
  | none => exact ⟨List.range r, rfl, fun k hk => ⟨fun _ => trivial, fun _ => List.mem_range.2 hk⟩⟩
  | some l =>
    obtain ⟨ks, h1, h2⟩ := npAxes_ok (h l rfl)
    exact ⟨ks, h1, fun k _ => h2 k⟩

/-- ReduceSum, ReduceProd and ReduceMean with axes given by the attribute (or absent). -/
theorem C70_sum_prod_mean (axes : Option (List Int)) (keepdims : Int) (x : Tensor ℚ) (h : ∀ l, axes = some l → GoodAxes x.shape.length l) :
    (∃ y, reduceSumValue (.attr axes) keepdims x = .ok y ∧ IsReduce (Reduced x.shape.length axes) (keepdims == 1) (fun l v => v = l.sum) x y) ∧
    (∃ y, reduceProdValue (.attr axes) keepdims x = .ok y ∧ IsReduce (Reduced x.shape.length axes) (keepdims == 1) (fun l v => v = l.prod) x y) ∧
    (∃ y, reduceMeanValue (.attr axes) keepdims x = .ok y ∧
      IsReduce (Reduced x.shape.length axes) (keepdims == 1) (fun l v => v = l.sum / (l.length : ℚ)) x y) := by
  refine ⟨?_, ?_, ?_⟩
  · obtain ⟨ax, h1, h2⟩ := axesOf_attr true x.shape.length axes h
    exact ⟨reduceOver ax (keepdims == 1) List.sum x, by unfold reduceSumValue; rw [h1], reduceOver_ok _ ax x h2 _ _ _ fun _ _ => rfl⟩
  · obtain ⟨ax, h1, h2⟩ := axesOf_attr false x.shape.length axes h
    exact ⟨reduceOver ax (keepdims == 1) List.prod x, by unfold reduceProdValue; rw [h1], reduceOver_ok _ ax x h2 _ _ _ fun _ _ => rfl⟩
  · obtain ⟨ax, h1, h2⟩ := axesOf_attr false x.shape.length axes h
    exact ⟨reduceOver ax (keepdims == 1) (fun l => l.sum / l.length) x, by unfold reduceMeanValue; rw [h1], reduceOver_ok _ ax x h2 _ _ _ fun _ _ => rfl⟩

theorem fibreSize_pos (ax : List Nat) (s : List Nat) (i : Nat) (h : 0 < numel s) : 0 < fibreSize ax i s := by
  induction s generalizing i with
  | nil => exact Nat.one_pos
  | cons d s ih =>
    have hd : 0 < d ∧ 0 < numel s := by
      unfold numel at h
      exact ⟨Nat.pos_of_mul_pos_right h, Nat.pos_of_mul_pos_left h⟩
    unfold fibreSize
    split_ifs
    · exact Nat.mul_pos hd.1 (ih (i + 1) hd.2)
    · exact ih (i + 1) hd.2

theorem reduceFrom_ok (red : Nat → Prop) [DecidablePred red] (f : ℚ → ℚ → ℚ) (R : List ℚ → ℚ → Prop) (hf : ∀ a l, R (a :: l) (l.foldl f a)) (ax : List Nat) (keep : Bool)
    (x : Tensor ℚ) (hred : ∀ k, k < x.shape.length → (k ∈ ax ↔ red k)) (hn : 0 < numel x.shape) :
    ∃ y, reduceFrom f ax keep x = .ok y ∧ IsReduce red keep R x y := by
  have hp := fibreSize_pos ax x.shape 0 hn
  refine ⟨_, by unfold reduceFrom; exact if_neg (by omega), reduceOver_ok _ ax x hred _ _ _ fun l hl => ?_⟩
  cases l with
  | nil => rw [List.length_nil] at hl; omega
  | cons a l => exact hf a l

/-- ReduceMax and ReduceMin of an operand that is not empty. -/
theorem C70_max_min (axes : Option (List Int)) (keepdims : Int) (x : Tensor ℚ) (h : ∀ l, axes = some l → GoodAxes x.shape.length l) (hn : 0 < numel x.shape) :
    (∃ y, reduceMaxValue (.attr axes) keepdims x = .ok y ∧ IsReduce (Reduced x.shape.length axes) (keepdims == 1) IsLargest x y) ∧
    (∃ y, reduceMinValue (.attr axes) keepdims x = .ok y ∧ IsReduce (Reduced x.shape.length axes) (keepdims == 1) IsSmallest x y) := by
  obtain ⟨ax, h1, h2⟩ := axesOf_attr false x.shape.length axes h
  constructor
  · obtain ⟨y, h3, h4⟩ := reduceFrom_ok (Reduced x.shape.length axes) max IsLargest (fun a l => by
      obtain ⟨g1, g2, g3⟩ := foldl_max l a
      refine ⟨?_, fun w hw => ?_⟩
      · rcases g3 with g3 | g3
        · rw [g3]; simp
        · exact List.mem_cons_of_mem _ g3
      · rcases List.mem_cons.1 hw with rfl | hw
        · exact g1
        · exact g2 w hw) ax (keepdims == 1) x h2 hn
    exact ⟨y, by unfold reduceMaxValue; rw [h1]; exact h3, h4⟩
  · obtain ⟨y, h3, h4⟩ := reduceFrom_ok (Reduced x.shape.length axes) min IsSmallest (fun a l => by
      obtain ⟨g1, g2, g3⟩ := foldl_min l a
      refine ⟨?_, fun w hw => ?_⟩
      · rcases g3 with g3 | g3
        · rw [g3]; simp
        · exact List.mem_cons_of_mem _ g3
      · rcases List.mem_cons.1 hw with rfl | hw
        · exact g1
        · exact g2 w hw) ax (keepdims == 1) x h2 hn
    exact ⟨y, by unfold reduceMinValue; rw [h1]; exact h3, h4⟩

/-- ReduceL2 with axes given by the attribute. -/
theorem C70_l2 (sqrt : ℚ → ℚ) (axes : Option (List Int)) (keepdims : Int) (x : Tensor ℚ) (h : ∀ l, axes = some l → GoodAxes x.shape.length l) :
    ∃ y, reduceL2Value sqrt axes keepdims x = .ok y ∧
      IsReduce (Reduced x.shape.length axes) (keepdims == 1) (fun l v => v = sqrt (l.map fun a => a * a).sum) x y := by
  obtain ⟨ax, h1, h2⟩ := axesOf_attr false x.shape.length axes h
  refine ⟨reduceOver ax (keepdims == 1) (fun l => sqrt l.sum) ⟨x.shape, fun idx => x.at idx * x.at idx⟩, by unfold reduceL2Value; rw [h1], ?_⟩
  have := reduceOver_ok (Reduced x.shape.length axes) ax x h2 (keepdims == 1) (fun l => sqrt (l.map fun a => a * a).sum) (fun l v => v = sqrt (l.map fun a => a * a).sum)
    fun _ _ => rfl
  refine ⟨this.shape, fun idx hi => ?_⟩
  obtain ⟨srcs, g1, g2, g3⟩ := this.value idx hi
  refine ⟨srcs, g1, g2, ?_⟩
  rw [← g3]
  simp only [reduceOver, List.map_map]
  rfl

/-- ReduceSum with the axes as second input: the listed axes are reduced (ONNX reads an empty list differently, see below). -/
theorem C70_sum_input_partial (l : List Int) (keepdims : Int) (x : Tensor ℚ) (h : GoodAxes x.shape.length l) :
    ∃ y, reduceSumValue (.input l) keepdims x = .ok y ∧ IsReduce (Listed x.shape.length l) (keepdims == 1) (fun l v => v = l.sum) x y := by
  obtain ⟨ks, h1, h2⟩ := npAxes_ok h
  refine ⟨reduceOver ks (keepdims == 1) List.sum x, ?_, reduceOver_ok _ ks x (fun k _ => h2 k) _ _ _ fun _ _ => rfl⟩
  simp only [reduceSumValue, axesOf, if_true, h1]

/-- Axes out of range or listed twice raise. -/
theorem C70_bad_axes (l : List Int) (keepdims : Int) (x : Tensor ℚ) (h : ¬ GoodAxes x.shape.length l) :
    reduceSumValue (.attr (some l)) keepdims x = .error .valueError ∧ reduceProdValue (.attr (some l)) keepdims x = .error .valueError ∧
    reduceMeanValue (.attr (some l)) keepdims x = .error .valueError ∧ reduceMaxValue (.attr (some l)) keepdims x = .error .valueError ∧
    reduceMinValue (.attr (some l)) keepdims x = .error .valueError ∧ reduceSumValue (.input l) keepdims x = .error .valueError := by
  have e := npAxes_error h
  refine ⟨?_, ?_, ?_, ?_, ?_, ?_⟩ <;>
    simp only [reduceSumValue, reduceProdValue, reduceMeanValue, reduceMaxValue, reduceMinValue, axesOf, e, if_true]

/-- Falsifies the property for every operand (opset 18 and later): ReduceMean, ReduceProd, ReduceMax and ReduceMin with the axes as second input raise. -/
theorem C70_input_counterexample (l : List Int) (keepdims : Int) (x : Tensor ℚ) :
    reduceMeanValue (.input l) keepdims x = .error .typeError ∧ reduceProdValue (.input l) keepdims x = .error .typeError ∧
    reduceMaxValue (.input l) keepdims x = .error .typeError ∧ reduceMinValue (.input l) keepdims x = .error .typeError := ⟨rfl, rfl, rfl, rfl⟩

/-- Falsifies the property: ReduceSum with an empty list of axes as second input reduces nothing; ONNX (by default) reduces everything. -/
theorem C70_empty_axes_counterexample (keepdims : Int) (x : Tensor ℚ) :
    ∃ y, reduceSumValue (.input []) keepdims x = .ok y ∧ y.shape = x.shape ∧ ∀ idx, InB x.shape idx → y.at idx = x.at idx := by
  refine ⟨reduceOver [] (keepdims == 1) List.sum x, rfl, reducedShape_none _ _ _ _ (by simp), fun idx hi => ?_⟩
  simp only [reduceOver]
  rw [fibre_none _ _ _ _ _ (by simp) hi]
  simp

/-! ### CumSum, NonZero, ConstantOfShape, OneHot, ArgMax -/

/-- CumSum along any axis, negative ones counted from the end. -/
theorem C70_cumsum_partial (axis : Int) (x : Tensor ℚ) (h : -(x.shape.length : Int) ≤ axis ∧ axis < x.shape.length) (k : Nat)
    (hk : (k : Int) = if axis < 0 then axis + x.shape.length else axis) : ∃ y, cumSumValue 0 0 axis x = .ok y ∧ IsCumSum k x y := cumSum_ok h k hk

/-- `exclusive` and `reverse` are refused, not computed wrongly. -/
theorem C70_cumsum_refused (exclusive reverse axis : Int) (x : Tensor ℚ) (h : exclusive ≠ 0 ∨ reverse ≠ 0) :
    cumSumValue exclusive reverse axis x = .error .notImplemented := by
  unfold cumSumValue
  rw [if_neg (by omega)]

/-- NonZero of an array with a nonzero element (or without elements). -/
theorem C70_nonzero_partial (x : Tensor ℚ) (hr : x.shape ≠ []) (h : numel x.shape = 0 ∨ ∃ idx, InB x.shape idx ∧ x.at idx ≠ 0) :
    ∃ n, IsNonZero x n (nonZeroValue x) := nonZero_ok x hr h

/-- Falsifies the rest: when every element is zero, all of them are returned. -/
theorem C70_nonzero_counterexample (x : Tensor ℚ) (h : ∀ idx, InB x.shape idx → x.at idx = 0) (hn : 0 < numel x.shape) :
    (nonZeroValue x).shape = [x.shape.length, numel x.shape] ∧ ¬ ∃ n, IsNonZero x n (nonZeroValue x) := by
  have hnil : ((allIdx x.shape).filter fun i => decide (x.at i ≠ 0)) = [] := by
    rw [List.filter_eq_nil_iff]
    intro i hi
    simp [h i (allIdx_inb.1 hi)]
  have hs : (nonZeroValue x).shape = [x.shape.length, numel x.shape] := by
    unfold nonZeroValue
    simp only [hnil, List.length_nil, Nat.mul_zero, if_true]
    simp [columns, allIdx]
  refine ⟨hs, ?_⟩
  rintro ⟨n, hz⟩
  have h1 := hz.shape
  rw [hs] at h1
  injection h1 with _ h1
  injection h1 with h1
  obtain ⟨h2, h3⟩ := hz.only 0 (by omega)
  exact h3 (h _ h2)

/-- ConstantOfShape with the attribute: every element is its value. -/
theorem C70_constant_partial {V : Type} [Zero V] (v : V) (shape : List Nat) :
    ∃ y : Tensor V, constantOfShapeValue (some [v]) (shape.map fun d : Nat => (d : Int)) = .ok y ∧ y.shape = shape ∧ ∀ idx, y.at idx = v := by
  refine ⟨⟨shape, fun _ => v⟩, ?_, rfl, fun _ => rfl⟩
  unfold constantOfShapeValue
  simp only []
  rw [if_neg, List.map_map]
  · have : (shape.map (Int.toNat ∘ fun d : Nat => (d : Int))) = shape := by
      conv_rhs => rw [← List.map_id shape]
      exact List.map_congr_left fun d _ => rfl
    rw [this]
  · rw [List.any_eq_true]
    rintro ⟨a, ha, hneg⟩
    obtain ⟨d, _, rfl⟩ := List.mem_map.1 ha
    simp only [decide_eq_true_eq] at hneg
    omega

/-- Falsifies the rest: without the attribute (ONNX: float zeros) it raises. -/
theorem C70_constant_counterexample {V : Type} [Zero V] (shape : List Int) : constantOfShapeValue (none : Option (List V)) shape = .error .attributeError := rfl

/-- OneHot with indices in range, along any axis, when `values` is `[0, 1]`. -/
theorem C70_onehot_partial (axis : Int) (x : Tensor Int) (depth : Nat) (h : -((x.shape.length : Int) + 1) ≤ axis ∧ axis ≤ x.shape.length) (k : Nat)
    (hk : (k : Int) = if axis < 0 then axis + (x.shape.length + 1) else axis)
    (hin : ∀ idx, InB x.shape idx → -(depth : Int) ≤ x.at idx ∧ x.at idx < depth) :
    IsOneHot k depth 1 0 x (oneHotValue axis x depth (ofFlatQ [2] [0, 1])) := oneHot_ok axis x depth _ h k hk hin

/-- Falsifies the rest: `values` is ignored … -/
theorem C70_onehot_values_counterexample (axis : Int) (x : Tensor Int) (depth : Nat) (v w : Tensor ℚ) : oneHotValue axis x depth v = oneHotValue axis x depth w := rfl

/-- … so with `values = [off, on]` other than `[0, 1]` no nonempty result is right. -/
theorem C70_onehot_wrong (x : Tensor Int) (depth : Nat) (off on : ℚ) (h : on ≠ 0 ∧ on ≠ 1) (i : List Nat) (hi : InB x.shape i) (hx : 0 ≤ x.at i ∧ x.at i < depth) :
    ¬ IsOneHot x.shape.length depth on off x (oneHotValue (-1) x depth (ofFlatQ [2] [off, on])) := by
  intro hh
  have h1 := hh.value i (x.at i).toNat [] (inb_length hi) (by rw [List.append_nil]; exact hi) (by omega)
  rw [List.append_nil, if_pos (Or.inl (by omega))] at h1
  unfold oneHotValue oneHot at h1
  simp only [] at h1
  split_ifs at h1
  all_goals first | exact h.2 h1.symm | exact h.1 h1.symm

/-- ArgMax along any axis: the first largest element. -/
theorem C70_argmax_partial (axis keepdims : Int) (x : Tensor ℚ) (h : -(x.shape.length : Int) ≤ axis ∧ axis < x.shape.length) (k : Nat)
    (hk : (k : Int) = if axis < 0 then axis + x.shape.length else axis) (hd : 0 < x.shape.getD k 0) :
    ∃ y, argMaxValue axis keepdims x = .ok y ∧ IsArgMax k (keepdims == 1) x y := argMax_ok keepdims h k hk hd

/-! ### Cases -/

example : shown (reduceSumValue (.attr (some [-1])) 1 (ofFlatQ [2, 3] [1, 2, 3, 4, 5, 6])) = some ([2, 1], [6, 15]) := by decide +kernel
example : shown (reduceSumValue (.input [0]) 0 (ofFlatQ [2, 3] [1, 2, 3, 4, 5, 6])) = some ([3], [5, 7, 9]) := by decide +kernel
example : shown (reduceMaxValue (.attr none) 1 (ofFlatQ [2, 3] [1, 2, 9, 4, 5, 6])) = some ([1, 1], [9]) := by decide +kernel
/-- the hypothesis on the axes is met -/
example : GoodAxes 3 [-1, 0] := ⟨by decide, by decide⟩
example : ¬ GoodAxes 3 [2, -1] := fun h => absurd h.2 (by decide)
example : shown (cumSumValue 0 0 (-1) (ofFlatQ [2, 3] [1, 2, 3, 4, 5, 6])) = some ([2, 3], [1, 3, 6, 4, 9, 15]) := by decide +kernel
example : ((nonZeroValue (ofFlatQ [2, 2] [0, 5, 7, 0])).shape, (nonZeroValue (ofFlatQ [2, 2] [0, 5, 7, 0])).flat) = ([2, 2], [0, 1, 1, 0]) := by decide +kernel
example : ((oneHotValue 0 (ofFlat [2] [1, -1]) 3 (ofFlatQ [2] [0, 1])).shape, (oneHotValue 0 (ofFlat [2] [1, -1]) 3 (ofFlatQ [2] [0, 1])).flat) =
    ([3, 2], [0, 0, 1, 0, 0, 1]) := by decide +kernel
/-- An index out of range: ONNX asks for a row of `off`. -/
theorem C70_onehot_range_counterexample : (oneHotValue (-1) (ofFlat [1] [4]) 3 (ofFlatQ [2] [0, 1])).flat = [0, 1, 0] := by decide +kernel
example : shown (argMaxValue 1 0 (ofFlatQ [2, 3] [1, 9, 9, 7, 5, 6])) = some ([2], [1, 0]) := by decide +kernel

end OnnxTool.Props
