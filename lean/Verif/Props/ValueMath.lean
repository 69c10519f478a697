import Verif.Proofs.ValueMath
import Verif.Props.ValueMove
/-!
# C69: value inference of arithmetic operators computes what ONNX says

`Source`, `IsElementwise2`, `IsFolded`, … are in `Spec/ValueMath.lean`, `IsBroadcast` in `Spec/Broadcast.lean`.
-/
namespace OnnxTool.Props
open OnnxTool OnnxTool.Torch OnnxTool.Kernels OnnxTool.Values OnnxTool.Shape

section
variable {V : Type}

/-! ### Two operands -/

/-- Add, Sub and Mul on any operands that broadcast. -/
theorem C69_arithmetic [Add V] [Sub V] [Mul V] (x y : Tensor V) (r : List Nat) (h : IsBroadcast [x.shape, y.shape] r) :
    (∃ z, addValue x y = .ok z ∧ z.shape = r ∧ IsElementwise2 (fun a b => a + b) x y z) ∧
    (∃ z, subValue x y = .ok z ∧ z.shape = r ∧ IsElementwise2 (fun a b => a - b) x y z) ∧
    (∃ z, mulValue x y = .ok z ∧ z.shape = r ∧ IsElementwise2 (fun a b => a * b) x y z) :=
  ⟨ufunc2_ok _ x y r h, ufunc2_ok _ x y r h, ufunc2_ok _ x y r h⟩

/-- Less, LessOrEqual, Greater, GreaterOrEqual and Equal. -/
theorem C69_compare (x y : Tensor ℚ) (r : List Nat) (h : IsBroadcast [x.shape, y.shape] r) :
    (∃ z, lessValue x y = .ok z ∧ IsElementwise2 (fun a b => decide (a < b)) x y z) ∧
    (∃ z, lessEqualValue x y = .ok z ∧ IsElementwise2 (fun a b => decide (a ≤ b)) x y z) ∧
    (∃ z, greaterValue x y = .ok z ∧ IsElementwise2 (fun a b => decide (b < a)) x y z) ∧
    (∃ z, greaterEqualValue x y = .ok z ∧ IsElementwise2 (fun a b => decide (b ≤ a)) x y z) ∧
    (∃ z, equalValue x y = .ok z ∧ IsElementwise2 (fun a b => decide (a = b)) x y z) := by
  refine ⟨?_, ?_, ?_, ?_, ?_⟩ <;>
    (obtain ⟨z, h1, _, h2⟩ := ufunc2_ok _ x y r h; exact ⟨z, h1, h2⟩)

/-- And, Or, Xor, Not. -/
theorem C69_logic (x y : Tensor Bool) (r : List Nat) (h : IsBroadcast [x.shape, y.shape] r) :
    (∃ z, andValue x y = .ok z ∧ IsElementwise2 (fun a b => a && b) x y z) ∧
    (∃ z, orValue x y = .ok z ∧ IsElementwise2 (fun a b => a || b) x y z) ∧
    (∃ z, xorValue x y = .ok z ∧ IsElementwise2 (fun a b => a != b) x y z) ∧
    ((notValue x).shape = x.shape ∧ ∀ idx, (notValue x).at idx = !x.at idx) := by
  refine ⟨?_, ?_, ?_, rfl, fun _ => rfl⟩
  · obtain ⟨z, h1, _, h2⟩ := ufunc2_ok (fun a b => a && b) x y r h; exact ⟨z, h1, h2⟩
  · obtain ⟨z, h1, _, h2⟩ := ufunc2_ok (fun a b => a || b) x y r h; exact ⟨z, h1, h2⟩
  · obtain ⟨z, h1, _, h2⟩ := ufunc2_ok xor x y r h
    exact ⟨z, h1, h2⟩

/-- Operands that do not broadcast are refused by all of them. -/
theorem C69_incompatible [Add V] [Sub V] [Mul V] (x y : Tensor V) (h : ¬ ∃ r, IsBroadcast [x.shape, y.shape] r) :
    addValue x y = .error .valueError ∧ subValue x y = .error .valueError ∧ mulValue x y = .error .valueError :=
  ⟨ufunc2_error _ x y h, ufunc2_error _ x y h, ufunc2_error _ x y h⟩

/-- integers as numbers -/
def asQ (x : Tensor Int) : Tensor ℚ := mapValue (fun a : Int => (a : ℚ)) x

theorem divOne_int (a b : Int) : divOne .int64 .int64 (a : ℚ) (b : ℚ) = ((a.fdiv b : Int) : ℚ) := by
  unfold divOne
  rw [if_pos rfl, if_pos rfl]
  by_cases hb : b = 0
  · subst hb; simp
  · rw [if_neg (by exact_mod_cast hb), floor_div]

/-- Div of int64: every quotient is rounded down. -/
theorem C69_div_floors (x y : Tensor Int) (r : List Nat) (h : IsBroadcast [x.shape, y.shape] r) :
    ∃ z, divValue .int64 .int64 (asQ x) (asQ y) = .ok z ∧ z.shape = r ∧
      IsElementwise2 (fun a b => ((a.fdiv b : Int) : ℚ)) x y z := by
  obtain ⟨z, h1, h2, h3⟩ := ufunc2_ok (divOne .int64 .int64) (asQ x) (asQ y) r h
  refine ⟨z, h1, h2, h3.shape, fun idx i j hi hs ht => ?_, h3.left, h3.right⟩
  rw [h3.value idx i j hi hs ht]
  exact divOne_int _ _

/-- Rounding down is what ONNX asks for (rounding towards zero) exactly when the division is exact or the signs agree. -/
theorem C69_div_agrees_iff (a b : Int) (h : b ≠ 0) : a.fdiv b = a.tdiv b ↔ b ∣ a ∨ (0 ≤ a ∧ 0 < b) ∨ (a ≤ 0 ∧ b < 0) := fdiv_eq_tdiv_iff a b h

/-- Div of int64 with quotients that need no rounding, or of equal sign: ONNX's result. -/
theorem C69_div_partial (x y : Tensor Int) (r : List Nat) (h : IsBroadcast [x.shape, y.shape] r)
    (hs : ∀ i j, InB x.shape i → InB y.shape j → y.at j ≠ 0 ∧ (y.at j ∣ x.at i ∨ (0 ≤ x.at i ∧ 0 < y.at j) ∨ (x.at i ≤ 0 ∧ y.at j < 0))) :
    ∃ z, divValue .int64 .int64 (asQ x) (asQ y) = .ok z ∧ z.shape = r ∧
      IsElementwise2 (fun a b => ((a.tdiv b : Int) : ℚ)) x y z := by
  obtain ⟨z, h1, h2, h3⟩ := C69_div_floors x y r h
  refine ⟨z, h1, h2, h3.shape, fun idx i j hi hi1 hj => ?_, h3.left, h3.right⟩
  rw [h3.value idx i j hi hi1 hj]
  obtain ⟨g1, g2⟩ := hs i j hi1.1 hj.1
  simp only [(fdiv_eq_tdiv_iff _ _ g1).2 g2]

/-- Div of floats (exact numbers here, divisors not zero). -/
theorem C69_div_float (x y : Tensor ℚ) (r : List Nat) (h : IsBroadcast [x.shape, y.shape] r) :
    ∃ z, divValue .float .float x y = .ok z ∧ z.shape = r ∧ IsElementwise2 (fun a b => a / b) x y z := by
  obtain ⟨z, h1, h2, h3⟩ := ufunc2_ok (divOne .float .float) x y r h
  refine ⟨z, h1, h2, h3.shape, fun idx i j hi hs ht => ?_, h3.left, h3.right⟩
  rw [h3.value idx i j hi hs ht]
  rfl

/-- Mod (with the default `fmod = 0`): the remainder has the sign of the divisor. -/
theorem C69_mod_partial (x y : Tensor Int) (r : List Nat) (h : IsBroadcast [x.shape, y.shape] r) :
    ∃ z, modValue x y = .ok z ∧ z.shape = r ∧ ∀ idx i j, InB r idx → Source x.shape r idx i → Source y.shape r idx j → y.at j ≠ 0 →
      IsMod (x.at i) (y.at j) (z.at idx) := by
  obtain ⟨z, h1, h2, h3⟩ := ufunc2_ok (fun (a b : Int) => if b = 0 then 0 else a.fmod b) x y r h
  refine ⟨z, h1, h2, fun idx i j hi hs ht hb => ?_⟩
  rw [h3.value idx i j (by rw [h2]; exact hi) (by rw [h2]; exact hs) (by rw [h2]; exact ht), if_neg hb]
  exact fmod_isMod _ _ hb

/-- Pow of integers with exponents that are not negative. -/
theorem C69_pow_partial (x y : Tensor Int) (r : List Nat) (h : IsBroadcast [x.shape, y.shape] r) (hy : ∀ j, InB y.shape j → 0 ≤ y.at j) :
    ∃ z, powValue x y = .ok z ∧ z.shape = r ∧ IsElementwise2 (fun a b => a ^ b.toNat) x y z := by
  obtain ⟨z, h1, h2, h3⟩ := ufunc2_ok (fun (a b : Int) => a ^ b.toNat) x y r h
  refine ⟨z, ?_, h2, h3⟩
  unfold powValue
  simp only [(npShape_iff _ _ _).2 h]
  rw [if_neg, h1]
  rintro ⟨_, hany⟩
  obtain ⟨v, hv, hneg⟩ := List.any_eq_true.1 hany
  obtain ⟨j, hj, rfl⟩ := mem_flat y hv
  have := hy j hj
  simp only [decide_eq_true_eq] at hneg
  omega

/-! ### Several operands -/

/-- Max of any number of operands. -/
theorem C69_max (x : Tensor ℚ) (xs : List (Tensor ℚ)) (r : List Nat) (h : IsBroadcast ((x :: xs).map (·.shape)) r) :
    ∃ z, maxValue (x :: xs) = .ok z ∧ z.shape = r ∧ IsFolded max (x :: xs) z := foldFrom_ok max xs x r h

/-- Sum of any number of operands. -/
theorem C69_sum [Add V] (x : Tensor V) (xs : List (Tensor V)) (r : List Nat) (h : IsBroadcast ((x :: xs).map (·.shape)) r) :
    ∃ z, sumValue (x :: xs) = .ok z ∧ z.shape = r ∧ IsFolded (fun a b => a + b) (x :: xs) z := foldFrom_ok _ xs x r h

theorem C69_several_incompatible [Add V] (x : Tensor V) (xs : List (Tensor V)) (h : ¬ ∃ r, IsBroadcast ((x :: xs).map (·.shape)) r) :
    sumValue (x :: xs) = .error .valueError := foldFrom_error _ xs x h

/-- Min of one operand is the operand. -/
theorem C69_min_partial (x : Tensor ℚ) : minValue [x] = .ok x := rfl

/-- Falsifies the rest: Min of two operands raises unless the result has exactly one element … -/
theorem C69_min_counterexample (x y : Tensor ℚ) (r : List Nat) (h : IsBroadcast [x.shape, y.shape] r) (hr : numel r ≠ 1) (xs : List (Tensor ℚ)) :
    minValue (x :: y :: xs) = .error .valueError := by
  obtain ⟨z, h1, h2, _⟩ := ufunc2_ok min x y r h
  simp only [minValue, minFrom, h1, notArray, h2, if_neg hr]

/-- … and then the value is 0 or 1, never the minimum, and has lost its axes. -/
theorem C69_min_is_not (x y : Tensor ℚ) (r : List Nat) (h : IsBroadcast [x.shape, y.shape] r) (hr : numel r = 1) :
    ∃ z, minValue [x, y] = .ok z ∧ z.shape = [] ∧ (z.at [] = 0 ∨ z.at [] = 1) := by
  obtain ⟨z, h1, h2, _⟩ := ufunc2_ok min x y r h
  have e : minValue [x, y] = .ok ⟨[], fun _ => if z.at (unravel z.shape 0) = 0 then 1 else 0⟩ := by
    simp only [minValue, minFrom, h1, notArray]
    rw [if_pos (by rw [h2]; exact hr)]
  refine ⟨_, e, rfl, ?_⟩
  by_cases hz : z.at (unravel z.shape 0) = 0
  · right; exact if_pos hz
  · left; exact if_neg hz

/-- Where. -/
theorem C69_where (c : Tensor Bool) (x y : Tensor V) (r : List Nat) (h : IsBroadcast [c.shape, x.shape, y.shape] r) :
    ∃ z, whereValue c x y = .ok z ∧ z.shape = r ∧ IsWhere c x y z := where_ok c x y r h

/-- Expand broadcasts both ways. -/
theorem C69_expand [MulOneClass V] (e : List Nat) (x : Tensor V) (r : List Nat) (h : IsBroadcast [x.shape, e] r) :
    ∃ z, expandValue e x = .ok z ∧ z.shape = r ∧ IsExpandBoth e x z := expand_value_ok e x r h

/-! ### One operand -/

/-- Neg, Abs, Ceil, Floor, Sign, Relu and Relu6 keep the shape and treat every element alone. -/
theorem C69_unary (x : Tensor ℚ) (idx : List Nat) :
    ((negValue x).shape = x.shape ∧ (negValue x).at idx = -x.at idx) ∧
    ((absValue x).shape = x.shape ∧ (absValue x).at idx = |x.at idx|) ∧
    ((ceilValue x).shape = x.shape ∧ ∃ n : Int, (ceilValue x).at idx = n ∧ (n : ℚ) - 1 < x.at idx ∧ x.at idx ≤ n) ∧
    ((floorValue x).shape = x.shape ∧ ∃ n : Int, (floorValue x).at idx = n ∧ (n : ℚ) ≤ x.at idx ∧ x.at idx < n + 1) ∧
    ((signValue x).shape = x.shape ∧ (signValue x).at idx * |x.at idx| = x.at idx ∧ (x.at idx = 0 → (signValue x).at idx = 0)) ∧
    ((reluValue x).shape = x.shape ∧ (reluValue x).at idx = if x.at idx < 0 then 0 else x.at idx) ∧
    ((relu6Value x).shape = x.shape ∧ (relu6Value x).at idx = clipTo (some 0) (some 6) (x.at idx)) := by
  refine ⟨⟨rfl, rfl⟩, ⟨rfl, ?_⟩, ⟨rfl, ⌈x.at idx⌉, rfl, ?_, Int.le_ceil _⟩, ⟨rfl, ⌊x.at idx⌋, rfl, Int.floor_le _, Int.lt_floor_add_one _⟩,
    ⟨rfl, ?_, fun h0 => ?_⟩, ⟨rfl, ?_⟩, ⟨rfl, ?_⟩⟩
  · simp only [absValue, mapValue]
    split_ifs with h
    · exact (abs_of_neg h).symm
    · exact (abs_of_nonneg (not_lt.1 h)).symm
  · have := Int.ceil_lt_add_one (x.at idx)
    linarith
  · simp only [signValue, mapValue]
    split_ifs with h1 h2
    · rw [abs_of_neg h1]; ring
    · rw [h2]; simp
    · rw [abs_of_nonneg (not_lt.1 h1)]; ring
  · simp only [signValue, mapValue]
    rw [h0]
    simp
  · simp only [reluValue, mapValue]
    split_ifs with h
    · exact max_eq_right (le_of_lt h)
    · exact max_eq_left (not_lt.1 h)
  · simp only [relu6Value, mapValue, clipTo]
    have e : max (x.at idx) 0 = if x.at idx < 0 then 0 else x.at idx := by
      split_ifs with h
      · exact max_eq_right (le_of_lt h)
      · exact max_eq_left (not_lt.1 h)
    rw [e]
    generalize (if x.at idx < 0 then (0 : ℚ) else x.at idx) = v
    split_ifs with h
    · exact min_eq_right (le_of_lt h)
    · exact min_eq_left (not_lt.1 h)

/-- Clip with both bounds listed (either may be left empty), scalars. -/
theorem C69_clip_partial (lo hi : Option (Tensor ℚ)) (x : Tensor ℚ) (hlo : ∀ l, lo = some l → l.shape = []) (hhi : ∀ u, hi = some u → u.shape = []) :
    ∃ z, clipValue [lo, hi] x = .ok z ∧ z.shape = x.shape ∧
      ∀ idx, InB x.shape idx → z.at idx = clipTo (lo.map fun l => l.at []) (hi.map fun u => u.at []) (x.at idx) := by
  have key : ∃ y, clipBound max x lo = .ok y ∧ y.shape = x.shape ∧
      ∀ idx, InB x.shape idx → y.at idx = clipTo (lo.map fun l => l.at []) none (x.at idx) := by
    cases lo with
    | none => exact ⟨x, rfl, rfl, fun idx _ => rfl⟩
    | some l =>
      obtain ⟨y, h1, h2, h3⟩ := ufunc2_scalar max x l (hlo l rfl)
      refine ⟨y, h1, h2, fun idx hi => ?_⟩
      rw [h3 idx hi]
      simp only [clipTo, Option.map_some]
      split_ifs with h
      · exact max_eq_right (le_of_lt h)
      · exact max_eq_left (not_lt.1 h)
  obtain ⟨y, h1, h2, h3⟩ := key
  simp only [clipValue, h1]
  cases hi with
  | none => exact ⟨y, rfl, h2, h3⟩
  | some u =>
    obtain ⟨z, g1, g2, g3⟩ := ufunc2_scalar min y u (hhi u rfl)
    refine ⟨z, g1, g2.trans h2, fun idx hidx => ?_⟩
    rw [g3 idx (by rw [h2]; exact hidx), h3 idx hidx]
    simp only [clipTo, Option.map_some]
    split_ifs with h
    · exact min_eq_right (le_of_lt h)
    · exact min_eq_left (not_lt.1 h)

/-- Falsifies the rest: a Clip without bounds, or with only the lower one, has fewer inputs and raises. -/
theorem C69_clip_counterexample (lo : Option (Tensor ℚ)) (x : Tensor ℚ) :
    clipValue [] x = .error .indexError ∧ clipValue [lo] x = .error .indexError := ⟨rfl, rfl⟩

/-- HardSigmoid and HardSwish of an array of one element. -/
theorem C69_hard_partial (alpha beta : ℚ) (x : Tensor ℚ) (h : numel x.shape = 1) :
    (∃ z, hardSigmoidValue alpha beta x = .ok z ∧ z.flat = x.flat.map fun a => max 0 (min 1 (alpha * a + beta))) ∧
    (∃ z, hardSwishValue alpha beta x = .ok z ∧ z.shape = x.shape ∧
      ∀ idx, InB x.shape idx → z.at idx = x.at idx * max 0 (min 1 (alpha * x.at idx + beta))) := by
  obtain ⟨c, h1, h2, h3⟩ := pyClamp_one (mapValue (fun a => alpha * a + beta) x) h
  constructor
  · refine ⟨c, h1, ?_⟩
    rw [(pyClamp_flat h1).2]
    simp only [Tensor.flat, mapValue, List.map_map]
    rfl
  · have hb : IsBroadcast [x.shape, c.shape] x.shape := by
      rcases h2 with e | e
      · rw [e]
        have := broadcast_single x.shape
        rw [← broadcast_iff] at this ⊢
        rw [← this]
        exact C19_order_independent _ _ fun s => by simp [mapValue]
      · rw [e]; exact broadcast_scalar _
    obtain ⟨z, g1, g2, g3⟩ := ufunc2_ok (fun a b => a * b) x c x.shape hb
    refine ⟨z, by unfold hardSwishValue; simp only [h1]; exact g1, g2, fun idx hi => ?_⟩
    obtain ⟨i, hi1⟩ := g3.left idx (by rw [g2]; exact hi)
    obtain ⟨j, hj⟩ := g3.right idx (by rw [g2]; exact hi)
    rw [g3.value idx i j (by rw [g2]; exact hi) hi1 hj, h3 j hj.1]
    have e : i = idx := by rw [only_index h hi, only_index h hi1.1]
    rw [e]
    simp only [mapValue]
    rw [only_index h hi]

/-- Falsifies the rest: with any other number of elements both raise. -/
theorem C69_hard_counterexample (alpha beta : ℚ) (x : Tensor ℚ) (h : numel x.shape ≠ 1) :
    hardSigmoidValue alpha beta x = .error .valueError ∧ hardSwishValue alpha beta x = .error .valueError := by
  have e : pyClamp (mapValue (fun a => alpha * a + beta) x) = .error .valueError := by
    unfold pyClamp
    rw [if_neg]
    exact h
  exact ⟨e, by unfold hardSwishValue; rw [e]⟩

/-- LeakyRelu of at most one element. -/
theorem C69_leaky_partial (alpha : ℚ) (x : Tensor ℚ) (h : numel x.shape ≤ 1) :
    ∃ z, leakyReluValue alpha x = .ok z ∧ z.shape = x.shape ∧ ∀ idx, z.at idx = if x.at idx < 0 then alpha * x.at idx else x.at idx := by
  refine ⟨mapValue (fun a => if a ≥ 0 then a else a * alpha) x, by unfold leakyReluValue; rw [if_pos h], rfl, fun idx => ?_⟩
  simp only [mapValue]
  by_cases hc : x.at idx < 0
  · rw [if_neg (not_le.2 hc), if_pos hc, mul_comm]
  · rw [if_pos (not_lt.1 hc), if_neg hc]

/-- Falsifies the rest: more elements raise. -/
theorem C69_leaky_counterexample (alpha : ℚ) (x : Tensor ℚ) (h : 1 < numel x.shape) : leakyReluValue alpha x = .error .indexError := by
  unfold leakyReluValue
  rw [if_neg (by omega)]

/-- Range on integers, steps of both signs. -/
theorem C69_range (start limit delta : Int) (h : delta ≠ 0) : ∃ y, rangeValue start limit delta = .ok y ∧ IsRange start limit delta y :=
  range_ok start limit delta h
end

/-! ### Cases -/

example : shown (addValue (ofFlat [2, 1] [10, 20]) (ofFlat [3] [1, 2, 3])) = some ([2, 3], [11, 12, 13, 21, 22, 23]) := by decide

/-- the hypothesis of `C69_arithmetic` is met -/
example : IsBroadcast [(ofFlat [2, 1] [10, 20]).shape, (ofFlat [3] [1, 2, 3]).shape] [2, 3] := (broadcast_iff _ _).1 rfl

/-- -7 divided by 2: ONNX says -3. -/
theorem C69_div_counterexample :
    shown (divValue .int64 .int64 (ofFlatQ [] [-7]) (ofFlatQ [] [2])) = some ([], [-4]) ∧ (-7 : Int).tdiv 2 = -3 := ⟨by decide +kernel, by decide⟩

/-- int32 operands are divided as floats: ONNX says 3. -/
theorem C69_div_int32_counterexample :
    shown (divValue .int32 .int32 (ofFlatQ [] [7]) (ofFlatQ [] [2])) = some ([], [7/2]) := by decide +kernel

example : shown (modValue (ofFlat [4] [7, -7, 7, -7]) (ofFlat [4] [3, 3, -3, -3])) = some ([4], [1, 2, -2, -1]) := by decide

/-- With `fmod = 1` ONNX gives -1 for -7 and 3; the attribute is not read. -/
theorem C69_mod_counterexample : shown (modValue (ofFlat [] [-7]) (ofFlat [] [3])) = some ([], [2]) := by decide

example : shown (powValue (ofFlat [2] [2, 3]) (ofFlat [] [3])) = some ([2], [8, 27]) := by decide

example : shown (maxValue [ofFlatQ [2, 1] [1, 5], ofFlatQ [2] [3, 4], ofFlatQ [] [2]]) = some ([2, 2], [3, 4, 5, 5]) := by decide +kernel

/-- the minimum of 5 and 7 -/
theorem C69_min_five_seven_counterexample : shown (minValue [ofFlatQ [1] [5], ofFlatQ [1] [7]]) = some ([], [0]) := by decide +kernel

example : shown (clipValue [some (ofFlatQ [] [0]), none] (ofFlatQ [3] [-1, 1/2, 9])) = some ([3], [0, 1/2, 9]) := by decide +kernel

/-- a saturated HardSigmoid loses its axes: `[[9]]` has shape `[1, 1]`, the value has shape `[]` -/
theorem C69_hard_shape_counterexample : shown (hardSigmoidValue (1/5) (1/2) (ofFlatQ [1, 1] [9])) = some ([], [1]) := by decide +kernel

example : shown (rangeValue 10 0 (-3)) = some ([4], [10, 7, 4, 1]) := by decide
example : shown (rangeValue 0 10 3) = some ([4], [0, 3, 6, 9]) := by decide
example : shown (rangeValue 3 0 1) = some ([0], []) := by decide

example : shown (whereValue ⟨[2, 1], fun i => decide (i.getD 0 0 = 0)⟩ (ofFlat [2] [1, 2]) (ofFlat [] [9])) = some ([2, 2], [1, 2, 9, 9]) := by decide

example : shown (expandValue [1] (ofFlat [3] [1, 2, 3])) = some ([3], [1, 2, 3]) := by decide
example : shown (expandValue [2, 3] (ofFlat [1] [7])) = some ([2, 3], [7, 7, 7, 7, 7, 7]) := by decide

end OnnxTool.Props
