import Verif.Proofs.KernelsElem
import Verif.Props.Agree
import Verif.Props.ValueReduce
/-!
# C89: elementwise, reducing and selecting kernels fill exactly their slot of the pool, with what ONNX says

`Fills`, `Stored`, `IsMap`, `IsSoftmax`, … are in `Spec/KernelsElem.lean`; `IsElementwise2`, `IsWhere`, `Source` in `Spec/ValueMath.lean`, `IsReduce` in
`Spec/ValueReduce.lean`.  The planned shape `os` is the one shape inference gives the output.
-/
namespace OnnxTool.Props
open OnnxTool OnnxTool.Torch OnnxTool.Kernels OnnxTool.Values OnnxTool.Shape

section
variable (mem : Nat → ℚ) (off : Nat)

/-! ### Two and three operands -/

/-- Add, Sub, Mul, Div (divisors that are zero left out) with the planned shape of shape inference. -/
theorem C89_arithmetic (x y : Tensor ℚ) (os : List Nat) (h : broadcastShape [x.shape, y.shape] = .ok os) :
    Fills mem off os (addKernel mem off os x y) (IsElementwise2 (fun a b => a + b) x y) ∧
    Fills mem off os (subKernel mem off os x y) (IsElementwise2 (fun a b => a - b) x y) ∧
    Fills mem off os (mulKernel mem off os x y) (IsElementwise2 (fun a b => a * b) x y) ∧
    Fills mem off os (divKernel mem off os x y) (IsElementwise2 (fun a b => a / b) x y) := by
  have hb := (broadcast_iff _ _).1 h
  exact ⟨fills_torch2 mem off _ x y hb, fills_torch2 mem off _ x y hb, fills_torch2 mem off _ x y hb, fills_torch2 mem off _ x y hb⟩

/-- Equal, Greater, Less (truth values are stored as 1 and 0) and Pow with any power function. -/
theorem C89_compare (pow : ℚ → ℚ → ℚ) (x y : Tensor ℚ) (os : List Nat) (h : broadcastShape [x.shape, y.shape] = .ok os) :
    Fills mem off os (equalKernel mem off os x y) (IsElementwise2 (fun a b => if a = b then 1 else 0) x y) ∧
    Fills mem off os (greaterKernel mem off os x y) (IsElementwise2 (fun a b => if b < a then 1 else 0) x y) ∧
    Fills mem off os (lessKernel mem off os x y) (IsElementwise2 (fun a b => if a < b then 1 else 0) x y) ∧
    Fills mem off os (powKernel mem off os pow x y) (IsElementwise2 pow x y) := by
  have hb := (broadcast_iff _ _).1 h
  have hbit : ∀ (p : ℚ → ℚ → Prop) [∀ a b, Decidable (p a b)], (fun a b : ℚ => bit (decide (p a b))) = fun a b => if p a b then 1 else 0 := by
    intro p _
    funext a b
    unfold bit
    by_cases hp : p a b <;> simp [hp]
  refine ⟨?_, ?_, ?_, fills_torch2 mem off _ x y hb⟩
  · unfold equalKernel; rw [hbit fun a b => a = b]; exact fills_torch2 mem off _ x y hb
  · unfold greaterKernel; rw [hbit fun a b => a > b]; exact fills_torch2 mem off _ x y hb
  · unfold lessKernel; rw [hbit fun a b => a < b]; exact fills_torch2 mem off _ x y hb

/-- Where: every number other than 0 counts as true. -/
theorem C89_where (c x y : Tensor ℚ) (os : List Nat) (h : broadcastShape [c.shape, x.shape, y.shape] = .ok os) :
    Fills mem off os (whereKernel mem off os c x y) (IsWhere ⟨c.shape, fun i => decide (c.at i ≠ 0)⟩ x y) :=
  whereKernel_ok mem off c x y os ((broadcast_iff _ _).1 h)

/-- Operands that do not broadcast: every binary kernel raises and the pool is as before. -/
theorem C89_incompatible (pow : ℚ → ℚ → ℚ) (fmod : Int) (x y : Tensor ℚ) (os : List Nat) (h : ¬ ∃ r, IsBroadcast [x.shape, y.shape] r) :
    addKernel mem off os x y = .error .runtimeError ∧ subKernel mem off os x y = .error .runtimeError ∧ mulKernel mem off os x y = .error .runtimeError ∧
    divKernel mem off os x y = .error .runtimeError ∧ equalKernel mem off os x y = .error .runtimeError ∧
    greaterKernel mem off os x y = .error .runtimeError ∧ lessKernel mem off os x y = .error .runtimeError ∧
    powKernel mem off os pow x y = .error .runtimeError ∧ modKernel mem off os fmod x y = .error .runtimeError := by
  refine ⟨?_, ?_, ?_, ?_, ?_, ?_, ?_, ?_, ?_⟩
  · unfold addKernel; rw [torch2_error _ x y h]; rfl
  · unfold subKernel; rw [torch2_error _ x y h]; rfl
  · unfold mulKernel; rw [torch2_error _ x y h]; rfl
  · unfold divKernel; rw [torch2_error _ x y h]; rfl
  · unfold equalKernel; rw [torch2_error _ x y h]; rfl
  · unfold greaterKernel; rw [torch2_error _ x y h]; rfl
  · unfold lessKernel; rw [torch2_error _ x y h]; rfl
  · unfold powKernel; rw [torch2_error _ x y h]; rfl
  · unfold modKernel; rw [torch2_error _ x y h]; rfl

/-- The planned shape is not checked: with a slot that is too small the sum goes on into the memory behind it. -/
theorem C89_overrun (x y : Tensor ℚ) (r os : List Nat) (h : IsBroadcast [x.shape, y.shape] r) (_hs : numel os < numel r) :
    ∃ mem' z, addKernel mem off os x y = .ok mem' ∧ IsElementwise2 (fun a b => a + b) x y z ∧ z.shape = r ∧
      ∀ n, numel os ≤ n → n < numel r → mem' (off + n) = z.at (unravel r n) := by
  obtain ⟨z, h1, h2, h3⟩ := torch2_ok (fun (a b : ℚ) => a + b) x y r h
  refine ⟨storeAt mem off z, z, ?_, h3, h2, fun n _ hn => ?_⟩
  · unfold addKernel; rw [h1]; rfl
  · have := (stored_storeAt mem off z).value (unravel r n) (by rw [h2]; exact unravel_inb hn)
    rwa [h2, ravel_unravel hn] at this

/-- whole numbers -/
private theorem mod_floor (a b : Int) : modOne false (a : ℚ) (b : ℚ) = ((a.fmod b : Int) : ℚ) := by
  unfold modOne
  simp only [Bool.false_eq_true, if_false]
  rw [floor_div]
  have := Int.fmod_def a b
  rw [this]
  push_cast
  ring

private theorem mod_trunc (a b : Int) (hb : b ≠ 0) : modOne true (a : ℚ) (b : ℚ) = ((a.tmod b : Int) : ℚ) := by
  have hbq : (b : ℚ) ≠ 0 := by exact_mod_cast hb
  have key : (if 0 ≤ (a : ℚ) / b then ⌊(a : ℚ) / b⌋ else ⌈(a : ℚ) / b⌉ : Int) = a.tdiv b := by
    split_ifs with h
    · rw [floor_div]
      refine (fdiv_eq_tdiv_iff a b hb).2 ?_
      rcases lt_or_gt_of_ne hb with h1 | h1
      · right; right
        have : (b : ℚ) < 0 := by exact_mod_cast h1
        have h2 : (a : ℚ) ≤ 0 := by
          by_contra hc
          have := div_neg_of_pos_of_neg (not_le.1 hc) this
          linarith
        exact ⟨by exact_mod_cast h2, by omega⟩
      · right; left
        have : (0 : ℚ) < b := by exact_mod_cast h1
        have h2 : (0 : ℚ) ≤ a := by
          by_contra hc
          have := div_neg_of_neg_of_pos (not_le.1 hc) this
          linarith
        exact ⟨by exact_mod_cast h2, h1⟩
    · have e : ⌈(a : ℚ) / b⌉ = - ⌊((-a : Int) : ℚ) / b⌋ := by
        rw [Int.cast_neg, neg_div, Int.floor_neg, neg_neg]
      rw [e, floor_div]
      have h' : (a : ℚ) / b < 0 := not_le.1 h
      have : (-a).fdiv b = (-a).tdiv b := by
        refine (fdiv_eq_tdiv_iff (-a) b hb).2 ?_
        rcases lt_or_gt_of_ne hb with h1 | h1
        · right; right
          have hbn : (b : ℚ) < 0 := by exact_mod_cast h1
          have h2 : (0 : ℚ) ≤ a := by
            by_contra hc
            have := div_pos_of_neg_of_neg (not_le.1 hc) hbn
            linarith
          have : (0 : Int) ≤ a := by exact_mod_cast h2
          omega
        · right; left
          have hbn : (0 : ℚ) < b := by exact_mod_cast h1
          have h2 : (a : ℚ) ≤ 0 := by
            by_contra hc
            have := div_pos (not_le.1 hc) hbn
            linarith
          have : a ≤ 0 := by exact_mod_cast h2
          omega
      rw [this, Int.neg_tdiv, neg_neg]
  unfold modOne
  rw [if_pos rfl, key, Int.tmod_def]
  push_cast
  ring

/-- Mod on whole numbers: with `fmod = 0` the sign of the divisor, otherwise the remainder of rounding towards zero (sign of the dividend). -/
theorem C89_mod (fmod : Int) (x y : Tensor Int) (os : List Nat) (h : broadcastShape [x.shape, y.shape] = .ok os) :
    Fills mem off os (modKernel mem off os fmod (asQ x) (asQ y)) fun z => ∀ idx i j, InB os idx → Source x.shape os idx i → Source y.shape os idx j →
      y.at j ≠ 0 → ∃ r : Int, z.at idx = (r : ℚ) ∧
        if fmod = 0 then IsMod (x.at i) (y.at j) r else y.at j ∣ x.at i - r ∧ r.natAbs < (y.at j).natAbs ∧ (0 ≤ x.at i → 0 ≤ r) ∧ (x.at i ≤ 0 → r ≤ 0) := by
  have hb := (broadcast_iff _ _).1 h
  obtain ⟨z, h1, h2, h3⟩ := torch2_ok (modOne (fmod != 0)) (asQ x) (asQ y) os hb
  refine fills_copy h1 h2 fun idx i j hi hx hy hne => ?_
  have hv := h3.value idx i j (by rw [h2]; exact hi) (by rw [h2]; exact hx) (by rw [h2]; exact hy)
  by_cases hf : fmod = 0
  · refine ⟨(x.at i).fmod (y.at j), ?_, ?_⟩
    · rw [hv, hf]; exact mod_floor _ _
    · rw [if_pos hf]; exact fmod_isMod _ _ hne
  · refine ⟨(x.at i).tmod (y.at j), ?_, ?_⟩
    · rw [hv, show (fmod != 0) = true by simp [hf]]; exact mod_trunc _ _ hne
    · rw [if_neg hf]
      refine ⟨⟨(x.at i).tdiv (y.at j), ?_⟩, ?_, fun h0 => Int.tmod_nonneg _ h0, fun h0 => ?_⟩
      · rw [Int.tmod_def]; ring
      · rw [Int.natAbs_tmod]; exact Nat.mod_lt _ (by omega)
      · have := Int.tmod_nonneg (y.at j) (a := -(x.at i)) (by omega)
        rw [Int.neg_tmod] at this
        omega

/-! ### One operand -/

/-- The kernels that apply one function: any function, any operand; Identity is `id`, Neg is `-`, Relu, LeakyRelu and Silu as in their definitions. -/
theorem C89_unary (f : ℚ → ℚ) (x : Tensor ℚ) :
    Fills mem off x.shape (unaryKernel mem off x.shape f x) (IsMap f x) ∧ Fills mem off x.shape (erfKernel mem off x.shape f x) (IsMap f x) :=
  ⟨fills_copy rfl rfl (isMap_mapValue f x), fills_out rfl rfl (isMap_mapValue f x)⟩

/-- the functions of Relu and LeakyRelu -/
theorem C89_relu (a alpha : ℚ) : (reluFun a = if a < 0 then 0 else a) ∧ (leakyFun (some alpha) a = if a < 0 then alpha * a else a) ∧
    (leakyFun none a = if a < 0 then (1 / 100) * a else a) := by
  have h : ∀ c : ℚ, (if 0 < a then a else a * c) = if a < 0 then c * a else a := by
    intro c
    rcases lt_trichotomy a 0 with h | h | h
    · rw [if_neg (by linarith), if_pos h, mul_comm]
    · subst h; simp
    · rw [if_pos h, if_neg (by linarith)]
  refine ⟨?_, h alpha, h (1 / 100)⟩
  unfold reluFun
  split_ifs with h
  · exact max_eq_right (le_of_lt h)
  · exact max_eq_left (not_lt.1 h)

private theorem clip_fun (lo hi : Option ℚ) (a : ℚ) (l h : ℚ) (hl : lo = some l ∨ (lo = none ∧ l ≤ a)) (hh : hi = some h ∨ (hi = none ∧ max a l ≤ h)) :
    min (max a l) h = clipTo lo hi a := by
  have hmax : (if a < l then l else a) = max a l := by
    split_ifs with h1
    · exact (max_eq_right (le_of_lt h1)).symm
    · exact (max_eq_left (not_lt.1 h1)).symm
  have hmin : ∀ b : ℚ, (if h < b then h else b) = min b h := by
    intro b
    split_ifs with h1
    · exact (min_eq_right (le_of_lt h1)).symm
    · exact (min_eq_left (not_lt.1 h1)).symm
  rcases hl with rfl | ⟨rfl, hl⟩ <;> rcases hh with rfl | ⟨rfl, hh⟩
  · simp only [clipTo, hmax, hmin]
  · simp only [clipTo, hmax]; exact min_eq_left hh
  · simp only [clipTo, hmin, max_eq_left hl]
  · simp only [clipTo]; rw [min_eq_left hh, max_eq_left hl]

/-- Clip with bounds given as inputs of one element: exactly ONNX's, also when the bounds cross. -/
theorem C89_clip (lo hi : Tensor ℚ) (alo ahi : Option ℚ) (x : Tensor ℚ) (h1 : numel lo.shape = 1) (h2 : numel hi.shape = 1) :
    Fills mem off x.shape (clipKernel mem off x.shape (some lo) (some hi) alo ahi x)
      (IsMap (clipTo (some (lo.at (unravel lo.shape 0))) (some (hi.at (unravel hi.shape 0)))) x) := by
  unfold clipKernel clipItem
  simp only [if_pos h1, if_pos h2]
  exact fills_out rfl rfl ⟨rfl, fun idx _ => clip_fun _ _ _ _ _ (Or.inl rfl) (Or.inl rfl)⟩

/-- Clip with bounds given as attributes or left out, when no element is beyond ±3.4e38 and bounds given are not either. -/
theorem C89_clip_attr_partial (alo ahi : Option ℚ) (x : Tensor ℚ) (hx : ∀ idx, InB x.shape idx → -(34 * 10 ^ 37) ≤ x.at idx ∧ x.at idx ≤ 34 * 10 ^ 37)
    (hl : ∀ l, alo = some l → l ≤ 34 * 10 ^ 37) :
    Fills mem off x.shape (clipKernel mem off x.shape none none alo ahi x) (IsMap (clipTo alo ahi) x) := by
  unfold clipKernel clipItem
  simp only
  refine fills_out rfl rfl ⟨rfl, fun idx hi => clip_fun _ _ _ _ _ ?_ ?_⟩
  · cases alo with
    | none => exact Or.inr ⟨rfl, (hx idx hi).1⟩
    | some l => exact Or.inl rfl
  · cases ahi with
    | none =>
      refine Or.inr ⟨rfl, max_le (hx idx hi).2 ?_⟩
      cases alo with
      | none => show -(34 * 10 ^ 37 : ℚ) ≤ 34 * 10 ^ 37; norm_num
      | some l => exact hl l rfl
    | some h => exact Or.inl rfl

/-- Falsifies the rest: without an upper bound, numbers above 3.4e38 (float32 goes to 3.4028…e38, and has inf) are cut to 3.4e38. -/
theorem C89_clip_counterexample (x : Tensor ℚ) (idx : List Nat) (hi : InB x.shape idx) (h : 34 * 10 ^ 37 < x.at idx) :
    clipTo none none (x.at idx) = x.at idx ∧
    ∃ mem', clipKernel mem off x.shape none none none none x = .ok mem' ∧ mem' (off + ravel x.shape idx) = 34 * 10 ^ 37 := by
  refine ⟨rfl, storeAt mem off (mapValue (fun a => min (max a (-(34 * 10 ^ 37))) (34 * 10 ^ 37)) x), rfl, ?_⟩
  have := (stored_storeAt mem off (mapValue (fun a : ℚ => min (max a (-(34 * 10 ^ 37))) (34 * 10 ^ 37)) x)).value idx hi
  refine this.trans ?_
  show min (max (x.at idx) _) _ = _
  exact min_eq_right (le_trans (le_of_lt h) (le_max_left _ _))

/-- A bound that is not a single number: error, nothing is written. -/
theorem C89_clip_bound (lo : Tensor ℚ) (hi : Option (Tensor ℚ)) (alo ahi : Option ℚ) (x : Tensor ℚ) (os : List Nat) (h : numel lo.shape ≠ 1) :
    clipKernel mem off os (some lo) hi alo ahi x = .error .runtimeError := by
  unfold clipKernel clipItem
  simp only [if_neg h]

/-- Softmax along any valid axis (the last one by default), for every positive `exp`. -/
theorem C89_softmax (exp : ℚ → ℚ) (hexp : ∀ a, 0 < exp a) (axis : Option Int) (x : Tensor ℚ) (k : Nat)
    (hk : (k : Int) = if axis.getD (-1) < 0 then axis.getD (-1) + x.shape.length else axis.getD (-1)) (hr : k < x.shape.length) :
    Fills mem off x.shape (softmaxKernel mem off x.shape exp axis x) (Kernels.IsSoftmax exp k x) := by
  unfold softmaxKernel
  rw [torchDim_ok (by split_ifs at hk <;> omega), ← hk]
  exact fills_copy rfl rfl (softmax_ok exp k x hr hexp)

/-- an axis out of range raises -/
theorem C89_softmax_axis (exp : ℚ → ℚ) (a : Int) (x : Tensor ℚ) (os : List Nat) (h : ¬ (-(x.shape.length : Int) ≤ a ∧ a < x.shape.length)) :
    softmaxKernel mem off os exp (some a) x = .error .indexError := by
  unfold softmaxKernel
  rw [show (some a).getD (-1) = a from rfl, torchDim_error h]

/-- Shape: the sizes, in order. -/
theorem C89_shape (x : Tensor ℚ) :
    Fills mem off [x.shape.length] (shapeKernel mem off [x.shape.length] x) fun y => ∀ k, k < x.shape.length → y.at [k] = ((x.shape.getD k 0 : Nat) : ℚ) :=
  fills_copy rfl rfl fun _ _ => rfl

/-- Cast: every element goes through the target type and then the type of the pool; an unknown code means float32. -/
theorem C89_cast (conv : TDType → ℚ → ℚ) (pool : TDType) (code : Option Int) (x : Tensor ℚ) :
    Fills mem off x.shape (castKernel mem off x.shape conv pool code x) (IsMap (fun a => conv pool (conv (castTarget code) a)) x) :=
  fills_copy rfl rfl (isMap_mapValue _ x)

/-- ONNX's numbers of the types the kernel knows; UINT16, UINT32, UINT64 and BFLOAT16 (4, 12, 13, 16) are not cast to those types but to float32. -/
theorem C89_cast_codes :
    castTarget (some 1) = .float32 ∧ castTarget (some 2) = .uint8 ∧ castTarget (some 3) = .int8 ∧ castTarget (some 5) = .int16 ∧
    castTarget (some 6) = .int32 ∧ castTarget (some 7) = .int64 ∧ castTarget (some 9) = .bool ∧ castTarget (some 10) = .float16 ∧
    castTarget (some 11) = .double ∧ castTarget none = .float32 ∧ ∀ c : Int, c ∉ [1, 2, 3, 5, 6, 7, 9, 10, 11] → castTarget (some c) = .float32 := by
  refine ⟨rfl, rfl, rfl, rfl, rfl, rfl, rfl, rfl, rfl, rfl, fun c hc => ?_⟩
  unfold castTarget
  simp only [Option.getD_some]
  split <;> simp_all

/-! ### Reductions -/

/-- the axes of a reducing kernel: the second input goes before the attribute -/
private theorem axes_input (l : List Int) (attr : Option (List Int)) : kernelAxes (some l) attr = some l := rfl

private theorem reduced_planned {l : List Int} {x : Tensor ℚ} {keep : Bool} {os : List Nat} (h : GoodAxes x.shape.length l) (hne : l ≠ [])
    (hos : Axes.reduceShape keep (some l) x.shape = some os) :
    ∃ ks, torchDims x.shape.length l = .ok ks ∧ reducedShape ks keep 0 x.shape = os ∧ ∀ k, k < x.shape.length → (k ∈ ks ↔ Listed x.shape.length l k) := by
  obtain ⟨ks, h1, h2⟩ := npAxes_ok h
  have h3 := reduced_shape l keep x.shape ks h1
  rw [hos] at h3
  obtain ⟨js, h4, h5⟩ := torchDims_ok h
  have hsame : ∀ k, k < x.shape.length → (k ∈ js ↔ k ∈ ks) := fun k hk => by rw [h5 k hk, h2 k]; simp [hne]
  refine ⟨js, h4, ?_, fun k hk => by rw [h5 k hk]; simp [hne]⟩
  injection h3 with h3
  rw [h3]
  cases keep with
  | true =>
    rw [reducedShape_keep, reducedShape_keep]
    refine List.map_congr_left fun k hk => ?_
    have := hsame k (List.mem_range.1 hk)
    rw [Nat.zero_add]
    simp only [this]
  | false =>
    rw [reducedShape_drop, reducedShape_drop]
    congr 1
    refine List.filter_congr fun k hk => ?_
    have := hsame k (List.mem_range.1 hk)
    rw [Nat.zero_add]
    simp only [this]

/-- ReduceMean and ReduceSum over axes given by the second input or by the attribute. -/
theorem C89_mean_sum (input attr : Option (List Int)) (l : List Int) (hl : input = some l ∨ (input = none ∧ attr = some l)) (keepdims : Int) (x : Tensor ℚ)
    (h : GoodAxes x.shape.length l) (hne : l ≠ []) (os : List Nat) (hos : Axes.reduceShape (keepdims != 0) (some l) x.shape = some os) :
    Fills mem off os (reduceMeanKernel mem off os input attr keepdims x)
      (IsReduce (Listed x.shape.length l) (keepdims != 0) (fun l v => v = l.sum / (l.length : ℚ)) x) ∧
    Fills mem off os (reduceSumKernel mem off os input attr keepdims x) (IsReduce (Listed x.shape.length l) (keepdims != 0) (fun l v => v = l.sum) x) := by
  obtain ⟨ks, h1, h2, h3⟩ := reduced_planned h hne hos
  have hk : kernelAxes input attr = some l := by
    rcases hl with rfl | ⟨rfl, rfl⟩ <;> rfl
  constructor
  · unfold reduceMeanKernel reduceKernel
    simp only [hk, h1]
    exact fills_copy rfl h2 (reduceOver_ok _ ks x h3 _ _ _ fun l _ => meanList_eq l)
  · unfold reduceSumKernel reduceKernel
    simp only [hk, h1]
    exact fills_copy rfl h2 (reduceOver_ok _ ks x h3 _ _ _ fun l _ => rfl)

/-- ReduceMax of an operand that is not empty. -/
theorem C89_max (input attr : Option (List Int)) (l : List Int) (hl : input = some l ∨ (input = none ∧ attr = some l)) (keepdims : Int) (x : Tensor ℚ)
    (h : GoodAxes x.shape.length l) (hne : l ≠ []) (hn : 0 < numel x.shape) (os : List Nat)
    (hos : Axes.reduceShape (keepdims != 0) (some l) x.shape = some os) :
    Fills mem off os (reduceMaxKernel mem off os input attr keepdims x) (IsReduce (Listed x.shape.length l) (keepdims != 0) IsLargest x) := by
  obtain ⟨ks, h1, h2, h3⟩ := reduced_planned h hne hos
  have hk : kernelAxes input attr = some l := by
    rcases hl with rfl | ⟨rfl, rfl⟩ <;> rfl
  have hp := fibreSize_pos ks x.shape 0 hn
  obtain ⟨y, h4, h5⟩ := reduceFrom_ok (Listed x.shape.length l) max IsLargest (fun a l => by
      obtain ⟨g1, g2, g3⟩ := foldl_max l a
      refine ⟨?_, fun w hw => ?_⟩
      · rcases g3 with g3 | g3
        · rw [g3]; simp
        · exact List.mem_cons_of_mem _ g3
      · rcases List.mem_cons.1 hw with rfl | hw
        · exact g1
        · exact g2 w hw) ks (keepdims != 0) x h3 hn
  unfold reduceMaxKernel
  simp only [hk, h1, h4]
  rw [if_neg (by omega)]
  refine fills_copy rfl ?_ h5
  unfold reduceFrom at h4
  rw [if_neg (by omega)] at h4
  injection h4 with h4
  rw [← h4]
  exact h2

/-- Without axes (ONNX: reduce all of them) the three kernels raise TypeError. -/
theorem C89_reduce_counterexample (keepdims : Int) (x : Tensor ℚ) (os : List Nat) :
    reduceMeanKernel mem off os none none keepdims x = .error .typeError ∧ reduceSumKernel mem off os none none keepdims x = .error .typeError ∧
    reduceMaxKernel mem off os none none keepdims x = .error .typeError := ⟨rfl, rfl, rfl⟩

/-- With an empty list of axes everything is summed, but shape inference has planned the shape of the operand: every element of the slot gets the total. -/
theorem C89_reduce_empty (x : Tensor ℚ) :
    Axes.reduceShape true (some []) x.shape = some x.shape ∧
    ∃ mem' total, reduceSumKernel mem off x.shape (some []) none 1 x = .ok mem' ∧ IsReduce (fun _ => True) true (fun l v => v = l.sum) x total ∧
      ∀ idx, InB x.shape idx → mem' (off + ravel x.shape idx) = total.at (List.replicate x.shape.length 0) := by
  have hnil : npAxes x.shape.length [] = .ok [] := by simp [npAxes, npAxesList]
  have hp := reduced_shape [] true x.shape [] hnil
  rw [reducedShape_none [] true x.shape 0 (fun _ _ => by simp)] at hp
  refine ⟨hp, ?_⟩
  have hr := reduceOver_ok (fun _ => True) (List.range x.shape.length) x (fun k hk => by simp [hk]) true List.sum (fun l v => v = l.sum) fun _ _ => rfl
  have hsh : (reduceOver (List.range x.shape.length) true List.sum x).shape = List.replicate x.shape.length 1 := by
    rw [hr.shape]
    simp [List.map_const']
  have hfit : Fit (reduceOver (List.range x.shape.length) true List.sum x).shape x.shape := by
    rw [hsh]
    refine ⟨by simp, fun k hk => Or.inl ?_⟩
    rw [List.length_replicate] at hk
    simp [hk]
  have hcopy : copyTo x.shape (reduceOver (List.range x.shape.length) true List.sum x) =
      .ok ⟨x.shape, fun idx => (reduceOver (List.range x.shape.length) true List.sum x).at (bcastIdx (reduceOver (List.range x.shape.length) true List.sum x).shape idx)⟩ := by
    unfold copyTo
    rw [canExpand_of hfit.1 hfit.2, if_pos rfl]
  refine ⟨storeAt mem off ⟨x.shape, fun idx => (reduceOver (List.range x.shape.length) true List.sum x).at
    (bcastIdx (reduceOver (List.range x.shape.length) true List.sum x).shape idx)⟩, _, ?_, hr, fun idx hi => ?_⟩
  · unfold reduceSumKernel reduceKernel kernelAxes torchDims torchDimsList
    simp only [List.isEmpty_nil, List.nodup_nil, if_true]
    unfold copyStore
    simp only [show ((1 : Int) != 0) = true from rfl, hcopy]
  · refine ((stored_storeAt mem off ⟨x.shape, fun idx => (reduceOver (List.range x.shape.length) true List.sum x).at
      (bcastIdx (reduceOver (List.range x.shape.length) true List.sum x).shape idx)⟩).value idx hi).trans ?_
    show (reduceOver _ _ _ x).at (bcastIdx _ idx) = _
    congr 1
    rw [hsh]
    refine bcastIdx_of (by have := inb_length hi; simp; omega) (by simp) fun k hk => ?_
    rw [List.length_replicate] at hk
    simp [hk]

/-- Axes out of range raise. -/
theorem C89_reduce_axes (l : List Int) (attr : Option (List Int)) (keepdims : Int) (x : Tensor ℚ) (os : List Nat)
    (h : ¬ ∀ a ∈ l, -(x.shape.length : Int) ≤ a ∧ a < x.shape.length) :
    reduceMeanKernel mem off os (some l) attr keepdims x = .error .indexError ∧ reduceSumKernel mem off os (some l) attr keepdims x = .error .indexError ∧
    reduceMaxKernel mem off os (some l) attr keepdims x = .error .indexError := by
  have e : torchDims x.shape.length l = .error .indexError := by unfold torchDims; rw [torchDimsList_error h]
  refine ⟨?_, ?_, ?_⟩
  · simp only [reduceMeanKernel, reduceKernel, kernelAxes, e]
  · simp only [reduceSumKernel, reduceKernel, kernelAxes, e]
  · simp only [reduceMaxKernel, kernelAxes, e]

/-- An axis given twice, be it once from the front and once from the back, raises RuntimeError. -/
theorem C89_reduce_repeated (l : List Int) (attr : Option (List Int)) (keepdims : Int) (x : Tensor ℚ) (os : List Nat)
    (h : ∀ a ∈ l, -(x.shape.length : Int) ≤ a ∧ a < x.shape.length) (i j : Nat) (hij : i < j) (hj : j < l.length)
    (hs : l[i] = l[j] ∨ l[i] = l[j] + x.shape.length ∨ l[j] = l[i] + x.shape.length) :
    reduceMeanKernel mem off os (some l) attr keepdims x = .error .runtimeError ∧ reduceSumKernel mem off os (some l) attr keepdims x = .error .runtimeError ∧
    reduceMaxKernel mem off os (some l) attr keepdims x = .error .runtimeError := by
  have e := torchDims_repeated h i j hij hj hs
  refine ⟨?_, ?_, ?_⟩
  · simp only [reduceMeanKernel, reduceKernel, kernelAxes, e]
  · simp only [reduceSumKernel, reduceKernel, kernelAxes, e]
  · simp only [reduceMaxKernel, kernelAxes, e]

/-- GlobalAveragePool of images (four axes). -/
theorem C89_globalmean_partial (x : Tensor ℚ) (n c h w : Nat) (hx : x.shape = [n, c, h, w]) :
    Fills mem off [n, c, 1, 1] (globalAvgKernel mem off [n, c, 1, 1] x) (IsGlobalMean x) := by
  unfold globalAvgKernel
  rw [if_pos (by simp [hx])]
  have hr := reduceOver_ok (fun k => 2 ≤ k) [x.shape.length - 2, x.shape.length - 1] x (fun k hk => by
    rw [hx] at hk ⊢; simp at hk ⊢; omega) true meanList (fun l v => v = l.sum / (l.length : ℚ)) fun l _ => meanList_eq l
  refine fills_copy rfl ?_ hr
  rw [hr.shape, hx]
  simp [List.range_succ]

/-- Falsifies the rest: sequences (three axes, ONNX averages the last one) are averaged over the channels too, without an error. -/
theorem C89_globalmean_counterexample (x : Tensor ℚ) (n c d : Nat) (hx : x.shape = [n, c, d]) :
    ∃ mem' m, globalAvgKernel mem off [n, c, 1] x = .ok mem' ∧ IsReduce (fun k => 1 ≤ k) true (fun l v => v = l.sum / (l.length : ℚ)) x m ∧
      ∀ i j, i < n → j < c → mem' (off + ravel [n, c, 1] [i, j, 0]) = m.at [i, 0, 0] := by
  have hr := reduceOver_ok (fun k => 1 ≤ k) [x.shape.length - 2, x.shape.length - 1] x (fun k hk => by
    rw [hx] at hk ⊢; simp at hk ⊢; omega) true meanList (fun l v => v = l.sum / (l.length : ℚ)) fun l _ => meanList_eq l
  have hsh : (reduceOver [x.shape.length - 2, x.shape.length - 1] true meanList x).shape = [n, 1, 1] := by
    rw [hr.shape, hx]; simp [List.range_succ]
  have hcopy : copyTo [n, c, 1] (reduceOver [x.shape.length - 2, x.shape.length - 1] true meanList x) =
      .ok ⟨[n, c, 1], fun idx => (reduceOver [x.shape.length - 2, x.shape.length - 1] true meanList x).at (bcastIdx [n, 1, 1] idx)⟩ := by
    unfold copyTo
    rw [hsh]
    simp [canExpand]
  refine ⟨storeAt mem off ⟨[n, c, 1], fun idx => (reduceOver [x.shape.length - 2, x.shape.length - 1] true meanList x).at (bcastIdx [n, 1, 1] idx)⟩, _, ?_, hr,
    fun i j hi hj => ?_⟩
  · unfold globalAvgKernel
    rw [if_pos (by simp [hx])]
    unfold copyStore
    simp only [hcopy]
  · refine ((stored_storeAt mem off ⟨[n, c, 1], fun idx => (reduceOver [x.shape.length - 2, x.shape.length - 1] true meanList x).at
      (bcastIdx [n, 1, 1] idx)⟩).value [i, j, 0] (show InB [n, c, 1] [i, j, 0] from ⟨hi, hj, by decide, trivial⟩)).trans ?_
    show (reduceOver [x.shape.length - 2, x.shape.length - 1] true meanList x).at (bcastIdx [n, 1, 1] [i, j, 0]) = _
    congr 1
    simp only [bcastIdx, List.length_cons, List.length_nil, Nat.sub_self, List.drop_zero, List.zipWith_cons_cons, List.zipWith_nil_left]
    by_cases h1 : n = 1
    · simp [h1]; omega
    · simp [h1]

/-- Volumes (five axes) raise. -/
theorem C89_globalmean_rank (x : Tensor ℚ) (os : List Nat) (h : 4 < x.shape.length) : globalAvgKernel mem off os x = .error .runtimeError := by
  unfold globalAvgKernel
  rw [if_neg (by omega)]

/-! ### Selecting -/

/-- Tile, with one repeat for every axis. -/
theorem C89_tile (reps : List Nat) (x : Tensor ℚ) (h : reps.length = x.shape.length) :
    Fills mem off (List.zipWith (fun d n => d * n) x.shape reps) (tileKernel mem off (List.zipWith (fun d n => d * n) x.shape reps) reps x) (Kernels.IsTile reps x) := by
  obtain ⟨y, h1, h2⟩ := tile_ok reps x h
  exact fills_copy h1 h2.shape h2

/-- Tile with further repeats in front (which ONNX does not allow): the operand is tiled as if it had axes of size 1 there. -/
theorem C89_tile_front (pre reps : List Nat) (x : Tensor ℚ) (h : reps.length = x.shape.length) :
    Fills mem off (pre ++ List.zipWith (fun d n => d * n) x.shape reps)
      (tileKernel mem off (pre ++ List.zipWith (fun d n => d * n) x.shape reps) (pre ++ reps) x)
      (Kernels.IsTile (pre ++ reps) ⟨List.replicate pre.length 1 ++ x.shape, fun idx => x.at (idx.drop pre.length)⟩) := by
  obtain ⟨y, h1, h2⟩ := tile_ok (pre ++ reps) (⟨List.replicate pre.length 1 ++ x.shape, fun idx => x.at (idx.drop pre.length)⟩ : Tensor ℚ) (by simp [h])
  rw [← torchRepeat_front pre reps x h] at h1
  have hz : List.zipWith (fun d n => d * n) (List.replicate pre.length 1) pre = pre := by
    clear h1 h2
    induction pre with
    | nil => rfl
    | cons a p ih => simp [List.replicate_succ, ih]
  have hs := h2.shape
  rw [List.zipWith_append (by simp), hz] at hs
  exact fills_copy h1 hs h2

/-- GatherElements with indices that are not negative. -/
theorem C89_gatherElements_partial (axis : Option Int) (k : Nat) (data : Tensor ℚ) (index : Tensor Int) (hk : k < data.shape.length)
    (ha : (k : Int) = if axis.getD 0 < 0 then axis.getD 0 + data.shape.length else axis.getD 0) (hr : index.shape.length = data.shape.length)
    (hle : ∀ j, j < data.shape.length → j ≠ k → index.shape.getD j 0 ≤ data.shape.getD j 0)
    (hi : ∀ i, InB index.shape i → 0 ≤ index.at i ∧ index.at i < data.shape.getD k 0) :
    Fills mem off index.shape (gatherElementsKernel mem off index.shape axis data index) (Kernels.IsGatherElements k data index) := by
  obtain ⟨y, h1, h2⟩ := gatherElements_ok k data index hr hle hi
  unfold gatherElementsKernel
  rw [torchDim_ok (by split_ifs at ha <;> omega), ← ha]
  exact fills_copy h1 h2.shape h2

/-- Falsifies the rest: ONNX lets indices count from the end, the kernel raises for every negative one. -/
theorem C89_gatherElements_counterexample (a : Int) (data : Tensor ℚ) (index : Tensor Int) (os i : List Nat) (ha : 0 ≤ a ∧ a < data.shape.length)
    (hi : InB index.shape i) (h : index.at i < 0) : gatherElementsKernel mem off os (some a) data index = .error .runtimeError := by
  unfold gatherElementsKernel
  rw [show (some a).getD 0 = a from rfl, torchDim_ok (by omega)]
  simp only [gatherElements_outside _ data index i hi (Or.inl h)]
  rfl

/-- Mad (the fused Mul and Add): product of the broadcast operands plus bias. -/
theorem C89_mad (x w b : Tensor ℚ) (os : List Nat) (h : broadcastShape [x.shape, w.shape] = .ok os) (hb : Within b.shape os) :
    Fills mem off os (madKernel mem off os x w b) fun y => ∀ idx i j k, InB os idx → Source x.shape os idx i → Source w.shape os idx j →
      Source b.shape os idx k → y.at idx = x.at i * w.at j + b.at k := mad_ok mem off x w b os ((broadcast_iff _ _).1 h) hb

/-- RangeGather: the rows of the table for the positions after `past`; beyond the end of the table it raises. -/
theorem C89_rangeGather (past len : Nat) (table : Tensor ℚ) (h0 : table.shape ≠ []) :
    ((len = 0 ∨ past + len ≤ table.shape.getD 0 0) →
      Fills mem off (len :: table.shape.tail) (rangeGatherKernel mem off (len :: table.shape.tail) len past table) (IsRows past len table)) ∧
    (0 < len → table.shape.getD 0 0 < past + len → ∀ os, rangeGatherKernel mem off os len past table = .error .indexError) := by
  constructor
  · intro h
    obtain ⟨y, h1, h2⟩ := rows_ok past len table h0 h
    unfold rangeGatherKernel
    rw [if_neg (by omega), Int.toNat_natCast, h1]
    exact fills_copy rfl h2.shape h2
  · intro hl h os
    unfold rangeGatherKernel
    rw [if_neg (by omega), Int.toNat_natCast, rows_outside past len table hl h]
    rfl

/-- The fused layer normalisation: over the axes of the fused ReduceMean (the last one when not recorded), with `eps` always 1e-5 whatever the model says. -/
theorem C89_layernorm (rsqrt : ℚ → ℚ) (axes : Option (List Int)) (x w b : Tensor ℚ) (h : GoodAxes x.shape.length (axes.getD [-1])) (hne : axes ≠ some [])
    (hw : Within w.shape x.shape) (hb : Within b.shape x.shape) :
    Fills mem off x.shape (fusedLayerNormKernel mem off x.shape rsqrt axes x w b)
      (IsFusedNorm rsqrt (1 / 100000) (Listed x.shape.length (axes.getD [-1])) x w b) := by
  have hne' : axes.getD [-1] ≠ [] := by
    cases axes with
    | none => simp
    | some l => intro hc; exact hne (congrArg some hc)
  obtain ⟨ks, h1, h2⟩ := torchDims_ok h
  have h2' : ∀ k, k < x.shape.length → (k ∈ ks ↔ Listed x.shape.length (axes.getD [-1]) k) := fun k hk => by rw [h2 k hk]; simp [hne']
  have hm := reduceOver_ok (Listed x.shape.length (axes.getD [-1])) ks x h2' true meanList (fun l a => a = l.sum / (l.length : ℚ)) fun l _ => meanList_eq l
  have hv := reduceOver_ok (Listed x.shape.length (axes.getD [-1])) ks x h2' true varList
    (fun l a => a = (l.map fun c => (c - l.sum / (l.length : ℚ)) ^ 2).sum / (l.length : ℚ)) fun l _ => varList_eq l
  have hsh : (reduceOver ks true meanList x).shape = reducedShape ks true 0 x.shape := rfl
  have hlen : (reducedShape ks true 0 x.shape).length = x.shape.length := by rw [reducedShape_keep]; simp
  have hfit : Fit (reducedShape ks true 0 x.shape) x.shape := by
    refine ⟨by omega, fun k hk => ?_⟩
    rw [hlen] at hk ⊢
    rw [Nat.sub_self, Nat.zero_add, reducedShape_keep, List.getD_eq_getElem _ _ (by simpa using hk), List.getElem_map, List.getElem_range]
    by_cases hk2 : 0 + k ∈ ks
    · left; rw [if_pos hk2]
    · right; rw [if_neg hk2]
  have hbm : IsBroadcast [x.shape, reducedShape ks true 0 x.shape] x.shape := by
    refine ⟨fun s hs => ?_, Or.inr ⟨x.shape, by simp, rfl⟩, fun i hi s hs => ?_, fun i _ => Or.inr ⟨x.shape, by simp, rfl⟩⟩
    · simp only [List.mem_cons, List.not_mem_nil, or_false] at hs
      rcases hs with rfl | rfl <;> omega
    · simp only [List.mem_cons, List.not_mem_nil, or_false] at hs
      rcases hs with rfl | rfl
      · exact Or.inr rfl
      · have e1 := dimR_getD (s := reducedShape ks true 0 x.shape) (k := x.shape.length - 1 - i) (by omega)
        have e2 := dimR_getD (s := x.shape) (k := x.shape.length - 1 - i) (by omega)
        have := hfit.2 (x.shape.length - 1 - i) (by omega)
        rw [hlen] at e1 this
        rw [show x.shape.length - 1 - (x.shape.length - 1 - i) = i by omega] at e1 e2
        rw [Nat.sub_self, Nat.zero_add] at this
        rw [e1, e2]
        exact this
  obtain ⟨d, g1, g2, g3⟩ := torch2_ok (fun (a m : ℚ) => a - m) x (reduceOver ks true meanList x) x.shape hbm
  obtain ⟨n, n1, n2, n3⟩ := inPlace_ok (fun (a b : ℚ) => a * b) d (mapValue (fun v : ℚ => rsqrt (v + 1 / 100000)) (reduceOver ks true varList x))
    (by rw [g2]; exact hfit)
  obtain ⟨s, s1, s2, s3⟩ := inPlace_ok (fun (a b : ℚ) => a * b) n w (by rw [n2, g2]; exact fit_within hw)
  obtain ⟨z, z1, z2, z3⟩ := inPlace_ok (fun (a b : ℚ) => a + b) s b (by rw [s2, n2, g2]; exact fit_within hb)
  unfold fusedLayerNormKernel
  simp only [h1, g1, n1, s1]
  refine fills_out z1 (by rw [z2, s2, n2, g2]) ⟨_, _, hm, hv, by rw [z2, s2, n2, g2], fun idx i j k hi hsi hsj hsk => ?_⟩
  rw [z3 idx k (by rw [s2, n2, g2]; exact hi) (by rw [s2, n2, g2]; exact hsk), s3 idx j (by rw [n2, g2]; exact hi) (by rw [n2, g2]; exact hsj),
    n3 idx i (by rw [g2]; exact hi) (by rw [g2]; exact hsi), g3.value idx idx i (by rw [g2]; exact hi) (by rw [g2]; exact source_refl hi) (by rw [g2]; exact hsi)]
  rfl

end

/-! ### Non-vacuity -/

/-- memory filled with 7, a vector of three numbers, a column of two -/
private def mem7 : Nat → ℚ := fun _ => 7
private def vec3 : Tensor ℚ := ⟨[3], fun i => (i.getD 0 0 : Nat)⟩
private def col2 : Tensor ℚ := ⟨[2, 1], fun i => 10 * ((i.getD 0 0 : Nat) + 1)⟩

example : broadcastShape [vec3.shape, col2.shape] = .ok [2, 3] ∧
    (addKernel mem7 4 [2, 3] vec3 col2).toOption.map (fun m => (List.range 12).map m) = some [7, 7, 7, 7, 10, 11, 12, 20, 21, 22, 7, 7] := by
  refine ⟨rfl, by decide +kernel⟩
/-- a slot of three elements is overrun -/
example : (addKernel mem7 4 [1, 3] vec3 col2).toOption.map (fun m => (List.range 12).map m) = some [7, 7, 7, 7, 10, 11, 12, 20, 21, 22, 7, 7] := by
  decide +kernel
example : GoodAxes 2 [-1] ∧ Axes.reduceShape true (some [-1]) [2, 3] = some [2, 1] := by refine ⟨⟨by decide, by decide⟩, by decide⟩
example : (reduceMaxKernel mem7 0 [2, 1] none (some [-1]) 1 ⟨[2, 3], fun i => ((i.getD 0 0 * 3 + i.getD 1 0 : Nat) : ℚ)⟩).toOption.map
    (fun m => (List.range 3).map m) = some [2, 5, 7] := by decide +kernel
example : (globalAvgKernel mem7 0 [1, 2, 1] ⟨[1, 2, 2], fun i => ((i.getD 1 0 * 2 + i.getD 2 0 : Nat) : ℚ)⟩).toOption.map
    (fun m => (List.range 3).map m) = some [3 / 2, 3 / 2, 7] := by decide +kernel
example : (tileKernel mem7 0 [6] [2] vec3).toOption.map (fun m => (List.range 7).map m) = some [0, 1, 2, 0, 1, 2, 7] := by decide +kernel
example : (madKernel mem7 0 [2, 3] vec3 col2 vec3).toOption.map (fun m => (List.range 7).map m) = some [0, 11, 22, 0, 21, 42, 7] := by decide +kernel
example : (rangeGatherKernel mem7 0 [2] 2 1 vec3).toOption.map (fun m => (List.range 3).map m) = some [1, 2, 7] := by decide +kernel
example : (fusedLayerNormKernel mem7 0 [3] (fun _ => 2) none vec3 vec3 vec3).toOption.map (fun m => (List.range 4).map m) = some [0, 1, 6, 7] := by
  decide +kernel

example : (softmaxKernel mem7 0 [3] (fun a => a + 1) none vec3).toOption.map (fun m => (List.range 4).map m) = some [1 / 6, 1 / 3, 1 / 2, 7] := by decide +kernel
example : (clipKernel mem7 0 [3] (some ⟨[], fun _ => 1⟩) (some ⟨[1], fun _ => 1⟩) none none vec3).toOption.map (fun m => (List.range 4).map m) = some [1, 1, 1, 7] := by
  decide +kernel
example : (whereKernel mem7 0 [2, 3] vec3 col2 vec3).toOption.map (fun m => (List.range 7).map m) = some [0, 10, 10, 0, 20, 20, 7] := by decide +kernel
example : (modKernel mem7 0 [2] 0 ⟨[2], fun i => if i = [0] then -5 else 5⟩ ⟨[1], fun _ => 3⟩).toOption.map (fun m => (List.range 3).map m) = some [1, 2, 7] ∧
    (modKernel mem7 0 [2] 1 ⟨[2], fun i => if i = [0] then -5 else 5⟩ ⟨[1], fun _ => 3⟩).toOption.map (fun m => (List.range 3).map m) = some [-2, 2, 7] := by
  refine ⟨by decide +kernel, by decide +kernel⟩
example : (gatherElementsKernel mem7 0 [2] none vec3 ⟨[2], fun i => if i = [0] then 2 else 0⟩).toOption.map (fun m => (List.range 3).map m) = some [2, 0, 7] := by
  decide +kernel
example : (reduceSumKernel mem7 0 [3] (some []) none 1 vec3).toOption.map (fun m => (List.range 4).map m) = some [3, 3, 3, 7] := by decide +kernel
/-- the hypotheses of `C89_layernorm` and of `C89_overrun` -/
example : GoodAxes 2 [-1] ∧ Within [3] [2, 3] ∧ IsBroadcast [vec3.shape, col2.shape] [2, 3] ∧ numel [1, 3] < numel [2, 3] :=
  ⟨⟨by decide, by decide⟩, (broadcast_iff _ _).1 rfl, (broadcast_iff _ _).1 rfl, by decide⟩

end OnnxTool.Props
