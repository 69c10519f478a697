import Verif.Proofs.Engine
/-! # C27 (shape regression) and C28 (shape engine) -/
namespace OnnxTool.Props
open OnnxTool OnnxTool.Engine OnnxTool.Conv OnnxTool.Slice

/-- `f` is `x ↦ ⌈x/a⌉ + b` -/
def IsCeil (a b : Int) (f : Int → Int) : Prop := ∀ x, (f x - b - 1) * a < x ∧ x ≤ (f x - b) * a

/-- `f` is `x ↦ ⌊x/a⌋ + b` -/
def IsFloor (a b : Int) (f : Int → Int) : Prop := ∀ x, (f x - b) * a ≤ x ∧ x < (f x - b + 1) * a

/-- The samples are spread widely enough: the quotient of the source and target spans is closer to `a` than one half. -/
def Wide (a srcspan dstspan : Int) : Prop := -dstspan < 2 * (srcspan - a * dstspan) ∧ 2 * (srcspan - a * dstspan) < dstspan

/-- **C27, affine dimensions.** If a dimension is `a*x + b` with `a ≥ 1`, the expression fitted from any list of samples with distinct
first and last point reproduces it at every `x`. -/
theorem C27_affine (a b : Int) (ha : 1 ≤ a) (x0 xl : Int) (mid : List Int) (hlt : x0 < xl) :
    ∃ e, buildExpr (x0 :: mid ++ [xl]) ((x0 :: mid ++ [xl]).map (fun x => a * x + b)) = .ok e ∧
      ∀ x, e.call x = .ok (a * x + b) := by
  generalize hxs : x0 :: mid ++ [xl] = xs
  have hlen : xs.length = mid.length + 2 := by rw [← hxs]; simp
  have g0 := idx_map (xs := xs) (i := 0) (fun x => a * x + b) (by omega)
  have gl := idx_map (xs := xs) (i := xs.length - 1) (fun x => a * x + b) (by omega)
  have e0 : xs[0] = x0 := by subst hxs; rfl
  have el : xs[xs.length - 1] = xl := by
    subst hxs
    rw [List.getElem_append_right (by simp)]
    simp
  rw [e0] at g0
  rw [el] at gl
  have hspan : a * xl + b - (a * x0 + b) = a * (xl - x0) := by rw [Int.mul_sub]; omega
  have hle : xl - x0 ≤ a * xl + b - (a * x0 + b) := by
    rw [hspan]
    calc xl - x0 = 1 * (xl - x0) := by omega
      _ ≤ a * (xl - x0) := Int.mul_le_mul_of_nonneg_right ha (by omega)
  have hr : roundDiv (a * xl + b - (a * x0 + b)) (xl - x0) = a := by
    rw [hspan]
    exact roundDiv_near (by omega) (by omega)
  have hcall : ∀ x, ({ alpha := a, beta := a * xl + b - xl * a, factor := false } : ValueExpr).call x = .ok (a * x + b) := by
    intro x
    simp only [ValueExpr.call, Bool.false_eq_true, if_false]
    congr 1
    rw [Int.mul_comm xl a]; omega
  have hne : xs ≠ [] := by rw [← hxs]; simp
  refine ⟨{ alpha := a, beta := a * xl + b - xl * a, factor := false }, ?_, hcall⟩
  simp only [buildExpr, if_neg hne, g0.1, g0.2, gl.1, gl.2, bind, Except.bind, if_pos hle, if_neg (show xl - x0 ≠ 0 by omega), hr,
    callAll_ok hcall, pure, Except.pure]
  rw [diff_sum, sum_zero (by simp)]
  simp

/-- common part: the fitted expression before the rounding mode is chosen -/
private theorem build_div {a b : Int} (ha : 2 ≤ a) {x0 xl : Int} {mid : List Int} {f : Int → Int}
    (hw : Wide a (xl - x0) (f xl - f x0)) (hb : roundDiv (f xl * a - xl) a = b) :
    buildExpr (x0 :: mid ++ [xl]) ((x0 :: mid ++ [xl]).map f) =
      .ok (if ((x0 :: mid ++ [xl]).map (fun x => ceilDiv x a + b - f x)).sum ≠ 0 then
        { alpha := a, beta := b, factor := true, truncmode := true } else { alpha := a, beta := b, factor := true }) := by
  generalize hxs : x0 :: mid ++ [xl] = xs
  have hlen : xs.length = mid.length + 2 := by rw [← hxs]; simp
  have g0 := idx_map (xs := xs) (i := 0) f (by omega)
  have gl := idx_map (xs := xs) (i := xs.length - 1) f (by omega)
  have e0 : xs[0] = x0 := by subst hxs; rfl
  have el : xs[xs.length - 1] = xl := by
    subst hxs
    rw [List.getElem_append_right (by simp)]
    simp
  rw [e0] at g0
  rw [el] at gl
  obtain ⟨w1, w2⟩ := hw
  have hD : 0 < f xl - f x0 := by omega
  have hr := roundDiv_near w1 w2
  have hgt : ¬ (xl - x0 ≤ f xl - f x0) := by
    have : 2 * (f xl - f x0) ≤ a * (f xl - f x0) := Int.mul_le_mul_of_nonneg_right ha (by omega)
    omega
  have hcall : ∀ x, ({ alpha := a, beta := b, factor := true } : ValueExpr).call x = .ok (ceilDiv x a + b) := by
    intro x
    simp only [ValueExpr.call, if_true, if_neg (show a ≠ 0 by omega), Bool.false_eq_true, if_false]
  have hne : xs ≠ [] := by rw [← hxs]; simp
  simp only [buildExpr, if_neg hne, g0.1, g0.2, gl.1, gl.2, bind, Except.bind, if_neg hgt, if_neg (show f xl - f x0 ≠ 0 by omega), hr,
    if_neg (show a ≠ 0 by omega), hb, callAll_ok hcall, pure, Except.pure]
  rw [diff_sum]

/-- **C27, rounded-up quotients.** If a dimension is `⌈x/a⌉ + b` with `a ≥ 2`, the samples are wide enough, and the largest sample is
less than half a step below a multiple of `a` (in particular if it is a multiple), the fitted expression is exact at every `x`. -/
theorem C27_ceil_partial (a b : Int) (ha : 2 ≤ a) (f : Int → Int) (hf : IsCeil a b f) (x0 xl : Int) (mid : List Int)
    (hw : Wide a (xl - x0) (f xl - f x0)) (hend : 2 * ((f xl - b) * a - xl) < a) :
    ∃ e, buildExpr (x0 :: mid ++ [xl]) ((x0 :: mid ++ [xl]).map f) = .ok e ∧ ∀ x, e.call x = .ok (f x) := by
  have hc : ∀ x, ceilDiv x a + b = f x := by
    intro x
    have := hf x
    have := ceil_unique (a := a) (x := x) (c := f x - b) (by omega) this.1 this.2
    omega
  have hb : roundDiv (f xl * a - xl) a = b := by
    have := hf xl
    simp only [Int.sub_mul] at this hend
    apply roundDiv_near <;> omega
  refine ⟨_, build_div ha hw hb, ?_⟩
  rw [sum_zero (by
    intro v hv
    obtain ⟨x, _, rfl⟩ := List.mem_map.mp hv
    have := hc x
    omega)]
  intro x
  simp only [ne_eq, not_true_eq_false, if_false, ValueExpr.call, if_true, if_neg (show a ≠ 0 by omega), Bool.false_eq_true, hc]

/-- **C27, rounded-down quotients.** If a dimension is `⌊x/a⌋ + b` with `a ≥ 2`, the samples are wide enough, the largest sample is less
than half a step above a multiple of `a`, and some sample is not a multiple of `a`, the fitted expression is exact at every `x`. -/
theorem C27_floor_partial (a b : Int) (ha : 2 ≤ a) (f : Int → Int) (hf : IsFloor a b f) (x0 xl : Int) (mid : List Int)
    (hw : Wide a (xl - x0) (f xl - f x0)) (hend : 2 * (xl - (f xl - b) * a) < a)
    (hodd : ∃ x ∈ x0 :: mid ++ [xl], (f x - b) * a ≠ x) :
    ∃ e, buildExpr (x0 :: mid ++ [xl]) ((x0 :: mid ++ [xl]).map f) = .ok e ∧ ∀ x, e.call x = .ok (f x) := by
  have hb : roundDiv (f xl * a - xl) a = b := by
    have := hf xl
    simp only [Int.sub_mul, Int.add_mul] at this hend
    apply roundDiv_near <;> omega
  have hge : ∀ x, 0 ≤ ceilDiv x a + b - f x ∧ ((f x - b) * a ≠ x → 0 < ceilDiv x a + b - f x) := by
    intro x
    have h1 := (hf x).1
    have k := lt_ceilDiv (a := x) (show 0 < a by omega) (f x - b - 1)
    have k2 := lt_ceilDiv (a := x) (show 0 < a by omega) (f x - b)
    rw [show f x - b - 1 = (f x - b) - 1 by omega, Int.sub_mul (f x - b) 1 a] at k
    refine ⟨?_, ?_⟩
    · have := k.mpr (by omega); omega
    · intro hne; have := k2.mpr (by omega); omega
  refine ⟨_, build_div ha hw hb, ?_⟩
  obtain ⟨y, hy, hne⟩ := hodd
  have hpos : 0 < ((x0 :: mid ++ [xl]).map (fun x => ceilDiv x a + b - f x)).sum := by
    refine sum_pos ?_ (List.mem_map_of_mem (f := fun x => ceilDiv x a + b - f x) hy) ((hge y).2 hne)
    intro v hv
    obtain ⟨x, _, rfl⟩ := List.mem_map.mp hv
    exact (hge x).1
  rw [if_pos (by omega)]
  intro x
  have hx := hf x
  have := floor_unique (a := a) (x := x) (c := f x - b) (by omega) hx.1 hx.2
  simp only [ValueExpr.call, if_true, if_neg (show a ≠ 0 by omega), this]
  congr 1; omega

/-- **C27, finding.** If all samples are multiples of `a` (min, middle and max of an aligned range), a rounded-down dimension is fitted
as a rounded-up one: the expression is wrong, by one, at every `x` that is not a multiple of `a`. -/
theorem C27_floor_aligned_wrong (a b : Int) (ha : 2 ≤ a) (f : Int → Int) (hf : IsFloor a b f) (x0 xl : Int) (mid : List Int)
    (hlt : x0 < xl) (hall : ∀ x ∈ x0 :: mid ++ [xl], (f x - b) * a = x) :
    ∃ e, buildExpr (x0 :: mid ++ [xl]) ((x0 :: mid ++ [xl]).map f) = .ok e ∧
      ∀ x, (f x - b) * a ≠ x → e.call x = .ok (f x + 1) := by
  have hl := hall xl (by simp)
  have h0 := hall x0 (by simp)
  have hb : roundDiv (f xl * a - xl) a = b := by
    rw [Int.sub_mul] at hl
    apply roundDiv_near <;> omega
  have hspan : a * (f xl - f x0) = xl - x0 := by
    rw [Int.sub_mul] at hl h0
    rw [Int.mul_sub, Int.mul_comm a, Int.mul_comm a]; omega
  have hD : 0 < f xl - f x0 := by
    apply Int.pos_of_mul_pos_right (a := a)
    · rw [hspan]; omega
    · omega
  have hw : Wide a (xl - x0) (f xl - f x0) := by
    unfold Wide; rw [hspan]; omega
  have hc : ∀ x, (f x - b) * a = x → ceilDiv x a + b = f x := by
    intro x hx
    have := ceil_unique (a := a) (x := x) (c := f x - b) (by omega) (by rw [Int.sub_mul]; omega) (by omega)
    omega
  refine ⟨_, build_div ha hw hb, ?_⟩
  rw [sum_zero (by
    intro v hv
    obtain ⟨x, hx, rfl⟩ := List.mem_map.mp hv
    have := hc x (hall x hx)
    omega)]
  intro x hne
  have hx := hf x
  have := ceil_unique (a := a) (x := x) (c := f x - b + 1) (by omega) (by rw [show f x - b + 1 - 1 = f x - b by omega]; omega)
    (by omega)
  simp only [ne_eq, not_true_eq_false, if_false, ValueExpr.call, if_true, if_neg (show a ≠ 0 by omega), Bool.false_eq_true, this]
  congr 1; omega

/-- **C27, finding.** `⌈x/4⌉` sampled at 16, 40 and 65 is fitted as `⌊x/4⌋ + 1`: already the first sample, 16, is reproduced as 5 instead of 4. -/
theorem C27_ceil_end_wrong :
    (buildExpr [16, 40, 65] [4, 10, 17]).toOption = some { alpha := 4, beta := 1, factor := true, truncmode := true } ∧
    ({ alpha := 4, beta := 1, factor := true, truncmode := true } : ValueExpr).call 16 = .ok 5 := by
  exact ⟨rfl, rfl⟩

/-- The widths needed above are met whenever the target span is at least `2a`. -/
theorem C27_wide_enough (a b : Int) (f : Int → Int) (hf : IsCeil a b f ∨ IsFloor a b f) (x0 xl : Int)
    (h : 2 * a ≤ f xl - f x0) : Wide a (xl - x0) (f xl - f x0) := by
  unfold Wide
  rcases hf with hf | hf
  · have h1 := hf x0
    have h2 := hf xl
    rw [Int.sub_mul, Int.sub_mul] at h1 h2
    have : a * (f xl - f x0) = f xl * a - f x0 * a := by rw [Int.mul_sub, Int.mul_comm a, Int.mul_comm a]
    omega
  · have h1 := hf x0
    have h2 := hf xl
    rw [Int.add_mul, Int.sub_mul] at h1 h2
    have : a * (f xl - f x0) = f xl * a - f x0 * a := by rw [Int.mul_sub, Int.mul_comm a, Int.mul_comm a]
    omega

example := C27_affine 3 (-1) (by omega) 2 64 [33] (by omega)

/-- a concrete rounded-up and rounded-down dimension meeting the hypotheses -/
example : ∃ e, buildExpr [32, 128, 224] ([32, 128, 224].map (fun x : Int => -(-x / 32) + 1)) = .ok e ∧
    ∀ x : Int, e.call x = .ok (-(-x / 32) + 1) :=
  C27_ceil_partial 32 1 (by omega) (fun x => -(-x / 32) + 1) (fun x => by constructor <;> (show _ ; simp only []; omega)) 32 224 [128]
    (by unfold Wide; decide) (by decide)

example : ∃ e, buildExpr [31, 127, 224] ([31, 127, 224].map (fun x : Int => x / 2)) = .ok e ∧
    ∀ x : Int, e.call x = .ok (x / 2) :=
  C27_floor_partial 2 0 (by omega) (fun x => x / 2) (fun x => by constructor <;> (show _ ; simp only []; omega)) 31 224 [127]
    (by unfold Wide; decide) (by decide) ⟨31, by decide, by decide⟩

/-! ## C28 -/

/-- No expression's source is computed by itself or by a later expression, and every variable is computed once. -/
def Ordered : Dict (String × ValueExpr) → Prop
  | [] => True
  | (k, (src, _)) :: es => k ∉ Dict.keys es ∧ src ≠ k ∧ src ∉ Dict.keys es ∧ Ordered es

/-- Every derived variable has the value of its expression at its source variable. -/
def Consistent (g : Engine) : Prop :=
  ∀ k src e, (k, (src, e)) ∈ g.exprs →
    ∃ x y, g.variables.get? src = some x ∧ e.call x = .ok y ∧ g.variables.get? k = some y

private theorem updLoop_consistent : ∀ (es : Dict (String × ValueExpr)) (vs vs' : Dict Int), Ordered es → updLoop es vs = .ok vs' →
    ∀ k src e, (k, (src, e)) ∈ es → ∃ x y, vs'.get? src = some x ∧ e.call x = .ok y ∧ vs'.get? k = some y := by
  intro es
  induction es with
  | nil => intro vs vs' _ _ k src e h; simp at h
  | cons p es ih =>
    intro vs vs' ho h k src e hm
    obtain ⟨k0, src0, e0⟩ := p
    obtain ⟨o1, o2, o3, o4⟩ := ho
    simp only [updLoop] at h
    split at h
    · cases h
    · rename_i x hx
      simp only [bind, Except.bind] at h
      split at h
      · cases h
      · rename_i y hy
        rcases List.mem_cons.mp hm with heq | hm'
        · injection heq with h1 h2
          injection h2 with h2 h3
          subst h1; subst h2; subst h3
          refine ⟨x, y, ?_, hy, ?_⟩
          · rw [updLoop_other _ _ _ h _ o3, Dict.get?_set_ne _ _ (fun e => o2 e.symm), hx]
          · rw [updLoop_other _ _ _ h _ o1, Dict.get?_set_self]
        · exact ih _ _ o4 h k src e hm'

/-- **C28, consistency.** After `update_variables()` every derived variable equals its expression at its source's (final) value, and
variables that are not derived keep their value. -/
theorem C28_update_consistent (g g' : Engine) (ho : Ordered g.exprs) (h : g.updateVariables = .ok g') :
    Consistent g' ∧ (∀ q, q ∉ g.exprs.keys → g'.variables.get? q = g.variables.get? q) ∧ g'.exprs = g.exprs ∧
      g'.tensorDesc = g.tensorDesc := by
  simp only [Engine.updateVariables, bind, Except.bind, pure, Except.pure] at h
  split at h
  · cases h
  · rename_i vs hvs
    injection h with h
    subst h
    exact ⟨fun k src e hm => updLoop_consistent _ _ _ ho hvs k src e hm, updLoop_other _ _ _ hvs, rfl, rfl⟩

private theorem set_same {d : Dict Int} {k : String} {v : Int} (h : d.get? k = some v) : d.set k v = d := by
  induction d with
  | nil => simp at h
  | cons p d ih =>
    obtain ⟨k', v'⟩ := p
    simp only [Dict.get?] at h
    simp only [Dict.set]
    split
    · rename_i hk
      rw [if_pos hk] at h
      injection h with h
      subst h; rfl
    · rename_i hk
      rw [if_neg hk] at h
      rw [ih h]

private theorem updLoop_fix : ∀ (es : Dict (String × ValueExpr)) (vs : Dict Int),
    (∀ k src e, (k, (src, e)) ∈ es → ∃ x y, vs.get? src = some x ∧ e.call x = .ok y ∧ vs.get? k = some y) →
    updLoop es vs = .ok vs := by
  intro es
  induction es with
  | nil => intro vs _; rfl
  | cons p es ih =>
    intro vs h
    obtain ⟨k, src, e⟩ := p
    obtain ⟨x, y, h1, h2, h3⟩ := h k src e List.mem_cons_self
    simp only [updLoop, h1, h2, bind, Except.bind, set_same h3]
    exact ih vs (fun k' src' e' hm => h k' src' e' (List.mem_cons_of_mem _ hm))

/-- **C28, idempotence.** A second `update_variables()` changes nothing. -/
theorem C28_update_idempotent (g g' : Engine) (ho : Ordered g.exprs) (h : g.updateVariables = .ok g') :
    g'.updateVariables = .ok g' := by
  obtain ⟨h1, _, _, _⟩ := C28_update_consistent g g' ho h
  simp only [Engine.updateVariables, updLoop_fix _ _ h1, bind, Except.bind, pure, Except.pure]

/-- **C28, determinism.** The result depends only on the expressions and on the variables that are not derived. -/
theorem C28_update_deterministic (g1 g2 g1' g2' : Engine) (he : g1.exprs = g2.exprs) (ho : Ordered g1.exprs)
    (hv : ∀ q, q ∉ g1.exprs.keys → g1.variables.get? q = g2.variables.get? q)
    (h1 : g1.updateVariables = .ok g1') (h2 : g2.updateVariables = .ok g2') :
    ∀ q, g1'.variables.get? q = g2'.variables.get? q := by
  have key : ∀ (es : Dict (String × ValueExpr)) (v1 v2 w1 w2 : Dict Int), Ordered es →
      (∀ q, q ∉ es.keys → v1.get? q = v2.get? q) → updLoop es v1 = .ok w1 → updLoop es v2 = .ok w2 →
      ∀ q, w1.get? q = w2.get? q := by
    intro es
    induction es with
    | nil =>
      intro v1 v2 w1 w2 _ hv h1 h2 q
      simp only [updLoop, Except.ok.injEq] at h1 h2
      rw [← h1, ← h2]; exact hv q (by simp [Dict.keys])
    | cons p es ih =>
      intro v1 v2 w1 w2 ho hv h1 h2
      obtain ⟨k, src, e⟩ := p
      obtain ⟨o1, o2, o3, o4⟩ := ho
      have hsrc := hv src (by simp only [Dict.keys, List.map_cons, List.mem_cons, not_or]; exact ⟨o2, o3⟩)
      simp only [updLoop] at h1 h2
      rw [hsrc] at h1
      split at h2
      · cases h2
      · rename_i x hx
        rw [hx] at h1
        simp only [bind, Except.bind] at h1 h2
        split at h2
        · cases h2
        · rename_i y hy
          rw [hy] at h1
          refine ih _ _ _ _ o4 ?_ h1 h2
          intro q hq
          rw [Dict.get?_set, Dict.get?_set]
          by_cases hqk : k = q
          · rw [if_pos hqk, if_pos hqk]
          · rw [if_neg hqk, if_neg hqk]
            refine hv q ?_
            simp only [Dict.keys, List.map_cons, List.mem_cons, not_or]
            exact ⟨fun e => hqk e.symm, hq⟩
  simp only [Engine.updateVariables, bind, Except.bind, pure, Except.pure] at h1 h2
  split at h1
  · cases h1
  · rename_i w1 hw1
    split at h2
    · cases h2
    · rename_i w2 hw2
      injection h1 with h1
      injection h2 with h2
      subst h1; subst h2
      rw [← he] at hw2
      exact key _ _ _ _ _ ho hv hw1 hw2

/-- **C28, tensor shapes.** `get_tensorshape` returns exactly when every symbolic dimension of the description has a value, and then
returns the description with each symbol replaced by its value. -/
theorem C28_tensorshape (g : Engine) (t : String) (d : List Dim) (hd : g.tensorDesc.get? t = some d) (r : List Int) :
    g.getTensorShape t = .ok r ↔ r.length = d.length ∧
      ∀ i (h : i < d.length), (∀ n, d[i] = .num n → r[i]? = some n) ∧ (∀ v, d[i] = .var v → r[i]? ≠ none ∧ r[i]? = g.variables.get? v) := by
  unfold Engine.getTensorShape
  rw [hd]
  show shapeFromDesc g.variables d = .ok r ↔ _
  generalize g.variables = vs
  clear hd
  induction d generalizing r with
  | nil => 
    simp only [shapeFromDesc, Except.ok.injEq]
    exact ⟨fun h => ⟨by rw [← h]; rfl, fun i hi => absurd hi (by simp)⟩, fun h => (List.length_eq_zero_iff.mp h.1).symm⟩
  | cons a d ih =>
    simp only [shapeFromDesc]
    cases hx : dimVal vs a with
    | none =>
      simp only [reduceCtorEq, false_iff]
      rintro ⟨h1, h2⟩
      have := h2 0 (by simp)
      cases a with
      | num n => simp [dimVal] at hx
      | var v =>
        have h3 := this.2 v rfl
        simp only [dimVal] at hx
        rw [hx] at h3
        exact h3.1 h3.2
    | some x =>
      simp only [bind, Except.bind, pure, Except.pure]
      constructor
      · intro h
        split at h
        · cases h
        · rename_i r' hr'
          injection h with h
          subst h
          obtain ⟨i1, i2⟩ := (ih r').mp hr'
          refine ⟨by simp [i1], ?_⟩
          intro i hi
          cases i with
          | zero =>
            simp only [List.getElem_cons_zero, List.getElem?_cons_zero]
            cases a with
            | num n => 
              simp only [dimVal, Option.some.injEq] at hx
              exact ⟨fun m hm => by injection hm with hm; rw [← hm, hx], fun v hv => by cases hv⟩
            | var v =>
              refine ⟨fun m hm => (by cases hm), fun w hw => ?_⟩
              injection hw with hw
              subst hw
              exact ⟨by simp, hx.symm⟩
          | succ i => exact i2 i (by simpa using hi)
      · rintro ⟨h1, h2⟩
        cases r with
        | nil => simp at h1
        | cons y r =>
          have hy : y = x := by
            have := h2 0 (by simp)
            cases a with
            | num n =>
              simp only [dimVal, Option.some.injEq] at hx
              have := this.1 n rfl
              simp only [List.getElem?_cons_zero, Option.some.injEq] at this
              rw [this, hx]
            | var v =>
              have := (this.2 v rfl).2
              simp only [dimVal] at hx
              rw [hx] at this
              simpa using this
          have hr := (ih r).mpr ⟨by simpa using h1, fun i hi => h2 (i + 1) (by simpa using hi)⟩
          rw [hr, hy]

/-- the operations that build and use an engine -/
inductive EOp where
  | setVar (k : String) (v : Int)
  | addDesc (t : String) (d : List Dim)
  | addExpr (v src : String) (e : ValueExpr)
  | update

/-- one call -/
def EOp.run (g : Engine) : EOp → Except PyErr Engine
  | .setVar k v => .ok (g.updateVariable k v)
  | .addDesc t d => .ok (g.addTensorDesc t d)
  | .addExpr v src e => .ok (g.addExpr v src e)
  | .update => g.updateVariables

/-- An expression is added for a fresh variable, from a variable that exists; a division is never by zero. -/
def EOp.Valid (g : Engine) : EOp → Prop
  | .addExpr v src e => v ∉ g.exprs.keys ∧ v ≠ src ∧ (∀ p ∈ g.exprs, p.2.1 ≠ v) ∧ src ∈ g.variables.keys ∧
      (e.factor = true → e.alpha ≠ 0)
  | _ => True

/-- a history of valid calls leading from one engine to another -/
inductive EHist : Engine → Engine → Prop
  | refl (g) : EHist g g
  | step {g1 g2 g3} (op : EOp) : EHist g1 g2 → op.Valid g2 → op.run g2 = .ok g3 → EHist g1 g3

def EInv (g : Engine) : Prop :=
  Ordered g.exprs ∧ ∀ k src e, (k, (src, e)) ∈ g.exprs → src ∈ g.variables.keys ∧ (e.factor = true → e.alpha ≠ 0)

private theorem ordered_append : ∀ (es : Dict (String × ValueExpr)) (v src : String) (e : ValueExpr), Ordered es → v ∉ es.keys →
    v ≠ src → (∀ p ∈ es, p.2.1 ≠ v) → Ordered (es ++ [(v, (src, e))]) := by
  intro es
  induction es with
  | nil => intro v src e _ _ h _; exact ⟨by simp [Dict.keys], fun h' => h h'.symm, by simp [Dict.keys], trivial⟩
  | cons p es ih =>
    intro v src e ho hv hne hs
    obtain ⟨k, s, ex⟩ := p
    obtain ⟨o1, o2, o3, o4⟩ := ho
    simp only [Dict.keys, List.map_cons, List.mem_cons, not_or] at hv
    have hkeys : Dict.keys (es ++ [(v, (src, e))]) = Dict.keys es ++ [v] := by simp [Dict.keys]
    refine ⟨?_, o2, ?_, ih v src e o4 hv.2 hne (fun p hp => hs p (List.mem_cons_of_mem _ hp))⟩
    · show k ∉ Dict.keys (es ++ [(v, (src, e))])
      rw [hkeys, List.mem_append, List.mem_singleton, not_or]
      exact ⟨o1, fun e => hv.1 e.symm⟩
    · show s ∉ Dict.keys (es ++ [(v, (src, e))])
      rw [hkeys, List.mem_append, List.mem_singleton, not_or]
      exact ⟨o3, hs _ List.mem_cons_self⟩

private theorem set_new {es : Dict (String × ValueExpr)} {v : String} {x : String × ValueExpr} (h : v ∉ es.keys) :
    es.set v x = es ++ [(v, x)] := by
  induction es with
  | nil => rfl
  | cons p es ih =>
    obtain ⟨k, y⟩ := p
    simp only [Dict.keys, List.map_cons, List.mem_cons, not_or] at h
    simp only [Dict.set, if_neg (fun e => h.1 (Eq.symm e)), List.cons_append]
    rw [ih h.2]

theorem keys_mono {d : Dict Int} {k q : String} {v : Int} (h : q ∈ d.keys) : q ∈ (d.set k v).keys := by
  rw [← Dict.get?_isSome_iff] at h ⊢
  rw [Dict.get?_set]
  split
  · rfl
  · exact h

theorem updLoop_total : ∀ (es : Dict (String × ValueExpr)) (vs : Dict Int),
    (∀ k src e, (k, (src, e)) ∈ es → src ∈ vs.keys ∧ (e.factor = true → e.alpha ≠ 0)) →
    ∃ vs', updLoop es vs = .ok vs' ∧ ∀ q ∈ vs.keys, q ∈ vs'.keys := by
  intro es
  induction es with
  | nil => intro vs _; exact ⟨vs, rfl, fun _ h => h⟩
  | cons p es ih =>
    intro vs h
    obtain ⟨k, src, e⟩ := p
    obtain ⟨h1, h2⟩ := h k src e List.mem_cons_self
    rw [← Dict.get?_isSome_iff, Option.isSome_iff_exists] at h1
    obtain ⟨x, hx⟩ := h1
    have hc : ∃ y, e.call x = .ok y := by
      unfold ValueExpr.call
      by_cases hf : e.factor = true
      · rw [if_pos hf, if_neg (h2 hf)]; exact ⟨_, rfl⟩
      · rw [if_neg hf]; exact ⟨_, rfl⟩
    obtain ⟨y, hy⟩ := hc
    obtain ⟨vs', e1, e2⟩ := ih (vs.set k y) (fun k' s' e' hm => by
      obtain ⟨a, b⟩ := h k' s' e' (List.mem_cons_of_mem _ hm)
      exact ⟨keys_mono a, b⟩)
    refine ⟨vs', by simp only [updLoop, hx, hy, bind, Except.bind, e1], fun q hq => e2 q (keys_mono hq)⟩

private theorem einv_step {g g' : Engine} {op : EOp} (hi : EInv g) (hv : op.Valid g) (h : op.run g = .ok g') : EInv g' := by
  obtain ⟨i1, i2⟩ := hi
  cases op with
  | setVar k v =>
    simp only [EOp.run, Except.ok.injEq] at h
    subst h
    exact ⟨i1, fun k' s' e' hm => ⟨keys_mono (i2 k' s' e' hm).1, (i2 k' s' e' hm).2⟩⟩
  | addDesc t d =>
    simp only [EOp.run, Except.ok.injEq] at h
    subst h
    exact ⟨i1, i2⟩
  | addExpr v src e =>
    simp only [EOp.run, Except.ok.injEq] at h
    subst h
    obtain ⟨v1, v2, v3, v4, v5⟩ := hv
    refine ⟨?_, ?_⟩
    · show Ordered (g.exprs.set v (src, e))
      rw [set_new v1]
      exact ordered_append _ _ _ _ i1 v1 v2 v3
    · intro k' s' e' hm
      have hm' : (k', (s', e')) ∈ g.exprs.set v (src, e) := hm
      rw [set_new v1] at hm'
      rcases List.mem_append.mp hm' with hm' | hm'
      · exact ⟨keys_mono (i2 k' s' e' hm').1, (i2 k' s' e' hm').2⟩
      · simp only [List.mem_singleton, Prod.mk.injEq] at hm'
        obtain ⟨_, rfl, rfl⟩ := hm'
        exact ⟨keys_mono v4, v5⟩
  | update =>
    simp only [EOp.run, Engine.updateVariables, bind, Except.bind, pure, Except.pure] at h
    obtain ⟨vs', e1, e2⟩ := updLoop_total _ _ i2
    rw [e1] at h
    injection h with h
    subst h
    exact ⟨i1, fun k' s' e' hm => ⟨e2 _ (i2 k' s' e' hm).1, (i2 k' s' e' hm).2⟩⟩

/-- **C28, histories.** Start from an engine without expressions and make any sequence of calls in which each expression is added for a
fresh variable from an existing one: `update_variables()` then returns, and leaves every derived variable consistent. -/
theorem C28_history (g0 g : Engine) (h0 : g0.exprs = []) (h : EHist g0 g) :
    ∃ g', g.updateVariables = .ok g' ∧ Consistent g' ∧ g'.updateVariables = .ok g' := by
  have hinv : EInv g := by
    induction h with
    | refl => exact ⟨by rw [h0]; trivial, fun k s e hm => by rw [h0] at hm; simp at hm⟩
    | step op _ hv hr ih => exact einv_step ih hv hr
  obtain ⟨vs', e1, _⟩ := updLoop_total _ _ hinv.2
  have hu : g.updateVariables = .ok { g with variables := vs' } := by
    simp only [Engine.updateVariables, e1, bind, Except.bind, pure, Except.pure]
  exact ⟨_, hu, (C28_update_consistent g _ hinv.1 hu).1, C28_update_idempotent g _ hinv.1 hu⟩

/-- **C28, why the order matters.** If an expression is added for a variable that an earlier expression already reads, one update leaves the
earlier one stale. -/
theorem C28_unordered_stale :
    ((({ variables := [("w", 5)] } : Engine).addExpr "b" "a" { alpha := 2 }).updateVariable "a" 1 |>.addExpr "a" "w" {}
      |>.updateVariables).toOption.map (fun g => (g.variables.get? "a", g.variables.get? "b")) = some (some 5, some 0) := rfl

example : ∃ g, EHist { variables := [("w", 5)] } g ∧ g.exprs.keys = ["1", "2"] :=
  ⟨_, .step .update (.step (.addExpr "2" "1" { alpha := 2, beta := 1, factor := true }) (.step (.addExpr "1" "w" { alpha := 3 })
    (.refl _) ⟨by decide, by decide, by decide, by decide, by decide⟩ rfl)
      ⟨by decide, by decide, by decide, by decide, by decide⟩ rfl) trivial rfl, rfl⟩

end OnnxTool.Props
