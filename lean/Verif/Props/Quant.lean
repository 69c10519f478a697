import Mathlib.Tactic.Linarith
import Mathlib.Tactic.FieldSimp
import Mathlib.Tactic.NormNum
import Verif.Model.Quant
/-!
# C34: the quantization error is at most half a step

The specification uses only rationals: the dequantized value differs from the original by at most `scale / 2`.
-/
namespace OnnxTool.Props
open OnnxTool OnnxTool.Quant

/-- rounding moves a number by at most one half -/
theorem pyRound_err (q : ℚ) : |(pyRound q : ℚ) - q| ≤ 1 / 2 := by
  have h1 := Int.floor_le q
  have h2 := Int.lt_floor_add_one q
  unfold pyRound
  simp only []
  rw [abs_le]
  split
  · constructor <;> linarith
  · split
    · push_cast; constructor <;> linarith
    · split
      · constructor <;> linarith
      · push_cast; constructor <;> linarith

theorem pyRound_le {q : ℚ} {n : ℤ} (h : q < n + 1 / 2) : pyRound q ≤ n := by
  have := (abs_le.mp (pyRound_err q)).2
  have : (pyRound q : ℚ) < (n + 1 : ℤ) := by push_cast; linarith
  have := Int.cast_lt.mp this
  omega

theorem le_pyRound {q : ℚ} {n : ℤ} (h : n - 1 / 2 < q) : n ≤ pyRound q := by
  have := (abs_le.mp (pyRound_err q)).1
  have : ((n - 1 : ℤ) : ℚ) < (pyRound q : ℚ) := by push_cast; linarith
  have := Int.cast_lt.mp this
  omega

theorem pow_facts (bits : ℕ) (h2 : 2 ≤ bits) (h8 : bits ≤ 8) :
    (1 : ℚ) ≤ 2 ^ (bits - 1) - 1 ∧ ((2 : ℤ) ^ (bits - 1) - 1 ≤ 127) := by
  obtain rfl | rfl | rfl | rfl | rfl | rfl | rfl : bits = 2 ∨ bits = 3 ∨ bits = 4 ∨ bits = 5 ∨ bits = 6 ∨ bits = 7 ∨ bits = 8 := by omega
  all_goals norm_num

/-- **C34, symmetric.** For any width of 2 to 8 bits and any value inside the range the parameters were computed from: the code fits the
width and dequantizing it gives the value back to within half a step. -/
theorem C34_symmetric (fmin fmax v : ℚ) (bits : ℕ) (h2 : 2 ≤ bits) (h8 : bits ≤ 8) (hne : fmin ≠ 0 ∨ fmax ≠ 0)
    (hv1 : fmin ≤ v) (hv2 : v ≤ fmax) :
    |symQuant v (symParam fmin fmax bits).1| ≤ 2 ^ (bits - 1) - 1 ∧
    |symDequant (symQuant v (symParam fmin fmax bits).1) (symParam fmin fmax bits).1 - v| ≤ (symParam fmin fmax bits).1 / 2 := by
  obtain ⟨hN, hN'⟩ := pow_facts bits h2 h8
  have hNe : (((2 : ℤ) ^ (bits - 1) - 1 : ℤ) : ℚ) = (2 : ℚ) ^ (bits - 1) - 1 := by push_cast; ring
  generalize hn : (2 : ℤ) ^ (bits - 1) - 1 = n at *
  rw [← hNe] at hN
  have ha : 0 < max |fmin| |fmax| := by
    rcases hne with h | h
    · exact lt_max_of_lt_left (abs_pos.mpr h)
    · exact lt_max_of_lt_right (abs_pos.mpr h)
  have hva : |v| ≤ max |fmin| |fmax| := abs_le_max_abs_abs hv1 hv2
  simp only [symParam]
  rw [← hNe]
  generalize max |fmin| |fmax| = a at *
  have hn0 : (0 : ℚ) < n := by linarith
  have hs : 0 < a / n := div_pos ha hn0
  have hq : |v / (a / n)| ≤ n := by
    rw [abs_div, abs_of_pos hs, div_le_iff₀ hs]
    have : (n : ℚ) * (a / n) = a := by field_simp
    linarith
  obtain ⟨q1, q2⟩ := abs_le.mp hq
  have r1 : pyRound (v / (a / n)) ≤ n := pyRound_le (by linarith)
  have r2 : -n ≤ pyRound (v / (a / n)) := le_pyRound (by push_cast; linarith)
  have hc : symQuant v (a / n) = pyRound (v / (a / n)) := by
    unfold symQuant clip
    rw [if_neg (by omega), if_neg (by omega)]
  rw [hc]
  refine ⟨abs_le.mpr ⟨r2, r1⟩, ?_⟩
  have he := pyRound_err (v / (a / n))
  unfold symDequant
  have : (pyRound (v / (a / n)) : ℚ) * (a / n) - v = ((pyRound (v / (a / n)) : ℚ) - v / (a / n)) * (a / n) := by
    rw [sub_mul, div_mul_cancel₀ _ hs.ne']
  rw [this, abs_mul, abs_of_pos hs]
  have := mul_le_mul_of_nonneg_right he hs.le
  linarith

theorem pyRound_int (n : ℤ) : pyRound (n : ℚ) = n := by simp [pyRound]

theorem pyRound_half_odd (n : ℤ) (h : n % 2 = 1) : pyRound ((n : ℚ) + 1 / 2) = n + 1 := by
  have hf : ⌊(n : ℚ) + 1 / 2⌋ = n := by rw [Int.floor_eq_iff]; constructor <;> linarith
  unfold pyRound
  simp only [hf]
  rw [if_neg (by linarith), if_neg (by linarith), if_neg (by omega)]

/-- the hypotheses of `C34_symmetric` hold for a range of both signs; the code of the extreme value is the extreme code -/
example : symParam (-1) (1/2) 8 = (1/127, 0) ∧ symQuant (-1) (1/127) = -127 := by
  have e : symParam (-1) (1/2) 8 = (1/127, 0) := by norm_num [symParam]
  refine ⟨e, ?_⟩
  have : ((-1 : ℚ) / (1/127)) = ((-127 : ℤ) : ℚ) := by norm_num
  unfold symQuant
  rw [this, pyRound_int]
  rfl

theorem pow_facts' (bits : ℕ) (h1 : 1 ≤ bits) (h8 : bits ≤ 8) : (1 : ℚ) ≤ 2 ^ bits - 1 ∧ ((2 : ℤ) ^ bits - 1 ≤ 255) := by
  obtain rfl | rfl | rfl | rfl | rfl | rfl | rfl | rfl : bits = 1 ∨ bits = 2 ∨ bits = 3 ∨ bits = 4 ∨ bits = 5 ∨ bits = 6 ∨ bits = 7 ∨ bits = 8 := by
    omega
  all_goals norm_num

/-- **C34, asymmetric.** For any width of 1 to 8 bits: dequantizing gives the value back to within half a step, the code is a byte and
exceeds the largest code of the width by at most one. -/
theorem C34_asymmetric (fmin fmax v : ℚ) (bits : ℕ) (h1 : 1 ≤ bits) (h8 : bits ≤ 8) (hne : fmin ≠ 0 ∨ fmax ≠ 0)
    (hv1 : fmin ≤ v) (hv2 : v ≤ fmax) :
    let p := asymParam fmin fmax bits
    let q := asymQuant v p.1 p.2
    (0 ≤ q ∧ q ≤ 255 ∧ q ≤ 2 ^ bits) ∧ |asymDequant q p.1 p.2 - v| ≤ p.1 / 2 := by
  obtain ⟨hN, hN'⟩ := pow_facts' bits h1 h8
  have hNe : (((2 : ℤ) ^ bits - 1 : ℤ) : ℚ) = (2 : ℚ) ^ bits - 1 := by push_cast; ring
  have hpow : (2 : ℤ) ^ bits = ((2 : ℤ) ^ bits - 1) + 1 := by ring
  rw [hpow]
  generalize hn : (2 : ℤ) ^ bits - 1 = n at *
  rw [← hNe] at hN
  simp only [asymParam]
  rw [← hNe]
  have l1 : min fmin 0 ≤ v := le_trans (min_le_left _ _) hv1
  have l2 : v ≤ max fmax 0 := le_trans hv2 (le_max_left _ _)
  have l3 : min fmin 0 ≤ 0 := min_le_right _ _
  have l4 : 0 ≤ max fmax 0 := le_max_right _ _
  have l5 : 0 < max fmax 0 - min fmin 0 := by
    have a1 : min fmin 0 ≤ fmin := min_le_left _ _
    have a2 : fmax ≤ max fmax 0 := le_max_left _ _
    rcases hne with h | h
    · rcases lt_or_gt_of_ne h with h | h <;> linarith
    · rcases lt_or_gt_of_ne h with h | h <;> linarith
  generalize min fmin 0 = lo at *
  generalize max fmax 0 = hi at *
  have hn0 : (0 : ℚ) < n := by linarith
  have hs : 0 < (hi - lo) / n := div_pos l5 hn0
  have hsn : (hi - lo) / n * n = hi - lo := by field_simp
  generalize (hi - lo) / n = s at *
  have hx1 : -(-lo / s) ≤ v / s := by
    rw [neg_div, neg_neg]; exact div_le_div_of_nonneg_right l1 hs.le
  have hx2 : v / s ≤ n - (-lo / s) := by
    rw [neg_div, sub_neg_eq_add, div_le_iff₀ hs, add_mul, div_mul_cancel₀ _ hs.ne']
    linarith [mul_comm s (n : ℚ)]
  have hv : v = v / s * s := (div_mul_cancel₀ _ hs.ne').symm
  have hL0 : 0 ≤ -lo / s := div_nonneg (by linarith) hs.le
  obtain ⟨r1, r2⟩ := abs_le.mp (pyRound_err (v / s))
  obtain ⟨z1, z2⟩ := abs_le.mp (pyRound_err (-lo / s))
  have key : |asymDequant (asymQuant v s (pyRound (-lo / s))) s (pyRound (-lo / s)) - v| =
      |(asymQuant v s (pyRound (-lo / s)) : ℚ) - pyRound (-lo / s) - v / s| * s := by
    conv_lhs => rw [hv]
    unfold asymDequant
    rw [← sub_mul, abs_mul, abs_of_pos hs, ← hv]
  rw [key]
  have hfin : ∀ e : ℚ, |e| ≤ 1 / 2 → |e| * s ≤ s / 2 := fun e he => by nlinarith [mul_le_mul_of_nonneg_right he hs.le]
  have up : pyRound (v / s) + pyRound (-lo / s) ≤ n + 1 := by
    have : ((pyRound (v / s) + pyRound (-lo / s) : ℤ) : ℚ) ≤ ((n + 1 : ℤ) : ℚ) := by push_cast; linarith
    exact Int.cast_le.mp this
  have dn : -1 ≤ pyRound (v / s) + pyRound (-lo / s) := by
    have : ((-1 : ℤ) : ℚ) ≤ ((pyRound (v / s) + pyRound (-lo / s) : ℤ) : ℚ) := by push_cast; linarith
    exact Int.cast_le.mp this
  have hn1 : (1 : ℤ) ≤ n := by exact_mod_cast hN
  unfold asymQuant clip
  generalize v / s = x at *
  generalize -lo / s = L at *
  generalize pyRound x = r at *
  generalize pyRound L = z at *
  split
  · rename_i h
    have e : r + z = -1 := by omega
    have e' : (r : ℚ) + z = -1 := by exact_mod_cast e
    refine ⟨⟨le_refl _, by omega, by omega⟩, hfin _ (abs_le.mpr ⟨?_, ?_⟩)⟩ <;> push_cast <;> linarith
  · split
    · rename_i h0 h
      have e : r + z = 256 := by omega
      have en : n = 255 := by omega
      have e' : (r : ℚ) + z = 256 := by exact_mod_cast e
      have en' : (n : ℚ) = 255 := by exact_mod_cast en
      refine ⟨⟨by omega, le_refl _, by omega⟩, hfin _ (abs_le.mpr ⟨?_, ?_⟩)⟩ <;> push_cast <;> linarith
    · rename_i h0 h
      refine ⟨⟨by omega, by omega, up⟩, hfin _ (abs_le.mpr ⟨?_, ?_⟩)⟩ <;> push_cast <;> linarith

/-- **C34 (finding).** A 4-bit asymmetric code can be 16, which does not fit 4 bits: the group `[-1.5, 13.5]` has scale 1 and zero point 2,
and 13.5 becomes code 16. -/
theorem C34_asym_code_overflow : asymParam (-3/2) (27/2) 4 = (1, 2) ∧ asymQuant (27/2) 1 2 = 16 := by
  have e1 : pyRound (((1 : ℤ) : ℚ) + 1 / 2) = 2 := pyRound_half_odd 1 rfl
  have e2 : pyRound (((13 : ℤ) : ℚ) + 1 / 2) = 14 := pyRound_half_odd 13 rfl
  constructor
  · have h1 : min (-3/2 : ℚ) 0 = -3/2 := by norm_num
    have h2 : max (27/2 : ℚ) 0 = 27/2 := by norm_num
    simp only [asymParam, h1, h2]
    norm_num at e1 ⊢
    exact e1
  · unfold asymQuant
    norm_num at e2 ⊢
    rw [e2]; rfl

/-- **C34 (finding).** With more than 8 bits the codes saturate at the byte range: for 9 symmetric bits the largest value comes back as
less than half of itself. -/
theorem C34_wide_saturates : symParam (-1) 1 9 = (1/255, 0) ∧ symQuant 1 (1/255) = 127 ∧ symDequant 127 (1/255) = 127/255 := by
  refine ⟨by norm_num [symParam], ?_, by norm_num [symDequant]⟩
  have : ((1 : ℚ) / (1/255)) = ((255 : ℤ) : ℚ) := by norm_num
  unfold symQuant
  rw [this, pyRound_int]; rfl

/-! ## Whole arrays -/

/-- two columns of a row (or two elements of the array) share their parameters: all of them (block 0), those of a row (block -1), those of
`block` consecutive columns of a row -/
def SameGroup (block : ℤ) (i j i' j' : ℕ) : Prop :=
  block = 0 ∨ (i = i' ∧ (block = -1 ∨ (0 < block ∧ (j : ℤ) / block = (j' : ℤ) / block)))

/-- `lo` and `hi` are the smallest and the largest element of the group of `(i, j)` -/
structure GroupRange (f : ℕ → ℕ → ℚ) (rows cols : ℕ) (block : ℤ) (i j : ℕ) (lo hi : ℚ) : Prop where
  lower : ∀ i' < rows, ∀ j' < cols, SameGroup block i j i' j' → lo ≤ f i' j'
  upper : ∀ i' < rows, ∀ j' < cols, SameGroup block i j i' j' → f i' j' ≤ hi
  lower_mem : ∃ i' < rows, ∃ j' < cols, SameGroup block i j i' j' ∧ f i' j' = lo
  upper_mem : ∃ i' < rows, ∃ j' < cols, SameGroup block i j i' j' ∧ f i' j' = hi

theorem foldl_min_spec (xs : List ℚ) (x : ℚ) : xs.foldl min x ∈ x :: xs ∧ ∀ y ∈ x :: xs, xs.foldl min x ≤ y := by
  induction xs generalizing x with
  | nil => simp
  | cons a as ih =>
    obtain ⟨h1, h2⟩ := ih (min x a)
    simp only [List.foldl_cons]
    have hm := h2 (min x a) (by simp)
    constructor
    · rcases List.mem_cons.mp h1 with h | h
      · rw [h]; rcases min_choice x a with e | e <;> rw [e] <;> simp
      · simp [h]
    · intro y hy
      rcases List.mem_cons.mp hy with rfl | hy
      · exact le_trans hm (min_le_left _ _)
      · rcases List.mem_cons.mp hy with rfl | hy
        · exact le_trans hm (min_le_right _ _)
        · exact h2 y (by simp [hy])

theorem foldl_max_spec (xs : List ℚ) (x : ℚ) : xs.foldl max x ∈ x :: xs ∧ ∀ y ∈ x :: xs, y ≤ xs.foldl max x := by
  induction xs generalizing x with
  | nil => simp
  | cons a as ih =>
    obtain ⟨h1, h2⟩ := ih (max x a)
    simp only [List.foldl_cons]
    have hm := h2 (max x a) (by simp)
    constructor
    · rcases List.mem_cons.mp h1 with h | h
      · rw [h]; rcases max_choice x a with e | e <;> rw [e] <;> simp
      · simp [h]
    · intro y hy
      rcases List.mem_cons.mp hy with rfl | hy
      · exact le_trans (le_max_left _ _) hm
      · rcases List.mem_cons.mp hy with rfl | hy
        · exact le_trans (le_max_right _ _) hm
        · exact h2 y (by simp [hy])

theorem mem_groupElems (f : ℕ → ℕ → ℚ) (rows cols : ℕ) (block : ℤ) (hb : -1 ≤ block) (i j : ℕ) (hi : i < rows) (x : ℚ) :
    x ∈ groupElems f rows cols block (groupOf block i j) ↔
      ∃ i' < rows, ∃ j' < cols, SameGroup block i j i' j' ∧ f i' j' = x := by
  unfold groupElems groupOf SameGroup
  by_cases h0 : block = 0
  · simp only [h0, if_true, List.mem_flatMap, List.mem_range, List.mem_map]
    constructor
    · rintro ⟨a, ha, b, hb, e⟩; exact ⟨a, ha, b, hb, .inl trivial, e⟩
    · rintro ⟨a, ha, b, hb, _, e⟩; exact ⟨a, ha, b, hb, e⟩
  · by_cases h1 : block = -1
    · simp only [h1, if_true]
      norm_num
      constructor
      · rintro ⟨b, hb, e⟩; exact ⟨i, hi, b, hb, rfl, e⟩
      · rintro ⟨a, ha, b, hb, rfl, e⟩; exact ⟨b, hb, e⟩
    · obtain ⟨n, rfl⟩ : ∃ n : ℕ, block = n := ⟨block.toNat, by omega⟩
      have hn : 0 < n := by omega
      simp only [if_neg h0, if_neg h1, Int.toNat_natCast, List.mem_map]
      have hmem : ∀ b, b ∈ (((List.range cols).drop (j / n * n)).take n) ↔ b < cols ∧ b / n = j / n := by
        intro b
        rw [List.mem_iff_getElem]
        have hdiv : b / n = j / n ↔ j / n * n ≤ b ∧ b < j / n * n + n := by
          rw [Nat.div_eq_iff hn]; constructor <;> rintro ⟨h1, h2⟩ <;> omega
        rw [hdiv]
        constructor
        · rintro ⟨k, hk, rfl⟩
          simp only [List.length_take, List.length_drop, List.length_range, List.getElem_take, List.getElem_drop, List.getElem_range] at hk ⊢
          omega
        · rintro ⟨h1, h2, h3⟩
          refine ⟨b - j / n * n, ?_, ?_⟩
          · simp only [List.length_take, List.length_drop, List.length_range]; omega
          · simp only [List.getElem_take, List.getElem_drop, List.getElem_range]; omega
      have hcast : ∀ b : ℕ, (j : ℤ) / (n : ℤ) = (b : ℤ) / (n : ℤ) ↔ b / n = j / n := by
        intro b
        rw [← Int.natCast_div, ← Int.natCast_div]
        constructor
        · intro h; exact (Int.ofNat.inj h).symm
        · intro h; rw [h]
      constructor
      · rintro ⟨b, hb, e⟩
        obtain ⟨h1, h2⟩ := (hmem b).mp hb
        exact ⟨i, hi, b, h1, .inr ⟨rfl, .inr ⟨by omega, (hcast b).mpr h2⟩⟩, e⟩
      · rintro ⟨a, ha, b, hb, h | ⟨rfl, h | ⟨_, h⟩⟩, e⟩
        · exact absurd h h0
        · exact absurd h h1
        · exact ⟨b, (hmem b).mpr ⟨hb, (hcast b).mp h⟩, e⟩

/-- the parameters of the group of `(i, j)` come from its smallest and largest element -/
theorem groupParam_spec (f : ℕ → ℕ → ℚ) (rows cols : ℕ) (block : ℤ) (asym : Bool) (bits : ℕ) (hb : -1 ≤ block) (i j : ℕ)
    (hi : i < rows) (hj : j < cols) :
    ∃ lo hi', GroupRange f rows cols block i j lo hi' ∧
      groupParam f rows cols block asym bits (groupOf block i j) = .ok (if asym then asymParam lo hi' bits else symParam lo hi' bits) := by
  have hm := mem_groupElems f rows cols block hb i j hi
  have hself : SameGroup block i j i j := by
    unfold SameGroup
    by_cases h0 : block = 0
    · exact .inl h0
    · refine .inr ⟨rfl, ?_⟩
      by_cases h1 : block = -1
      · exact .inl h1
      · exact .inr ⟨by omega, rfl⟩
  have hne : f i j ∈ groupElems f rows cols block (groupOf block i j) := (hm _).mpr ⟨i, hi, j, hj, hself, rfl⟩
  unfold groupParam
  generalize hg : groupElems f rows cols block (groupOf block i j) = es at *
  match es, hne with
  | x :: xs, _ =>
    obtain ⟨a1, a2⟩ := foldl_min_spec xs x
    obtain ⟨b1, b2⟩ := foldl_max_spec xs x
    refine ⟨xs.foldl min x, xs.foldl max x, ⟨?_, ?_, (hm _).mp a1, (hm _).mp b1⟩, rfl⟩
    · intro i' hi' j' hj' h; exact a2 _ ((hm _).mpr ⟨i', hi', j', hj', h, rfl⟩)
    · intro i' hi' j' hj' h; exact b2 _ ((hm _).mpr ⟨i', hi', j', hj', h, rfl⟩)

theorem groups_are_groupOf (rows cols : ℕ) (block : ℤ) (hb : -1 ≤ block) (hr : 0 < rows) (hc : 0 < cols) (g : ℕ × ℕ)
    (hg : g ∈ groups rows cols block) : ∃ i < rows, ∃ j < cols, g = groupOf block i j := by
  unfold groups at hg
  unfold groupOf
  by_cases h0 : block = 0
  · simp only [h0, if_true, List.mem_singleton] at hg ⊢
    exact ⟨0, hr, 0, hc, hg⟩
  · by_cases h1 : block = -1
    · rw [if_neg h0, if_pos h1] at hg
      obtain ⟨i, hi, e⟩ := List.mem_map.mp hg
      refine ⟨i, List.mem_range.mp hi, 0, hc, ?_⟩
      rw [if_neg h0, if_pos h1]; exact e.symm
    · rw [if_neg h0, if_neg h1] at hg
      obtain ⟨i, hi, hg⟩ := List.mem_flatMap.mp hg
      obtain ⟨b, hb', e⟩ := List.mem_map.mp hg
      have hn : 0 < block.toNat := by omega
      have hb'' := List.mem_range.mp hb'
      generalize block.toNat = n at *
      have hlt : b * n < cols := by
        have := (Nat.le_div_iff_mul_le hn).mp (Nat.succ_le_of_lt hb'')
        rw [Nat.succ_mul] at this
        omega
      refine ⟨i, List.mem_range.mp hi, b * n, hlt, ?_⟩
      rw [if_neg h0, if_neg h1, Nat.mul_div_cancel _ hn]; exact e.symm

theorem allParams_ok (f : ℕ → ℕ → ℚ) (rows cols : ℕ) (block : ℤ) (asym : Bool) (bits : ℕ) (gs : List (ℕ × ℕ))
    (h : ∀ g ∈ gs, ∃ p, groupParam f rows cols block asym bits g = .ok p ∧ p.1 ≠ 0) :
    allParams f rows cols block asym bits gs = .ok () := by
  induction gs with
  | nil => rfl
  | cons g gs ih =>
    obtain ⟨p, e, hp⟩ := h g (by simp)
    simp only [allParams, e]
    rw [if_neg hp]
    exact ih fun g hg => h g (by simp [hg])

/-- the scale of a group with a non-zero element is positive -/
theorem scale_pos (lo hi : ℚ) (asym : Bool) (bits : ℕ) (h2 : (if asym then 1 else 2) ≤ bits) (h8 : bits ≤ 8) (hle : lo ≤ hi)
    (hne : lo ≠ 0 ∨ hi ≠ 0) : 0 < (if asym then asymParam lo hi bits else symParam lo hi bits).1 := by
  cases asym with
  | true =>
    obtain ⟨hN, _⟩ := pow_facts' bits h2 h8
    simp only [if_true, asymParam]
    apply div_pos _ (by linarith)
    have a1 : min lo 0 ≤ lo := min_le_left _ _
    have a2 : hi ≤ max hi 0 := le_max_left _ _
    have a3 : min lo 0 ≤ 0 := min_le_right _ _
    have a4 : 0 ≤ max hi 0 := le_max_right _ _
    rcases hne with h | h
    · rcases lt_or_gt_of_ne h with h | h <;> linarith
    · rcases lt_or_gt_of_ne h with h | h <;> linarith
  | false =>
    obtain ⟨hN, _⟩ := pow_facts bits h2 h8
    simp only [symParam]
    apply div_pos _ (by linarith)
    rcases hne with h | h
    · exact lt_max_of_lt_left (abs_pos.mpr h)
    · exact lt_max_of_lt_right (abs_pos.mpr h)

/-- **C34, whole arrays.** For every matrix, every grouping (whole tensor, per row, per block of columns) and every supported width, if each
group has a non-zero element then `quantize` succeeds, and for every element: the step is the group's range (symmetric: its largest
magnitude; asymmetric: its range extended to 0) divided by the number of codes, and dequantizing the element's code with the parameters
of its own group gives the element back to within half a step. -/
theorem C34_quantize (f : ℕ → ℕ → ℚ) (rows cols : ℕ) (block : ℤ) (asym : Bool) (bits : ℕ) (hr : 0 < rows) (hc : 0 < cols)
    (hb : -1 ≤ block) (h2 : (if asym then 1 else 2) ≤ bits) (h8 : bits ≤ 8)
    (hz : ∀ i < rows, ∀ j < cols, ∃ i' < rows, ∃ j' < cols, SameGroup block i j i' j' ∧ f i' j' ≠ 0) :
    ∃ codes params, quantize f rows cols block asym bits = .ok (codes, params) ∧
      ∀ i < rows, ∀ j < cols, ∃ lo hi, GroupRange f rows cols block i j lo hi ∧
        let p := params (groupOf block i j)
        (asym = false → p.1 = max |lo| |hi| / (2 ^ (bits - 1) - 1) ∧ p.2 = 0 ∧
          |codes i j| ≤ 2 ^ (bits - 1) - 1 ∧ |symDequant (codes i j) p.1 - f i j| ≤ p.1 / 2) ∧
        (asym = true → p.1 = (max hi 0 - min lo 0) / (2 ^ bits - 1) ∧ 0 ≤ codes i j ∧ codes i j ≤ 255 ∧ codes i j ≤ 2 ^ bits ∧
          |asymDequant (codes i j) p.1 p.2 - f i j| ≤ p.1 / 2) := by
  have hall : allParams f rows cols block asym bits (groups rows cols block) = .ok () := by
    apply allParams_ok
    intro g hg
    obtain ⟨i, hi, j, hj, rfl⟩ := groups_are_groupOf rows cols block hb hr hc g hg
    obtain ⟨lo, hi', hR, e⟩ := groupParam_spec f rows cols block asym bits hb i j hi hj
    refine ⟨_, e, ?_⟩
    obtain ⟨i', hi1, j', hj1, hs, hne⟩ := hz i hi j hj
    have l1 := hR.lower i' hi1 j' hj1 hs
    have l2 := hR.upper i' hi1 j' hj1 hs
    apply ne_of_gt
    apply scale_pos lo hi' asym bits h2 h8 (le_trans l1 l2)
    by_contra hcon
    simp only [not_or, not_not] at hcon
    exact hne (le_antisymm (by linarith) (by linarith))
  refine ⟨_, _, by unfold quantize; rw [if_neg (by omega), hall], ?_⟩
  intro i hi j hj
  obtain ⟨lo, hi', hR, e⟩ := groupParam_spec f rows cols block asym bits hb i j hi hj
  refine ⟨lo, hi', hR, ?_⟩
  simp only [e, Except.toOption, Option.getD]
  have hself : SameGroup block i j i j := by
    unfold SameGroup
    by_cases h0 : block = 0
    · exact .inl h0
    · refine .inr ⟨rfl, ?_⟩
      by_cases h1 : block = -1
      · exact .inl h1
      · exact .inr ⟨by omega, rfl⟩
  have v1 := hR.lower i hi j hj hself
  have v2 := hR.upper i hi j hj hself
  have hne : lo ≠ 0 ∨ hi' ≠ 0 := by
    obtain ⟨i', hi1, j', hj1, hs, hne⟩ := hz i hi j hj
    have l1 := hR.lower i' hi1 j' hj1 hs
    have l2 := hR.upper i' hi1 j' hj1 hs
    by_contra hcon
    simp only [not_or, not_not] at hcon
    exact hne (le_antisymm (by linarith) (by linarith))
  cases asym with
  | false =>
    refine ⟨fun _ => ?_, fun h => by cases h⟩
    obtain ⟨a, b⟩ := C34_symmetric lo hi' (f i j) bits h2 h8 hne v1 v2
    exact ⟨rfl, rfl, a, b⟩
  | true =>
    refine ⟨fun h => by (cases h), fun _ => ?_⟩
    obtain ⟨⟨a1, a2, a3⟩, b⟩ := C34_asymmetric lo hi' (f i j) bits h2 h8 hne v1 v2
    exact ⟨rfl, a1, a2, a3, b⟩

/-- **C34 (finding).** One all-zero group (for instance one pruned row with block -1) makes `quantize` raise `ValueError`. -/
theorem C34_zero_row_raises (f : ℕ → ℕ → ℚ) (rows cols : ℕ) (asym : Bool) (bits : ℕ) (hc : 0 < cols) (hr : 0 < rows)
    (h : ∀ j, f 0 j = 0) : quantize f rows cols (-1) asym bits = .error .valueError := by
  obtain ⟨lo, hi', hR, e⟩ := groupParam_spec f rows cols (-1) asym bits (by omega) 0 0 hr hc
  have z : ∀ x, (∃ i' < rows, ∃ j' < cols, SameGroup (-1) 0 0 i' j' ∧ f i' j' = x) → x = 0 := by
    rintro x ⟨i', _, j', _, hs, rfl⟩
    rcases hs with hs | ⟨rfl, _⟩
    · omega
    · exact h j'
  have e1 := z _ hR.lower_mem
  have e2 := z _ hR.upper_mem
  subst e1 e2
  have hz : (if asym then asymParam 0 0 bits else symParam 0 0 bits).1 = 0 := by
    cases asym <;> simp [asymParam, symParam]
  obtain ⟨k, rfl⟩ : ∃ k, rows = k + 1 := ⟨rows - 1, by omega⟩
  have hg : groups (k + 1) cols (-1) = groupOf (-1) 0 0 :: (List.range' 1 k).map fun i => (i, 0) := by
    simp [groups, groupOf, List.range_succ_eq_map, List.range'_eq_map_range, Function.comp_def, Nat.add_comm]
  unfold quantize
  rw [if_neg (by omega), hg]
  simp only [allParams, e]
  rw [if_pos hz]

/-- the hypotheses of `C34_quantize` hold for a 2x3 matrix in blocks of 2 columns, and the two columns of block 0 of row 0 share parameters -/
example : (∀ i < 2, ∀ j < 3, ∃ i' < 2, ∃ j' < 3, SameGroup 2 i j i' j' ∧ (fun i j : ℕ => ((i : ℚ) + j + 1)) i' j' ≠ 0) ∧
    SameGroup 2 0 0 0 1 ∧ ¬ SameGroup 2 0 1 0 2 := by
  refine ⟨fun i hi j hj => ⟨i, hi, j, hj, .inr ⟨rfl, .inr ⟨by omega, rfl⟩⟩, ?_⟩, ?_, ?_⟩
  · have : (0 : ℚ) ≤ (i : ℚ) := Nat.cast_nonneg _
    have : (0 : ℚ) ≤ (j : ℚ) := Nat.cast_nonneg _
    simp only []
    linarith
  · exact .inr ⟨rfl, .inr ⟨by omega, rfl⟩⟩
  · rintro (h | ⟨_, h | ⟨_, h⟩⟩) <;> omega

/-- **C34, coverage.** Every element's group is one of the groups for which parameters are computed and checked, including the last,
shorter block of a row. -/
theorem C34_every_element_has_params (rows cols : ℕ) (block : ℤ) (hb : -1 ≤ block) (i j : ℕ) (hi : i < rows) (hj : j < cols) :
    groupOf block i j ∈ groups rows cols block := by
  unfold groups groupOf
  by_cases h0 : block = 0
  · simp [h0]
  · by_cases h1 : block = -1
    · simp [h1, hi]
    · rw [if_neg h0, if_neg h1, if_neg h0, if_neg h1]
      have hn : 0 < block.toNat := by omega
      refine List.mem_flatMap.mpr ⟨i, List.mem_range.mpr hi, List.mem_map.mpr ⟨_, List.mem_range.mpr ?_, rfl⟩⟩
      generalize block.toNat = n at hn ⊢
      rw [Nat.lt_iff_add_one_le, Nat.le_div_iff_mul_le hn, Nat.add_mul, Nat.one_mul]
      have := Nat.div_mul_le_self j n
      omega

example : groupOf 2 1 2 ∈ groups 2 3 2 := C34_every_element_has_params 2 3 2 (by omega) 1 2 (by omega) (by omega)

end OnnxTool.Props
