import Verif.Proofs.Sparsity
/-! # C83: the sparsity reported for the weights -/
namespace OnnxTool.Props
open OnnxTool OnnxTool.Sparsity

/-- **C83, ratio**: the sparsity of a weight is the fraction of its elements that are zero. -/
theorem C83_ratio (a : Arr) (h : a.Searched) : calcSparsity a = a.fraction 1 1 := calcSparsity_eq h.dims h.kind

/-- **C83, other arrays**: arrays of another number of dimensions or another type have sparsity 0. -/
theorem C83_ratio_other (a : Arr) (h : (a.ndim ≠ 2 ∧ a.ndim ≠ 4) ∨ a.kind = .other) : calcSparsity a = 0 := by
  unfold calcSparsity
  rcases h with h | h
  · rw [if_pos h]
  · split
    · rfl
    · rw [h]

/-- **C83**: for every array there are the largest powers of two `s0`, `s1` such that blocks of `s0 × 1` and of `1 × s1` are still zero often enough. -/
theorem C83_largest_exist (a : Arr) (h : a.Searched) (thr : ℚ) (ht : 0 < thr) : ∃ s0 s1, Largest (fun s => a.Tiles thr s 1) s0 ∧ Largest (fun s => a.Tiles thr 1 s) s1 := by
  obtain ⟨s0, h0⟩ := largest_exists (P := fun s => a.Tiles thr s 1) (tiles_one a ht) (n := a.rows) fun s hs => Nat.le_of_dvd h.rows hs.1
  obtain ⟨s1, h1⟩ := largest_exists (P := fun s => a.Tiles thr 1 s) (tiles_one a ht) (n := a.cols) fun s hs => Nat.le_of_dvd h.cols hs.2.1
  exact ⟨s0, s1, h0, h1⟩

theorem fraction_gt_iff {a : Arr} {thr : ℚ} {s0 s1 : ℕ} {h w : ℕ} (hh : h ∣ s0) (hw : w ∣ s1) (h0 : a.Tiles thr s0 1) (h1 : a.Tiles thr 1 s1) :
    a.fraction h w > a.fraction 1 1 - thr ↔ a.Tiles thr h w := ⟨fun e => ⟨hh.trans h0.1, hw.trans h1.2.1, e⟩, fun e => e.2.2⟩

open Classical in
/-- **C83, what a matrix reports**, in terms of the largest blocks: the larger of the two with its fraction; if they are equally large, squares — with the fraction of zero squares if there are
enough of them, and with the fraction of zero `s × 1` blocks if not. -/
theorem C83_matrix (a : Arr) (h : a.Searched) (hd : a.ndim = 2) (thr : ℚ) (s0 s1 : ℕ) (h0 : Largest (fun s => a.Tiles thr s 1) s0) (h1 : Largest (fun s => a.Tiles thr 1 s) s1) :
    search a (a.fraction 1 1) thr = some
      (if s1 < s0 then ((s0, 1), a.fraction s0 1)
      else if s0 < s1 then ((1, s1), a.fraction 1 s1)
      else ((s0, s0), if a.Tiles thr s0 s0 then a.fraction s0 s0 else a.fraction s0 1)) := by
  obtain ⟨m, hm, hl⟩ := loop_start h h0 h1
  unfold search
  rw [if_pos hd, hl, Option.map_some]
  congr 1
  unfold finish2 at_
  simp only [← hm, ratioS_eq h.kind]
  rcases Nat.lt_trichotomy s1 s0 with hlt | rfl | hlt
  · rw [if_pos hlt, max_eq_left hlt.le]
    simp [Nat.not_le.mpr hlt]
  · rw [if_neg (lt_irrefl _), if_neg (lt_irrefl _), max_self]
    have := fraction_gt_iff (h := s1) (w := s1) dvd_rfl dvd_rfl h0.2.1 h1.2.1
    by_cases ht : a.Tiles thr s1 s1
    · rw [if_pos ht, if_pos (by simpa using this.mpr ht)]
    · rw [if_neg ht, if_neg (by simpa using fun e => ht (this.mp e))]
      simp
  · rw [if_neg (show ¬ s1 < s0 by omega), if_pos hlt, max_eq_right hlt.le]
    simp [Nat.not_le.mpr hlt]

/-- the report says the truth: blocks of that size tile the array, are zero nearly as often as the elements, and the ratio is the fraction of them that are zero -/
def Truthful (a : Arr) (thr : ℚ) (r : Option ((ℕ × ℕ) × ℚ)) : Prop := ∃ h w, r = some ((h, w), a.fraction h w) ∧ a.Tiles thr h w

/-- **C83, matrices (partial)**: the report is true exactly if the largest blocks along the two axes differ in size or squares of that size do. -/
theorem C83_matrix_truthful_partial (a : Arr) (h : a.Searched) (hd : a.ndim = 2) (thr : ℚ) (s0 s1 : ℕ) (h0 : Largest (fun s => a.Tiles thr s 1) s0)
    (h1 : Largest (fun s => a.Tiles thr 1 s) s1) : Truthful a thr (search a (a.fraction 1 1) thr) ↔ s0 ≠ s1 ∨ a.Tiles thr s0 s0 := by
  classical
  rw [C83_matrix a h hd thr s0 s1 h0 h1]
  rcases Nat.lt_trichotomy s1 s0 with hlt | rfl | hlt
  · rw [if_pos hlt]
    exact ⟨fun _ => .inl (by omega), fun _ => ⟨s0, 1, rfl, h0.2.1⟩⟩
  · rw [if_neg (lt_irrefl _), if_neg (lt_irrefl _)]
    constructor
    · rintro ⟨x, y, e, ht⟩
      injection e with e
      injection e with e1 e2
      injection e1 with e3 e4
      subst e3 e4
      exact .inr ht
    · rintro (e | ht)
      · exact absurd rfl e
      · exact ⟨s1, s1, by rw [if_pos ht], ht⟩
  · rw [if_neg (by omega), if_pos hlt]
    exact ⟨fun _ => .inl (by omega), fun _ => ⟨1, s1, rfl, h1.2.1⟩⟩

/-- **C83 finding, matrices**: if blocks of `s × 1` and of `1 × s` would do but squares would not, the report says squares nevertheless — with a ratio that is too high. -/
theorem C83_matrix_overstated (a : Arr) (h : a.Searched) (hd : a.ndim = 2) (thr : ℚ) (s : ℕ) (h0 : Largest (fun s => a.Tiles thr s 1) s) (h1 : Largest (fun s => a.Tiles thr 1 s) s)
    (hs : ¬ a.Tiles thr s s) : ∃ r, search a (a.fraction 1 1) thr = some ((s, s), r) ∧ a.fraction s s ≤ a.fraction 1 1 - thr ∧ a.fraction 1 1 - thr < r := by
  classical
  refine ⟨a.fraction s 1, ?_, ?_, h0.2.1.2.2⟩
  · rw [C83_matrix a h hd thr s s h0 h1, if_neg (lt_irrefl _), if_neg (lt_irrefl _), if_neg hs]
  · exact not_lt.mp fun e => hs ((fraction_gt_iff dvd_rfl dvd_rfl h0.2.1 h1.2.1).mp e)

open Classical in
/-- **C83, what a convolution weight reports**, in terms of the largest blocks -/
theorem C83_conv (a : Arr) (h : a.Searched) (hd : a.ndim = 4) (thr : ℚ) (s0 s1 : ℕ) (h0 : Largest (fun s => a.Tiles thr s 1) s0) (h1 : Largest (fun s => a.Tiles thr 1 s) s1) :
    search a (a.fraction 1 1) thr = some
      (if s0 = s1 ∧ a.Tiles thr s0 s0 then ((s0, s0), a.fraction s0 s0)
      else if a.fraction s0 1 > a.fraction 1 s1 then ((max s0 s1, 1), a.fraction s0 1)
      else ((1, max s0 s1), a.fraction 1 s1)) := by
  obtain ⟨m, hm, hl⟩ := loop_start h h0 h1
  unfold search
  rw [if_neg (by omega), if_pos hd, hl, Option.map_some]
  congr 1
  unfold finish4 at_
  simp only [← hm, ratioS_eq h.kind, min_eq_right (le_max_left s0 s1), min_eq_right (le_max_right s0 s1)]
  by_cases he : s0 = s1
  · subst he
    rw [max_self]
    have := fraction_gt_iff (h := s0) (w := s0) dvd_rfl dvd_rfl h0.2.1 h1.2.1
    by_cases hT : a.Tiles thr s0 s0
    · rw [if_pos (show s0 = s0 ∧ _ from ⟨rfl, hT⟩)]
      by_cases h2 : 1 < s0
      · rw [if_pos (by simp [h2, this.mpr hT])]
      · obtain ⟨k, hk⟩ := h0.1
        have : s0 = 1 := by
          have : 0 < s0 := by rw [hk]; positivity
          omega
        subst this
        simp
    · rw [if_neg (show ¬ (s0 = s0 ∧ a.Tiles thr s0 s0) from fun e => hT e.2), if_neg]
      simpa using fun _ => not_lt.mp fun e => hT (this.mp e)
  · rw [if_neg (show ¬ (s0 = s1 ∧ a.Tiles thr s0 s0) from fun e => he e.1), if_neg]
    simp only [Bool.and_eq_true, decide_eq_true_eq]
    rintro ⟨_, ⟨h2, h3⟩, -⟩
    exact he (le_antisymm ((le_max_left _ _).trans h2) ((le_max_right _ _).trans h3))

/-- **C83, convolution weights (partial)**: the report is true exactly if the largest blocks along the two axes are equally large, or the larger ones are also zero more often. -/
theorem C83_conv_truthful_partial (a : Arr) (h : a.Searched) (hd : a.ndim = 4) (thr : ℚ) (s0 s1 : ℕ) (h0 : Largest (fun s => a.Tiles thr s 1) s0)
    (h1 : Largest (fun s => a.Tiles thr 1 s) s1) :
    Truthful a thr (search a (a.fraction 1 1) thr) ↔ s0 = s1 ∨ (s1 < s0 ∧ a.fraction 1 s1 < a.fraction s0 1) ∨ (s0 < s1 ∧ a.fraction s0 1 ≤ a.fraction 1 s1) := by
  classical
  rw [C83_conv a h hd thr s0 s1 h0 h1]
  by_cases he : s0 = s1
  · subst he
    refine ⟨fun _ => .inl rfl, fun _ => ?_⟩
    rw [max_self]
    by_cases hT : a.Tiles thr s0 s0
    · rw [if_pos ⟨rfl, hT⟩]; exact ⟨_, _, rfl, hT⟩
    · rw [if_neg (fun e => hT e.2)]
      split
      · exact ⟨_, _, rfl, h0.2.1⟩
      · exact ⟨_, _, rfl, h1.2.1⟩
  · rw [if_neg (fun e => he e.1)]
    have hne : ∀ {k}, s1 < 2 ^ k → ¬ a.Tiles thr 1 (2 ^ k) := fun hk hT => absurd (h1.2.2 _ hT) (by omega)
    have hne' : ∀ {k}, s0 < 2 ^ k → ¬ a.Tiles thr (2 ^ k) 1 := fun hk hT => absurd (h0.2.2 _ hT) (by omega)
    obtain ⟨k0, e0⟩ := h0.1
    obtain ⟨k1, e1⟩ := h1.1
    rcases Nat.lt_or_gt_of_ne he with hlt | hlt
    · rw [max_eq_right hlt.le]
      by_cases hf : a.fraction s0 1 > a.fraction 1 s1
      · rw [if_pos hf]
        constructor
        · rintro ⟨x, y, e, hT⟩
          injection e with e
          injection e with e2 _
          injection e2 with e3 e4
          subst e3 e4
          exact absurd hT (by rw [e1]; exact hne' (by omega))
        · rintro (e | ⟨e, -⟩ | ⟨-, e⟩)
          · exact absurd e he
          · omega
          · exact absurd hf (not_lt.mpr e)
      · rw [if_neg hf]
        exact ⟨fun _ => .inr (.inr ⟨hlt, not_lt.mp hf⟩), fun _ => ⟨_, _, rfl, h1.2.1⟩⟩
    · rw [max_eq_left hlt.le]
      by_cases hf : a.fraction s0 1 > a.fraction 1 s1
      · rw [if_pos hf]
        exact ⟨fun _ => .inr (.inl ⟨hlt, hf⟩), fun _ => ⟨_, _, rfl, h0.2.1⟩⟩
      · rw [if_neg hf]
        constructor
        · rintro ⟨x, y, e, hT⟩
          injection e with e
          injection e with e2 _
          injection e2 with e3 e4
          subst e3 e4
          exact absurd hT (by rw [e0]; exact hne (by omega))
        · rintro (e | ⟨-, e⟩ | ⟨e, -⟩)
          · exact absurd e he
          · exact absurd e hf
          · omega

/-- fractions of blocks are at most the fraction of elements -/
theorem fraction_pow_rows (a : Arr) (k : ℕ) (hd : 2 ^ k ∣ a.rows) : a.fraction (2 ^ k) 1 ≤ a.fraction 1 1 := by
  induction k with
  | zero => exact le_rfl
  | succ k ih =>
    rw [pow_succ'] at hd ⊢
    exact (fraction_double_rows a _ _ hd).trans (ih (Dvd.dvd.trans ⟨2, by ring⟩ hd))

theorem fraction_pow_cols (a : Arr) (k : ℕ) (hd : 2 ^ k ∣ a.cols) : a.fraction 1 (2 ^ k) ≤ a.fraction 1 1 := by
  induction k with
  | zero => exact le_rfl
  | succ k ih =>
    rw [pow_succ'] at hd ⊢
    exact (fraction_double_cols a _ _ hd).trans (ih (Dvd.dvd.trans ⟨2, by ring⟩ hd))

/-- **C83 finding, convolutions**: a weight whose output channels are pruned in blocks of `s0`, while no blocks along the input channels are zero often enough, is always reported with blocks of
`1 × s0` — the other axis, along which such blocks are not zero often enough or do not even tile the weight — and with the fraction of zero elements as the fraction of zero blocks. -/
theorem C83_conv_wrong_axis (a : Arr) (h : a.Searched) (hd : a.ndim = 4) (thr : ℚ) (s0 : ℕ) (h0 : Largest (fun s => a.Tiles thr s 1) s0)
    (h1 : Largest (fun s => a.Tiles thr 1 s) 1) (hs : 1 < s0) : search a (a.fraction 1 1) thr = some ((1, s0), a.fraction 1 1) ∧ ¬ a.Tiles thr 1 s0 := by
  classical
  obtain ⟨k, hk⟩ := h0.1
  constructor
  · rw [C83_conv a h hd thr s0 1 h0 h1, if_neg (fun e => absurd e.1 (by omega)), if_neg, max_eq_left hs.le]
    rw [hk]
    exact not_lt.mpr (fraction_pow_rows a k (by rw [← hk]; exact h0.2.1.1))
  · intro hT
    rw [hk] at hT hs
    have := h1.2.2 k hT
    omega

/-- **C83 finding, convolutions, the other way round**: if only the input channels are pruned in blocks of `s1`, and there is at least one zero outside of these blocks, the report says blocks of
`s1 × 1`. -/
theorem C83_conv_wrong_axis' (a : Arr) (h : a.Searched) (hd : a.ndim = 4) (thr : ℚ) (s1 : ℕ) (h0 : Largest (fun s => a.Tiles thr s 1) 1)
    (h1 : Largest (fun s => a.Tiles thr 1 s) s1) (hs : 1 < s1) (hz : a.fraction 1 s1 < a.fraction 1 1) :
    search a (a.fraction 1 1) thr = some ((s1, 1), a.fraction 1 1) ∧ ¬ a.Tiles thr s1 1 := by
  classical
  obtain ⟨k, hk⟩ := h1.1
  constructor
  · rw [C83_conv a h hd thr 1 s1 h0 h1, if_neg (fun e => absurd e.1 (by omega)), if_pos hz, max_eq_right hs.le]
  · intro hT
    rw [hk] at hT hs
    have := h0.2.2 k hT
    omega

/-- **C83, thresholds**: small constants report nothing; constants with at most 40 % zeros report their ratio and no blocks; the others report what the search finds for a tolerance of 10 %. -/
theorem C83_thresholds (a : Arr) (h : a.Searched) (volume : ℕ) :
    (volume ≤ 4096 → sparsitySearch a volume = some ((1, 1), 0, 0)) ∧
    (4096 < volume → a.fraction 1 1 ≤ 2 / 5 → sparsitySearch a volume = some ((1, 1), 0, a.fraction 1 1)) ∧
    (4096 < volume → a.fraction 1 1 > 2 / 5 → ∃ b r, search a (a.fraction 1 1) (1 / 10) = some (b, r) ∧ sparsitySearch a volume = some (b, r, a.fraction 1 1)) := by
  unfold sparsitySearch
  rw [C83_ratio a h]
  refine ⟨fun hv => if_neg (by omega), fun hv hf => ?_, fun hv hf => ?_⟩
  · rw [if_pos hv, if_neg]
    intro e
    linarith
  · rw [if_pos hv, if_pos (by linarith)]
    obtain ⟨s0, s1, h0, h1⟩ := C83_largest_exist a h (1 / 10) (by norm_num)
    obtain ⟨m, -, hl⟩ := loop_start h h0 h1
    unfold search
    rcases h.dims with hd | hd
    · rw [if_pos hd, hl]; exact ⟨_, _, rfl, rfl⟩
    · rw [if_neg (by omega), if_pos hd, hl]; exact ⟨_, _, rfl, rfl⟩

/-- **C83, other ranks**: only arrays with two or four dimensions are searched; any other large constant reports no zeros and no blocks, and the search itself
returns blocks of one element with the ratio it was given. -/
theorem C83_other_ranks (a : Arr) (h2 : a.ndim ≠ 2) (h4 : a.ndim ≠ 4) (volume : ℕ) (ratio thr : ℚ) :
    search a ratio thr = some ((1, 1), ratio) ∧ sparsitySearch a volume = some ((1, 1), 0, 0) := by
  have hc : calcSparsity a = 0 := by
    unfold calcSparsity
    rw [if_pos ⟨h2, h4⟩]
  unfold search sparsitySearch
  rw [if_neg h2, if_neg h4, hc]
  refine ⟨rfl, ?_⟩
  split
  · rw [if_neg (by norm_num)]
  · rfl

/-- a five-dimensional constant of zeros -/
example : sparsitySearch ⟨5, 40, 40, 8, .zeroIsZero, fun _ _ _ => 0⟩ 12800 = some ((1, 1), 0, 0) :=
  (C83_other_ranks _ (by decide) (by decide) _ 1 0).2

/-! ### examples -/

/-- a convolution weight with four output channels of three input channels and one tap, the first two of which are zero -/
def prunedConv : Arr := ⟨4, 4, 3, 1, .zeroIsZero, fun i _ _ => if i < 2 then 0 else 1⟩

/-- the hypotheses of `C83_conv_wrong_axis` hold for it: it is reported with blocks of `1 × 2`, which do not tile its three input channels -/
example : prunedConv.Searched ∧ prunedConv.fraction 1 1 = 1 / 2 ∧ prunedConv.fraction 2 1 = 1 / 2 ∧ search prunedConv (1 / 2) (1 / 10) = some ((1, 2), 1 / 2) := by
  refine ⟨⟨by decide, by decide, by decide, by decide, by decide⟩, by decide +kernel, by decide +kernel, by decide +kernel⟩

/-- a matrix with zero pairs along both axes, but few zero squares -/
def crossed : Arr := ⟨2, 4, 4, 1, .zeroIsZero, fun i j _ => if (i < 2 ∧ j = 0) ∨ (i = 0 ∧ j < 2) ∨ (2 ≤ i ∧ j = 2) ∨ (i = 2 ∧ 2 ≤ j) then 0 else 1⟩

/-- squares reported, with the fraction of `2 × 1` blocks, although no square is zero -/
example : crossed.Searched ∧ crossed.fraction 2 2 = 0 ∧ search crossed (crossed.fraction 1 1) (2 / 10) = some ((2, 2), crossed.fraction 2 1) ∧ crossed.fraction 2 1 = 1 / 4 := by
  refine ⟨⟨by decide, by decide, by decide, by decide, by decide⟩, by decide +kernel, by decide +kernel, by decide +kernel⟩

/-- a matrix of uint8 whose first rows are pruned: a true report -/
def prunedRows : Arr := ⟨2, 4, 3, 1, .uint8, fun i _ _ => if i < 2 then 128 else 0⟩

example : prunedRows.Searched ∧ search prunedRows (prunedRows.fraction 1 1) (1 / 10) = some ((2, 1), 1 / 2) ∧ prunedRows.fraction 2 1 = 1 / 2 := by
  refine ⟨⟨by decide, by decide, by decide, by decide, by decide⟩, by decide +kernel, by decide +kernel⟩

end OnnxTool.Props
