import Verif.Spec.Sparsity
import Mathlib.Algebra.BigOperators.Ring.Finset
import Mathlib.Algebra.Order.BigOperators.Group.Finset
import Mathlib.Tactic.FieldSimp
import Mathlib.Tactic.Linarith
import Mathlib.Tactic.Ring
import Mathlib.Tactic.Positivity
/-! # Lemmas about block sparsity -/
namespace OnnxTool.Sparsity
open Finset

/-! ### sums of flags -/

theorem list_sum (n : ℕ) (f : ℕ → ℕ) : ((List.range n).map f).sum = ∑ i ∈ range n, f i := rfl

theorem total_eq (a b c : ℕ) (x : ℕ → ℕ → ℕ → Bool) : total a b c x = ∑ i ∈ range a, ∑ j ∈ range b, ∑ p ∈ range c, (x i j p).toNat := rfl

theorem sum_full {n s : ℕ} {f : ℕ → ℕ} (h : ∀ k < n, f k ≤ s) : ((List.range n).map f).sum ≤ n * s ∧ (((List.range n).map f).sum = n * s ↔ ∀ k < n, f k = s) := by
  induction n with
  | zero => simp
  | succ n ih =>
    obtain ⟨h1, h2⟩ := ih fun k hk => h k (by omega)
    have hn := h n (by omega)
    rw [List.range_succ, List.map_append, List.sum_append, List.map_singleton, List.sum_singleton, Nat.succ_mul]
    refine ⟨by omega, ⟨fun e k hk => ?_, fun e => ?_⟩⟩
    · have e1 : ((List.range n).map f).sum = n * s := by omega
      rcases Nat.lt_succ_iff_lt_or_eq.mp hk with hk | rfl
      · exact h2.mp e1 k hk
      · omega
    · rw [h2.mpr fun k hk => e k (by omega), e n (by omega)]

theorem flagSum_le (n : ℕ) (z : ℕ → Bool) : flagSum n z ≤ n := by
  have := (sum_full (n := n) (s := 1) (f := fun k => (z k).toNat) fun k _ => by cases z k <;> decide).1
  simpa [flagSum] using this

theorem flagSum_full (n : ℕ) (z : ℕ → Bool) : flagSum n z = n ↔ ∀ k < n, z k = true := by
  have := (sum_full (n := n) (s := 1) (f := fun k => (z k).toNat) fun k _ => by cases z k <;> decide).2
  rw [Nat.mul_one] at this
  rw [flagSum, this]
  exact forall₂_congr fun k _ => by cases z k <;> simp

theorem square_full (s : ℕ) (z : ℕ → ℕ → Bool) : (((List.range s).map fun k => flagSum s (z k)).sum = s * s) ↔ ∀ k < s, ∀ l < s, z k l = true := by
  rw [(sum_full (n := s) (s := s) (f := fun k => flagSum s (z k)) fun k _ => flagSum_le _ _).2]
  exact forall₂_congr fun k _ => flagSum_full _ _

/-! ### the ratios are fractions of zero blocks -/

theorem zeroBlocks_eq (rows cols inner : ℕ) (zero : ℕ → ℕ → ℕ → Prop) [∀ i j p, Decidable (zero i j p)] (h w : ℕ) :
    zeroBlocks rows cols inner zero h w =
      ∑ I ∈ range (rows / h), ∑ J ∈ range (cols / w), ∑ p ∈ range inner, if ∀ k < h, ∀ l < w, zero (I * h + k) (J * w + l) p then 1 else 0 := by
  rw [zeroBlocks, card_filter, sum_product]
  exact sum_congr rfl fun I _ => sum_product _ _ _

theorem toNat_ite {b : Bool} {P : Prop} [Decidable P] (h : b = true ↔ P) : b.toNat = if P then 1 else 0 := by
  by_cases hp : P
  · rw [if_pos hp, h.mpr hp]; rfl
  · rw [if_neg hp]
    cases b
    · rfl
    · exact absurd (h.mp rfl) hp

theorem flag_iff {a : Arr} (hk : a.kind ≠ .other) (i j p : ℕ) : a.flag i j p = true ↔ a.Zero i j p := by
  unfold Arr.flag Arr.Zero
  cases h : a.kind <;> simp_all

theorem ratio1_eq {a : Arr} (hk : a.kind ≠ .other) (s : ℕ) : ratio1 a s = a.fraction 1 s := by
  unfold ratio1 Arr.fraction zeroFraction
  rw [total_eq, zeroBlocks_eq, Nat.div_one]
  congr 1
  · congr 1
    refine sum_congr rfl fun i _ => sum_congr rfl fun j _ => sum_congr rfl fun p _ => toNat_ite ?_
    rw [beq_iff_eq, flagSum_full]
    simp only [flag_iff hk]
    exact ⟨fun h k hk l hl => by rw [Nat.lt_one_iff.mp hk, Nat.mul_one, Nat.add_zero]; exact h l hl, fun h l hl => by
      have := h 0 (by omega) l hl
      rwa [Nat.mul_one, Nat.add_zero] at this⟩
  · push_cast; rfl

theorem ratio0_eq {a : Arr} (hk : a.kind ≠ .other) (s : ℕ) : ratio0 a s = a.fraction s 1 := by
  unfold ratio0 Arr.fraction zeroFraction
  rw [total_eq, zeroBlocks_eq, Nat.div_one]
  congr 1
  · congr 1
    refine sum_congr rfl fun i _ => sum_congr rfl fun j _ => sum_congr rfl fun p _ => toNat_ite ?_
    rw [beq_iff_eq, flagSum_full]
    simp only [flag_iff hk]
    exact ⟨fun h k hk l hl => by rw [Nat.lt_one_iff.mp hl, Nat.mul_one, Nat.add_zero]; exact h k hk, fun h l hl => by
      have := h l hl 0 (by omega)
      rwa [Nat.mul_one, Nat.add_zero] at this⟩
  · push_cast; rfl

theorem ratioS_eq {a : Arr} (hk : a.kind ≠ .other) (s : ℕ) : ratioS a s = a.fraction s s := by
  unfold ratioS Arr.fraction zeroFraction
  rw [total_eq, zeroBlocks_eq]
  congr 1
  · congr 1
    refine sum_congr rfl fun i _ => sum_congr rfl fun j _ => sum_congr rfl fun p _ => toNat_ite ?_
    rw [beq_iff_eq, square_full]
    simp only [flag_iff hk]
  · push_cast; rfl

theorem calcSparsity_eq {a : Arr} (hd : a.ndim = 2 ∨ a.ndim = 4) (hk : a.kind ≠ .other) : calcSparsity a = a.fraction 1 1 := by
  rw [← ratio1_eq hk]
  unfold calcSparsity ratio1
  rw [if_neg (by omega), Nat.div_one]
  have h1 : ∀ i j p, (flagSum 1 (fun k => a.flag i (j * 1 + k) p) == 1) = a.flag i j p := by
    intro i j p
    rw [Bool.eq_iff_iff, beq_iff_eq, flagSum_full]
    exact ⟨fun h => by simpa using h 0 (by omega), fun h k hk => by rw [Nat.lt_one_iff.mp hk, Nat.mul_one]; exact h⟩
  simp only [h1]
  unfold Arr.flag
  cases h : a.kind
  · rfl
  · rfl
  · exact absurd h hk

/-! ### larger blocks are zero less often -/

theorem sum_range_double (m : ℕ) (g : ℕ → ℕ) : ∑ J ∈ range (2 * m), g J = ∑ J ∈ range m, (g (2 * J) + g (2 * J + 1)) := by
  induction m with
  | zero => rfl
  | succ m ih => rw [show 2 * (m + 1) = 2 * m + 1 + 1 by ring, sum_range_succ, sum_range_succ, ih, sum_range_succ]; ring

theorem double_le {m : ℕ} {f g : ℕ → ℕ} (h : ∀ J < m, f J ≤ g (2 * J) ∧ f J ≤ g (2 * J + 1)) : 2 * ∑ J ∈ range m, f J ≤ ∑ J ∈ range (2 * m), g J := by
  rw [sum_range_double, mul_sum]
  exact sum_le_sum fun J hJ => by have := h J (mem_range.mp hJ); omega

theorem div_double {n w : ℕ} (h : 2 * w ∣ n) : n / w = 2 * (n / (2 * w)) := by
  obtain ⟨m, rfl⟩ := h
  rcases Nat.eq_zero_or_pos w with rfl | hw
  · simp
  · rw [Nat.mul_div_cancel_left _ (by omega), show 2 * w * m = w * (2 * m) by ring, Nat.mul_div_cancel_left _ hw]

theorem zeroBlocks_double_cols (rows cols inner : ℕ) (zero : ℕ → ℕ → ℕ → Prop) [∀ i j p, Decidable (zero i j p)] (h w : ℕ) (hd : 2 * w ∣ cols) :
    2 * zeroBlocks rows cols inner zero h (2 * w) ≤ zeroBlocks rows cols inner zero h w := by
  rw [zeroBlocks_eq, zeroBlocks_eq, mul_sum, div_double hd]
  refine sum_le_sum fun I _ => double_le fun J _ => ⟨sum_le_sum fun p _ => ?_, sum_le_sum fun p _ => ?_⟩
  · by_cases hz : ∀ k < h, ∀ l < 2 * w, zero (I * h + k) (J * (2 * w) + l) p
    · rw [if_pos hz, if_pos]
      intro k hk l hl
      have := hz k hk l (by omega)
      rwa [show J * (2 * w) + l = 2 * J * w + l by ring] at this
    · rw [if_neg hz]; exact Nat.zero_le _
  · by_cases hz : ∀ k < h, ∀ l < 2 * w, zero (I * h + k) (J * (2 * w) + l) p
    · rw [if_pos hz, if_pos]
      intro k hk l hl
      have := hz k hk (w + l) (by omega)
      rwa [show J * (2 * w) + (w + l) = (2 * J + 1) * w + l by ring] at this
    · rw [if_neg hz]; exact Nat.zero_le _

theorem zeroBlocks_double_rows (rows cols inner : ℕ) (zero : ℕ → ℕ → ℕ → Prop) [∀ i j p, Decidable (zero i j p)] (h w : ℕ) (hd : 2 * h ∣ rows) :
    2 * zeroBlocks rows cols inner zero (2 * h) w ≤ zeroBlocks rows cols inner zero h w := by
  rw [zeroBlocks_eq, zeroBlocks_eq, div_double hd]
  refine double_le fun I _ => ⟨sum_le_sum fun J _ => sum_le_sum fun p _ => ?_, sum_le_sum fun J _ => sum_le_sum fun p _ => ?_⟩
  · by_cases hz : ∀ k < 2 * h, ∀ l < w, zero (I * (2 * h) + k) (J * w + l) p
    · rw [if_pos hz, if_pos]
      intro k hk l hl
      have := hz k (by omega) l hl
      rwa [show I * (2 * h) + k = 2 * I * h + k by ring] at this
    · rw [if_neg hz]; exact Nat.zero_le _
  · by_cases hz : ∀ k < 2 * h, ∀ l < w, zero (I * (2 * h) + k) (J * w + l) p
    · rw [if_pos hz, if_pos]
      intro k hk l hl
      have := hz (h + k) (by omega) l hl
      rwa [show I * (2 * h) + (h + k) = (2 * I + 1) * h + k by ring] at this
    · rw [if_neg hz]; exact Nat.zero_le _

theorem frac_le {x y n : ℕ} (h : 2 * x ≤ y) : (x : ℚ) / n ≤ y / ((2 * n : ℕ) : ℚ) := by
  rcases Nat.eq_zero_or_pos n with rfl | hn
  · simp
  · rw [div_le_div_iff₀ (by exact_mod_cast hn) (by exact_mod_cast (by omega : 0 < 2 * n))]
    have : x * (2 * n) ≤ y * n := by
      rw [show x * (2 * n) = 2 * x * n by ring]
      exact Nat.mul_le_mul_right _ h
    exact_mod_cast this

theorem fraction_double_cols (a : Arr) (h w : ℕ) (hd : 2 * w ∣ a.cols) : a.fraction h (2 * w) ≤ a.fraction h w := by
  unfold Arr.fraction zeroFraction
  rw [div_double hd, show a.rows / h * (2 * (a.cols / (2 * w))) * a.inner = 2 * (a.rows / h * (a.cols / (2 * w)) * a.inner) by ring]
  exact frac_le (zeroBlocks_double_cols _ _ _ _ _ _ hd)

theorem fraction_double_rows (a : Arr) (h w : ℕ) (hd : 2 * h ∣ a.rows) : a.fraction (2 * h) w ≤ a.fraction h w := by
  unfold Arr.fraction zeroFraction
  rw [div_double hd, show 2 * (a.rows / (2 * h)) * (a.cols / w) * a.inner = 2 * (a.rows / (2 * h) * (a.cols / w) * a.inner) by ring]
  exact frac_le (zeroBlocks_double_rows _ _ _ _ _ _ hd)

theorem tiles_half_cols {a : Arr} {thr : ℚ} {h w : ℕ} (ht : a.Tiles thr h (2 * w)) : a.Tiles thr h w :=
  ⟨ht.1, Dvd.dvd.trans ⟨2, by ring⟩ ht.2.1, lt_of_lt_of_le ht.2.2 (fraction_double_cols a h w ht.2.1)⟩

theorem tiles_half_rows {a : Arr} {thr : ℚ} {h w : ℕ} (ht : a.Tiles thr (2 * h) w) : a.Tiles thr h w :=
  ⟨Dvd.dvd.trans ⟨2, by ring⟩ ht.1, ht.2.1, lt_of_lt_of_le ht.2.2 (fraction_double_rows a h w ht.1)⟩

theorem tiles_one (a : Arr) {thr : ℚ} (ht : 0 < thr) : a.Tiles thr 1 1 := ⟨one_dvd _, one_dvd _, by linarith⟩

/-! ### the loop -/

theorem closed_le {P : ℕ → Prop} (hP : ∀ s, P (2 * s) → P s) {s k : ℕ} (hs : Largest P s) (h : 2 ^ k ≤ s) : P (2 ^ k) := by
  obtain ⟨⟨m, rfl⟩, h1, -⟩ := hs
  have hkm : k ≤ m := (Nat.pow_le_pow_iff_right (by omega)).mp h
  obtain ⟨d, rfl⟩ := Nat.exists_eq_add_of_le hkm
  clear h hkm
  induction d with
  | zero => exact h1
  | succ d ih => exact ih (hP _ (by rw [← pow_succ']; exact h1))

theorem largest_iff {P : ℕ → Prop} (hP : ∀ s, P (2 * s) → P s) {s : ℕ} (hs : Largest P s) (k : ℕ) : P (2 ^ k) ↔ 2 ^ k ≤ s := ⟨hs.2.2 k, closed_le hP hs⟩

/-- the loop variables at block size `2 ^ k` -/
def at_ (a : Arr) (s0 s1 k : ℕ) : Loop where
  initsize := 2 ^ k * 2
  validsize := 2 ^ k
  pre0 := decide (2 ^ k ≤ s0)
  pre1 := decide (2 ^ k ≤ s1)
  r := if 2 ^ k ≤ s0 then a.fraction (2 ^ k) 1 else a.fraction 1 (2 ^ k)
  r0 := a.fraction (min (2 ^ k) s0) 1
  r1 := a.fraction 1 (min (2 ^ k) s1)

theorem pow_double (k : ℕ) : 2 ^ k * 2 = 2 ^ (k + 1) := (pow_succ 2 k).symm

theorem try1_at {a : Arr} (hk : a.kind ≠ .other) {thr : ℚ} {s0 s1 : ℕ} (h1 : Largest (fun s => a.Tiles thr 1 s) s1) (k : ℕ) :
    try1 a (a.fraction 1 1) thr (at_ a s0 s1 k) = decide (2 ^ (k + 1) ≤ s1) := by
  have hiff := largest_iff (fun s => tiles_half_cols) h1 (k + 1)
  unfold try1 at_
  simp only [pow_double, ratio1_eq hk]
  rw [Bool.eq_iff_iff]
  simp only [Bool.and_eq_true, decide_eq_true_eq, beq_iff_eq]
  rw [← hiff]
  constructor
  · rintro ⟨⟨-, h2⟩, h3⟩
    exact ⟨one_dvd _, Nat.dvd_of_mod_eq_zero h2, h3⟩
  · intro h
    refine ⟨⟨?_, Nat.mod_eq_zero_of_dvd h.2.1⟩, h.2.2⟩
    have := hiff.mp h
    rw [pow_succ] at this; omega

theorem try0_at {a : Arr} (hk : a.kind ≠ .other) {thr : ℚ} {s0 s1 : ℕ} (h0 : Largest (fun s => a.Tiles thr s 1) s0) (k : ℕ) :
    try0 a (a.fraction 1 1) thr (at_ a s0 s1 k) = decide (2 ^ (k + 1) ≤ s0) := by
  have hiff := largest_iff (fun s => tiles_half_rows) h0 (k + 1)
  unfold try0 at_
  simp only [pow_double, ratio0_eq hk]
  rw [Bool.eq_iff_iff]
  simp only [Bool.and_eq_true, decide_eq_true_eq, beq_iff_eq]
  rw [← hiff]
  constructor
  · rintro ⟨⟨-, h2⟩, h3⟩
    exact ⟨Nat.dvd_of_mod_eq_zero h2, one_dvd _, h3⟩
  · intro h
    refine ⟨⟨?_, Nat.mod_eq_zero_of_dvd h.1⟩, h.2.2⟩
    have := hiff.mp h
    rw [pow_succ] at this; omega

theorem min_next {s j k : ℕ} (hs : s = 2 ^ j) : min (2 ^ (k + 1)) s = if 2 ^ (k + 1) ≤ s then 2 ^ (k + 1) else min (2 ^ k) s := by
  split
  · rename_i h; exact min_eq_left h
  · rename_i h
    rw [min_eq_right (by omega)]
    subst hs
    have : j ≤ k := by
      have : j < k + 1 := (Nat.pow_lt_pow_iff_right (by omega : 1 < 2)).mp (by omega)
      omega
    exact (min_eq_right (Nat.pow_le_pow_right (by omega) this)).symm

theorem advance_at {a : Arr} (hk : a.kind ≠ .other) {s0 s1 k : ℕ} (p0 : ∃ j, s0 = 2 ^ j) (p1 : ∃ j, s1 = 2 ^ j) (h : 2 ^ (k + 1) ≤ s0 ∨ 2 ^ (k + 1) ≤ s1) :
    advance a (decide (2 ^ (k + 1) ≤ s0)) (decide (2 ^ (k + 1) ≤ s1)) (at_ a s0 s1 k) = at_ a s0 s1 (k + 1) := by
  obtain ⟨j0, e0⟩ := p0
  obtain ⟨j1, e1⟩ := p1
  unfold advance at_
  simp only [pow_double, ratio1_eq hk, ratio0_eq hk, decide_eq_true_eq]
  congr 1
  · by_cases h0 : 2 ^ (k + 1) ≤ s0
    · rw [if_pos h0, if_pos h0]
    · rw [if_neg h0, if_neg h0, if_pos (h.resolve_left h0)]
  · rw [min_next e0]; split <;> rfl
  · rw [min_next e1]; split <;> rfl

theorem loop_at {a : Arr} (hk : a.kind ≠ .other) {thr : ℚ} {s0 s1 : ℕ} (h0 : Largest (fun s => a.Tiles thr s 1) s0) (h1 : Largest (fun s => a.Tiles thr 1 s) s1) {m : ℕ}
    (hm : max s0 s1 = 2 ^ m) : ∀ d k fuel, k + d = m → d < fuel → loop a (a.fraction 1 1) thr fuel (at_ a s0 s1 k) = some (at_ a s0 s1 m) := by
  intro d
  induction d with
  | zero =>
    intro k fuel e hf
    obtain ⟨fuel, rfl⟩ : ∃ n, fuel = n + 1 := ⟨fuel - 1, by omega⟩
    have hlt : 2 ^ m < 2 ^ (m + 1) := Nat.pow_lt_pow_right (by omega) (by omega)
    rw [loop, try0_at hk h0, try1_at hk h1, show k = m by omega, decide_eq_false (by omega), decide_eq_false (by omega)]
    rfl
  | succ d ih =>
    intro k fuel e hf
    obtain ⟨fuel, rfl⟩ : ∃ n, fuel = n + 1 := ⟨fuel - 1, by omega⟩
    have hle : 2 ^ (k + 1) ≤ 2 ^ m := Nat.pow_le_pow_right (by omega) (by omega)
    have hor : 2 ^ (k + 1) ≤ s0 ∨ 2 ^ (k + 1) ≤ s1 := by omega
    rw [loop, try0_at hk h0, try1_at hk h1, if_neg]
    · rw [advance_at hk h0.1 h1.1 hor]
      exact ih (k + 1) fuel (by omega) (by omega)
    · rcases hor with h | h <;> simp [h]

theorem largest_le {a : Arr} {thr : ℚ} {s0 s1 : ℕ} (hr : 0 < a.rows) (hc : 0 < a.cols) (h0 : Largest (fun s => a.Tiles thr s 1) s0) (h1 : Largest (fun s => a.Tiles thr 1 s) s1) :
    s0 ≤ a.rows ∧ s1 ≤ a.cols := ⟨Nat.le_of_dvd hr h0.2.1.1, Nat.le_of_dvd hc h1.2.1.2.1⟩

theorem start_at (a : Arr) {s0 s1 : ℕ} (p0 : 0 < s0) (p1 : 0 < s1) : start (a.fraction 1 1) = at_ a s0 s1 0 := by
  unfold start at_
  have e0 : min (2 ^ 0) s0 = 1 := by simp; omega
  have e1 : min (2 ^ 0) s1 = 1 := by simp; omega
  rw [e0, e1, decide_eq_true (by rw [pow_zero]; exact p0), decide_eq_true (by rw [pow_zero]; exact p1)]
  simp

theorem loop_start {a : Arr} (ha : a.Searched) {thr : ℚ} {s0 s1 : ℕ} (h0 : Largest (fun s => a.Tiles thr s 1) s0) (h1 : Largest (fun s => a.Tiles thr 1 s) s1) :
    ∃ m, max s0 s1 = 2 ^ m ∧ loop a (a.fraction 1 1) thr (a.rows + a.cols) (start (a.fraction 1 1)) = some (at_ a s0 s1 m) := by
  obtain ⟨l0, l1⟩ := largest_le ha.rows ha.cols h0 h1
  obtain ⟨j0, e0⟩ := h0.1
  obtain ⟨j1, e1⟩ := h1.1
  have p0 : 0 < s0 := by rw [e0]; positivity
  have p1 : 0 < s1 := by rw [e1]; positivity
  obtain ⟨m, hm⟩ : ∃ m, max s0 s1 = 2 ^ m := by
    rcases le_total s0 s1 with h | h
    · exact ⟨j1, by rw [max_eq_right h, e1]⟩
    · exact ⟨j0, by rw [max_eq_left h, e0]⟩
  refine ⟨m, hm, ?_⟩
  rw [start_at a p0 p1]
  refine loop_at ha.kind h0 h1 hm m 0 _ (by omega) ?_
  have : m < 2 ^ m := Nat.lt_two_pow_self
  omega

/-- largest powers exist -/
theorem largest_exists {P : ℕ → Prop} (h1 : P 1) {n : ℕ} (hb : ∀ s, P s → s ≤ n) : ∃ s, Largest P s := by
  classical
  let S := (range (n + 1)).filter fun k => P (2 ^ k)
  have hS : S.Nonempty := ⟨0, by simp [S, h1]⟩
  refine ⟨2 ^ S.max' hS, ⟨_, rfl⟩, (mem_filter.mp (S.max'_mem hS)).2, fun k hk => Nat.pow_le_pow_right (by omega) (S.le_max' k (mem_filter.mpr ⟨mem_range.mpr ?_, hk⟩))⟩
  have := hb _ hk
  have : k < 2 ^ k := Nat.lt_two_pow_self
  omega

end OnnxTool.Sparsity
