import Verif.Model.KernelsResize
import Verif.Spec.KernelsResize
import Verif.Proofs.KernelsElem
import Mathlib.Data.Rat.Floor
import Mathlib.Tactic.Linarith
import Mathlib.Tactic.FieldSimp
import Mathlib.Tactic.Ring
/-! # Proofs about the Resize kernel -/
namespace OnnxTool.Kernels
open OnnxTool OnnxTool.Torch

/-! ### one axis, nearest -/

theorem nearest_floor_axis {n m i : Nat} (hi : i < m) (hn : 0 < n) : clampTo n (Near.pos .floor (Coord.src .asymmetric ((m : ℚ) / n) n m i)) = i * n / m := by
  have e : (i : ℚ) / ((m : ℚ) / n) = ((i * n : ℕ) : ℚ) / (m : ℕ) := by
    have hm : (m : ℚ) ≠ 0 := by exact_mod_cast (by omega : m ≠ 0)
    have hn : (n : ℚ) ≠ 0 := by exact_mod_cast (by omega : n ≠ 0)
    push_cast
    field_simp
  have hlt : i * n / m < n := by
    rw [Nat.div_lt_iff_lt_mul (by omega), Nat.mul_comm n m]
    exact Nat.mul_lt_mul_of_pos_right hi hn
  unfold Near.pos Coord.src clampTo
  simp only
  rw [e, Rat.floor_natCast_div_natCast]
  have : (0 : Int) ≤ ((i * n / m : ℕ) : Int) := Int.natCast_nonneg _
  rw [← Int.natCast_ediv] 
  omega

/-- the position the default mode of ONNX takes -/
theorem nearest_default_axis {n m i : Nat} (hi : i < m) (hn : 0 < n) :
    clampTo n (Near.pos .roundPreferFloor (Coord.src .halfPixel ((m : ℚ) / n) n m i)) = i * n / m ↔ 2 * (i * n % m) + n ≤ 2 * m := by
  have hm0 : 0 < m := by omega
  have hm : (0 : ℚ) < m := by exact_mod_cast hm0
  have hn' : (0 : ℚ) < n := by exact_mod_cast hn
  have hi' : (i : ℚ) + 1 ≤ m := by exact_mod_cast hi
  have hi0 : (0 : ℚ) ≤ i := by exact_mod_cast Nat.zero_le i
  set a : ℚ := ((i : ℚ) + 1 / 2) / ((m : ℚ) / n) - 1 / 2 - 1 / 2 with ha
  have e : a * (2 * m) = (2 * i + 1) * n - 2 * m := by
    rw [ha]; field_simp; ring
  have hge : 0 ≤ ⌈a⌉ := by
    have : -1 < a := by
      by_contra h
      push Not at h
      have : a * (2 * m) ≤ -1 * (2 * m) := mul_le_mul_of_nonneg_right h (by positivity)
      have : 0 < (2 * (i : ℚ) + 1) * n := by positivity
      linarith
    have : (-1 : Int) < ⌈a⌉ := Int.lt_ceil.2 (by push_cast; exact this)
    omega
  have hle : ⌈a⌉ ≤ (n : Int) - 1 := by
    rw [Int.ceil_le]
    push_cast
    by_contra h
    push Not at h
    have h1 : ((n : ℚ) - 1) * (2 * m) < a * (2 * m) := mul_lt_mul_of_pos_right h (by positivity)
    have h2 : (2 * (i : ℚ) + 1) * n ≤ (2 * m) * n := mul_le_mul_of_nonneg_right (by linarith) hn'.le
    nlinarith
  have hcl : clampTo n (Near.pos .roundPreferFloor (Coord.src .halfPixel ((m : ℚ) / n) n m i)) = ⌈a⌉.toNat := by
    unfold Near.pos Coord.src clampTo
    simp only
    rw [← ha]
    omega
  rw [hcl]
  have hdiv : i * n = m * (i * n / m) + i * n % m := (Nat.div_add_mod _ _).symm
  have hmod : i * n % m < m := Nat.mod_lt _ hm0
  have hdq : (i : ℚ) * n = m * ((i * n / m : ℕ) : ℚ) + ((i * n % m : ℕ) : ℚ) := by exact_mod_cast hdiv
  generalize i * n / m = q at *
  generalize i * n % m = r at *
  have hr0 : (0 : ℚ) ≤ r := by exact_mod_cast Nat.zero_le r
  have key : ⌈a⌉ = (q : Int) ↔ 2 * r + n ≤ 2 * m := by
    rw [Int.ceil_eq_iff]
    push_cast
    constructor
    · rintro ⟨-, h⟩
      have := mul_le_mul_of_nonneg_right h (by positivity : (0 : ℚ) ≤ 2 * m)
      have h3 : (2 * (r : ℚ) + n) ≤ 2 * m := by nlinarith
      exact_mod_cast h3
    · intro h
      have h3 : (2 * (r : ℚ) + n) ≤ 2 * m := by exact_mod_cast h
      constructor
      · by_contra hc
        push Not at hc
        have := mul_le_mul_of_nonneg_right hc (by positivity : (0 : ℚ) ≤ 2 * m)
        nlinarith
      · by_contra hc
        push Not at hc
        have := mul_lt_mul_of_pos_right hc (by positivity : (0 : ℚ) < 2 * m)
        nlinarith
  rw [← key]
  omega

theorem exists_residue (n m : Nat) (hm : 0 < m) (hn : 0 < n) : ∃ i, i < m ∧ i * n % m = m - Nat.gcd n m := by
  have hg : 0 < Nat.gcd n m := Nat.gcd_pos_of_pos_left _ hn
  have hle : Nat.gcd n m ≤ m := Nat.gcd_le_right _ hm
  have hb := Nat.gcd_eq_gcd_ab n m
  set a := Nat.gcdA n m
  set b := Nat.gcdB n m
  refine ⟨((-a) % (m : Int)).toNat, ?_, ?_⟩
  · have := Int.emod_lt_of_pos (-a) (by exact_mod_cast hm : (0 : Int) < m)
    have := Int.emod_nonneg (-a) (by omega : (m : Int) ≠ 0)
    omega
  · have h0 := Int.emod_nonneg (-a) (by omega : (m : Int) ≠ 0)
    have hz : ((((-a) % (m : Int)).toNat * n : ℕ) : Int) % m = (-(Nat.gcd n m : Int)) % m := by
      push_cast
      rw [Int.toNat_of_nonneg h0]
      have : (-a) % (m : Int) * n = -(Nat.gcd n m : Int) + m * (b - (-a) / m * n) := by
        have h1 := Int.emod_add_mul_ediv (-a) m
        rw [hb]
        have : (-a) % (m : Int) = -a - m * ((-a) / m) := by omega
        rw [this]
        ring
      rw [this, Int.add_mul_emod_self_left]
    have h2 : (-(Nat.gcd n m : Int)) % m = (m : Int) - Nat.gcd n m := by
      rw [← Int.add_emod_right (-(Nat.gcd n m : Int)) (m : Int)] 
      rw [show -(Nat.gcd n m : Int) + m = (m : Int) - Nat.gcd n m by ring]
      exact Int.emod_eq_of_lt (by omega) (by omega)
    rw [h2] at hz
    have : ((((-a) % (m : Int)).toNat * n % m : ℕ) : Int) = (m : Int) - Nat.gcd n m := by
      rw [← hz]; push_cast; rfl
    omega

/-- when the default mode takes the same position everywhere -/
theorem default_all_iff {n m : Nat} (hm : 0 < m) (hn : 0 < n) : (∀ i, i < m → 2 * (i * n % m) + n ≤ 2 * m) ↔ n ∣ 2 * m := by
  constructor
  · intro h
    obtain ⟨i, hi, e⟩ := exists_residue n m hm hn
    have h1 := h i hi
    rw [e] at h1
    have hle : Nat.gcd n m ≤ m := Nat.gcd_le_right _ hm
    have h2 : n ≤ 2 * Nat.gcd n m := by omega
    obtain ⟨c, hc⟩ := Nat.gcd_dvd_left n m
    have hg : 0 < Nat.gcd n m := Nat.gcd_pos_of_pos_left _ hn
    have hc2 : c ≤ 2 := by
      by_contra h
      have : Nat.gcd n m * 3 ≤ Nat.gcd n m * c := Nat.mul_le_mul_left _ (by omega)
      omega
    have hd : n ∣ 2 * Nat.gcd n m := by
      have : c = 0 ∨ c = 1 ∨ c = 2 := by omega
      rcases this with rfl | rfl | rfl
      · omega
      · exact ⟨2, by omega⟩
      · exact ⟨1, by omega⟩
    exact hd.trans (Nat.mul_dvd_mul_left 2 (Nat.gcd_dvd_right n m))
  · rintro ⟨q, hq⟩ i _
    have hq0 : 0 < q := by
      rcases Nat.eq_zero_or_pos q with rfl | h
      · omega
      · exact h
    -- 2 * (i * n % m) = n * (2 * i % q)
    have h1 : 2 * (i * n % m) = n * (2 * i % q) := by
      rw [← Nat.mul_mod_mul_left, ← Nat.mul_mod_mul_left, hq]
      congr 1
      ring
    have h2 : 2 * i % q + 1 ≤ q := Nat.mod_lt _ hq0
    have h3 : n * (2 * i % q + 1) ≤ n * q := Nat.mul_le_mul_left _ h2
    rw [h1, hq]
    rw [Nat.mul_add] at h3
    omega

/-! ### one axis, linear -/

theorem linear_axis (f : Nat → ℚ) {n : Nat} (hn : 0 < n) {q : ℚ} (h0 : -1 ≤ q) (h1 : q < n) :
    (1 - (neighbours n (max 0 q)).2.2) * f (neighbours n (max 0 q)).1 + (neighbours n (max 0 q)).2.2 * f (neighbours n (max 0 q)).2.1 =
      (1 - (q - ⌊q⌋)) * f (clampTo n ⌊q⌋) + (q - ⌊q⌋) * f (clampTo n (⌊q⌋ + 1)) := by
  unfold neighbours
  simp only
  rcases lt_or_ge q 0 with hq | hq
  · rw [max_eq_left hq.le]
    have hf : ⌊q⌋ = -1 := by
      rw [Int.floor_eq_iff]; push_cast; exact ⟨h0, by linarith⟩
    have c1 : clampTo n ⌊q⌋ = 0 := by unfold clampTo; omega
    have c2 : clampTo n (⌊q⌋ + 1) = 0 := by unfold clampTo; omega
    rw [c1, c2]
    have : min (⌊(0 : ℚ)⌋).toNat (n - 1) = 0 := by simp
    rw [this]
    push_cast
    ring
  · rw [max_eq_right hq]
    have hk0 : 0 ≤ ⌊q⌋ := Int.floor_nonneg.2 hq
    have hk1 : ⌊q⌋ < n := Int.floor_lt.2 (by push_cast; exact h1)
    have hm : min ⌊q⌋.toNat (n - 1) = ⌊q⌋.toNat := by omega
    have hc : ((⌊q⌋.toNat : ℕ) : ℚ) = (⌊q⌋ : ℚ) := by
      have : ((⌊q⌋.toNat : ℕ) : Int) = ⌊q⌋ := Int.toNat_of_nonneg hk0
      exact_mod_cast this
    have c1 : clampTo n ⌊q⌋ = ⌊q⌋.toNat := by unfold clampTo; omega
    have c2 : clampTo n (⌊q⌋ + 1) = if ⌊q⌋.toNat < n - 1 then ⌊q⌋.toNat + 1 else ⌊q⌋.toNat := by
      unfold clampTo; split <;> omega
    rw [hm, hc, c1, c2]

/-- the coordinate of an axis, `max 0` of it being what torch uses -/
theorem linear_src (align : Bool) {n m i : Nat} (hi : i < m) (hn : 0 < n) :
    linearSrc align n m i = max 0 (Coord.src (if align then .alignCorners else .halfPixel) ((m : ℚ) / n) n m i) ∧
    -1 ≤ Coord.src (if align then .alignCorners else .halfPixel) ((m : ℚ) / n) n m i ∧ Coord.src (if align then .alignCorners else .halfPixel) ((m : ℚ) / n) n m i < n := by
  have hn' : (1 : ℚ) ≤ n := by exact_mod_cast hn
  have hi' : (i : ℚ) + 1 ≤ m := by exact_mod_cast hi
  have hi0 : (0 : ℚ) ≤ i := by exact_mod_cast Nat.zero_le i
  cases align with
  | true =>
    simp only [if_true, Coord.src, linearSrc]
    by_cases hm : m = 1
    · subst hm; simp; linarith
    · have hm1 : 1 < m := by omega
      have hm2 : (1 : ℚ) < m := by exact_mod_cast hm1
      rw [if_pos hm1, if_neg hm]
      have h0 : 0 ≤ (i : ℚ) * (n - 1) / (m - 1) := div_nonneg (mul_nonneg hi0 (by linarith)) (by linarith)
      refine ⟨(max_eq_right h0).symm, by linarith, ?_⟩
      rw [div_lt_iff₀ (by linarith)]
      nlinarith
  | false =>
    simp only [Bool.false_eq_true, if_false, Coord.src, linearSrc]
    have hm : (0 : ℚ) < m := by linarith
    have e : ((i : ℚ) + 1 / 2) / ((m : ℚ) / n) = ((i : ℚ) + 1 / 2) * n / m := by field_simp
    rw [e]
    refine ⟨rfl, ?_, ?_⟩
    · have : 0 ≤ ((i : ℚ) + 1 / 2) * n / m := by positivity
      linarith
    · have : ((i : ℚ) + 1 / 2) * n / m < n := by
        rw [div_lt_iff₀ hm]; nlinarith
      linarith

/-- an axis that keeps its size -/
theorem same_axis (align : Bool) {n i : Nat} (hi : i < n) : Coord.src (if align then .alignCorners else .halfPixel) ((n : ℚ) / n) n n i = i := by
  have hn : (n : ℚ) ≠ 0 := by exact_mod_cast (by omega : n ≠ 0)
  cases align with
  | false => simp only [Bool.false_eq_true, if_false, Coord.src]; rw [div_self hn]; ring
  | true =>
    simp only [if_true, Coord.src]
    split
    · have : i = 0 := by omega
      rw [this]; norm_num
    · have : (n : ℚ) - 1 ≠ 0 := by
        intro h
        have : (n : ℚ) = (1 : ℕ) := by push_cast; linarith
        have : n = 1 := by exact_mod_cast this
        contradiction
      field_simp

theorem linear_whole {n i : Nat} (hi : i < n) (ns : List Nat) (qs : List ℚ) (f : List Nat → ℚ) : linearAt (n :: ns) ((i : ℚ) :: qs) f = linearAt ns qs (fun t => f (i :: t)) := by
  rw [linearAt]
  have hf : ⌊(i : ℚ)⌋ = (i : Int) := Int.floor_natCast i
  have c : clampTo n (i : Int) = i := by unfold clampTo; omega
  rw [hf, c]
  push_cast
  ring

/-- bilinear interpolation is ONNX's linear mode -/
theorem bilinear_linear (align : Bool) (x : Tensor ℚ) {N C H W oh ow : Nat} (hx : x.shape = [N, C, H, W]) (hH : 0 < H) (hW : 0 < W) {b c i j : Nat}
    (hb : b < N) (hc : c < C) (hi : i < oh) (hj : j < ow) :
    bilinearAt align x oh ow b c i j = linearAt x.shape
      (coords (if align then .alignCorners else .halfPixel) (ratios x.shape [N, C, oh, ow]) x.shape [N, C, oh, ow] [b, c, i, j]) x.at := by
  rw [hx]
  simp only [ratios, coords]
  rw [same_axis align hb, same_axis align hc, linear_whole hb, linear_whole hc]
  obtain ⟨p1, p2, p3⟩ := linear_src align hi hH
  obtain ⟨q1, q2, q3⟩ := linear_src align hj hW
  unfold bilinearAt
  simp only [hx, List.getD_cons_succ, List.getD_cons_zero]
  rw [p1, q1]
  simp only [linearAt]
  have e1 := linear_axis (fun v => (x.at [b, c, (neighbours H (max 0 (Coord.src (if align then .alignCorners else .halfPixel) ((oh : ℚ) / H) H oh i))).1, v])) hW q2 q3
  have e2 := linear_axis (fun v => (x.at [b, c, (neighbours H (max 0 (Coord.src (if align then .alignCorners else .halfPixel) ((oh : ℚ) / H) H oh i))).2.1, v])) hW q2 q3
  rw [e1, e2]
  generalize Coord.src (if align then .alignCorners else .halfPixel) ((ow : ℚ) / W) W ow j = q at *
  generalize Coord.src (if align then .alignCorners else .halfPixel) ((oh : ℚ) / H) H oh i = p at *
  exact linear_axis (fun u => (1 - (q - ⌊q⌋)) * x.at [b, c, u, clampTo W ⌊q⌋] + (q - ⌊q⌋) * x.at [b, c, u, clampTo W (⌊q⌋ + 1)]) hH p2 p3

end OnnxTool.Kernels
