import Verif.Spec.SrEngine
import Verif.Props.Quant
import Mathlib.Tactic.Linarith
import Mathlib.Tactic.Ring
import Mathlib.Tactic.NormNum
import Mathlib.Tactic.Positivity
import Mathlib.Tactic.GCongr
/-!
# C106: the super-resolution engine
-/
namespace OnnxTool.Props
open OnnxTool OnnxTool.SrEngine

/-! ### What the network is given -/

private theorem padOf_spec (n : Nat) : (n + padOf n) % 4 = 0 ∧ padOf n < 4 := by
  unfold padOf; omega

private theorem mirror_lt {n : Nat} (hn : 0 < n) (i : Nat) : mirror n i < n := by
  unfold mirror
  split
  · assumption
  · split
    · exact hn
    · rename_i h
      have hp : 0 < 2 * (n - 1) := by omega
      have := Nat.mod_lt i hp
      simp only []
      split
      · assumption
      · omega

private theorem mirror_id {n i : Nat} (h : i < n) : mirror n i = i := by
  unfold mirror; rw [if_pos h]

private theorem pad_h (img : Img Nat) : (padImage img).h = img.h + padOf img.h := by
  unfold padImage; split
  · rfl
  · omega

private theorem pad_w (img : Img Nat) : (padImage img).w = img.w + padOf img.w := by
  unfold padImage; split
  · rfl
  · omega

private theorem pad_px (img : Img Nat) {y x : Nat} (c : Nat) (hy : y < (padImage img).h) (hx : x < (padImage img).w) :
    (padImage img).px y x c = img.px (mirror img.h y) (mirror img.w x) c := by
  rw [pad_h] at hy; rw [pad_w] at hx
  unfold padImage; split
  · rfl
  · rw [mirror_id (by omega), mirror_id (by omega)]

/-- **C106, what the network is given.**  The smallest multiples of four that hold the image; the image itself at its place; and beyond it, the image mirrored at its last row and
column, so that row `h - 1 + d` shows row `h - 1 - d` (an image of one row repeats it). -/
theorem C106_input (img : Img Nat) (h0 : 0 < img.h) (w0 : 0 < img.w) :
    (padImage img).h % 4 = 0 ∧ (padImage img).w % 4 = 0 ∧
    (∀ m, m % 4 = 0 → img.h ≤ m → (padImage img).h ≤ m) ∧ (∀ m, m % 4 = 0 → img.w ≤ m → (padImage img).w ≤ m) ∧
    img.h ≤ (padImage img).h ∧ img.w ≤ (padImage img).w ∧
    (∀ y x c, y < img.h → x < img.w → (padImage img).px y x c = img.px y x c) ∧
    (∀ y x c, y < (padImage img).h → x < (padImage img).w → ∃ i j, i < img.h ∧ j < img.w ∧ (padImage img).px y x c = img.px i j c) ∧
    (∀ d x c, d < img.h → img.h - 1 + d < (padImage img).h → x < img.w → (padImage img).px (img.h - 1 + d) x c = img.px (img.h - 1 - d) x c) ∧
    (∀ y d c, d < img.w → img.w - 1 + d < (padImage img).w → y < img.h → (padImage img).px y (img.w - 1 + d) c = img.px y (img.w - 1 - d) c) := by
  have a := padOf_spec img.h
  have b := padOf_spec img.w
  have mir : ∀ n d : Nat, 0 < n → d < n → mirror n (n - 1 + d) = n - 1 - d := by
    intro n d hn hd
    unfold mirror
    by_cases h1 : n - 1 + d < n
    · rw [if_pos h1]; omega
    · rw [if_neg h1, if_neg (by omega : ¬ n ≤ 1)]
      simp only []
      by_cases h2 : d = n - 1
      · have : (n - 1 + d) % (2 * (n - 1)) = 0 := by
          rw [h2, show n - 1 + (n - 1) = 2 * (n - 1) by omega, Nat.mod_self]
        rw [this, if_pos hn]; omega
      · rw [Nat.mod_eq_of_lt (by omega), if_neg (by omega)]; omega
  refine ⟨by rw [pad_h]; exact a.1, by rw [pad_w]; exact b.1, ?_, ?_, by rw [pad_h]; omega, by rw [pad_w]; omega, ?_, ?_, ?_, ?_⟩
  · intro m h1 h2; rw [pad_h]; omega
  · intro m h1 h2; rw [pad_w]; omega
  · intro y x c hy hx
    rw [pad_px img c (by rw [pad_h]; omega) (by rw [pad_w]; omega), mirror_id hy, mirror_id hx]
  · intro y x c hy hx
    exact ⟨_, _, mirror_lt h0 y, mirror_lt w0 x, pad_px img c hy hx⟩
  · intro d x c hd hy hx
    rw [pad_px img c hy (by rw [pad_w]; omega), mirror_id hx, mir _ _ h0 hd]
  · intro y d c hd hx hy
    rw [pad_px img c (by rw [pad_h]; omega) hx, mirror_id hy, mir _ _ w0 hd]

/-! ### What comes back -/

private theorem process_inv {rin rout : ℚ → ℚ} {s : Nat} {net : Img ℚ → Except PyErr (Img ℚ)} {img out : Img Nat} (h : process rin rout s net img = .ok out) :
    ∃ t, net (imageToTensor rin (padImage img)) = .ok t ∧ out = crop (img.h * s) (img.w * s) (tensorToImage rout t) := by
  unfold process at h
  split at h
  · cases h
  · rename_i t e
    injection h with h
    exact ⟨t, e, h.symm⟩

/-- **C106, the size.**  With a network that enlarges by `k`, the result has `scale` times the size of the image if the detected scale is at most `k`; otherwise it
ends with the enlarged padded image. -/
theorem C106_size {rin rout : ℚ → ℚ} {s k : Nat} {net : Img ℚ → Except PyErr (Img ℚ)} {img out : Img Nat} (hk : Enlarges k net)
    (h : process rin rout s net img = .ok out) :
    out.h = min (img.h * s) (k * (padImage img).h) ∧ out.w = min (img.w * s) (k * (padImage img).w) ∧
    (s ≤ k → out.h = s * img.h ∧ out.w = s * img.w) := by
  obtain ⟨t, ht, rfl⟩ := process_inv h
  obtain ⟨e1, e2⟩ := hk _ _ ht
  have e1 : t.h = k * (padImage img).h := e1
  have e2 : t.w = k * (padImage img).w := e2
  refine ⟨by show min _ t.h = _; rw [e1], by show min _ t.w = _; rw [e2], fun hs => ?_⟩
  have g1 : s * img.h ≤ k * (padImage img).h := Nat.mul_le_mul hs (by rw [pad_h]; omega)
  have g2 : s * img.w ≤ k * (padImage img).w := Nat.mul_le_mul hs (by rw [pad_w]; omega)
  constructor
  · show min _ t.h = _; rw [e1, Nat.mul_comm img.h, Nat.min_eq_left g1]
  · show min _ t.w = _; rw [e2, Nat.mul_comm img.w, Nat.min_eq_left g2]

private theorem step_exact (x : ℚ) : IsStep x (toPixel id x) := by
  unfold IsStep toPixel
  refine ⟨fun h => ?_, fun h => ?_, fun h0 h1 => ?_⟩
  · rw [if_pos h]; simp
  · rw [if_neg (by linarith), if_pos h]
    norm_num
    rfl
  · rw [if_neg (by linarith), if_neg (by linarith)]
    have f0 : 0 ≤ ⌊x * 255⌋ := Int.floor_nonneg.2 (by positivity)
    have f1 : ⌊x * 255⌋ < 256 := by rw [Int.floor_lt]; push_cast; linarith
    have e : ((⌊id (x * 255)⌋ % 256).toNat : ℤ) = ⌊x * 255⌋ := by
      simp only [id]
      rw [Int.emod_eq_of_lt f0 f1, Int.toNat_of_nonneg f0]
    have e' : (((⌊id (x * 255)⌋ % 256).toNat : ℕ) : ℚ) = (⌊x * 255⌋ : ℚ) := by
      rw [← e]; push_cast; rfl
    rw [e']
    have a := Int.floor_le (x * 255)
    have b := Int.lt_floor_add_one (x * 255)
    constructor <;> linarith

/-- **C106, the pixels.**  Each pixel of the result is the value of the network's result at the same place, cut to 0…1 and rounded down to one of 256 steps (exact arithmetic). -/
theorem C106_pixels {rin : ℚ → ℚ} {s : Nat} {net : Img ℚ → Except PyErr (Img ℚ)} {img out : Img Nat} (h : process rin id s net img = .ok out) :
    ∃ t, net (imageToTensor rin (padImage img)) = .ok t ∧ out.h ≤ t.h ∧ out.w ≤ t.w ∧
      ∀ y x c, y < out.h → x < out.w → c < 3 → IsStep (t.px y x c) (out.px y x c) := by
  obtain ⟨t, ht, rfl⟩ := process_inv h
  exact ⟨t, ht, Nat.min_le_right _ _, Nat.min_le_right _ _, fun y x c _ _ _ => step_exact _⟩

/-- **C106, nothing is lost on the way.**  In exact arithmetic, float32 and float16 (division in float32) all 256 steps survive reading and writing. -/
theorem C106_keeps : Keeps id id ∧ Keeps f32 f32 ∧ Keeps (f16 ∘ f32) f16 := by
  refine ⟨?_, ?_, ?_⟩
  · intro v hv
    have : (0 : ℚ) ≤ (v : ℚ) := by positivity
    have h1 : (v : ℚ) < 256 := by exact_mod_cast hv
    unfold toPixel ofPixel
    simp only [id]
    have h2 : (v : ℚ) ≤ 255 := by
      have : v ≤ 255 := by omega
      exact_mod_cast this
    rw [if_neg (by have : (0 : ℚ) ≤ v / 255 := by positivity
                   linarith), if_neg (by rw [not_lt, div_le_one (by norm_num)]; exact h2)]
    rw [div_mul_cancel₀ _ (by norm_num : (255 : ℚ) ≠ 0)]
    rw [Int.floor_natCast]
    omega
  · unfold Keeps; decide +kernel
  · unfold Keeps; decide +kernel

/-- **C106, with a network that only repeats pixels** (enlarging by the detected scale), the result is the image with every pixel repeated: the way through padding, tensor and
cropping moves and changes nothing. -/
theorem C106_repeats {rin rout : ℚ → ℚ} {s : Nat} {net : Img ℚ → Except PyErr (Img ℚ)} {img : Img Nat} (hs : 0 < s) (hi : Rgb img) (hr : Keeps rin rout)
    (hnet : ∀ t, ∃ u, net t = .ok u ∧ Same u (blocks s t)) :
    ∃ out, process rin rout s net img = .ok out ∧ Same out (blocks s img) := by
  obtain ⟨u, hu, e1, e2, e3⟩ := hnet (imageToTensor rin (padImage img))
  have e1 : u.h = s * (padImage img).h := e1
  have e2 : u.w = s * (padImage img).w := e2
  refine ⟨crop (img.h * s) (img.w * s) (tensorToImage rout u), by unfold process; rw [hu], ?_, ?_, ?_⟩
  · show min _ u.h = s * img.h
    rw [e1, Nat.mul_comm img.h]
    exact Nat.min_eq_left (Nat.mul_le_mul_left _ (by rw [pad_h]; omega))
  · show min _ u.w = s * img.w
    rw [e2, Nat.mul_comm img.w]
    exact Nat.min_eq_left (Nat.mul_le_mul_left _ (by rw [pad_w]; omega))
  · intro y x c hy hx hc
    have hy' : y < min (img.h * s) u.h := hy
    have hx' : x < min (img.w * s) u.w := hx
    have a1 : y / s < img.h := (Nat.div_lt_iff_lt_mul hs).2 (by omega)
    have a2 : x / s < img.w := (Nat.div_lt_iff_lt_mul hs).2 (by omega)
    show toPixel rout (u.px y x c) = img.px (y / s) (x / s) c
    rw [e3 y x c (by omega) (by omega) hc]
    show toPixel rout (ofPixel rin ((padImage img).px (y / s) (x / s) c)) = _
    rw [pad_px img c (by rw [pad_h]; omega) (by rw [pad_w]; omega), mirror_id a1, mirror_id a2]
    exact hr _ (hi.2.2 _ _ _ a1 a2 hc)

/-- **C106, the padding is not seen** away from the right and lower border: for a network whose results depend on entries at most `r` further, the result there is what the network
gives for the image alone. -/
theorem C106_padding_unseen {rin rout : ℚ → ℚ} {s k r : Nat} {net : Img ℚ → Except PyErr (Img ℚ)} {img out : Img Nat} {u : Img ℚ} (hl : Local k r net)
    (h : process rin rout s net img = .ok out) (hu : net (imageToTensor rin img) = .ok u) (y x c : Nat) (hy : y / k + r < img.h) (hx : x / k + r < img.w) (hc : c < 3) :
    out.px y x c = toPixel rout (u.px y x c) := by
  obtain ⟨t, ht, rfl⟩ := process_inv h
  show toPixel rout (t.px y x c) = _
  rw [hl _ _ _ _ ht hu y x c hc]
  refine ⟨by show _ < (padImage img).h; rw [pad_h]; omega, hy, by show _ < (padImage img).w; rw [pad_w]; omega, hx, ?_⟩
  intro i j c' hi hj _
  show ofPixel rin _ = ofPixel rin _
  rw [pad_px img c' (by rw [pad_h]; omega) (by rw [pad_w]; omega), mirror_id (by omega), mirror_id (by omega)]

/-- **C106, images of the promised size.**  Every image that is not larger than the size given to `initialize` is given to the engine within its range exactly if the size is a
multiple of four in both directions (or nothing is promised: a size of zero). -/
theorem C106_range {maxH maxW : Nat} (h0 : 0 < maxH) (w0 : 0 < maxW) (rin : ℚ → ℚ) :
    (∀ img : Img Nat, 0 < img.h → 0 < img.w → img.h ≤ maxH → img.w ≤ maxW → admits maxH maxW (imageToTensor rin (padImage img)) = true) ↔
      maxH % 4 = 0 ∧ maxW % 4 = 0 := by
  constructor
  · intro h
    have := h { h := maxH, w := maxW, px := fun _ _ _ => 0 } h0 w0 (Nat.le_refl _) (Nat.le_refl _)
    simp only [admits, decide_eq_true_eq, imageToTensor, pad_h, pad_w] at this
    have a := padOf_spec maxH
    have b := padOf_spec maxW
    omega
  · rintro ⟨a, b⟩ img i1 i2 i3 i4
    simp only [admits, decide_eq_true_eq, imageToTensor, pad_h, pad_w]
    unfold padOf
    omega

/-! ### The detected scale -/

private theorem inText_iff (p s : List Char) : inText p s = true ↔ p <:+: s := by
  induction s with
  | nil => simp [inText]
  | cons c s ih =>
    rw [inText, Bool.or_eq_true, ih, List.isPrefixOf_iff_prefix, List.infix_cons_iff]

/-- **C106, the detected scale**: 2 if the file name has "x2" or "2x" in it (in any case), else 3 if it has "x3" or "3x", else 4. -/
theorem C106_scale (path : String) (name : List Char) (hn : name = ((path.toList.reverse.takeWhile (· ≠ '/')).reverse).map Char.toLower) :
    detectScale path = (if ['x', '2'] <:+: name ∨ ['2', 'x'] <:+: name then 2 else if ['x', '3'] <:+: name ∨ ['3', 'x'] <:+: name then 3 else 4) := by
  subst hn
  unfold detectScale
  simp only [Bool.or_eq_true, inText_iff, basename]
  split
  · rfl
  · split
    · rfl
    · split <;> rfl

example : detectScale "/models.2x/realesrgan-x4.onnx" = 4 ∧ detectScale "RealESRGAN_X2.onnx" = 2 ∧ detectScale "edsr_3x.onnx" = 3 ∧ detectScale "net.onnx" = 4 := by decide

/-- Finding: numbers next to the factor are taken for it: a model for enlarging by four whose name has a version or a resolution is taken for one by two. -/
theorem C106_scale_misread : detectScale "realesr-v2x4.onnx" = 2 ∧ detectScale "realesrgan-512x288-x4.onnx" = 2 ∧ detectScale "esrgan-x24.onnx" = 2 ∧
    detectScale "net-x8.onnx" = 4 := by decide

/-- Finding: and then only the left upper part of the enlarged image is returned (a quarter, for a network by four taken for one by two). -/
theorem C106_cut_off {rin rout : ℚ → ℚ} {s k : Nat} {net : Img ℚ → Except PyErr (Img ℚ)} {img : Img Nat} (hsk : s ≤ k) (hs : 0 < s) (hi : Rgb img) (hr : Keeps rin rout)
    (hnet : ∀ t, ∃ u, net t = .ok u ∧ Same u (blocks k t)) :
    ∃ out, process rin rout s net img = .ok out ∧ Same out (corner (s * img.h) (s * img.w) (blocks k img)) := by
  have hk : 0 < k := by omega
  obtain ⟨u, hu, e1, e2, e3⟩ := hnet (imageToTensor rin (padImage img))
  have e1 : u.h = k * (padImage img).h := e1
  have e2 : u.w = k * (padImage img).w := e2
  have g1 : s * img.h ≤ k * (padImage img).h := Nat.mul_le_mul hsk (by rw [pad_h]; omega)
  have g2 : s * img.w ≤ k * (padImage img).w := Nat.mul_le_mul hsk (by rw [pad_w]; omega)
  refine ⟨crop (img.h * s) (img.w * s) (tensorToImage rout u), by unfold process; rw [hu], ?_, ?_, ?_⟩
  · show min _ u.h = s * img.h
    rw [e1, Nat.mul_comm img.h]; exact Nat.min_eq_left g1
  · show min _ u.w = s * img.w
    rw [e2, Nat.mul_comm img.w]; exact Nat.min_eq_left g2
  · intro y x c hy hx hc
    have hy' : y < min (img.h * s) u.h := hy
    have hx' : x < min (img.w * s) u.w := hx
    have k1 : img.h * s ≤ img.h * k := Nat.mul_le_mul_left _ hsk
    have k2 : img.w * s ≤ img.w * k := Nat.mul_le_mul_left _ hsk
    have a1 : y / k < img.h := (Nat.div_lt_iff_lt_mul hk).2 (by omega)
    have a2 : x / k < img.w := (Nat.div_lt_iff_lt_mul hk).2 (by omega)
    show toPixel rout (u.px y x c) = img.px (y / k) (x / k) c
    rw [e3 y x c (by omega) (by omega) hc]
    show toPixel rout (ofPixel rin ((padImage img).px (y / k) (x / k) c)) = _
    rw [pad_px img c (by rw [pad_h]; omega) (by rw [pad_w]; omega), mirror_id a1, mirror_id a2]
    exact hr _ (hi.2.2 _ _ _ a1 a2 hc)

/-- Finding: a network that enlarges by less than the detected scale gives an image that is too small, for every image of more than `3 k` rows. -/
theorem C106_too_small {rin rout : ℚ → ℚ} {s k : Nat} {net : Img ℚ → Except PyErr (Img ℚ)} {img out : Img Nat} (hk : Enlarges k net) (hks : k < s)
    (hb : 3 * k < img.h) (h : process rin rout s net img = .ok out) : out.h < s * img.h := by
  have := (C106_size hk h).1
  rw [this]
  have a := padOf_spec img.h
  rw [pad_h]
  have : k * (img.h + padOf img.h) < s * img.h := by
    calc k * (img.h + padOf img.h) = k * img.h + k * padOf img.h := Nat.mul_add _ _ _
      _ ≤ k * img.h + k * 3 := by gcongr; omega
      _ < k * img.h + img.h := by omega
      _ = (k + 1) * img.h := by ring
      _ ≤ s * img.h := Nat.mul_le_mul_right _ hks
  omega

/-- Finding: pixels are rounded down, not to the nearest step: a value of 254.9 / 255 becomes 254. -/
theorem C106_rounds_down : toPixel id (2549 / 2550) = 254 ∧ (∀ rout, rout = f32 → toPixel rout (2549 / 2550) = 254) := by
  refine ⟨by decide +kernel, ?_⟩
  rintro _ rfl
  decide +kernel

/-- the rounding of the model is that of a binary floating-point type: of the numbers with `p` significant bits (an integer between `2 ^ (p - 1)` and `2 ^ p`
times the unit), one at most half a unit away -/
theorem C106_rounding (p : Nat) : ∀ (k fuel : Nat) (x : ℚ), k < fuel → 2 ^ (p - 1) ≤ x * 2 ^ k → x * 2 ^ k < 2 ^ p →
    ∃ m : ℤ, 2 ^ (p - 1) ≤ m ∧ m ≤ 2 ^ p ∧ roundBits p fuel x = m / 2 ^ k ∧ |roundBits p fuel x - x| ≤ 1 / 2 / 2 ^ k := by
  intro k
  induction k with
  | zero =>
    intro fuel x hf h1 h2
    obtain ⟨n, rfl⟩ : ∃ n, fuel = n + 1 := ⟨fuel - 1, by omega⟩
    rw [pow_zero, mul_one] at h1 h2
    have e : roundBits p (n + 1) x = (Quant.pyRound x : ℚ) := by
      rw [roundBits, if_neg (not_lt.2 h1), if_neg (not_le.2 h2)]
    refine ⟨Quant.pyRound x, le_pyRound (by push_cast; linarith), pyRound_le (by push_cast; linarith), by rw [e]; simp, ?_⟩
    rw [e]
    simpa using pyRound_err x
  | succ k ih =>
    intro fuel x hf h1 h2
    obtain ⟨n, rfl⟩ : ∃ n, fuel = n + 1 := ⟨fuel - 1, by omega⟩
    by_cases hx : x < 2 ^ (p - 1)
    · have e : roundBits p (n + 1) x = roundBits p n (2 * x) / 2 := by rw [roundBits, if_pos hx]
      have h3 : 2 * x * 2 ^ k = x * 2 ^ (k + 1) := by ring
      obtain ⟨m, m1, m2, m3, m4⟩ := ih n (2 * x) (by omega) (by rw [h3]; exact h1) (by rw [h3]; exact h2)
      refine ⟨m, m1, m2, by rw [e, m3, pow_succ]; field_simp, ?_⟩
      rw [e, show roundBits p n (2 * x) / 2 - x = (roundBits p n (2 * x) - 2 * x) / 2 by ring, abs_div, abs_of_pos (by norm_num : (0 : ℚ) < 2), pow_succ,
        show (1 : ℚ) / 2 / (2 ^ k * 2) = 1 / 2 / 2 ^ k / 2 by field_simp]
      exact div_le_div_of_nonneg_right m4 (by norm_num)
    · exfalso
      have hx : 2 ^ (p - 1) ≤ x := not_lt.1 hx
      have hp : (2 : ℚ) ^ p ≤ 2 ^ (p - 1) * 2 := by
        cases p with
        | zero => norm_num
        | succ p => rw [pow_succ]; simp
      have hk : (2 : ℚ) ≤ 2 ^ (k + 1) := by
        calc (2 : ℚ) = 2 ^ 1 := by norm_num
          _ ≤ 2 ^ (k + 1) := pow_le_pow_right₀ (by norm_num) (by omega)
      have h0 : (0 : ℚ) < 2 ^ (p - 1) := by positivity
      nlinarith

/-- ...for numbers that need scaling down likewise -/
theorem C106_rounding_large (p : Nat) : ∀ (k fuel : Nat) (x : ℚ), k < fuel → 2 ^ (p - 1) * 2 ^ k ≤ x → x < 2 ^ p * 2 ^ k →
    ∃ m : ℤ, 2 ^ (p - 1) ≤ m ∧ m ≤ 2 ^ p ∧ roundBits p fuel x = m * 2 ^ k ∧ |roundBits p fuel x - x| ≤ 1 / 2 * 2 ^ k := by
  intro k
  induction k with
  | zero =>
    intro fuel x hf h1 h2
    have := C106_rounding p 0 fuel x hf (by simpa using h1) (by simpa using h2)
    simpa using this
  | succ k ih =>
    intro fuel x hf h1 h2
    obtain ⟨n, rfl⟩ : ∃ n, fuel = n + 1 := ⟨fuel - 1, by omega⟩
    have hk : (1 : ℚ) ≤ 2 ^ k := one_le_pow₀ (by norm_num)
    have h0 : (0 : ℚ) < 2 ^ (p - 1) := by positivity
    have hp : (2 : ℚ) ^ p ≤ 2 ^ (p - 1) * 2 := by
      cases p with
      | zero => norm_num
      | succ p => rw [pow_succ]; simp
    rw [pow_succ] at h1 h2
    have a1 : ¬ x < 2 ^ (p - 1) := by nlinarith
    have a2 : 2 ^ p ≤ x := by nlinarith
    have e : roundBits p (n + 1) x = roundBits p n (x / 2) * 2 := by rw [roundBits, if_neg a1, if_pos a2]
    obtain ⟨m, m1, m2, m3, m4⟩ := ih n (x / 2) (by omega) (by linarith) (by linarith)
    refine ⟨m, m1, m2, by rw [e, m3, pow_succ]; ring, ?_⟩
    rw [e, show roundBits p n (x / 2) * 2 - x = (roundBits p n (x / 2) - x / 2) * 2 by ring, abs_mul, abs_of_pos (by norm_num : (0 : ℚ) < 2), pow_succ]
    linarith

/-! ### A concrete case -/

example : (2 : ℚ) ^ 23 ≤ 1 / 255 * 2 ^ 31 ∧ (1 / 255 : ℚ) * 2 ^ 31 < 2 ^ 24 ∧ (2 : ℚ) ^ 10 * 2 ^ 2 ≤ 5000 ∧ (5000 : ℚ) < 2 ^ 11 * 2 ^ 2 := by norm_num

private def small : Img Nat := { h := 5, w := 2, px := fun y x c => 40 * y + 10 * x + c }

example : Rgb small := by
  refine ⟨by decide, by decide, ?_⟩
  intro y x c hy hx hc
  have hy : y < 5 := hy
  have hx : x < 2 := hx
  show 40 * y + 10 * x + c < 256
  omega
example : (padImage small).h = 8 ∧ (padImage small).w = 4 ∧ (List.range 8).map (fun y => (padImage small).px y 0 0) = [0, 40, 80, 120, 160, 120, 80, 40] ∧
    (List.range 4).map (fun x => (padImage small).px 0 x 0) = [0, 10, 0, 10] := by decide
example : Local 2 0 (fun t => .ok (blocks 2 t)) ∧ Enlarges 2 (fun t => .ok (blocks 2 t)) := by
  refine ⟨?_, ?_⟩
  · intro a b u v hu hv y x c hc h
    cases hu; cases hv
    exact h.2.2.2.2 _ _ _ (Nat.le_refl _) (Nat.le_refl _) hc
  · intro t u h
    cases h
    exact ⟨rfl, rfl⟩
example : ∀ t : Img ℚ, ∃ u, (fun t => (Except.ok (blocks 2 t) : Except PyErr (Img ℚ))) t = .ok u ∧ Same u (blocks 2 t) := fun _ => ⟨_, rfl, rfl, rfl, fun _ _ _ _ _ _ => rfl⟩

end OnnxTool.Props
