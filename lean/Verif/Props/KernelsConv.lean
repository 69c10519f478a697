import Verif.Proofs.KernelsConv
import Verif.Props.Kernels
import Mathlib.Data.Rat.Defs
import Mathlib.Algebra.Field.Rat
import Mathlib.Tactic.NormNum
import Mathlib.Algebra.Order.Field.Rat
/-!
# C63: Conv and pooling kernels compute what ONNX says
-/
namespace OnnxTool.Props
open OnnxTool OnnxTool.Torch OnnxTool.Kernels OnnxTool.Conv

section
variable {F : Type}

/-- What the Conv kernel does with `pads = [top, left, bottom, right]`: it convolves with `top` above and below and with `bottom` on the left and on
the right.  `left` and `right` are never read. -/
theorem C63_conv_actual [CommSemiring F] {n c h wd m cg kh kw g : Nat} {s d : Nat × Nat} (p : Pads) {x w : Tensor F} (b : Option (Tensor F))
    (hx : x.shape = [n, c, h, wd]) (hw : w.shape = [m, cg, kh, kw]) (hg : 0 < g) (hc : c = cg * g) (hm : m % g = 0) (hs1 : 0 < s.1) (hs2 : 0 < s.2)
    (hk1 : 0 < kh) (hk2 : 0 < kw) (hf1 : extent kh d.1 ≤ h + p.top + p.top) (hf2 : extent kw d.2 ≤ wd + p.bottom + p.bottom) :
    ∃ y, convKernel s d p.list g x w b [n, m, windows (h + p.top + p.top) (extent kh d.1) s.1, windows (wd + p.bottom + p.bottom) (extent kw d.2) s.2] = .ok y ∧
      IsConv n c h wd m cg kh kw s d ⟨p.top, p.bottom, p.top, p.bottom⟩ g x w b y := by
  obtain ⟨r, hr, hi⟩ := conv2d_ok (s := s) (d := d) (ph := p.top) (pw := p.bottom) b hx hw hg hc hm hs1 hs2 hk1 hk2 hf1 hf2
  unfold convKernel
  rw [show convPads p.list = (p.top, p.bottom) from rfl, hr]
  obtain ⟨y, hy, hs⟩ := copyTo_same r hi.shape
  exact ⟨y, hy, conv_same hi hs⟩

/-- so Conv is right when all four pads are equal, for every group count, stride and dilation -/
theorem C63_conv_partial [CommSemiring F] {n c h wd m cg kh kw g : Nat} {s d : Nat × Nat} (q : Nat) {x w : Tensor F} (b : Option (Tensor F))
    (hx : x.shape = [n, c, h, wd]) (hw : w.shape = [m, cg, kh, kw]) (hg : 0 < g) (hc : c = cg * g) (hm : m % g = 0) (hs1 : 0 < s.1) (hs2 : 0 < s.2)
    (hk1 : 0 < kh) (hk2 : 0 < kw) (hf1 : extent kh d.1 ≤ h + q + q) (hf2 : extent kw d.2 ≤ wd + q + q) :
    ∃ y, convKernel s d (Pads.list ⟨q, q, q, q⟩) g x w b [n, m, windows (h + q + q) (extent kh d.1) s.1, windows (wd + q + q) (extent kw d.2) s.2] = .ok y ∧
      IsConv n c h wd m cg kh kw s d ⟨q, q, q, q⟩ g x w b y :=
  C63_conv_actual ⟨q, q, q, q⟩ b hx hw hg hc hm hs1 hs2 hk1 hk2 hf1 hf2

/-- MaxPool is right when all four pads are equal (and at most half a window, as torch asks); no dilations, no ceil_mode. -/
theorem C63_maxpool_partial [LinearOrder F] {n c h wd : Nat} {k s : Nat × Nat} (q : Nat) {x : Tensor F} (hx : x.shape = [n, c, h, wd])
    (hc : 0 < c) (hh : 0 < h) (hw : 0 < wd) (hs1 : 0 < s.1) (hs2 : 0 < s.2)
    (hk1 : 0 < k.1) (hk2 : 0 < k.2) (hp1 : 2 * q ≤ k.1) (hp2 : 2 * q ≤ k.2) (hf1 : k.1 ≤ h + q + q) (hf2 : k.2 ≤ wd + q + q) :
    ∃ y, maxPoolKernel k s (Pads.list ⟨q, q, q, q⟩) x [n, c, windows (h + q + q) k.1 s.1, windows (wd + q + q) k.2 s.2] = .ok y ∧
      IsMaxPool n c h wd k s ⟨q, q, q, q⟩ x y := by
  obtain ⟨r, hr, hi⟩ := maxPool2d_ok (k := k) (s := s) (ph := q) (pw := q) hx hc hh hw hs1 hs2 hk1 hk2 hp1 hp2 hf1 hf2
  unfold maxPoolKernel
  rw [show poolPads (Pads.list ⟨q, q, q, q⟩) = (q, q) from rfl, hr]
  obtain ⟨y, hy, hs⟩ := copyTo_same r hi.shape
  exact ⟨y, hy, maxPool_same hi hs⟩

/-- AveragePool with four equal pads divides by the window size: right exactly for models that set `count_include_pad`. -/
theorem C63_avgpool_actual [Field F] {n c h wd : Nat} {k s : Nat × Nat} (q : Nat) {x : Tensor F} (hx : x.shape = [n, c, h, wd])
    (hc : 0 < c) (hh : 0 < h) (hw : 0 < wd) (hs1 : 0 < s.1) (hs2 : 0 < s.2)
    (hk1 : 0 < k.1) (hk2 : 0 < k.2) (hp1 : 2 * q ≤ k.1) (hp2 : 2 * q ≤ k.2) (hf1 : k.1 ≤ h + q + q) (hf2 : k.2 ≤ wd + q + q) :
    ∃ y, avgPoolKernel k s (Pads.list ⟨q, q, q, q⟩) x [n, c, windows (h + q + q) k.1 s.1, windows (wd + q + q) k.2 s.2] = .ok y ∧
      IsAvgPool true n c h wd k s ⟨q, q, q, q⟩ x y := by
  obtain ⟨r, hr, hi⟩ := avgPool2d_ok (k := k) (s := s) (ph := q) (pw := q) hx hc hh hw hs1 hs2 hk1 hk2 hp1 hp2 hf1 hf2
  unfold avgPoolKernel
  rw [show poolPads (Pads.list ⟨q, q, q, q⟩) = (q, q) from rfl, hr]
  obtain ⟨y, hy, hs⟩ := copyTo_same r hi.shape
  exact ⟨y, hy, avgPool_same hi hs⟩

/-- AveragePool without padding is right for the default attributes. -/
theorem C63_avgpool_partial [Field F] {n c h wd : Nat} {k s : Nat × Nat} {x : Tensor F} (hx : x.shape = [n, c, h, wd])
    (hc : 0 < c) (hh : 0 < h) (hw : 0 < wd) (hs1 : 0 < s.1) (hs2 : 0 < s.2)
    (hk1 : 0 < k.1) (hk2 : 0 < k.2) (hf1 : k.1 ≤ h) (hf2 : k.2 ≤ wd) :
    ∃ y, avgPoolKernel k s (Pads.list ⟨0, 0, 0, 0⟩) x [n, c, windows h k.1 s.1, windows wd k.2 s.2] = .ok y ∧
      IsAvgPool false n c h wd k s ⟨0, 0, 0, 0⟩ x y := by
  obtain ⟨y, hy, hi⟩ := C63_avgpool_actual (k := k) (s := s) 0 hx hc hh hw hs1 hs2 hk1 hk2 (by omega) (by omega) (by omega) (by omega)
  exact ⟨y, hy, avgPool_nopad hs1 hs2 hi⟩
end

/-! ### Falsified: unequal pads are misread, padding is counted -/

/-- 1x3 kernel of ones over a 3x3 image with one column of padding on the left and on the right: the ONNX result has rows `[3, 6, 5]`; the kernel
convolves without padding, gets one column, and the copy repeats it: `[6, 6, 6]`, silently. -/
theorem C63_conv_counterexample :
    (convKernel (1, 1) (1, 1) (Pads.list ⟨0, 1, 0, 1⟩) 1 (ofFlat [1, 1, 3, 3] [1, 2, 3, 1, 2, 3, 1, 2, 3]) (ofFlat [1, 1, 1, 3] [1, 1, 1]) none
      [1, 1, 3, 3]).toOption.map (·.flat) = some [6, 6, 6, 6, 6, 6, 6, 6, 6] ∧
    (∃ xp, Padded ⟨0, 1, 0, 1⟩ 0 (ofFlat [1, 1, 3, 3] [1, 2, 3, 1, 2, 3, 1, 2, 3]) xp) ∧
    ∀ y, convKernel (1, 1) (1, 1) (Pads.list ⟨0, 1, 0, 1⟩) 1 (ofFlat [1, 1, 3, 3] [1, 2, 3, 1, 2, 3, 1, 2, 3]) (ofFlat [1, 1, 1, 3] [1, 1, 1]) none
      [1, 1, 3, 3] = .ok y →
      ¬ IsConv 1 1 3 3 1 1 1 3 (1, 1) (1, 1) ⟨0, 1, 0, 1⟩ 1 (ofFlat [1, 1, 3, 3] [1, 2, 3, 1, 2, 3, 1, 2, 3]) (ofFlat [1, 1, 1, 3] [1, 1, 1]) none y := by
  -- the padded image: what the Pad kernel makes of exchanged pads
  have hpad : ∃ xp, Padded ⟨0, 1, 0, 1⟩ 0 (ofFlat [1, 1, 3, 3] [1, 2, 3, 1, 2, 3, 1, 2, 3]) xp := by
    obtain ⟨xp, _, h⟩ := C61_pad_exchanged [0, 0, 0, 1] [0, 0, 0, 1] (0 : Int) (ofFlat [1, 1, 3, 3] [1, 2, 3, 1, 2, 3, 1, 2, 3]) [1, 1, 3, 5] rfl rfl rfl (by decide)
    exact ⟨xp, h⟩
  have hflat : (convKernel (1, 1) (1, 1) (Pads.list ⟨0, 1, 0, 1⟩) 1 (ofFlat [1, 1, 3, 3] [1, 2, 3, 1, 2, 3, 1, 2, 3]) (ofFlat [1, 1, 1, 3] [1, 1, 1]) none
      [1, 1, 3, 3]).toOption.map (fun t => (t.flat, t.at [0, 0, 0, 0])) = some ([6, 6, 6, 6, 6, 6, 6, 6, 6], 6) := by decide
  refine ⟨?_, hpad, fun y hy h => ?_⟩
  · cases hk : convKernel (1, 1) (1, 1) (Pads.list ⟨0, 1, 0, 1⟩) 1 (ofFlat [1, 1, 3, 3] [1, 2, 3, 1, 2, 3, 1, 2, 3]) (ofFlat [1, 1, 1, 3] [1, 1, 1]) none
      [1, 1, 3, 3] with
    | error e => rw [hk] at hflat; cases hflat
    | ok t =>
      rw [hk] at hflat
      simp only [Except.toOption, Option.map_some, Option.some.injEq, Prod.mk.injEq] at hflat ⊢
      exact hflat.1
  · obtain ⟨xp, hxp⟩ := hpad
    rw [hy] at hflat
    simp only [Except.toOption, Option.map_some, Option.some.injEq, Prod.mk.injEq] at hflat
    have hv := h.value xp hxp 0 0 0 0 (by decide) (by decide) (by decide) (by decide)
    have hsh := padded_shape (n := 1) (c := 1) (h := 3) (wd := 3) rfl hxp
    have r0 : xp.at [0, 0, 0, 0] = 0 := hxp.outside [0, 0, 0, 0] (by rw [hsh]; decide) ⟨3, by decide, by decide⟩
    have r1 : xp.at [0, 0, 0, 1] = 1 := hxp.inside [0, 0, 0, 1] [0, 0, 0, 0] (by rw [hsh]; decide) (by decide) (by decide)
    have r2 : xp.at [0, 0, 0, 2] = 2 := hxp.inside [0, 0, 0, 2] [0, 0, 0, 1] (by rw [hsh]; decide) (by decide) (by decide)
    rw [hflat.2] at hv
    simp [Finset.sum_range_succ, r0, r1, r2, ofFlat, ravel, numel] at hv

/-- a 2x2 image of ones -/
def onesImage : Tensor ℚ := ⟨[1, 1, 2, 2], fun _ => 1⟩

/-- 3x3 average with padding 1 of an image of ones: ONNX by default gives ones; the kernel divides the four ones by nine. -/
theorem C63_avgpool_counterexample :
    ∃ y, avgPoolKernel (3, 3) (1, 1) (Pads.list ⟨1, 1, 1, 1⟩) onesImage [1, 1, 2, 2] = .ok y ∧ y.at [0, 0, 0, 0] = 4 / 9 ∧
      ¬ IsAvgPool false 1 1 2 2 (3, 3) (1, 1) ⟨1, 1, 1, 1⟩ onesImage y := by
  obtain ⟨y, hy, hi⟩ := C63_avgpool_actual (n := 1) (c := 1) (h := 2) (wd := 2) (k := (3, 3)) (s := (1, 1)) 1 (x := onesImage) rfl
    (by decide) (by decide) (by decide) (by decide) (by decide) (by decide) (by decide) (by decide) (by decide) (by decide) (by decide)
  have hw : windowSet 2 3 1 1 0 = {0, 1} := by decide
  have hv := hi.value 0 0 0 0 (by decide) (by decide) (by decide) (by decide)
  simp only [hw, onesImage] at hv
  norm_num at hv
  refine ⟨y, hy, hv, fun h => ?_⟩
  have hv2 := h.value 0 0 0 0 (by decide) (by decide) (by decide) (by decide)
  simp only [hw, onesImage] at hv2
  rw [hv] at hv2
  norm_num at hv2

/-! ### Cases that meet the hypotheses -/

/-- two groups, stride 2, padding 1: hypotheses of `C63_conv_partial` -/
example (x w : Tensor ℤ) (hx : x.shape = [1, 4, 5, 5]) (hw : w.shape = [6, 2, 3, 3]) :
    ∃ y, convKernel (2, 2) (1, 1) (Pads.list ⟨1, 1, 1, 1⟩) 2 x w none [1, 6, 3, 3] = .ok y ∧ IsConv 1 4 5 5 6 2 3 3 (2, 2) (1, 1) ⟨1, 1, 1, 1⟩ 2 x w none y :=
  C63_conv_partial (s := (2, 2)) (d := (1, 1)) 1 none hx hw (by decide) (by decide) (by decide) (by decide) (by decide) (by decide) (by decide) (by decide)
    (by decide)

example : (convKernel (1, 1) (1, 1) (Pads.list ⟨1, 1, 1, 1⟩) 1 (ofFlat [1, 1, 2, 2] [1, 2, 3, 4]) (ofFlat [1, 1, 3, 3] [1, 0, 0, 0, 1, 0, 0, 0, 0])
    (some (ofFlat [1] [10])) [1, 1, 2, 2]).toOption.map (·.flat) = some [11, 12, 13, 15] := by decide

example : (maxPoolKernel (2, 2) (2, 2) [1, 1, 1, 1] (ofFlat [1, 1, 2, 2] [1, 2, 3, 4]) [1, 1, 2, 2]).toOption.map (·.flat) = some [1, 2, 3, 4] := by decide

example : (maxPoolKernel (2, 2) (1, 1) [0, 0, 0, 0] (ofFlat [1, 1, 3, 3] [1, 2, 3, 9, 5, 6, 7, 8, 4]) [1, 1, 2, 2]).toOption.map (·.flat) = some [9, 6, 9, 8] := by
  decide

end OnnxTool.Props
