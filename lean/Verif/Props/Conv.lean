import Verif.Proofs.Conv
/-!
# C21, C22: convolution, pooling, transposed convolution, auto padding
-/
namespace OnnxTool.Props
open OnnxTool Conv

private theorem idx_map {l : List Nat} {i v : Nat} (h : l[i]? = some v) : idx (l.map Int.ofNat) i = .ok (v : Int) := by
  unfold idx
  rw [List.getElem?_map, h]
  rfl

/-- The spatial result predicted by counting: axis `i` of `d` is padded by `pads[i]` at its begin and `pads[i+d]` at its
end. -/
def countedSizes (d : Nat) (xs ks pads strides dils : List Nat) : List Nat :=
  (List.range d).map fun i =>
    windows (xs.getD i 0 + (pads.getD i 0 + pads.getD (i + d) 0)) (extent (ks.getD i 0) (dils.getD i 0)) (strides.getD i 0)

/-- kernel non-empty, positive stride, kernel fits into the padded input -/
def FitsAll (d : Nat) (xs ks pads strides dils : List Nat) : Prop :=
  ∀ i, i < d → 0 < strides.getD i 0 ∧ 0 < ks.getD i 0 ∧
    extent (ks.getD i 0) (dils.getD i 0) ≤ xs.getD i 0 + (pads.getD i 0 + pads.getD (i + d) 0)

private theorem convAxis_eq {a : Attrs} {x w : List Int} {i b e : Nat} {xv pb pe k s dl : Nat}
    (h1 : idx x (i + 2) = .ok (xv : Int)) (h2 : idx a.pads b = .ok (pb : Int)) (h3 : idx a.pads e = .ok (pe : Int))
    (h4 : idx w (i + 2) = .ok (k : Int)) (h5 : idx a.strides i = .ok (s : Int)) (h6 : idx a.dilations i = .ok (dl : Int))
    (hs : 0 < s) (hk : 0 < k) (hf : extent k dl ≤ xv + (pb + pe)) :
    convAxis a x w i b e = .ok (windows (xv + (pb + pe)) (extent k dl) s : Int) := by
  unfold convAxis
  rw [h1, h2, h3, h4, h5, h6]
  show convOut _ _ _ _ _ = _
  rw [← Int.natCast_add]
  exact convOut_eq hs hk hf

private theorem poolAxis_eq {a : Attrs} {x : List Int} {i b e di : Nat} {xv pb pe k s dl : Nat}
    (h1 : idx x (i + 2) = .ok (xv : Int)) (h2 : idx a.pads b = .ok (pb : Int)) (h3 : idx a.pads e = .ok (pe : Int))
    (h4 : idx a.kernel i = .ok (k : Int)) (h5 : idx a.strides i = .ok (s : Int)) (h6 : idx a.dilations di = .ok (dl : Int))
    (hs : 0 < s) (hk : 0 < k) (hf : extent k dl ≤ xv + (pb + pe)) :
    poolAxis a x i b e di = .ok (((windows (xv + (pb + pe)) (extent k dl) s +
      if a.ceilMode = true ∧ (xv + (pb + pe) - extent k dl) % s ≠ 0 then 1 else 0 : Nat)) : Int) := by
  unfold poolAxis
  rw [h1, h2, h3, h4, h5, h6]
  show poolOut _ _ _ _ _ _ = _
  rw [← Int.natCast_add]
  obtain ⟨e1, e2⟩ := poolOut_eq (dil := dl) hs hk hf
  cases hc : a.ceilMode
  · rw [e1]; simp
  · rw [e2]
    by_cases h : (xv + (pb + pe) - extent k dl) % s = 0 <;> simp [h]

/-- **C21, Conv.** For 1, 2 or 3 spatial dimensions and all sizes, kernels, strides, dilations and paddings with the kernel
fitting, the inferred Conv shape is `[batch, filters]` followed by the number of window positions of every axis. -/
theorem C21_conv (d : Nat) (hd : d = 1 ∨ d = 2 ∨ d = 3) (n c m cg : Nat) (xs ks pads strides dils : List Nat)
    (hx : xs.length = d) (hk : ks.length = d) (hp : pads.length = 2 * d) (hs : strides.length = d) (hl : dils.length = d)
    (hfit : FitsAll d xs ks pads strides dils) :
    convShape { pads := pads.map Int.ofNat, strides := strides.map Int.ofNat, dilations := dils.map Int.ofNat }
      ((n :: c :: xs).map Int.ofNat) ((m :: cg :: ks).map Int.ofNat) =
    .ok ((n :: m :: countedSizes d xs ks pads strides dils).map Int.ofNat) := by
  rcases hd with rfl | rfl | rfl
  · match xs, hx, ks, hk, pads, hp, strides, hs, dils, hl with
    | [x0], _, [k0], _, [p0, p1], _, [s0], _, [d0], _ =>
      obtain ⟨a1, a2, a3⟩ := hfit 0 (by omega)
      have h0 := convAxis_eq (a := { pads := [p0, p1].map Int.ofNat, strides := [s0].map Int.ofNat, dilations := [d0].map Int.ofNat })
        (x := [n, c, x0].map Int.ofNat) (w := [m, cg, k0].map Int.ofNat) (i := 0) (b := 0) (e := 1)
        rfl rfl rfl rfl rfl rfl a1 a2 a3
      simp only [convShape, List.length_map, List.length_cons, List.length_nil, h0]
      rfl
  · match xs, hx, ks, hk, pads, hp, strides, hs, dils, hl with
    | [x0, x1], _, [k0, k1], _, [p0, p1, p2, p3], _, [s0, s1], _, [d0, d1], _ =>
      obtain ⟨a1, a2, a3⟩ := hfit 0 (by omega)
      obtain ⟨b1, b2, b3⟩ := hfit 1 (by omega)
      have h0 := convAxis_eq (a := { pads := [p0, p1, p2, p3].map Int.ofNat, strides := [s0, s1].map Int.ofNat, dilations := [d0, d1].map Int.ofNat })
        (x := [n, c, x0, x1].map Int.ofNat) (w := [m, cg, k0, k1].map Int.ofNat) (i := 0) (b := 0) (e := 2)
        rfl rfl rfl rfl rfl rfl a1 a2 a3
      have h1 := convAxis_eq (a := { pads := [p0, p1, p2, p3].map Int.ofNat, strides := [s0, s1].map Int.ofNat, dilations := [d0, d1].map Int.ofNat })
        (x := [n, c, x0, x1].map Int.ofNat) (w := [m, cg, k0, k1].map Int.ofNat) (i := 1) (b := 1) (e := 3)
        rfl rfl rfl rfl rfl rfl b1 b2 b3
      simp only [convShape, List.length_map, List.length_cons, List.length_nil, h0, h1]
      rfl
  · match xs, hx, ks, hk, pads, hp, strides, hs, dils, hl with
    | [x0, x1, x2], _, [k0, k1, k2], _, [p0, p1, p2, p3, p4, p5], _, [s0, s1, s2], _, [d0, d1, d2], _ =>
      obtain ⟨a1, a2, a3⟩ := hfit 0 (by omega)
      obtain ⟨b1, b2, b3⟩ := hfit 1 (by omega)
      obtain ⟨c1, c2, c3⟩ := hfit 2 (by omega)
      have h0 := convAxis_eq (a := { pads := [p0, p1, p2, p3, p4, p5].map Int.ofNat, strides := [s0, s1, s2].map Int.ofNat, dilations := [d0, d1, d2].map Int.ofNat })
        (x := [n, c, x0, x1, x2].map Int.ofNat) (w := [m, cg, k0, k1, k2].map Int.ofNat) (i := 0) (b := 0) (e := 3)
        rfl rfl rfl rfl rfl rfl a1 a2 a3
      have h1 := convAxis_eq (a := { pads := [p0, p1, p2, p3, p4, p5].map Int.ofNat, strides := [s0, s1, s2].map Int.ofNat, dilations := [d0, d1, d2].map Int.ofNat })
        (x := [n, c, x0, x1, x2].map Int.ofNat) (w := [m, cg, k0, k1, k2].map Int.ofNat) (i := 1) (b := 1) (e := 4)
        rfl rfl rfl rfl rfl rfl b1 b2 b3
      have h2 := convAxis_eq (a := { pads := [p0, p1, p2, p3, p4, p5].map Int.ofNat, strides := [s0, s1, s2].map Int.ofNat, dilations := [d0, d1, d2].map Int.ofNat })
        (x := [n, c, x0, x1, x2].map Int.ofNat) (w := [m, cg, k0, k1, k2].map Int.ofNat) (i := 2) (b := 2) (e := 5)
        rfl rfl rfl rfl rfl rfl c1 c2 c3
      simp only [convShape, List.length_map, List.length_cons, List.length_nil, h0, h1, h2]
      rfl

example : FitsAll 2 [224, 224] [7, 7] [3, 3, 3, 3] [2, 2] [1, 1] ∧
    countedSizes 2 [224, 224] [7, 7] [3, 3, 3, 3] [2, 2] [1, 1] = [112, 112] := by
  refine ⟨?_, ?_⟩
  · intro i hi
    rcases i with _ | _ | i
    · decide
    · decide
    · omega
  · show [windows 230 7 2, windows 230 7 2] = _
    rw [windows_eq (by omega)]; rfl

/-- extra position of ceil mode -/
def ceilExtra (ceil : Bool) (d : Nat) (xs ks pads strides dils : List Nat) (i : Nat) : Nat :=
  if ceil = true ∧ (xs.getD i 0 + (pads.getD i 0 + pads.getD (i + d) 0) - extent (ks.getD i 0) (dils.getD i 0)) %
    strides.getD i 0 ≠ 0 then 1 else 0

/-- **C21, pooling (partial).** For 1 or 2 spatial dimensions: the number of window positions, plus one in ceil mode exactly
when a partial window remains.  Missing: 3 spatial dimensions, see `C21_pool3d_wrong`. -/
theorem C21_pool_partial (d : Nat) (hd : d = 1 ∨ d = 2) (n c : Nat) (xs ks pads strides dils : List Nat) (ceil : Bool)
    (hx : xs.length = d) (hk : ks.length = d) (hp : pads.length = 2 * d) (hs : strides.length = d) (hl : dils.length = d)
    (hfit : FitsAll d xs ks pads strides dils) :
    poolShape { pads := pads.map Int.ofNat, strides := strides.map Int.ofNat, dilations := dils.map Int.ofNat,
                kernel := ks.map Int.ofNat, ceilMode := ceil } ((n :: c :: xs).map Int.ofNat) =
    .ok ((n :: c :: (List.range d).map (fun i => (countedSizes d xs ks pads strides dils).getD i 0 +
      ceilExtra ceil d xs ks pads strides dils i)).map Int.ofNat) := by
  rcases hd with rfl | rfl
  · match xs, hx, ks, hk, pads, hp, strides, hs, dils, hl with
    | [x0], _, [k0], _, [p0, p1], _, [s0], _, [d0], _ =>
      obtain ⟨a1, a2, a3⟩ := hfit 0 (by omega)
      have h0 := poolAxis_eq (a := { pads := [p0, p1].map Int.ofNat, strides := [s0].map Int.ofNat, dilations := [d0].map Int.ofNat, kernel := [k0].map Int.ofNat, ceilMode := ceil })
        (x := [n, c, x0].map Int.ofNat) (i := 0) (b := 0) (e := 1) (di := 0)
        rfl rfl rfl rfl rfl rfl a1 a2 a3
      simp only [poolShape, List.length_map, List.length_cons, List.length_nil, h0]
      rfl
  · match xs, hx, ks, hk, pads, hp, strides, hs, dils, hl with
    | [x0, x1], _, [k0, k1], _, [p0, p1, p2, p3], _, [s0, s1], _, [d0, d1], _ =>
      obtain ⟨a1, a2, a3⟩ := hfit 0 (by omega)
      obtain ⟨b1, b2, b3⟩ := hfit 1 (by omega)
      have h0 := poolAxis_eq (a := { pads := [p0, p1, p2, p3].map Int.ofNat, strides := [s0, s1].map Int.ofNat, dilations := [d0, d1].map Int.ofNat, kernel := [k0, k1].map Int.ofNat, ceilMode := ceil })
        (x := [n, c, x0, x1].map Int.ofNat) (i := 0) (b := 0) (e := 2) (di := 0)
        rfl rfl rfl rfl rfl rfl a1 a2 a3
      have h1 := poolAxis_eq (a := { pads := [p0, p1, p2, p3].map Int.ofNat, strides := [s0, s1].map Int.ofNat, dilations := [d0, d1].map Int.ofNat, kernel := [k0, k1].map Int.ofNat, ceilMode := ceil })
        (x := [n, c, x0, x1].map Int.ofNat) (i := 1) (b := 1) (e := 3) (di := 1)
        rfl rfl rfl rfl rfl rfl b1 b2 b3
      simp only [poolShape, List.length_map, List.length_cons, List.length_nil, h0, h1]
      rfl

example : FitsAll 2 [8, 8] [3, 3] [0, 0, 0, 0] [2, 2] [1, 1] ∧
    poolShape { pads := [0, 0, 0, 0], strides := [2, 2], dilations := [1, 1], kernel := [3, 3], ceilMode := true }
      [1, 16, 8, 8] = .ok [1, 16, 4, 4] ∧
    poolShape { pads := [0, 0, 0, 0], strides := [2, 2], dilations := [1, 1], kernel := [3, 3], ceilMode := false }
      [1, 16, 8, 8] = .ok [1, 16, 3, 3] := by
  refine ⟨?_, rfl, rfl⟩
  intro i hi
  rcases i with _ | _ | i
  · decide
  · decide
  · omega

/-- **C21 finding**: 3-D pooling adds the begin padding twice and uses the second dilation for the third axis: with
pads `(0,0,0,2,2,2)` the end padding is ignored, with dilations `(1,1,3)` the third axis is wrong. -/
theorem C21_pool3d_wrong :
    poolShape { pads := [0, 0, 0, 2, 2, 2], strides := [1, 1, 1], dilations := [1, 1, 1], kernel := [3, 3, 3] }
      [1, 1, 8, 8, 8] = .ok [1, 1, 6, 6, 6] ∧
    countedSizes 3 [8, 8, 8] [3, 3, 3] [0, 0, 0, 2, 2, 2] [1, 1, 1] [1, 1, 1] = [8, 8, 8] ∧
    poolShape { pads := [0, 0, 0, 0, 0, 0], strides := [1, 1, 1], dilations := [1, 1, 3], kernel := [3, 3, 3] }
      [1, 1, 8, 8, 8] = .ok [1, 1, 6, 6, 6] ∧
    countedSizes 3 [8, 8, 8] [3, 3, 3] [0, 0, 0, 0, 0, 0] [1, 1, 1] [1, 1, 3] = [6, 6, 2] := by
  refine ⟨rfl, ?_, rfl, ?_⟩
  · show [windows 10 3 1, windows 10 3 1, windows 10 3 1] = _
    rw [windows_eq (by omega)]; rfl
  · show [windows 8 3 1, windows 8 3 1, windows 8 7 1] = _
    rw [windows_eq (by omega), windows_eq (by omega)]; rfl

/-- **C21, kernel not fitting.** If the kernel is larger than the padded input, the inferred Conv size is never positive: 0 if
it misses by less than two strides, negative otherwise. -/
theorem C21_conv_not_fitting (x pad k stride dil : Nat) (hs : 0 < stride) (hk : 0 < k) (h : x + pad < extent k dil) :
    ∃ v : Int, convOut x pad k stride dil = .ok v ∧ v ≤ 0 ∧ (v = 0 ↔ extent k dil - (x + pad) < 2 * stride) := by
  unfold convOut
  rw [if_neg (by omega)]
  refine ⟨_, rfl, ?_⟩
  have e : ((x : Int) + pad - dil * ((k : Int) - 1) - 1 + stride) = (stride : Int) - ((extent k dil - (x + pad) : Nat) : Int) := by
    unfold extent at h ⊢
    have : (dil : Int) * ((k : Int) - 1) = ((dil * (k - 1) : Nat) : Int) := by
      rw [Int.natCast_mul, Int.natCast_sub hk]; rfl
    rw [this]
    generalize dil * (k - 1) = m at *
    omega
  rw [e]
  have hm : 0 < extent k dil - (x + pad) := by omega
  generalize extent k dil - (x + pad) = m at *
  rcases Nat.lt_or_ge m stride with h1 | h1
  · have : ((stride : Int) - (m : Int)).tdiv stride = 0 := by
      apply Int.tdiv_eq_zero_of_lt <;> omega
    rw [this]; omega
  · have e2 : (stride : Int) - (m : Int) = -((m - stride : Nat) : Int) := by omega
    rw [e2, Int.neg_tdiv]
    have e3 : ((m - stride : Nat) : Int).tdiv (stride : Int) = (((m - stride) / stride : Nat) : Int) := rfl
    rw [e3]
    have hd : (m - stride) / stride = 0 ↔ m - stride < stride := by
      rw [Nat.div_eq_zero_iff]; omega
    generalize (m - stride) / stride = q at *
    constructor
    · omega
    · constructor
      · intro hq
        have : q = 0 := by omega
        have := hd.mp this
        omega
      · intro hq
        have := hd.mpr (by omega)
        omega
example : convOut 2 0 5 1 1 = .ok (-2) := rfl

/-- **C21 finding**: 3-D convolutions with `auto_pad` lose two axes; a `VALID` convolution ignores dilations; a convolution
with 4 or more spatial axes gets the empty shape. -/
theorem C21_conv_auto_pad_3d :
    convShape { autoPad := some .same } [1, 3, 8, 8, 8] [4, 3, 3, 3, 3] = .ok [1, 4, 8] ∧
    convShape { autoPad := some .valid, dilations := [2, 2] } [1, 3, 8, 8] [4, 3, 3, 3] = .ok [1, 4, 6, 6] ∧
    countedSizes 2 [8, 8] [3, 3] [0, 0, 0, 0] [1, 1] [2, 2] = [4, 4] ∧
    convShape {} [1, 3, 8, 8, 8, 8] [4, 3, 3, 3, 3, 3] = .ok [] := by
  refine ⟨rfl, rfl, ?_, rfl⟩
  show [windows 8 5 1, windows 8 5 1] = _
  rw [windows_eq (by omega)]; rfl

/-- **C22, inversion.** Convolving an input of the inferred ConvTranspose size with the same kernel, stride, dilation and
padding gives back the original size, for every output padding below the stride. -/
theorem C22_conv_inverts_transpose (x outPad pad k stride dil : Int) (hx : 0 ≤ x) (h0 : 0 ≤ outPad) (h1 : outPad < stride) :
    convOut (convTransOut x outPad pad k stride dil) pad k stride dil = .ok x := by
  unfold convOut convTransOut
  rw [if_neg (by omega)]
  congr 1
  have e : stride * (x - 1) + outPad + ((k - 1) * dil + 1) - pad + pad - dil * (k - 1) - 1 + stride = x * stride + outPad := by
    rw [Int.mul_sub, Int.mul_comm dil (k - 1), Int.mul_comm stride x]
    omega
  have hxs : 0 ≤ x * stride := Int.mul_nonneg hx (by omega)
  rw [e, Int.tdiv_eq_ediv_of_nonneg (by omega)]
  refine ((Int.ediv_emod_unique (by omega : 0 < stride) (r := outPad)).mpr ⟨?_, h0, h1⟩).1
  rw [Int.mul_comm]; omega

/-- **C22, whole shapes.** The same for the complete inferred shapes, 1 to 3 spatial dimensions: `Conv` (without fixed
`output_shape`) applied to the shape inferred for `ConvTranspose` with the same attributes returns the original spatial
sizes. -/
theorem C22_conv_of_convtranspose_shape (a : Attrs) (d : Nat) (hd : d = 1 ∨ d = 2 ∨ d = 3) (n c m o : Int) (xs ks : List Int)
    (hx : xs.length = d) (hk : ks.length = d) (hp : a.pads.length = 2 * d) (hs : a.strides.length = d)
    (hl : a.dilations.length = d) (ho : a.outputPadding.length = d) (hpos : ∀ v ∈ xs, 0 ≤ v)
    (hop : ∀ i, i < d → 0 ≤ a.outputPadding.getD i 0 ∧ a.outputPadding.getD i 0 < a.strides.getD i 0)
    (hauto : a.autoPad = none) (hos : volumeInt a.outputShape = 0) :
    ∃ ys, convTransShape a (n :: c :: xs) (m :: o :: ks) = .ok (n :: a.group * o :: ys) ∧
      convShape a (n :: a.group * o :: ys) (m :: o :: ks) = .ok (n :: m :: xs) := by
  obtain ⟨ap, pads, strides, dils, kern, cm, grp, op, os⟩ := a
  simp only at hp hs hl ho hop hauto hos ⊢
  subst hauto
  rcases hd with rfl | rfl | rfl
  · match xs, hx, ks, hk, pads, hp, strides, hs, dils, hl, op, ho with
    | [x0], _, [k0], _, [p0, p1], _, [s0], _, [d0], _, [o0], _ =>
      obtain ⟨q1, q2⟩ := hop 0 (by omega)
      refine ⟨[convTransOut x0 o0 (p0 + p1) k0 s0 d0], ?_, ?_⟩
      · simp [convTransShape, convTransAxis, idx, bind, Except.bind, pure, Except.pure, hos]
      · simp [convShape, convAxis, idx, bind, Except.bind, pure, Except.pure,
          C22_conv_inverts_transpose x0 o0 (p0 + p1) k0 s0 d0 (hpos x0 (by simp)) q1 q2]
  · match xs, hx, ks, hk, pads, hp, strides, hs, dils, hl, op, ho with
    | [x0, x1], _, [k0, k1], _, [p0, p1, p2, p3], _, [s0, s1], _, [d0, d1], _, [o0, o1], _ =>
      obtain ⟨q1, q2⟩ := hop 0 (by omega)
      obtain ⟨r1, r2⟩ := hop 1 (by omega)
      refine ⟨[convTransOut x0 o0 (p0 + p2) k0 s0 d0, convTransOut x1 o1 (p1 + p3) k1 s1 d1], ?_, ?_⟩
      · simp [convTransShape, convTransAxis, idx, bind, Except.bind, pure, Except.pure, hos]
      · simp [convShape, convAxis, idx, bind, Except.bind, pure, Except.pure,
          C22_conv_inverts_transpose x0 o0 (p0 + p2) k0 s0 d0 (hpos x0 (by simp)) q1 q2,
          C22_conv_inverts_transpose x1 o1 (p1 + p3) k1 s1 d1 (hpos x1 (by simp)) r1 r2]
  · match xs, hx, ks, hk, pads, hp, strides, hs, dils, hl, op, ho with
    | [x0, x1, x2], _, [k0, k1, k2], _, [p0, p1, p2, p3, p4, p5], _, [s0, s1, s2], _, [d0, d1, d2], _, [o0, o1, o2], _ =>
      obtain ⟨q1, q2⟩ := hop 0 (by omega)
      obtain ⟨r1, r2⟩ := hop 1 (by omega)
      obtain ⟨t1, t2⟩ := hop 2 (by omega)
      refine ⟨[convTransOut x0 o0 (p0 + p3) k0 s0 d0, convTransOut x1 o1 (p1 + p4) k1 s1 d1,
        convTransOut x2 o2 (p2 + p5) k2 s2 d2], ?_, ?_⟩
      · simp [convTransShape, convTransAxis, idx, bind, Except.bind, pure, Except.pure, hos]
      · simp [convShape, convAxis, idx, bind, Except.bind, pure, Except.pure,
          C22_conv_inverts_transpose x0 o0 (p0 + p3) k0 s0 d0 (hpos x0 (by simp)) q1 q2,
          C22_conv_inverts_transpose x1 o1 (p1 + p4) k1 s1 d1 (hpos x1 (by simp)) r1 r2,
          C22_conv_inverts_transpose x2 o2 (p2 + p5) k2 s2 d2 (hpos x2 (by simp)) t1 t2]

example : convTransShape { pads := [1, 1, 1, 1], strides := [2, 2], dilations := [1, 1], outputPadding := [1, 1] }
      [1, 8, 14, 14] [8, 4, 3, 3] = .ok [1, 4, 28, 28] ∧
    convShape { pads := [1, 1, 1, 1], strides := [2, 2], dilations := [1, 1], outputPadding := [1, 1] }
      [1, 4, 28, 28] [8, 4, 3, 3] = .ok [1, 8, 14, 14] := ⟨rfl, rfl⟩

/-- **C22, VALID.** `auto_pad = VALID` gives the size of zero padding (dilation 1), whenever the kernel fits. -/
theorem C22_valid_is_zero_padding (x k stride : Nat) (hs : 0 < stride) (hk : 0 < k) (hfit : k ≤ x) :
    autoValid x k stride = convOut x 0 k stride 1 := by
  have h := convOut_eq (x := x) (pad := 0) (k := k) (stride := stride) (dil := 1) hs hk (by unfold extent; omega)
  have h' : convOut (x : Int) 0 (k : Int) (stride : Int) 1 = .ok (windows (x + 0) (extent k 1) stride : Int) := h
  rw [h']
  have he : extent k 1 = k := by unfold extent; omega
  rw [he, windows_eq hs, if_pos (by omega)]
  unfold autoValid ceilDiv
  rw [if_neg (by omega)]
  congr 1
  rw [Int.fdiv_eq_ediv_of_nonneg _ (by omega)]
  have hd := Nat.div_add_mod (x - k) stride
  have hlt := Nat.mod_lt (x - k) hs
  show -((-((x : Int) - k + 1)) / (stride : Int)) = (((x + 0 - k) / stride + 1 : Nat) : Int)
  rw [Nat.add_zero]
  generalize hq : (x - k) / stride = q at *
  generalize hr : (x - k) % stride = r at *
  have hxk : ((x : Int) - k) = stride * q + r := by
    have : ((x - k : Nat) : Int) = stride * q + r := by rw [← hd]; push_cast; rfl
    omega
  have : (-((x : Int) - k + 1)) / (stride : Int) = -((q : Int) + 1) := by
    refine ((Int.ediv_emod_unique (by omega : (0 : Int) < stride) (r := (stride : Int) - r - 1)).mpr ⟨?_, by omega, by omega⟩).1
    rw [hxk, Int.mul_neg, Int.mul_add]
    omega
  rw [this]
  push_cast
  omega

/-- **C22, SAME is the ceiling.** `auto_pad = SAME_*` gives the least size `n` with `n * stride ≥ x`. -/
theorem C22_same_is_ceil (x stride : Nat) (hs : 0 < stride) :
    ∃ n : Nat, autoSame x stride = .ok (n : Int) ∧ x ≤ n * stride ∧ ∀ m, x ≤ m * stride → n ≤ m := by
  refine ⟨(x + stride - 1) / stride, ?_, ?_, ?_⟩
  · unfold autoSame ceilDiv
    rw [if_neg (by omega)]
    congr 1
    rw [Int.fdiv_eq_ediv_of_nonneg _ (by omega)]
    have hd := Nat.div_add_mod (x + stride - 1) stride
    have hlt := Nat.mod_lt (x + stride - 1) hs
    generalize hq : (x + stride - 1) / stride = q at *
    generalize hr : (x + stride - 1) % stride = r at *
    have hxk : ((x : Int) + stride - 1) = stride * q + r := by
      have : ((x + stride - 1 : Nat) : Int) = stride * q + r := by rw [← hd]; push_cast; rfl
      omega
    have : (-(x : Int)) / (stride : Int) = -(q : Int) := by
      refine ((Int.ediv_emod_unique (by omega : (0 : Int) < stride) (r := (stride : Int) - r - 1)).mpr ⟨?_, by omega, by omega⟩).1
      rw [Int.mul_neg]
      omega
    rw [this]; omega
  · have hd := Nat.div_add_mod (x + stride - 1) stride
    have hlt := Nat.mod_lt (x + stride - 1) hs
    rw [Nat.mul_comm]
    omega
  · intro m hm
    have : (x + stride - 1) / stride < m + 1 := by
      rw [Nat.div_lt_iff_lt_mul hs, Nat.add_mul]
      omega
    omega

/-- **C22, SAME equals explicit padding.** The SAME size equals the size for explicit padding by the amount ONNX prescribes,
`max 0 ((n-1)*stride + extent - x)`. -/
theorem C22_same_is_explicit (x k stride dil n : Nat) (hs : 0 < stride) (hk : 0 < k) (hx : 0 < x)
    (hn : autoSame x stride = .ok (n : Int)) :
    convOut x ((n - 1) * stride + extent k dil - x : Nat) k stride dil = .ok (n : Int) := by
  obtain ⟨n', h1, h2, h3⟩ := C22_same_is_ceil x stride hs
  have e : n' = n := by
    rw [h1] at hn
    have : (n' : Int) = n := by injection hn
    omega
  subst e
  have hnpos : 0 < n' := by
    apply Nat.pos_of_ne_zero
    rintro rfl
    omega
  have h4 : (n' - 1) * stride < x := by
    apply Nat.lt_of_not_le
    intro hc
    have := h3 (n' - 1) hc
    omega
  have hn1 : n' * stride = (n' - 1) * stride + stride := by
    conv => lhs; rw [show n' = (n' - 1) + 1 by omega, Nat.add_mul, Nat.one_mul]
  have hep : 0 < extent k dil := by unfold extent; omega
  rw [convOut_eq hs hk (by omega), windows_eq hs, if_pos (by omega)]
  congr 2
  have key : (x + ((n' - 1) * stride + extent k dil - x) - extent k dil) / stride = n' - 1 := by
    rw [Nat.div_eq_iff hs]
    omega
  rw [key]
  omega

example : autoSame 7 2 = .ok 4 ∧ convOut 7 ((4 - 1) * 2 + extent 3 1 - 7 : Nat) 3 2 1 = .ok 4 := ⟨rfl, rfl⟩

end OnnxTool.Props
