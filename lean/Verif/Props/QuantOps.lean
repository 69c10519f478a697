import Verif.Model.QuantOps
import Verif.Props.Conv
import Verif.Props.Gemm
import Verif.Props.MacsOps
/-!
# C103: quantized operators have the shapes and costs of the operators they replace

False of the code: a quantized convolution with three spatial axes or with `auto_pad = VALID` is given the empty shape, without any error, and then costs nothing;
QLinearMatMul ignores the batch of the weight and a weight of rank one; MatMulInteger is charged a bias for its zero point exactly if it has one of its two.
-/
namespace OnnxTool.Props
open OnnxTool OnnxTool.Conv OnnxTool.Shape OnnxTool.Macs OnnxTool.QuantOps

/-- what `Conv` infers is not empty, except without padding attribute and with a rank that is not 3, 4 or 5 -/
theorem convShape_ne_nil {a : Attrs} {x w s : List Int} (h : convShape a x w = .ok s) (hv : a.autoPad = some .valid ∨ (a.autoPad = none ∧ x.length = 5)) : s ≠ [] := by
  have bind_ok : ∀ {α β : Type} {m : Except PyErr α} {f : α → Except PyErr β} {b : β}, m.bind f = .ok b → ∃ v, m = .ok v ∧ f v = .ok b := by
    intro α β m f b hb
    cases m with
    | error e => cases hb
    | ok v => exact ⟨v, rfl, hb⟩
  unfold convShape at h
  rcases hv with hv | ⟨hv, hl⟩
  · rw [hv] at h
    simp only [bind] at h
    obtain ⟨v1, -, h⟩ := bind_ok h
    obtain ⟨v2, -, h⟩ := bind_ok h
    obtain ⟨v3, -, h⟩ := bind_ok h
    obtain ⟨v4, -, h⟩ := bind_ok h
    obtain ⟨v5, -, h⟩ := bind_ok h
    obtain ⟨v6, -, h⟩ := bind_ok h
    split at h
    · obtain ⟨w1, -, h⟩ := bind_ok h
      obtain ⟨w2, -, h⟩ := bind_ok h
      obtain ⟨w3, -, h⟩ := bind_ok h
      obtain ⟨w4, -, h⟩ := bind_ok h
      cases h
      simp
    · cases h
      simp
  · rw [hv] at h
    simp only [bind] at h
    rw [if_pos hl] at h
    obtain ⟨v1, -, h⟩ := bind_ok h
    obtain ⟨v2, -, h⟩ := bind_ok h
    obtain ⟨v3, -, h⟩ := bind_ok h
    obtain ⟨v4, -, h⟩ := bind_ok h
    obtain ⟨v5, -, h⟩ := bind_ok h
    cases h
    simp

/-- **C103, convolutions.** Whenever a Conv with these attributes and shapes gets a shape, QLinearConv and ConvInteger get the same shape if and only if `auto_pad` is not
`VALID` and there are not three spatial axes (with explicit padding). -/
theorem C103_conv_partial {a : Attrs} {x w s : List Int} (h : convShape a x w = .ok s) :
    qconvShape a x w = .ok s ↔ a.autoPad ≠ some .valid ∧ (a.autoPad = none → x.length ≠ 5) := by
  constructor
  · intro hq
    constructor
    · intro hv
      have hne := convShape_ne_nil h (.inl hv)
      unfold qconvShape at hq
      rw [hv] at hq
      simp only at hq
      injection hq with e
      exact hne e.symm
    · intro hv hl
      have hne := convShape_ne_nil h (.inr ⟨hv, hl⟩)
      unfold qconvShape at hq
      rw [hv] at hq
      simp only at hq
      rw [if_neg (by omega), if_neg (by omega)] at hq
      injection hq with e
      exact hne e.symm
  · rintro ⟨h1, h2⟩
    unfold convShape at h
    unfold qconvShape
    cases hp : a.autoPad with
    | none =>
      rw [hp] at h
      simp only at h ⊢
      rw [if_neg (h2 hp)] at h
      exact h
    | some p =>
      cases p with
      | same => rw [hp] at h; exact h
      | valid => exact absurd hp h1
      | other => rw [hp] at h; cases h

/-- **C103, convolutions, in numbers.** With one or two spatial axes and explicit padding the shape is `[batch, filters]` and the number of window positions of every axis. -/
theorem C103_conv_counted (d : Nat) (hd : d = 1 ∨ d = 2) (n c m cg : Nat) (xs ks pads strides dils : List Nat)
    (hx : xs.length = d) (hk : ks.length = d) (hp : pads.length = 2 * d) (hs : strides.length = d) (hl : dils.length = d)
    (hfit : FitsAll d xs ks pads strides dils) :
    qconvShape { pads := pads.map Int.ofNat, strides := strides.map Int.ofNat, dilations := dils.map Int.ofNat }
      ((n :: c :: xs).map Int.ofNat) ((m :: cg :: ks).map Int.ofNat) =
    .ok ((n :: m :: countedSizes d xs ks pads strides dils).map Int.ofNat) := by
  refine (C103_conv_partial (C21_conv d (by omega) n c m cg xs ks pads strides dils hx hk hp hs hl hfit)).2 ⟨by simp, fun _ => ?_⟩
  simp only [List.map_cons, List.length_cons, List.length_map]
  omega

example : qconvShape { pads := [1, 1, 1, 1], strides := [2, 2], dilations := [1, 1] } [1, 3, 8, 8] [4, 3, 3, 3] = .ok [1, 4, 4, 4] := rfl

/-- **C103 is false for the other convolutions**: no error, an empty shape; and an empty shape makes every quantized convolution with a kernel of one to three axes free. -/
theorem C103_conv_empty (a : Attrs) (x w : List Int) (h : a.autoPad = some .valid ∨ a.autoPad = some .other ∨ (a.autoPad = none ∧ x.length ≠ 3 ∧ x.length ≠ 4)) :
    qconvShape a x w = .ok [] ∧
    ∀ (nin : Nat) (at' : CostAttrs) (xs s1 s2 : List Nat) (m cg k : Nat) (ks : List Nat) (rest : List (List Nat)),
      opMacs "QLinearConv" nin at' (xs :: s1 :: s2 :: (m :: cg :: k :: ks) :: rest) [[]] = .ok 0 ∧
      opMacs "ConvInteger" nin at' (xs :: (m :: cg :: k :: ks) :: rest) [[]] = .ok 0 := by
  refine ⟨?_, ?_⟩
  · unfold qconvShape
    rcases h with h | h | ⟨h, h1, h2⟩
    · rw [h]
    · rw [h]
    · rw [h]; simp only; rw [if_neg h2, if_neg h1]
  · intro nin at' xs s1 s2 m cg k ks rest
    have hz : volume [] = 0 := rfl
    cases ks with
    | nil =>
      simp [opMacs, pwCost, outCost, inCost, ownMacs, qlinearConvMacs, convIntegerMacs, qconvProducts, Except.map, hz]
    | cons k2 ks =>
      simp [opMacs, pwCost, outCost, inCost, ownMacs, qlinearConvMacs, convIntegerMacs, qconvProducts, Except.map, hz]

/-- the three-dimensional convolution that Conv sizes and QLinearConv does not -/
theorem C103_conv3d_counterexample :
    convShape { pads := [0, 0, 0, 0, 0, 0], strides := [1, 1, 1], dilations := [1, 1, 1] } [1, 3, 8, 8, 8] [4, 3, 3, 3, 3] = .ok [1, 4, 6, 6, 6] ∧
    qconvShape { pads := [0, 0, 0, 0, 0, 0], strides := [1, 1, 1], dilations := [1, 1, 1] } [1, 3, 8, 8, 8] [4, 3, 3, 3, 3] = .ok [] ∧
    convShape { autoPad := some .valid, strides := [1, 1] } [1, 3, 8, 8] [4, 3, 3, 3] = .ok [1, 4, 6, 6] ∧
    qconvShape { autoPad := some .valid, strides := [1, 1] } [1, 3, 8, 8] [4, 3, 3, 3] = .ok [] := ⟨rfl, rfl, rfl, rfl⟩

/-- **C103, cost of convolutions.** With a kernel of one or two axes QLinearConv with its nine (eight) operands and ConvInteger cost what Conv with (without) a bias costs. -/
theorem C103_conv_cost (nin : Nat) (at' : CostAttrs) (m cg k : Nat) (ks y xs s1 s2 s3 s4 s5 s6 b : List Nat) (hk : ks.length ≤ 1) :
    opMacs "QLinearConv" nin at' [xs, s1, s2, m :: cg :: k :: ks, s3, s4, s5, s6, b] [y] = .ok ((convMacs 3 1 (m :: cg :: k :: ks) y : Nat) : Int) ∧
    opMacs "QLinearConv" nin at' [xs, s1, s2, m :: cg :: k :: ks, s3, s4, s5, s6] [y] = .ok ((convMacs 2 1 (m :: cg :: k :: ks) y : Nat) : Int) ∧
    opMacs "ConvInteger" nin at' [xs, m :: cg :: k :: ks] [y] = .ok ((convMacs 2 1 (m :: cg :: k :: ks) y : Nat) : Int) := by
  match ks, hk with
  | [], _ =>
    have e : volume [cg, k] = cg * k := by simp [volume]
    simp [opMacs, pwCost, outCost, inCost, ownMacs, qlinearConvMacs, convIntegerMacs, qconvProducts, Except.map, convMacs, e, MUL, ADD, Nat.mul_assoc]
  | [k2], _ =>
    have e : volume [cg, k, k2] = cg * k * k2 := by simp [volume]
    simp [opMacs, pwCost, outCost, inCost, ownMacs, qlinearConvMacs, convIntegerMacs, qconvProducts, Except.map, convMacs, e, MUL, ADD, Nat.mul_assoc]

example : opMacs "QLinearConv" 9 {} [[1, 3, 8, 8], [], [], [4, 3, 3, 3], [], [], [], [], [4]] [[1, 4, 6, 6]] = .ok 4032 ∧ convMacs 3 1 [4, 3, 3, 3] [1, 4, 6, 6] = 4032 :=
  ⟨rfl, rfl⟩

/-- **C103, matrix products.** For operands whose batches broadcast to `r`, QLinearMatMul gets the shape of the product if and only if `r` is the batch of the data. -/
theorem C103_matmul_partial (bx bw r : List Nat) (m k n : Nat) :
    qmatmulShape (bx ++ [m, k]) (bw ++ [k, n]) = .ok (r ++ [m, n]) ↔ r = bx := by
  have h1 : (bw ++ [k, n]).getLast? = some n := by simp
  have h2 : (bx ++ [m, k]).dropLast ++ [n] = bx ++ [m, n] := by
    rw [List.dropLast_append_of_ne_nil (by simp)]; simp
  unfold qmatmulShape
  rw [h1]
  simp only [h2]
  constructor
  · intro h
    injection h with h
    exact (List.append_inj' h rfl).1.symm
  · rintro rfl; rfl

/-- the shape MatMul gets, if QLinearMatMul gets the right one -/
theorem C103_matmul_agrees (bx bw : List Nat) (m k n : Nat) (hb : IsBroadcast [bx, bw] bx) (hx : ∀ d ∈ bx, 0 < d) (hw : ∀ d ∈ bw, 0 < d) :
    qmatmulShape (bx ++ [m, k]) (bw ++ [k, n]) = gemmShape false false false (bx ++ [m, k]) (bw ++ [k, n]) := by
  rw [(C103_matmul_partial bx bw bx m k n).2 rfl, (C42_gemm_iff bx bw bx m k k n false false false (by simp) hb hx hw).2 (.inl rfl)]
  simp

example : IsBroadcast [[2, 5], [5]] [2, 5] ∧ qmatmulShape [2, 5, 3, 4] [5, 4, 6] = .ok [2, 5, 3, 6] := ⟨(C19_broadcast_exact _).1 _ |>.mp rfl, rfl⟩

/-- A batched weight: the batch is lost (`[3, 6]` instead of `[7, 3, 6]`); a weight of rank one: the sum axis reappears in the result (`[3, 4]` instead of `[3]`). -/
theorem C103_matmul_counterexample : qmatmulShape [3, 4] [7, 4, 6] = .ok [3, 6] ∧ gemmShape false false false [3, 4] [7, 4, 6] = .ok [7, 3, 6] ∧
    qmatmulShape [3, 4] [4] = .ok [3, 4] := ⟨rfl, rfl, rfl⟩

/-- A weight of rank one is always wrong: the result has the rank of the data instead of one less. -/
theorem C103_matmul_vector (bx : List Nat) (k : Nat) : qmatmulShape (bx ++ [k]) [k] = .ok (bx ++ [k]) := by
  unfold qmatmulShape
  simp

/-- A weight without dimensions is refused, and only such a weight. -/
theorem C103_matmul_scalar (x w : List Nat) : (∃ e, qmatmulShape x w = .error e) ↔ w = [] := by
  unfold qmatmulShape
  cases h : w.getLast? with
  | none => simpa using h
  | some n =>
    simp only [reduceCtorEq, exists_false, false_iff]
    rintro rfl; cases h

/-- **C103, MatMulInteger** gets the shape of MatMul, but its cost depends on which zero points are given: with exactly one it is charged an addition for every element of
the result (as if it were a bias), with none or both it is not. -/
theorem C103_matmul_integer (a b y : List Nat) : matmulIntegerShape a b = gemmShape false false false a b ∧
    gemmMacs false false 4 b y = gemmMacs false false 2 b y ∧
    (∀ c, gemmMacs false false 2 b y = .ok c → gemmMacs false false 3 b y = .ok (c + volume y)) := by
  refine ⟨rfl, by simp [gemmMacs], ?_⟩
  intro c h
  by_cases hl : b.length > 1
  · simp [gemmMacs, hl] at h
    simp [gemmMacs, hl, ADD, ← h]
  · simp [gemmMacs, hl] at h
    simp [gemmMacs, hl, ADD, ← h]

example : gemmMacs false false 2 [4, 6] [3, 6] = .ok 72 ∧ gemmMacs false false 3 [4, 6] [3, 6] = .ok 90 ∧ gemmMacs false false 4 [4, 6] [3, 6] = .ok 72 := ⟨rfl, rfl, rfl⟩
end OnnxTool.Props
