import Mathlib.Tactic.Linarith
import Mathlib.Tactic.Ring
import Verif.Model.Macs
import Verif.Spec.Macs
import Verif.Props.Gemm
/-!
# C36 (MoE parameters), C43 (MACs are the multiplications of the operator), C44 (attention cost)
-/
namespace OnnxTool.Props
open OnnxTool OnnxTool.Macs OnnxTool.Shape

theorem volume_prod (d : Nat) (ds : List Nat) : volume (d :: ds) = (d :: ds).prod := by
  unfold volume
  have : ∀ (l : List Nat) (a : Nat), l.foldl (fun v d => v * d) a = a * l.prod := by
    intro l
    induction l with
    | nil => intro a; simp
    | cons x xs ih => intro a; simp [ih, Nat.mul_assoc]
  simp [this]

theorem volume_indices (y : List Nat) (h : y ≠ []) : volume y = (indices y).length := by
  cases y with
  | nil => exact absurd rfl h
  | cons d ds => rw [volume_prod, indices_length]

theorem length_terms {α β : Type} (l : List α) (m : List β) : (l.flatMap fun a => m.map fun b => (a, b)).length = l.length * m.length := by
  induction l with
  | nil => simp
  | cons a l ih => simp only [List.flatMap_cons, List.length_append, List.length_map, ih, List.length_cons]; ring

/-! ## C36 -/

/-- **C36, cap.** The expert parameters counted are those of `min (B*S*k) E` experts, next to the router and the shared expert. -/
theorem C36_static (a : MoE) (B S : Nat) :
    (a.profile B S).2.2 = a.H * a.E + min (B * S * a.k) a.E * (3 * a.I * a.H) + (if a.noSharedExpert then 0 else 3 * a.SI * a.H) := by
  simp only [MoE.profile]
  split
  · rename_i h; rw [Nat.min_eq_left h.le]; ring
  · rename_i h; rw [Nat.min_eq_right (by omega)]; ring

/-- **C36, monotone.** Activated parameters never decrease with batch * sequence length. -/
theorem C36_monotone (a : MoE) (B S B' S' : Nat) (h : B * S ≤ B' * S') : (a.profile B S).2.2 ≤ (a.profile B' S').2.2 := by
  rw [C36_static, C36_static]
  have h1 : B * S * a.k ≤ B' * S' * a.k := Nat.mul_le_mul_right _ h
  have h2 : min (B * S * a.k) a.E ≤ min (B' * S' * a.k) a.E := by omega
  have := Nat.mul_le_mul_right (3 * a.I * a.H) h2
  omega

/-- **C36, capped.** They never exceed those of all experts, and reach them exactly when `B*S*k ≥ E` (for non-degenerate sizes). -/
theorem C36_capped (a : MoE) (B S : Nat) (hI : 0 < a.I) (hH : 0 < a.H) :
    let full := a.H * a.E + a.E * (3 * a.I * a.H) + (if a.noSharedExpert then 0 else 3 * a.SI * a.H)
    (a.profile B S).2.2 ≤ full ∧ ((a.profile B S).2.2 = full ↔ a.E ≤ B * S * a.k) := by
  have hp : 0 < 3 * a.I * a.H := by positivity
  simp only [C36_static]
  generalize 3 * a.I * a.H = p at *
  generalize (if a.noSharedExpert then 0 else 3 * a.SI * a.H) = c
  have h1 : min (B * S * a.k) a.E * p ≤ a.E * p := Nat.mul_le_mul_right _ (by omega)
  refine ⟨by omega, ?_, ?_⟩
  · intro h
    have h2 : min (B * S * a.k) a.E * p = a.E * p := by omega
    have := Nat.eq_of_mul_eq_mul_right hp h2
    omega
  · intro h
    rw [Nat.min_eq_right h]

/-- **C36, MACs.** MACs are proportional to batch * sequence length: a per-token cost that does not depend on either. -/
theorem C36_macs_linear (a : MoE) (B S : Nat) : (a.profile B S).1 = B * S * (a.profile 1 1).1 := by
  simp only [MoE.profile]
  cases a.noSharedExpert <;> cases a.noSharedGate <;> simp <;> ring

/-- the cost of one token: router, `k` experts and (unless disabled) the shared expert and its gate -/
theorem C36_macs_token (a : MoE) :
    (a.profile 1 1).1 = a.H * a.E + a.k * (3 * a.H * a.I + (EXP + 2 * MUL) * a.I) +
      (if a.noSharedExpert then 0 else 3 * a.H * a.SI + (EXP + 2 * MUL) * a.SI) + (if a.noSharedGate then 0 else a.H * (EXP + MUL)) + a.H := by
  simp only [MoE.profile, EXP, MUL, ADD]
  cases a.noSharedExpert <;> cases a.noSharedGate <;> simp <;> ring

example : ((⟨2048, 512, 512, 256, 8, false, false⟩ : MoE).profile 1 1).2.2 = 2048 * 256 + 8 * 3 * 512 * 2048 + 3 * 512 * 2048 ∧
    ((⟨2048, 512, 512, 256, 8, false, false⟩ : MoE).profile 1 32).2.2 = ((⟨2048, 512, 512, 256, 8, false, false⟩ : MoE).profile 4 4096).2.2 := by
  decide

/-! ## C43 -/

/-- **C43, matrix products.** For the output shape the tool infers, the MACs of a `Gemm` (any transpose flags) or a rank-2+ `MatMul` are the
number of scalar products in its definition, plus one addition per output element when there is a bias. -/
theorem C43_gemm (gemm transA transB : Bool) (nin : Nat) (hn : nin = 2 ∨ nin = 3) (ba bb y : List Nat) (p q s t : Nat)
    (h : gemmShape gemm transA transB (ba ++ [p, q]) (bb ++ [s, t]) = .ok y) :
    ∃ bt : List Nat, (bt = ba ∨ bt = bb) ∧
      y = bt ++ [if gemm && transA then q else p, if gemm && transB then s else t] ∧
      (gemm = true → (if transA then p else q) = (if transB then t else s)) ∧
      gemmMacs gemm transB nin (bb ++ [s, t]) y = .ok ((matmulTerms y (if gemm && transB then t else s)).length +
        (if nin = 3 then (indices y).length else 0)) := by
  have l1 : ¬ ((ba ++ [p, q]).length < 2 ∨ (bb ++ [s, t]).length < 2) := by simp
  unfold gemmShape at h
  rw [if_neg l1] at h
  simp only [List.length_append, List.length_cons, List.length_nil] at h
  simp only [show ba.length + (0 + 1 + 1) - 2 = ba.length by omega, show bb.length + (0 + 1 + 1) - 2 = bb.length by omega,
    show ba.length + (0 + 1 + 1) - 1 = ba.length + 1 by omega, show bb.length + (0 + 1 + 1) - 1 = bb.length + 1 by omega] at h
  have g1 : ∀ (l : List Nat) (x y : Nat), (l ++ [x, y]).getD l.length 0 = x := by
    intro l x y; rw [List.getD_eq_getElem?_getD, List.getElem?_append_right (by omega)]; simp
  have g2 : ∀ (l : List Nat) (x y : Nat), (l ++ [x, y]).getD (l.length + 1) 0 = y := by
    intro l x y; rw [List.getD_eq_getElem?_getD, List.getElem?_append_right (by omega)]; simp
  have g3 : ∀ (l : List Nat) (x y : Nat), (l ++ [x, y]).take l.length = l := by
    intro l x y; simp
  simp only [g1, g2, g3] at h
  generalize hbt : (if volume ba ≥ volume bb then ba else bb) = bt at h
  have hbt' : bt = ba ∨ bt = bb := by
    rw [← hbt]; split
    · exact .inl rfl
    · exact .inr rfl
  have hw : (bb ++ [s, t]).getLast? = some t := by simp
  have hw2 : (bb ++ [s, t]).getD ((bb ++ [s, t]).length - 2) 0 = s := by
    rw [show (bb ++ [s, t]).length - 2 = bb.length by simp]; exact g1 bb s t
  have macs : ∀ y : List Nat, y ≠ [] →
      gemmMacs gemm transB nin (bb ++ [s, t]) y = .ok ((matmulTerms y (if gemm && transB then t else s)).length +
        (if nin = 3 then (indices y).length else 0)) := by
    intro y hy
    have hl : ∀ k, (matmulTerms y k).length = volume y * k := by
      intro k; unfold matmulTerms; rw [length_terms, volume_indices y hy, List.length_range]
    have hN : nin ≥ 2 := by omega
    have hlen : (bb ++ [s, t]).length ≥ 2 := by simp
    unfold gemmMacs
    simp only [hl, if_pos hN, hw, hw2, ADD, Nat.mul_one, ← volume_indices y hy]
    cases gemm <;> cases transB <;> simp
  cases gemm with
  | true =>
    rw [if_pos rfl] at h
    by_cases hk : (if transA = true then p else q) = (if transB = true then t else s)
    swap
    · rw [if_pos hk] at h; cases h
    · rw [if_neg (not_not.mpr hk)] at h
      have hk' := hk
      injection h with h
      refine ⟨bt, hbt', ?_, fun _ => ?_, macs y ?_⟩
      · rw [← h]; cases transA <;> cases transB <;> rfl
      · cases transA <;> cases transB <;> simpa using hk'
      · rw [← h]; simp
  | false =>
    simp only [Bool.false_eq_true, if_false] at h
    injection h with h
    refine ⟨bt, hbt', ?_, fun h => by (cases h), macs y ?_⟩
    · rw [← h]; simp
    · rw [← h]; simp

example : gemmShape true false true [3, 4] [5, 4] = .ok [3, 5] ∧ gemmMacs true true 3 [5, 4] [3, 5] = .ok (3 * 5 * 4 + 15) := ⟨rfl, rfl⟩

/-- **C43 (finding).** A `MatMul` by a vector is reported without its inner dimension: `[100, 64] @ [64]` counts 100 instead of 6400. -/
theorem C43_matvec_undercounted : gemmMacs false false 2 [64] [100] = .ok 100 ∧ (matmulTerms [100] 64).length = 6400 := by
  refine ⟨rfl, ?_⟩
  unfold matmulTerms
  rw [length_terms, indices_length]; rfl

/-- **C43, convolution.** For every output shape, channel count and kernel: the MACs are the number of scalar products in the definition of the
convolution, plus one addition per output element with a bias. -/
theorem C43_conv (nin m cg : Nat) (ks y : List Nat) (hn : nin = 2 ∨ nin = 3) (hy : y ≠ []) :
    convMacs nin 1 (m :: cg :: ks) y = (convTerms y cg ks).length + (if nin = 3 then (indices y).length else 0) := by
  unfold convMacs convTerms
  rw [length_terms, volume_indices y hy, List.drop_one, List.tail_cons, volume_indices (cg :: ks) (by simp)]
  rcases hn with rfl | rfl <;> simp [MUL, ADD]

/-- **C43 (finding).** `ConvTranspose` uses the formula of `Conv` on its output.  For stride `s` and a kernel of the same size (the usual
upsampling layer, `y = [n, o, s*h, s*w]`) it reports `s*s*o` multiplications where the definition has `c`: with as many output as input
channels, `s*s` times too many. -/
theorem C43_convtranspose_overcounted (n c o h w s : Nat) :
    convMacs 2 1 [c, o, s, s] [n, o, s * h, s * w] * c = (convTransposeTerms [n, c, h, w] o [s, s]).length * (s * s * o) := by
  unfold convMacs convTransposeTerms
  rw [length_terms, indices_length, indices_length]
  simp [volume_prod, MUL]
  ring

/-- **C43, pooling.** One- and two-dimensional windows: one comparison per output element and window position. -/
theorem C43_pool (kernel y : List Nat) (hk : kernel.length = 1 ∨ kernel.length = 2) (hy : y ≠ []) :
    poolMacs kernel y = .ok ((indices y).flatMap fun o => (indices kernel).map fun r => (o, r)).length := by
  rw [length_terms, indices_length kernel, ← volume_indices y hy]
  match kernel, hk with
  | [a], _ => simp [poolMacs, CMP]
  | [a, b], _ => simp [poolMacs, CMP, Nat.mul_assoc]
  | a :: b :: c :: k, h => simp at h

/-- **C43 (finding).** For three-dimensional pooling only the first window dimension is counted. -/
theorem C43_pool3d_undercounted (a b c : Nat) (y : List Nat) : poolMacs [a, b, c] y = .ok (volume y * CMP * a) := rfl

/-! ## C44: attention -/

/-- **C44, cost without a cache.** For a query of shape `[b, s, heads*headSize]` the cost is that of scores, softmax and weighted sum over all
`s * s` pairs, and the key/value size is two `[b, kvHeads, s, headSize]` tensors. -/
theorem C44_sdpa (heads kvHeads hs b s d : Nat) :
    sdpaMacs heads kvHeads hs [b, s, d] = .ok (b * heads * (s * s) * (2 * hs + EXP + DIV), 2 * (b * kvHeads * s * hs)) := by
  simp only [sdpaMacs, EXP, DIV]
  congr 2 <;> ring

/-- **C44, cache.** With `past` cached tokens each of the `s` new positions attends to `past + s` positions; the call is refused exactly when
the context would overflow; with nothing cached the cost is that without a cache. -/
theorem C44_sdpa_cache (heads kvHeads hs past ctx b s d : Nat) :
    (past + s ≤ ctx → sdpaCacheMacs heads kvHeads hs past ctx [b, s, d] =
      .ok (b * heads * (s * (past + s)) * (2 * hs + EXP + DIV), 2 * (b * kvHeads * (past + s) * hs))) ∧
    (ctx < past + s → sdpaCacheMacs heads kvHeads hs past ctx [b, s, d] = .error .assertion) ∧
    (s ≤ ctx → sdpaCacheMacs heads kvHeads hs 0 ctx [b, s, d] = sdpaMacs heads kvHeads hs [b, s, d]) := by
  refine ⟨fun h => ?_, fun h => ?_, fun h => ?_⟩
  · simp only [sdpaCacheMacs, if_pos h, EXP, DIV]; congr 2 <;> ring
  · simp only [sdpaCacheMacs]; rw [if_neg (by omega)]
  · simp only [sdpaCacheMacs, sdpaMacs]; rw [if_pos (by omega)]; simp

/-- **C44, decoding.** Generating `n` tokens one at a time attends to exactly the causal half: the score products of the `n` cached steps add
up to those of one prefill over a triangle, `heads * hs * n(n+1)/2`, so prefill (which counts the full square) reports at most twice as much. -/
theorem C44_decode_vs_prefill (heads kvHeads hs ctx b d n : Nat) (hn : n ≤ ctx) :
    ∃ steps : Nat → Nat, (∀ i < n, ∃ kv, sdpaCacheMacs heads kvHeads hs i ctx [b, 1, d] = .ok (steps i, kv)) ∧
      2 * ((List.range n).map steps).sum = b * heads * (n * (n + 1)) * (2 * hs + EXP + DIV) := by
  refine ⟨fun i => b * heads * (1 * (i + 1)) * (2 * hs + EXP + DIV), fun i hi => ⟨_, (C44_sdpa_cache heads kvHeads hs i ctx b 1 d).1 (by omega)⟩, ?_⟩
  clear hn
  induction n with
  | zero => simp
  | succ n ih =>
    rw [List.range_succ, List.map_append, List.sum_append, Nat.mul_add, ih]
    simp only [List.map_cons, List.map_nil, List.sum_cons, List.sum_nil]
    ring

/-- **C44 (finding).** For the four-dimensional query layout `[b, heads, s, headSize]`, which `shape_infer` accepts and treats as such, the
cost function takes the number of heads for the sequence length: with 32 heads and 1000 tokens it reports the cost of 32 tokens. -/
theorem C44_sdpa_layout_confused (heads kvHeads hs b s : Nat) :
    sdpaShape [b, heads, s, hs] = [b, s, heads * hs] ∧
    sdpaMacs heads kvHeads hs [b, heads, s, hs] = sdpaMacs heads kvHeads hs [b, heads, heads * hs] := ⟨rfl, rfl⟩

/-- **C44, MLA and GDN.** Weights do not depend on batch or sequence length; MACs are proportional to the batch. -/
theorem C44_mla_linear_in_batch (a : MLA) (B S : Nat) :
    (a.profile B S).1 = B * (a.profile 1 S).1 ∧ (a.profile B S).2.1 = B * (a.profile 1 S).2.1 ∧ (a.profile B S).2.2 = (a.profile 1 S).2.2 := by
  refine ⟨?_, ?_, rfl⟩
  · simp only [MLA.profile]
    generalize a.kvLen S = kv
    split <;> split <;> (try split) <;> ring
  · simp only [MLA.profile]; ring

theorem C44_gdn_linear_in_batch (a : GDN) (B S : Nat) :
    (a.profile B S).1 = B * (a.profile 1 S).1 ∧ (a.profile B S).2.1 = B * (a.profile 1 S).2.1 ∧ (a.profile B S).2.2 = 0 := by
  refine ⟨?_, ?_, rfl⟩
  · simp only [GDN.profile]; ring
  · simp only [GDN.profile]; ring

/-- **C44, sparse attention.** With KV compression each query attends to at most the window, the compressed tokens and the selected ones. -/
theorem C44_mla_kv_bounds (a : MLA) (S : Nat) (h : 0 < a.CR) :
    a.kvLen S ≤ a.W + S / a.CR + a.IT ∧ a.kvLen S ≤ S + 2 * (S / a.CR) := by
  unfold MLA.kvLen
  rw [if_pos h]
  omega

/-- **C44 (finding).** For short sequences the "sparse" attention is charged for more positions than exist: with ratio 4, window 128, 100
tokens it counts 150 positions per query. -/
theorem C44_mla_overcounts_short : (⟨4096, 64, 512, 1024, 1024, 8, 64, 128, 4, 64, 128, 512⟩ : MLA).kvLen 100 = 150 := by decide

end OnnxTool.Props
