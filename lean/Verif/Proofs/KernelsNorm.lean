import Verif.Model.KernelsNorm
import Verif.Spec.KernelsNorm
import Verif.Proofs.Kernels
import Mathlib.Tactic.Ring
import Mathlib.Algebra.Field.Basic
/-!
# Normalisation kernels
-/
namespace OnnxTool.Kernels
open OnnxTool OnnxTool.Torch Finset

variable {F : Type} [Field F]

theorem lastDim_append (lead : List Nat) (d : Nat) : lastDim (lead ++ [d]) = d := by simp [lastDim]

theorem bcastIdx_last (d : Nat) (i : List Nat) (j : Nat) (hj : j < d) : bcastIdx [d] (i ++ [j]) = [j] := by
  unfold bcastIdx
  rw [List.length_append, List.length_singleton, List.length_singleton, Nat.add_sub_cancel, List.drop_left, List.zipWith_cons_cons, List.zipWith_nil_right]
  split
  · congr 1; omega
  · rfl

theorem canExpand_last (lead : List Nat) (d : Nat) : canExpand [d] (lead ++ [d]) = true := by
  unfold canExpand
  rw [List.length_append, List.length_singleton, Nat.add_sub_cancel, List.drop_left]
  simp

theorem normBody_ok (rms : Bool) (sqrt rsqrt : F → F) (eps : F) (lead : List Nat) (d : Nat) (x w : Tensor F) (b : Option (Tensor F))
    (hx : x.shape = lead ++ [d]) (hw : w.shape = [d]) (hb : ∀ b', b = some b' → b'.shape = [d]) :
    ∃ y, normBody rms sqrt rsqrt eps x w b = .ok y ∧ y.shape = lead ++ [d] ∧ ∀ i j, j < d → y.at (i ++ [j]) =
      (if rms then rmsOf rsqrt eps d (fun l => x.at (i ++ [l])) j * w.at [j]
      else layerOf sqrt eps d (fun l => x.at (i ++ [l])) j * w.at [j] + biasOf b j) := by
  have hce : ∀ t u : Tensor F, t.shape = lead ++ [d] → u.shape = [d] → canExpand u.shape t.shape = true := by
    intro t u h1 h2
    rw [h1, h2]
    exact canExpand_last lead d
  unfold normBody
  cases rms with
  | true =>
    simp only [if_true]
    unfold broadcastOp
    rw [hce (rmsRows rsqrt eps x) w hx hw]
    refine ⟨_, rfl, hx, fun i j hj => ?_⟩
    simp only [hw, bcastIdx_last d i j hj]
    simp only [rmsRows, rowMean, hx, lastDim_append, List.dropLast_concat, rmsOf, mean]
  | false =>
    simp only [Bool.false_eq_true, if_false]
    unfold broadcastOp
    rw [hce (layerRows sqrt eps x) w hx hw]
    simp only [if_true]
    have hval : ∀ i j, j < d → (layerRows sqrt eps x).at (i ++ [j]) * w.at (bcastIdx w.shape (i ++ [j])) =
        layerOf sqrt eps d (fun l => x.at (i ++ [l])) j * w.at [j] := by
      intro i j hj
      simp only [hw, bcastIdx_last d i j hj]
      simp only [layerRows, rowMean, rowVar, hx, lastDim_append, List.dropLast_concat, layerOf, mean]
    cases b with
    | none =>
      refine ⟨_, rfl, hx, fun i j hj => ?_⟩
      simp only [biasOf, add_zero]
      exact hval i j hj
    | some b' =>
      have hb' := hb b' rfl
      have hc2 : canExpand b'.shape (layerRows sqrt eps x).shape = true := hce (layerRows sqrt eps x) b' hx hb'
      simp only [hc2, if_true]
      refine ⟨_, rfl, hx, fun i j hj => ?_⟩
      simp only [hb', bcastIdx_last d i j hj]
      rw [hval i j hj, biasOf]

theorem ravel_append {s i : List Nat} (h : InB s i) (t j : List Nat) : ravel (s ++ t) (i ++ j) = ravel s i * numel t + ravel t j := by
  induction s generalizing i with
  | nil => cases i with
    | nil => simp [ravel]
    | cons _ _ => exact h.elim
  | cons d s ih => cases i with
    | nil => exact h.elim
    | cons a i =>
      simp only [List.cons_append, ravel, ih h.2, numel_append]
      ring

theorem layerNorm_plain (rms : Bool) (sqrt rsqrt : F → F) (eps : F) (lead : List Nat) (d : Nat) (x w : Tensor F) (b : Option (Tensor F))
    (hx : x.shape = lead ++ [d]) (hw : w.shape = [d]) (hb : ∀ b', b = some b' → b'.shape = [d]) :
    ∃ y, layerNormKernel rms sqrt rsqrt eps x w b x.shape = .ok y ∧ IsGroupNorm rms sqrt rsqrt eps lead 1 d x w b y := by
  obtain ⟨r, hr, hrs, hrv⟩ := normBody_ok rms sqrt rsqrt eps lead d x w b hx hw hb
  have e1 : lastDim w.shape = d := by rw [hw]; rfl
  have e2 : lastDim x.shape = d := by rw [hx]; exact lastDim_append ..
  unfold layerNormKernel
  simp only [e1, e2, Nat.lt_irrefl, if_false, hr]
  obtain ⟨y, hy, hs⟩ := copyTo_same r (hrs.trans hx.symm)
  refine ⟨y, hy, by rw [hs.1, hrs, Nat.one_mul], fun i k j hi hk hj => ?_⟩
  have : k = 0 := by omega
  subst this
  simp only [Nat.zero_mul, Nat.zero_add]
  rw [hs.2 _ (by rw [hs.1, hrs]; exact inb_append hi ⟨hj, trivial⟩), hrv i j hj]

theorem layerNorm_heads (rms : Bool) (sqrt rsqrt : F → F) (eps : F) (lead : List Nat) (g d : Nat) (x w : Tensor F) (b : Option (Tensor F)) (hg : 1 < g) (hd : 0 < d)
    (hx : x.shape = lead ++ [g * d]) (hw : w.shape = [d]) (hb : ∀ b', b = some b' → b'.shape = [d]) :
    ∃ y, layerNormKernel rms sqrt rsqrt eps x w b x.shape = .ok y ∧ IsGroupNorm rms sqrt rsqrt eps lead g d x w b y := by
  have e1 : lastDim w.shape = d := by rw [hw]; rfl
  have e2 : lastDim x.shape = g * d := by rw [hx]; exact lastDim_append ..
  have hlt : d < g * d := by
    have := Nat.mul_lt_mul_of_pos_right hg hd
    omega
  have hn : numel (lead ++ [g, d]) = numel x.shape := by
    rw [hx, numel_append, numel_append]; simp [numel]
  have hdl : x.shape.dropLast = lead := by rw [hx, List.dropLast_concat]
  have hdiv : g * d / d = g := Nat.mul_div_cancel _ hd
  unfold layerNormKernel
  simp only [e1, e2, hlt, if_true, hdl, hdiv, if_neg (show ¬ d = 0 by omega)]
  -- the regrouped operand
  have hxg : x.reshape (lead ++ [g, d]) = .ok ⟨lead ++ [g, d], fun idx => x.at (unravel x.shape (ravel (lead ++ [g, d]) idx))⟩ := by
    rw [Tensor.reshape, if_pos hn]
  have hrav : ∀ i k j, InB lead i → ravel (lead ++ [g, d]) (i ++ [k, j]) = ravel (lead ++ [g * d]) (i ++ [k * d + j]) := by
    intro i k j hi
    rw [ravel_append hi, ravel_append hi]
    simp [ravel, numel]
  have hin : ∀ i k j, InB lead i → k < g → j < d → InB (lead ++ [g * d]) (i ++ [k * d + j]) := by
    intro i k j hi hk hj
    refine inb_append hi ⟨?_, trivial⟩
    have : (k + 1) * d ≤ g * d := Nat.mul_le_mul_right d hk
    rw [Nat.add_mul, Nat.one_mul] at this
    omega
  have hxgv : ∀ i k j, InB lead i → k < g → j < d → x.at (unravel x.shape (ravel (lead ++ [g, d]) (i ++ [k, j]))) = x.at (i ++ [k * d + j]) := by
    intro i k j hi hk hj
    rw [hrav i k j hi, hx, unravel_ravel (hin i k j hi hk hj)]
  rw [hxg]
  simp only
  generalize hX : (⟨lead ++ [g, d], fun idx => x.at (unravel x.shape (ravel (lead ++ [g, d]) idx))⟩ : Tensor F) = xg
  have hxgs : xg.shape = (lead ++ [g]) ++ [d] := by rw [← hX]; simp
  have hxgv' : ∀ i k j, InB lead i → k < g → j < d → xg.at ((i ++ [k]) ++ [j]) = x.at (i ++ [k * d + j]) := by
    intro i k j hi hk hj
    rw [← hX, List.append_assoc]
    exact hxgv i k j hi hk hj
  obtain ⟨r, hr, hrs, hrv⟩ := normBody_ok rms sqrt rsqrt eps (lead ++ [g]) d xg w b hxgs hw hb
  have hrs' : r.shape = lead ++ [g, d] := by rw [hrs]; simp
  rw [hr]
  simp only
  have hrr : r.reshape x.shape = .ok ⟨x.shape, fun idx => r.at (unravel r.shape (ravel x.shape idx))⟩ := by
    rw [Tensor.reshape, if_pos (by rw [hrs', hn])]
  rw [hrr]
  simp only
  obtain ⟨y, hy, hs⟩ := copyTo_same (os := x.shape) (⟨x.shape, fun idx => r.at (unravel r.shape (ravel x.shape idx))⟩ : Tensor F) rfl
  refine ⟨y, hy, by rw [hs.1]; exact hx, fun i k j hi hk hj => ?_⟩
  rw [hs.2 _ (by rw [hs.1]; show InB x.shape _; rw [hx]; exact hin i k j hi hk hj)]
  show r.at (unravel r.shape (ravel x.shape (i ++ [k * d + j]))) = _
  rw [hx, ← hrav i k j hi, hrs', unravel_ravel (inb_append hi (show InB [g, d] [k, j] from ⟨hk, hj, trivial⟩))]
  have hv := hrv (i ++ [k]) j hj
  rw [List.append_assoc] at hv
  have hv' : r.at (i ++ [k, j]) = _ := hv
  rw [hv']
  -- the groups
  have hrow : ∀ l, l < d → xg.at ((i ++ [k]) ++ [l]) = x.at (i ++ [k * d + l]) := fun l hl => hxgv' i k l hi hk hl
  have hmean : ∀ f : F → F, mean d (fun l => f (xg.at ((i ++ [k]) ++ [l]))) = mean d (fun l => f (x.at (i ++ [k * d + l]))) := by
    intro f
    unfold mean
    congr 1
    exact Finset.sum_congr rfl fun l hl => by
      show f (xg.at _) = f (x.at _)
      rw [hrow l (Finset.mem_range.1 hl)]
  have h0 := hmean id
  simp only [id] at h0
  unfold rmsOf layerOf
  rw [hmean (fun v => v ^ 2), h0, hmean (fun v => (v - mean d fun l => x.at (i ++ [k * d + l])) ^ 2)]
  simp only [hrow j hj]

theorem batchNorm_ok (sqrt : F → F) (eps : F) (x scale bias mean var : Tensor F) (hr : 2 ≤ x.shape.length) (h1 : scale.shape = [x.shape.getD 1 0])
    (h2 : bias.shape = [x.shape.getD 1 0]) (h3 : mean.shape = [x.shape.getD 1 0]) (h4 : var.shape = [x.shape.getD 1 0]) :
    ∃ y, batchNormKernel sqrt eps x scale bias mean var x.shape = .ok y ∧ IsBatchNorm sqrt eps x scale bias mean var y := by
  unfold batchNormKernel
  rw [if_pos ⟨hr, h1, h2, h3, h4⟩]
  obtain ⟨y, hy, hs⟩ := copyTo_same (os := x.shape) (⟨x.shape, fun idx =>
      let c := idx.getD 1 0
      (x.at idx - mean.at [c]) / sqrt (var.at [c] + eps) * scale.at [c] + bias.at [c]⟩ : Tensor F) rfl
  refine ⟨y, hy, hs.1, fun n c rest hi => ?_⟩
  rw [hs.2 _ (by rw [hs.1]; exact hi)]
  simp only [List.getD_cons_succ, List.getD_cons_zero]
  ring

end OnnxTool.Kernels
