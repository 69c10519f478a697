import Verif.Model.Conv
import Verif.Spec.Conv
/-! # Arithmetic of convolution sizes -/
namespace OnnxTool.Conv
open OnnxTool

theorem countP_range_lt (c : Nat) : ∀ n, (List.range n).countP (fun p => decide (p < c)) = min n c := by
  intro n
  induction n with
  | zero => simp
  | succ n ih =>
    rw [List.range_succ, List.countP_append, ih]
    by_cases h : n < c
    · simp [h]; omega
    · simp [h]; omega

theorem windows_eq {size ek stride : Nat} (hs : 0 < stride) :
    windows size ek stride = if ek ≤ size then (size - ek) / stride + 1 else 0 := by
  unfold windows
  split
  · rename_i h
    have : (fun p => decide (p * stride + ek ≤ size)) = fun p => decide (p < (size - ek) / stride + 1) := by
      funext p
      have : (p * stride + ek ≤ size) ↔ p < (size - ek) / stride + 1 := by
        rw [Nat.lt_add_one_iff, Nat.le_div_iff_mul_le hs]
        omega
      simp only [this]
    rw [this, countP_range_lt]
    have : (size - ek) / stride ≤ size - ek := Nat.div_le_self _ _
    omega
  · rename_i h
    rw [List.countP_eq_zero]
    intro p _
    simp only [decide_eq_true_eq]
    omega

theorem convOut_eq {x pad k stride dil : Nat} (hs : 0 < stride) (hk : 0 < k) (hfit : extent k dil ≤ x + pad) :
    convOut x pad k stride dil = .ok (windows (x + pad) (extent k dil) stride : Int) := by
  unfold convOut
  rw [if_neg (by omega), windows_eq hs, if_pos hfit]
  congr 1
  have e : ((x : Int) + pad - dil * ((k : Int) - 1) - 1 + stride) = ((x + pad - extent k dil + stride : Nat) : Int) := by
    unfold extent at hfit ⊢
    have : (dil : Int) * ((k : Int) - 1) = ((dil * (k - 1) : Nat) : Int) := by
      rw [Int.natCast_mul, Int.natCast_sub hk]; rfl
    rw [this]
    generalize dil * (k - 1) = m at *
    omega
  rw [e]
  have : ((x + pad - extent k dil + stride : Nat) : Int).tdiv (stride : Int) =
      (((x + pad - extent k dil + stride) / stride : Nat) : Int) := rfl
  rw [this, Nat.add_div_right _ hs]

theorem poolOut_eq {x pad k stride dil : Nat} (hs : 0 < stride) (hk : 0 < k) (hfit : extent k dil ≤ x + pad) :
    poolOut x pad k dil stride false = .ok (windows (x + pad) (extent k dil) stride : Int) ∧
    poolOut x pad k dil stride true = .ok ((windows (x + pad) (extent k dil) stride : Int) +
      if (x + pad - extent k dil) % stride = 0 then 0 else 1) := by
  have e : ((x : Int) + pad - (((k : Int) - 1) * dil + 1) + stride) = ((x + pad - extent k dil + stride : Nat) : Int) := by
    unfold extent at hfit ⊢
    have : ((k : Int) - 1) * dil = ((dil * (k - 1) : Nat) : Int) := by
      rw [Int.natCast_mul, Int.natCast_sub hk, Int.mul_comm]; rfl
    rw [this]
    generalize dil * (k - 1) = m at *
    omega
  unfold poolOut
  simp only [show ¬ ((stride : Int) = 0) by omega, if_false, Bool.false_eq_true, if_true]
  rw [e, windows_eq hs, if_pos hfit]
  generalize x + pad - extent k dil = n
  constructor
  · congr 1
    have : ((n + stride : Nat) : Int).fdiv (stride : Int) = (((n + stride) / stride : Nat) : Int) := by
      rw [Int.fdiv_eq_ediv_of_nonneg _ (by omega)]; rfl
    rw [this, Nat.add_div_right _ hs]
  · congr 1
    unfold ceilDiv
    rw [Int.fdiv_eq_ediv_of_nonneg _ (by omega)]
    have hd := Nat.div_add_mod n stride
    have hlt := Nat.mod_lt n hs
    generalize hq : n / stride = q at *
    generalize hr : n % stride = r at *
    have hsi : (0 : Int) < stride := by omega
    split
    · rename_i h0
      have : -(((n + stride : Nat)) : Int) = (-(q + 1 : Int)) * stride := by
        have h1 : (n : Int) = stride * q := by
          rw [← hd, h0]; simp
        rw [Int.natCast_add, h1, Int.neg_mul, Int.add_mul, Int.one_mul, Int.mul_comm]
      rw [this, Int.mul_ediv_cancel _ (by omega)]
      omega
    · rename_i h0
      have h1 : (n : Int) = stride * q + r := by rw [← hd]; push_cast; rfl
      have : (-(((n + stride : Nat)) : Int)) / (stride : Int) = -((q : Int) + 2) := by
        refine ((Int.ediv_emod_unique hsi (r := (stride : Int) - r)).mpr ⟨?_, by omega, by omega⟩).1
        rw [Int.natCast_add, h1, Int.mul_neg, Int.mul_add]
        omega
      rw [this]
      push_cast
      omega

end OnnxTool.Conv
