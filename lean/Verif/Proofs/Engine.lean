import Verif.Model.ShapeEngine
import Verif.Proofs.Dict
import Verif.Proofs.Slice
/-! # ValueExpr fitting and ShapeEngine updates -/
namespace OnnxTool.Engine
open OnnxTool OnnxTool.Conv OnnxTool.Slice

theorem roundDiv_near {L D a : Int} (h1 : -D < 2 * (L - a * D)) (h2 : 2 * (L - a * D) < D) : roundDiv L D = a := by
  have hD : 0 < D := by omega
  unfold roundDiv
  simp only [show ¬ D < 0 by omega, if_false]
  by_cases h : a * D ≤ L
  · obtain ⟨e1, e2⟩ := (Int.ediv_emod_unique (a := L) (b := D) (q := a) (r := L - a * D) hD).mpr
      ⟨by rw [Int.mul_comm D a]; omega, by omega, by omega⟩
    rw [e1, e2, if_pos h2]
  · have hm : (a - 1) * D = a * D - D := by rw [Int.sub_mul]; omega
    obtain ⟨e1, e2⟩ := (Int.ediv_emod_unique (a := L) (b := D) (q := a - 1) (r := L - (a - 1) * D) hD).mpr
      ⟨by rw [Int.mul_comm D]; omega, by omega, by omega⟩
    rw [e1, e2, if_neg (by omega), if_pos (by omega)]
    omega

theorem callAll_ok {e : ValueExpr} {f : Int → Int} (h : ∀ x, e.call x = .ok (f x)) : ∀ xs, callAll e xs = .ok (xs.map f) := by
  intro xs
  induction xs with
  | nil => rfl
  | cons x xs ih => simp only [callAll, h, ih, bind, Except.bind, pure, Except.pure, List.map_cons]

theorem diff_sum (f g : Int → Int) : ∀ xs : List Int,
    (List.zipWith (fun a b => a - b) (xs.map f) (xs.map g)).sum = (xs.map (fun x => f x - g x)).sum := by
  intro xs
  induction xs with
  | nil => rfl
  | cons x xs ih => simp only [List.map_cons, List.zipWith_cons_cons, List.sum_cons, ih]

theorem sum_zero {xs : List Int} (h : ∀ x ∈ xs, x = 0) : xs.sum = 0 := by
  induction xs with
  | nil => rfl
  | cons x xs ih =>
    rw [List.sum_cons, h x List.mem_cons_self, ih (fun y hy => h y (List.mem_cons_of_mem _ hy))]; rfl

theorem sum_nonneg {xs : List Int} (h : ∀ x ∈ xs, 0 ≤ x) : 0 ≤ xs.sum := by
  induction xs with
  | nil => exact Int.le_refl 0
  | cons x xs ih =>
    have := h x List.mem_cons_self
    have := ih (fun y hy => h y (List.mem_cons_of_mem _ hy))
    rw [List.sum_cons]; omega

theorem sum_pos {xs : List Int} (h : ∀ x ∈ xs, 0 ≤ x) {y : Int} (hy : y ∈ xs) (hp : 0 < y) : 0 < xs.sum := by
  induction xs with
  | nil => simp at hy
  | cons x xs ih =>
    have h0 := h x List.mem_cons_self
    have hr := fun z hz => h z (List.mem_cons_of_mem x hz)
    rw [List.sum_cons]
    rcases List.mem_cons.mp hy with rfl | hm
    · have := sum_nonneg hr; omega
    · have := ih hr hm; omega

/-- `x ↦ ⌈x/a⌉` is characterised by its bounds -/
theorem ceil_unique {a x c : Int} (ha : 0 < a) (h1 : (c - 1) * a < x) (h2 : x ≤ c * a) : ceilDiv x a = c := by
  have k1 := lt_ceilDiv (a := x) ha (c - 1)
  have k2 := lt_ceilDiv (a := x) ha c
  have : c - 1 < ceilDiv x a := k1.mpr h1
  have : ¬ c < ceilDiv x a := fun h => by have := k2.mp h; omega
  omega

theorem floor_unique {a x c : Int} (ha : 0 < a) (h1 : c * a ≤ x) (h2 : x < (c + 1) * a) : Int.fdiv x a = c := by
  rw [Int.fdiv_eq_ediv_of_nonneg _ (by omega)]
  rw [Int.add_mul] at h2
  exact ((Int.ediv_emod_unique (a := x) (b := a) (q := c) (r := x - c * a) ha).mpr
      ⟨by rw [Int.mul_comm a]; omega, by omega, by omega⟩).1

theorem idx_map {xs : List Int} {i : Nat} (f : Int → Int) (h : i < xs.length) :
    idx xs i = .ok xs[i] ∧ idx (xs.map f) i = .ok (f xs[i]) := by
  unfold idx
  rw [List.getElem?_map, List.getElem?_eq_getElem h]
  exact ⟨rfl, rfl⟩

/-- `updLoop` leaves the variables that are not (re)computed alone. -/
theorem updLoop_other : ∀ (es : Dict (String × ValueExpr)) (vs vs' : Dict Int), updLoop es vs = .ok vs' →
    ∀ q, q ∉ es.keys → vs'.get? q = vs.get? q := by
  intro es
  induction es with
  | nil => intro vs vs' h q _; simp only [updLoop, Except.ok.injEq] at h; rw [h]
  | cons p es ih =>
    intro vs vs' h q hq
    obtain ⟨k, src, e⟩ := p
    simp only [Dict.keys, List.map_cons, List.mem_cons, not_or] at hq
    simp only [updLoop] at h
    split at h
    · cases h
    · simp only [bind, Except.bind] at h
      split at h
      · cases h
      · rename_i y _
        rw [ih _ _ h q hq.2, Dict.get?_set_ne _ _ (fun e => hq.1 e.symm)]

end OnnxTool.Engine
