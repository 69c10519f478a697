import Verif.Model.FixedShapes
import Verif.Spec.FixedShapes
import Mathlib.Tactic.NormNum
/-!
# C129: shapes of Scan, ZipMap and GeGelu
-/
namespace OnnxTool.Props
open OnnxTool OnnxTool.Engine OnnxTool.FixedShapes

/-! ## Scan -/

/-- Five outputs or more, four operands or more: fixed shapes for three, that of the fourth operand for two, the rest untouched. -/
theorem C129_scan_shapes (ins : List (List Dim)) (t : List Dim) (ht : ins[3]? = some t) (a b c d e : List Dim) (more : List (List Dim)) :
    scan ins (a :: b :: c :: d :: e :: more) = ([.num 1, .num 1] :: [.num 1, .num 1] :: [.num 1] :: t :: t :: more, none) := by
  simp [scan, scanWrites, scanRun, ht]

/-- Whatever the node is: a Scan of five outputs is given the right shapes exactly when they are these. -/
theorem C129_scan_iff (ins outs : List (List Dim)) (states perStep : List (List Dim)) (length : Dim) (t : List Dim) (ht : ins[3]? = some t)
    (h5 : outs.length = 5) :
    scan ins outs = (scanShapes states length perStep, none) ↔
      scanShapes states length perStep = [[.num 1, .num 1], [.num 1, .num 1], [.num 1], t, t] := by
  match outs, h5 with
  | [a, b, c, d, e], _ =>
    rw [C129_scan_shapes ins t ht]
    simp [eq_comm]

/-- Fewer than five outputs: always an `IndexError`, whatever the operands. -/
theorem C129_scan_few (ins outs : List (List Dim)) (h : outs.length < 5) : (scan ins outs).2 = some .indexError := by
  rcases ht : ins[3]? with _ | t
  · match outs, h with
    | [], _ => simp [scan, scanWrites, scanRun]
    | [a], _ => simp [scan, scanWrites, scanRun, ht]
    | [a, b], _ => simp [scan, scanWrites, scanRun, ht]
    | [a, b, c], _ => simp [scan, scanWrites, scanRun, ht]
    | [a, b, c, d], _ => simp [scan, scanWrites, scanRun, ht]
  · match outs, h with
    | [], _ => simp [scan, scanWrites, scanRun]
    | [a], _ => simp [scan, scanWrites, scanRun, ht]
    | [a, b], _ => simp [scan, scanWrites, scanRun, ht]
    | [a, b, c], _ => simp [scan, scanWrites, scanRun, ht]
    | [a, b, c, d], _ => simp [scan, scanWrites, scanRun, ht]

/-- Fewer than four operands: always an `IndexError`, whatever the outputs.  (ONNX asks for one operand.) -/
theorem C129_scan_few_operands (ins outs : List (List Dim)) (h : ins.length < 4) : (scan ins outs).2 = some .indexError := by
  have ht : ins[3]? = none := by simpa using (show ins.length ≤ 3 by omega)
  unfold scan scanWrites
  split <;> rename_i h2
  · simp only [List.cons_append, scanRun, ht]
    split <;> rfl
  · simp only [List.nil_append, scanRun, ht]
    split <;> rfl

/-- The case of two outputs, which the code provides for, is a failure of its own: the shapes set first are replaced by `[1, 1]`, then the third output is missing. -/
theorem C129_scan_two (ins : List (List Dim)) (t : List Dim) (ht : ins[3]? = some t) (a b : List Dim) :
    scan ins [a, b] = ([[.num 1, .num 1], [.num 1, .num 1]], some .indexError) := by
  simp [scan, scanWrites, scanRun, ht]

/-- a running sum over 10 vectors of 4 numbers, with its partial sums: two operands, two outputs -/
theorem C129_scan_counterexample :
    scan [[.num 4], [.num 10, .num 4]] [[], []] = ([[], []], some .indexError) ∧
    scanShapes [[.num 4]] (.num 10) [[.num 4]] = [[.num 4], [.num 10, .num 4]] := by decide

/-- five states that are carried along; `[1, 1]`, `[1, 1]`, `[1]`, `[3]`, `[3]` come out right, `[7]`, `[7]`, `[1]`, `[3]`, `[3]` do not -/
theorem C129_scan_states_counterexample :
    scan [[.num 7], [.num 7], [.num 1], [.num 3], [.num 3]] (List.replicate 5 []) ≠
      (scanShapes [[.num 7], [.num 7], [.num 1], [.num 3], [.num 3]] (.num 9) [], none) ∧
    scan [[.num 1, .num 1], [.num 1, .num 1], [.num 1], [.num 3], [.num 3]] (List.replicate 5 []) =
      (scanShapes [[.num 1, .num 1], [.num 1, .num 1], [.num 1], [.num 3], [.num 3]] (.num 9) [], none) := by decide

/-! ## ZipMap -/

/-- One map for each row of a matrix; a vector needs to have one element. -/
theorem C129_zipmap_iff (s : List Dim) (n : Dim) (h : mapsOf s = some n) : zipMap s = .ok [n] ↔ s.length = 2 ∨ s = [.num 1] := by
  match s, h with
  | [r, c], h =>
    simp only [mapsOf, Option.some.injEq] at h
    simp [zipMap, h]
  | [d], h =>
    simp only [mapsOf, Option.some.injEq] at h
    simp [zipMap, ← h]

example : mapsOf [.var "N", .num 3] = some (.var "N") ∧ zipMap [.var "N", .num 3] = .ok [.var "N"] := by decide

/-- the probabilities of one sample, three classes: one map, three are inferred -/
theorem C129_zipmap_counterexample : mapsOf [.num 3] = some (.num 1) ∧ zipMap [.num 3] = .ok [.num 3] := by decide

/-! ## GeGelu -/

/-- A last axis of even length: the other axes stay, names included. -/
theorem C129_gegelu (front : List Dim) (h : Int) : ∃ out, geGelu (front ++ [.num (2 * h)]) = .ok out ∧ HalfOf (front ++ [.num (2 * h)]) out := by
  refine ⟨front ++ [.num h], ?_, front, h, rfl, rfl⟩
  simp [geGelu]

/-- Only then: whatever shape comes out of an odd last axis, no two halves have it. -/
theorem C129_gegelu_iff (s out : List Dim) (hrun : geGelu s = .ok out) : HalfOf s out ↔ ∃ n : Int, s.getLast? = some (.num n) ∧ n % 2 = 0 := by
  constructor
  · rintro ⟨front, h, h1, h2⟩
    exact ⟨2 * h, by rw [h1]; simp, by omega⟩
  · rintro ⟨n, h1, h2⟩
    obtain ⟨front, rfl⟩ := List.getLast?_eq_some_iff.mp h1
    simp [geGelu] at hrun
    refine ⟨front, n / 2, ?_, hrun.symm⟩
    rw [show 2 * (n / 2) = n by omega]

/-- The rank stays, and of the shape only the last axis changes. -/
theorem C129_gegelu_rank (s out : List Dim) (hrun : geGelu s = .ok out) : out.length = s.length ∧ out.dropLast = s.dropLast := by
  unfold geGelu at hrun
  split at hrun
  · rename_i n h1
    obtain ⟨front, rfl⟩ := List.getLast?_eq_some_iff.mp h1
    injection hrun with e
    subst e
    simp
  · cases hrun
  · cases hrun

/-- It fails exactly for a scalar and for a last axis that is not a number. -/
theorem C129_gegelu_fails_iff (s : List Dim) : (∃ e, geGelu s = .error e) ↔ s = [] ∨ ∃ x, s.getLast? = some (.var x) := by
  rcases h : s.getLast? with _ | (n | x)
  · have := List.getLast?_eq_none_iff.mp h
    simp [geGelu, this]
  · have : s ≠ [] := by rintro rfl; simp at h
    simp [geGelu, h, this]
  · simp [geGelu, h]

/-- five numbers: two are left, and twice two are not five -/
theorem C129_gegelu_counterexample : geGelu [.num 5] = .ok [.num 2] ∧ (2 : Int) * 2 ≠ 5 := by decide

end OnnxTool.Props
