import Verif.Model.NodeMemory
import Verif.Props.Profile
import Verif.Props.AxisOps
import Verif.Spec.Slice
import Mathlib.Tactic.Ring
import Mathlib.Tactic.Linarith
/-!
# C128: the memory a node is charged
-/
namespace OnnxTool.Props
open OnnxTool OnnxTool.Profile

/-- the bytes of tensors -/
def bytesOfAll (l : List TInfo) : Nat := (l.map fun t => volume t.shape * t.elesize).sum

/-- the operands that are weights: named and static -/
def weightsAmong (its : List TInfo) : List TInfo := its.filter fun t => t.name != "" && t.static

private theorem sum_diff (l : List TInfo) (e : Nat) : (((l.map fun t => volume t.shape).sum * e : Nat) : Int) =
    bytesOfAll l + (l.map fun t => (volume t.shape : Int) * ((e : Int) - t.elesize)).sum := by
  unfold bytesOfAll
  induction l with
  | nil => simp
  | cons t l ih =>
    simp only [List.map_cons, List.sum_cons] at ih ⊢
    push_cast at ih ⊢
    linarith

private theorem row_of {prof : Prof} {tm : Dict TInfo} {n : Node} {r : Row} (h : profileNode prof tm n = .ok r) :
    ∃ its ots macs io st, lookups tm n.input = .ok its ∧ lookups tm n.output = .ok ots ∧ prof n its ots = .ok (macs, io, st) ∧
      r.memory = io * (match ots with | [] => 4 | o :: _ => o.elesize) + st * (match its with | [] => 4 | i :: _ => i.elesize) := by
  unfold profileNode at h
  split at h
  · cases h
  · rename_i its hi
    split at h
    · cases h
    · rename_i ots ho
      split at h
      · cases h
      · rename_i macs io st hp
        cases h
        exact ⟨its, ots, macs, io, st, hi, ho, hp, rfl⟩

/-- **What a row of the profile is charged, against the bytes of its outputs and weights: the difference is what the element sizes of the first output and of the first operand make it.** -/
theorem C128_exact (core : Node → List TInfo → List TInfo → Except PyErr ℚ) (tm : Dict TInfo) (n : Node) (r : Row) (h : profileNode (nodeProf core) tm n = .ok r)
    (i0 o0 : TInfo) (its ots : List TInfo) (hi : lookups tm n.input = .ok (i0 :: its)) (ho : lookups tm n.output = .ok (o0 :: ots)) :
    (r.memory : Int) = bytesOfAll (o0 :: ots) + bytesOfAll (weightsAmong (i0 :: its)) +
      ((o0 :: ots).map fun t => (volume t.shape : Int) * ((o0.elesize : Int) - t.elesize)).sum +
      ((weightsAmong (i0 :: its)).map fun t => (volume t.shape : Int) * ((i0.elesize : Int) - t.elesize)).sum := by
  obtain ⟨its', ots', macs, io, st, h1, h2, h3, h4⟩ := row_of h
  rw [hi] at h1
  rw [ho] at h2
  cases h1
  cases h2
  unfold nodeProf at h3
  split at h3
  · cases h3
  · cases h3
    rw [h4]
    have a := sum_diff (o0 :: ots) o0.elesize
    have b := sum_diff (weightsAmong (i0 :: its)) i0.elesize
    push_cast at a b ⊢
    unfold staticOf weightsAmong at *
    linarith

/-- **So it is the bytes of the outputs and the weights if all outputs have elements of one size and all weights have elements of the size of the first operand's.** -/
theorem C128_bytes_partial (core : Node → List TInfo → List TInfo → Except PyErr ℚ) (tm : Dict TInfo) (n : Node) (r : Row) (h : profileNode (nodeProf core) tm n = .ok r)
    (i0 o0 : TInfo) (its ots : List TInfo) (hi : lookups tm n.input = .ok (i0 :: its)) (ho : lookups tm n.output = .ok (o0 :: ots))
    (hout : ∀ t ∈ ots, t.elesize = o0.elesize) (hw : ∀ t ∈ weightsAmong (i0 :: its), t.elesize = i0.elesize) :
    r.memory = bytesOfAll (o0 :: ots) + bytesOfAll (weightsAmong (i0 :: its)) := by
  have := C128_exact core tm n r h i0 o0 its ots hi ho
  have z : ∀ (l : List TInfo) (e : Nat), (∀ t ∈ l, t.elesize = e) → (l.map fun t => (volume t.shape : Int) * ((e : Int) - t.elesize)).sum = 0 := by
    intro l e
    induction l with
    | nil => intro _; rfl
    | cons t l ih =>
      intro hl
      rw [List.map_cons, List.sum_cons, ih fun x hx => hl x (List.mem_cons_of_mem _ hx), hl t List.mem_cons_self]
      ring
  rw [z _ _ (fun t ht => by
    rcases List.mem_cons.mp ht with rfl | ht
    · rfl
    · exact hout t ht), z _ _ hw] at this
  simp only [add_zero] at this
  exact_mod_cast this

/-- **A node with one output and one weight: exactly if the weight is empty or has elements of the size of the first operand's.** -/
theorem C128_one_weight_iff (core : Node → List TInfo → List TInfo → Except PyErr ℚ) (tm : Dict TInfo) (n : Node) (r : Row) (h : profileNode (nodeProf core) tm n = .ok r)
    (i0 o0 w : TInfo) (its : List TInfo) (hi : lookups tm n.input = .ok (i0 :: its)) (ho : lookups tm n.output = .ok [o0]) (hw : weightsAmong (i0 :: its) = [w]) :
    r.memory = bytesOfAll [o0] + bytesOfAll [w] ↔ volume w.shape = 0 ∨ w.elesize = i0.elesize := by
  have := C128_exact core tm n r h i0 o0 its [] hi ho
  rw [hw] at this
  simp only [List.map_cons, List.map_nil, List.sum_cons, List.sum_nil, sub_self, mul_zero, add_zero] at this
  constructor
  · intro he
    have h0 : (volume w.shape : Int) * ((i0.elesize : Int) - w.elesize) = 0 := by
      rw [he] at this
      push_cast at this
      linarith
    rcases mul_eq_zero.mp h0 with h0 | h0
    · exact .inl (by exact_mod_cast h0)
    · exact .inr (by omega)
  · intro he
    have h0 : (volume w.shape : Int) * ((i0.elesize : Int) - w.elesize) = 0 := by
      rcases he with he | he
      · rw [he]; simp
      · rw [he]; simp
    rw [h0] at this
    simp only [add_zero] at this
    exact_mod_cast this

/-- no multiplications are counted in these examples -/
private def noMacs : Node → List TInfo → List TInfo → Except PyErr ℚ := fun _ _ _ => .ok 0

/-- a product of float activations with a weight of bytes: the weight is charged four times its size -/
private def byteWeight : Dict TInfo := [("x", ⟨"x", false, [2, 3], 4⟩), ("w", ⟨"w", true, [3, 5], 1⟩), ("y", ⟨"y", false, [2, 5], 4⟩)]

theorem C128_byte_weight_counterexample :
    (profileNode (nodeProf noMacs) byteWeight ⟨"m", "MatMul", ["x", "w"], ["y"]⟩).toOption.map (·.memory) = some (10 * 4 + 15 * 4) ∧
    bytesOfAll [⟨"y", false, [2, 5], 4⟩] + bytesOfAll [⟨"w", true, [3, 5], 1⟩] = 10 * 4 + 15 := by decide

/-- `TopK`: values of two bytes, positions of eight; the positions are charged two bytes each -/
private def halfTopk : Dict TInfo := [("x", ⟨"x", false, [100], 2⟩), ("k", ⟨"k", true, [1], 8⟩), ("v", ⟨"v", false, [7], 2⟩), ("i", ⟨"i", false, [7], 8⟩)]

theorem C128_topk_counterexample :
    (profileNode (nodeProf noMacs) halfTopk ⟨"t", "TopK", ["x", "k"], ["v", "i"]⟩).toOption.map (·.memory) = some (14 * 2 + 1 * 2) ∧
    bytesOfAll [⟨"v", false, [7], 2⟩, ⟨"i", false, [7], 8⟩] + bytesOfAll [⟨"k", true, [1], 8⟩] = 14 + 56 + 8 := by decide

/-- the same graph with floats throughout meets the hypotheses of `C128_bytes_partial` -/
private def floatWeight : Dict TInfo := [("x", ⟨"x", false, [2, 3], 4⟩), ("w", ⟨"w", true, [3, 5], 4⟩), ("y", ⟨"y", false, [2, 5], 4⟩)]

example : (profileNode (nodeProf noMacs) floatWeight ⟨"m", "MatMul", ["x", "w"], ["y"]⟩).toOption.map (·.memory) = some (10 * 4 + 15 * 4) ∧
    weightsAmong [⟨"x", false, [2, 3], 4⟩, ⟨"w", true, [3, 5], 4⟩] = [⟨"w", true, [3, 5], 4⟩] := by decide

/-! ## Gather -/

/-- What a row of Gather is charged. -/
theorem C128_gather_row (tm : Dict TInfo) (n : Node) (r : Row) (h : profileNode gatherProf tm n = .ok r) :
    ∃ table ids its o ots hidden, lookups tm n.input = .ok (table :: ids :: its) ∧ lookups tm n.output = .ok (o :: ots) ∧ table.shape.getLast? = some hidden ∧
      r.memory = volume o.shape * o.elesize + volume ids.shape * hidden * table.elesize := by
  obtain ⟨its, ots, macs, io, st, h1, h2, h3, h4⟩ := row_of h
  unfold gatherProf at h3
  split at h3
  · rename_i table ids its'
    split at h3
    · cases h3
    · rename_i hidden hl
      split at h3
      · cases h3
      · rename_i o ots'
        cases h3
        exact ⟨table, ids, its', o, ots', hidden, h1, h2, hl, h4⟩
  · cases h3

/-- A lookup computes nothing. -/
theorem C128_gather_macs (tm : Dict TInfo) (n : Node) (r : Row) (h : profileNode gatherProf tm n = .ok r) : r.macs = 0 := by
  unfold profileNode at h
  cases h1 : lookups tm n.input with
  | error e => rw [h1] at h; cases h
  | ok its =>
    rw [h1] at h
    simp only [] at h
    cases h2 : lookups tm n.output with
    | error e => rw [h2] at h; cases h
    | ok ots =>
      rw [h2] at h
      simp only [] at h
      cases h3 : gatherProf n its ots with
      | error e => rw [h3] at h; cases h
      | ok q =>
        rw [h3] at h
        injection h with h
        subst h
        unfold gatherProf at h3
        split at h3
        · split at h3
          · cases h3
          · split at h3
            · cases h3
            · cases h3; rfl
        · cases h3

private theorem volume_prod (s : List Nat) (h : s ≠ []) : volume s = s.prod := by
  cases s with
  | nil => exact absurd rfl h
  | cons d ds => exact C35_volume d ds

/-- **The elements a Gather reads — one for each element of its output — are what it is charged exactly if the table's last dimension is the product of all its dimensions but the
axis, or nothing is looked up.** -/
theorem C128_gather_iff (axis : Int) (x ids : List Nat) (hidden : Nat) (hax : -(x.length : Int) ≤ axis ∧ axis < x.length) (hl : x.getLast? = some hidden) (hids : ids ≠ []) :
    volume ids * hidden = volume (Axes.gatherShape axis x ids) ↔
      ids.prod = 0 ∨ hidden = (x.take (Slice.axisOf x.length axis)).prod * (x.drop (Slice.axisOf x.length axis + 1)).prod := by
  have hg := C26_gather axis x ids hax
  have hne : Axes.gatherShape axis x ids ≠ [] := by
    rw [hg]
    simp [hids]
  rw [volume_prod ids hids, volume_prod _ hne, hg, List.prod_append, List.prod_append]
  constructor
  · intro he
    by_cases h0 : ids.prod = 0
    · exact .inl h0
    · right
      refine Nat.eq_of_mul_eq_mul_left (Nat.pos_of_ne_zero h0) ?_
      rw [he]
      ring
  · rintro (h0 | h0)
    · rw [h0]; simp
    · rw [h0]; ring

/-- **So looking up rows of a matrix (an embedding) is charged the elements it reads,** also if a row is looked up more than once. -/
theorem C128_embedding (rows hidden : Nat) (ids : List Nat) (hids : ids ≠ []) :
    volume ids * hidden = volume (Axes.gatherShape 0 [rows, hidden] ids) ∧ volume (Axes.gatherShape 0 [rows, hidden] ids) = ids.prod * hidden := by
  have h := (C128_gather_iff 0 [rows, hidden] ids hidden ⟨by simp, by simp⟩ rfl hids).mpr (.inr (by simp [Slice.axisOf]))
  exact ⟨h, by rw [← h, volume_prod ids hids]⟩

/-- It can exceed the table: more lookups than rows. -/
theorem C128_embedding_exceeds_iff (rows hidden : Nat) (ids : List Nat) (hids : ids ≠ []) (hh : 0 < hidden) : volume [rows, hidden] < volume ids * hidden ↔ rows < ids.prod := by
  rw [volume_prod ids hids, C35_volume]
  simp only [List.prod_cons, List.prod_nil, mul_one]
  exact Nat.mul_lt_mul_right hh

/-- picking columns of a matrix, or elements of a vector: 3 of 1000 columns of 8 elements are 24 elements, 3000 are charged; 2 of 1000 numbers, 2000 are charged -/
theorem C128_gather_counterexample :
    (volume [3] * 1000, volume (Axes.gatherShape 1 [8, 1000] [3])) = (3000, 24) ∧ (volume [2] * 1000, volume (Axes.gatherShape 0 [1000] [2])) = (2000, 2) := by decide

/-- a lookup in an activation: no operand is a weight, 12 elements are charged as weights all the same -/
theorem C128_gather_activation_counterexample :
    let x : TInfo := ⟨"x", false, [5, 4], 4⟩
    let ids : TInfo := ⟨"ids", false, [3], 8⟩
    let y : TInfo := ⟨"y", false, [3, 4], 4⟩
    (profileNode gatherProf [("x", x), ("ids", ids), ("y", y)] ⟨"g", "Gather", ["x", "ids"], ["y"]⟩).toOption.map (fun r => (r.params, r.memory)) = some (0, 12 * 4 + 12 * 4) ∧
      weightsAmong [x, ids] = [] := by decide

/-- a single index (a scalar): a row is read, none is charged -/
theorem C128_gather_scalar_counterexample : volume [] * 4 = 0 ∧ Axes.gatherShape 0 [5, 4] [] = [4] := by decide

end OnnxTool.Props
