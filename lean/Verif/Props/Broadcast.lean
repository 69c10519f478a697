import Verif.Proofs.Volume
/-!
# C19, C20: broadcasting shape inference
-/
namespace OnnxTool.Props
open OnnxTool Shape

/-- **C19.** For any list of shapes of any rank, `_broadcast_shape` returns `r` iff `r` is the broadcast of the shapes; when
the shapes have no broadcast it raises `ValueError`, and it never raises otherwise. -/
theorem C19_broadcast_exact (ss : List (List Nat)) :
    (∀ r, broadcastShape ss = .ok r ↔ IsBroadcast ss r) ∧
    ((¬ ∃ r, IsBroadcast ss r) ↔ broadcastShape ss = .error .valueError) := by
  refine ⟨broadcast_iff ss, ?_⟩
  constructor
  · intro h
    cases e : broadcastShape ss with
    | ok r => exact absurd ⟨r, (broadcast_iff ss r).mp e⟩ h
    | error x => rw [broadcast_error e]
  · rintro h ⟨r, hr⟩
    rw [(broadcast_iff ss r).mpr hr] at h
    cases h

private theorem bc_all {ss : List (List Nat)} {r : List Nat} (h : IsBroadcast ss r) (i : Nat) :
    (∀ s ∈ ss, dimR s i = 1 ∨ dimR s i = dimR r i) ∧ (dimR r i = 1 ∨ ∃ s ∈ ss, dimR s i = dimR r i) := by
  rcases Nat.lt_or_ge i r.length with hi | hi
  · exact ⟨h.compat i hi, h.attained i hi⟩
  · refine ⟨fun s hs => Or.inl (dimR_ge (Nat.le_trans (h.rank_ge s hs) hi)), Or.inl (dimR_ge hi)⟩

private theorem bc_mem {ss ts : List (List Nat)} (h : ∀ s, s ∈ ss ↔ s ∈ ts) {r : List Nat} (hb : IsBroadcast ss r) :
    IsBroadcast ts r :=
  ⟨fun s hs => hb.rank_ge s ((h s).mpr hs),
   hb.rank_le.imp id (fun ⟨s, hs, e⟩ => ⟨s, (h s).mp hs, e⟩),
   fun i hi s hs => hb.compat i hi s ((h s).mpr hs),
   fun i hi => (hb.attained i hi).imp id (fun ⟨s, hs, e⟩ => ⟨s, (h s).mp hs, e⟩)⟩

private theorem bc_ext {ss ts : List (List Nat)} (h : ∀ r, IsBroadcast ss r ↔ IsBroadcast ts r) :
    broadcastShape ss = broadcastShape ts := by
  cases e : broadcastShape ts with
  | ok r => exact (broadcast_iff ss r).mpr ((h r).mpr ((broadcast_iff ts r).mp e))
  | error x =>
    cases e2 : broadcastShape ss with
    | ok r =>
      have := (broadcast_iff ts r).mpr ((h r).mp ((broadcast_iff ss r).mp e2))
      rw [e] at this; cases this
    | error y => rw [broadcast_error e, broadcast_error e2]

/-- **C19, argument order.** The result depends only on the set of operand shapes: not on their order nor on repetitions. -/
theorem C19_order_independent (ss ts : List (List Nat)) (h : ∀ s, s ∈ ss ↔ s ∈ ts) :
    broadcastShape ss = broadcastShape ts :=
  bc_ext fun _ => ⟨bc_mem h, bc_mem (fun s => (h s).symm)⟩

/-- **C19, grouping.** Broadcasting some operands first and the result with the others is the same as broadcasting all at
once. -/
theorem C19_grouping (ss ts : List (List Nat)) (r : List Nat) (h : broadcastShape ss = .ok r) :
    broadcastShape (r :: ts) = broadcastShape (ss ++ ts) := by
  have hr := (broadcast_iff ss r).mp h
  apply bc_ext
  intro q
  constructor
  · intro hq
    refine ⟨?_, ?_, ?_, ?_⟩
    · intro s hs
      rcases List.mem_append.mp hs with hs | hs
      · exact Nat.le_trans (hr.rank_ge s hs) (hq.rank_ge r (by simp))
      · exact hq.rank_ge s (by simp [hs])
    · rcases hq.rank_le with e | ⟨s, hs, e⟩
      · exact Or.inl e
      · rcases List.mem_cons.mp hs with e2 | hs
        · subst e2
          rcases hr.rank_le with e3 | ⟨t, ht, e3⟩
          · subst e3; exact Or.inl (List.eq_nil_of_length_eq_zero e.symm)
          · exact Or.inr ⟨t, by simp [ht], by omega⟩
        · exact Or.inr ⟨s, by simp [hs], e⟩
    · intro i _ s hs
      rcases List.mem_append.mp hs with hs | hs
      · rcases (bc_all hr i).1 s hs with e | e
        · exact Or.inl e
        · rw [e]; exact (bc_all hq i).1 r (by simp)
      · exact (bc_all hq i).1 s (by simp [hs])
    · intro i _
      rcases (bc_all hq i).2 with e | ⟨s, hs, e⟩
      · exact Or.inl e
      · rcases List.mem_cons.mp hs with e2 | hs
        · subst e2
          rcases (bc_all hr i).2 with e3 | ⟨t, ht, e3⟩
          · left; omega
          · exact Or.inr ⟨t, by simp [ht], by omega⟩
        · exact Or.inr ⟨s, by simp [hs], e⟩
  · intro hq
    have hrq : r.length ≤ q.length := by
      rcases hr.rank_le with e | ⟨s, hs, e⟩
      · subst e; simp
      · rw [← e]; exact hq.rank_ge s (by simp [hs])
    refine ⟨?_, ?_, ?_, ?_⟩
    · intro s hs
      rcases List.mem_cons.mp hs with e2 | hs
      · subst e2; exact hrq
      · exact hq.rank_ge s (by simp [hs])
    · rcases hq.rank_le with e | ⟨s, hs, e⟩
      · exact Or.inl e
      · rcases List.mem_append.mp hs with hs | hs
        · have := hr.rank_ge s hs
          exact Or.inr ⟨r, by simp, by omega⟩
        · exact Or.inr ⟨s, by simp [hs], e⟩
    · intro i _ s hs
      rcases List.mem_cons.mp hs with e2 | hs
      · subst e2
        rcases (bc_all hr i).2 with e3 | ⟨t, ht, e3⟩
        · exact Or.inl e3
        · rw [← e3]; exact (bc_all hq i).1 t (by simp [ht])
      · exact (bc_all hq i).1 s (by simp [hs])
    · intro i _
      rcases (bc_all hq i).2 with e | ⟨s, hs, e⟩
      · exact Or.inl e
      · rcases List.mem_append.mp hs with hs | hs
        · rcases (bc_all hr i).1 s hs with e3 | e3
          · left; omega
          · exact Or.inr ⟨r, by simp, by omega⟩
        · exact Or.inr ⟨s, by simp [hs], e⟩

/-- a broadcast with three operands of different ranks, and an incompatible one -/
example : broadcastShape [[8, 1, 6, 1], [7, 1, 5], [5]] = .ok [8, 7, 6, 5] ∧
    broadcastShape [[2, 1], [8, 4, 3]] = .error .valueError ∧ broadcastShape [[0, 3], [1]] = .ok [0, 3] := ⟨rfl, rfl, rfl⟩
example : IsBroadcast [[8, 1, 6, 1], [7, 1, 5], [5]] [8, 7, 6, 5] := (C19_broadcast_exact _).1 _ |>.mp rfl

/-- **C19, `Expand` (partial).** `Expand` returns the broadcast of the data shape and the target whenever they are
compatible and no dimension is zero.  Missing: zero dimensions and incompatible shapes, see below. -/
theorem C19_expand_partial (x e r : List Nat) (h : IsBroadcast [x, e] r) (hx : ∀ d ∈ x, 0 < d) (he : ∀ d ∈ e, 0 < d) :
    expandShape x e = r := by
  have hxl := h.rank_ge x (by simp)
  have hel := h.rank_ge e (by simp)
  have hl : r.length = max x.length e.length := by
    rcases h.rank_le with e0 | ⟨s, hs, e0⟩
    · subst e0; simp at hxl hel; simp [hxl, hel]
    · simp only [List.mem_cons, List.not_mem_nil, or_false] at hs
      rcases hs with e1 | e1 <;> subst e1 <;> omega
  have e1 : padTo e.length x = padTo r.length x := by
    unfold padTo
    by_cases hc : x.length < e.length
    · rw [if_pos hc, if_pos (by omega), show r.length = e.length by omega]
    · rw [if_neg hc, if_neg (by omega)]
  have e2 : padTo x.length e = padTo r.length e := by
    unfold padTo
    by_cases hc : e.length < x.length
    · rw [if_pos hc, if_pos (by omega), show r.length = x.length by omega]
    · rw [if_neg hc, if_neg (by omega)]
  unfold expandShape
  rw [e1, e2]
  apply List.ext_getElem
  · simp [padTo_length hxl, padTo_length hel]
  · intro k hk1 hk2
    rw [List.getElem_zipWith]
    have hx1 := padTo_getD hxl hk2
    have he1 := padTo_getD hel hk2
    have hr1 := getD_reverse (r := r) hk2
    rw [List.getD_eq_getElem?_getD, List.getElem?_eq_getElem (by rw [padTo_length hxl]; exact hk2), Option.getD_some] at hx1
    rw [List.getD_eq_getElem?_getD, List.getElem?_eq_getElem (by rw [padTo_length hel]; exact hk2), Option.getD_some] at he1
    rw [List.getD_eq_getElem?_getD, List.getElem?_eq_getElem hk2, Option.getD_some] at hr1
    rw [hx1, he1, hr1]
    have hi : r.length - 1 - k < r.length := by omega
    have p1 := dimR_pos hx (r.length - 1 - k)
    have p2 := dimR_pos he (r.length - 1 - k)
    have c1 := h.compat _ hi x (by simp)
    have c2 := h.compat _ hi e (by simp)
    rcases h.attained _ hi with a | ⟨s, hs, a⟩
    · omega
    · simp only [List.mem_cons, List.not_mem_nil, or_false] at hs
      rcases hs with e | e <;> subst e <;> omega

example : IsBroadcast [[3, 1], [2, 1, 6]] [2, 3, 6] ∧ expandShape [3, 1] [2, 1, 6] = [2, 3, 6] :=
  ⟨(C19_broadcast_exact _).1 _ |>.mp rfl, rfl⟩

/-- **C19 finding**: expanding an empty dimension by 1 gives size 1 instead of 0, and incompatible shapes are accepted. -/
theorem C19_expand_wrong : (broadcastShape [[0, 3], [1, 1]] = .ok [0, 3] ∧ expandShape [0, 3] [1, 1] = [1, 3]) ∧
    (broadcastShape [[2], [3]] = .error .valueError ∧ expandShape [2] [3] = [3]) := ⟨⟨rfl, rfl⟩, rfl, rfl⟩

/-- **C20.** For any non-empty list of operand shapes pointwise inference returns an operand's shape of maximal element
count (as counted by the tool); among those, one of maximal rank. -/
theorem C20_max_shape (ss : List (List Nat)) (hne : ss ≠ []) :
    ∃ r, maxShape ss = .ok r ∧ r ∈ ss ∧ ∀ s ∈ ss, volume s ≤ volume r ∧ (volume s = volume r → s.length ≤ r.length) := by
  cases ss with
  | nil => exact absurd rfl hne
  | cons s0 rest =>
    obtain ⟨r, h1, h2, -, -, h5⟩ := maxLoop_ok (s0 :: rest) s0
    refine ⟨r, by simp only [maxShape, h1], ?_, h5⟩
    rcases h2 with e | e
    · subst e; simp
    · exact e

/-- **C20, element counts.** The tool's element count is the product of the dimensions, except that it is 0 for a scalar. -/
theorem C20_volume (s : List Nat) : volume s = if s = [] then 0 else elems s := volume_eq s

/-- **C20, broadcast.** If all dimensions are positive and one operand already has the broadcast shape, exactly that shape
is returned. -/
theorem C20_returns_broadcast (ss : List (List Nat)) (r : List Nat) (hr : r ∈ ss) (hb : IsBroadcast ss r)
    (hpos : ∀ s ∈ ss, ∀ d ∈ s, 0 < d) : maxShape ss = .ok r := by
  obtain ⟨m, h1, h2, h3⟩ := C20_max_shape ss (by rintro rfl; cases hr)
  rw [h1]
  congr 1
  have hml := hb.rank_ge m h2
  have h4 := h3 r hr
  have hle := elems_bc_le hml (hpos r hr) (fun i hi => hb.compat i hi m h2)
  rw [volume_eq, volume_eq] at h4
  by_cases er : r = []
  · subst er; exact List.eq_nil_of_length_eq_zero (by simpa using hml)
  · rw [if_neg er] at h4
    by_cases em : m = []
    · rw [if_pos em] at h4
      have := elems_pos (hpos r hr)
      omega
    · rw [if_neg em] at h4
      have heq : elems m = elems r := by omega
      have hlen := h4.2 heq.symm
      exact elems_bc_eq (by omega) (hpos m h2) (hpos r hr) (fun i hi => hb.compat i hi m h2) heq

example : maxShape [[1, 3], [2, 1, 3], [2, 5, 3], [1]] = .ok [2, 5, 3] ∧
    IsBroadcast [[1, 3], [2, 1, 3], [2, 5, 3], [1]] [2, 5, 3] := ⟨rfl, (C19_broadcast_exact _).1 _ |>.mp rfl⟩

/-- **C20 finding**: with no operand of the broadcast shape, or with an empty dimension, pointwise inference is wrong. -/
theorem C20_not_broadcast_in_general :
    (maxShape [[2, 1], [1, 3]] = .ok [1, 3] ∧ broadcastShape [[2, 1], [1, 3]] = .ok [2, 3]) ∧
    (maxShape [[0, 3], [1, 3]] = .ok [1, 3] ∧ broadcastShape [[0, 3], [1, 3]] = .ok [0, 3]) := ⟨⟨rfl, rfl⟩, rfl, rfl⟩

end OnnxTool.Props
