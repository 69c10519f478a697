import Verif.Spec.KernelsTopK
import Verif.Proofs.KernelsElem
/-!
# C96: the TopK kernel

`IsTorchTopK` (what torch documents), `IsTopValues` and `IsTopIndices` (ONNX) are in `Spec/KernelsTopK.lean`.
-/
namespace OnnxTool.Props
open OnnxTool OnnxTool.Torch OnnxTool.Kernels

theorem inb_set {s idx : List Nat} {a k i : Nat} (h : InB (s.set a k) idx) (hi : i < k) : InB (s.set a k) (idx.set a i) := by
  rw [inb_iff] at h ⊢
  obtain ⟨h1, h2⟩ := h
  refine ⟨by simpa using h1, fun q hq => ?_⟩
  simp only [List.length_set] at h1 hq h2
  by_cases e : q = a
  · subst e
    rw [List.getD_eq_getElem?_getD, List.getD_eq_getElem?_getD, List.getElem?_set_self (by omega), List.getElem?_set_self (by omega)]
    exact hi
  · have := h2 q hq
    rw [List.getD_eq_getElem?_getD, List.getD_eq_getElem?_getD, List.getElem?_set_ne (fun c => e c.symm)] at this
    rw [List.getD_eq_getElem?_getD, List.getD_eq_getElem?_getD, List.getElem?_set_ne (fun c => e c.symm), List.getElem?_set_ne (fun c => e c.symm)]
    exact this

theorem before_total (l : Bool) (a b : ℚ) : Before l a b ∨ Before l b a := by
  unfold Before; cases l <;> simp [le_total]

theorem before_trans (l : Bool) {a b c : ℚ} (h : Before l a b) (h' : Before l b c) : Before l a c := by
  unfold Before at *
  cases l <;> simp only [if_true, Bool.false_eq_true, if_false] at * <;> linarith

instance (l : Bool) (a b : ℚ) : Decidable (Before l a b) := by unfold Before; split <;> infer_instance

/-- the chosen positions, followed by the others in order -/
theorem topk_positions {largest : Bool} {a k : Nat} {x v : Tensor ℚ} {ix : Tensor Int} (h : IsTorchTopK largest true a k x v ix) (idx : List Nat) (hi : InB v.shape idx) :
    ∃ l : List Nat, l.Perm (List.range (x.shape.getD a 0)) ∧ l.Pairwise (fun p q => Before largest (x.at (idx.set a p)) (x.at (idx.set a q))) ∧
      ∀ j, j < k → ∃ p, l[j]? = some p ∧ ix.at (idx.set a j) = p ∧ v.at (idx.set a j) = x.at (idx.set a p) := by
  have hs : ∀ i, i < k → InB v.shape (idx.set a i) := fun i hik => by rw [h.vshape] at hi ⊢; exact inb_set hi hik
  have hval : ∀ i, i < k → ∃ p : Nat, p < x.shape.getD a 0 ∧ ix.at (idx.set a i) = p ∧ v.at (idx.set a i) = x.at (idx.set a p) := by
    intro i hik
    obtain ⟨p, h1, h2, h3⟩ := h.value _ (hs i hik)
    rw [List.set_set] at h3
    exact ⟨p, h1, h2, h3⟩
  let f : Nat → ℚ := fun p => x.at (idx.set a p)
  let P : List Nat := (List.range k).map fun i => (ix.at (idx.set a i)).toNat
  let R : List Nat := ((List.range (x.shape.getD a 0)).filter fun p => decide (p ∉ P)).mergeSort fun p q => decide (Before largest (f p) (f q))
  have hP : ∀ i, i < k → P[i]? = some (ix.at (idx.set a i)).toNat := by
    intro i hik
    simp only [P, List.getElem?_map, List.getElem?_range hik, Option.map_some]
  have hPnd : P.Nodup := by
    rw [List.nodup_iff_pairwise_ne] 
    simp only [P, List.pairwise_map]
    refine (List.pairwise_lt_range).imp_of_mem ?_
    intro i j hi' hj hij e
    have hi' := List.mem_range.1 hi'
    have hj := List.mem_range.1 hj
    obtain ⟨p, -, e1, -⟩ := hval i hi'
    obtain ⟨q, -, e2, -⟩ := hval j hj
    refine h.distinct idx i j hi hi' hj (by omega) ?_
    rw [e1, e2] at e ⊢
    simp at e
    rw [e]
  have hPlt : ∀ p ∈ P, p < x.shape.getD a 0 := by
    intro p hp
    obtain ⟨i, hi', rfl⟩ := List.mem_map.1 hp
    obtain ⟨q, h1, h2, -⟩ := hval i (List.mem_range.1 hi')
    rw [h2]
    simpa using h1
  have hRmem : ∀ p, p ∈ R ↔ p < x.shape.getD a 0 ∧ p ∉ P := by
    intro p
    rw [(List.mergeSort_perm _ _).mem_iff, List.mem_filter]
    simp
  have hRnd : R.Nodup := (List.mergeSort_perm _ _).nodup_iff.2 (List.nodup_range.filter _)
  refine ⟨P ++ R, ?_, ?_, ?_⟩
  · rw [List.perm_ext_iff_of_nodup]
    · intro p
      rw [List.mem_append, hRmem, List.mem_range]
      constructor
      · rintro (c | c)
        · exact hPlt p c
        · exact c.1
      · intro c
        by_cases hp : p ∈ P
        · exact .inl hp
        · exact .inr ⟨c, hp⟩
    · rw [List.nodup_append]
      exact ⟨hPnd, hRnd, fun p hp q hq e => ((hRmem q).1 hq).2 (e ▸ hp)⟩
    · exact List.nodup_range
  · rw [List.pairwise_append]
    refine ⟨?_, ?_, ?_⟩
    · simp only [P, List.pairwise_map]
      refine (List.pairwise_lt_range).imp_of_mem ?_
      intro i j hi' hj hij
      have hi' := List.mem_range.1 hi'
      have hj := List.mem_range.1 hj
      obtain ⟨p, -, e1, v1⟩ := hval i hi'
      obtain ⟨q, -, e2, v2⟩ := hval j hj
      have := h.order rfl idx i j hi hij hj
      rw [v1, v2] at this
      rw [e1, e2]
      simpa using this
    · have := List.pairwise_mergeSort (le := fun p q => decide (Before largest (f p) (f q)))
        (fun p q r h1 h2 => by simp only [decide_eq_true_eq] at *; exact before_trans _ h1 h2)
        (fun p q => by simpa using before_total largest (f p) (f q)) ((List.range (x.shape.getD a 0)).filter fun p => decide (p ∉ P))
      exact this.imp fun h => by simpa using h
    · intro p hp q hq
      obtain ⟨i, hi', rfl⟩ := List.mem_map.1 hp
      have hi' := List.mem_range.1 hi'
      obtain ⟨p, -, e1, v1⟩ := hval i hi'
      obtain ⟨hq1, hq2⟩ := (hRmem q).1 hq
      have hb := h.best (idx.set a i) (hs i hi') q hq1 (fun j hj e => hq2 ?_)
      · rw [v1, List.set_set] at hb
        rw [e1]
        simpa using hb
      · rw [List.set_set] at e
        refine List.mem_map.2 ⟨j, List.mem_range.2 hj, ?_⟩
        rw [e]
        simp
  · intro j hj
    obtain ⟨p, -, e1, v1⟩ := hval j hj
    refine ⟨p, ?_, e1, v1⟩
    rw [List.getElem?_append_left (by simp [P]; exact hj), hP j hj, e1]
    simp

/-- torch's values are ONNX's, whatever it does with equal elements -/
theorem topk_values {largest : Bool} {a k : Nat} {x v : Tensor ℚ} {ix : Tensor Int} (h : IsTorchTopK largest true a k x v ix) : IsTopValues largest a k x v := by
  refine ⟨h.vshape, fun idx hi => ?_⟩
  obtain ⟨l, h1, h2, h3⟩ := topk_positions h idx hi
  refine ⟨l.map fun p => x.at (idx.set a p), h1.map _, List.pairwise_map.2 h2, fun j hj => ?_⟩
  obtain ⟨p, e1, -, e3⟩ := h3 j hj
  rw [List.getElem?_map, e1, e3]
  rfl

/-- torch's indices are ONNX's if the elements of a fibre are different -/
theorem topk_indices {largest : Bool} {a k : Nat} {x v : Tensor ℚ} {ix : Tensor Int} (h : IsTorchTopK largest true a k x v ix)
    (hd : ∀ idx p q, InB (x.shape.set a k) idx → p < x.shape.getD a 0 → q < x.shape.getD a 0 → p ≠ q → x.at (idx.set a p) ≠ x.at (idx.set a q)) : IsTopIndices largest a k x ix := by
  refine ⟨h.ishape, fun idx hi => ?_⟩
  have hi' : InB v.shape idx := by rw [h.vshape, ← h.ishape]; exact hi
  obtain ⟨l, h1, h2, h3⟩ := topk_positions h idx hi'
  refine ⟨l, h1, ?_, fun j hj => ?_⟩
  · have hnd : l.Nodup := h1.nodup_iff.2 List.nodup_range
    have hmem : ∀ p ∈ l, p < x.shape.getD a 0 := fun p hp => List.mem_range.1 (h1.mem_iff.1 hp)
    refine (List.Pairwise.and h2 hnd).imp_of_mem ?_
    rintro p q hp hq ⟨c1, c2⟩
    exact ⟨c1, fun e => absurd e (hd idx p q (by rw [← h.ishape]; exact hi) (hmem p hp) (hmem q hq) c2)⟩
  · obtain ⟨p, e1, e2, -⟩ := h3 j hj
    rw [e1, e2]
    rfl

section
variable (mem : Nat → ℚ) (off : Nat) (conv : Int → ℚ)

/-- the axis an attribute denotes -/
def topkAxis (r : Nat) (axis : Option Int) : Nat := (if axis.getD (-1) < 0 then axis.getD (-1) + r else axis.getD (-1)).toNat

/-- **C96.** For every `torch.topk` that does what torch documents, every operand, axis and number of elements: with `sorted` (the default) the first output's slot is filled with the `k` largest (or
smallest) elements of every fibre in order, as ONNX says; and if there is a second output in another place, its slot is filled with the positions (converted to the element type of the pool),
which are those of ONNX when no two elements of a fibre are equal. -/
theorem C96_topk (tk : TorchTopK) (largest sorted : Int) (hsorted : sorted ≠ 0) (axis : Option Int) (x : Tensor ℚ) (ha : -(x.shape.length : Int) ≤ axis.getD (-1) ∧ axis.getD (-1) < x.shape.length)
    (k : Nat) (hk : k ≤ x.shape.getD (topkAxis x.shape.length axis) 0) (kin : Option (Tensor Int)) (kattr : Option Int) (hcount : topkCount kin kattr = .ok (k : Int))
    (htk : IsTorchTopK (largest != 0) true (topkAxis x.shape.length axis) k x (tk (largest != 0) true (topkAxis x.shape.length axis) k x).1 (tk (largest != 0) true (topkAxis x.shape.length axis) k x).2)
    (off2 : Nat) (hdis : off + numel (x.shape.set (topkAxis x.shape.length axis) k) ≤ off2 ∨ off2 + numel (x.shape.set (topkAxis x.shape.length axis) k) ≤ off) :
    Fills mem off (x.shape.set (topkAxis x.shape.length axis) k)
      (topkKernel mem off (x.shape.set (topkAxis x.shape.length axis) k) none tk conv axis largest sorted kattr x kin) (IsTopValues (largest != 0) (topkAxis x.shape.length axis) k x) ∧
    ∃ (mem' : Nat → ℚ) (v : Tensor ℚ) (ix : Tensor Int), topkKernel mem off (x.shape.set (topkAxis x.shape.length axis) k) (some (off2, x.shape.set (topkAxis x.shape.length axis) k)) tk conv axis largest sorted kattr x kin = .ok mem' ∧
      IsTopValues (largest != 0) (topkAxis x.shape.length axis) k x v ∧
      (∀ idx, InB v.shape idx → mem' (off + ravel v.shape idx) = v.at idx ∧ mem' (off2 + ravel v.shape idx) = conv (ix.at idx)) ∧
      (∀ idx, InB v.shape idx → ∃ p : Nat, ix.at idx = (p : Int) ∧ v.at idx = x.at (idx.set (topkAxis x.shape.length axis) p)) ∧
      ((∀ idx p q, InB v.shape idx → p < x.shape.getD (topkAxis x.shape.length axis) 0 → q < x.shape.getD (topkAxis x.shape.length axis) 0 → p ≠ q →
        x.at (idx.set (topkAxis x.shape.length axis) p) ≠ x.at (idx.set (topkAxis x.shape.length axis) q)) → IsTopIndices (largest != 0) (topkAxis x.shape.length axis) k x ix) ∧
      ∀ c, (c < off ∨ off + numel v.shape ≤ c) → (c < off2 ∨ off2 + numel v.shape ≤ c) → mem' c = mem c := by
  generalize hA : topkAxis x.shape.length axis = a at *
  have hs : (sorted != 0) = true := by simpa using hsorted
  have hrun : torchTopK tk (largest != 0) (sorted != 0) (axis.getD (-1)) k x = .ok (tk (largest != 0) true a k x) := by
    unfold torchTopK
    rw [torchDim_ok ha]
    simp only
    have : (if axis.getD (-1) < 0 then axis.getD (-1) + (x.shape.length : Int) else axis.getD (-1)).toNat = a := hA
    rw [this, if_pos ⟨by omega, by exact_mod_cast hk⟩, hs]
    rfl
  generalize hr : tk (largest != 0) true a k x = r at *
  obtain ⟨v, ix⟩ := r
  simp only at htk
  have hv := topk_values htk
  have hfill : Fills mem off (x.shape.set a k) (copyStore mem off (x.shape.set a k) (.ok v)) (fun y => y = v) := fills_copy rfl htk.vshape rfl
  obtain ⟨m1, y, e1, s1, rfl, st1⟩ := hfill
  have hfill2 : Fills m1 off2 (x.shape.set a k) (copyStore m1 off2 (x.shape.set a k) (.ok ⟨ix.shape, fun idx => conv (ix.at idx)⟩)) (fun y => y = ⟨ix.shape, fun idx => conv (ix.at idx)⟩) :=
    fills_copy rfl htk.ishape rfl
  obtain ⟨m2, z, e2, s2, rfl, st2⟩ := hfill2
  have hz : ix.shape = x.shape.set a k := s2
  constructor
  · refine ⟨m1, y, ?_, s1, hv, st1⟩
    unfold topkKernel
    rw [hcount]
    simp only
    rw [hrun]
    simp only
    rw [e1]
    rfl
  · refine ⟨m2, y, ix, ?_, hv, ?_, ?_, ?_, ?_⟩
    · unfold topkKernel
      rw [hcount]
      simp only
      rw [hrun]
      simp only
      rw [e1]
      exact e2
    · intro idx hi
      have hi2 : InB ix.shape idx := by rw [hz, ← s1]; exact hi
      have h1 := st1.value idx hi
      have h2 := st2.value idx hi2
      have hlt := ravel_lt hi
      have hfr := st2.frame (off + ravel y.shape idx) (by
        show _ ∨ off2 + numel ix.shape ≤ _
        rw [hz, s1]
        rw [s1] at hlt
        omega)
      refine ⟨hfr.trans h1, ?_⟩
      have : ix.shape = y.shape := by rw [hz, s1]
      simp only [this] at h2
      exact h2
    · intro idx hi
      obtain ⟨p, -, h2, h3⟩ := htk.value idx hi
      exact ⟨p, h2, h3⟩
    · intro hd
      exact topk_indices htk fun idx p q hi => hd idx p q (by rw [htk.vshape]; exact hi)
    · intro c h1 h2
      rw [st2.frame c (by show _ ∨ off2 + numel ix.shape ≤ _; rw [hz, ← s1]; exact h2), st1.frame c h1]

/-- **C96**, the number of elements: a second input of one element (of whatever rank) says it, whatever the attribute is; without it the attribute `k`, by default 1. -/
theorem C96_count (rank : Nat) (v : List Nat → Int) (attr : Option Int) :
    topkCount (some ⟨List.replicate rank 1, v⟩) attr = .ok (v (List.replicate rank 0)) ∧ topkCount none (some 7) = .ok 7 ∧ topkCount none attr = .ok (match attr with | some k => k | none => 1) := by
  have h1 : numel (List.replicate rank 1) = 1 := by
    induction rank with
    | zero => rfl
    | succ n ih => rw [List.replicate_succ, numel, ih]
  have h2 : unravel (List.replicate rank 1) 0 = List.replicate rank 0 := by
    clear h1
    induction rank with
    | zero => rfl
    | succ n ih => rw [List.replicate_succ, unravel, Nat.zero_div, Nat.zero_mod, ih, List.replicate_succ]
  refine ⟨?_, rfl, by cases attr <;> rfl⟩
  unfold topkCount
  simp only [h1, if_true, h2]

/-- **C96**, refusals: an axis outside the rank raises IndexError; a negative or too large number of elements, or a `K` input that is not a single number, raises RuntimeError; nothing is written. -/
theorem C96_refuses (tk : TorchTopK) (largest sorted : Int) (axis : Option Int) (x : Tensor ℚ) (kin : Option (Tensor Int)) (kattr : Option Int) (os : List Nat) (out : Option (Nat × List Nat)) (k : Int) :
    (∀ t, kin = some t → numel t.shape ≠ 1 → topkKernel mem off os out tk conv axis largest sorted kattr x kin = .error .runtimeError) ∧
    (topkCount kin kattr = .ok k → ¬ (-(x.shape.length : Int) ≤ axis.getD (-1) ∧ axis.getD (-1) < x.shape.length) →
      topkKernel mem off os out tk conv axis largest sorted kattr x kin = .error .indexError) ∧
    (topkCount kin kattr = .ok k → -(x.shape.length : Int) ≤ axis.getD (-1) → axis.getD (-1) < x.shape.length → k < 0 ∨ (x.shape.getD (topkAxis x.shape.length axis) 0 : Int) < k →
      topkKernel mem off os out tk conv axis largest sorted kattr x kin = .error .runtimeError) := by
  refine ⟨?_, ?_, ?_⟩
  · rintro t rfl ht
    unfold topkKernel topkCount
    simp only [if_neg ht]
  · intro hc ha
    unfold topkKernel torchTopK
    rw [hc]
    simp only
    rw [torchDim_error ha]
  · intro hc h1 h2 hk
    unfold topkKernel torchTopK
    rw [hc]
    simp only
    rw [torchDim_ok ⟨h1, h2⟩]
    simp only
    rw [if_neg]
    unfold topkAxis at hk
    omega

end

/-! ### Equal elements and large positions -/

/-- an implementation for vectors of two elements and `k = 1` that prefers the second of two equal elements, as torch may -/
def preferLast : TorchTopK := fun _ _ _ _ x => if x.at [0] ≤ x.at [1] then (⟨[1], fun _ => x.at [1]⟩, ⟨[1], fun _ => 1⟩) else (⟨[1], fun _ => x.at [0]⟩, ⟨[1], fun _ => 0⟩)

theorem preferLast_ok (x : Tensor ℚ) (hx : x.shape = [2]) : IsTorchTopK true true 0 1 x (preferLast true true 0 1 x).1 (preferLast true true 0 1 x).2 := by
  have hidx : ∀ idx, InB [1] idx → idx = [0] := by
    intro idx h
    match idx, h with
    | [i], h => have := h.1; have : i = 0 := by omega
                rw [this]
    | [], h => exact absurd h (by simp [InB])
    | _ :: _ :: _, h => exact absurd h.2 (by simp [InB])
  unfold preferLast
  split
  · rename_i hle
    refine ⟨by rw [hx]; rfl, by rw [hx]; rfl, ?_, ?_, ?_, ?_⟩
    · intro idx hi
      have := hidx idx hi
      subst this
      exact ⟨1, by rw [hx]; decide, rfl, rfl⟩
    · intro idx i j _ hi hj hij; omega
    · intro idx hi p hp hne
      have := hidx idx hi
      subst this
      rw [hx] at hp
      have hp : p < 2 := hp
      have h1 := hne 0 (by omega)
      have : p = 0 := by
        have : ¬ ((1 : Int) = (p : Int)) := h1
        omega
      subst this
      exact hle
    · intro _ idx i j _ hij hj; omega
  · rename_i hle
    refine ⟨by rw [hx]; rfl, by rw [hx]; rfl, ?_, ?_, ?_, ?_⟩
    · intro idx hi
      have := hidx idx hi
      subst this
      exact ⟨0, by rw [hx]; decide, rfl, rfl⟩
    · intro idx i j _ hi hj hij; omega
    · intro idx hi p hp hne
      have := hidx idx hi
      subst this
      rw [hx] at hp
      have hp : p < 2 := hp
      have h1 := hne 0 (by omega)
      have : p = 1 := by
        have : ¬ ((0 : Int) = (p : Int)) := h1
        omega
      subst this
      exact (le_of_lt (not_le.1 hle))
    · intro _ idx i j _ hij hj; omega

/-- **C96 finding**, equal elements: torch may return the position of any of them, ONNX requires the first: with a `torch.topk` that keeps to its documentation the kernel writes 1 for the largest
of 5, 5, and no output meeting ONNX's rule has it. -/
theorem C96_ties_counterexample :
    (topkKernel (fun _ => -1) 0 [1] (some (1, [1])) preferLast (fun i => (i : ℚ)) none 1 1 (some 1) ⟨[2], fun _ => 5⟩ none).toOption.map (fun f => [f 0, f 1]) = some [5, 1] ∧
    ¬ ∃ y, IsTopIndices true 0 1 ⟨[2], fun _ => 5⟩ y ∧ y.at [0] = 1 := by
  refine ⟨by decide +kernel, ?_⟩
  rintro ⟨y, h, hy⟩
  obtain ⟨l, h1, h2, h3⟩ := h.value [0] (by rw [h.shape]; exact ⟨by decide, trivial⟩)
  have h4 := h3 0 (by decide)
  have h4 : l[0]?.map (fun p : Nat => (p : Int)) = some (y.at [0]) := h4
  rw [hy] at h4
  match l, h1, h2, h4 with
  | [], _, _, h4 => simp at h4
  | p :: l, h1, h2, h4 =>
    simp only [List.getElem?_cons_zero, Option.map_some, Option.some.injEq] at h4
    have hp : p = 1 := by omega
    subst hp
    have h0 : 0 ∈ (1 :: l) := h1.mem_iff.2 (by decide)
    have h0 : 0 ∈ l := by simpa using h0
    have := (List.pairwise_cons.1 h2).1 0 h0
    have := this.2 rfl
    omega

/-- **C96 finding**, half precision: positions are stored in the element type of the pool; in float16, where 2049 is rounded to 2048, position 2049 becomes position 2048.  Stated for any conversion. -/
theorem C96_position_rounded (conv : Int → ℚ) (hconv : conv 2049 = 2048) (mem : Nat → ℚ) (x : Tensor ℚ) (hx : x.shape = [3000]) (tk : TorchTopK)
    (htk : tk true true 0 1 x = (⟨[1], fun _ => x.at [2049]⟩, ⟨[1], fun _ => 2049⟩)) :
    ∃ mem', topkKernel mem 0 [1] (some (1, [1])) tk conv none 1 1 (some 1) x none = .ok mem' ∧ mem' 1 = 2048 := by
  have e : torchTopK tk true true (-1) 1 x = .ok (⟨[1], fun _ => x.at [2049]⟩, ⟨[1], fun _ => 2049⟩) := by
    have hd : torchDim x.shape.length (-1) = .ok 0 := by rw [hx]; rfl
    unfold torchTopK
    rw [hd]
    simp only
    rw [if_pos (by rw [hx]; decide)]
    exact congrArg Except.ok htk
  have e' : topkKernel mem 0 [1] (some (1, [1])) tk conv none 1 1 (some 1) x none =
      (match torchTopK tk true true (-1) 1 x with
        | .error e => .error e
        | .ok (v, ix) => match copyStore mem 0 [1] (.ok v) with
          | .error e => .error e
          | .ok mem' => storeIndices mem' conv (some (1, [1])) ix) := rfl
  rw [e', e]
  exact ⟨_, rfl, hconv⟩

/-- the hypotheses of `C96_topk` are met -/
example (x : Tensor ℚ) (hx : x.shape = [2]) : IsTorchTopK true true 0 1 x (preferLast true true 0 1 x).1 (preferLast true true 0 1 x).2 ∧ topkCount none (some 1) = .ok ((1 : Nat) : Int) ∧ topkAxis 1 none = 0 :=
  ⟨preferLast_ok x hx, rfl, rfl⟩

end OnnxTool.Props
