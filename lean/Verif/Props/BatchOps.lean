import Verif.Props.Batch
import Verif.Model.Axes
/-!
# C120: operators that work sample by sample
-/
namespace OnnxTool.Props
open OnnxTool OnnxTool.ShapeInfer OnnxTool.Topsort OnnxTool.Profile OnnxTool.Batch

section
variable {α β : Type}
private theorem mb {γ : Type} (x : Except PyErr α) (f : α → Except PyErr β) (g : β → γ) : Except.map g (x >>= f) = x >>= fun a => Except.map g (f a) := by cases x <;> rfl
private theorem mp (a : α) (g : α → β) : Except.map g (pure a : Except PyErr α) = pure (g a) := rfl
private theorem mi (p : Prop) [Decidable p] (x y : Except PyErr α) (g : α → β) : Except.map g (if p then x else y) = if p then Except.map g x else Except.map g y := by split <;> rfl
private theorem ob (a : α) (f : α → Except PyErr β) : ((Except.ok a : Except PyErr α) >>= f) = f a := rfl
end

private theorem idx_zero (b : Int) (r : List Int) : Conv.idx (b :: r) 0 = .ok b := rfl
private theorem idx_succ (b : Int) (r : List Int) (i : Nat) : Conv.idx (b :: r) (i + 1) = Conv.idx r i := rfl

/-- **C120, Conv.** -/
theorem C120_conv (a : Conv.Attrs) (w : List Int) : PerSample (fun r => a.autoPad ≠ none ∨ r.length = 2 ∨ r.length = 3 ∨ r.length = 4) fun x => Conv.convShape a (x.map Int.ofNat) w := by
  refine ⟨fun r => (Conv.convShape a ((0 :: r).map Int.ofNat) w).map List.tail, fun r hr b hb => ?_⟩
  unfold Conv.convShape Conv.convAxis
  simp only [List.map_cons, List.length_cons, List.length_map, idx_zero, idx_succ, ob]
  cases hp : a.autoPad with
  | some p => cases p <;> simp only [mb, mp, mi, List.cons_append, List.tail_cons] <;> rfl
  | none =>
    rcases hr with hr | hr | hr | hr
    · exact absurd hp hr
    all_goals
      simp only [hr, mb, mp, mi, List.tail_cons]
      rfl

/-- **C120, pooling.** -/
theorem C120_pool (a : Conv.Attrs) : PerSample (fun _ => True) fun x => Conv.poolShape a (x.map Int.ofNat) := by
  refine ⟨fun r => (Conv.poolShape a ((0 :: r).map Int.ofNat)).map List.tail, fun r hr b hb => ?_⟩
  unfold Conv.poolShape Conv.poolAxis
  simp only [List.map_cons, idx_succ, List.take_succ_cons, List.cons_append]
  cases hp : a.autoPad with
  | some p => cases p <;> simp only [mb, mp, mi, List.cons_append, List.tail_cons] <;> rfl
  | none =>
    simp only []
    split <;> first | rfl | (simp only [mb, mp, List.tail_cons]; rfl)

/-- **C120, ConvTranspose.** -/
theorem C120_conv_transpose (a : Conv.Attrs) (w : List Int) : PerSample (fun r => r.length = 2 ∨ r.length = 3 ∨ r.length = 4) fun x => Conv.convTransShape a (x.map Int.ofNat) w := by
  refine ⟨fun r => (Conv.convTransShape a ((0 :: r).map Int.ofNat) w).map List.tail, fun r hr b hb => ?_⟩
  unfold Conv.convTransShape Conv.convTransAxis
  simp only [List.map_cons, List.length_cons, List.length_map, idx_zero, idx_succ, ob]
  rcases hr with hr | hr | hr
  all_goals
    simp only [hr, mb, mp, mi, List.cons_append, List.tail_cons]
    rfl

/-! ### broadcasting -/

/-- the operands of an element-wise operator: on the batch, or fixed (a bias, a scale) -/
private def at_ (b : Nat) (p : Bool × List Nat) : List Nat := if p.1 then b :: p.2 else p.2

theorem maxLen_foldl (ss : List Shape.Shp) (m n : Nat) (hm : m ≤ n) (h : ∀ s ∈ ss, s.length ≤ n) (hex : m = n ∨ ∃ s ∈ ss, s.length = n) :
    ss.foldl (fun m s => if s.length > m then s.length else m) m = n := by
  induction ss generalizing m with
  | nil =>
    rcases hex with h | ⟨s, hs, _⟩
    · exact h
    · cases hs
  | cons s ss ih =>
    have hs := h s (by simp)
    rw [List.foldl_cons]
    refine ih _ (by split <;> omega) (fun q hq => h q (by simp [hq])) ?_
    rcases hex with h | ⟨q, hq, hl⟩
    · left; split <;> omega
    · rcases List.mem_cons.1 hq with rfl | hq
      · left; split <;> omega
      · exact .inr ⟨q, hq, hl⟩

private theorem merge_succ (ss : List (Nat × List Nat)) (js : List Nat) :
    Shape.mergeAll (ss.map fun p => p.1 :: p.2) (js.map Nat.succ) = Shape.mergeAll (ss.map (·.2)) js := by
  induction js with
  | nil => rfl
  | cons j js ih =>
    rw [List.map_cons, Shape.mergeAll, Shape.mergeAll, ih]
    congr 1
    rw [List.map_map, List.map_map]
    rfl

private theorem listMax_le (ds : List Nat) (m n : Nat) (hm : m ≤ n) (h : ∀ d ∈ ds, d ≤ n) (hex : m = n ∨ n ∈ ds) : ds.foldl max m = n := by
  induction ds generalizing m with
  | nil =>
    rcases hex with h | h
    · exact h
    · cases h
  | cons d ds ih =>
    have hd := h d (by simp)
    rw [List.foldl_cons]
    refine ih _ (by omega) (fun q hq => h q (by simp [hq])) ?_
    rcases hex with h | hq
    · left; omega
    · rcases List.mem_cons.1 hq with rfl | hq
      · left; omega
      · exact .inr hq

private theorem merge_first (b : Nat) (hb : 0 < b) (ds : List Nat) (h : ∀ d ∈ ds, d = b ∨ d = 1) (hex : b ∈ ds) : Shape.mergeDims ds = .ok b := by
  unfold Shape.mergeDims
  have hm : Shape.listMax ds = b := listMax_le ds 0 b (by omega) (fun d hd => by have := h d hd; omega) (.inr hex)
  have h0 : ¬ ds.contains 0 = true := by
    rw [List.contains_iff_mem]
    intro h0
    have := h 0 h0
    omega
  simp only [hm, if_neg h0]
  rw [if_pos]
  rw [List.all_eq_true]
  intro d hd
  rcases h d hd with rfl | rfl <;> simp

/-- **C120, element-wise operators.** Operands on the batch, all with the same number of axes, and fixed operands with fewer axes (a `true` marks an operand on the batch, of which the list gives the shape of a
sample): the result has the batch in front, and a shape per sample that does not depend on the batch size; the operands broadcast for one batch size exactly if they do for the other. -/
theorem C120_broadcast (L : Nat) (ops : List (Bool × List Nat)) (hlen : ∀ p ∈ ops, if p.1 then p.2.length = L else p.2.length ≤ L) (hex : ∃ p ∈ ops, p.1 = true) :
    ∃ q : Except PyErr (List Nat), ∀ b : Nat, 0 < b → Shape.broadcastShape (ops.map fun p => if p.1 then b :: p.2 else p.2) = q.map (b :: ·) := by
  refine ⟨Shape.mergeAll (ops.map fun p => if p.1 then p.2 else Shape.padTo L p.2) (List.range L), fun b hb => ?_⟩
  have hmax : Shape.maxLen (ops.map fun p => if p.1 then b :: p.2 else p.2) = L + 1 := by
    refine maxLen_foldl _ _ _ (by omega) ?_ (.inr ?_)
    · intro s hs
      obtain ⟨p, hp, rfl⟩ := List.mem_map.1 hs
      have := hlen p hp
      split <;> simp_all
      omega
    · obtain ⟨p, hp, h1⟩ := hex
      refine ⟨_, List.mem_map_of_mem hp, ?_⟩
      have := hlen p hp
      simp_all
  unfold Shape.broadcastShape
  rw [hmax, List.map_map]
  have hpad : ops.map (Shape.padTo (L + 1) ∘ fun p => if p.1 then b :: p.2 else p.2) =
      (ops.map fun p => ((if p.1 then b else 1 : Nat), (if p.1 then p.2 else Shape.padTo L p.2))).map fun p => p.1 :: p.2 := by
    rw [List.map_map]
    refine List.map_congr_left fun p hp => ?_
    have := hlen p hp
    simp only [Function.comp]
    unfold Shape.padTo
    by_cases h1 : p.1 = true
    · simp only [h1, if_true, List.length_cons] at this ⊢
      rw [if_neg (by omega)]
    · simp only [h1] at this ⊢
      simp only [Bool.false_eq_true, if_false] at this ⊢
      rw [if_pos (by omega)]
      by_cases h2 : p.2.length < L
      · rw [if_pos h2, show L + 1 - p.2.length = (L - p.2.length) + 1 by omega, List.replicate_succ]; rfl
      · rw [if_neg h2, show L + 1 - p.2.length = 1 by omega]; rfl
  rw [hpad, List.range_succ_eq_map, Shape.mergeAll, merge_succ]
  have hfirst : Shape.mergeDims (((ops.map fun p => ((if p.1 then b else 1 : Nat), (if p.1 then p.2 else Shape.padTo L p.2))).map fun p => p.1 :: p.2).map fun s => s.getD 0 1) = .ok b := by
    refine merge_first b hb _ ?_ ?_
    · intro d hd
      simp only [List.map_map, List.mem_map, Function.comp] at hd
      obtain ⟨p, _, rfl⟩ := hd
      by_cases h1 : p.1 = true <;> simp [h1]
    · obtain ⟨p, hp, h1⟩ := hex
      simp only [List.map_map, List.mem_map, Function.comp]
      exact ⟨p, hp, by simp [h1]⟩
  rw [hfirst]
  simp only [List.map_map]
  show (match Shape.mergeAll (ops.map fun p => if p.1 then p.2 else Shape.padTo L p.2) (List.range L) with | .error e => Except.error e | .ok r => Except.ok (b :: r)) = _
  cases Shape.mergeAll (ops.map fun p => if p.1 then p.2 else Shape.padTo L p.2) (List.range L) <;> rfl

/-! ### rearranging -/

private theorem norm_pos (n k : Nat) : Slice.normIndex (n + 1) ((k : Int) + 1) = (Slice.normIndex n k).map (· + 1) := by
  have h1 : (0 : Int) ≤ (k : Int) + 1 := by omega
  have h2 : (0 : Int) ≤ (k : Int) := by omega
  unfold Slice.normIndex
  simp only [if_pos h1, if_pos h2]
  by_cases h : (k : Int) < n
  · have h' : (k : Int) + 1 < ((n + 1 : Nat) : Int) := by omega
    simp only [if_pos h, if_pos h', Except.map]; congr 1
  · have h' : ¬ (k : Int) + 1 < ((n + 1 : Nat) : Int) := by omega
    simp only [if_neg h, if_neg h', Except.map]

private theorem norm_neg (n : Nat) (a : Int) (h1 : a < 0) (h2 : -(n : Int) ≤ a) : Slice.normIndex (n + 1) a = (Slice.normIndex n a).map (· + 1) := by
  have h3 : ¬ (0 : Int) ≤ a := by omega
  have h4 : -((n + 1 : Nat) : Int) ≤ a := by omega
  unfold Slice.normIndex
  simp only [if_neg h3, if_pos h2, if_pos h4, Except.map]
  congr 1
  omega

/-- the axis of the shape of a sample, for an axis behind the batch -/
private theorem norm_behind (n : Nat) (axis : Int) (h : 0 < axis ∨ -(n : Int) ≤ axis ∧ axis < 0) : Slice.normIndex (n + 1) axis = (Slice.normIndex n (if 0 < axis then axis - 1 else axis)).map (· + 1) := by
  rcases h with h | h
  · obtain ⟨k, rfl⟩ : ∃ k : Nat, axis = (k : Int) + 1 := ⟨(axis - 1).toNat, by omega⟩
    rw [if_pos h, norm_pos, show (k : Int) + 1 - 1 = k by omega]
  · rw [if_neg (by omega), norm_neg n axis h.2 h.1]

private theorem get_behind (b : Nat) (s : List Nat) (axis : Int) (h : 0 < axis ∨ -(s.length : Int) ≤ axis ∧ axis < 0) :
    Axes.pyGet (b :: s) axis = Axes.pyGet s (if 0 < axis then axis - 1 else axis) := by
  unfold Axes.pyGet
  rw [List.length_cons, norm_behind _ _ h]
  cases Slice.normIndex s.length (if 0 < axis then axis - 1 else axis) <;> rfl

/-- **C120, Concat.** Joining tensors on the batch along another axis. -/
theorem C120_concat (axis : Int) (n : Nat) (h : 0 < axis ∨ -(n : Int) ≤ axis ∧ axis < 0) (rs : List (List Nat)) (hr : ∀ r ∈ rs, r.length = n) :
    ∃ q : Except PyErr (List Nat), ∀ b : Nat, Axes.concatShape axis (rs.map (b :: ·)) = q.map (b :: ·) := by
  refine ⟨Axes.concatShape (if 0 < axis then axis - 1 else axis) rs, fun b => ?_⟩
  cases rs with
  | nil => rfl
  | cons r rs =>
    simp only [List.map_cons, Axes.concatShape]
    have hr0 := hr r (by simp)
    replace hr : ∀ q ∈ rs, q.length = n := fun q hq => hr q (by simp [hq])
    induction rs generalizing r with
    | nil => rfl
    | cons s rs ih =>
      have hs := hr s (by simp)
      rw [List.map_cons, Axes.concatLoop, Axes.concatLoop, get_behind b r axis (by rw [hr0]; exact h), get_behind b s axis (by rw [hs]; exact h), List.length_cons, norm_behind _ _ (by rw [hr0]; exact h)]
      cases Axes.pyGet r (if 0 < axis then axis - 1 else axis) with
      | error e => rfl
      | ok x =>
        cases Axes.pyGet s (if 0 < axis then axis - 1 else axis) with
        | error e => rfl
        | ok y =>
          cases Slice.normIndex r.length (if 0 < axis then axis - 1 else axis) with
          | error e => rfl
          | ok k =>
            refine ih (r.set k (x + y)) (by rw [List.length_set]; exact hr0) fun q hq => hr q (by simp [hq])

/-- **C120, Transpose.** A permutation that leaves the batch in front. -/
theorem C120_transpose (p : List Nat) : PerSample (fun _ => True) fun x => Axes.transposeShape (some ((0 : Int) :: p.map fun k : Nat => (k : Int) + 1)) x := by
  refine ⟨fun r => Axes.gatherAll r (p.map fun k : Nat => (k : Int)), fun r _ b _ => ?_⟩
  have : ∀ p : List Nat, Axes.gatherAll (b :: r) (p.map fun k : Nat => (k : Int) + 1) = Axes.gatherAll r (p.map fun k : Nat => (k : Int)) := by
    intro p
    induction p with
    | nil => rfl
    | cons k p ih =>
      simp only [List.map_cons, Axes.gatherAll]
      rw [ih, get_behind _ _ _ (.inl (by omega)), if_pos (by omega), show (k : Int) + 1 - 1 = k by omega]
  show Axes.gatherAll (b :: r) ((0 : Int) :: p.map fun k : Nat => (k : Int) + 1) = _
  rw [Axes.gatherAll, this, show Axes.pyGet (b :: r) 0 = .ok b from by simp [Axes.pyGet, Slice.normIndex]]
  show _ = Except.map ((b : Nat) :: ·) (Axes.gatherAll r (p.map fun k : Nat => (k : Int)))
  cases Axes.gatherAll r (p.map fun k : Nat => (k : Int)) <;> rfl

/-- **C120, Reduce.** Reductions over other axes than the batch, with and without `keepdims`. -/
theorem C120_reduce (keepdims : Bool) (axes : List Int) (r : List Nat) (h : ∀ a ∈ axes, a ≠ 0 ∧ a ≠ -((r.length : Int) + 1)) :
    ∃ q : List Nat, ∀ b : Nat, Axes.reduceShape keepdims (some axes) (b :: r) = some (b :: q) := by
  let A := Slice.axesNeg2Pos (r.length + 1) axes
  refine ⟨if keepdims then Axes.onesAt A 1 r else Axes.dropAxes A 1 r, fun b => ?_⟩
  have h0 : ¬ A.contains (((0 : Nat) : Int)) = true := by
    rw [List.contains_iff_mem]
    intro hm
    obtain ⟨a, ha, e⟩ := List.mem_map.1 hm
    have := h a ha
    split at e <;> omega
  simp only [Axes.reduceShape, List.length_cons, Axes.onesAt, Axes.dropAxes]
  have h0' : ¬ (Slice.axesNeg2Pos (r.length + 1) axes).contains (((0 : Nat) : Int)) = true := h0
  rw [if_neg h0', if_neg h0']
  cases keepdims <;> rfl

/-- **C120, Pad.** Padding that leaves the batch alone. -/
theorem C120_pad (p : List Int) : PerSample (fun r => p[0]? = some 0 ∧ p[r.length + 1]? = some 0) fun x => Axes.padShape (some p) x := by
  refine ⟨fun r => Axes.padLoop p (r.length + 1) 1 r, fun r hr b _ => ?_⟩
  show Axes.padLoop p (r.length + 1) 0 (b :: r) = _
  rw [Axes.padLoop]
  unfold Conv.idx
  rw [Nat.zero_add, hr.1, hr.2]
  simp only [ob]
  cases Axes.padLoop p (r.length + 1) (0 + 1) r with
  | error e => rfl
  | ok t => show Except.ok _ = Except.ok _; congr 2

/-! ### matrix products -/

private theorem vol_nil : Shape.volume [] = 0 := rfl

/-- **C120, Gemm.** A matrix of samples times a weight. -/
theorem C120_gemm (transB : Bool) (w : List Nat) (hw : w.length = 2) : PerSample (fun r => r.length = 1) fun x => Shape.gemmShape true false transB x w := by
  refine ⟨fun r => (Shape.gemmShape true false transB (0 :: r) w).map List.tail, fun r hr b _ => ?_⟩
  obtain ⟨k, rfl⟩ := List.length_eq_one_iff.1 hr
  obtain ⟨m, n, rfl⟩ := List.length_eq_two.1 hw
  unfold Shape.gemmShape
  simp only [List.length_cons, List.length_nil, Nat.reduceAdd, Nat.reduceSub, List.take_zero, List.getD_cons_zero, List.getD_cons_succ, vol_nil]
  cases transB <;> simp <;> split <;> rfl

/-- **C120, MatMul with a weight.** Vectors of any number of axes behind the batch times a matrix. -/
theorem C120_matmul (w : List Nat) (hw : w.length = 2) : PerSample (fun r => r ≠ []) fun x => Shape.gemmShape false false false x w := by
  refine ⟨fun r => (Shape.gemmShape false false false (1 :: r) w).map List.tail, fun r hr b _ => ?_⟩
  obtain ⟨m, n, rfl⟩ := List.length_eq_two.1 hw
  show Shape.gemmShape false false false (b :: r) [m, n] = Except.map ((b : Nat) :: ·) (Except.map List.tail (Shape.gemmShape false false false (1 :: r) [m, n]))
  unfold Shape.gemmShape
  cases r with
  | nil => exact absurd rfl hr
  | cons k r =>
    rw [if_neg (by simp), if_neg (by simp)]
    cases r with
    | nil => simp [vol_nil, Except.map]
    | cons k' r =>
      simp [vol_nil, Except.map]

/-- **C120, MatMul of two stacks.** Both operands on the batch, each sample a matrix or a stack of matrices. -/
theorem C120_matmul_stacks (r s : List Nat) (hr : 2 ≤ r.length) (hs : 2 ≤ s.length) : ∃ q : Except PyErr (List Nat), ∀ b : Nat, 0 < b → Shape.gemmShape false false false (b :: r) (b :: s) = q.map (b :: ·) := by
  refine ⟨(Shape.gemmShape false false false (1 :: r) (1 :: s)).map List.tail, fun b hb => ?_⟩
  obtain ⟨k, hk⟩ : ∃ k, r.length = k + 2 := ⟨r.length - 2, by omega⟩
  obtain ⟨l, hl⟩ : ∃ l, s.length = l + 2 := ⟨s.length - 2, by omega⟩
  unfold Shape.gemmShape
  have hn : ∀ d d' : Nat, ¬ ((d :: r).length < 2 ∨ (d' :: s).length < 2) := fun d d' => by simp only [List.length_cons]; omega
  rw [if_neg (hn b b), if_neg (hn 1 1)]
  simp only [List.length_cons, hk, hl, Bool.false_eq_true, if_false]
  simp only [show k + 2 + 1 - 2 = k + 1 by omega, show l + 2 + 1 - 2 = l + 1 by omega, show l + 2 + 1 - 1 = l + 2 by omega, List.take_succ_cons, List.getD_cons_succ]
  rw [vol_first b, vol_first b (s.take l)]
  by_cases hv : Shape.volume (1 :: r.take k) ≥ Shape.volume (1 :: s.take l)
  · rw [if_pos hv, if_pos (Nat.mul_le_mul_left _ hv)]; rfl
  · rw [if_neg hv, if_neg (fun h => hv (Nat.le_of_mul_le_mul_left h hb))]; rfl

/-! ### Reshape -/

private theorem volume_int (s : List Int) (hs : s ≠ []) : Conv.volumeInt s = s.prod := by
  unfold Conv.volumeInt
  rw [if_pos (by cases s with
    | nil => exact absurd rfl hs
    | cons _ _ => simp)]
  have : ∀ (s : List Int) (k : Int), s.foldl (fun v d => v * d) k = k * s.prod := by
    intro s
    induction s with
    | nil => intro k; simp
    | cons d s ih => intro k; rw [List.foldl_cons, ih, List.prod_cons]; ring
  rw [this, one_mul]

private theorem copy_succ (b : Nat) (r : List Nat) (t : List Int) : ∀ i, Axes.copyZeros (b :: r) (i + 1) t = Axes.copyZeros r i t := by
  induction t with
  | nil => intro i; rfl
  | cons d t ih => intro i; rw [Axes.copyZeros, Axes.copyZeros, ih]; rfl

/-- **C120, Reshape.** A target that begins with 0 (the batch is kept), whatever follows. -/
theorem C120_reshape (t : List Int) : PerSample (fun _ => True) fun x => Axes.reshapeShape x (0 :: t) := by
  refine ⟨fun r => (Axes.reshapeShape (1 :: r) (0 :: t)).map List.tail, fun r _ b hb => ?_⟩
  have key : ∀ b : Nat, 0 < b → Axes.reshapeShape (b :: r) (0 :: t) = (Axes.copyZeros r 0 t) >>= fun new =>
      let s := new.prod
      let P : Int := (r.map Int.ofNat).prod
      let new' := if s < 0 then Axes.fillFirst (Int.fdiv P (-s)) new else new
      if P = new'.prod then .ok ((b : Int) :: new') else .error .assertion := by
    intro b hb
    unfold Axes.reshapeShape
    rw [Axes.copyZeros, copy_succ]
    simp only [if_true, List.map_cons]
    cases Axes.copyZeros r 0 t with
    | error e => rfl
    | ok new =>
      show (if Conv.volumeInt (Int.ofNat b :: r.map Int.ofNat) = Conv.volumeInt (if Conv.volumeInt (Int.ofNat b :: new) < 0 then
          Axes.fillFirst (Int.fdiv (Conv.volumeInt (Int.ofNat b :: r.map Int.ofNat)) (-Conv.volumeInt (Int.ofNat b :: new))) (Int.ofNat b :: new) else Int.ofNat b :: new)
        then Except.ok (if Conv.volumeInt (Int.ofNat b :: new) < 0 then
          Axes.fillFirst (Int.fdiv (Conv.volumeInt (Int.ofNat b :: r.map Int.ofNat)) (-Conv.volumeInt (Int.ofNat b :: new))) (Int.ofNat b :: new) else Int.ofNat b :: new) else Except.error PyErr.assertion) =
        (if (r.map Int.ofNat).prod = (if new.prod < 0 then Axes.fillFirst (Int.fdiv (r.map Int.ofNat).prod (-new.prod)) new else new).prod
        then Except.ok ((b : Int) :: (if new.prod < 0 then Axes.fillFirst (Int.fdiv (r.map Int.ofNat).prod (-new.prod)) new else new)) else Except.error PyErr.assertion)
      have hbi : (0 : Int) < Int.ofNat b := by simpa using hb
      have hfill : ∀ v, Axes.fillFirst v (Int.ofNat b :: new) = Int.ofNat b :: Axes.fillFirst v new := by
        intro v
        rw [Axes.fillFirst, if_neg (by omega)]
      have hdiv : Int.fdiv (Int.ofNat b * (r.map Int.ofNat).prod) (-(Int.ofNat b * new.prod)) = Int.fdiv (r.map Int.ofNat).prod (-new.prod) := by
        rw [← mul_neg, Int.mul_fdiv_mul_of_pos _ _ hbi]
      have hneg : (Int.ofNat b * new.prod < 0) ↔ new.prod < 0 := by
        constructor
        · intro h; by_contra hc; have := mul_nonneg hbi.le (not_lt.1 hc); omega
        · intro h; exact mul_neg_of_pos_of_neg hbi h
      have hif : (if Conv.volumeInt (Int.ofNat b :: new) < 0 then
          Axes.fillFirst (Int.fdiv (Conv.volumeInt (Int.ofNat b :: r.map Int.ofNat)) (-Conv.volumeInt (Int.ofNat b :: new))) (Int.ofNat b :: new) else Int.ofNat b :: new) =
          Int.ofNat b :: (if new.prod < 0 then Axes.fillFirst (Int.fdiv (r.map Int.ofNat).prod (-new.prod)) new else new) := by
        rw [volume_int _ (by simp), volume_int _ (by simp), List.prod_cons, List.prod_cons, hdiv, hfill]
        by_cases h : new.prod < 0
        · rw [if_pos h, if_pos (hneg.2 h)]
        · rw [if_neg h, if_neg (fun hh => h (hneg.1 hh))]
      rw [hif, volume_int _ (by simp), volume_int _ (by simp), List.prod_cons, List.prod_cons]
      by_cases h : (r.map Int.ofNat).prod = (if new.prod < 0 then Axes.fillFirst (Int.fdiv (r.map Int.ofNat).prod (-new.prod)) new else new).prod
      · rw [if_pos h, if_pos (congrArg (Int.ofNat b * ·) h)]; rfl
      · rw [if_neg h, if_neg (fun hh => h (Int.eq_of_mul_eq_mul_left hbi.ne' hh))]
  show Axes.reshapeShape (b :: r) (0 :: t) = Except.map ((b : Int) :: ·) (Except.map List.tail (Axes.reshapeShape (1 :: r) (0 :: t)))
  rw [key b hb, key 1 Nat.one_pos]
  cases Axes.copyZeros r 0 t with
  | error e => rfl
  | ok new =>
    simp only [ob]
    generalize (if new.prod < 0 then Axes.fillFirst (Int.fdiv (r.map Int.ofNat).prod (-new.prod)) new else new) = z
    split <;> rfl

/-- **C120, Reshape to -1.** A target that begins with -1 and gives the sizes of a sample: the batch is computed from the number of elements, and comes out right for every batch size. -/
theorem C120_reshape_minus_one (t : List Nat) (ht : ∀ d ∈ t, 0 < d) : PerSample (fun r => r.prod = t.prod) fun x => Axes.reshapeShape x (-1 :: t.map Int.ofNat) := by
  refine ⟨fun r => .ok (t.map Int.ofNat), fun r hr b hb => ?_⟩
  have hcopy : ∀ (src : List Nat) (t : List Nat) (i : Nat), (∀ d ∈ t, 0 < d) → Axes.copyZeros src i (t.map Int.ofNat) = .ok (t.map Int.ofNat) := by
    intro src t
    induction t with
    | nil => intro i _; rfl
    | cons d t ih =>
      intro i h
      have := h d (by simp)
      rw [List.map_cons, Axes.copyZeros, ih _ fun q hq => h q (by simp [hq]), if_neg (by simp; omega)]
      rfl
  have hprod : ∀ l : List Nat, (l.map Int.ofNat).prod = ((l.prod : Nat) : Int) := by
    intro l
    induction l with
    | nil => rfl
    | cons d l ih => rw [List.map_cons, List.prod_cons, ih, List.prod_cons]; push_cast; rfl
  have hpos : 0 < t.prod := by
    clear hr hcopy
    induction t with
    | nil => exact Nat.one_pos
    | cons d t ih => rw [List.prod_cons]; exact Nat.mul_pos (ht d (by simp)) (ih fun q hq => ht q (by simp [hq]))
  show Axes.reshapeShape (b :: r) (-1 :: t.map Int.ofNat) = .ok ((b : Int) :: t.map Int.ofNat)
  unfold Axes.reshapeShape
  rw [Axes.copyZeros, hcopy _ _ _ ht, if_neg (by decide)]
  simp only [pure, Except.pure, bind, Except.bind, List.map_cons]
  have h1 : Conv.volumeInt (-1 :: t.map Int.ofNat) = -((t.prod : Nat) : Int) := by rw [volume_int _ (by simp), List.prod_cons, hprod]; ring
  have h2 : Conv.volumeInt (Int.ofNat b :: r.map Int.ofNat) = (b : Int) * ((t.prod : Nat) : Int) := by rw [volume_int _ (by simp), List.prod_cons, hprod, hr]; rfl
  have hd : Int.fdiv ((b : Int) * ((t.prod : Nat) : Int)) (- -((t.prod : Nat) : Int)) = b := by
    rw [neg_neg]
    exact Int.mul_fdiv_cancel _ (by omega)
  have h3 : Conv.volumeInt ((b : Int) :: t.map Int.ofNat) = (b : Int) * ((t.prod : Nat) : Int) := by rw [volume_int _ (by simp), List.prod_cons, hprod]
  have hneg : -((t.prod : Nat) : Int) < 0 := by omega
  simp only [h1, h2, if_pos hneg, Axes.fillFirst, if_true, hd, h3]

end OnnxTool.Props
