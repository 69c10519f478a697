import Verif.Props.BatchOps
import Verif.Model.Resample
/-!
# C120: more operators that work sample by sample
-/
namespace OnnxTool.Props
open OnnxTool OnnxTool.Resample OnnxTool.Batch

/-- an axis behind the batch, for samples with `n` axes -/
def Behind (n : Nat) (axis : Int) : Prop := 0 < axis ∨ -(n : Int) ≤ axis ∧ axis < 0

private theorem gatherLoop_above (axis : Int) (ids : List Nat) (k : Nat) (h : axis < k) (r : List Nat) : Axes.gatherLoop axis ids k r = r := by
  induction r generalizing k with
  | nil => rfl
  | cons d r ih =>
    rw [Axes.gatherLoop, if_neg (by omega), ih (k + 1) (by push_cast; omega)]
    rfl

/-- **C120, Gather from samples.** Picking along another axis than the batch. -/
theorem C120_gather (axis : Int) (ids : List Nat) : PerSample (fun r => Behind r.length axis) fun x => .ok (Axes.gatherShape axis x ids) := by
  refine ⟨fun r => .ok (Axes.gatherLoop (if axis < 0 then ((r.length + 1 : Nat) : Int) + axis else axis) ids 1 r), fun r hr b _ => ?_⟩
  simp only [Axes.gatherShape, List.length_cons, Axes.gatherLoop, Except.map]
  rw [if_neg (by rcases hr with h | h <;> split <;> push_cast <;> omega)]
  rfl

/-- **C120, Gather by samples** (an embedding): looking up a batch of indices in a table gives a batch. -/
theorem C120_embedding (n : Nat) (row : List Nat) : PerSample (fun _ => True) fun ids => .ok (Axes.gatherShape 0 (n :: row) ids) := by
  refine ⟨fun r => .ok (r ++ row), fun r _ b _ => ?_⟩
  have h0 : ¬ (0 : Int) < 0 := by decide
  simp only [Axes.gatherShape, if_neg h0]
  rw [Axes.gatherLoop, if_pos (by simp), gatherLoop_above 0 (b :: r) _ (by decide) row]
  simp [Except.map]

private theorem not_listed (n : Nat) (axes : List Int) (h : ∀ a ∈ axes, Behind n a) : ¬ (Slice.axesNeg2Pos (n + 1) axes).contains (((0 : Nat) : Int)) = true := by
  rw [List.contains_iff_mem]
  intro hm
  obtain ⟨a, ha, e⟩ := List.mem_map.1 hm
  rcases h a ha with h | h
  · rw [if_neg (by omega)] at e; simp at e; omega
  · rw [if_pos h.2] at e; push_cast at e; omega

/-- **C120, Squeeze.** Dropping axes behind the batch. -/
theorem C120_squeeze (axes : List Int) : PerSample (fun r => ∀ a ∈ axes, Behind r.length a) fun x => .ok (Axes.squeezeShape axes x) := by
  refine ⟨fun r => .ok (Axes.dropAxes (Slice.axesNeg2Pos (r.length + 1) axes) 1 r), fun r hr b _ => ?_⟩
  simp only [Axes.squeezeShape, List.length_cons, Axes.dropAxes, Except.map]
  rw [if_neg (not_listed _ _ hr)]
  rfl

/-- **C120, Unsqueeze.** New axes behind the batch. -/
theorem C120_unsqueeze (axes : List Int) : PerSample (fun r => ∀ a ∈ axes, Behind (r.length + axes.length) a) fun x => Axes.unsqueezeShape axes x := by
  refine ⟨fun r => Axes.insLoop (Slice.axesNeg2Pos (r.length + axes.length + 1) axes) (r.length + axes.length) 1 r, fun r hr b _ => ?_⟩
  have e : (b :: r).length + axes.length = r.length + axes.length + 1 := by simp; omega
  simp only [Axes.unsqueezeShape]
  rw [e]
  rw [Axes.insLoop, if_neg (not_listed _ _ hr)]
  cases Axes.insLoop (Slice.axesNeg2Pos (r.length + axes.length + 1) axes) (r.length + axes.length) (0 + 1) r with
  | error e => rfl
  | ok v => rfl

/-- **C120, OneHot.** The new axis is not put in front of the batch. -/
theorem C120_oneHot (axis : Int) (depth : Nat) : PerSample (fun r => Behind (r.length + 1) axis) fun x => .ok (Axes.oneHotShape axis depth x) := by
  refine ⟨fun r => .ok ((Axes.oneHotShape axis depth (0 :: r)).tail), fun r hr b _ => ?_⟩
  simp only [Axes.oneHotShape, List.length_cons, Except.map]
  generalize hk : (if (if axis < 0 then ((r.length + 1 + 1 : Nat) : Int) + axis else axis) < 0 then (max 0 ((if axis < 0 then ((r.length + 1 + 1 : Nat) : Int) + axis else axis) + ((r.length + 1 : Nat) : Int))).toNat
    else min (if axis < 0 then ((r.length + 1 + 1 : Nat) : Int) + axis else axis).toNat (r.length + 1)) = k
  have hpos : 0 < k := by
    rcases hr with h | h
    · rw [if_neg (by omega)] at hk
      rw [if_neg (by omega)] at hk
      omega
    · rw [if_pos h.2] at hk
      rw [if_neg (by push_cast at h ⊢; omega)] at hk
      push_cast at h hk
      omega
  obtain ⟨j, rfl⟩ : ∃ j, k = j + 1 := ⟨k - 1, by omega⟩
  rfl

private theorem splitLoop_behind (axis : Int) (h : 0 < axis) (b : Nat) (r : List Nat) (e : Int) (sp : List Int) :
    Axes.splitLoop (b :: r) axis e sp = (Axes.splitLoop (0 :: r) axis e sp).map fun s => (b : Int) :: s.tail := by
  induction sp generalizing e with
  | nil => rfl
  | cons v sp ih =>
    simp only [Axes.splitLoop, List.map_cons, Axes.splitOne]
    rw [ih, if_neg (by push_cast; omega), if_neg (by push_cast; omega)]
    rfl

/-- **C120, Split.** Cutting along another axis than the batch, into given or equal parts: every part has the batch. -/
theorem C120_split (axis : Int) (split : Option (List Int)) (nout : Nat) (r : List Nat) (hr : Behind r.length axis) :
    ∃ q : Except PyErr (List (List Int)), ∀ b : Nat, Axes.splitShape (b :: r) (some axis) split nout = q.map fun parts => parts.map ((b : Int) :: ·) := by
  have hax : ∀ b : Nat, 0 < (if axis < 0 then (((b :: r).length : Nat) : Int) + axis else axis) := by
    intro b
    rcases hr with h | h
    · rw [if_neg (by omega)]; exact h
    · rw [if_pos h.2]; simp only [List.length_cons]; push_cast; omega
  refine ⟨(Axes.splitShape (0 :: r) (some axis) split nout).map fun parts => parts.map List.tail, fun b => ?_⟩
  have hget : Axes.pyGet (b :: r) axis = Axes.pyGet (0 :: r) axis := by
    unfold Axes.pyGet
    simp only [List.length_cons]
    cases hn : Slice.normIndex (r.length + 1) axis with
    | error e => rfl
    | ok k =>
      have hk : 0 < k := by
        unfold Slice.normIndex at hn
        rcases hr with h | h
        · rw [if_pos (by omega)] at hn
          split at hn
          · cases hn; omega
          · cases hn
        · rw [if_neg (by omega)] at hn
          split at hn
          · cases hn; push_cast; omega
          · cases hn
      obtain ⟨j, rfl⟩ : ∃ j, k = j + 1 := ⟨k - 1, by omega⟩
      rfl
  have main : ∀ sp : List Int, (if (Axes.splitLoop (b :: r) (if axis < 0 then (((b :: r).length : Nat) : Int) + axis else axis) 0 sp).length ≤ nout
        then Except.ok (Axes.splitLoop (b :: r) (if axis < 0 then (((b :: r).length : Nat) : Int) + axis else axis) 0 sp) else Except.error PyErr.indexError)
      = ((if (Axes.splitLoop (0 :: r) (if axis < 0 then (((0 :: r).length : Nat) : Int) + axis else axis) 0 sp).length ≤ nout
        then Except.ok (Axes.splitLoop (0 :: r) (if axis < 0 then (((0 :: r).length : Nat) : Int) + axis else axis) 0 sp) else Except.error PyErr.indexError).map
          fun parts => parts.map List.tail).map fun parts => parts.map ((b : Int) :: ·) := by
    intro sp
    rw [splitLoop_behind _ (hax b) b r 0 sp]
    simp only [List.length_cons, List.length_map]
    generalize Axes.splitLoop (0 :: r) (if axis < 0 then ((r.length + 1 : Nat) : Int) + axis else axis) 0 sp = L
    by_cases hL : L.length ≤ nout
    · rw [if_pos hL, if_pos hL]; simp [Except.map, Function.comp_def]
    · rw [if_neg hL, if_neg hL]; rfl
  simp only [Axes.splitShape]
  cases split with
  | some s => exact main s
  | none =>
    simp only [hget]
    cases Axes.pyGet (0 :: r) axis with
    | error e => rfl
    | ok dim =>
      simp only [bind, Except.bind]
      cases Axes.defaultSplit dim nout with
      | error e => rfl
      | ok sp => exact main sp

private theorem norm_behind' (n : Nat) (axis : Int) (h : 0 < axis) : Slice.normIndex (n + 1) axis = (Slice.normIndex n (axis - 1)).map (· + 1) := by
  have h1 : (0 : Int) ≤ axis := by omega
  have h2 : (0 : Int) ≤ axis - 1 := by omega
  simp only [Slice.normIndex, if_pos h1, if_pos h2]
  by_cases hlt : axis < ((n + 1 : Nat) : Int)
  · rw [if_pos hlt, if_pos (by push_cast at hlt; omega)]
    show Except.ok _ = Except.ok ((axis - 1).toNat + 1)
    congr 1
    omega
  · rw [if_neg hlt, if_neg (by push_cast at hlt; omega)]
    rfl

private theorem effLoop_behind (b : Nat) (r : List Nat) (starts ends steps : List Int) : ∀ (axs : List Int) (i : Nat) (T : List (Int × Int × Int)), (∀ a ∈ axs, 0 < a) →
    Slice.effLoop (b :: r) starts ends steps i axs (((0 : Int), (b : Int), (1 : Int)) :: T) =
      (Slice.effLoop r starts ends steps i (axs.map (· - 1)) T).map fun T => ((0 : Int), (b : Int), (1 : Int)) :: T := by
  intro axs
  induction axs with
  | nil => intro i T _; rfl
  | cons a axs ih =>
    intro i T h
    simp only [Slice.effLoop, List.map_cons, List.length_cons]
    rw [norm_behind' _ _ (h a (by simp))]
    cases Conv.idx starts i with
    | error e => rfl
    | ok s =>
      cases Conv.idx ends i with
      | error e => rfl
      | ok e =>
        cases Conv.idx steps i with
        | error e => rfl
        | ok st =>
          cases Slice.normIndex r.length (a - 1) with
          | error e => rfl
          | ok k => exact ih (i + 1) (T.set k (Slice.effOf (r.getD k 0) s e st)) fun a ha => h a (by simp [ha])

/-- **C120, Slice.** Slicing along other axes than the batch (which must be named, as an attribute or an operand). -/
theorem C120_slice (starts ends axes : List Int) (steps : Option (List Int)) : PerSample (fun r => ∀ a ∈ axes, Behind r.length a) fun x => Slice.sliceShape x starts ends (some axes) steps := by
  refine ⟨fun r => (Slice.effLoop r starts ends (steps.getD (List.replicate starts.length 1)) 0 ((Slice.axesNeg2Pos (r.length + 1) axes).map (· - 1)) (r.map fun d : Nat => ((0 : Int), (d : Int), (1 : Int)))) >>= Slice.sizes, fun r hr b hb => ?_⟩
  have hpos : ∀ a ∈ Slice.axesNeg2Pos (r.length + 1) axes, 0 < a := by
    intro a ha
    obtain ⟨q, hq, rfl⟩ := List.mem_map.1 ha
    rcases hr q hq with h | h
    · rw [if_neg (by omega)]; exact h
    · rw [if_pos h.2]; push_cast; omega
  simp only [Slice.sliceShape, List.length_cons, Option.getD_some, List.map_cons]
  rw [effLoop_behind b r starts ends _ _ 0 _ hpos]
  cases Slice.effLoop r starts ends (steps.getD (List.replicate starts.length 1)) 0 ((Slice.axesNeg2Pos (r.length + 1) axes).map (· - 1)) (r.map fun d : Nat => ((0 : Int), (d : Int), (1 : Int))) with
  | error e => rfl
  | ok T =>
    simp only [Except.map, bind, Except.bind, Slice.sizes]
    have : Slice.axisSize ((0 : Int), (b : Int), (1 : Int)) = .ok b := by
      unfold Slice.axisSize
      simp only
      rw [if_pos (by decide), if_neg (by omega)]
      congr 1
      unfold Conv.ceilDiv
      simp
    rw [this]
    simp only
    cases Slice.sizes T with
    | error e => rfl
    | ok v => rfl

/-- **C120, DepthToSpace.** -/
theorem C120_depthToSpace (s : Nat) : PerSample (fun _ => True) fun x => depthToSpaceShape s x := by
  refine ⟨fun r => match r with | [c, h, w] => if s = 0 then .error .zeroDivision else .ok [c / (s * s), h * s, w * s] | _ => .error .valueError, fun r _ b _ => ?_⟩
  match r with
  | [] => rfl
  | [_] => rfl
  | [_, _] => rfl
  | [c, h, w] =>
    simp only [depthToSpaceShape]
    split <;> rfl
  | _ :: _ :: _ :: _ :: _ => rfl

/-- **C120, Resize by factors.** With a factor of one for the batch. -/
theorem C120_resize (nin : Nat) (scales : List Rat) : PerSample (fun _ => True) fun x => resizeShape nin x (1 :: scales) [] := by
  refine ⟨fun r => resizeShape nin r scales [], fun r _ b _ => ?_⟩
  have hq : ¬ (4 ≤ nin ∧ ([] : List Nat) ≠ []) := by simp
  simp only [resizeShape, if_neg hq]
  by_cases h : nin ≤ 1
  · rw [if_pos h, if_pos h]; rfl
  · rw [if_neg h, if_neg h]
    show Except.ok _ = Except.ok _
    congr 1
    have hb : ((b : Rat)).floor.toNat = b := by
      have e : (b : Rat).floor = (b : Int) := Rat.floor_intCast b
      rw [e]; rfl
    simp [hb]

/-- **C120, TopK.** Along another axis than the batch. -/
theorem C120_topk (axis : Int) (k : Nat) : PerSample (fun r => Behind r.length axis) fun x => (topkShape (some axis) x k).map (·.2) := by
  refine ⟨fun r => ((topkShape (some axis) (0 :: r) k).map (·.2)).map List.tail, fun r hr b _ => ?_⟩
  have e : (if (b :: r).length = 1 ∧ some axis = none then some 0 else some axis) = some axis := if_neg (by simp)
  have e' : (if (0 :: r).length = 1 ∧ some axis = none then some 0 else some axis) = some axis := if_neg (by simp)
  simp only [topkShape, e, e']
  have hn : ¬ [((0 : Nat) : Int)] = Slice.axesNeg2Pos (r.length + 1) [axis] := by
    unfold Slice.axesNeg2Pos
    simp only [List.map_cons, List.map_nil, List.cons.injEq, and_true]
    rcases hr with h | h
    · rw [if_neg (by omega)]; push_cast; omega
    · rw [if_pos h.2]; push_cast; omega
  simp only [Except.map, List.mapIdx_cons, List.length_cons, if_neg hn, List.tail_cons]
  rfl

/-- **C120 (finding): Resize by sizes.** The four sizes are taken as they are: the batch of the file, whatever the batch of the input. -/
theorem C120_resize_by_sizes (b : Nat) : resizeShape 4 [b, 3, 8, 8] [] [1, 3, 16, 16] = .ok [1, 3, 16, 16] := rfl

/-- the hypotheses are met -/
example : Behind [3, 8, 8].length 1 ∧ Behind [3, 8, 8].length (-1) ∧ ¬ Behind [3, 8, 8].length (-4) ∧ ¬ Behind [3, 8, 8].length 0 := by unfold Behind; simp
example : Slice.sliceShape [5, 3, 8] [1] [7] (some [-1]) none = .ok [5, 3, 6] ∧ Slice.sliceShape [9, 3, 8] [1] [7] (some [-1]) none = .ok [9, 3, 6] := ⟨rfl, rfl⟩
example : Axes.splitShape [5, 6] (some 1) none 2 = .ok [[5, 3], [5, 3]] ∧ Axes.splitShape [7, 6] (some 1) none 2 = .ok [[7, 3], [7, 3]] := ⟨rfl, rfl⟩

end OnnxTool.Props
