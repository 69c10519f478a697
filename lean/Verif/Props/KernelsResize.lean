import Verif.Proofs.KernelsResize
/-!
# C95: the Resize kernel

`IsNearest`, `IsLinear`, `Coord`, `Near` (ONNX's modes) are in `Spec/KernelsResize.lean`, `Fills` in `Spec/KernelsElem.lean`.
-/
namespace OnnxTool.Props
open OnnxTool OnnxTool.Torch OnnxTool.Kernels

/-- the shapes: the first two axes keep their sizes, every size is positive -/
structure Resizes (s os : List Nat) : Prop where
  same : s.take 2 = os.take 2
  rank : s.length = os.length
  two : 2 ≤ s.length
  pos : ∀ d ∈ s, 0 < d
  pos' : ∀ d ∈ os, 0 < d

/-- whole numbers as Python integers -/
def asInts (os : List Nat) : List Int := os.map fun n : Nat => (n : Int)

section
variable (mem : Nat → ℚ) (off : Nat) (cubic : Bool → Tensor ℚ → List Nat → Tensor ℚ)

theorem drop_asInts (os : List Nat) : ((asInts os).drop 2).map Int.toNat = os.drop 2 := by
  unfold asInts
  rw [← List.map_drop, List.map_map]
  exact (List.map_congr_left fun n _ => Int.toNat_natCast n).trans (List.map_id _)

theorem interp_os {x : Tensor ℚ} {os : List Nat} (h : Resizes x.shape os) :
    x.shape.take 2 ++ ((asInts os).drop 2).map Int.toNat = os ∧ ((asInts os).drop 2).length + 2 = x.shape.length ∧
    (((asInts os).drop 2).all (0 < ·) && (x.shape.drop 2).all (0 < ·)) = true := by
  refine ⟨by rw [drop_asInts, h.same, List.take_append_drop], ?_, ?_⟩
  · have := h.two
    have := h.rank
    unfold asInts
    simp only [List.length_drop, List.length_map]
    omega
  · rw [Bool.and_eq_true, List.all_eq_true, List.all_eq_true]
    constructor
    · intro d hd
      unfold asInts at hd
      rw [← List.map_drop] at hd
      obtain ⟨k, hk, rfl⟩ := List.mem_map.1 hd
      have := h.pos' k (List.mem_of_mem_drop hk)
      simpa using this
    · intro d hd
      simpa using h.pos d (List.mem_of_mem_drop hd)

theorem nearest_runs {x : Tensor ℚ} {os : List Nat} (h : Resizes x.shape os) (hr : 3 ≤ x.shape.length ∧ x.shape.length ≤ 5) (align : Bool) :
    interpolate cubic .nearest align x ((asInts os).drop 2) = .ok ⟨os, fun idx => x.at (nearestSrc x.shape os idx)⟩ := by
  obtain ⟨e1, e2, e3⟩ := interp_os h
  unfold interpolate
  rw [if_neg (by rw [e2]; simp)]
  simp only
  rw [if_pos hr, if_pos e3, e1]

theorem nearestSrc_floor : ∀ {s os idx : List Nat}, s.length = os.length → (∀ d ∈ s, 0 < d) → InB os idx →
    nearestSrc s os idx = nearestIdx .asymmetric .floor (ratios s os) s os idx := by
  intro s
  induction s with
  | nil => intro os idx hl _ _; cases os <;> cases idx <;> rfl
  | cons n s ih =>
    intro os idx hl hp hi
    cases os with
    | nil => cases hl
    | cons m os =>
      cases idx with
      | nil => exact absurd hi (by simp [InB])
      | cons i idx =>
        simp only [nearestSrc, ratios, nearestIdx]
        rw [ih (by simpa using hl) (fun d hd => hp d (List.mem_cons_of_mem _ hd)) hi.2, nearest_floor_axis hi.1 (hp n List.mem_cons_self)]

/-- **C95**, nearest: for tensors with one to three spatial axes and every target size, the output slot is filled with the operand's element at the rounded-down coordinate: ONNX's mode
`nearest` with `asymmetric` coordinates and `nearest_mode = floor`, whatever the attributes say. -/
theorem C95_nearest (x : Tensor ℚ) (os : List Nat) (h : Resizes x.shape os) (hr : 3 ≤ x.shape.length ∧ x.shape.length ≤ 5) (mode coord : Option PyText)
    (hm : torchMode mode = .nearest) (scales : Option (List ℚ)) :
    Fills mem off os (resizeKernel mem off os cubic mode coord x scales (some (asInts os))) (IsNearest .asymmetric .floor (ratios x.shape os) os x) := by
  unfold resizeKernel
  simp only [hm, if_true]
  exact fills_copy (nearest_runs cubic h hr _) rfl ⟨rfl, fun idx hi => by
    show x.at (nearestSrc x.shape os idx) = _
    rw [nearestSrc_floor h.rank h.pos hi]⟩

theorem fills_unique {os : List Nat} {r : Except PyErr (Nat → ℚ)} {P Q : Tensor ℚ → Prop} (h : Fills mem off os r P) (h' : Fills mem off os r Q) :
    ∃ y z, P y ∧ Q z ∧ y.shape = os ∧ z.shape = os ∧ ∀ idx, InB os idx → y.at idx = z.at idx := by
  obtain ⟨m1, y, e1, s1, p1, t1⟩ := h
  obtain ⟨m2, z, e2, s2, p2, t2⟩ := h'
  rw [e1] at e2
  injection e2 with e2
  subst e2
  refine ⟨y, z, p1, p2, s1, s2, fun idx hi => ?_⟩
  rw [← t1.value idx (by rw [s1]; exact hi), ← t2.value idx (by rw [s2]; exact hi), s1, s2]

theorem nearestIdx_default : ∀ {s os idx : List Nat}, s.length = os.length → (∀ d ∈ s, 0 < d) → InB os idx →
    (∀ (k n m : Nat), s[k]? = some n → os[k]? = some m → n ∣ 2 * m) →
    nearestIdx .halfPixel .roundPreferFloor (ratios s os) s os idx = nearestSrc s os idx := by
  intro s
  induction s with
  | nil => intro os idx hl _ _ _; cases os <;> cases idx <;> rfl
  | cons n s ih =>
    intro os idx hl hp hi hd
    cases os with
    | nil => cases hl
    | cons m os =>
      cases idx with
      | nil => exact absurd hi (by simp [InB])
      | cons i idx =>
        simp only [nearestSrc, ratios, nearestIdx]
        rw [ih (by simpa using hl) (fun d hd => hp d (List.mem_cons_of_mem _ hd)) hi.2 (fun k => hd (k + 1))]
        congr 1
        have hn := hp n List.mem_cons_self
        exact (nearest_default_axis hi.1 hn).2 ((default_all_iff (by have := hi.1; omega) hn).2 (hd 0 n m rfl rfl) i hi.1)

/-- position `k` of the two indices -/
theorem nearestIdx_getD : ∀ {s os idx : List Nat} {k n m i : Nat}, s[k]? = some n → os[k]? = some m → idx[k]? = some i →
    (nearestIdx .halfPixel .roundPreferFloor (ratios s os) s os idx).getD k 0 = clampTo n (Near.pos .roundPreferFloor (Coord.src .halfPixel ((m : ℚ) / n) n m i)) ∧
    (nearestSrc s os idx).getD k 0 = i * n / m := by
  intro s
  induction s with
  | nil => intro os idx k n m i h; simp at h
  | cons a s ih =>
    intro os idx k n m i h1 h2 h3
    cases os with
    | nil => simp at h2
    | cons b os =>
      cases idx with
      | nil => simp at h3
      | cons c idx =>
        cases k with
        | zero =>
          simp only [List.getElem?_cons_zero, Option.some.injEq] at h1 h2 h3
          subst h1 h2 h3
          simp [ratios, nearestIdx, nearestSrc]
        | succ k =>
          simp only [ratios, nearestIdx, nearestSrc, List.getD_cons_succ]
          exact ih (by simpa using h1) (by simpa using h2) (by simpa using h3)

theorem inB_axis : ∀ {os : List Nat} (k m i : Nat), (∀ d ∈ os, 0 < d) → os[k]? = some m → i < m → ∃ idx, InB os idx ∧ idx[k]? = some i := by
  intro os
  induction os with
  | nil => intro k m i _ h; simp at h
  | cons d os ih =>
    intro k m i hp h hi
    have hz : ∀ os : List Nat, (∀ d ∈ os, 0 < d) → InB os (os.map fun _ => 0) := by
      intro os
      induction os with
      | nil => intro _; trivial
      | cons a os ih => intro h; exact ⟨h a List.mem_cons_self, ih fun d hd => h d (List.mem_cons_of_mem _ hd)⟩
    cases k with
    | zero =>
      simp only [List.getElem?_cons_zero, Option.some.injEq] at h
      subst h
      exact ⟨i :: os.map fun _ => 0, ⟨hi, hz os fun d hd => hp d (List.mem_cons_of_mem _ hd)⟩, rfl⟩
    | succ k =>
      obtain ⟨idx, h1, h2⟩ := ih k m i (fun d hd => hp d (List.mem_cons_of_mem _ hd)) (by simpa using h) hi
      exact ⟨0 :: idx, ⟨hp d List.mem_cons_self, h1⟩, by simpa using h2⟩

/-- **C95**, the default of ONNX (`half_pixel`, `round_prefer_floor`): the kernel is right for all tensors of a shape exactly if on every axis the old size divides twice the new one
(whole-number enlargements and halving are among them; shrinking by three is not). -/
theorem C95_nearest_default_iff (s os : List Nat) (h : Resizes s os) (hr : 3 ≤ s.length ∧ s.length ≤ 5) (mode coord : Option PyText) (hm : torchMode mode = .nearest) :
    (∀ x : Tensor ℚ, x.shape = s →
      Fills mem off os (resizeKernel mem off os cubic mode coord x none (some (asInts os))) (IsNearest .halfPixel .roundPreferFloor (ratios s os) os x)) ↔
    ∀ k n m : Nat, s[k]? = some n → os[k]? = some m → n ∣ 2 * m := by
  constructor
  · intro hall k n m hn hm'
    have hmpos : 0 < m := h.pos' m (List.mem_of_getElem? hm')
    have hnpos : 0 < n := h.pos n (List.mem_of_getElem? hn)
    refine (default_all_iff hmpos hnpos).1 fun i hi => (nearest_default_axis hi hnpos).1 ?_
    obtain ⟨idx, hI, hk⟩ := inB_axis k m i h.pos' hm' hi
    have hx := hall ⟨s, fun idx => (idx.getD k 0 : ℚ)⟩ rfl
    have hy := C95_nearest mem off cubic ⟨s, fun idx => (idx.getD k 0 : ℚ)⟩ os h hr mode coord hm none
    obtain ⟨y, z, hy1, hz1, -, -, e⟩ := fills_unique mem off hx hy
    have e := e idx hI
    rw [hy1.value idx hI, hz1.value idx hI] at e
    simp only at e
    rw [← nearestSrc_floor h.rank h.pos hI] at e
    obtain ⟨g1, g2⟩ := nearestIdx_getD hn hm' hk
    rw [g1, g2] at e
    exact_mod_cast e
  · rintro hd x rfl
    unfold resizeKernel
    simp only [hm, if_true]
    exact fills_copy (nearest_runs cubic h hr _) rfl ⟨rfl, fun idx hi => by
      show x.at (nearestSrc x.shape os idx) = _
      rw [nearestIdx_default h.rank h.pos hi hd]⟩

theorem bilinear_runs {x : Tensor ℚ} {os : List Nat} (h : Resizes x.shape os) (hr : x.shape.length = 4) (align : Bool) :
    ∃ y, interpolate cubic .bilinear align x ((asInts os).drop 2) = .ok y ∧ y.shape = os ∧
      IsLinear (if align then .alignCorners else .halfPixel) (ratios x.shape os) os x y := by
  obtain ⟨e1, e2, e3⟩ := interp_os h
  unfold interpolate
  rw [if_neg (by rw [e2]; simp)]
  simp only
  rw [if_pos hr, if_pos e3, e1]
  refine ⟨_, rfl, rfl, rfl, fun idx hi => ?_⟩
  have hos : os.length = 4 := by rw [← h.rank]; exact hr
  match hs : x.shape, ho : os, h with
  | [N, C, H, W], [N', C', oh, ow], h =>
    have hsame := h.same
    simp only [List.take_succ_cons, List.take_zero, List.cons.injEq, and_true] at hsame
    obtain ⟨rfl, rfl⟩ := hsame
    match idx, hi with
    | [b, c, i, j], hi =>
      obtain ⟨hb, hc, hi, hj, -⟩ := hi
      have := bilinear_linear align x hs (h.pos H (by simp)) (h.pos W (by simp)) hb hc hi hj
      rw [hs] at this
      exact this
    | [], hi => exact absurd hi (by simp [InB])
    | [_], hi => exact absurd hi (by simp [InB])
    | [_, _], hi => exact absurd hi (by simp [InB])
    | [_, _, _], hi => exact absurd hi (by simp [InB])
    | _ :: _ :: _ :: _ :: _ :: _, hi => exact absurd hi (by simp [InB])
  | [], _, _ => simp [hs] at hr
  | [_], _, _ => simp [hs] at hr
  | [_, _], _, _ => simp [hs] at hr
  | [_, _, _], _, _ => simp [hs] at hr
  | _ :: _ :: _ :: _ :: _ :: _, _, _ => simp [hs] at hr
  | _, [], _ => simp at hos
  | _, [_], _ => simp at hos
  | _, [_, _], _ => simp at hos
  | _, [_, _, _], _ => simp at hos
  | _, _ :: _ :: _ :: _ :: _ :: _, _ => simp at hos

/-- **C95**, linear with `sizes`: for images and every target size ONNX's linear interpolation — with `align_corners` coordinates if the attribute is the `str` 'align_corners', with the default
`half_pixel` otherwise. -/
theorem C95_linear (x : Tensor ℚ) (os : List Nat) (h : Resizes x.shape os) (hr : x.shape.length = 4) (mode coord : Option PyText) (hm : torchMode mode = .bilinear)
    (scales : Option (List ℚ)) :
    Fills mem off os (resizeKernel mem off os cubic mode coord x scales (some (asInts os)))
      (IsLinear (if coord = some (.str "align_corners") then .alignCorners else .halfPixel) (ratios x.shape os) os x) := by
  obtain ⟨y, h1, h2, h3⟩ := bilinear_runs cubic h hr (alignCorners coord)
  unfold resizeKernel
  simp only [hm]
  rw [if_neg (by decide)]
  refine fills_copy h1 h2 ?_
  unfold alignCorners at h3
  simpa using h3

/-- the attribute `mode` says `s` (as text of a model built in Python or as bytes of a file) -/
def Says (mode : Option PyText) (s : String) : Prop := mode = some (.str s) ∨ mode = some (.bytes s)

/-- **C95**, which interpolation the attribute selects: linear and cubic if it says so, nearest in all other cases (missing or unknown). -/
theorem C95_modes (mode : Option PyText) :
    (torchMode mode = .bilinear ↔ Says mode "linear") ∧ (torchMode mode = .bicubic ↔ Says mode "cubic") ∧
    (torchMode mode = .nearest ↔ ¬ Says mode "linear" ∧ ¬ Says mode "cubic") := by
  have key : torchMode mode = if modeText mode = "linear" then .bilinear else if modeText mode = "cubic" then .bicubic else .nearest := by
    unfold torchMode
    generalize modeText mode = s
    split
    · rfl
    · rfl
    · rfl
    · rename_i h1 h2 h3
      rw [if_neg h2, if_neg h3]
  have hs : ∀ s, (modeText mode = s ∧ s ≠ "nearest") ↔ (Says mode s ∧ s ≠ "nearest") := by
    intro s
    match mode with
    | none => constructor
              · rintro ⟨h1, h2⟩; exact absurd h1.symm h2
              · rintro ⟨h1 | h1, _⟩ <;> cases h1
    | some (.str t) => simp [modeText, Says]
    | some (.bytes t) => simp [modeText, Says]
  have h1 : modeText mode = "linear" ↔ Says mode "linear" := by simpa using hs "linear"
  have h2 : modeText mode = "cubic" ↔ Says mode "cubic" := by simpa using hs "cubic"
  rw [key, ← h1, ← h2]
  generalize modeText mode = m
  by_cases e1 : m = "linear"
  · subst e1; decide
  · by_cases e2 : m = "cubic"
    · subst e2; decide
    · simp [e1, e2]

/-- **C95**, cubic: the slot is filled with torch's bicubic interpolation to the given sizes, with the corners aligned only if the attribute is the `str` 'align_corners'. -/
theorem C95_cubic (x : Tensor ℚ) (os : List Nat) (h : Resizes x.shape os) (hr : x.shape.length = 4) (mode coord : Option PyText) (hm : Says mode "cubic") (scales : Option (List ℚ))
    (hc : (cubic (decide (coord = some (.str "align_corners"))) x (os.drop 2)).shape = os) :
    Fills mem off os (resizeKernel mem off os cubic mode coord x scales (some (asInts os))) (fun y => y = cubic (decide (coord = some (.str "align_corners"))) x (os.drop 2)) := by
  have hm := (C95_modes mode).2.1.2 hm
  obtain ⟨e1, e2, e3⟩ := interp_os h
  have hsz : ((asInts os).drop 2).map Int.toNat = os.drop 2 := by
    rw [List.map_drop]
    congr 1
    unfold asInts
    rw [List.map_map]
    conv_rhs => rw [← List.map_id os]
    exact List.map_congr_left fun d _ => by simp
  have hrun : interpolate cubic .bicubic (alignCorners coord) x ((asInts os).drop 2) = .ok (cubic (decide (coord = some (.str "align_corners"))) x (os.drop 2)) := by
    unfold interpolate
    rw [if_neg (by rw [e2]; simp)]
    simp only
    rw [if_pos hr, if_pos e3, hsz]
    rfl
  unfold resizeKernel
  simp only [hm]
  rw [if_neg (by decide)]
  exact fills_copy hrun hc rfl

/-- **C95**, `scales` with whole-number results: the same as with the resulting sizes, except that `coordinate_transformation_mode` is not read. -/
theorem C95_scales (x : Tensor ℚ) (os : List Nat) (h : Resizes x.shape os) (mode coord : Option PyText) :
    resizeKernel mem off os cubic mode coord x (some (ratios x.shape os)) none = resizeKernel mem off os cubic mode none x none (some (asInts os)) := by
  have hs : ∀ s os : List Nat, s.length = os.length → (∀ d ∈ s, 0 < d) → scaledSizes s (ratios s os) = .ok (asInts os) := by
    intro s
    induction s with
    | nil => intro os hl _; cases os with
      | nil => rfl
      | cons _ _ => cases hl
    | cons n s ih =>
      intro os hl hp
      cases os with
      | nil => cases hl
      | cons m os =>
        simp only [ratios, scaledSizes]
        rw [ih os (by simpa using hl) fun d hd => hp d (List.mem_cons_of_mem _ hd)]
        have hn : (n : ℚ) ≠ 0 := by
          have := hp n List.mem_cons_self
          exact_mod_cast (by omega : n ≠ 0)
        have e : (n : ℚ) * ((m : ℚ) / n) = m := by field_simp
        simp only [e]
        rw [if_pos (by positivity), Int.floor_natCast]
        rfl
  unfold resizeKernel
  simp only
  rw [hs x.shape os h.rank h.pos]
  simp [alignCorners]

/-- **C95 finding**: with neither `scales` nor `sizes` as third and fourth input (for instance the two-input form of opset 10) the kernel returns without writing: the output keeps whatever the
memory block held. -/
theorem C95_nothing_written (os : List Nat) (mode coord : Option PyText) (x : Tensor ℚ) : resizeKernel mem off os cubic mode coord x none none = .ok mem := rfl

/-- **C95 finding**: string attributes of a model file are `bytes`, which never equal the `str` the kernel compares with: `align_corners` of a file is treated as `half_pixel`, for every tensor. -/
theorem C95_align_corners_ignored (x : Tensor ℚ) (os : List Nat) (h : Resizes x.shape os) (hr : x.shape.length = 4) (mode : Option PyText) (hm : torchMode mode = .bilinear) :
    Fills mem off os (resizeKernel mem off os cubic mode (some (.bytes "align_corners")) x none (some (asInts os))) (IsLinear .halfPixel (ratios x.shape os) os x) := by
  have := C95_linear mem off cubic x os h hr mode (some (.bytes "align_corners")) hm none
  rwa [if_neg (by decide)] at this

/-- **C95**, other ranks raise: linear interpolation of anything but four axes, nearest of two axes. -/
theorem C95_ranks (x : Tensor ℚ) (os : List Nat) (h : Resizes x.shape os) (mode coord : Option PyText) (scales : Option (List ℚ)) :
    (torchMode mode = .bilinear → x.shape.length ≠ 4 → resizeKernel mem off os cubic mode coord x scales (some (asInts os)) = .error .notImplemented) ∧
    (torchMode mode = .nearest → ¬ (3 ≤ x.shape.length ∧ x.shape.length ≤ 5) → resizeKernel mem off os cubic mode coord x scales (some (asInts os)) = .error .notImplemented) := by
  obtain ⟨e1, e2, e3⟩ := interp_os h
  constructor
  · intro hm hr
    unfold resizeKernel interpolate
    simp only [hm]
    rw [if_neg (by rw [e2]; simp), if_neg hr]
    rfl
  · intro hm hr
    unfold resizeKernel interpolate
    simp only [hm]
    rw [if_neg (by rw [e2]; simp), if_neg hr]
    rfl

end

/-! ### Concrete cases -/

/-- a row of `n` numbers as an image: 0, 1, 4, 9, … -/
def resizeRow (n : Nat) : Tensor ℚ := ⟨[1, 1, 1, n], fun idx => ((idx.getD 3 0 : ℕ) : ℚ) ^ 2⟩

example : Resizes (resizeRow 3).shape [1, 1, 1, 6] := ⟨rfl, rfl, by decide, by decide, by decide⟩

/-- what the kernel leaves in a pool of eight cells -/
def resized (mode coord : Option PyText) (n m : Nat) (scales : Option (List ℚ)) (sizes : Option (List Int)) : Option (List ℚ) :=
  (resizeKernel (fun _ => -1) 1 [1, 1, 1, m] (fun _ x _ => x) mode coord (resizeRow n) scales sizes).toOption.map fun f => (List.range 8).map f

example : resized none none 3 6 none (some [1, 1, 1, 6]) = some [-1, 0, 0, 1, 1, 4, 4, -1] := by decide +kernel

/-- **C95 finding**, shrinking by three: the kernel takes the first of three elements, ONNX (default) the middle one. -/
theorem C95_shrink_counterexample : resized (some (.bytes "nearest")) none 6 2 none (some [1, 1, 1, 2]) = some [-1, 0, 9, -1, -1, -1, -1, -1] ∧
    (List.range 2).map (fun i => (resizeRow 6).at (nearestIdx .halfPixel .roundPreferFloor (ratios [1, 1, 1, 6] [1, 1, 1, 2]) [1, 1, 1, 6] [1, 1, 1, 2] [0, 0, 0, i])) = [1, 16] := by
  decide +kernel

/-- **C95 finding**, `align_corners` of a file: enlarging three elements to four; with the `str` attribute of a model built in Python the
result is the one of ONNX. -/
theorem C95_align_corners_counterexample :
    resized (some (.bytes "linear")) (some (.bytes "align_corners")) 3 4 none (some [1, 1, 1, 4]) = some [-1, 0, 5 / 8, 17 / 8, 4, -1, -1, -1] ∧
    resized (some (.str "linear")) (some (.str "align_corners")) 3 4 none (some [1, 1, 1, 4]) = some [-1, 0, 2 / 3, 2, 4, -1, -1, -1] ∧
    (List.range 4).map (fun i => linearAt [1, 1, 1, 3] (coords .alignCorners (ratios [1, 1, 1, 3] [1, 1, 1, 4]) [1, 1, 1, 3] [1, 1, 1, 4] [0, 0, 0, i]) (resizeRow 3).at) = [0, 2 / 3, 2, 4] := by
  decide +kernel

/-- **C95 finding**, `scales` whose results are cut: ten elements with scale 1/4 give two; the kernel then uses the ratio 2/10 instead of the scale and takes element 5 instead of element 4. -/
theorem C95_scale_counterexample : resized (some (.bytes "nearest")) (some (.bytes "asymmetric")) 10 2 (some [1, 1, 1, 1 / 4]) none = some [-1, 0, 25, -1, -1, -1, -1, -1] ∧
    (resizeRow 10).at (nearestIdx .asymmetric .floor [1, 1, 1, 1 / 4] [1, 1, 1, 10] [1, 1, 1, 2] [0, 0, 0, 1]) = 16 := by
  decide +kernel

/-- **C95 finding**, linear with `asymmetric` coordinates is computed with `half_pixel` coordinates. -/
theorem C95_asymmetric_counterexample : resized (some (.bytes "linear")) (some (.bytes "asymmetric")) 2 4 none (some [1, 1, 1, 4]) = some [-1, 0, 1 / 4, 3 / 4, 1, -1, -1, -1] ∧
    (List.range 4).map (fun i => linearAt [1, 1, 1, 2] (coords .asymmetric (ratios [1, 1, 1, 2] [1, 1, 1, 4]) [1, 1, 1, 2] [1, 1, 1, 4] [0, 0, 0, i]) (resizeRow 2).at) = [0, 1 / 2, 1, 1] := by
  decide +kernel

end OnnxTool.Props
