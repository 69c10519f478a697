import Verif.Model.KernelsElem
import Verif.Spec.KernelsElem
import Verif.Proofs.ValueMath
import Verif.Proofs.ValueReduce
import Verif.Proofs.Kernels
import Verif.Proofs.KernelsCut
/-! # Elementwise, reducing and selecting kernels -/
namespace OnnxTool.Kernels
open OnnxTool OnnxTool.Torch OnnxTool.Values OnnxTool.Shape

variable {U V W : Type}

theorem stored_storeAt (mem : Nat → V) (off : Nat) (t : Tensor V) : Stored mem (storeAt mem off t) off t := by
  refine ⟨fun idx hi => ?_, fun a ha => ?_⟩
  · have h := ravel_lt hi
    unfold storeAt
    rw [if_pos (by omega), show off + ravel t.shape idx - off = ravel t.shape idx by omega, unravel_ravel hi]
  · unfold storeAt
    rw [if_neg (by omega)]

theorem fills_out {mem : Nat → V} {off : Nat} {os : List Nat} {r : Except PyErr (Tensor V)} {t : Tensor V} {P : Tensor V → Prop} (hr : r = .ok t)
    (hs : t.shape = os) (hP : P t) : Fills mem off os (outStore mem off os r) P := by
  subst hr
  exact ⟨_, t, rfl, hs, hP, stored_storeAt mem off t⟩

theorem fills_copy {mem : Nat → V} {off : Nat} {os : List Nat} {r : Except PyErr (Tensor V)} {t : Tensor V} {P : Tensor V → Prop} (hr : r = .ok t)
    (hs : t.shape = os) (hP : P t) : Fills mem off os (copyStore mem off os r) P := by
  subst hr
  obtain ⟨u, h1, h2⟩ := copyTo_same t hs
  refine ⟨storeAt mem off u, t, ?_, hs, hP, ?_⟩
  · simp only [copyStore, h1]
  · have := stored_storeAt mem off u
    refine ⟨fun idx hi => ?_, fun a ha => this.frame a (by rw [h2.1]; exact ha)⟩
    have hi' : InB u.shape idx := by rw [h2.1]; exact hi
    rw [← h2.1, this.value idx hi', h2.2 idx hi']

theorem torch2_ok (f : U → V → W) (x : Tensor U) (y : Tensor V) (r : List Nat) (h : IsBroadcast [x.shape, y.shape] r) :
    ∃ z, torch2 f x y = .ok z ∧ z.shape = r ∧ IsElementwise2 f x y z := by
  obtain ⟨z, h1, h2, h3⟩ := ufunc2_ok f x y r h
  refine ⟨z, ?_, h2, h3⟩
  unfold torch2
  unfold ufunc2 at h1
  split
  · rename_i hn; simp only [hn] at h1; cases h1
  · rename_i s hn; simp only [hn] at h1; exact h1

theorem torch2_error (f : U → V → W) (x : Tensor U) (y : Tensor V) (h : ¬ ∃ r, IsBroadcast [x.shape, y.shape] r) : torch2 f x y = .error .runtimeError := by
  unfold torch2
  split
  · rfl
  · rename_i r hr
    exact absurd ⟨r, (npShape_iff _ _ _).1 hr⟩ h

theorem fills_torch2 (mem : Nat → W) (off : Nat) (f : U → V → W) (x : Tensor U) (y : Tensor V) {os : List Nat} (h : IsBroadcast [x.shape, y.shape] os) :
    Fills mem off os (outStore mem off os (torch2 f x y)) (IsElementwise2 f x y) := by
  obtain ⟨z, h1, h2, h3⟩ := torch2_ok f x y os h
  exact fills_out h1 h2 h3

theorem isMap_mapValue (f : V → V) (x : Tensor V) : IsMap f x (mapValue f x) := ⟨rfl, fun _ _ => rfl⟩

/-! ### Dimensions -/

theorem torchDim_ok {r : Nat} {a : Int} (h : -(r : Int) ≤ a ∧ a < r) : torchDim r a = .ok (if a < 0 then a + r else a).toNat := by
  unfold torchDim; rw [if_pos h]

theorem torchDim_error {r : Nat} {a : Int} (h : ¬ (-(r : Int) ≤ a ∧ a < r)) : torchDim r a = .error .indexError := by
  unfold torchDim; rw [if_neg h]

theorem torchDimsList_np {r : Nat} : ∀ {l : List Int} {ks : List Nat}, npAxesList r l = .ok ks → torchDimsList r l = .ok ks := by
  intro l
  induction l with
  | nil => intro ks h; exact h
  | cons a l ih =>
    intro ks h
    unfold npAxesList npAxis at h
    unfold torchDimsList torchDim
    by_cases ha : -(r : Int) ≤ a ∧ a < r
    · simp only [if_pos ha] at h ⊢
      cases hl : npAxesList r l with
      | error e => simp [hl] at h
      | ok k => simp only [hl] at h; simp only [ih hl]; exact h
    · simp [if_neg ha] at h

theorem torchDimsList_error {r : Nat} : ∀ {l : List Int}, (¬ ∀ a ∈ l, -(r : Int) ≤ a ∧ a < r) → torchDimsList r l = .error .indexError := by
  intro l
  induction l with
  | nil => intro h; exact absurd (fun a ha => absurd ha (by simp)) h
  | cons a l ih =>
    intro h
    unfold torchDimsList
    by_cases ha : -(r : Int) ≤ a ∧ a < r
    · rw [torchDim_ok ha]
      have : ¬ ∀ b ∈ l, -(r : Int) ≤ b ∧ b < r := fun hl => h fun b hb => by
        rcases List.mem_cons.1 hb with rfl | hb
        · exact ha
        · exact hl b hb
      simp only [ih this]
    · rw [torchDim_error ha]

theorem torchDimsList_eq {r : Nat} : ∀ {l : List Int}, (∀ a ∈ l, -(r : Int) ≤ a ∧ a < r) →
    torchDimsList r l = .ok (l.map fun a : Int => (if a < 0 then a + r else a).toNat) := by
  intro l
  induction l with
  | nil => intro _; rfl
  | cons a l ih =>
    intro h
    unfold torchDimsList
    rw [torchDim_ok (h a (by simp)), ih fun b hb => h b (by simp [hb])]
    rfl

/-- an axis given twice, in whatever form, is refused -/
theorem torchDims_repeated {r : Nat} {l : List Int} (h : ∀ a ∈ l, -(r : Int) ≤ a ∧ a < r) (i j : Nat) (hij : i < j) (hj : j < l.length)
    (hs : l[i] = l[j] ∨ l[i] = l[j] + r ∨ l[j] = l[i] + r) : torchDims r l = .error .runtimeError := by
  unfold torchDims
  rw [torchDimsList_eq h]
  have hn : ¬ (l.map fun a : Int => (if a < 0 then a + r else a).toNat).Nodup := by
    intro hd
    have h1 := h l[i] (List.getElem_mem _)
    have h2 := h l[j] (List.getElem_mem _)
    have := (List.Nodup.getElem_inj_iff hd (i := i) (j := j) (hi := by simp; omega) (hj := by simpa using hj)).1 (by
      simp only [List.getElem_map]
      split_ifs <;> omega)
    omega
  simp only [if_neg hn]

/-- the axes a torch reduction works on: all of them for the empty tuple -/
theorem torchDims_ok {r : Nat} {l : List Int} (h : GoodAxes r l) :
    ∃ ks, torchDims r l = .ok ks ∧ ∀ k, k < r → (k ∈ ks ↔ (l = [] ∨ Listed r l k)) := by
  obtain ⟨ks, h1, h2⟩ := npAxes_ok h
  unfold npAxes at h1
  cases hl : npAxesList r l with
  | error e => simp [hl] at h1
  | ok k0 =>
    simp only [hl] at h1
    split_ifs at h1 with hd
    · injection h1 with h1
      subst h1
      unfold torchDims
      rw [torchDimsList_np hl]
      simp only [if_pos hd]
      refine ⟨_, rfl, fun k hk => ?_⟩
      cases l with
      | nil => simp [hk]
      | cons a l => simp [h2 k]


/-! ### In place -/

theorem inPlace_ok (f : V → V → V) (x y : Tensor V) (h : Fit y.shape x.shape) :
    ∃ z, inPlace f x y = .ok z ∧ z.shape = x.shape ∧ ∀ idx j, InB x.shape idx → Source y.shape x.shape idx j → z.at idx = f (x.at idx) (y.at j) := by
  refine ⟨⟨x.shape, fun idx => f (x.at idx) (y.at (bcastIdx y.shape idx))⟩, ?_, rfl, fun idx j hi hj => ?_⟩
  · unfold inPlace
    rw [canExpand_of h.1 h.2, if_pos rfl]
  · show f (x.at idx) (y.at (bcastIdx y.shape idx)) = _
    rw [source_eq h.1 hi hj]

theorem fit_within {s r : List Nat} (h : Within s r) : Fit s r := fit_of_broadcast h (by simp)

theorem source_refl {s idx : List Nat} (hi : InB s idx) : Source s s idx idx := by
  refine ⟨hi, fun k hk => ?_⟩
  have := (inb_iff.1 hi).2 k hk
  rw [Nat.sub_self, Nat.zero_add]
  split_ifs with h
  · omega
  · rfl

theorem mad_ok (mem : Nat → ℚ) (off : Nat) (x w b : Tensor ℚ) (os : List Nat) (h : IsBroadcast [x.shape, w.shape] os) (hb : Within b.shape os) :
    Fills mem off os (madKernel mem off os x w b) fun y => ∀ idx i j k, InB os idx → Source x.shape os idx i → Source w.shape os idx j →
      Source b.shape os idx k → y.at idx = x.at i * w.at j + b.at k := by
  obtain ⟨p, h1, h2, h3⟩ := torch2_ok (fun a b => a * b) x w os h
  obtain ⟨z, h4, h5, h6⟩ := inPlace_ok (fun a b => a + b) p b (by rw [h2]; exact fit_within hb)
  unfold madKernel
  rw [h1]
  refine fills_out h4 (h5.trans h2) fun idx i j k hi hx hw hk => ?_
  rw [h6 idx k (by rw [h2]; exact hi) (by rw [h2]; exact hk), h3.value idx i j (by rw [h2]; exact hi) (by rw [h2]; exact hx) (by rw [h2]; exact hw)]

/-! ### Where -/

theorem whereKernel_ok (mem : Nat → ℚ) (off : Nat) (c x y : Tensor ℚ) (os : List Nat) (h : IsBroadcast [c.shape, x.shape, y.shape] os) :
    Fills mem off os (whereKernel mem off os c x y) (IsWhere ⟨c.shape, fun i => decide (c.at i ≠ 0)⟩ x y) := by
  obtain ⟨z, h1, h2, h3⟩ := where_ok ⟨c.shape, fun i => decide (c.at i ≠ 0)⟩ x y os h
  refine fills_out (t := z) ?_ h2 h3
  unfold whereValue ufunc2 at h1
  unfold torch2
  cases hn : npShape x.shape y.shape with
  | none => simp [hn] at h1
  | some p =>
    simp only [hn] at h1 ⊢
    cases hm : npShape c.shape p with
    | none => simp [hm] at h1
    | some q =>
      simp only [hm] at h1 ⊢
      rw [← h1]
      simp

/-! ### Softmax -/

theorem sum_pos_of : ∀ {l : List ℚ}, l ≠ [] → (∀ a ∈ l, 0 < a) → 0 < l.sum := by
  intro l
  induction l with
  | nil => intro h; exact absurd rfl h
  | cons a l ih =>
    intro _ hp
    rw [List.sum_cons]
    have h1 := hp a (by simp)
    by_cases hl : l = []
    · subst hl; simpa using h1
    · exact add_pos h1 (ih hl fun b hb => hp b (List.mem_cons_of_mem _ hb))

theorem softmax_ok (exp : ℚ → ℚ) (k : Nat) (x : Tensor ℚ) (hk : k < x.shape.length) (hpos : ∀ a, 0 < exp a) : IsSoftmax exp k x (torchSoftmax exp k x) := by
  have hset : ∀ (idx : List Nat) (j j' : Nat), (idx.set k j).set k j' = idx.set k j' := fun idx j j' => List.set_set _
  have hsum : ∀ idx, InB x.shape idx → 0 < ((List.range (x.shape.getD k 0)).map fun j => exp (x.at (idx.set k j))).sum := by
    intro idx hi
    have hn : 0 < x.shape.getD k 0 := by have := (inb_iff.1 hi).2 k hk; omega
    exact sum_pos_of (by intro hc; rw [List.map_eq_nil_iff, List.range_eq_nil] at hc; omega) fun a ha => by
      obtain ⟨j, _, rfl⟩ := List.mem_map.1 ha
      exact hpos _
  refine ⟨rfl, fun idx hi j hj => ?_, fun idx hi => ?_⟩
  · show exp (x.at idx) / _ * _ = exp (x.at (idx.set k j)) / _ * _
    simp only [hset]
    ring
  · have e : (fun j : Nat => (torchSoftmax exp k x).at (idx.set k j)) =
        fun j : Nat => exp (x.at (idx.set k j)) / ((List.range (x.shape.getD k 0)).map fun j => exp (x.at (idx.set k j))).sum := by
      funext j
      show exp (x.at (idx.set k j)) / _ = _
      simp only [hset]
    rw [e]
    have hd : ∀ (l : List Nat) (g : Nat → ℚ) (c : ℚ), (l.map fun j => g j / c).sum = (l.map g).sum / c := by
      intro l g c
      induction l with
      | nil => simp
      | cons a l ih => simp only [List.map_cons, List.sum_cons, ih, add_div]
    rw [hd, div_self (ne_of_gt (hsum idx hi))]

/-! ### Tile -/

theorem tile_ok (reps : List Nat) (x : Tensor V) (hl : reps.length = x.shape.length) : ∃ y, torchRepeat reps x = .ok y ∧ IsTile reps x y := by
  unfold torchRepeat
  rw [if_neg (by omega), hl, Nat.sub_self]
  simp only [List.replicate_zero, List.nil_append, List.drop_zero]
  refine ⟨_, rfl, rfl, fun idx src hi hs hk => ?_⟩
  show x.at _ = _
  congr 1
  have hil : idx.length = (List.zipWith (fun d n => d * n) x.shape reps).length := inb_length hi
  have hzl : (List.zipWith (fun d n => d * n) x.shape reps).length = x.shape.length := by rw [List.length_zipWith]; omega
  have hsl := inb_length hs
  refine List.ext_getElem (by rw [List.length_zipWith, hsl, hil, hzl, Nat.min_self]) fun k h1 h2 => ?_
  rw [List.getElem_zipWith]
  have hkx : k < x.shape.length := by omega
  obtain ⟨c, hc⟩ := hk k hkx
  have hlt := (inb_iff.1 hs).2 k hkx
  rw [List.getD_eq_getElem _ _ (by omega), List.getD_eq_getElem _ _ hkx, List.getD_eq_getElem _ _ h2] at hc
  rw [List.getD_eq_getElem _ _ h2, List.getD_eq_getElem _ _ hkx] at hlt
  rw [hc, Nat.mul_add_mod_of_lt hlt]

/-- further repeats in front: the operand is repeated as if it had axes of size 1 there -/
theorem torchRepeat_front (pre reps : List Nat) (x : Tensor V) (hl : reps.length = x.shape.length) :
    torchRepeat (pre ++ reps) x = torchRepeat (pre ++ reps) ⟨List.replicate pre.length 1 ++ x.shape, fun idx => x.at (idx.drop pre.length)⟩ := by
  unfold torchRepeat
  simp only [List.length_append, List.length_replicate]
  rw [if_neg (by omega), if_neg (by omega), show pre.length + reps.length - x.shape.length = pre.length by omega,
    show pre.length + reps.length - (pre.length + x.shape.length) = 0 by omega]
  simp

/-! ### GatherElements, RangeGather -/

theorem gatherElements_ok (k : Nat) (data : Tensor V) (index : Tensor Int) (hr : index.shape.length = data.shape.length)
    (hle : ∀ j, j < data.shape.length → j ≠ k → index.shape.getD j 0 ≤ data.shape.getD j 0)
    (hi : ∀ i, InB index.shape i → 0 ≤ index.at i ∧ index.at i < data.shape.getD k 0) :
    ∃ y, torchGather k data index = .ok y ∧ IsGatherElements k data index y := by
  unfold torchGather
  rw [if_pos]
  · refine ⟨_, rfl, rfl, fun idx hidx => ?_⟩
    rw [if_neg (by have := (hi idx hidx).1; omega)]
  · refine ⟨hr, List.all_eq_true.2 fun j hj => ?_, List.all_eq_true.2 fun v hv => ?_⟩
    · by_cases h : j = k
      · simp [h]
      · have := hle j (List.mem_range.1 hj) h
        simp [h]
        simpa using this
    · obtain ⟨i, h1, rfl⟩ := mem_flat index hv
      simpa using hi i h1

theorem gatherElements_outside (k : Nat) (data : Tensor V) (index : Tensor Int) (i : List Nat) (hi : InB index.shape i)
    (h : index.at i < 0 ∨ (data.shape.getD k 0 : Int) ≤ index.at i) : torchGather k data index = .error .runtimeError := by
  unfold torchGather
  rw [if_neg]
  rintro ⟨_, _, h3⟩
  have hm : index.at i ∈ index.flat := by
    unfold Tensor.flat
    exact List.mem_map.2 ⟨ravel index.shape i, List.mem_range.2 (ravel_lt hi), by rw [unravel_ravel hi]⟩
  have := List.all_eq_true.1 h3 _ hm
  simp only [decide_eq_true_eq] at this
  omega

theorem rows_ok (past len : Nat) (table : Tensor V) (h0 : table.shape ≠ []) (h : len = 0 ∨ past + len ≤ table.shape.getD 0 0) :
    ∃ y, table.indexSelect 0 ((List.range len).map fun i => ((past : Nat) : Int) + ((i : Nat) : Int)) = .ok y ∧ IsRows past len table y := by
  obtain ⟨d, s, hs⟩ : ∃ d s, table.shape = d :: s := by
    cases ht : table.shape with
    | nil => exact absurd ht h0
    | cons d s => exact ⟨d, s, rfl⟩
  unfold Tensor.indexSelect
  rw [if_pos]
  · refine ⟨_, rfl, by simp [hs], fun i rest hi hrest => ?_⟩
    show table.at _ = _
    simp [hi]
    congr 2
  · refine ⟨by rw [hs]; simp, List.all_eq_true.2 fun v hv => ?_⟩
    obtain ⟨j, hj, rfl⟩ := List.mem_map.1 hv
    have := List.mem_range.1 hj
    simp only [decide_eq_true_eq]
    omega

theorem rows_outside (past len : Nat) (table : Tensor V) (hl : 0 < len) (h : table.shape.getD 0 0 < past + len) :
    table.indexSelect 0 ((List.range len).map fun i => ((past : Nat) : Int) + ((i : Nat) : Int)) = .error .indexError := by
  unfold Tensor.indexSelect
  rw [if_neg]
  rintro ⟨_, h2⟩
  have := List.all_eq_true.1 h2 (((past : Nat) : Int) + ((len - 1 : Nat) : Int)) (List.mem_map.2 ⟨len - 1, List.mem_range.2 (by omega), rfl⟩)
  simp only [decide_eq_true_eq] at this
  omega

/-! ### Reductions -/

theorem meanList_eq (l : List ℚ) : meanList l = l.sum / (l.length : ℚ) := rfl

theorem varList_eq (l : List ℚ) : varList l = (l.map fun c => (c - l.sum / (l.length : ℚ)) ^ 2).sum / (l.length : ℚ) := by
  unfold varList
  rw [meanList_eq, List.length_map]
  rfl

end OnnxTool.Kernels
