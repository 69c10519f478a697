import Verif.Proofs.GraphQuant
/-!
# C82: quantizing the weights of a graph
-/
namespace OnnxTool.Props
open OnnxTool OnnxTool.Quant OnnxTool.GraphQuant

/-- zero points are bytes -/
theorem asymParam_zero (lo hi : ℚ) (bits : ℕ) (h1 : 1 ≤ bits) (h8 : bits ≤ 8) (hne : lo ≠ 0 ∨ hi ≠ 0) (hle : lo ≤ hi) : 0 ≤ (asymParam lo hi bits).2 ∧ (asymParam lo hi bits).2 ≤ 255 := by
  obtain ⟨hN, hN'⟩ := pow_facts' bits h1 h8
  have hNe : (((2 : ℤ) ^ bits - 1 : ℤ) : ℚ) = (2 : ℚ) ^ bits - 1 := by push_cast; ring
  simp only [asymParam]
  have l1 : min lo 0 ≤ 0 := min_le_right _ _
  have l2 : 0 ≤ max hi 0 := le_max_right _ _
  have l3 : 0 < max hi 0 - min lo 0 := by
    have a1 : min lo 0 ≤ lo := min_le_left _ _
    have a2 : hi ≤ max hi 0 := le_max_left _ _
    rcases hne with h | h
    · rcases lt_or_gt_of_ne h with h | h <;> linarith
    · rcases lt_or_gt_of_ne h with h | h <;> linarith
  generalize min lo 0 = a at *
  generalize max hi 0 = b at *
  have hs : 0 < (b - a) / (2 ^ bits - 1) := div_pos l3 (by linarith)
  have hx0 : 0 ≤ -a / ((b - a) / (2 ^ bits - 1)) := div_nonneg (by linarith) hs.le
  have hx1 : -a / ((b - a) / (2 ^ bits - 1)) ≤ (255 : ℤ) := by
    have h2 : ((2 : ℚ) ^ bits - 1) ≤ (255 : ℤ) := by rw [← hNe]; exact_mod_cast hN'
    have hn0 : (0 : ℚ) < 2 ^ bits - 1 := by linarith
    refine le_trans ?_ h2
    rw [div_le_iff₀ hs]
    have : ((2 : ℚ) ^ bits - 1) * ((b - a) / (2 ^ bits - 1)) = b - a := by field_simp
    rw [this]; linarith
  exact ⟨le_pyRound (by push_cast; linarith), pyRound_le (by linarith)⟩

/-- the zero points that `quantize` returns are bytes -/
theorem quantize_zeros {f : ℕ → ℕ → ℚ} {rows cols : ℕ} {block : ℤ} {bits : ℕ} {codes : ℕ → ℕ → ℤ} {params : ℕ × ℕ → ℚ × ℤ} (hb : -1 ≤ block) (h1 : 1 ≤ bits) (h8 : bits ≤ 8)
    (hz : NoZeroGroup block rows cols f) (h : quantize f rows cols block true bits = .ok (codes, params)) (i j : ℕ) (hi : i < rows) (hj : j < cols) :
    0 ≤ (params (groupOf block i j)).2 ∧ (params (groupOf block i j)).2 ≤ 255 := by
  unfold quantize at h
  rw [if_neg (by omega)] at h
  split at h
  · cases h
  · simp only [Except.ok.injEq, Prod.mk.injEq] at h
    obtain ⟨-, rfl⟩ := h
    obtain ⟨lo, hi', hR, e⟩ := groupParam_spec f rows cols block true bits hb i j hi hj
    simp only [e, Except.toOption, Option.getD, if_true]
    obtain ⟨i', hi1, j', hj1, hs, hne⟩ := hz i hi j hj
    have a1 := hR.lower i' hi1 j' hj1 hs
    have a2 := hR.upper i' hi1 j' hj1 hs
    refine asymParam_zero lo hi' bits h1 h8 ?_ (by linarith)
    by_contra hcon
    simp only [not_or, not_not] at hcon
    exact hne (le_antisymm (by linarith) (by linarith))

theorem new_data (half : ℚ → ℚ) (o : Opts) (w : String) (n : Node) (R C : ℕ) (r : (ℕ → ℕ → ℤ) × (ℕ × ℕ → ℚ × ℤ)) (st : St) (hp : isQuantized w = false) :
    (done half o w n R C r st).data (qName w) = some (storedCodes o R C r.1) ∧ (done half o w n R C r st).data (sName w) = some (storedScales half o r.2) ∧
    (o.asym = true → (done half o w n R C r st).data (zName w) = some (storedZeros o r.2)) := by
  have hne : ∀ {x : String}, isQuantized x = true → x ≠ w := by rintro x hx rfl; rw [hp] at hx; cases hx
  refine ⟨?_, ?_, fun ha => ?_⟩
  · show upd _ w none (qName w) = _
    rw [upd_ne _ _ (hne (q_quantized w))]
    cases ha : o.asym <;> simp only [addNew, ha, Bool.false_eq_true, if_false, if_true]
    · rw [upd_ne _ _ (q_ne_s _ _), upd_self]
    · rw [upd_ne _ _ (q_ne_z _ _), upd_ne _ _ (q_ne_s _ _), upd_self]
  · show upd _ w none (sName w) = _
    rw [upd_ne _ _ (hne (s_quantized w))]
    cases ha : o.asym <;> simp only [addNew, ha, Bool.false_eq_true, if_false, if_true]
    · rw [upd_self]
    · rw [upd_ne _ _ (s_ne_z _ _), upd_self]
  · show upd _ w none (zName w) = _
    rw [upd_ne _ _ (hne (z_quantized w))]
    simp only [addNew, ha, if_true]
    rw [upd_self]

theorem q_new (asym : Bool) (w : String) : qName w ∈ newNames asym w := by cases asym <;> simp [newNames]
theorem s_new (asym : Bool) (w : String) : sName w ∈ newNames asym w := by cases asym <;> simp [newNames]

theorem held_of {half : ℚ → ℚ} {o : Opts} (ho : GoodOpts o) (h4 : o.bits ≠ 4) {st st' : St} {w : String} {n : Node} {R C : ℕ} {F : ℕ → ℕ → ℚ} {r : (ℕ → ℕ → ℤ) × (ℕ × ℕ → ℚ × ℤ)}
    (hR : 0 < R) (hC : 0 < C) (hz : NoZeroGroup o.block R C F) (hq : quantize F R C o.block o.asym o.bits = .ok r) (hp : isQuantized w = false)
    (hd : ∀ x ∈ newNames o.asym w, st'.data x = (done half o w n R C r st).data x) : Held o st' w R C F := by
  obtain ⟨codes, params, e, hspec⟩ := C34_quantize F R C o.block o.asym o.bits hR hC ho.block ho.low ho.high hz
  rw [hq] at e
  cases e
  obtain ⟨d1, d2, d3⟩ := new_data half o w n R C (codes, params) st hp
  rw [← hd _ (q_new _ _)] at d1
  rw [← hd _ (s_new _ _)] at d2
  have hsc : storedScales half o params = .scales fun g => (params g).1 := by simp [storedScales, h4]
  rw [hsc] at d2
  have p8 : (2 : ℤ) ^ (8 - 1) - 1 = 127 := by norm_num
  cases ha : o.asym with
  | false =>
    have hcode : ∀ i < R, ∀ j < C, (if o.bits = 8 then (codes i j + 128) % 256 - 128 else codes i j) = codes i j := by
      intro i hi j hj
      split
      · rename_i hb
        obtain ⟨lo, hi', -, hs, -⟩ := hspec i hi j hj
        have := (hs ha).2.2.1
        rw [hb, p8, abs_le] at this
        omega
      · rfl
    refine ⟨fun i j => if o.bits = 8 then (codes i j + 128) % 256 - 128 else codes i j, _, ?_, d2, fun _ i hi j hj => ?_, fun h => by rw [ha] at h; cases h⟩
    · rw [d1]
      unfold storedCodes
      rw [if_neg h4]
      by_cases hb : o.bits = 8
      · simp only [hb, if_true, ha, Bool.false_eq_true, if_false]
      · simp only [hb, if_false]
    · simp only [hcode i hi j hj]
      obtain ⟨lo, hi', -, hs, -⟩ := hspec i hi j hj
      exact (hs ha).2.2.2
  | true =>
    have hcode : ∀ i < R, ∀ j < C, (if o.bits = 8 then codes i j % 256 else codes i j) = codes i j := by
      intro i hi j hj
      split
      · obtain ⟨lo, hi', -, -, hs⟩ := hspec i hi j hj
        have h0 := (hs ha).2.1
        have h1 := (hs ha).2.2.1
        omega
      · rfl
    have h1 : 1 ≤ o.bits := by have := ho.low; rw [ha] at this; simpa using this
    rw [ha] at hq
    have hzero : ∀ i < R, ∀ j < C, (if o.bits = 4 ∨ o.bits = 8 then (params (groupOf o.block i j)).2 % 256 else (params (groupOf o.block i j)).2) = (params (groupOf o.block i j)).2 := by
      intro i hi j hj
      split
      · have := quantize_zeros ho.block h1 ho.high hz hq i j hi hj
        omega
      · rfl
    have d3 := d3 ha
    rw [← hd _ (by rw [ha]; simp [newNames])] at d3
    refine ⟨fun i j => if o.bits = 8 then codes i j % 256 else codes i j, _, ?_, d2, (fun h => by rw [ha] at h; cases h), fun _ => ⟨_, d3, fun i hi j hj => ?_⟩⟩
    · rw [d1]
      unfold storedCodes
      rw [if_neg h4]
      by_cases hb : o.bits = 8
      · simp only [hb, if_true, ha]
      · simp only [hb, if_false]
    · simp only [hcode i hi j hj, hzero i hi j hj]
      obtain ⟨lo, hi', -, -, hs⟩ := hspec i hi j hj
      exact (hs ha).2.2.2.2

theorem heldPacked_of {half : ℚ → ℚ} {o : Opts} (ho : GoodOpts o) (h4 : o.bits = 4) (ha : o.asym = false) {st st' : St} {w : String} {n : Node} {R C : ℕ} {F : ℕ → ℕ → ℚ}
    {r : (ℕ → ℕ → ℤ) × (ℕ × ℕ → ℚ × ℤ)} (hR : 0 < R) (hC : 0 < C) (hz : NoZeroGroup o.block R C F) (hq : quantize F R C o.block o.asym o.bits = .ok r) (hp : isQuantized w = false)
    (hd : ∀ x ∈ newNames o.asym w, st'.data x = (done half o w n R C r st).data x) : HeldPacked half o st' w R C F := by
  obtain ⟨codes, params, e, hspec⟩ := C34_quantize F R C o.block o.asym o.bits hR hC ho.block ho.low ho.high hz
  rw [hq] at e
  cases e
  obtain ⟨d1, d2, -⟩ := new_data half o w n R C (codes, params) st hp
  rw [← hd _ (q_new _ _)] at d1
  rw [← hd _ (s_new _ _)] at d2
  refine ⟨(List.range R).map fun i => packRow ((List.range C).map (codes i)), fun g => (params g).1, ?_, ?_, by simp, fun i hi => ⟨packRow ((List.range C).map (codes i)), by simp [hi], fun j hj => ?_⟩⟩
  · rw [d1, storedCodes, if_pos h4]
  · rw [d2]; simp [storedScales, h4]
  · have hc : ∀ v ∈ (List.range C).map (codes i), -8 ≤ v ∧ v ≤ 7 := by
      intro v hv
      obtain ⟨k, hk, rfl⟩ := List.mem_map.mp hv
      obtain ⟨lo, hi', -, hs, -⟩ := hspec i hi k (List.mem_range.mp hk)
      have := (hs ha).2.2.1
      rw [h4] at this
      have p8 : (2 : ℤ) ^ (4 - 1) - 1 = 7 := by norm_num
      rw [p8, abs_le] at this
      omega
    have hjC : j < C := by omega
    refine ⟨codes i j, ?_, ?_⟩
    · rw [C33_sym_roundtrip _ hc, List.length_map, List.length_range, List.getElem?_take_of_lt hj]
      simp [hjC]
    · obtain ⟨lo, hi', -, hs, -⟩ := hspec i hi j hjC
      exact (hs ha).2.2.2

/-! ### weights that are read once -/

/-- **C82, weights read once.** Quantizing any number of distinct float matrices, each read once and without a zero group, one after the other, returns; exactly these weights are replaced —
in the nodes, in place, and among the initializers — by their codes, scales and zero points, nothing else changes, and the arrays stored give every element of every weight, in the layout of
its reader, back to within half a step.  (All widths but 4 bits.) -/
theorem C82_quantize_weights (half : ℚ → ℚ) (transB : String → Option ℤ) (o : Opts) (ho : GoodOpts o) (h4 : o.bits ≠ 4) (st : St) (ws : List String) (hp : Proper st) (hn : ws.Nodup)
    (h : ∀ w ∈ ws, ∃ n rows cols f, Ready transB o st w n rows cols f) :
    ∃ st', quantizeEach half transB o ws st = (st', none) ∧ Quantized o st ws st' ∧
      ∀ w ∈ ws, ∀ n rows cols f, Ready transB o st w n rows cols f → Held o st' w (laidOut transB n rows cols f).1 (laidOut transB n rows cols f).2.1 (laidOut transB n rows cols f).2.2 := by
  obtain ⟨st', e, hQ, hD⟩ := each_ready (half := half) ho ws st hn hp h
  refine ⟨st', e, hQ, fun w hw n rows cols f hr => ?_⟩
  obtain ⟨r, hq, hd⟩ := hD w hw n rows cols f hr
  obtain ⟨hR, hC⟩ := laidOut_pos (transB := transB) (n := n) (f := f) hr.pos
  exact held_of ho h4 hR hC (laidOut_nonzero hr.nonzero) hq hr.plain hd

/-- **C82, 4-bit symmetric weights.** The same, for the columns that are stored — all but the last of an odd number — up to the cast of the scales to half precision. -/
theorem C82_packed_partial (half : ℚ → ℚ) (transB : String → Option ℤ) (o : Opts) (ho : GoodOpts o) (h4 : o.bits = 4) (ha : o.asym = false) (st : St) (ws : List String) (hp : Proper st)
    (hn : ws.Nodup) (h : ∀ w ∈ ws, ∃ n rows cols f, Ready transB o st w n rows cols f) :
    ∃ st', quantizeEach half transB o ws st = (st', none) ∧ Quantized o st ws st' ∧
      ∀ w ∈ ws, ∀ n rows cols f, Ready transB o st w n rows cols f →
        HeldPacked half o st' w (laidOut transB n rows cols f).1 (laidOut transB n rows cols f).2.1 (laidOut transB n rows cols f).2.2 := by
  obtain ⟨st', e, hQ, hD⟩ := each_ready (half := half) ho ws st hn hp h
  refine ⟨st', e, hQ, fun w hw n rows cols f hr => ?_⟩
  obtain ⟨r, hq, hd⟩ := hD w hw n rows cols f hr
  obtain ⟨hR, hC⟩ := laidOut_pos (transB := transB) (n := n) (f := f) hr.pos
  exact heldPacked_of ho h4 ha hR hC (laidOut_nonzero hr.nonzero) hq hr.plain hd

/-- **C82 finding: 4-bit asymmetric weights.** The stored bytes are those of the codes without bit 3, so the code cannot be read back. -/
theorem C82_packed_asym_lost (o : Opts) (h4 : o.bits = 4) (rows cols : ℕ) (q : ℕ → ℕ → ℤ) (hq : ∀ i < rows, ∀ j < cols, 0 ≤ q i j ∧ q i j ≤ 15) :
    storedCodes o rows cols q = storedCodes o rows cols fun i j => if 8 ≤ q i j then q i j - 8 else q i j := by
  have key : ∀ (l l' : List ℤ), List.Forall₂ (fun a b => nibble a = nibble b) l l' → packRow l = packRow l' := by
    intro l
    induction l using packRow.induct with
    | case1 a b rest ih =>
      intro l' h
      obtain ⟨a', l1, h1, h2, rfl⟩ := List.forall₂_cons_left_iff.mp h
      obtain ⟨b', l2, h3, h4, rfl⟩ := List.forall₂_cons_left_iff.mp h2
      simp only [packRow]
      rw [ih _ h4, h1, h3]
    | case2 l hl =>
      intro l' h
      match l, l', h with
      | [], [], _ => rfl
      | [a], [b], _ => rfl
      | a :: b :: rest, _, _ => exact absurd rfl (hl a b rest)
  unfold storedCodes
  rw [if_pos h4, if_pos h4]
  congr 1
  refine List.map_congr_left fun i hi => key _ _ ?_
  rw [List.forall₂_map_left_iff, List.forall₂_map_right_iff, List.forall₂_same]
  intro j hj
  have := hq i (List.mem_range.mp hi) j (List.mem_range.mp hj)
  show nibble (q i j) = nibble (if 8 ≤ q i j then q i j - 8 else q i j)
  split
  · exact C33_asym_codes_collide _ (by omega) (by omega)
  · rfl

/-- **C82, everything else is left alone**: tensors that are not initializers, results of a quantization and arrays that are not float matrices. -/
theorem C82_others_untouched (half : ℚ → ℚ) (transB : String → Option ℤ) (o : Opts) (st : St) (t : String) (h : t ∉ st.initials ∨ Inert st t) : graphQuantize half transB o st t = (st, none) := by
  rcases h with h | h
  · unfold graphQuantize; rw [if_pos h]
  · exact graphQuantize_inert h

/-- **C82, a second call** for the same weight, or for its codes, scales or zero points, does nothing. -/
theorem C82_again (half : ℚ → ℚ) (transB : String → Option ℤ) (o o' : Opts) (ho : GoodOpts o) (st : St) (t : String) (n : Node) (rows cols : ℕ) (f : ℕ → ℕ → ℚ) (hp : Proper st)
    (h : Ready transB o st t n rows cols f) : ∃ st', graphQuantize half transB o st t = (st', none) ∧ ∀ x ∈ t :: operands o.asym t, graphQuantize half transB o' st' x = (st', none) := by
  obtain ⟨r, hq⟩ := ready_quantize ho h
  refine ⟨_, graphQuantize_once hp h hq, fun x hx => C82_others_untouched _ _ _ _ _ ?_⟩
  rcases List.mem_cons.mp hx with rfl | hx
  · refine .inl ?_
    rw [done_initials hp.inits h.init]
    intro hm
    rcases List.mem_append.mp hm with hm | hm
    · simp at hm
    · exact plain_not_new h.plain hm
  · exact .inr (.inl (new_quantized hx))

/-! ### the loop over `g.initials` -/

/-- **C82 finding: the documented loop.** `for key in g.initials: graph_quantize(g, key, ...)` changes the list it iterates over: the initializer after each quantized weight is skipped.  The
result is exactly that of quantizing the weights that `skipping` lists. -/
theorem C82_loop_skips (half : ℚ → ℚ) (transB : String → Option ℤ) (o : Opts) (ho : GoodOpts o) (st : St) (hp : Proper st) (p : String → Bool)
    (hw : ∀ w ∈ st.initials, p w = true → ∃ n rows cols f, Ready transB o st w n rows cols f) (hi : ∀ w ∈ st.initials, p w = false → Inert st w)
    (fuel : ℕ) (hf : 3 * st.initials.length < fuel) :
    ∃ st', quantizeLoop half transB o fuel 0 st = (st', none) ∧ Quantized o st (skipping p st.initials) st' := by
  have e := loop_skipping (half := half) (transB := transB) ho p st.initials.length st.initials [] [] st fuel rfl hp (by simp) (by simp) hw hi (by simpa using hf)
  have sub : ∀ (k : ℕ) (l : List String), l.length = k → (skipping p l).Sublist l ∧ ∀ w ∈ skipping p l, p w = true := by
    intro k
    induction k using Nat.strongRecOn with
    | ind k ih =>
      intro l hk
      match l with
      | [] => exact ⟨List.Sublist.refl _, by simp [skipping]⟩
      | [w] =>
        rw [skipping]
        split
        · rename_i h; exact ⟨List.Sublist.refl _, by simpa using h⟩
        · exact ⟨List.nil_sublist _, by simp⟩
      | w :: v :: rest =>
        rw [skipping]
        split
        · rename_i h
          obtain ⟨h1, h2⟩ := ih rest.length (by simp at hk; omega) rest rfl
          exact ⟨(h1.cons v).cons_cons w, by intro x hx; rcases List.mem_cons.mp hx with rfl | hx; exacts [h, h2 x hx]⟩
        · obtain ⟨h1, h2⟩ := ih (v :: rest).length (by simp at hk ⊢; omega) (v :: rest) rfl
          exact ⟨h1.cons w, h2⟩
  obtain ⟨h1, h2⟩ := sub _ st.initials rfl
  obtain ⟨st', e', hQ, -⟩ := each_ready (half := half) ho (skipping p st.initials) st (h1.nodup hp.inits) hp fun w hm => hw w (h1.subset hm) (h2 w hm)
  exact ⟨st', e.trans e', hQ⟩

/-- **C82 finding: every second weight.** If all initializers are weights, the documented loop quantizes the first, the third, ...; the second, fourth, ... stay float matrices that the
nodes read as before. -/
theorem C82_every_second (half : ℚ → ℚ) (transB : String → Option ℤ) (o : Opts) (ho : GoodOpts o) (st : St) (hp : Proper st)
    (hw : ∀ w ∈ st.initials, ∃ n rows cols f, Ready transB o st w n rows cols f) (fuel : ℕ) (hf : 3 * st.initials.length < fuel) :
    ∃ st', quantizeLoop half transB o fuel 0 st = (st', none) ∧ Quantized o st (everySecond st.initials) st' ∧
      ∀ (k : ℕ) (w : String), st.initials[2 * k + 1]? = some w → w ∈ st'.initials ∧ st'.data w = st.data w := by
  have hs : ∀ (k : ℕ) (l : List String), l.length = k → skipping (fun _ => true) l = everySecond l := by
    intro k
    induction k using Nat.strongRecOn with
    | ind k ih =>
      intro l hk
      match l with
      | [] => rfl
      | [w] => rfl
      | w :: v :: rest => rw [skipping, if_pos rfl, everySecond, ih rest.length (by simp at hk; omega) rest rfl]
  have hodd : ∀ (k : ℕ) (l : List String), l.Nodup → ∀ w, l[2 * k + 1]? = some w → w ∉ everySecond l := by
    intro k
    induction k with
    | zero =>
      intro l hn w hw'
      match l, hn, hw' with
      | _ :: _ :: rest, hn, hw' =>
        simp at hw'
        subst hw'
        rw [everySecond]
        intro hm
        have hsub : ∀ (j : ℕ) (l : List String), l.length = j → (everySecond l).Sublist l := by
          intro j
          induction j using Nat.strongRecOn with
          | ind j ih =>
            intro l hj
            match l with
            | [] => exact List.Sublist.refl _
            | [w] => exact List.Sublist.refl _
            | w :: v :: rest => rw [everySecond]; exact ((ih rest.length (by simp at hj; omega) rest rfl).cons v).cons_cons w
        simp only [List.nodup_cons, List.mem_cons, not_or] at hn
        rcases List.mem_cons.mp hm with h | h
        · exact hn.1.1 h.symm
        · exact hn.2.1 ((hsub _ rest rfl).subset h)
      | [_], _, hw' => simp at hw'
      | [], _, hw' => simp at hw'
    | succ k ih =>
      intro l hn w hw'
      match l, hn, hw' with
      | a :: b :: rest, hn, hw' =>
        have e : 2 * (k + 1) + 1 = 2 * k + 1 + 1 + 1 := by omega
        rw [e, List.getElem?_cons_succ, List.getElem?_cons_succ] at hw'
        rw [everySecond]
        simp only [List.nodup_cons, List.mem_cons, not_or] at hn
        intro hm
        rcases List.mem_cons.mp hm with h | h
        · exact hn.1.2 (h ▸ List.mem_of_getElem? hw')
        · exact ih rest hn.2.2 w hw' h
      | [_], _, hw' => simp at hw'
      | [], _, hw' => simp at hw'
  obtain ⟨st', e, hQ⟩ := C82_loop_skips half transB o ho st hp (fun _ => true) (fun w hm _ => hw w hm) (by simp) fuel hf
  rw [hs _ _ rfl] at hQ
  refine ⟨st', e, hQ, fun k w hk => ?_⟩
  have hm := hodd k _ hp.inits w hk
  have hin := List.mem_of_getElem? hk
  obtain ⟨n, rows, cols, f, hr⟩ := hw w hin
  refine ⟨?_, hQ.kept w hm fun v _ => plain_not_new hr.plain⟩
  rw [hQ.initials]
  exact List.mem_append.mpr (.inl (List.mem_filter.mpr ⟨hin, by simpa using hm⟩))

/-- **C82, the loop over a copy** (`for key in list(g.initials)`) quantizes all weights. -/
theorem C82_loop_over_copy (half : ℚ → ℚ) (transB : String → Option ℤ) (o : Opts) (ho : GoodOpts o) (st : St) (hp : Proper st) (p : String → Bool)
    (hw : ∀ w ∈ st.initials, p w = true → ∃ n rows cols f, Ready transB o st w n rows cols f) (hi : ∀ w ∈ st.initials, p w = false → Inert st w) :
    ∃ st', quantizeEach half transB o st.initials st = (st', none) ∧ Quantized o st (st.initials.filter p) st' := by
  rw [each_filter ho p st.initials st hp.inits hp hw hi]
  obtain ⟨st', e, hQ, -⟩ := each_ready (half := half) ho (st.initials.filter p) st (hp.inits.filter _) hp fun w hm => hw w (List.mem_filter.mp hm).1 (List.mem_filter.mp hm).2
  exact ⟨st', e, hQ⟩

/-! ### weights that are not read once -/

theorem findNode_set {ns : List Node} (hn : (ns.map (·.name)).Nodup) {n n' m : Node} (hm : m ∈ ns) (hnm : n ∈ ns) (e : n'.name = n.name) :
    findNode (Subgraph.setNode ns n') m.name = some (if m.name = n.name then n' else m) := by
  have hmem : n'.name ∈ ns.map (·.name) := by rw [e]; exact List.mem_map.mpr ⟨n, hnm, rfl⟩
  have hnd : ((Subgraph.setNode ns n').map (·.name)).Nodup := Branch.setNode_nodup n' hn
  rw [Branch.setNode_map hn hmem] at hnd ⊢
  have : (if m.name = n.name then n' else m) ∈ ns.map fun x => if x.name = n'.name then n' else x := by
    refine List.mem_map.mpr ⟨m, hm, ?_⟩
    rw [e]
  have h2 := Topsort.findNode_mem hnd this
  have hname : (if m.name = n.name then n' else m).name = m.name := by
    split
    · rename_i h; rw [e, h]
    · rfl
  rw [hname] at h2
  exact h2

theorem replaceFirst_some {t : String} {new : List String} : ∀ {l : List String}, t ∈ l → ∃ l', replaceFirst t new l = some l' ∧ (t ∉ new → l'.count t + 1 = l.count t)
  | [], h => by cases h
  | i :: is, h => by
    rw [replaceFirst]
    by_cases e : i = t
    · subst e
      refine ⟨new ++ is, by rw [if_pos rfl], fun hn => ?_⟩
      rw [List.count_append, List.count_eq_zero.mpr hn, List.count_cons_self]; omega
    · obtain ⟨l', h1, h2⟩ := replaceFirst_some (new := new) ((List.mem_cons.mp h).resolve_left (Ne.symm e))
      refine ⟨i :: l', by rw [if_neg e, h1]; rfl, fun hn => ?_⟩
      rw [List.count_cons_of_ne e, List.count_cons_of_ne e]; exact h2 hn

/-- **C82 finding: shared weights.** If a weight is read more than once — by two nodes, or twice by one — the call raises `AttributeError`: line 177 stores a string where line 181 expects a
list.  By then the first reader has been rewired and the new initializers added, while the weight is still listed. -/
theorem C82_shared_raises (half : ℚ → ℚ) (transB : String → Option ℤ) (o : Opts) (ho : GoodOpts o) (st : St) (hp : Proper st) (t : String) (n : Node) (rows cols : ℕ) (f : ℕ → ℕ → ℚ)
    (hi : t ∈ st.initials) (hpl : isQuantized t = false) (hd : st.data t = some (.matrix rows cols f)) (hn : n ∈ st.nodes) (hpos : 0 < rows ∧ 0 < cols)
    (hz : if Multiplies transB n then NoZeroGroup o.block cols rows (fun i j => f j i) else NoZeroGroup o.block rows cols f)
    (hfree : st.consumedby (qName t) = none) (second : String) (rest : List String) (hr : consumersOf st.nodes t = n.name :: second :: rest) :
    ∃ st', graphQuantize half transB o st t = (st', some .attributeError) ∧ t ∈ st'.initials ∧ (∀ x ∈ operands o.asym t, x ∈ st'.initials) ∧
      st'.consumedby t = st.consumedby t ∧ ∃ n' ∈ st'.nodes, n'.name = n.name ∧ qName t ∈ n'.input := by
  have hc : st.consumedby t = some (.names (n.name :: second :: rest)) := by rw [hp.index t hpl, hr]; rfl
  have hmem : ∀ x ∈ consumersOf st.nodes t, ∃ m ∈ st.nodes, m.name = x ∧ t ∈ m.input := by
    intro x hx
    simp only [consumersOf, List.mem_flatMap] at hx
    obtain ⟨m, hm, hx⟩ := hx
    obtain ⟨h0, rfl⟩ := List.mem_replicate.mp hx
    exact ⟨m, hm, rfl, List.count_pos_iff.mp (Nat.pos_of_ne_zero h0)⟩
  obtain ⟨n0, hn0, he0, htn⟩ := hmem n.name (by rw [hr]; simp)
  obtain rfl : n0 = n := List.inj_on_of_nodup_map hp.names hn0 hn he0
  obtain ⟨m, hm, hm2, htm⟩ := hmem second (by rw [hr]; simp)
  obtain ⟨ins, hins, hcnt⟩ := replaceFirst_some (new := newNames o.asym t) htn
  have hcnt := hcnt (plain_not_new hpl)
  obtain ⟨hR, hC⟩ := laidOut_pos (transB := transB) (n := n0) (f := f) hpos
  obtain ⟨codes, params, hq, -⟩ := C34_quantize _ _ _ _ _ _ hR hC ho.block ho.low ho.high (laidOut_nonzero hz)
  -- the second reader still has the weight among its inputs
  have hf2 := findNode_set (n' := { n0 with input := ins }) hp.names hm hn rfl
  rw [hm2] at hf2
  obtain ⟨ins2, hins2⟩ : ∃ l, replaceFirst t (newNames o.asym t) (if second = n0.name then { n0 with input := ins } else m).input = some l := by
    by_cases e : second = n0.name
    · rw [if_pos e]
      obtain ⟨l, hl, -⟩ := replaceFirst_some (t := t) (new := newNames o.asym t) (l := ins) (by
        have h2 : 2 ≤ n0.input.count t := by
          have hlen : (consumersOf st.nodes t).count n0.name = n0.input.count t := by
            have : ∀ (ns : List Node), (ns.map (·.name)).Nodup → n0 ∈ ns → (consumersOf ns t).count n0.name = n0.input.count t := by
              intro ns
              induction ns with
              | nil => intro _ h; cases h
              | cons a ns ih =>
                intro hnd hin
                rw [List.map_cons, List.nodup_cons] at hnd
                rw [consumersOf_cons, List.count_append, List.count_replicate]
                rcases List.mem_cons.mp hin with rfl | hin
                · have hx0 : n0.name ∉ consumersOf ns t := by
                    intro hx
                    simp only [consumersOf, List.mem_flatMap] at hx
                    obtain ⟨k, hk, hx⟩ := hx
                    exact hnd.1 (List.mem_map.mpr ⟨k, hk, (List.mem_replicate.mp hx).2.symm⟩)
                  rw [if_pos (by simp), List.count_eq_zero.mpr hx0]; omega
                · have hne : a.name ≠ n0.name := fun e => hnd.1 (List.mem_map.mpr ⟨n0, hin, e.symm⟩)
                  rw [if_neg (by simpa using hne), ih hnd.2 hin]; omega
            exact this _ hp.names hn
          rw [← hlen, hr, e, List.count_cons_self, List.count_cons_self]; omega
        exact List.count_pos_iff.mp (by omega))
      exact ⟨l, hl⟩
    · rw [if_neg e]
      obtain ⟨l, hl, -⟩ := replaceFirst_some (t := t) (new := newNames o.asym t) htm
      exact ⟨l, hl⟩
  have hq1 : isQuantized (qName t) = true := q_quantized t
  have step : ∃ st', graphQuantize half transB o st t = (st', some .attributeError) ∧ st'.initials = st.initials ++ newNames o.asym t ∧ st'.consumedby t = st.consumedby t ∧
      st'.nodes = Subgraph.setNode (Subgraph.setNode st.nodes { n0 with input := ins }) { (if second = n0.name then { n0 with input := ins } else m : Node) with input := ins2 } := by
    have hne : ∀ {x : String}, isQuantized x = true → t ≠ x := by rintro x hx rfl; rw [hpl] at hx; cases hx
    unfold graphQuantize
    rw [if_neg (not_not.mpr hi), if_neg (by rw [hpl]; decide), hd]
    simp only
    rw [quantizeMatrix_laidOut hc (Topsort.findNode_mem hp.names hn)]
    unfold store
    rw [hq]
    simp only
    rw [rewire]
    simp only [addNew, Topsort.findNode_mem hp.names hn, hins, index, hfree]
    rw [rewire]
    simp only [hf2, hins2, index, upd_ne _ _ (q_ne_z t t), upd_ne _ _ (q_ne_s t t), upd_self, appendAll]
    refine ⟨_, rfl, rfl, ?_, rfl⟩
    show upd _ _ _ t = _
    rw [upd_ne _ _ (hne (z_quantized t)), upd_ne _ _ (hne (s_quantized t)), upd_ne _ _ (hne (q_quantized t))]
  obtain ⟨st', h1, h2, h3, h4⟩ := step
  refine ⟨st', h1, by rw [h2]; exact List.mem_append_left _ hi, fun x hx => by rw [h2]; exact List.mem_append_right _ hx, h3, ?_⟩
  have hqin : qName t ∈ ins := by
    have : ∀ {l l' : List String}, replaceFirst t (newNames o.asym t) l = some l' → qName t ∈ l' := by
      intro l
      induction l with
      | nil => intro l' h; cases h
      | cons i is ih =>
        intro l' h
        rw [replaceFirst] at h
        split at h
        · cases h; exact List.mem_append_left _ (q_new _ _)
        · obtain ⟨l1, h5, rfl⟩ := Option.map_eq_some_iff.mp h
          exact List.mem_cons_of_mem _ (ih h5)
    exact this hins
  have hqin2 : second = n0.name → qName t ∈ ins2 := by
    intro e
    rw [if_pos e] at hins2
    have : ∀ {l l' : List String}, replaceFirst t (newNames o.asym t) l = some l' → qName t ∈ l' := by
      intro l
      induction l with
      | nil => intro l' h; cases h
      | cons i is ih =>
        intro l' h
        rw [replaceFirst] at h
        split at h
        · cases h; exact List.mem_append_left _ (q_new _ _)
        · obtain ⟨l1, h5, rfl⟩ := Option.map_eq_some_iff.mp h
          exact List.mem_cons_of_mem _ (ih h5)
    exact this hins2
  have hnd1 : ((Subgraph.setNode st.nodes { n0 with input := ins }).map (·.name)).Nodup := Branch.setNode_nodup _ hp.names
  have hnames : (Subgraph.setNode st.nodes { n0 with input := ins }).map (·.name) = st.nodes.map (·.name) := by
    rw [Branch.setNode_map hp.names (by exact List.mem_map.mpr ⟨n0, hn, rfl⟩), List.map_map]
    refine List.map_congr_left fun x _ => ?_
    simp only [Function.comp_apply]
    split
    · rename_i h; exact h.symm
    · rfl
  have hin1 : ({ n0 with input := ins } : Node) ∈ Subgraph.setNode st.nodes { n0 with input := ins } := by
    rw [Branch.setNode_map hp.names (by exact List.mem_map.mpr ⟨n0, hn, rfl⟩)]
    exact List.mem_map.mpr ⟨n0, hn, by simp⟩
  rw [h4, Branch.setNode_map hnd1 (by
    rw [hnames]
    by_cases e : second = n0.name
    · simp only [if_pos e]; exact List.mem_map.mpr ⟨n0, hn, rfl⟩
    · simp only [if_neg e]; exact List.mem_map.mpr ⟨m, hm, rfl⟩)]
  by_cases e : second = n0.name
  · refine ⟨{ n0 with input := ins2 }, List.mem_map.mpr ⟨_, hin1, ?_⟩, rfl, hqin2 e⟩
    simp [if_pos e]
  · refine ⟨{ n0 with input := ins }, List.mem_map.mpr ⟨_, hin1, ?_⟩, rfl, hqin⟩
    simp only [if_neg e]
    rw [if_neg (by intro h; exact e (by rw [← hm2]; exact h.symm))]

/-- **C82 finding: weights that no node reads** raise `KeyError`. -/
theorem C82_unread_raises (half : ℚ → ℚ) (transB : String → Option ℤ) (o : Opts) (st : St) (hp : Proper st) (t : String) (rows cols : ℕ) (f : ℕ → ℕ → ℚ)
    (hi : t ∈ st.initials) (hpl : isQuantized t = false) (hd : st.data t = some (.matrix rows cols f)) (h : ∀ n ∈ st.nodes, t ∉ n.input) :
    graphQuantize half transB o st t = (st, some .keyError) := by
  have hc : st.consumedby t = none := by rw [hp.index t hpl, consumersOf_eq_nil.mpr h]; rfl
  unfold graphQuantize
  rw [if_neg (not_not.mpr hi), if_neg (by rw [hpl]; decide), hd]
  simp only [quantizeMatrix, hc]

/-- **C82 finding: a pruned channel.** If the first row of the stored layout is zero, quantizing by rows raises `ValueError`; only the attributes of the reader have changed then. -/
theorem C82_zero_channel_raises (half : ℚ → ℚ) (transB : String → Option ℤ) (asym : Bool) (bits : ℕ) (st : St) (hp : Proper st) (t : String) (n : Node) (rest : List String) (rows cols : ℕ)
    (f : ℕ → ℕ → ℚ) (hi : t ∈ st.initials) (hpl : isQuantized t = false) (hd : st.data t = some (.matrix rows cols f)) (hn : n ∈ st.nodes) (hpos : 0 < rows ∧ 0 < cols)
    (hr : consumersOf st.nodes t = n.name :: rest) (hz : ∀ j, (laidOut transB n rows cols f).2.2 0 j = 0) :
    graphQuantize half transB ⟨-1, asym, bits⟩ st t = ({ st with otq := upd st.otq n.name (some ⟨-1, asym, bits⟩) }, some .valueError) := by
  have hc : st.consumedby t = some (.names (n.name :: rest)) := by rw [hp.index t hpl, hr]; rfl
  obtain ⟨hR, hC⟩ := laidOut_pos (transB := transB) (n := n) (f := f) hpos
  unfold graphQuantize
  rw [if_neg (not_not.mpr hi), if_neg (by rw [hpl]; decide), hd]
  simp only
  rw [quantizeMatrix_laidOut hc (Topsort.findNode_mem hp.names hn)]
  unfold store
  rw [C34_zero_row_raises _ _ _ _ _ hC hR hz]

/-- **C82 finding: the consumer index** of the new tensors holds a node name instead of a list of node names — and, for symmetric codes, an entry for zero points that do not exist. -/
theorem C82_index_is_text (half : ℚ → ℚ) (transB : String → Option ℤ) (o : Opts) (ho : GoodOpts o) (st : St) (t : String) (n : Node) (rows cols : ℕ) (f : ℕ → ℕ → ℚ) (hp : Proper st)
    (h : Ready transB o st t n rows cols f) : ∃ st', graphQuantize half transB o st t = (st', none) ∧ ∀ x ∈ [qName t, sName t, zName t], st'.consumedby x = some (.text n.name) := by
  obtain ⟨r, hq⟩ := ready_quantize ho h
  refine ⟨_, graphQuantize_once hp h hq, fun x hx => ?_⟩
  have hne : ∀ {x : String}, isQuantized x = true → x ≠ t := by intro y hy e; have := h.plain; rw [← e, hy] at this; cases this
  show upd (upd (upd (upd st.consumedby (qName t) _) (sName t) _) (zName t) _) t none x = _
  simp only [List.mem_cons, List.not_mem_nil, or_false] at hx
  rcases hx with rfl | rfl | rfl
  · rw [upd_ne _ _ (hne (q_quantized t)), upd_ne _ _ (q_ne_z _ _), upd_ne _ _ (q_ne_s _ _), upd_self]
  · rw [upd_ne _ _ (hne (s_quantized t)), upd_ne _ _ (s_ne_z _ _), upd_self]
  · rw [upd_ne _ _ (hne (z_quantized t)), upd_self]

/-- **C82, the reader's attributes**: the node that reads the weight — and no other — records how it was quantized. -/
theorem C82_reader_marked (half : ℚ → ℚ) (transB : String → Option ℤ) (o : Opts) (ho : GoodOpts o) (st : St) (t : String) (n : Node) (rows cols : ℕ) (f : ℕ → ℕ → ℚ) (hp : Proper st)
    (h : Ready transB o st t n rows cols f) : ∃ st', graphQuantize half transB o st t = (st', none) ∧ st'.otq n.name = some o ∧ ∀ m, m ≠ n.name → st'.otq m = st.otq m := by
  obtain ⟨r, hq⟩ := ready_quantize ho h
  refine ⟨_, graphQuantize_once hp h hq, ?_, fun m hm => ?_⟩
  · exact upd_self _ _ _
  · exact upd_ne _ _ hm

/-! ### the hypotheses hold for a network of two products -/

def twoNodes : List Node := [⟨"a", "MatMul", ["x", "w1"], ["y"]⟩, ⟨"b", "MatMul", ["y", "w2"], ["z"]⟩]
def twoWeights : St where
  nodes := twoNodes
  initials := ["w1", "w2"]
  consumedby := fun t => if consumersOf twoNodes t = [] then none else some (.names (consumersOf twoNodes t))
  data := fun t => if t = "w1" ∨ t = "w2" then some (.matrix 2 3 fun i j => i + j + 1) else none
  otq := fun _ => none

theorem twoWeights_proper : Proper twoWeights := ⟨by decide, by decide, fun _ _ => rfl⟩

theorem twoWeights_ready : ∀ w ∈ twoWeights.initials, ∃ n rows cols f, Ready (fun _ => some 0) ⟨-1, false, 8⟩ twoWeights w n rows cols f := by
  have nz : NoZeroGroup (-1) 3 2 fun i j => ((j : ℚ) + i + 1) := by
    intro i hi j hj
    refine ⟨i, hi, j, hj, .inr ⟨rfl, .inl rfl⟩, ?_⟩
    have : (0 : ℚ) ≤ (i : ℚ) := Nat.cast_nonneg _
    have : (0 : ℚ) ≤ (j : ℚ) := Nat.cast_nonneg _
    linarith
  intro w hw
  simp only [twoWeights, List.mem_cons, List.not_mem_nil, or_false] at hw
  rcases hw with rfl | rfl
  · exact ⟨⟨"a", "MatMul", ["x", "w1"], ["y"]⟩, 2, 3, fun i j => i + j + 1, ⟨by decide, by decide, rfl, by decide, by decide, by decide, by decide, by omega, by
      rw [if_pos (by decide)]; exact nz⟩⟩
  · exact ⟨⟨"b", "MatMul", ["y", "w2"], ["z"]⟩, 2, 3, fun i j => i + j + 1, ⟨by decide, by decide, rfl, by decide, by decide, by decide, by decide, by omega, by
      rw [if_pos (by decide)]; exact nz⟩⟩

/-- the documented loop leaves the second weight of this network a float matrix -/
example (half : ℚ → ℚ) : ∃ st', quantizeLoop half (fun _ => some 0) ⟨-1, false, 8⟩ 10 0 twoWeights = (st', none) ∧ "w2" ∈ st'.initials ∧ "w1" ∉ st'.initials := by
  obtain ⟨st', e, hQ, h⟩ := C82_every_second half (fun _ => some 0) ⟨-1, false, 8⟩ ⟨by decide, by decide, by decide⟩ twoWeights twoWeights_proper twoWeights_ready 10 (by decide)
  refine ⟨st', e, (h 0 "w2" rfl).1, ?_⟩
  rw [hQ.initials]
  decide

end OnnxTool.Props
