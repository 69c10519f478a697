import Verif.Spec.Vision
import Verif.Proofs.EmitGraph
import Mathlib.Tactic.Ring
/-!
# The vision encoder: operands, names and parameters of what is added
-/
set_option linter.unusedSimpArgs false
namespace OnnxTool.Vision
open OnnxTool OnnxTool.Builder

variable {c : VCfg} {A : T → Prop}

/-! ### Shapes -/

theorem convOut_patch (n k : Nat) (hk : 0 < k) : convOut n 0 k k = n / k := by
  unfold convOut
  have h : ((n : Int) + 2 * ((0 : Nat) : Int) - k).fdiv k + 1 = ((n / k : Nat) : Int) := by
    have hk' : (k : Int) ≠ 0 := by omega
    rw [Int.fdiv_eq_ediv_of_nonneg _ (by omega)]
    have : (n : Int) + 2 * ((0 : Nat) : Int) - k = n + (-1) * k := by ring
    rw [this, Int.add_mul_ediv_right _ _ hk']
    omega
  rw [h]
  rfl

theorem ln_goes (inp : T) (s : Nat) (name : String) (ha : A inp) (hs : inp.shape = [1, s, c.hidden]) :
    Goes (visionRule c) A (addLn inp c.hidden name) (Res A [1, s, c.hidden]) := by
  rw [← hs]
  refine goes_emit ?_ ?_ rfl (by simp [actOp]) rfl ?_
  · intro x hx
    rcases List.mem_cons.1 hx with rfl | h
    exacts [.inl ha, .inr h]
  · intro x hx; exact List.mem_cons_of_mem _ hx
  · simp [visionRule, convRule, lnRule, unaryRule, addRule, matmulRule, sliceRule, attnRule, hs]

theorem vmm_goes (inp : T) (s fin fout : Nat) (name : String) (ha : A inp) (hs : inp.shape = [1, s, fin]) :
    Goes (visionRule c) A (addVmm inp fin fout true name) (Res A [1, s, fout]) := by
  have e : inp.shape.dropLast ++ [fout] = [1, s, fout] := by rw [hs]; rfl
  rw [← e]
  refine goes_emit ?_ ?_ rfl (by simp [actOp]) rfl ?_
  · intro x hx
    rcases List.mem_cons.1 hx with rfl | h
    exacts [.inl ha, .inr h]
  · intro x hx; exact List.mem_cons_of_mem _ hx
  · simp only [List.map_cons, mmWeights, if_true, List.map_nil]
    rw [e, hs]
    simp [visionRule, convRule, lnRule, unaryRule, addRule, matmulRule, sliceRule, attnRule]

theorem gelu_goes (inp : T) (name : String) (ha : A inp) : Goes (visionRule c) A (addAct inp "gelu_new" name) (Res A inp.shape) := by
  refine goes_emit ?_ ?_ rfl (by simp [actOp]) rfl ?_
  · intro x hx
    simp only [List.mem_cons, List.not_mem_nil, or_false] at hx
    exact .inl (hx ▸ ha)
  · intro x hx; cases hx
  · simp [visionRule, convRule, lnRule, unaryRule, addRule, matmulRule, sliceRule, attnRule, actOp]

theorem add_goes (a b : T) (name : String) (ha : A a) (hb : A b) (hs : a.shape = b.shape) :
    Goes (visionRule c) A (addEltop a b "Add" name) (Res A a.shape) := by
  have e : (Shape.maxLoop [a.shape, b.shape] (a.shape, Shape.volume a.shape)).1 = a.shape := by simp [Shape.maxLoop, ← hs]
  unfold addEltop
  rw [e]
  refine goes_emit ?_ ?_ rfl (by simp) rfl ?_
  · intro x hx
    simp only [List.mem_cons, List.not_mem_nil, or_false] at hx
    rcases hx with rfl | rfl
    exacts [.inl ha, .inl hb]
  · intro x hx; cases hx
  · simp [visionRule, convRule, lnRule, unaryRule, addRule, matmulRule, sliceRule, attnRule, hs]

theorem slice_goes (inp : T) (s d off size : Nat) (name : String) (ha : A inp) (hs : inp.shape = [1, s, d]) (hd : off + size ≤ d) :
    Goes (visionRule c) A (addSlice inp off size name) (Res A [1, s, size]) := by
  have e : inp.shape.set 2 size = [1, s, size] := by rw [hs]; rfl
  unfold addSlice
  rw [e]
  refine goes_emit ?_ ?_ rfl (by simp) rfl ?_
  · intro x hx
    rcases List.mem_cons.1 hx with rfl | h
    exacts [.inl ha, .inr h]
  · intro x hx; exact List.mem_cons_of_mem _ hx
  · simp [visionRule, convRule, lnRule, unaryRule, addRule, matmulRule, sliceRule, attnRule, hs, hd, sliceConsts]

theorem sdpa_goes (q k v : T) (s : Nat) (name : String) (hq : A q) (hk : A k) (hv : A v) (sq : q.shape = [1, s, dim c]) (sk : k.shape = [1, s, dim c])
    (sv : v.shape = [1, s, dim c]) : Goes (visionRule c) A (addSdpa q k v (dim c) name) (Res A [1, s, dim c]) := by
  have e : q.shape.dropLast ++ [dim c] = [1, s, dim c] := by rw [sq]; rfl
  unfold addSdpa
  rw [e]
  refine goes_emit ?_ ?_ rfl (by simp) rfl ?_
  · intro x hx
    simp only [List.mem_cons, List.not_mem_nil, or_false] at hx
    rcases hx with rfl | rfl | rfl
    exacts [.inl hq, .inl hk, .inl hv]
  · intro x hx; cases hx
  · simp [visionRule, convRule, lnRule, unaryRule, addRule, matmulRule, sliceRule, attnRule, sq, sk, sv]

theorem attention_goes (inp : T) (s : Nat) (name : String) (ha : A inp) (hs : inp.shape = [1, s, c.hidden]) :
    Goes (visionRule c) A (addVattention inp c.hidden c.heads c.headDim name) (Res A [1, s, c.hidden]) := by
  unfold addVattention
  refine goes_let (vmm_goes inp s _ _ _ ha hs) fun t1 B1 b1 s1 m1 => ?_
  refine goes_let (slice_goes t1 s _ _ _ _ b1 s1 (by omega)) fun q B2 b2 s2 m2 => ?_
  refine goes_let (slice_goes t1 s _ _ _ _ (m2 _ b1) s1 (by omega)) fun k B3 b3 s3 m3 => ?_
  refine goes_let (slice_goes t1 s _ _ _ _ (m3 _ (m2 _ b1)) s1 (by omega)) fun v B4 b4 s4 m4 => ?_
  refine goes_let (sdpa_goes q k v s _ (m4 _ (m3 _ b2)) (m4 _ b3) b4 s2 s3 s4) fun o B5 b5 s5 m5 => ?_
  exact goes_tail (fun x hx => m5 _ (m4 _ (m3 _ (m2 _ (m1 _ hx))))) (vmm_goes o s _ _ _ b5 s5)

theorem mlp_goes (inp : T) (s : Nat) (name : String) (ha : A inp) (hs : inp.shape = [1, s, c.hidden]) :
    Goes (visionRule c) A (addVmlp inp c.hidden c.inter name) (Res A [1, s, c.hidden]) := by
  unfold addVmlp
  refine goes_let (vmm_goes inp s _ _ _ ha hs) fun t1 B1 b1 s1 m1 => ?_
  refine goes_let (gelu_goes t1 _ b1) fun t2 B2 b2 s2 m2 => ?_
  exact goes_tail (fun x hx => m2 _ (m1 _ hx)) (vmm_goes t2 s _ _ _ b2 (s2.trans s1))

theorem layer_goes (inp : T) (s : Nat) (name : String) (ha : A inp) (hs : inp.shape = [1, s, c.hidden]) :
    Goes (visionRule c) A (addVlayer inp c.hidden c.heads c.headDim c.inter name) (Res A [1, s, c.hidden]) := by
  unfold addVlayer
  refine goes_let (ln_goes inp s _ ha hs) fun t1 B1 b1 s1 m1 => ?_
  refine goes_let (attention_goes t1 s _ b1 s1) fun t2 B2 b2 s2 m2 => ?_
  refine goes_let (add_goes inp t2 _ (m2 _ (m1 _ ha)) b2 (hs.trans s2.symm)) fun t3 B3 b3 s3 m3 => ?_
  have s3' := s3.trans hs
  refine goes_let (ln_goes t3 s _ b3 s3') fun t4 B4 b4 s4 m4 => ?_
  refine goes_let (mlp_goes t4 s _ b4 s4) fun t5 B5 b5 s5 m5 => ?_
  rw [← s3']
  exact goes_tail (fun x hx => m5 _ (m4 _ (m3 _ (m2 _ (m1 _ hx))))) (add_goes t3 t5 _ (m5 _ (m4 _ b3)) b5 (s3'.trans s5.symm))

theorem layers_goes (inp : T) (s : Nat) (ha : A inp) (hs : inp.shape = [1, s, c.hidden]) : ∀ (n : Nat),
    Goes (visionRule c) A (addVlayers c inp n) (Res A [1, s, c.hidden]) := by
  intro n
  induction n with
  | zero => exact goes_pure ⟨ha, hs, fun _ h => h⟩
  | succ n ih =>
    unfold addVlayers
    refine goes_let ih fun t B b st m => ?_
    exact goes_tail m (layer_goes t s _ b st)

theorem projector_goes (inp : T) (s : Nat) (ha : A inp) (hs : inp.shape = [1, s, c.hidden]) :
    Goes (visionRule c) A (addProjector c inp) (Res A [1, s, c.llm]) := by
  unfold addProjector
  split
  · refine goes_let (vmm_goes inp s _ _ _ ha hs) fun t1 B1 b1 s1 m1 => ?_
    refine goes_let (gelu_goes t1 _ b1) fun t2 B2 b2 s2 m2 => ?_
    exact goes_tail (fun x hx => m2 _ (m1 _ hx)) (vmm_goes t2 s _ _ _ b2 (s2.trans s1))
  · exact vmm_goes inp s _ _ _ ha hs

theorem conv_goes (h : VisionOk c) (inp : T) (ha : A inp) (hs : inp.shape = [1, c.channels, c.height, c.width]) :
    Goes (visionRule c) A (addConv2d c.heads inp (inp.shape.getD 1 0) c.hidden c.patch c.patch 0 "vision.patch_embed")
      (Res A [1, c.hidden, side c.height c.patch, side c.width c.patch]) := by
  have e2 : inp.shape.getD 2 0 = c.height := by rw [hs]; rfl
  have e3 : inp.shape.getD 3 0 = c.width := by rw [hs]; rfl
  have e1 : inp.shape.getD 1 0 = c.channels := by rw [hs]; rfl
  unfold addConv2d
  rw [e1, e2, e3, convOut_patch _ _ h.patch, convOut_patch _ _ h.patch]
  refine goes_emit ?_ ?_ ?_ (by simp) rfl ?_
  · intro x hx
    simp only [List.mem_cons, List.not_mem_nil, or_false] at hx
    rcases hx with rfl | rfl
    exacts [.inl ha, .inr (List.mem_singleton.2 rfl)]
  · intro x hx
    exact List.mem_cons_of_mem _ hx
  · have h1 := h.heads
    have h2 := h.patch
    simp only
    rw [if_neg (by omega)]
  · simp [visionRule, convRule, lnRule, unaryRule, addRule, matmulRule, sliceRule, attnRule, hs, side, batch]

theorem reshape_goes (inp : T) (ha : A inp) (hs : inp.shape = [1, c.hidden, side c.height c.patch, side c.width c.patch]) :
    Goes (visionRule c) A (addPatchReshape inp (patches c) c.hidden) (Res A [1, patches c, c.hidden]) := by
  unfold addPatchReshape
  refine goes_emit ?_ ?_ rfl (by simp) rfl ?_
  · intro x hx
    simp only [List.mem_cons, List.not_mem_nil, or_false] at hx
    rcases hx with rfl | rfl
    exacts [.inl ha, .inr (List.mem_singleton.2 rfl)]
  · intro x hx
    exact List.mem_cons_of_mem _ hx
  · have : 1 * (c.hidden * (side c.height c.patch * (side c.width c.patch * 1))) = 1 * patches c * c.hidden := by unfold patches; ring
    simp only [List.map_cons, List.map_nil, hs, visionRule, reshapeRule, String.reduceEq, if_false, if_true, List.prod_cons, List.prod_nil, batch, this]

theorem pos_goes (inp : T) (ha : A inp) (hs : inp.shape = [1, patches c, c.hidden]) :
    Goes (visionRule c) A (addPosEmbed inp (patches c) c.hidden) (Res A [1, patches c, c.hidden]) := by
  have e : (Shape.maxLoop [inp.shape, [1, patches c, c.hidden]] (inp.shape, Shape.volume inp.shape)).1 = [1, patches c, c.hidden] := by
    simp [Shape.maxLoop, hs]
  unfold addPosEmbed
  simp only [e]
  refine goes_emit ?_ ?_ rfl (by simp) rfl ?_
  · intro x hx
    simp only [List.mem_cons, List.not_mem_nil, or_false] at hx
    rcases hx with rfl | rfl
    exacts [.inl ha, .inr (List.mem_singleton.2 rfl)]
  · intro x hx
    exact List.mem_cons_of_mem _ hx
  · simp [visionRule, convRule, lnRule, unaryRule, addRule, matmulRule, sliceRule, attnRule, hs]

theorem encoder_goes (h : VisionOk c) : Goes (visionRule c) (· = pixelsT c) (addEncoder c (pixelsT c)) (Res (· = pixelsT c) [1, patches c, c.llm]) := by
  unfold addEncoder
  refine goes_let (conv_goes h (pixelsT c) rfl rfl) fun t1 B1 b1 s1 m1 => ?_
  have ep : t1.shape.getD 2 0 * t1.shape.getD 3 0 = patches c := by rw [s1]; rfl
  simp only [ep]
  refine goes_let (reshape_goes t1 b1 s1) fun t2 B2 b2 s2 m2 => ?_
  refine goes_let (pos_goes t2 b2 s2) fun t3 B3 b3 s3 m3 => ?_
  refine goes_let (layers_goes t3 _ b3 s3 _) fun t4 B4 b4 s4 m4 => ?_
  refine goes_let (ln_goes t4 _ _ b4 s4) fun t5 B5 b5 s5 m5 => ?_
  exact goes_tail (fun x hx => m5 _ (m4 _ (m3 _ (m2 _ (m1 _ hx))))) (projector_goes t5 _ b5 s5)

/-! ### Names -/

theorem ln_names (t : T) (n : Nat) (b : String) : Names [b] (addLn t n b).2 := names_one (by simp [ekeys, full, suffixes])
theorem vmm_names (t : T) (i o : Nat) (b : String) : Names [b] (addVmm t i o true b).2 := names_one (by simp [ekeys, full, suffixes, mmWeights])
theorem sdpa_names (q k v : T) (d : Nat) (b : String) : Names [b] (addSdpa q k v d b).2 := names_one (by simp [ekeys, full, suffixes])
theorem conv_names (h : Nat) (t : T) (a o k s p : Nat) (b : String) : Names [b] (addConv2d h t a o k s p b).2 := names_one (by simp [ekeys, full, suffixes])

/-- the parts of one block -/
def blockLocals : List String :=
  [".ln1", ".attn.qkv", ".attn.q_slice", ".attn.k_slice", ".attn.v_slice", ".attn.sdpa", ".attn.o", ".attn_add", ".ln2", ".mlp.fc1", ".mlp.gelu",
   ".mlp.fc2", ".mlp_add"]

theorem layer_names (t : T) (h n d i : Nat) (p : String) : Names (blockLocals.map (p ++ ·)) (addVlayer t h n d i p).2 := by
  unfold addVlayer addVattention addVmlp
  refine names_mono (names_bind (ln_names ..) (names_bind (names_bind (vmm_names ..) (names_bind (Builder.slice_names ..)
    (names_bind (Builder.slice_names ..) (names_bind (Builder.slice_names ..) (names_bind (sdpa_names ..) (vmm_names ..))))))
    (names_bind (Builder.eltop_names ..) (names_bind (ln_names ..) (names_bind (names_bind (vmm_names ..) (names_bind (Builder.act_names ..)
    (vmm_names ..))) (Builder.eltop_names ..)))))) ?_
  simp [blockLocals, String.append_assoc]

/-- the parts of the first `n` blocks -/
def blocks (n : Nat) : List String := (List.range n).flatMap fun i => blockLocals.map (blockName i ++ ·)

theorem layers_names (t : T) : ∀ n, Names (blocks n) (addVlayers c t n).2 := by
  intro n
  induction n with
  | zero => exact names_nil _
  | succ n ih =>
    unfold blocks at *
    rw [List.range_succ, List.flatMap_append]
    refine names_bind ih ?_
    rw [List.flatMap_cons, List.flatMap_nil, List.append_nil]
    exact layer_names ..

theorem projector_names (t : T) :
    Names ["vision.projector.fc1", "vision.projector.gelu", "vision.projector.fc2", "vision.projector"] (addProjector c t).2 := by
  unfold addProjector
  split
  · refine names_mono (names_bind (vmm_names ..) (names_bind (Builder.act_names ..) (vmm_names ..))) (by simp)
  · exact names_mono (vmm_names ..) (by simp)

theorem blockLocals_dot : ∀ x ∈ blockLocals, ∃ y, x.toList = '.' :: y := by
  intro x hx
  simp only [blockLocals, List.mem_cons, List.not_mem_nil, or_false] at hx
  rcases hx with rfl | rfl | rfl | rfl | rfl | rfl | rfl | rfl | rfl | rfl | rfl | rfl | rfl <;> exact ⟨_, rfl⟩

theorem block_inj {i j : Nat} {x y : String} (hx : x ∈ blockLocals) (hy : y ∈ blockLocals) (h : blockName i ++ x = blockName j ++ y) : i = j ∧ x = y := by
  have hl := congrArg String.toList h
  simp only [blockName, String.toList_append, List.append_assoc, List.append_cancel_left_eq] at hl
  obtain ⟨x', ex⟩ := blockLocals_dot x hx
  obtain ⟨y', ey⟩ := blockLocals_dot y hy
  rw [ex, ey] at hl
  obtain ⟨h1, h2⟩ := split_dot (digits_no_dot i) (digits_no_dot j) hl
  exact ⟨Nat.repr_injective (String.toList_inj.1 h1), String.toList_inj.1 (by rw [ex, ey, h2])⟩

theorem blocks_nodup (n : Nat) : (blocks n).Nodup := by
  unfold blocks
  rw [List.nodup_flatMap]
  refine ⟨fun i _ => List.Nodup.map_on (fun x hx y hy e => (block_inj hx hy e).2) (by decide), ?_⟩
  refine List.nodup_range.imp fun {i j} hij => ?_
  intro x hx hy
  simp only [List.mem_map] at hx hy
  obtain ⟨a, ha, rfl⟩ := hx
  obtain ⟨b, hb, e⟩ := hy
  exact hij (block_inj hb ha e).1.symm

theorem blocks_prefix {n : Nat} {x : String} (h : x ∈ blocks n) : "vision.blocks.".toList <+: x.toList := by
  simp only [blocks, List.mem_flatMap, List.mem_map] at h
  obtain ⟨i, _, a, _, rfl⟩ := h
  simp only [blockName, String.toList_append, List.append_assoc]
  exact List.prefix_append _ _

/-- parts outside the blocks -/
def outerBases : List String :=
  ["vision.patch_embed", "vision.patch_reshape", "vision.pos_embed_add", "vision.post_ln", "vision.projector.fc1", "vision.projector.gelu",
   "vision.projector.fc2", "vision.projector"]

/-- the two constants that are not named after a part -/
def loose : List String := ["vision.patch_reshape.shape", "vision.pos_embed"]

theorem bases_nodup (n : Nat) : (outerBases ++ blocks n).Nodup := by
  rw [List.nodup_append]
  refine ⟨by decide, blocks_nodup n, ?_⟩
  rintro a ha b hb rfl
  have hp := blocks_prefix hb
  revert ha hp
  have : ∀ a ∈ outerBases, ¬ "vision.blocks.".toList <+: a.toList := by decide
  exact fun ha hp => this a ha hp

theorem loose_not_full {b x : String} (hx : x ∈ loose) : x ∉ full b := by
  intro h
  simp only [full, List.mem_map] at h
  obtain ⟨s, hs, rfl⟩ := h
  have : ∀ x ∈ loose, ∀ s ∈ suffixes, ¬ s.toList <:+ x.toList := by decide
  refine this _ hx s hs ?_
  rw [String.toList_append]
  exact List.suffix_append _ _

theorem pixel_not_full {b : String} : "pixel_values" ∉ full b := by
  intro h
  simp only [full, List.mem_map] at h
  obtain ⟨s, hs, e⟩ := h
  have : ∀ s ∈ suffixes, ¬ s.toList <:+ "pixel_values".toList := by decide
  refine this s hs ?_
  rw [← e, String.toList_append]
  exact List.suffix_append _ _

/-- the calls after the position embedding -/
def encTail (c : VCfg) (t : T) : W T := do
  let cur ← addVlayers c t c.layers
  let cur ← addLn cur c.hidden "vision.post_ln"
  addProjector c cur

theorem encTail_names (t : T) : Names (blocks c.layers ++ ["vision.post_ln", "vision.projector.fc1", "vision.projector.gelu",
    "vision.projector.fc2", "vision.projector"]) (encTail c t).2 := by
  unfold encTail
  refine names_bind (layers_names t _) ?_
  exact names_bind (bs := ["vision.post_ln"]) (ln_names ..) (projector_names _)

/-- all tensor names are among those of the parts and the two constants -/
theorem encoder_keys : ∃ rest, keys (addEncoder c (pixelsT c)).2 =
      keys (addConv2d c.heads (pixelsT c) ((pixelsT c).shape.getD 1 0) c.hidden c.patch c.patch 0 "vision.patch_embed").2 ++
        ("vision.patch_reshape.shape" :: "vision.patch_reshape.output" :: "vision.pos_embed" :: "vision.pos_embed_add.output" :: rest) ∧
      List.Sublist rest ((blocks c.layers ++ ["vision.post_ln", "vision.projector.fc1", "vision.projector.gelu", "vision.projector.fc2", "vision.projector"]).flatMap full) := by
  have h : ∃ t, keys (addEncoder c (pixelsT c)).2 =
      keys (addConv2d c.heads (pixelsT c) ((pixelsT c).shape.getD 1 0) c.hidden c.patch c.patch 0 "vision.patch_embed").2 ++
        ("vision.patch_reshape.shape" :: "vision.patch_reshape.output" :: "vision.pos_embed" :: "vision.pos_embed_add.output" ::
          keys (encTail c t).2) := by
    refine ⟨?_, ?_⟩
    rotate_left
    · unfold addEncoder encTail
      simp only [bind_snd, keys_append]
      rfl
  obtain ⟨t, ht⟩ := h
  exact ⟨_, ht, encTail_names t⟩

theorem encoder_nodup : (keys (addEncoder c (pixelsT c)).2).Nodup ∧ "pixel_values" ∉ keys (addEncoder c (pixelsT c)).2 := by
  obtain ⟨rest, he, hr⟩ := encoder_keys (c := c)
  rw [he]
  have hc : List.Sublist (keys (addConv2d c.heads (pixelsT c) ((pixelsT c).shape.getD 1 0) c.hidden c.patch c.patch 0 "vision.patch_embed").2)
      (full "vision.patch_embed") := by simpa [Names] using conv_names c.heads (pixelsT c) _ c.hidden c.patch c.patch 0 "vision.patch_embed"
  set k := keys (addConv2d c.heads (pixelsT c) ((pixelsT c).shape.getD 1 0) c.hidden c.patch c.patch 0 "vision.patch_embed").2 with hk
  have hsub : List.Sublist (k ++ ("vision.patch_reshape.output" :: "vision.pos_embed_add.output" :: rest))
      ((["vision.patch_embed", "vision.patch_reshape", "vision.pos_embed_add"] ++ (blocks c.layers ++ ["vision.post_ln", "vision.projector.fc1",
        "vision.projector.gelu", "vision.projector.fc2", "vision.projector"])).flatMap full) := by
    rw [List.flatMap_append]
    simp only [List.flatMap_cons, List.flatMap_nil, List.append_nil, List.append_assoc]
    refine hc.append ?_
    refine (List.Sublist.append (l₁ := ["vision.patch_reshape.output"]) (List.singleton_sublist.2 (by decide)) ?_)
    exact List.Sublist.append (l₁ := ["vision.pos_embed_add.output"]) (List.singleton_sublist.2 (by decide)) hr
  have hbn : (["vision.patch_embed", "vision.patch_reshape", "vision.pos_embed_add"] ++ (blocks c.layers ++ ["vision.post_ln", "vision.projector.fc1",
        "vision.projector.gelu", "vision.projector.fc2", "vision.projector"])).Nodup := by
    have hp : List.Perm (["vision.patch_embed", "vision.patch_reshape", "vision.pos_embed_add"] ++ (blocks c.layers ++ ["vision.post_ln",
        "vision.projector.fc1", "vision.projector.gelu", "vision.projector.fc2", "vision.projector"])) (outerBases ++ blocks c.layers) :=
      List.Perm.append_left _ List.perm_append_comm
    exact hp.nodup_iff.2 (bases_nodup _)
  have hnd := hsub.nodup (flatMap_full_nodup hbn)
  have hl : ∀ x ∈ loose, x ∉ k ++ ("vision.patch_reshape.output" :: "vision.pos_embed_add.output" :: rest) := by
    intro x hx hm
    obtain ⟨b, _, hb⟩ := List.mem_flatMap.1 (hsub.subset hm)
    exact loose_not_full hx hb
  have hperm : List.Perm (k ++ ("vision.patch_reshape.shape" :: "vision.patch_reshape.output" :: "vision.pos_embed" :: "vision.pos_embed_add.output" :: rest))
      ("vision.patch_reshape.shape" :: "vision.pos_embed" :: (k ++ ("vision.patch_reshape.output" :: "vision.pos_embed_add.output" :: rest))) := by
    refine List.perm_middle.trans (List.Perm.cons _ ?_)
    refine List.Perm.trans ?_ List.perm_middle
    exact List.Perm.append_left _ (List.Perm.swap ..)
  constructor
  · rw [hperm.nodup_iff, List.nodup_cons, List.nodup_cons]
    refine ⟨?_, hl _ (by decide), hnd⟩
    rw [List.mem_cons, not_or]
    exact ⟨by decide, hl _ (by decide)⟩
  · rw [hperm.mem_iff, List.mem_cons, List.mem_cons, not_or, not_or]
    refine ⟨by decide, by decide, ?_⟩
    intro hm
    obtain ⟨b, _, hb⟩ := List.mem_flatMap.1 (hsub.subset hm)
    exact pixel_not_full hb

/-! ### Parameters -/

theorem ln_cost (t : T) (n : Nat) (b : String) : cost (addLn t n b).2 = 2 * n := by
  simp [addLn, emit, cost]; ring
theorem vmm_cost (t : T) (i o : Nat) (b : String) : cost (addVmm t i o true b).2 = proj i o := by
  simp [addVmm, emit, cost, mmWeights, proj]
theorem sdpa_cost (q k v : T) (d : Nat) (b : String) : cost (addSdpa q k v d b).2 = 0 := by simp [addSdpa, emit, cost]

theorem layer_cost (t : T) (p : String) : cost (addVlayer t c.hidden c.heads c.headDim c.inter p).2 = blockParams c := by
  unfold addVlayer addVattention addVmlp
  simp only [cost_bind, ln_cost, vmm_cost, slice_cost, sdpa_cost, eltop_cost, act_cost, blockParams, lnParams, dim]
  ring

theorem layers_cost (t : T) : ∀ n, cost (addVlayers c t n).2 = n * blockParams c := by
  intro n
  induction n with
  | zero => simp [addVlayers, cost_pure]
  | succ n ih =>
    unfold addVlayers
    rw [cost_bind, ih, layer_cost]
    ring

theorem encoder_cost (h : VisionOk c) : cost (addEncoder c (pixelsT c)).2 = visionParams c := by
  have e1 : (pixelsT c).shape.getD 1 0 = c.channels := rfl
  have ep : ∀ t : T, t.shape = [1, c.hidden, side c.height c.patch, side c.width c.patch] → t.shape.getD 2 0 * t.shape.getD 3 0 = patches c := by
    intro t ht; rw [ht]; rfl
  have hconv := (conv_goes (A := (· = pixelsT c)) h (pixelsT c) rfl rfl).2.2.1
  unfold addEncoder
  simp only [cost_bind, bind_fst, ln_cost, layers_cost]
  rw [ep _ hconv]
  have a1 : cost (addConv2d c.heads (pixelsT c) ((pixelsT c).shape.getD 1 0) c.hidden c.patch c.patch 0 "vision.patch_embed").2 =
      c.hidden * c.channels * c.patch * c.patch := by
    rw [e1]; simp [addConv2d, emit, cost]; ring
  have a2 : ∀ t, cost (addPatchReshape t (patches c) c.hidden).2 = 3 := by intro t; simp [addPatchReshape, emit, cost]
  have a3 : ∀ t, cost (addPosEmbed t (patches c) c.hidden).2 = patches c * c.hidden := by intro t; simp [addPosEmbed, emit, cost]
  have a4 : ∀ t, cost (addProjector c t).2 = if c.mlpProjector then proj c.hidden c.proj + proj c.proj c.llm else proj c.hidden c.llm := by
    intro t
    unfold addProjector
    split
    · simp only [cost_bind, vmm_cost, act_cost]; ring
    · exact vmm_cost ..
  rw [a1, a2, a3, a4]
  unfold visionParams lnParams
  ring

/-- the result is the output of the last call -/
def Ends (m : W T) : Prop := ∃ xs e, m.2 = xs ++ [e] ∧ e.out = m.1

theorem ends_emit (e : Emit) : Ends (emit e) := ⟨[], e, rfl, rfl⟩
theorem ends_bind {α : Type} {m : W α} {f : α → W T} (h : Ends (f m.1)) : Ends (m >>= f) := by
  obtain ⟨xs, e, h1, h2⟩ := h
  exact ⟨m.2 ++ xs, e, by rw [bind_snd, h1, List.append_assoc], by rw [bind_fst]; exact h2⟩

theorem encoder_last : Ends (addEncoder c (pixelsT c)) := by
  unfold addEncoder
  refine ends_bind (ends_bind (ends_bind (ends_bind (ends_bind ?_))))
  unfold addProjector
  split
  · exact ends_bind (ends_bind (ends_emit _))
  · exact ends_emit _

end OnnxTool.Vision
