import Verif.Proofs.VisionSem
import Verif.Props.Kernels
import Verif.Props.Sdpa
/-!
# C67: the vision encoder graph
-/
namespace OnnxTool.Props
open OnnxTool OnnxTool.Builder OnnxTool.Vision OnnxTool.Torch OnnxTool.Kernels

/-- **C67.** For every image size and configuration with at least one head and patches of at least one pixel, `build_vision_graph` returns a
valid graph with one input, the pixels, and one output `[1, patches, hidden size of the language model]`, in which every node's declared shape
is the one its operator gives on the declared shapes of its operands, whose initializers hold exactly the parameters of the encoder, and whose
execution is the encoder: patch embedding, position embedding, all blocks in order with both residual connections, last norm, projector. -/
theorem C67_vision_graph (c : VCfg) (h : VisionOk c) :
    ∃ s o, buildVision c = .ok s ∧ Valid s ∧ VisionShapes c s ∧
      s.input = ["pixel_values"] ∧ s.shape "pixel_values" = [1, c.channels, c.height, c.width] ∧
      s.output = [o] ∧ s.shape o = [1, patches c, c.llm] ∧
      (s.initials.map fun x => (s.shape x).prod).sum = visionParams c ∧
      ∀ (V : Type) (I : Interp V) (env : String → V), evalGraph I s env = [featuresV I c env] := by
  have hg := encoder_goes h
  obtain ⟨hk, hp⟩ := encoder_nodup (c := c)
  obtain ⟨s, hs, hm, hv, hsh, hlast, hin, hpar⟩ := flow_graph (c := noCfg) (pixelsT c) _ _ hg.1 hk hp encoder_last
  refine ⟨{ s with output := [(addEncoder c (pixelsT c)).1.name] }, (addEncoder c (pixelsT c)).1.name, ?_, hv, hsh, ?_, ?_, rfl, ?_, ?_, ?_⟩
  · unfold buildVision; rw [hs]
  · exact hm.input
  · exact hin
  · exact hlast.trans hg.2.2.1
  · exact hpar.trans (encoder_cost h)
  · intro V I env
    exact vgraph_sem hg.1 rfl hm hv env

/-- Qwen3.5-4B: 448 by 448 pixels, patches of 14. -/
def qwenVision : VCfg := { channels := 3, height := 448, width := 448, proj := 2560, llm := 2560 }

theorem C67_example : VisionOk qwenVision ∧ patches qwenVision = 1024 ∧ visionParams qwenVision = 313142563 := by
  refine ⟨⟨by decide, by decide⟩, by decide, by decide⟩

/-- Without heads, or with patches of zero pixels, ZeroDivisionError. -/
theorem C67_zero_raises (c : VCfg) (h : c.heads = 0 ∨ c.patch = 0) : buildVision c = .error .zeroDivision := by
  unfold buildVision addEncoder
  rw [bind_snd]
  have he : (addConv2d c.heads (pixelsT c) ((pixelsT c).shape.getD 1 0) c.hidden c.patch c.patch 0 "vision.patch_embed").2.head?.bind (·.err) =
      some .zeroDivision := by
    simp [addConv2d, emit, h]
  simp only [addConv2d, emit, if_pos h, List.cons_append, applyEmits, applyEmit]

/-- Pixels beyond the last whole patch do not add patches: the graphs of two images with the same number of whole patches along each side have
the same output shape and the same number of parameters. -/
theorem C67_whole_patches (c : VCfg) (h' w' : Nat) (hh : h' / c.patch = c.height / c.patch) (hw : w' / c.patch = c.width / c.patch) :
    patches { c with height := h', width := w' } = patches c ∧ visionParams { c with height := h', width := w' } = visionParams c := by
  have e : patches { c with height := h', width := w' } = patches c := by simp [patches, side, hh, hw]
  refine ⟨e, ?_⟩
  unfold visionParams
  rw [e]
  rfl

/-! ### What the kernels make of it -/

/-- The Reshape node executed by its kernel on the output `x` of the patch embedding, `f` features on a grid of `hp` by `wp` patches: row `i`,
column `j` of the result is not feature `j` of patch `i` but the element at place `i * f + j` of the feature planes one after another. -/
theorem C67_patch_reshape {V : Type} (x : Tensor V) (f hp wp : Nat) (hx : x.shape = [1, f, hp, wp]) (h0 : 0 < f) (h1 : 0 < hp) (h2 : 0 < wp) :
    ∃ y, reshapeKernel [1, (hp * wp : Nat), f] x [1, hp * wp, f] = .ok y ∧ y.shape = [1, hp * wp, f] ∧
      ∀ i j, i < hp * wp → j < f →
        y.at [0, i, j] = patchFeature wp (fun c r s => x.at [0, c, r, s]) ((i * f + j) % (hp * wp)) ((i * f + j) / (hp * wp)) := by
  have hpos : 0 < hp * wp := Nat.mul_pos h1 h2
  have hr : IsReshaped x.shape [1, ((hp * wp : Nat) : Int), (f : Int)] [1, hp * wp, f] := by
    refine ⟨rfl, ?_, ?_, ?_⟩
    · intro i hi h
      match i, hi with
      | 0, _ => exact absurd h (by simp)
      | 1, _ => simp only [List.getD_cons_succ, List.getD_cons_zero] at h; omega
      | 2, _ => simp only [List.getD_cons_succ, List.getD_cons_zero] at h; omega
    · intro i hi _
      match i, hi with
      | 0, _ => rfl
      | 1, _ => rfl
      | 2, _ => rfl
    · rw [hx]; simp only [numel, Nat.mul_one, Nat.one_mul]; rw [Nat.mul_comm]
  have hn : 0 < numel x.shape := by rw [hx]; simp only [numel, Nat.mul_one, Nat.one_mul]; exact Nat.mul_pos h0 hpos
  obtain ⟨y, hy, hl⟩ := C61_reshape [1, ((hp * wp : Nat) : Int), (f : Int)] x [1, hp * wp, f] hr
    (by intro d hd; simp only [List.mem_cons, List.not_mem_nil, or_false] at hd; omega)
    (by rw [List.count_eq_zero.2]
        · omega
        · simp only [List.mem_cons, List.not_mem_nil, or_false]; omega) hn
  refine ⟨y, hy, hl.shape, fun i j hi hj => ?_⟩
  have b1 : InB y.shape [0, i, j] := by rw [hl.shape]; exact ⟨by omega, hi, hj, trivial⟩
  have hlt : i * f + j < f * (hp * wp) := by
    calc i * f + j < i * f + f := by omega
      _ = (i + 1) * f := by ring
      _ ≤ hp * wp * f := Nat.mul_le_mul_right _ hi
      _ = f * (hp * wp) := Nat.mul_comm _ _
  have hdiv : (i * f + j) / (hp * wp) < f := Nat.div_lt_of_lt_mul (hlt.trans_eq (Nat.mul_comm _ _))
  have hmod : (i * f + j) % (hp * wp) < hp * wp := Nat.mod_lt _ hpos
  have b2 : InB x.shape [0, (i * f + j) / (hp * wp), (i * f + j) % (hp * wp) / wp, (i * f + j) % (hp * wp) % wp] := by
    rw [hx]
    exact ⟨by omega, hdiv, Nat.div_lt_of_lt_mul (hmod.trans_eq (Nat.mul_comm _ _)), Nat.mod_lt _ h2, trivial⟩
  have e1 := flat_getD y (y.at [0, i, j]) b1
  have e2 := flat_getD x (y.at [0, i, j]) b2
  rw [← e1, hl.elements]
  show _ = x.at [0, _, _, _]
  rw [← e2]
  congr 1
  rw [hl.shape, hx]
  simp only [ravel, numel, Nat.mul_one, Nat.zero_mul, Nat.zero_add, Nat.add_zero]
  have a1 := Nat.div_add_mod (i * f + j) (hp * wp)
  have a2 := Nat.div_add_mod ((i * f + j) % (hp * wp)) wp
  rw [Nat.mul_comm] at a1 a2
  omega

/-- So the rows given to the blocks are the patches' features, for every image, only when there is one patch or one feature. -/
theorem C67_rows_are_patches_iff (f hp wp : Nat) (h0 : 0 < f) (h1 : 0 < hp) (h2 : 0 < wp) :
    (∀ x y : Tensor Nat, x.shape = [1, f, hp, wp] → reshapeKernel [1, (hp * wp : Nat), f] x [1, hp * wp, f] = .ok y →
      ∀ i j, i < hp * wp → j < f → y.at [0, i, j] = patchFeature wp (fun c r s => x.at [0, c, r, s]) i j) ↔ f = 1 ∨ hp * wp = 1 := by
  have hpos : 0 < hp * wp := Nat.mul_pos h1 h2
  constructor
  · intro h
    by_contra hne
    rw [not_or] at hne
    obtain ⟨y, hy, _, hat⟩ := C67_patch_reshape (V := Nat) ⟨[1, f, hp, wp], fun idx => idx.getD 1 0⟩ f hp wp rfl h0 h1 h2
    have a := h _ y rfl hy 0 1 hpos (by omega)
    rw [hat 0 1 hpos (by omega)] at a
    simp only [patchFeature, Nat.zero_mul, Nat.zero_add, List.getD_cons_succ, List.getD_cons_zero] at a
    rw [Nat.div_eq_of_lt (by omega)] at a
    omega
  · intro hor x y hx hy i j hi hj
    obtain ⟨y', hy', _, hat⟩ := C67_patch_reshape x f hp wp hx h0 h1 h2
    have : y' = y := by rw [hy'] at hy; cases hy; rfl
    subst this
    rw [hat i j hi hj]
    rcases hor with rfl | hp1
    · have hj0 : j = 0 := by omega
      subst hj0
      rw [Nat.mul_one, Nat.add_zero, Nat.mod_eq_of_lt hi, Nat.div_eq_of_lt hi]
    · have hi0 : i = 0 := by omega
      subst hi0
      rw [hp1, Nat.mod_one, Nat.div_one, Nat.zero_mul, Nat.zero_add]

/-- The attention kernel masks the future although an image has none: the first patch attends to itself only, whatever the others are. -/
theorem C67_first_patch_sees_itself {F : Type} [Field F] (cf : Sdpa.Cfg) (hs : cf.shapesOk = true) (ex : F → F) (hex : ∀ x, ex x ≠ 0) (scale : F)
    (patchTokens : List (Sdpa.Token F)) (hne : 0 < patchTokens.length) :
    ∃ out, Sdpa.runPlain cf ex scale patchTokens.length (Sdpa.rows Sdpa.Token.q patchTokens) (Sdpa.rows Sdpa.Token.k patchTokens)
        (Sdpa.rows Sdpa.Token.v patchTokens) = .ok out ∧
      ∀ b h e, h < cf.heads → e < cf.hd →
        out b 0 (h * cf.hd + e) = (patchTokens.getD 0 default).v b (h / (cf.heads / cf.kvHeads) * cf.hd + e) := by
  obtain ⟨out, h1, h2⟩ := C49_plain_attention cf hs ex scale patchTokens
  refine ⟨out, h1, fun b h e hh he => ?_⟩
  rw [h2 b 0 h e hne hh he]
  unfold Sdpa.causal
  simp only [Nat.zero_add, Finset.sum_range_one]
  rw [mul_div_assoc, mul_comm, div_mul_cancel₀]
  exact hex _

end OnnxTool.Props
