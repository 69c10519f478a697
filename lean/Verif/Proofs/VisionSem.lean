import Verif.Proofs.Vision
import Verif.Proofs.BuilderSem
/-!
# The vision encoder: what the graph computes
-/
namespace OnnxTool.Vision
open OnnxTool OnnxTool.Builder

variable {V : Type} {I : Interp V} {c : VCfg} {E : String → V}

theorem ln_sem {t : T} {n : Nat} {b : String} (h : Sol I E (addLn t n b).2) : E (addLn t n b).1.name = lnV I E b (E t.name) := sol_emit h
theorem vmm_sem {t : T} {m n : Nat} {b : String} (h : Sol I E (addVmm t m n true b).2) :
    E (addVmm t m n true b).1.name = linV I E true b (E t.name) := sol_emit h
theorem sdpa_sem {q k v : T} {d : Nat} {b : String} (h : Sol I E (addSdpa q k v d b).2) :
    E (addSdpa q k v d b).1.name = I "SDPA" none none [E q.name, E k.name, E v.name] := sol_emit h
theorem pos_sem {t : T} {p d : Nat} (h : Sol I E (addPosEmbed t p d).2) : E (addPosEmbed t p d).1.name = addV I (E t.name) (E "vision.pos_embed") :=
  sol_emit h
theorem patch_sem {t : T} {p d : Nat} (h : Sol I E (addPatchReshape t p d).2) :
    E (addPatchReshape t p d).1.name = I "Reshape" none none [E t.name, E "vision.patch_reshape.shape"] := sol_emit h
theorem conv_sem {n : Nat} {t : T} {a o k s p : Nat} {b : String} (h : Sol I E (addConv2d n t a o k s p b).2) :
    E (addConv2d n t a o k s p b).1.name = I "Conv" none none [E t.name, E (b ++ ".weight")] := sol_emit h

theorem block_sem {i : Nat} {t : T} (h : Sol I E (addVlayer t c.hidden c.heads c.headDim c.inter (blockName i)).2) :
    E (addVlayer t c.hidden c.heads c.headDim c.inter (blockName i)).1.name = blockV I c E i (E t.name) := by
  unfold addVlayer addVattention addVmlp at *
  simp only [sol_bind, bind_fst] at h ⊢
  obtain ⟨h1, ⟨h2, h3, h4, h5, h6, h7⟩, h8, h9, ⟨h10, h11, h12⟩, h13⟩ := h
  rw [eltop_sem h13, vmm_sem h12, act_sem (.inr rfl) h11, vmm_sem h10, ln_sem h9, eltop_sem h8, vmm_sem h7, sdpa_sem h6, slice_sem h5, slice_sem h4,
    slice_sem h3, vmm_sem h2, ln_sem h1]
  simp only [blockV, blockName, dim, addV, String.append_assoc, Nat.mul_comm _ 2]
  rfl

theorem blocks_sem {t : T} : ∀ (n : Nat), Sol I E (addVlayers c t n).2 →
    E (addVlayers c t n).1.name = (List.range n).foldl (fun x i => blockV I c E i x) (E t.name) := by
  intro n
  induction n with
  | zero => intro _; rfl
  | succ n ih =>
    intro h
    simp only [addVlayers, sol_bind, bind_fst] at h ⊢
    rw [block_sem h.2, ih h.1, List.range_succ, List.foldl_append]
    rfl

theorem projector_sem {t : T} (h : Sol I E (addProjector c t).2) : E (addProjector c t).1.name =
    if c.mlpProjector then linV I E true "vision.projector.fc2" (activV I "gelu_new" (linV I E true "vision.projector.fc1" (E t.name)))
    else linV I E true "vision.projector" (E t.name) := by
  unfold addProjector at *
  by_cases hp : c.mlpProjector = true
  · simp only [if_pos hp, sol_bind, bind_fst] at h ⊢
    obtain ⟨h1, h2, h3⟩ := h
    rw [vmm_sem h3, act_sem (.inr rfl) h2, vmm_sem h1]
  · simp only [if_neg hp] at h ⊢
    exact vmm_sem h

theorem encoder_sem (h : Sol I E (addEncoder c (pixelsT c)).2) : E (addEncoder c (pixelsT c)).1.name = featuresV I c E := by
  unfold addEncoder featuresV at *
  simp only [sol_bind, bind_fst] at h ⊢
  obtain ⟨h1, h2, h3, h4, h5, h6⟩ := h
  rw [projector_sem h6, ln_sem h5, blocks_sem _ h4, pos_sem h3, patch_sem h2, conv_sem h1]
  rfl

/-- `E` and `P` agree on every name a parameter or input can have -/
structure VAgree (E P : String → V) : Prop where
  weight : ∀ b, E (b ++ ".weight") = P (b ++ ".weight")
  bias : ∀ b, E (b ++ ".bias") = P (b ++ ".bias")
  start : ∀ b, E (b ++ ".start") = P (b ++ ".start")
  stop : ∀ b, E (b ++ ".end") = P (b ++ ".end")
  axis : ∀ b, E (b ++ ".axis") = P (b ++ ".axis")
  step : ∀ b, E (b ++ ".step") = P (b ++ ".step")
  pixels : E "pixel_values" = P "pixel_values"
  shape : E "vision.patch_reshape.shape" = P "vision.patch_reshape.shape"
  pos : E "vision.pos_embed" = P "vision.pos_embed"

theorem agree_features {P : String → V} (h : VAgree E P) : featuresV I c E = featuresV I c P := by
  have e1 : linV I E = linV I P := by funext b n x; simp only [linV, h.weight, h.bias]
  have e2 : lnV I E = lnV I P := by funext n x; simp only [lnV, h.weight, h.bias]
  have e5 : colsV I E = colsV I P := by funext o n b x; simp only [colsV, h.start, h.stop, h.axis, h.step]
  have e6 : blockV I c E = blockV I c P := by funext p x; simp only [blockV, e1, e2, e5]
  have e7 : E "vision.patch_embed.weight" = P "vision.patch_embed.weight" := h.weight "vision.patch_embed"
  simp only [featuresV, e1, e2, e6, e7, h.pixels, h.shape, h.pos]

theorem vgraph_sem {rule : Rule} {A : T → Prop} (hf : Flow rule A (addEncoder c (pixelsT c)).2) {s0 s : St} (hn : s0.nodes = [])
    (hm : Made s0 (addEncoder c (pixelsT c)).2 s)
    (hv : Valid { s with output := [(addEncoder c (pixelsT c)).1.name] }) (env : String → V) :
    evalGraph I { s with output := [(addEncoder c (pixelsT c)).1.name] } env = [featuresV I c env] := by
  obtain ⟨h1, h2⟩ := valid_solves (I := I) _ hv env
  simp only at h1 h2
  have hnodes : s.nodes = (addEncoder c (pixelsT c)).2.map enode := by rw [hm.nodes, hn]; rfl
  have hsol : Sol I (evalNodes I s.nodes env) (addEncoder c (pixelsT c)).2 := by
    intro e he
    have hm : enode e ∈ s.nodes := by rw [hnodes]; exact List.mem_map_of_mem he
    have := h1 _ hm e.out.name (by simp [enode])
    rw [this]
    simp only [enode, List.map_map, Function.comp_def]
  have hother : ∀ x, (∀ b, x ≠ b ++ ".output") → evalNodes I s.nodes env x = env x := by
    intro x hx
    refine h2 x fun hmem => ?_
    rw [hnodes] at hmem
    obtain ⟨n, hn, hxn⟩ := List.mem_flatMap.1 hmem
    obtain ⟨e, he, rfl⟩ := List.mem_map.1 hn
    simp only [enode, List.mem_singleton] at hxn
    exact hx e.name (hxn.trans (flow_mem hf he).2.1)
  have hs : ∀ (sf : String), sf ∈ suffixes → sf ≠ ".output" → ∀ b, evalNodes I s.nodes env (b ++ sf) = env (b ++ sf) := by
    intro sf hsf hne b
    exact hother _ fun b' hb => hne (append_suffix_inj hsf (by decide) hb).2
  have hl : ∀ x, ¬ ".output".toList <:+ x.toList → evalNodes I s.nodes env x = env x := by
    intro x hx
    refine hother _ fun b hb => hx ?_
    rw [hb, String.toList_append]
    exact List.suffix_append _ _
  have ha : VAgree (evalNodes I s.nodes env) env :=
    ⟨hs _ (by decide) (by decide), hs _ (by decide) (by decide), hs _ (by decide) (by decide), hs _ (by decide) (by decide),
     hs _ (by decide) (by decide), hs _ (by decide) (by decide), hl _ (by decide), hl _ (by decide), hl _ (by decide)⟩
  simp only [evalGraph, List.map_cons, List.map_nil]
  rw [encoder_sem hsol, agree_features ha]

end OnnxTool.Vision
