import Verif.Proofs.BuilderState
import Verif.Spec.BuilderSem
import Mathlib.Data.List.Nodup
/-!
# The builder: what the graph computes
-/
namespace OnnxTool.Builder
open OnnxTool

variable {V : Type} {I : Interp V} {c : Cfg} {w : WMap} {E : String → V}

/-- all node equations hold -/
def Sol (I : Interp V) (E : String → V) (es : List Emit) : Prop :=
  ∀ e ∈ es, E e.out.name = I e.op e.layer e.slice (e.ins.map fun t => E t.name)

theorem sol_bind {α β : Type} {m : W α} {f : α → W β} : Sol I E (m >>= f).2 ↔ Sol I E m.2 ∧ Sol I E (f m.1).2 := by
  unfold Sol
  rw [bind_snd]
  constructor
  · exact fun h => ⟨fun e he => h e (List.mem_append_left _ he), fun e he => h e (List.mem_append_right _ he)⟩
  · rintro ⟨h1, h2⟩ e he
    rcases List.mem_append.1 he with he | he
    exacts [h1 e he, h2 e he]

theorem sol_emit {e : Emit} (h : Sol I E (emit e).2) : E (emit e).1.name = I e.op e.layer e.slice (e.ins.map fun t => E t.name) :=
  h e (by simp [emit])

theorem embedding_sem {t : T} {n : Nat} {b : String} (h : Sol I E (addEmbedding c t n b).2) :
    E (addEmbedding c t n b).1.name = I "Gather" none none [E (b ++ ".weight"), E t.name] := sol_emit h

theorem layernorm_sem {t : T} {b : String} (h : Sol I E (addLayernorm c t b).2) : E (addLayernorm c t b).1.name = normV I c E b (E t.name) := by
  rw [show E (addLayernorm c t b).1.name = _ from sol_emit h]
  simp only [normV, normWeights]
  cases c.normScale <;> cases c.normBias <;> rfl

theorem act_sem {t : T} {a b : String} (ha : a = "silu" ∨ a = "gelu_new") (h : Sol I E (addAct t a b).2) :
    E (addAct t a b).1.name = activV I a (E t.name) := by
  rw [show E (addAct t a b).1.name = _ from sol_emit h]
  rcases ha with rfl | rfl <;> rfl

theorem rope_sem {t : T} {b : String} (h : Sol I E (addRope c t b).2) : E (addRope c t b).1.name = ropeV I E (E t.name) := sol_emit h

theorem eltop_sem {t u : T} {op b : String} (h : Sol I E (addEltop t u op b).2) :
    E (addEltop t u op b).1.name = I op none none [E t.name, E u.name] := sol_emit h

theorem mm_sem {t : T} {m n : Nat} {bias : Bool} {b : String} (h : Sol I E (addMm c t m n bias b).2) :
    E (addMm c t m n bias b).1.name = linV I E bias b (E t.name) := by
  rw [show E (addMm c t m n bias b).1.name = _ from sol_emit h]
  cases bias <;> rfl

theorem mha_sem {q k v : T} {i : Nat} {b : String} (h : Sol I E (addMha c q k v i b).2) :
    E (addMha c q k v i b).1.name = I "SDPA" (some i) none [E q.name, E k.name, E v.name] := sol_emit h

theorem slice_sem {t : T} {o n : Nat} {b : String} (h : Sol I E (addSlice t o n b).2) :
    E (addSlice t o n b).1.name = colsV I E o n b (E t.name) := sol_emit h

theorem qknorm_sem {t : T} {b : String} (h : Sol I E (addQkNorm c t b).2) : E (addQkNorm c t b).1.name = headNormV I E b (E t.name) := sol_emit h

theorem gegelu_sem {t : T} {b : String} (h : Sol I E (addGegelu t b).2) : E (addGegelu t b).1.name = I "GeGelu" none none [E t.name] := sol_emit h

theorem moe_sem {p : String} {t : T} (h : Sol I E (addMoe c p t).2) : E (addMoe c p t).1.name = moeV I c E p (E t.name) := by
  rw [show E (addMoe c p t).1.name = _ from sol_emit h]
  simp only [moeV, moeWeights]
  cases c.noSharedExpert <;> cases c.noSharedGate <;> rfl

theorem mla_sem {p : String} {t : T} (h : Sol I E (addMla c p t).2) : E (addMla c p t).1.name = latentV I E p (E t.name) := sol_emit h

theorem mlp_sem {p : String} {t : T} (hact : c.phi3 = true ∨ c.act = "silu" ∨ c.act = "gelu_new") (h : Sol I E (addMlp c w p t).2) :
    E (addMlp c w p t).1.name = mlpV I c w E p (E t.name) := by
  unfold addMlp mlpV at *
  by_cases hp : c.phi3 = true
  · simp only [if_pos hp, sol_bind, bind_fst] at h ⊢
    obtain ⟨h1, h2, h3⟩ := h
    rw [mm_sem h3, gegelu_sem h2, mm_sem h1]
  · have ha := hact.resolve_left hp
    by_cases hg : c.mlpGate = true
    · simp only [if_neg hp, if_pos hg, sol_bind, bind_fst] at h ⊢
      obtain ⟨h1, h2, h3, h4, h5⟩ := h
      rw [mm_sem h5, eltop_sem h4, act_sem ha h3, mm_sem h2, mm_sem h1]; rfl
    · simp only [if_neg hp, if_neg hg, sol_bind, bind_fst] at h ⊢
      obtain ⟨h1, h2, h3⟩ := h
      rw [mm_sem h3, act_sem ha h2, mm_sem h1]

theorem gdn_sem {p : String} {t : T} (h : Sol I E (addGdn c w p t).2) : E (addGdn c w p t).1.name = linearV I c w E p (E t.name) := by
  unfold addGdn linearV at *
  simp only [sol_bind, bind_fst] at h ⊢
  obtain ⟨h1, h2, h3, h4, h5, h6⟩ := h
  rw [show E (emit _).1.name = _ from sol_emit h6]
  simp only [List.map_cons, List.map_nil]
  rw [qknorm_sem h5, qknorm_sem h4, mm_sem h3, mm_sem h2, mm_sem h1]

theorem projections_sem {p : String} {t : T} (h : Sol I E (addProjections c w p t).2) :
    E (addProjections c w p t).1.1.name = (qkvV I c w E p (E t.name)).1 ∧ E (addProjections c w p t).1.2.1.name = (qkvV I c w E p (E t.name)).2.1 ∧
    E (addProjections c w p t).1.2.2.1.name = (qkvV I c w E p (E t.name)).2.2.1 ∧
    (addProjections c w p t).1.2.2.2.map (fun g => E g.name) = (qkvV I c w E p (E t.name)).2.2.2 := by
  unfold addProjections qkvV addQkv addQkvGated at *
  by_cases hg : c.qkvGated = true
  · simp only [if_pos hg, sol_bind, bind_fst, pure_fst] at h ⊢
    obtain ⟨⟨h1, h2, h3, h4, h5, _⟩, _⟩ := h
    rw [slice_sem h4, mm_sem h2, mm_sem h3, Option.map_some, slice_sem h5, mm_sem h1]
    exact ⟨rfl, rfl, rfl, rfl⟩
  · by_cases hf : c.fuseQkv = true
    · simp only [if_neg hg, if_pos hf, sol_bind, bind_fst, pure_fst] at h ⊢
      obtain ⟨⟨h1, h2, h3, h4, _⟩, _⟩ := h
      rw [slice_sem h2, slice_sem h3, slice_sem h4, mm_sem h1]
      exact ⟨rfl, rfl, rfl, rfl⟩
    · simp only [if_neg hg, if_neg hf, sol_bind, bind_fst, pure_fst] at h ⊢
      obtain ⟨⟨h1, h2, h3, _⟩, _⟩ := h
      rw [mm_sem h1, mm_sem h2, mm_sem h3]
      exact ⟨rfl, rfl, rfl, rfl⟩

theorem qknorms_sem {p : String} {q k : T} (h : Sol I E (addQkNorms c p q k).2) :
    E (addQkNorms c p q k).1.1.name = (if c.qkNorm then headNormV I E (p ++ "self_attn.q_norm") (E q.name) else E q.name) ∧
    E (addQkNorms c p q k).1.2.name = (if c.qkNorm then headNormV I E (p ++ "self_attn.k_norm") (E k.name) else E k.name) := by
  unfold addQkNorms at *
  by_cases hg : c.qkNorm = true
  · simp only [if_pos hg, sol_bind, bind_fst, pure_fst] at h ⊢
    exact ⟨qknorm_sem h.1, qknorm_sem h.2.1⟩
  · simp only [if_neg hg]; exact ⟨rfl, rfl⟩

theorem ropes_sem {p : String} {q k : T} (h : Sol I E (addRopes c p q k).2) :
    E (addRopes c p q k).1.1.name = (if c.qkRope then ropeV I E (E q.name) else E q.name) ∧
    E (addRopes c p q k).1.2.name = (if c.qkRope then ropeV I E (E k.name) else E k.name) := by
  unfold addRopes at *
  by_cases hg : c.qkRope = true
  · simp only [if_pos hg, sol_bind, bind_fst, pure_fst] at h ⊢
    exact ⟨rope_sem h.1, rope_sem h.2.1⟩
  · simp only [if_neg hg]; exact ⟨rfl, rfl⟩

theorem gate_sem {p : String} {t : T} {g : Option T} (h : Sol I E (addGate p t g).2) :
    E (addGate p t g).1.name = match g.map (fun x => E x.name) with
      | some y => mulV I (E t.name) (activV I "silu" y)
      | none => E t.name := by
  cases g with
  | none => rfl
  | some g =>
    unfold addGate at *
    simp only [sol_bind, bind_fst] at h ⊢
    obtain ⟨h1, h2⟩ := h
    rw [eltop_sem h2, act_sem (.inl rfl) h1]; rfl

theorem attention_sem {i : Nat} {p : String} {t : T} (h : Sol I E (addAttention c w i p t).2) :
    E (addAttention c w i p t).1.name = attnV I c w E i p (E t.name) := by
  unfold addAttention attnV at *
  simp only [sol_bind, bind_fst] at h ⊢
  obtain ⟨h1, h2, h3, h4, h5, h6⟩ := h
  obtain ⟨a1, a2, a3, a4⟩ := projections_sem h1
  obtain ⟨b1, b2⟩ := qknorms_sem h2
  obtain ⟨d1, d2⟩ := ropes_sem h3
  rw [mm_sem h6, gate_sem h5, mha_sem h4, d1, d2, b1, b2, a1, a2, a3, a4]
  generalize (qkvV I c w E p (E t.name)).2.2.2 = g
  cases g <;> rfl

theorem mixer_sem {i : Nat} {p : String} {t : T} (h : Sol I E (addMixer c w i p t).2) :
    E (addMixer c w i p t).1.name =
      (if linearLayer c i then linearV I c w E p else if c.isMla then latentV I E p else attnV I c w E i p) (E t.name) := by
  unfold addMixer at *
  by_cases hl : linearLayer c i
  · simp only [if_pos ((isGdn_iff c i).2 hl), if_pos hl] at h ⊢; exact gdn_sem h
  · have hl' : ¬ isGdn c i = true := fun x => hl ((isGdn_iff c i).1 x)
    by_cases hm : c.isMla = true
    · simp only [if_neg hl', if_neg hl, if_pos hm] at h ⊢; exact mla_sem h
    · simp only [if_neg hl', if_neg hl, if_neg hm] at h ⊢; exact attention_sem h

theorem ffn_sem {p : String} {t : T} (hact : c.isMoe = true ∨ c.phi3 = true ∨ c.act = "silu" ∨ c.act = "gelu_new")
    (h : Sol I E (addFfn c w p t).2) :
    E (addFfn c w p t).1.name = (if c.isMoe then moeV I c E p else mlpV I c w E p) (E t.name) := by
  unfold addFfn at *
  by_cases hm : c.isMoe = true
  · simp only [if_pos hm] at h ⊢; exact moe_sem h
  · simp only [if_neg hm] at h ⊢; exact mlp_sem (hact.resolve_left hm) h

theorem optnorm_sem {on : Bool} {t : T} {b : String} (h : Sol I E (addOptNorm c on t b).2) :
    E (addOptNorm c on t b).1.name = if on then normV I c E b (E t.name) else E t.name := by
  unfold addOptNorm at *
  cases on
  · rfl
  · exact layernorm_sem h

theorem layer_sem {i : Nat} {t : T} (hact : c.isMoe = true ∨ c.phi3 = true ∨ c.act = "silu" ∨ c.act = "gelu_new")
    (h : Sol I E (addLayer c w i t).2) : E (addLayer c w i t).1.name = layerV I c w E i (E t.name) := by
  unfold addLayer at *
  simp only [sol_bind, bind_fst] at h ⊢
  obtain ⟨h1, h2, h3, h4, h5, h6, h7, h8⟩ := h
  rw [eltop_sem h8, optnorm_sem h7, ffn_sem hact h6, layernorm_sem h5, eltop_sem h4, optnorm_sem h3, mixer_sem h2, layernorm_sem h1]
  rfl

theorem layers_sem {t : T} (hact : c.isMoe = true ∨ c.phi3 = true ∨ c.act = "silu" ∨ c.act = "gelu_new") : ∀ (n : Nat),
    Sol I E (addLayers c w t n).2 → E (addLayers c w t n).1.name = (List.range n).foldl (fun x i => layerV I c w E i x) (E t.name) := by
  intro n
  induction n with
  | zero => intro _; rfl
  | succ n ih =>
    intro h
    simp only [addLayers, sol_bind, bind_fst] at h ⊢
    rw [layer_sem hact h.2, ih h.1, List.range_succ, List.foldl_append]
    rfl

theorem pos_sem {t : T} (hc : CfgOk c w) (h : Sol I E (addPos c w t).2) (he : E t.name = I "Gather" none none [E (w.embed ++ ".weight"), E "ids"]) :
    E (addPos c w t).1.name = embedV I c w E := by
  unfold addPos embedV at *
  by_cases hp : c.posEmbedding = true
  · have := hc.pos hp
    simp only [if_pos hp] at h ⊢
    cases hw : w.pos with
    | none => rw [hw] at this; cases this
    | some pos =>
      rw [hw] at h
      simp only [sol_bind, bind_fst] at h ⊢
      rw [eltop_sem h.2, embedding_sem h.1, he]
      rfl
  · simp only [if_neg hp]
    rw [show (pure t : W T).1 = t from rfl, he]
    cases w.pos <;> rfl

theorem build_sem (hc : CfgOk c w) (h : Sol I E (build c w).2) : E (build c w).1.name = logitsV I c w E := by
  unfold build logitsV addLmHead at *
  simp only [sol_bind, bind_fst] at h ⊢
  obtain ⟨h1, h2, h3, ⟨h4, h5⟩, h6⟩ := h
  have e := embedding_sem h1
  have key : ∀ t : T, Sol I E (if c.softcap = true then addSoftcapping t "models.final_logit_softcapping" else pure t).2 →
      E (if c.softcap = true then addSoftcapping t "models.final_logit_softcapping" else pure t).1.name =
      if c.softcap then I "LogitSoftCapping" none none [E t.name, E ("models.final_logit_softcapping" ++ ".weight")] else E t.name := by
    intro t ht
    by_cases hs : c.softcap = true
    · simp only [if_pos hs] at ht ⊢; exact sol_emit ht
    · simp only [if_neg hs]; rfl
  rw [key _ h6, mm_sem h5, layernorm_sem h4, layers_sem hc.act _ h3, pos_sem hc h2 e]

/-! ### The evaluator solves the equations -/

theorem eval_other (ns : List (String × BNode)) : ∀ (env : String → V) (x : String), x ∉ ns.flatMap (·.2.output) → evalNodes I ns env x = env x := by
  induction ns with
  | nil => intro env x _; rfl
  | cons n ns ih =>
    intro env x hx
    rw [List.flatMap_cons, List.mem_append, not_or] at hx
    rw [evalNodes, ih _ x hx.2]
    simp only [if_neg hx.1]

theorem eval_solves (ns : List (String × BNode)) : ∀ (env : String → V), (ns.flatMap (·.2.output)).Nodup →
    (∀ (k : Nat) (n : String × BNode), ns[k]? = some n → ∀ x ∈ n.2.input, ∀ (j : Nat) (m : String × BNode), k ≤ j → ns[j]? = some m → x ∉ m.2.output) →
    ∀ n ∈ ns, ∀ x ∈ n.2.output, evalNodes I ns env x = I n.2.op n.2.layer n.2.slice (n.2.input.map (evalNodes I ns env)) := by
  induction ns with
  | nil => intro env _ _ n hn; cases hn
  | cons a ns ih =>
    intro env hd ho n hn x hx
    rw [List.flatMap_cons, List.nodup_append] at hd
    rw [evalNodes]
    rcases List.mem_cons.1 hn with rfl | hn
    · have hnot : x ∉ ns.flatMap (·.2.output) := fun h => hd.2.2 x hx x h rfl
      rw [eval_other ns _ x hnot]
      simp only [if_pos hx]
      congr 1
      refine (List.map_congr_left fun y hy => ?_).symm
      have h0 := ho 0 n rfl y hy 0 n (Nat.le_refl _) rfl
      have hns : y ∉ ns.flatMap (·.2.output) := by
        intro hm
        obtain ⟨m, hm, hym⟩ := List.mem_flatMap.1 hm
        obtain ⟨j, hj, hjm⟩ := List.getElem_of_mem hm
        exact ho 0 n rfl y hy (j + 1) m (by omega) (by simp [List.getElem?_eq_getElem hj, hjm]) hym
      rw [eval_other ns _ y hns]
      simp only [if_neg h0]
    · refine ih _ hd.2.1 ?_ n hn x hx
      intro k m hk y hy j m' hkj hj
      exact ho (k + 1) m (by simpa using hk) y hy (j + 1) m' (by omega) (by simpa using hj)

/-- In a valid graph the node equations hold after execution and inputs and initializers keep their values. -/
theorem valid_solves (s : St) (hv : Valid s) (env : String → V) :
    (∀ n ∈ s.nodes, ∀ x ∈ n.2.output, evalNodes I s.nodes env x = I n.2.op n.2.layer n.2.slice (n.2.input.map (evalNodes I s.nodes env))) ∧
    ∀ x, x ∉ s.nodes.flatMap (·.2.output) → evalNodes I s.nodes env x = env x := by
  have hd := hv.distinct
  rw [List.nodup_append] at hd
  refine ⟨eval_solves _ _ hd.2.1 ?_, fun x => eval_other _ _ x⟩
  intro k n hk x hx j m hkj hj hxm
  have hmem : x ∈ s.nodes.flatMap (·.2.output) := List.mem_flatMap.2 ⟨m, List.mem_of_getElem? hj, hxm⟩
  rcases hv.ordered k n.1 n.2 hk x hx with h | h | ⟨i, m', hi, him, hxm'⟩
  · exact hd.2.2 x (List.mem_append_left _ h) x hmem rfl
  · exact hd.2.2 x (List.mem_append_right _ h) x hmem rfl
  · have hp := (List.nodup_flatMap.1 hd.2.1).2
    rw [List.pairwise_iff_getElem] at hp
    obtain ⟨hi', e1⟩ := List.getElem?_eq_some_iff.1 him
    obtain ⟨hj', e2⟩ := List.getElem?_eq_some_iff.1 hj
    have := hp i j hi' hj' (Nat.lt_of_lt_of_le hi hkj)
    simp only [Function.onFun, e1, e2] at this
    exact this hxm' hxm

/-! ### Parameters keep their values -/

/-- all results are called `….output` -/
def Outs (es : List Emit) : Prop := ∀ e ∈ es, ∃ b, e.out.name = b ++ ".output"

theorem outs_nil : Outs [] := fun _ h => nomatch h

theorem outs_pure {α : Type} (a : α) : Outs (pure a : W α).2 := outs_nil

theorem outs_bind {α β : Type} {m : W α} {f : α → W β} (h : Outs m.2) (k : Outs (f m.1).2) : Outs (m >>= f).2 := by
  intro e he
  rw [bind_snd] at he
  rcases List.mem_append.1 he with he | he
  exacts [h e he, k e he]

theorem outs_emit {e : Emit} {b : String} (h : e.out.name = b ++ ".output") : Outs (emit e).2 := by
  intro e' he
  simp only [emit, List.mem_singleton] at he
  exact ⟨b, he ▸ h⟩

theorem outs_mm {t : T} {m n : Nat} {bias : Bool} {b : String}  : Outs (addMm c t m n bias b).2 := outs_emit rfl
theorem outs_norm {t : T} {b : String}  : Outs (addLayernorm c t b).2 := outs_emit rfl
theorem outs_slice {t : T} {o n : Nat} {b : String}  : Outs (addSlice t o n b).2 := outs_emit rfl
theorem outs_qknorm {t : T} {b : String}  : Outs (addQkNorm c t b).2 := outs_emit rfl
theorem outs_act {t : T} {a b : String}  : Outs (addAct t a b).2 := outs_emit rfl
theorem outs_eltop {t u : T} {op b : String}  : Outs (addEltop t u op b).2 := outs_emit rfl

theorem outs_mlp {p : String} {t : T}  : Outs (addMlp c w p t).2 := by
  unfold addMlp
  split
  · exact outs_bind outs_mm (outs_bind (outs_emit rfl) outs_mm)
  · refine outs_bind outs_mm ?_
    split
    · exact outs_bind outs_mm (outs_bind outs_act (outs_bind outs_eltop outs_mm))
    · exact outs_bind outs_act outs_mm

theorem outs_projections {p : String} {t : T}  : Outs (addProjections c w p t).2 := by
  unfold addProjections addQkv addQkvGated
  split
  · exact outs_bind (outs_bind outs_mm (outs_bind outs_mm (outs_bind outs_mm (outs_bind outs_slice
      (outs_bind outs_slice (outs_pure _)))))) (outs_pure _)
  · refine outs_bind ?_ (outs_pure _)
    split
    · exact outs_bind outs_mm (outs_bind outs_slice (outs_bind outs_slice (outs_bind outs_slice (outs_pure _))))
    · exact outs_bind outs_mm (outs_bind outs_mm (outs_bind outs_mm (outs_pure _)))

theorem outs_attention {i : Nat} {p : String} {t : T}  : Outs (addAttention c w i p t).2 := by
  unfold addAttention
  refine outs_bind outs_projections (outs_bind ?_ (outs_bind ?_ (outs_bind (outs_emit rfl) (outs_bind ?_ outs_mm))))
  · unfold addQkNorms
    split
    · exact outs_bind outs_qknorm (outs_bind outs_qknorm (outs_pure _))
    · exact outs_pure _
  · unfold addRopes
    split
    · exact outs_bind (outs_emit rfl) (outs_bind (outs_emit rfl) (outs_pure _))
    · exact outs_pure _
  · unfold addGate
    split
    · exact outs_bind outs_act outs_eltop
    · exact outs_pure _

theorem outs_layer {i : Nat} {t : T}  : Outs (addLayer c w i t).2 := by
  unfold addLayer
  have opt : ∀ {on : Bool} {t : T} {b : String}, Outs (addOptNorm c on t b).2 := by
    intro on t b
    unfold addOptNorm
    cases on
    · exact outs_nil
    · exact outs_norm
  refine outs_bind outs_norm (outs_bind ?_ (outs_bind opt (outs_bind outs_eltop (outs_bind outs_norm
    (outs_bind ?_ (outs_bind opt outs_eltop))))))
  · unfold addMixer
    split
    · exact outs_bind outs_mm (outs_bind outs_mm (outs_bind outs_mm (outs_bind outs_qknorm (outs_bind outs_qknorm
        (outs_emit rfl)))))
    · split
      · exact outs_emit rfl
      · exact outs_attention
  · unfold addFfn
    split
    · exact outs_emit rfl
    · exact outs_mlp

theorem outs_layers {t : T} {n : Nat}  : Outs (addLayers c w t n).2 := by
  induction n with
  | zero => exact outs_nil
  | succ n ih => exact outs_bind ih outs_layer

theorem outs_build (hc : CfgOk c w) : Outs (build c w).2 := by
  unfold build
  refine outs_bind (outs_emit rfl) (outs_bind ?_ (outs_bind outs_layers (outs_bind (outs_bind outs_norm outs_mm) ?_)))
  · unfold addPos
    split
    · have := hc.pos (by assumption)
      cases hw : w.pos with
      | none => rw [hw] at this; cases this
      | some pos => exact outs_bind (outs_emit rfl) outs_eltop
    · exact outs_pure _
  · split
    · exact outs_emit rfl
    · exact outs_pure _

/-- `E` and `P` agree on every name a parameter or input can have -/
structure Agree (E P : String → V) : Prop where
  weight : ∀ b, E (b ++ ".weight") = P (b ++ ".weight")
  bias : ∀ b, E (b ++ ".bias") = P (b ++ ".bias")
  start : ∀ b, E (b ++ ".start") = P (b ++ ".start")
  stop : ∀ b, E (b ++ ".end") = P (b ++ ".end")
  axis : ∀ b, E (b ++ ".axis") = P (b ++ ".axis")
  step : ∀ b, E (b ++ ".step") = P (b ++ ".step")
  ids : E "ids" = P "ids"
  position : E "position" = P "position"
  cos : E "rope.cos" = P "rope.cos"
  sin : E "rope.sin" = P "rope.sin"

theorem agree_logits {P : String → V} (h : Agree E P) : logitsV I c w E = logitsV I c w P := by
  have e1 : linV I E = linV I P := by funext b n x; simp only [linV, h.weight, h.bias]
  have e2 : normV I c E = normV I c P := by funext n x; simp only [normV, h.weight, h.bias]
  have e3 : headNormV I E = headNormV I P := by funext n x; simp only [headNormV, h.weight]
  have e4 : ropeV I E = ropeV I P := by funext x; simp only [ropeV, h.cos, h.sin, h.position]
  have e5 : colsV I E = colsV I P := by funext o n b x; simp only [colsV, h.start, h.stop, h.axis, h.step]
  have e6 : qkvV I c w E = qkvV I c w P := by funext p x; simp only [qkvV, e1, e5]
  have e7 : attnV I c w E = attnV I c w P := by funext i p x; simp only [attnV, e1, e3, e4, e6]
  have e8 : linearV I c w E = linearV I c w P := by funext p x; simp only [linearV, e1, e3]
  have e9 : latentV I E = latentV I P := by funext p x; simp only [latentV, h.weight]
  have e10 : moeV I c E = moeV I c P := by funext p x; simp only [moeV, h.weight]
  have e11 : mlpV I c w E = mlpV I c w P := by funext p x; simp only [mlpV, e1]
  have e12 : layerV I c w E = layerV I c w P := by funext i x; simp only [layerV, e2, e7, e8, e9, e10, e11]
  have e13 : embedV I c w E = embedV I c w P := by simp only [embedV, h.weight, h.ids, h.position]
  simp only [logitsV, e1, e2, e12, e13, h.weight]

theorem graph_sem (hc : CfgOk c w) {s : St} (hi : Inv c (baseInputs c w) (build c w).2 s) (hv : Valid { s with output := [(build c w).1.name] })
    (env : String → V) : evalGraph I { s with output := [(build c w).1.name] } env = [logitsV I c w env] := by
  obtain ⟨h1, h2⟩ := valid_solves (I := I) _ hv env
  simp only at h1 h2
  have hsol : Sol I (evalNodes I s.nodes env) (build c w).2 := by
    intro e he
    have hm : enode e ∈ s.nodes := by rw [hi.nodes]; exact List.mem_map_of_mem he
    have := h1 _ hm e.out.name (by simp [enode])
    rw [this]
    simp only [enode, List.map_map, Function.comp_def]
  have hother : ∀ x, (∀ b, x ≠ b ++ ".output") → evalNodes I s.nodes env x = env x := by
    intro x hx
    refine h2 x fun hmem => ?_
    rw [hi.nodes] at hmem
    obtain ⟨n, hn, hxn⟩ := List.mem_flatMap.1 hmem
    obtain ⟨e, he, rfl⟩ := List.mem_map.1 hn
    obtain ⟨b, hb⟩ := outs_build hc e he
    simp only [enode, List.mem_singleton] at hxn
    exact hx b (hxn.trans hb)
  have hs : ∀ (sf : String), sf ∈ suffixes → sf ≠ ".output" → ∀ b, evalNodes I s.nodes env (b ++ sf) = env (b ++ sf) := by
    intro sf hsf hne b
    exact hother _ fun b' hb => hne (append_suffix_inj hsf (by decide) hb).2
  have hf : ∀ x ∈ fixedNames, evalNodes I s.nodes env x = env x := by
    intro x hx
    exact hother _ fun b hb => fixed_not_key (by decide) hx hb.symm
  have ha : Agree (evalNodes I s.nodes env) env :=
    ⟨hs _ (by decide) (by decide), hs _ (by decide) (by decide), hs _ (by decide) (by decide), hs _ (by decide) (by decide),
     hs _ (by decide) (by decide), hs _ (by decide) (by decide), hf _ (by decide), hf _ (by decide), hf _ (by decide), hf _ (by decide)⟩
  simp only [evalGraph, List.map_cons, List.map_nil]
  rw [build_sem hc hsol, agree_logits ha]

end OnnxTool.Builder
