import Verif.Proofs.Builder
/-!
# The builder: names of what is added
-/
namespace OnnxTool.Builder
open OnnxTool

/-! ### Suffixes -/

/-- the suffixes that turn the name of a part into the name of a tensor -/
def suffixes : List String := [".weight", ".bias", ".start", ".end", ".axis", ".step", ".output"]

/-- names that belong to no part -/
def fixedNames : List String := ["ids", "position", "rope.cos", "rope.sin", "n_past", "kv_cache"]

theorem suffix_apart : ∀ s ∈ suffixes, ∀ s' ∈ suffixes, s.toList <:+ s'.toList → s = s' := by decide

theorem fixed_apart : ∀ x ∈ fixedNames, ∀ s ∈ suffixes, ¬ s.toList <:+ x.toList := by decide

theorem append_suffix_inj {b b' s s' : String} (hs : s ∈ suffixes) (hs' : s' ∈ suffixes) (h : b ++ s = b' ++ s') : b = b' ∧ s = s' := by
  have hl : b.toList ++ s.toList = b'.toList ++ s'.toList := by
    rw [← String.toList_append, ← String.toList_append, h]
  have e : s = s' := by
    rcases List.suffix_or_suffix_of_suffix (List.suffix_append b.toList s.toList) (hl ▸ List.suffix_append b'.toList s'.toList) with h | h
    · exact suffix_apart _ hs _ hs' h
    · exact (suffix_apart _ hs' _ hs h).symm
  subst e
  exact ⟨String.toList_inj.1 (List.append_cancel_right hl), rfl⟩

theorem fixed_not_key {b s x : String} (hs : s ∈ suffixes) (hx : x ∈ fixedNames) : b ++ s ≠ x := by
  intro h
  refine fixed_apart x hx s hs ?_
  rw [← h, String.toList_append]
  exact List.suffix_append _ _

/-- all tensor names of a part -/
def full (b : String) : List String := suffixes.map (b ++ ·)

theorem full_nodup (b : String) : (full b).Nodup := by
  unfold full
  refine List.Nodup.map_on ?_ (by decide)
  intro x hx y hy h
  exact (append_suffix_inj hx hy h).2

theorem full_disjoint {b b' : String} (h : b ≠ b') : List.Disjoint (full b) (full b') := by
  intro x hx hy
  simp only [full, List.mem_map] at hx hy
  obtain ⟨s, hs, rfl⟩ := hx
  obtain ⟨s', hs', e⟩ := hy
  exact h (append_suffix_inj hs' hs e).1.symm

theorem flatMap_full_nodup {bs : List String} (h : bs.Nodup) : (bs.flatMap full).Nodup := by
  rw [List.nodup_flatMap]
  refine ⟨fun x _ => full_nodup x, ?_⟩
  exact h.imp fun hab => full_disjoint hab

/-! ### Keys of what is added -/

/-- tensor names one call adds -/
def ekeys (e : Emit) : List String := e.statics.map (·.name) ++ [e.out.name]

/-- tensor names the calls add -/
def keys (es : List Emit) : List String := es.flatMap ekeys

/-- the calls only add names of the parts `bs`, in that order -/
def Names (bs : List String) (es : List Emit) : Prop := List.Sublist (keys es) (bs.flatMap full)

theorem names_nil (bs : List String) : Names bs [] := List.nil_sublist _

theorem names_append {bs cs : List String} {es fs : List Emit} (h : Names bs es) (k : Names cs fs) : Names (bs ++ cs) (es ++ fs) := by
  simp only [Names, keys, List.flatMap_append] at *
  exact h.append k

theorem flatMap_sublist {bs cs : List String} (f : String → List String) (k : List.Sublist bs cs) :
    List.Sublist (bs.flatMap f) (cs.flatMap f) := by
  induction k with
  | slnil => exact List.Sublist.refl _
  | cons a _ ih => rw [List.flatMap_cons]; exact ih.trans (List.sublist_append_right _ _)
  | cons_cons a _ ih => rw [List.flatMap_cons, List.flatMap_cons]; exact (List.Sublist.refl _).append ih

theorem names_mono {bs cs : List String} {es : List Emit} (h : Names bs es) (k : List.Sublist bs cs) : Names cs es :=
  h.trans (flatMap_sublist full k)

theorem names_bind {α β : Type} {bs cs : List String} {m : W α} {f : α → W β} (h : Names bs m.2) (k : Names cs (f m.1).2) :
    Names (bs ++ cs) (m >>= f).2 := names_append h k

theorem names_one {b : String} {e : Emit} (h : List.Sublist (ekeys e) (full b)) : Names [b] [e] := by
  simpa [Names, keys] using h

theorem embedding_names (c : Cfg) (t : T) (n : Nat) (b : String) : Names [b] (addEmbedding c t n b).2 := by
  refine names_one ?_
  simp [ekeys, full, suffixes]

theorem layernorm_names (c : Cfg) (t : T) (b : String) : Names [b] (addLayernorm c t b).2 := by
  refine names_one ?_
  simp only [ekeys, normWeights]
  cases c.normScale <;> cases c.normBias <;> simp [full, suffixes]

theorem act_names (t : T) (a b : String) : Names [b] (addAct t a b).2 := names_one (by simp [ekeys, full, suffixes])

theorem rope_names (c : Cfg) (t : T) (b : String) : Names [b] (addRope c t b).2 := names_one (by simp [ekeys, full, suffixes])

theorem eltop_names (x y : T) (op b : String) : Names [b] (addEltop x y op b).2 := names_one (by simp [ekeys, full, suffixes])

theorem mm_names (c : Cfg) (t : T) (fin fout : Nat) (bias : Bool) (b : String) : Names [b] (addMm c t fin fout bias b).2 := by
  refine names_one ?_
  simp only [ekeys, mmWeights]
  cases bias <;> simp [full, suffixes]

theorem mha_names (c : Cfg) (q k v : T) (i : Nat) (b : String) : Names [b] (addMha c q k v i b).2 :=
  names_one (by simp [ekeys, full, suffixes])

theorem slice_names (t : T) (o n : Nat) (b : String) : Names [b] (addSlice t o n b).2 :=
  names_one (by simp [ekeys, full, suffixes, sliceConsts])

theorem qknorm_names (c : Cfg) (t : T) (b : String) : Names [b] (addQkNorm c t b).2 := names_one (by simp [ekeys, full, suffixes])

theorem gegelu_names (t : T) (b : String) : Names [b] (addGegelu t b).2 := names_one (by simp [ekeys, full, suffixes])

theorem softcap_names (t : T) (b : String) : Names [b] (addSoftcapping t b).2 := names_one (by simp [ekeys, full, suffixes])

/-- names of weights of several parts read by one node -/
theorem weights_sublist (bs : List String) (b : String) :
    List.Sublist (bs.map (· ++ ".weight") ++ [b ++ ".output"]) ((bs ++ [b]).flatMap full) := by
  rw [List.flatMap_append]
  refine List.Sublist.append ?_ (by simp [full, suffixes])
  induction bs with
  | nil => exact List.nil_sublist _
  | cons x xs ih =>
    rw [List.map_cons, List.flatMap_cons]
    exact List.Sublist.append (l₁ := [x ++ ".weight"]) (by simp [full, suffixes]) ih

/-- parts of the mixture of experts -/
def moeBases (p : String) : List String :=
  [p ++ "moe.router", p ++ "moe.experts.gate", p ++ "moe.experts.up", p ++ "moe.experts.down", p ++ "moe.shared.gate", p ++ "moe.shared.up",
   p ++ "moe.shared.down", p ++ "moe.shared_gate"]

theorem moe_names (c : Cfg) (p : String) (t : T) : Names (moeBases p ++ [p ++ "moe"]) (addMoe c p t).2 := by
  refine List.Sublist.trans ?_ (weights_sublist (moeBases p) (p ++ "moe"))
  simp only [addMoe, emit, keys, List.flatMap_cons, List.flatMap_nil, List.append_nil, ekeys]
  refine List.Sublist.append ?_ (List.Sublist.refl _)
  unfold moeWeights moeBases
  cases c.noSharedExpert <;> cases c.noSharedGate <;> simp

/-- parts of the latent attention -/
def mlaBases (p : String) : List String :=
  [p ++ "wq_a", p ++ "q_norm", p ++ "wq_b", p ++ "wkv", p ++ "kv_norm", p ++ "wo_a", p ++ "wo_b"]

theorem mla_names (c : Cfg) (p : String) (t : T) : Names (mlaBases p ++ [p ++ "mla"]) (addMla c p t).2 := by
  refine List.Sublist.trans ?_ (weights_sublist (mlaBases p) (p ++ "mla"))
  simp [addMla, emit, keys, ekeys, mlaWeights, mlaBases]

theorem mlp_names (c : Cfg) (w : WMap) (p : String) (t : T) :
    Names [p ++ w.gateUp, p ++ w.up, p ++ w.gate, p ++ "mlp.activation", p ++ "mlp.gate_mul", p ++ w.down] (addMlp c w p t).2 := by
  unfold addMlp
  split
  · exact names_mono (names_bind (mm_names ..) (names_bind (gegelu_names ..) (mm_names ..))) (by simp)
  · refine names_mono (cs := [p ++ w.gateUp, p ++ w.up, p ++ w.gate, p ++ "mlp.activation", p ++ "mlp.gate_mul", p ++ w.down])
      (bs := [p ++ w.up] ++ [p ++ w.gate, p ++ "mlp.activation", p ++ "mlp.gate_mul", p ++ w.down]) (names_bind (mm_names ..) ?_) (by simp)
    split
    · exact names_bind (mm_names ..) (names_bind (act_names ..) (names_bind (eltop_names ..) (mm_names ..)))
    · exact names_mono (names_bind (act_names ..) (mm_names ..)) (by simp)

theorem gdn_names (c : Cfg) (w : WMap) (p : String) (t : T) :
    Names [p ++ w.q, p ++ w.k, p ++ w.v, p ++ "self_attn.q_norm", p ++ "self_attn.k_norm", p ++ "gdn"] (addGdn c w p t).2 :=
  names_bind (mm_names ..) (names_bind (mm_names ..) (names_bind (mm_names ..) (names_bind (qknorm_names ..) (names_bind (qknorm_names ..)
    (names_one (by simp [ekeys, full, suffixes]))))))

theorem projections_names (c : Cfg) (w : WMap) (p : String) (t : T) :
    Names [p ++ w.qkv, p ++ w.q, p ++ w.k, p ++ w.v, p ++ "q.slice", p ++ "k.slice", p ++ "v.slice", p ++ "gate.slice"]
      (addProjections c w p t).2 := by
  unfold addProjections
  split
  · refine names_mono (names_bind (cs := []) (names_bind (mm_names ..) (names_bind (mm_names ..) (names_bind (mm_names ..)
      (names_bind (slice_names ..) (names_bind (cs := []) (slice_names ..) (names_nil _)))))) (names_nil _)) ?_
    simp
  · refine names_mono (cs := [p ++ w.qkv, p ++ w.q, p ++ w.k, p ++ w.v, p ++ "q.slice", p ++ "k.slice", p ++ "v.slice", p ++ "gate.slice"])
      (names_bind (cs := []) (bs := [p ++ w.qkv, p ++ w.q, p ++ w.k, p ++ w.v, p ++ "q.slice", p ++ "k.slice", p ++ "v.slice", p ++ "gate.slice"])
        ?_ (names_nil _)) (by simp)
    unfold addQkv
    simp only
    split
    · refine names_mono (names_bind (mm_names ..) (names_bind (slice_names ..) (names_bind (slice_names ..) (names_bind (cs := [])
        (slice_names ..) (names_nil _))))) ?_
      exact .cons_cons _ (.cons _ (.cons _ (.cons _ (.cons_cons _ (.cons_cons _ (.cons_cons _ (.cons _ .slnil)))))))
    · refine names_mono (names_bind (mm_names ..) (names_bind (mm_names ..) (names_bind (cs := []) (mm_names ..) (names_nil _)))) ?_
      simp

theorem qknorms_names (c : Cfg) (p : String) (q k : T) :
    Names [p ++ "self_attn.q_norm", p ++ "self_attn.k_norm"] (addQkNorms c p q k).2 := by
  unfold addQkNorms
  split
  · exact names_bind (qknorm_names ..) (names_bind (cs := []) (qknorm_names ..) (names_nil _))
  · exact names_nil _

theorem ropes_names (c : Cfg) (p : String) (q k : T) : Names [p ++ "rope_q", p ++ "rope_k"] (addRopes c p q k).2 := by
  unfold addRopes
  split
  · exact names_bind (rope_names ..) (names_bind (cs := []) (rope_names ..) (names_nil _))
  · exact names_nil _

theorem gate_names (p : String) (t : T) (g : Option T) : Names [p ++ "attn_gate.act", p ++ "attn.gated"] (addGate p t g).2 := by
  cases g with
  | none => exact names_nil _
  | some g => exact names_bind (act_names ..) (eltop_names ..)

/-- parts of the attention branch -/
def attnBases (w : WMap) (p : String) : List String :=
  [p ++ w.qkv, p ++ w.q, p ++ w.k, p ++ w.v, p ++ "q.slice", p ++ "k.slice", p ++ "v.slice", p ++ "gate.slice",
   p ++ "self_attn.q_norm", p ++ "self_attn.k_norm", p ++ "rope_q", p ++ "rope_k", p ++ "mha", p ++ "attn_gate.act", p ++ "attn.gated", p ++ w.o]

theorem attention_names (c : Cfg) (w : WMap) (i : Nat) (p : String) (t : T) : Names (attnBases w p) (addAttention c w i p t).2 :=
  names_bind (projections_names ..) (names_bind (qknorms_names ..) (names_bind (ropes_names ..) (names_bind (mha_names ..)
    (names_bind (gate_names ..) (mm_names ..)))))

/-- parts of the branch on the kind of layer -/
def mixerBases (w : WMap) (p : String) : List String := attnBases w p ++ ([p ++ "gdn"] ++ (mlaBases p ++ [p ++ "mla"]))

theorem mixer_names (c : Cfg) (w : WMap) (i : Nat) (p : String) (t : T) : Names (mixerBases w p) (addMixer c w i p t).2 := by
  unfold addMixer
  split
  · refine names_mono (gdn_names ..) ?_
    exact .cons _ (.cons_cons _ (.cons_cons _ (.cons_cons _ (.cons _ (.cons _ (.cons _ (.cons _ (.cons_cons _ (.cons_cons _ (.cons _ (.cons _
      (.cons _ (.cons _ (.cons _ (.cons _ (.cons_cons _ (List.nil_sublist _)))))))))))))))))
  · split
    · refine names_mono (mla_names ..) ?_
      exact (List.sublist_append_right _ _).trans (List.sublist_append_right _ _)
    · exact names_mono (attention_names ..) (List.sublist_append_left _ _)

/-- parts of the feed-forward block -/
def ffnBases (w : WMap) (p : String) : List String :=
  [p ++ w.gateUp, p ++ w.up, p ++ w.gate, p ++ "mlp.activation", p ++ "mlp.gate_mul", p ++ w.down] ++ (moeBases p ++ [p ++ "moe"])

theorem ffn_names (c : Cfg) (w : WMap) (p : String) (t : T) : Names (ffnBases w p) (addFfn c w p t).2 := by
  unfold addFfn
  split
  · exact names_mono (moe_names ..) (List.sublist_append_right _ _)
  · exact names_mono (mlp_names ..) (List.sublist_append_left _ _)

theorem optnorm_names (c : Cfg) (on : Bool) (t : T) (b : String) : Names (if on then [b] else []) (addOptNorm c on t b).2 := by
  unfold addOptNorm
  split
  · exact layernorm_names ..
  · exact names_nil _

/-- parts of layer `i` -/
def layerBases (c : Cfg) (w : WMap) (i : Nat) : List String := (localNames c w).map (layerName w i ++ ·)

theorem layer_names (c : Cfg) (w : WMap) (i : Nat) (t : T) : Names (layerBases c w i) (addLayer c w i t).2 := by
  unfold addLayer
  refine names_mono (names_bind (layernorm_names ..) (names_bind (mixer_names ..) (names_bind (optnorm_names ..) (names_bind (eltop_names ..)
    (names_bind (layernorm_names ..) (names_bind (ffn_names ..) (names_bind (optnorm_names ..) (eltop_names ..)))))))) ?_
  unfold layerBases localNames mixerBases attnBases ffnBases moeBases mlaBases
  cases c.postAttnNorm <;> cases c.postMlpNorm <;> simp

theorem layers_names (c : Cfg) (w : WMap) (t : T) : ∀ (n : Nat), Names ((List.range n).flatMap (layerBases c w)) (addLayers c w t n).2 := by
  intro n
  induction n with
  | zero => exact names_nil _
  | succ n ih =>
    rw [List.range_succ, List.flatMap_append]
    refine names_bind ih ?_
    rw [List.flatMap_cons, List.flatMap_nil, List.append_nil]
    exact layer_names ..

/-- parts of the whole model -/
def allBases (c : Cfg) (w : WMap) : List String :=
  [w.embed] ++ ((w.pos.toList ++ ["embedding_pos_add"]) ++ ((List.range c.layers).flatMap (layerBases c w) ++
    ([w.lmNorm, w.lm] ++ ["models.final_logit_softcapping"])))

theorem pos_names (c : Cfg) (w : WMap) (h : CfgOk c w) (t : T) : Names (w.pos.toList ++ ["embedding_pos_add"]) (addPos c w t).2 := by
  unfold addPos
  split
  · rename_i hp
    have := h.pos hp
    cases hw : w.pos with
    | none => rw [hw] at this; cases this
    | some pos => exact names_bind (embedding_names ..) (eltop_names ..)
  · exact names_nil _

theorem build_names (c : Cfg) (w : WMap) (h : CfgOk c w) : Names (allBases c w) (build c w).2 := by
  unfold build allBases
  refine names_bind (embedding_names ..) (names_bind (pos_names c w h _) (names_bind (layers_names ..)
    (names_bind (names_bind (layernorm_names ..) (mm_names ..)) ?_)))
  split
  · exact softcap_names ..
  · exact names_nil _

/-! ### The parts have different names -/

theorem digits_no_dot (i : Nat) : '.' ∉ (toString i).toList := by
  intro h
  have : (toString i) = Nat.repr i := rfl
  rw [this, Nat.toList_repr] at h
  have := Nat.isDigit_of_mem_toDigits (by decide) (by decide) h
  revert this; decide

theorem split_dot {a b x y : List Char} (ha : '.' ∉ a) (hb : '.' ∉ b) (h : a ++ '.' :: x = b ++ '.' :: y) : a = b ∧ x = y := by
  induction a generalizing b with
  | nil =>
    cases b with
    | nil => simpa using h
    | cons d b => simp at h; exact absurd (List.mem_cons.2 (.inl h.1)) hb
  | cons e a ih =>
    cases b with
    | nil => simp at h; exact absurd (by simp [h.1]) ha
    | cons d b =>
      simp only [List.cons_append, List.cons.injEq] at h
      obtain ⟨r, r'⟩ := ih (fun m => ha (List.mem_cons_of_mem _ m)) (fun m => hb (List.mem_cons_of_mem _ m)) h.2
      exact ⟨by rw [h.1, r], r'⟩

theorem layerName_inj {w : WMap} {i j : Nat} {x y : String} (h : layerName w i ++ x = layerName w j ++ y) : i = j ∧ x = y := by
  have hl := congrArg String.toList h
  simp only [layerName, String.toList_append, List.append_assoc, List.append_cancel_left_eq] at hl
  have dot : (".": String).toList = ['.'] := rfl
  rw [dot] at hl
  simp only [List.singleton_append] at hl
  obtain ⟨h1, h2⟩ := split_dot (digits_no_dot i) (digits_no_dot j) hl
  exact ⟨Nat.repr_injective (String.toList_inj.1 h1), String.toList_inj.1 h2⟩

theorem layerBases_nodup {c : Cfg} {w : WMap} (h : NamesOk c w) (n : Nat) : ((List.range n).flatMap (layerBases c w)).Nodup := by
  rw [List.nodup_flatMap]
  refine ⟨fun i _ => h.locals.map fun a b e => (layerName_inj e).2, ?_⟩
  refine List.nodup_range.imp fun {i j} hij => ?_
  intro x hx hy
  simp only [layerBases, List.mem_map] at hx hy
  obtain ⟨a, _, rfl⟩ := hx
  obtain ⟨b, _, e⟩ := hy
  exact hij (layerName_inj e).1.symm

theorem layerBases_prefix {c : Cfg} {w : WMap} {n : Nat} {x : String} (h : x ∈ (List.range n).flatMap (layerBases c w)) :
    w.layerPrefix.toList <+: x.toList := by
  simp only [List.mem_flatMap, layerBases, List.mem_map] at h
  obtain ⟨i, _, a, _, rfl⟩ := h
  simp only [layerName, String.toList_append, List.append_assoc]
  exact List.prefix_append _ _

theorem allBases_nodup {c : Cfg} {w : WMap} (h : NamesOk c w) : (allBases c w).Nodup := by
  have hp : List.Perm (allBases c w) (globalNames w ++ (List.range c.layers).flatMap (layerBases c w)) := by
    unfold allBases globalNames
    simp only [List.append_assoc]
    refine List.Perm.append_left _ (List.Perm.append_left _ ?_)
    exact (List.perm_append_comm).append_left ["embedding_pos_add"]
  rw [hp.nodup_iff, List.nodup_append]
  refine ⟨h.globals, layerBases_nodup h _, ?_⟩
  rintro a ha b hb rfl
  exact h.apart a ha (layerBases_prefix hb)

theorem keys_nodup {c : Cfg} {w : WMap} (h : CfgOk c w) (hn : NamesOk c w) : (keys (build c w).2).Nodup :=
  (build_names c w h).nodup (flatMap_full_nodup (allBases_nodup hn))

theorem keys_not_fixed {c : Cfg} {w : WMap} (h : CfgOk c w) {x : String} (hx : x ∈ keys (build c w).2) : x ∉ fixedNames := by
  have := (build_names c w h).subset hx
  simp only [List.mem_flatMap, full, List.mem_map] at this
  obtain ⟨b, _, s, hs, rfl⟩ := this
  exact fun hf => fixed_not_key hs hf rfl

end OnnxTool.Builder
