import Verif.Spec.Checkpoint
import Verif.Proofs.BuilderState
/-!
# Loading a checkpoint: lemmas
-/
namespace OnnxTool.Checkpoint
open OnnxTool OnnxTool.Builder

/-! ### First readers -/

theorem has_iff {α : Type} (d : Dict α) (x : String) : d.has x = (d.get? x).isSome := rfl

theorem noteInputs_get (op : String) (xs : List String) : ∀ (d : Dict String) (x : String),
    (noteInputs op xs d).get? x = (d.get? x).or (if x ∈ xs then some op else none) := by
  induction xs with
  | nil => intro d x; simp [noteInputs]
  | cons a xs ih =>
    intro d x
    simp only [noteInputs]
    rw [ih]
    by_cases ha : d.has a = true
    · rw [if_pos ha]
      by_cases hx : x = a
      · subst hx
        rw [has_iff] at ha
        obtain ⟨v, hv⟩ := Option.isSome_iff_exists.1 ha
        simp [hv]
      · simp [hx]
    · rw [if_neg ha, Dict.get?_set]
      by_cases hx : x = a
      · subst hx
        rw [has_iff] at ha
        have : d.get? x = none := by simpa using ha
        simp [this]
      · rw [if_neg fun e => hx e.symm]
        simp [hx]

theorem consumerOp_get (nodes : List (String × List String)) (x : String) :
    (consumerOp nodes).get? x = (nodes.find? fun n => decide (x ∈ n.2)).map (·.1) := by
  have : ∀ (d : Dict String), (nodes.foldl (fun d n => noteInputs n.1 n.2 d) d).get? x =
      (d.get? x).or ((nodes.find? fun n => decide (x ∈ n.2)).map (·.1)) := by
    induction nodes with
    | nil => intro d; simp
    | cons n nodes ih =>
      intro d
      rw [List.foldl_cons, ih, noteInputs_get, List.find?_cons]
      by_cases h : x ∈ n.2 <;> simp [h]
  exact (this []).trans (by simp)

theorem find_first (g : Loaded) (x op : String) : (consumerOp g.nodes).get? x = some op ↔ FirstReader g x op := by
  rw [consumerOp_get]
  constructor
  · intro h
    rw [Option.map_eq_some_iff] at h
    obtain ⟨n, h1, rfl⟩ := h
    rw [List.find?_eq_some_iff_append] at h1
    obtain ⟨h2, as, bs, h3, h4⟩ := h1
    exact ⟨as, n.2, bs, h3, by simpa using h2, fun m hm => by simpa using h4 m hm⟩
  · rintro ⟨as, ins, bs, h1, h2, h3⟩
    rw [Option.map_eq_some_iff]
    refine ⟨(op, ins), ?_, rfl⟩
    rw [List.find?_eq_some_iff_append]
    exact ⟨by simpa using h2, as, bs, h1, fun m hm => by simpa using h3 m hm⟩

theorem find_unread (g : Loaded) (x : String) : (consumerOp g.nodes).get? x = none ↔ Unread g x := by
  rw [consumerOp_get]
  simp [Unread]

/-! ### The loop over the tensors -/

theorem transposeShape_eq (sh : List Nat) (op : String) : transposeShape sh op = if op = "MatMul" then swapped sh else sh := by
  unfold transposeShape swapped
  split <;> split <;> simp_all

theorem source_iff (ck : Dict (List Nat)) (map : Dict String) (x : String) (sh : List Nat) :
    ck.get? (sourceName ck map x) = some sh ↔ EntryOf ck map x sh := by
  unfold sourceName EntryOf
  rw [has_iff]
  cases h : ck.get? x with
  | some v => simp [h]
  | none =>
    cases hm : map.get? x with
    | none => simp [h]
    | some y => simp

/-- what happens to tensor `x`, if anything -/
def change (g : Loaded) (ck : Dict (List Nat)) (map : Dict String) (x : String) : Option (List Nat) :=
  if (g.tensors.get? x).getD [] ≠ [] ∨ x ∈ g.fed ∨ x ∈ g.outputs then none
  else (ck.get? (sourceName ck map x)).map fun sh => transposeShape sh (((consumerOp g.nodes).get? x).getD "")

theorem fold_update (g : Loaded) (ck : Dict (List Nat)) (map : Dict String) (xs : List String) :
    ∀ (acc : Dict (List Nat) × List String), xs.Nodup → (∀ x ∈ xs, acc.1.get? x = g.tensors.get? x) →
    (∀ y, (xs.foldl (updateOne g (consumerOp g.nodes) ck map) acc).1.get? y =
      if y ∈ xs then (change g ck map y).or (acc.1.get? y) else acc.1.get? y) ∧
    ∀ y, y ∈ (xs.foldl (updateOne g (consumerOp g.nodes) ck map) acc).2 ↔ y ∈ acc.2 ∨ (y ∈ xs ∧ (change g ck map y).isSome) := by
  induction xs with
  | nil => intro acc _ _; simp
  | cons x xs ih =>
    intro acc hn ha
    simp only [List.nodup_cons] at hn
    have hx := ha x (List.mem_cons_self)
    have step : (∀ y, (updateOne g (consumerOp g.nodes) ck map acc x).1.get? y = if y = x then (change g ck map x).or (acc.1.get? x) else acc.1.get? y) ∧
        ∀ y, y ∈ (updateOne g (consumerOp g.nodes) ck map acc x).2 ↔ y ∈ acc.2 ∨ (y = x ∧ (change g ck map x).isSome) := by
      unfold updateOne change
      rw [hx]
      by_cases hc : (g.tensors.get? x).getD [] ≠ [] ∨ x ∈ g.fed ∨ x ∈ g.outputs
      · rw [if_pos hc, if_pos hc]
        constructor
        · intro y; by_cases e : y = x
          · subst e; simp [hx]
          · simp [e]
        · intro y; simp
      · rw [if_neg hc, if_neg hc]
        cases hk : ck.get? (sourceName ck map x) with
        | none =>
          constructor
          · intro y; by_cases e : y = x
            · subst e; simp [hx]
            · simp [e]
          · intro y; simp
        | some sh =>
          constructor
          · intro y
            simp only [Option.map_some]
            by_cases e : y = x
            · subst e; simp [Dict.get?_set_self]
            · simp only [if_neg e]
              exact Dict.get?_set_ne _ _ (fun h => e h.symm)
          · intro y; simp
    obtain ⟨s1, s2⟩ := step
    rw [List.foldl_cons]
    obtain ⟨i1, i2⟩ := ih (updateOne g (consumerOp g.nodes) ck map acc x) hn.2 (by
      intro y hy
      rw [s1, if_neg (by rintro rfl; exact hn.1 hy)]
      exact ha y (List.mem_cons_of_mem _ hy))
    constructor
    · intro y
      rw [i1, s1]
      by_cases e : y = x
      · subst e
        simp [hn.1]
      · simp [e]
    · intro y
      rw [i2, s2]
      by_cases e : y = x
      · subst e
        simp [hn.1]
      · simp [e]

theorem update_get (g : Loaded) (ck : Dict (List Nat)) (map : Dict String) (hn : g.tensors.keys.Nodup) (x : String) :
    (update g ck map).1.get? x = if x ∈ g.tensors.keys then (change g ck map x).or (g.tensors.get? x) else none := by
  unfold update
  rw [(fold_update g ck map g.tensors.keys (g.tensors, []) hn (fun _ _ => rfl)).1]
  split
  · rfl
  · rename_i h
    cases hx : g.tensors.get? x with
    | none => rfl
    | some v => exact absurd ((Dict.get?_isSome_iff _ _).1 (by rw [hx]; rfl)) h

theorem update_names (g : Loaded) (ck : Dict (List Nat)) (map : Dict String) (hn : g.tensors.keys.Nodup) (x : String) :
    x ∈ (update g ck map).2 ↔ x ∈ g.tensors.keys ∧ (change g ck map x).isSome := by
  unfold update
  rw [(fold_update g ck map g.tensors.keys (g.tensors, []) hn (fun _ _ => rfl)).2]
  simp

/-! ### The name map -/

/-- the checkpoint name of a weight -/
def target (tied : Bool) (x : String) : String := if tied = true ∧ x = "lm_head.weight" then "model.embed_tokens.weight" else x

theorem set_all (l : List String) (x : String) : ∀ d : Dict String,
    (l.foldl (fun d part => d.set part part) d).get? x = if x ∈ l then some x else d.get? x := by
  induction l with
  | nil => intro d; simp
  | cons a l ih =>
    intro d
    rw [List.foldl_cons, ih, Dict.get?_set]
    by_cases h : x ∈ l
    · simp [h]
    · by_cases e : a = x
      · subst e; simp [h]
      · rw [if_neg e, if_neg h, if_neg]
        simp only [List.mem_cons, not_or]
        exact ⟨fun h' => e h'.symm, h⟩

theorem mapLayer_get (d : Dict String) (i : Nat) (x : String) :
    (mapLayer d i).get? x = if x ∈ layerParts.map (("model.layers." ++ toString i ++ ".") ++ ·) then some x else d.get? x := by
  rw [← set_all, List.foldl_map]
  rfl

theorem mapLayers_get (n : Nat) (d : Dict String) (x : String) :
    ((List.range n).foldl mapLayer d).get? x =
      if ∃ i, i < n ∧ x ∈ layerParts.map (("model.layers." ++ toString i ++ ".") ++ ·) then some x else d.get? x := by
  induction n with
  | zero => simp
  | succ n ih =>
    rw [List.range_succ, List.foldl_append, List.foldl_cons, List.foldl_nil, mapLayer_get, ih]
    by_cases h : x ∈ layerParts.map (("model.layers." ++ toString n ++ ".") ++ ·)
    · rw [if_pos h, if_pos ⟨n, by omega, h⟩]
    · rw [if_neg h]
      by_cases h' : ∃ i, i < n ∧ x ∈ layerParts.map (("model.layers." ++ toString i ++ ".") ++ ·)
      · obtain ⟨i, hi, hx⟩ := h'
        rw [if_pos ⟨i, hi, hx⟩, if_pos ⟨i, by omega, hx⟩]
      · rw [if_neg h', if_neg]
        rintro ⟨i, hi, hx⟩
        by_cases e : i = n
        · subst e; exact h hx
        · exact h' ⟨i, by omega, hx⟩

/-- names with an entry -/
def Mapped (layers : Nat) (x : String) : Prop :=
  x = "model.embed_tokens.weight" ∨ x = "lm_head.weight" ∨ x = "model.norm.weight" ∨
    ∃ i, i < layers ∧ x ∈ layerParts.map (("model.layers." ++ toString i ++ ".") ++ ·)

theorem lm_not_layer (i : Nat) : "lm_head.weight" ∉ layerParts.map (("model.layers." ++ toString i ++ ".") ++ ·) := by
  rw [List.mem_map]
  rintro ⟨a, _, h⟩
  have := congrArg (fun s : String => s.toList.take 1) h
  simp [String.toList_append] at this

theorem qwenMap_get (layers : Nat) (tied : Bool) (x : String) (y : String) :
    (qwenMap layers tied).get? x = some y ↔ Mapped layers x ∧ y = target tied x := by
  unfold qwenMap
  simp only []
  rw [Dict.get?_set, mapLayers_get]
  by_cases h1 : x = "model.norm.weight"
  · subst h1
    simp [Mapped, target, eq_comm]
  · rw [if_neg fun e => h1 e.symm]
    by_cases h2 : ∃ i, i < layers ∧ x ∈ layerParts.map (("model.layers." ++ toString i ++ ".") ++ ·)
    · rw [if_pos h2]
      have : x ≠ "lm_head.weight" := by rintro rfl; obtain ⟨i, _, h⟩ := h2; exact lm_not_layer i h
      simp only [Option.some.injEq, target, this, and_false, if_false]
      constructor
      · rintro rfl; exact ⟨.inr (.inr (.inr h2)), rfl⟩
      · rintro ⟨_, rfl⟩; rfl
    · rw [if_neg h2]
      by_cases h3 : x = "lm_head.weight"
      · subst h3
        cases tied <;> simp [Dict.get?_set, Mapped, target, eq_comm]
      · have e3 : ¬ "lm_head.weight" = x := fun e => h3 e.symm
        have key : (if tied = true then Dict.set (Dict.set ([] : Dict String) "model.embed_tokens.weight" "model.embed_tokens.weight") "lm_head.weight" "model.embed_tokens.weight"
            else Dict.set (Dict.set ([] : Dict String) "model.embed_tokens.weight" "model.embed_tokens.weight") "lm_head.weight" "lm_head.weight").get? x =
            if x = "model.embed_tokens.weight" then some x else none := by
          by_cases h4 : x = "model.embed_tokens.weight"
          · subst h4; cases tied <;> simp [Dict.get?_set]
          · have e4 : ¬ "model.embed_tokens.weight" = x := fun e => h4 e.symm
            cases tied <;> simp [Dict.get?_set, e3, e4, h4]
        rw [key]
        by_cases h4 : x = "model.embed_tokens.weight"
        · subst h4
          simp [Mapped, target, eq_comm]
        · rw [if_neg h4]
          simp only [reduceCtorEq, false_iff]
          rintro ⟨h | h | h | h, _⟩
          exacts [h4 h, h3 h, h1 h, h2 h]

/-! ### The weights of a built decoder -/

/-- weights together with the operator that reads them -/
def tagged (es : List Emit) : List (String × T) := es.flatMap fun e => e.statics.map fun t => (e.op, t)

theorem tagged_bind {α β : Type} (m : W α) (f : α → W β) : tagged (m >>= f).2 = tagged m.2 ++ tagged (f m.1).2 := by
  rw [bind_snd, tagged, List.flatMap_append]; rfl

theorem mem_tagged {es : List Emit} {op : String} {t : T} : (op, t) ∈ tagged es ↔ ∃ e ∈ es, t ∈ e.statics ∧ e.op = op := by
  simp only [tagged, List.mem_flatMap, List.mem_map, Prod.mk.injEq]
  constructor
  · rintro ⟨e, he, u, hu, h1, rfl⟩; exact ⟨e, he, hu, h1⟩
  · rintro ⟨e, he, hu, h1⟩; exact ⟨e, he, t, hu, h1, rfl⟩

theorem embedding_tagged (c : Cfg) (t : T) (n : Nat) (name : String) :
    tagged (addEmbedding c t n name).2 = [("Gather", ⟨name ++ ".weight", [n, c.hidden]⟩)] := rfl

theorem layernorm_tagged {c : Cfg} (h : QwenLike c) (t : T) (name : String) :
    tagged (addLayernorm c t name).2 = [("LayerNormalization", ⟨name ++ ".weight", [c.hidden]⟩)] := by
  simp [addLayernorm, tagged, emit, normWeights, h.normScale, h.normBias]

theorem mm_tagged (c : Cfg) (t : T) (fin fout : Nat) (bias : Bool) (name : String) :
    tagged (addMm c t fin fout bias name).2 = ("MatMul", ⟨name ++ ".weight", [fin, fout]⟩) ::
      (if bias then [("MatMul", ⟨name ++ ".bias", [fout]⟩)] else []) := by
  cases bias <;> rfl

theorem qknorm_tagged (c : Cfg) (t : T) (name : String) :
    tagged (addQkNorm c t name).2 = [("LayerNormalization", ⟨name ++ ".weight", [c.headSize]⟩)] := rfl

theorem qknorms_tagged (c : Cfg) (p : String) (q k : T) : tagged (addQkNorms c p q k).2 =
    if c.qkNorm then [("LayerNormalization", ⟨p ++ "self_attn.q_norm" ++ ".weight", [c.headSize]⟩),
      ("LayerNormalization", ⟨p ++ "self_attn.k_norm" ++ ".weight", [c.headSize]⟩)] else [] := by
  unfold addQkNorms
  split
  · rw [tagged_bind, tagged_bind, qknorm_tagged, qknorm_tagged]; rfl
  · rfl

theorem ropes_tagged (c : Cfg) (p : String) (q k : T) : tagged (addRopes c p q k).2 = [] := by
  unfold addRopes
  split <;> rfl

/-- weights of layer `i` -/
def layerTagged (c : Cfg) (i : Nat) : List (String × T) :=
  let p := layerName WMap.default i
  let q := c.heads * c.headSize
  let kv := c.kvHeads * c.headSize
  [("LayerNormalization", ⟨p ++ "input_layernorm" ++ ".weight", [c.hidden]⟩)] ++
  (("MatMul", ⟨p ++ "self_attn.q_proj" ++ ".weight", [c.hidden, q]⟩) :: (if c.qkvBias then [("MatMul", ⟨p ++ "self_attn.q_proj" ++ ".bias", [q]⟩)] else [])) ++
  (("MatMul", ⟨p ++ "self_attn.k_proj" ++ ".weight", [c.hidden, kv]⟩) :: (if c.qkvBias then [("MatMul", ⟨p ++ "self_attn.k_proj" ++ ".bias", [kv]⟩)] else [])) ++
  (("MatMul", ⟨p ++ "self_attn.v_proj" ++ ".weight", [c.hidden, kv]⟩) :: (if c.qkvBias then [("MatMul", ⟨p ++ "self_attn.v_proj" ++ ".bias", [kv]⟩)] else [])) ++
  (if c.qkNorm then [("LayerNormalization", ⟨p ++ "self_attn.q_norm" ++ ".weight", [c.headSize]⟩),
      ("LayerNormalization", ⟨p ++ "self_attn.k_norm" ++ ".weight", [c.headSize]⟩)] else []) ++
  [("MatMul", ⟨p ++ "self_attn.o_proj" ++ ".weight", [q, c.hidden]⟩),
   ("LayerNormalization", ⟨p ++ "post_attention_layernorm" ++ ".weight", [c.hidden]⟩),
   ("MatMul", ⟨p ++ "mlp.up_proj" ++ ".weight", [c.hidden, c.inter]⟩),
   ("MatMul", ⟨p ++ "mlp.gate_proj" ++ ".weight", [c.hidden, c.inter]⟩),
   ("MatMul", ⟨p ++ "mlp.down_proj" ++ ".weight", [c.inter, c.hidden]⟩)]

theorem layer_tagged {c : Cfg} (h : QwenLike c) (i : Nat) (hi : i < c.layers) (t : T) :
    tagged (addLayer c WMap.default i t).2 = layerTagged c i := by
  have hg : isGdn c i = false := by
    have := h.attention i hi
    unfold linearLayer at this
    unfold isGdn
    simpa using this
  unfold addLayer addMixer addAttention addProjections addQkv addFfn addMlp addOptNorm
  simp only [hg, h.isMla, h.isMoe, h.qkvGated, h.fuseQkv, h.phi3, h.mlpGate, h.postAttnNorm, h.postMlpNorm, Bool.false_eq_true, if_false, if_true]
  simp only [tagged_bind, layernorm_tagged h, mm_tagged, qknorms_tagged, ropes_tagged, h.oBias, h.mlpBias, Bool.false_eq_true, if_false]
  simp only [layerTagged, pure_snd, addMha, addEltop, addGate, addAct, emit, tagged, List.flatMap_cons, List.flatMap_nil, List.map_nil, List.nil_append,
    List.append_nil, List.append_assoc, List.cons_append]
  rfl

theorem layers_tagged {c : Cfg} (h : QwenLike c) (t : T) : ∀ n, n ≤ c.layers →
    tagged (addLayers c WMap.default t n).2 = (List.range n).flatMap (layerTagged c) := by
  intro n
  induction n with
  | zero => intro _; rfl
  | succ n ih =>
    intro hn
    rw [addLayers, tagged_bind, ih (by omega), layer_tagged h n (by omega), List.range_succ, List.flatMap_append]
    simp

theorem build_tagged {c : Cfg} (h : QwenLike c) : tagged (build c WMap.default).2 =
    [("Gather", ⟨"model.embed_tokens.weight", [c.vocab, c.hidden]⟩)] ++ (List.range c.layers).flatMap (layerTagged c) ++
    [("LayerNormalization", ⟨"model.norm.weight", [c.hidden]⟩), ("MatMul", ⟨"lm_head.weight", [c.hidden, c.vocab]⟩)] := by
  unfold build addPos addLmHead
  simp only [h.posEmbedding, h.softcap, Bool.false_eq_true, if_false, tagged_bind, layers_tagged h _ _ (Nat.le_refl _), embedding_tagged,
    layernorm_tagged h, mm_tagged, h.lmHeadBias]
  simp only [pure_snd, tagged, List.flatMap_nil, List.append_nil, List.nil_append, List.cons_append]
  rfl

/-- the stored shape of a weight -/
def Stored (c : Cfg) (tied : Bool) (op : String) (t : T) : Prop :=
  ∃ sh, (target tied t.name, sh) ∈ entries c tied ∧ ((t.name, sh) ∈ entries c tied ∨ (tied = true ∧ t.name = "lm_head.weight")) ∧
    t.shape = transposeShape sh op

theorem layer_name_ne (s : String) : "model.layers." ++ s ≠ "lm_head.weight" := by
  intro h
  have := congrArg (fun s : String => s.toList.take 1) h
  simp [String.toList_append] at this

/-- one weight of layer `i` -/
structure LayerStored (c : Cfg) (i : Nat) (op : String) (t : T) : Prop where
  name : ∃ s, t.name = "model.layers." ++ s
  shape : ∃ sh, (t.name, sh) ∈ layerEntries c i ∧ t.shape = transposeShape sh op

set_option maxHeartbeats 1000000 in
theorem layer_stored (c : Cfg) (i : Nat) : ∀ x ∈ layerTagged c i, LayerStored c i x.1 x.2 := by
  unfold layerTagged
  simp only [layerName, WMap.default, String.append_assoc, String.reduceAppend]
  cases hb : c.qkvBias <;> cases hk : c.qkNorm <;>
    simp only [if_true, if_false, Bool.false_eq_true, List.append_nil, List.nil_append, List.cons_append, List.forall_mem_cons]
  all_goals
    repeat' apply And.intro
    all_goals first | (intro x hx; cases hx) | skip
    all_goals
      refine ⟨⟨_, rfl⟩, ?_⟩
      simp [layerEntries, transposeShape, String.append_assoc, hb, hk]

/-- an entry of layer `i` belongs to a weight -/
structure LayerHas (c : Cfg) (i : Nat) (name : String) : Prop where
  mem : ∃ y ∈ layerTagged c i, y.2.name = name

set_option maxHeartbeats 1000000 in
/-- every entry of layer `i` is a weight -/
theorem layer_complete (c : Cfg) (i : Nat) : ∀ x ∈ layerEntries c i, LayerHas c i x.1 := by
  unfold layerEntries
  simp only [String.append_assoc]
  cases hb : c.qkvBias <;> cases hk : c.qkNorm <;>
    simp only [if_true, if_false, Bool.false_eq_true, List.append_nil, List.nil_append, List.cons_append, List.forall_mem_cons]
  all_goals
    repeat' apply And.intro
    all_goals first | (intro x hx; cases hx) | skip
    all_goals
      constructor
      simp [layerTagged, layerName, WMap.default, String.append_assoc, hb, hk]

theorem target_of_ne {tied : Bool} {x : String} (h : x ≠ "lm_head.weight") : target tied x = x := by simp [target, h]

theorem build_stored {c : Cfg} (h : QwenLike c) (tied : Bool) {op : String} {t : T} (ht : (op, t) ∈ tagged (build c WMap.default).2) : Stored c tied op t := by
  rw [build_tagged h] at ht
  simp only [List.mem_append, List.mem_cons, List.not_mem_nil, or_false, List.mem_flatMap, List.mem_range, Prod.mk.injEq] at ht
  rcases ht with (⟨rfl, rfl⟩ | ⟨i, hi, ht⟩) | ⟨rfl, rfl⟩ | ⟨rfl, rfl⟩
  · refine ⟨[c.vocab, c.hidden], ?_, .inl ?_, by simp [transposeShape]⟩
    · rw [target_of_ne (by simp)]; simp [entries]
    · simp [entries]
  · obtain ⟨⟨s, hs⟩, sh, h1, h2⟩ := layer_stored c i _ ht
    have hm : (t.name, sh) ∈ entries c tied := by
      unfold entries
      exact List.mem_append_right _ (List.mem_flatMap.2 ⟨i, List.mem_range.2 hi, h1⟩)
    refine ⟨sh, ?_, .inl hm, h2⟩
    rw [target_of_ne (by simp only [] at hs; rw [hs]; exact layer_name_ne s)]
    exact hm
  · refine ⟨[c.hidden], ?_, .inl ?_, by simp [transposeShape]⟩
    · rw [target_of_ne (by simp)]; simp [entries]
    · simp [entries]
  · refine ⟨[c.vocab, c.hidden], ?_, ?_, by simp [transposeShape]⟩
    · cases tied <;> simp [target, entries]
    · cases tied
      · left; simp [entries]
      · right; simp

theorem build_complete {c : Cfg} (h : QwenLike c) (tied : Bool) {x : String} {sh : List Nat} (hx : (x, sh) ∈ entries c tied) :
    ∃ op t, (op, t) ∈ tagged (build c WMap.default).2 ∧ t.name = x := by
  rw [build_tagged h]
  unfold entries at hx
  rcases List.mem_append.1 hx with hx | hx
  · rcases List.mem_append.1 hx with hx | hx
    · simp only [List.mem_cons, List.not_mem_nil, or_false, Prod.mk.injEq] at hx
      rcases hx with ⟨rfl, _⟩ | ⟨rfl, _⟩
      · exact ⟨"Gather", ⟨"model.embed_tokens.weight", [c.vocab, c.hidden]⟩, by simp, rfl⟩
      · exact ⟨"LayerNormalization", ⟨"model.norm.weight", [c.hidden]⟩, by simp, rfl⟩
    · cases tied
      · simp only [Bool.false_eq_true, if_false, List.mem_cons, List.not_mem_nil, or_false, Prod.mk.injEq] at hx
        obtain ⟨rfl, _⟩ := hx
        exact ⟨"MatMul", ⟨"lm_head.weight", [c.hidden, c.vocab]⟩, by simp, rfl⟩
      · simp at hx
  · rw [List.mem_flatMap] at hx
    obtain ⟨i, hi, hx⟩ := hx
    obtain ⟨y, hy, hn⟩ := (layer_complete c i _ hx).mem
    exact ⟨y.1, y.2, List.mem_append_left _ (List.mem_append_right _ (List.mem_flatMap.2 ⟨i, hi, hy⟩)), hn⟩

/-! ### A weight is read by one node -/

theorem emit_unique {es : List Emit} (hn : (keys es).Nodup) : ∀ {e e' : Emit}, e ∈ es → e' ∈ es → ∀ x, x ∈ ekeys e → x ∈ ekeys e' → e = e' := by
  induction es with
  | nil => intro e e' he; cases he
  | cons a es ih =>
    rw [keys, List.flatMap_cons, List.nodup_append] at hn
    obtain ⟨_, h2, h3⟩ := hn
    intro e e' he he' x hx hx'
    rcases List.mem_cons.1 he with e1 | h4
    · rcases List.mem_cons.1 he' with e2 | h5
      · rw [e1, e2]
      · exact absurd rfl (h3 x (e1 ▸ hx) x (List.mem_flatMap.2 ⟨e', h5, hx'⟩))
    · rcases List.mem_cons.1 he' with e2 | h5
      · exact absurd rfl (h3 x (e2 ▸ hx') x (List.mem_flatMap.2 ⟨e, h4, hx⟩))
      · exact ih h2 h4 h5 x hx hx'

theorem start_fixed {c : Cfg} {t : T} (h : Start c t) : t.name ∈ fixedNames := by
  rcases h with rfl | ⟨_, rfl⟩ | ⟨_, rfl | rfl | rfl⟩ <;> simp [idsT, positionT, fixedNames]

theorem single_reader {c : Cfg} {w : WMap} (h : CfgOk c w) (hn : NamesOk c w) (hg : GdnOk c) {e e' : Emit} {t : T} (he : e ∈ (build c w).2)
    (ht : t ∈ e.statics) (he' : e' ∈ (build c w).2) (hr : t.name ∈ e'.ins.map (·.name)) : e' = e := by
  have hnod := keys_nodup h hn
  have hperm := (keys_perm (build c w).2).nodup_iff.1 hnod
  obtain ⟨k, hk⟩ := List.getElem?_of_mem he'
  obtain ⟨h1, _⟩ := chain_get _ _ (build_runs w h hg).1 k e' hk
  obtain ⟨x, hx, hxn⟩ := List.mem_map.1 hr
  have hkey : t.name ∈ ekeys e := List.mem_append_left _ (List.mem_map.2 ⟨t, ht, rfl⟩)
  rcases h1 x hx with hs | hs | ⟨j, d, _, hd, rfl⟩
  · exact (emit_unique hnod he he' t.name hkey (List.mem_append_left _ (List.mem_map.2 ⟨x, hs, hxn⟩))).symm
  · exact absurd (hxn ▸ start_fixed hs) (keys_not_fixed h (mem_keys_static he ht))
  · refine absurd rfl ((List.nodup_append.1 hperm).2.2 t.name (List.mem_map.2 ⟨t, List.mem_flatMap.2 ⟨e, he, ht⟩, rfl⟩) t.name ?_)
    exact List.mem_map.2 ⟨d, List.mem_of_getElem? hd, hxn⟩

theorem reads_static {c : Cfg} {w : WMap} (h : CfgOk c w) (hg : GdnOk c) {e : Emit} {t : T} (he : e ∈ (build c w).2) (ht : t ∈ e.statics) :
    t ∈ e.ins := by
  obtain ⟨k, hk⟩ := List.getElem?_of_mem he
  exact (chain_get _ _ (build_runs w h hg).1 k e hk).2.1 t ht

/-! ### Matrix products -/

/-- every matrix product has a weight and possibly a bias of its own -/
def MmOk (es : List Emit) : Prop := ∀ e ∈ es, e.op = "MatMul" →
  ∃ x fin fout bias, e.ins = x :: mmWeights fin fout bias e.name ∧ e.statics = mmWeights fin fout bias e.name

theorem mmok_bind {α β : Type} {m : W α} {f : α → W β} : MmOk (m >>= f).2 ↔ MmOk m.2 ∧ MmOk (f m.1).2 := by
  rw [bind_snd]
  simp only [MmOk, List.mem_append]
  constructor
  · intro h; exact ⟨fun e he => h e (.inl he), fun e he => h e (.inr he)⟩
  · rintro ⟨h1, h2⟩ e (he | he)
    exacts [h1 e he, h2 e he]

theorem mmok_emit {e : Emit} (h : e.op ≠ "MatMul") : MmOk (emit e).2 := by
  intro e' he'
  have : e' = e := by simpa [emit] using he'
  subst this
  intro h'; exact absurd h' h

theorem mmok_pure {α : Type} (a : α) : MmOk (pure a : W α).2 := by intro e he; cases he

theorem mmok_mm (c : Cfg) (t : T) (fin fout : Nat) (bias : Bool) (name : String) : MmOk (addMm c t fin fout bias name).2 := by
  intro e he _
  obtain rfl := List.mem_singleton.1 (show e ∈ [_] from he)
  exact ⟨_, _, _, _, rfl, rfl⟩

theorem mmok_act (t : T) (a name : String) : MmOk (addAct t a name).2 := by
  refine mmok_emit ?_
  simp only []
  unfold actOp
  split <;> simp

theorem mmok_layer {c : Cfg} (h : QwenLike c) (i : Nat) (hi : i < c.layers) (t : T) : MmOk (addLayer c WMap.default i t).2 := by
  have hg : isGdn c i = false := by
    have := h.attention i hi
    unfold linearLayer at this
    unfold isGdn
    simpa using this
  unfold addLayer addMixer addAttention addProjections addQkv addFfn addMlp addOptNorm addQkNorms addRopes addGate
  simp only [hg, h.isMla, h.isMoe, h.qkvGated, h.fuseQkv, h.phi3, h.mlpGate, h.postAttnNorm, h.postMlpNorm, Bool.false_eq_true, if_false, if_true, mmok_bind]
  refine ⟨mmok_emit (by simp), ⟨⟨⟨mmok_mm _ _ _ _ _ _, mmok_mm _ _ _ _ _ _, mmok_mm _ _ _ _ _ _, mmok_pure _⟩, mmok_pure _⟩, ?_, ?_, mmok_emit (by simp), mmok_pure _, mmok_mm _ _ _ _ _ _⟩,
    mmok_pure _, mmok_emit (by simp), mmok_emit (by simp), ⟨mmok_mm _ _ _ _ _ _, mmok_mm _ _ _ _ _ _, mmok_act _ _ _, mmok_emit (by simp), mmok_mm _ _ _ _ _ _⟩, mmok_pure _, mmok_emit (by simp)⟩
  · split
    · simp only [mmok_bind]; exact ⟨mmok_emit (by simp), mmok_emit (by simp), mmok_pure _⟩
    · exact mmok_pure _
  · split
    · simp only [mmok_bind]; exact ⟨mmok_emit (by simp), mmok_emit (by simp), mmok_pure _⟩
    · exact mmok_pure _

theorem mmok_layers {c : Cfg} (h : QwenLike c) (t : T) : ∀ n, n ≤ c.layers → MmOk (addLayers c WMap.default t n).2 := by
  intro n
  induction n with
  | zero => intro _; exact mmok_pure _
  | succ n ih =>
    intro hn
    rw [addLayers, mmok_bind]
    exact ⟨ih (by omega), mmok_layer h n (by omega) _⟩

theorem mmok_build {c : Cfg} (h : QwenLike c) : MmOk (build c WMap.default).2 := by
  unfold build addPos addLmHead
  simp only [h.posEmbedding, h.softcap, Bool.false_eq_true, if_false, mmok_bind]
  exact ⟨mmok_emit (by simp), mmok_pure _, mmok_layers h _ _ (Nat.le_refl _), ⟨mmok_emit (by simp), mmok_mm _ _ _ _ _ _⟩, mmok_pure _⟩

end OnnxTool.Checkpoint
