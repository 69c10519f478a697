import Verif.Proofs.Checkpoint
import Verif.Props.Builder
import Verif.Props.Preload
/-!
# C109: a checkpoint is loaded completely into the decoder built for it
-/
namespace OnnxTool.Props
open OnnxTool OnnxTool.Builder OnnxTool.Checkpoint OnnxTool.Preload OnnxTool.Torch

/-! ### Any model, any checkpoint -/

/-- **C109, shapes found.**  A tensor of unknown shape that is neither fed nor an output gets the shape of its checkpoint entry, rows and
columns exchanged exactly when its first reader is a matrix product, and is recorded for loading. -/
theorem C109_found (g : Loaded) (ck : Dict (List Nat)) (map : Dict String) (hn : g.tensors.keys.Nodup) (x : String) (sh : List Nat)
    (hw : Wanted g x) (he : EntryOf ck map x sh) : x ∈ (update g ck map).2 ∧
    (∀ op, FirstReader g x op → (update g ck map).1.get? x = some (if op = "MatMul" then swapped sh else sh)) ∧
    (Unread g x → (update g ck map).1.get? x = some sh) := by
  obtain ⟨h1, h2, h3⟩ := hw
  have hk : x ∈ g.tensors.keys := (Dict.get?_isSome_iff _ _).1 (by rw [h1]; rfl)
  have hc : change g ck map x = some (transposeShape sh (((consumerOp g.nodes).get? x).getD "")) := by
    unfold change
    rw [if_neg (by rw [h1]; simp [h2, h3]), (source_iff ck map x sh).2 he]
    rfl
  refine ⟨(update_names g ck map hn x).2 ⟨hk, by rw [hc]; rfl⟩, ?_, ?_⟩
  · intro op ho
    rw [update_get g ck map hn, if_pos hk, hc, (find_first g x op).2 ho, Option.getD_some, transposeShape_eq]
    rfl
  · intro hu
    rw [update_get g ck map hn, if_pos hk, hc, (find_unread g x).2 hu, Option.getD_none, transposeShape_eq, if_neg (by decide)]
    rfl

/-- **C109, nothing else changes.**  A tensor whose shape is already known, that is fed, an output, or has no checkpoint entry keeps what is
known about it and is not recorded. -/
theorem C109_kept (g : Loaded) (ck : Dict (List Nat)) (map : Dict String) (hn : g.tensors.keys.Nodup) (x : String)
    (h : ¬ Wanted g x ∨ ∀ sh, ¬ EntryOf ck map x sh) : x ∉ (update g ck map).2 ∧ (update g ck map).1.get? x = g.tensors.get? x := by
  rw [update_names g ck map hn, update_get g ck map hn]
  by_cases hk : x ∈ g.tensors.keys
  · have hc : change g ck map x = none := by
      unfold change
      split
      · rfl
      · rename_i hh
        simp only [not_or, Decidable.not_not] at hh
        rcases h with h | h
        · exfalso
          apply h
          obtain ⟨v, hv⟩ := Option.isSome_iff_exists.1 ((Dict.get?_isSome_iff _ _).2 hk)
          refine ⟨?_, hh.2.1, hh.2.2⟩
          rw [hv] at hh ⊢
          exact congrArg some hh.1
        · cases hs : ck.get? (sourceName ck map x) with
          | none => rfl
          | some sh => exact absurd ((source_iff ck map x sh).1 hs) (h sh)
    rw [hc]
    simp [hk]
  · refine ⟨fun h => hk h.1, ?_⟩
    rw [if_neg hk]
    cases hv : g.tensors.get? x with
    | none => rfl
    | some v => exact absurd ((Dict.get?_isSome_iff _ _).1 (by rw [hv]; rfl)) hk

/-! ### The name map -/

private theorem layerEntries_mapped (c : Cfg) (i : Nat) : ∀ e ∈ layerEntries c i, e.1 ∈ layerParts.map (("model.layers." ++ toString i ++ ".") ++ ·) := by
  have key : ∀ s, s ∈ layerParts → "model.layers." ++ toString i ++ "." ++ s ∈ layerParts.map (("model.layers." ++ toString i ++ ".") ++ ·) :=
    fun s hs => List.mem_map.2 ⟨s, hs, rfl⟩
  unfold layerEntries
  intro e he
  simp only [] at he
  rcases List.mem_append.1 he with he | he
  · rcases List.mem_append.1 he with he | he
    · simp only [List.mem_cons, List.not_mem_nil, or_false] at he
      rcases he with rfl | rfl | rfl | rfl | rfl | rfl | rfl | rfl | rfl <;> exact key _ (by decide)
    · split at he
      · simp only [List.mem_cons, List.not_mem_nil, or_false] at he
        rcases he with rfl | rfl | rfl <;> exact key _ (by decide)
      · cases he
  · split at he
    · simp only [List.mem_cons, List.not_mem_nil, or_false] at he
      rcases he with rfl | rfl <;> exact key _ (by decide)
    · cases he

/-- **C109, the map is complete**: every stored name is mapped to itself, the head to the embedding when they are tied, and no weight is
mapped to anything but itself otherwise. -/
theorem C109_map (c : Cfg) (tied : Bool) :
    (∀ e ∈ entries c tied, (qwenMap c.layers tied).get? e.1 = some e.1) ∧
    (qwenMap c.layers tied).get? "lm_head.weight" = some (if tied then "model.embed_tokens.weight" else "lm_head.weight") ∧
    ∀ x y, (qwenMap c.layers tied).get? x = some y → y = x ∨ (tied = true ∧ x = "lm_head.weight" ∧ y = "model.embed_tokens.weight") := by
  refine ⟨?_, ?_, ?_⟩
  · intro e he
    rw [qwenMap_get]
    unfold entries at he
    rcases List.mem_append.1 he with he | he
    · rcases List.mem_append.1 he with he | he
      · simp only [List.mem_cons, List.not_mem_nil, or_false] at he
        rcases he with rfl | rfl
        · exact ⟨.inl rfl, by simp [target]⟩
        · exact ⟨.inr (.inr (.inl rfl)), by simp [target]⟩
      · cases tied
        · simp only [Bool.false_eq_true, if_false, List.mem_cons, List.not_mem_nil, or_false] at he
          subst he
          exact ⟨.inr (.inl rfl), by simp [target]⟩
        · simp at he
    · obtain ⟨i, hi, he⟩ := List.mem_flatMap.1 he
      have hm := layerEntries_mapped c i e he
      refine ⟨.inr (.inr (.inr ⟨i, List.mem_range.1 hi, hm⟩)), ?_⟩
      rw [target_of_ne]
      rintro h
      exact lm_not_layer i (h ▸ hm)
  · rw [qwenMap_get]
    exact ⟨.inr (.inl rfl), by cases tied <;> rfl⟩
  · intro x y h
    obtain ⟨_, rfl⟩ := (qwenMap_get _ _ _ _).1 h
    unfold target
    split
    · rename_i h; exact .inr ⟨h.1, h.2, rfl⟩
    · exact .inl rfl

/-! ### The decoder built for the configuration -/

section
variable {c : Cfg} {tied : Bool} {s : St} {g : Loaded} {ck : Dict (List Nat)}

private theorem noGdn (hq : QwenLike c) : GdnOk c := by
  rintro ⟨i, hi, h⟩; exact absurd h (hq.attention i (List.mem_range.1 hi))

/-- what is known about a built decoder -/
private structure Known (c : Cfg) (s : St) : Prop where
  nodes : s.nodes = (build c WMap.default).2.map enode
  initial : ∀ x, x ∈ s.initials → x ≠ "rope.cos" → x ≠ "rope.sin" →
    ∃ e ∈ (build c WMap.default).2, ∃ t ∈ e.statics, t.name = x ∧ s.shape x = t.shape
  weight : ∀ e ∈ (build c WMap.default).2, ∀ t ∈ e.statics, t.name ∈ s.initials ∧ t.name ≠ "rope.cos" ∧ t.name ≠ "rope.sin"
  notInput : ∀ e ∈ (build c WMap.default).2, ∀ t ∈ e.statics, t.name ∉ s.input ∧ t.name ∉ s.output

private theorem known (hq : QwenLike c) (hc : CfgOk c WMap.default) (hs : buildGraph c WMap.default = .ok s) : Known c s := by
  have hn := C55_default_map_ok c hq.postAttnNorm
  obtain ⟨s', hs', hi⟩ := build_ok hc hn (noGdn hq)
  rw [hs'] at hs
  injection hs with hs
  subst hs
  have hfix : ∀ e ∈ (build c WMap.default).2, ∀ t ∈ e.statics, t.name ∉ fixedNames := fun e he t ht => keys_not_fixed hc (mem_keys_static he ht)
  refine ⟨hi.nodes, ?_, ?_, ?_⟩
  · intro x hx h1 h2
    obtain ⟨ts, e1, e2⟩ := hi.inits
    have hx' : x ∈ ts.map (·.name) := e1 ▸ hx
    obtain ⟨t, ht, rfl⟩ := List.mem_map.1 hx'
    rcases List.mem_append.1 (e2.mem_iff.1 ht) with h | h
    · split at h
      · simp only [tables, List.mem_cons, List.not_mem_nil, or_false] at h
        rcases h with rfl | rfl
        exacts [absurd rfl h1, absurd rfl h2]
      · cases h
    · obtain ⟨e, he, hte⟩ := List.mem_flatMap.1 h
      refine ⟨e, he, t, hte, rfl, ?_⟩
      have := hi.statics e he t hte
      simp [St.shape, this]
  · intro e he t ht
    refine ⟨?_, fun h => hfix e he t ht (h ▸ by decide), fun h => hfix e he t ht (h ▸ by decide)⟩
    obtain ⟨ts, e1, e2⟩ := hi.inits
    show t.name ∈ s'.initials
    rw [e1]
    exact List.mem_map.2 ⟨t, e2.mem_iff.2 (List.mem_append_right _ (List.mem_flatMap.2 ⟨e, he, ht⟩)), rfl⟩
  · intro e he t ht
    constructor
    · show t.name ∉ s'.input
      rw [hi.input]
      intro h
      apply hfix e he t ht
      rcases List.mem_append.1 h with h | h
      · unfold baseInputs at h
        split at h <;> simp only [List.mem_cons, List.not_mem_nil, or_false] at h
        · rcases h with h | h <;> rw [h] <;> decide
        · rw [h]; decide
      · split at h
        · rw [List.mem_singleton] at h; rw [h]; decide
        · cases h
    · show t.name ∉ [(build c WMap.default).1.name]
      intro h
      rw [List.mem_singleton] at h
      obtain ⟨xs, d, h1, h2⟩ := build_last c WMap.default
      have hp := (keys_perm (build c WMap.default).2).nodup_iff.1 (keys_nodup hc hn)
      refine absurd rfl ((List.nodup_append.1 hp).2.2 t.name (List.mem_map.2 ⟨t, List.mem_flatMap.2 ⟨e, he, ht⟩, rfl⟩) t.name ?_)
      refine List.mem_map.2 ⟨d, by rw [h1]; simp, ?_⟩
      rw [h2, h]

/-- the operator that reads a weight, in whatever order the nodes are -/
private theorem reader (hq : QwenLike c) (hc : CfgOk c WMap.default) (hk : Known c s) (hg : FromFile s g) {e : Emit} {t : T}
    (he : e ∈ (build c WMap.default).2) (ht : t ∈ e.statics) : FirstReader g t.name e.op := by
  have hn := C55_default_map_ok c hq.postAttnNorm
  have all : ∀ n ∈ g.nodes, t.name ∈ n.2 → n.1 = e.op := by
    intro n hm hr
    have := hg.nodes.mem_iff.1 hm
    rw [hk.nodes] at this
    simp only [List.map_map, List.mem_map, Function.comp] at this
    obtain ⟨d, hd, rfl⟩ := this
    exact congrArg Emit.op (single_reader hc hn (noGdn hq) he ht hd hr)
  have some : ∃ n ∈ g.nodes, t.name ∈ n.2 := by
    refine ⟨(e.op, e.ins.map (·.name)), hg.nodes.mem_iff.2 ?_, List.mem_map.2 ⟨t, reads_static hc (noGdn hq) he ht, rfl⟩⟩
    rw [hk.nodes]
    simp only [List.map_map]
    exact List.mem_map.2 ⟨e, he, rfl⟩
  cases hf : (consumerOp g.nodes).get? t.name with
  | none =>
    obtain ⟨n, h1, h2⟩ := some
    exact absurd h2 ((find_unread g t.name).1 hf n h1)
  | some op =>
    have h := (find_first g t.name op).1 hf
    obtain ⟨as, ins, bs, h1, h2, h3⟩ := h
    have : op = e.op := all (op, ins) (by rw [h1]; simp) h2
    exact this ▸ ⟨as, ins, bs, h1, h2, h3⟩

private theorem entry_of (hck : IsCheckpoint c tied ck) {op : String} {t : T} (h : Stored c tied op t) :
    ∃ sh, EntryOf ck (qwenMap c.layers tied) t.name sh ∧ t.shape = transposeShape sh op := by
  obtain ⟨sh, h1, h2, h3⟩ := h
  refine ⟨sh, ?_, h3⟩
  rcases h2 with h2 | ⟨ht, hl⟩
  · exact .inl (hck.1 _ h2)
  · right
    refine ⟨?_, target tied t.name, ?_, hck.1 _ h1⟩
    · cases hx : ck.get? t.name with
      | none => rfl
      | some v =>
        have := hck.2 _ _ hx
        rw [hl, ht] at this
        unfold entries at this
        simp only [if_true, List.append_nil, List.mem_append, List.mem_cons, List.not_mem_nil, or_false, Prod.mk.injEq, List.mem_flatMap] at this
        rcases this with (⟨h, _⟩ | ⟨h, _⟩) | ⟨i, _, h⟩
        · simp at h
        · simp at h
        · exact absurd (layerEntries_mapped c i _ h) (lm_not_layer i)
    · rw [qwenMap_get]
      exact ⟨.inr (.inl hl), rfl⟩

/-- **C109.**  Reading the checkpoint of its configuration into the decoder built for it (Qwen family, with or without tied embeddings,
projection biases and query/key norms) gives every weight the shape it was built with and records it for loading; nothing else changes. -/
theorem C109_decoder (hq : QwenLike c) (hc : CfgOk c WMap.default) (hs : buildGraph c WMap.default = .ok s) (hg : FromFile s g)
    (hck : IsCheckpoint c tied ck) :
    (∀ x ∈ s.initials, x ≠ "rope.cos" → x ≠ "rope.sin" →
      (update g ck (qwenMap c.layers tied)).1.get? x = some (s.shape x) ∧ x ∈ (update g ck (qwenMap c.layers tied)).2) ∧
    ∀ x, x ∉ s.initials ∨ x = "rope.cos" ∨ x = "rope.sin" →
      (update g ck (qwenMap c.layers tied)).1.get? x = g.tensors.get? x ∧ x ∉ (update g ck (qwenMap c.layers tied)).2 := by
  have hk := known hq hc hs
  constructor
  · intro x hx h1 h2
    obtain ⟨e, he, t, ht, rfl, hsh⟩ := hk.initial x hx h1 h2
    have hst := build_stored hq tied (mem_tagged.2 ⟨e, he, ht, rfl⟩)
    obtain ⟨sh, hent, hshape⟩ := entry_of hck hst
    obtain ⟨hi, ho⟩ := hk.notInput e he t ht
    have hw : Wanted g t.name := ⟨hg.weights _ hx h1 h2, fun h => hi ((hg.fed _).1 h), by rw [hg.outputs]; exact ho⟩
    obtain ⟨f1, f2, _⟩ := C109_found g ck (qwenMap c.layers tied) hg.names t.name sh hw hent
    refine ⟨?_, f1⟩
    rw [f2 _ (reader hq hc hk hg he ht), hsh, hshape, transposeShape_eq]
  · intro x hx
    have hno : ∀ sh, ¬ EntryOf ck (qwenMap c.layers tied) x sh := by
      intro sh hent
      have hin : ∃ op t, (op, t) ∈ tagged (build c WMap.default).2 ∧ t.name = x := by
        rcases hent with h | ⟨_, y, h1, h2⟩
        · exact build_complete hq tied (hck.2 _ _ h)
        · rcases (C109_map c tied).2.2 x y h1 with rfl | ⟨_, rfl, _⟩
          · exact build_complete hq tied (hck.2 _ _ h2)
          · rw [build_tagged hq]
            exact ⟨"MatMul", ⟨"lm_head.weight", [c.hidden, c.vocab]⟩, by simp, rfl⟩
      obtain ⟨op, t, ht, rfl⟩ := hin
      obtain ⟨e, he, hte, _⟩ := mem_tagged.1 ht
      obtain ⟨h1, h2, h3⟩ := hk.weight e he t hte
      rcases hx with h | h | h
      exacts [h h1, h2 h, h3 h]
    have := C109_kept g ck (qwenMap c.layers tied) hg.names x (.inr hno)
    exact ⟨this.2, this.1⟩

/-! ### The values -/

/-- the shapes in a checkpoint -/
def shapesOf {F : Type} (ck : Dict (Tensor F)) : Dict (List Nat) := ck.map fun e => (e.1, e.2.shape)

private theorem shapesOf_get {F : Type} (ck : Dict (Tensor F)) (x : String) : (shapesOf ck).get? x = (ck.get? x).map (·.shape) := by
  induction ck with
  | nil => rfl
  | cons a ck ih =>
    have ih' : Dict.get? (shapesOf ck) x = Option.map (fun t => t.shape) (Dict.get? ck x) := ih
    simp only [shapesOf, List.map_cons, Dict.get?]
    split
    · rfl
    · exact ih'

variable {F : Type} [CommRing F] {tck : Dict (Tensor F)} {u : Setup F}

/-- The engine for this model: the nodes of the decoder in some order, the checkpoint, the name map and the names recorded above. -/
structure EngineFor (c : Cfg) (tied : Bool) (s : St) (g : Loaded) (tck : Dict (Tensor F)) (u : Setup F) : Prop where
  nodes : u.nodes.Perm (s.nodes.map fun n => ⟨n.2.op, false, n.2.input⟩)
  checkpoint : u.checkpoint = some tck
  map : u.weightMap = qwenMap c.layers tied
  updated : u.updated = (update g (shapesOf tck) (qwenMap c.layers tied)).2

/-- the checkpoint tensor a weight stands for -/
def TensorOf (tck : Dict (Tensor F)) (map : Dict String) (x : String) (W : Tensor F) : Prop :=
  tck.get? x = some W ∨ (tck.get? x = none ∧ ∃ y, map.get? x = some y ∧ tck.get? y = some W)

omit [CommRing F] in
private theorem tensor_of {map : Dict String} {x : String} {sh : List Nat} (h : EntryOf (shapesOf tck) map x sh) :
    ∃ W, TensorOf tck map x W ∧ W.shape = sh := by
  rcases h with h | ⟨h1, y, h2, h3⟩
  · rw [shapesOf_get] at h
    obtain ⟨W, h1, h2⟩ := Option.map_eq_some_iff.1 h
    exact ⟨W, .inl h1, h2⟩
  · rw [shapesOf_get] at h1 h3
    obtain ⟨W, h4, h5⟩ := Option.map_eq_some_iff.1 h3
    exact ⟨W, .inr ⟨by simpa using h1, y, h2, h4⟩, h5⟩

omit [CommRing F] in
private theorem consumer_op (hq : QwenLike c) (hc : CfgOk c WMap.default) (hk : Known c s) (hu : EngineFor c tied s g tck u) {e : Emit} {t : T}
    (he : e ∈ (build c WMap.default).2) (ht : t ∈ e.statics) : ∃ n, u.consumer t.name = some n ∧ n.op = e.op ∧ n.transB = false := by
  have hn := C55_default_map_ok c hq.postAttnNorm
  have mem : ∀ n, n ∈ u.nodes ↔ ∃ d ∈ (build c WMap.default).2, (⟨d.op, false, d.ins.map (·.name)⟩ : Preload.Node) = n := by
    intro n
    rw [hu.nodes.mem_iff, hk.nodes]
    simp only [List.map_map, List.mem_map, Function.comp]
    rfl
  cases hf : u.consumer t.name with
  | none =>
    unfold Setup.consumer at hf
    rw [List.find?_eq_none] at hf
    have := hf _ ((mem _).2 ⟨e, he, rfl⟩)
    simp only [List.contains_iff_mem] at this
    exact absurd (List.mem_map.2 ⟨t, reads_static hc (noGdn hq) he ht, rfl⟩) this
  | some n =>
    unfold Setup.consumer at hf
    have h1 := List.find?_some hf
    obtain ⟨d, hd, rfl⟩ := (mem n).1 (List.mem_of_find?_eq_some hf)
    simp only [List.contains_iff_mem] at h1
    exact ⟨_, rfl, congrArg Emit.op (single_reader hc hn (noGdn hq) he ht hd h1), rfl⟩

omit [CommRing F] in
private theorem source_of {x : String} {W : Tensor F} (hu : EngineFor c tied s g tck u) (h : TensorOf tck (qwenMap c.layers tied) x W) : u.source x = some W := by
  unfold Setup.source
  rw [hu.checkpoint, hu.map]
  rcases h with h | ⟨h1, y, h2, h3⟩
  · simp [h]
  · simp [h1, h2, h3]

omit [CommRing F] in
private theorem weight_facts (hq : QwenLike c) (hc : CfgOk c WMap.default) (hs : buildGraph c WMap.default = .ok s) (hg : FromFile s g)
    (hck : IsCheckpoint c tied (shapesOf tck)) (hu : EngineFor c tied s g tck u) {e : Emit} {t : T} (he : e ∈ (build c WMap.default).2)
    (ht : t ∈ e.statics) : ∃ W, TensorOf tck (qwenMap c.layers tied) t.name W ∧ t.shape = transposeShape W.shape e.op ∧ Loadable u t.name := by
  have hk := known hq hc hs
  obtain ⟨sh, h1, h2⟩ := entry_of hck (build_stored hq tied (mem_tagged.2 ⟨e, he, ht, rfl⟩))
  obtain ⟨W, h3, h4⟩ := tensor_of h1
  obtain ⟨w1, w2, w3⟩ := hk.weight e he t ht
  refine ⟨W, h3, by rw [h4]; exact h2, .inr (.inl ?_)⟩
  rw [hu.updated]
  exact ((C109_decoder hq hc hs hg hck).1 _ w1 w2 w3).2

/-- **C109, projections.**  Every matrix product of the decoder then computes the linear layer of the checkpoint: `x · Wᵀ + b` with the
stored weight (for a tied head: the embedding) and, if it has one, the stored bias. -/
theorem C109_linear (hq : QwenLike c) (hc : CfgOk c WMap.default) (hs : buildGraph c WMap.default = .ok s) (hg : FromFile s g)
    (hck : IsCheckpoint c tied (shapesOf tck)) (hu : EngineFor c tied s g tck u) (name : String) (n : BNode) (hn : (name, n) ∈ s.nodes)
    (hop : n.op = "MatMul") :
    ∃ x w rest W k m, n.input = x :: w :: rest ∧ TensorOf tck (qwenMap c.layers tied) w W ∧ W.shape = [m, k] ∧ s.shape w = [k, m] ∧
    ∃ B : Option (Tensor F), (rest = [] ∧ B = none ∨ ∃ b t, rest = [b] ∧ B = some t ∧ TensorOf tck (qwenMap c.layers tied) b t ∧ u.constant b = some t) ∧
    ∃ C, u.constant w = some C ∧ ∀ lead (X : Tensor F), X.shape = lead ++ [k] → ∃ y, matmulKernel X C B = .ok y ∧ IsLinear lead k m X W B y := by
  have hk := known hq hc hs
  rw [hk.nodes] at hn
  obtain ⟨e, he, hen⟩ := List.mem_map.1 hn
  obtain ⟨rfl, rfl⟩ := Prod.mk.inj hen
  simp only [] at hop
  obtain ⟨x, fin, fout, bias, hins, hst⟩ := mmok_build hq e he hop
  have hmem : ∀ t ∈ mmWeights fin fout bias e.name, t ∈ e.statics := fun t h => hst ▸ h
  have hw := hmem ⟨e.name ++ ".weight", [fin, fout]⟩ (by simp [mmWeights])
  obtain ⟨W, hW, hsh, hl⟩ := weight_facts hq hc hs hg hck hu he hw
  rw [hop, transposeShape_eq, if_pos rfl] at hsh
  have hWs : W.shape = [fout, fin] := by
    revert hsh
    cases h : W.shape with
    | nil => intro h'; cases h'
    | cons a l =>
      rcases l with _ | ⟨b, _ | ⟨d, l⟩⟩ <;> simp only [swapped] <;> intro h'
      · simp at h'
      · simp only [List.cons.injEq, and_true] at h'; rw [h'.1, h'.2]
      · simp at h'
  obtain ⟨m, hm, hmop, _⟩ := consumer_op hq hc hk hu he hw
  have hshape : s.shape (e.name ++ ".weight") = [fin, fout] := by
    obtain ⟨w1, w2, w3⟩ := hk.weight e he _ hw
    obtain ⟨d, hd, t, ht, htn, hts⟩ := hk.initial _ w1 w2 w3
    have hnn := C55_default_map_ok c hq.postAttnNorm
    have : d = e := (emit_unique (keys_nodup hc hnn) he hd _ (List.mem_append_left _ (List.mem_map.2 ⟨_, hw, rfl⟩))
      (List.mem_append_left _ (List.mem_map.2 ⟨t, ht, htn⟩))).symm
    subst this
    rw [hts]
    rw [hst] at ht
    simp only [mmWeights, List.mem_cons] at ht
    rcases ht with rfl | ht
    · rfl
    · split at ht
      · rw [List.mem_singleton] at ht
        subst ht
        exact absurd (append_suffix_inj (by decide) (by decide) htn).2 (by decide)
      · cases ht
  have inputs : (enode e).2.input = e.ins.map (·.name) := rfl
  have main : ∀ B : Option (Tensor F), (∀ b', B = some b' → b'.shape = [fout]) →
      ∃ C, u.constant (e.name ++ ".weight") = some C ∧ ∀ lead (X : Tensor F), X.shape = lead ++ [fin] →
        ∃ y, matmulKernel X C B = .ok y ∧ IsLinear lead fin fout X W B y := by
    intro B hB
    have key : ∀ lead (X : Tensor F), X.shape = lead ++ [fin] → ∃ C, u.constant (e.name ++ ".weight") = some C ∧
        ∃ y, matmulKernel X C B = .ok y ∧ IsLinear lead fin fout X W B y := fun lead X hX =>
      C60_checkpoint_linear_partial u _ W lead fin fout X B tck hu.checkpoint (by rw [hu.map]; exact hW) hl hWs ⟨m, hm, by rw [hmop]; exact hop⟩ hX hB
    obtain ⟨C, hC, _⟩ := key [] ⟨[fin], fun _ => 0⟩ rfl
    refine ⟨C, hC, fun lead X hX => ?_⟩
    obtain ⟨C', hC', hy⟩ := key lead X hX
    rw [hC] at hC'
    injection hC' with hC'
    exact hC' ▸ hy
  cases bias with
  | false =>
    refine ⟨x.name, e.name ++ ".weight", [], W, fin, fout, by simp [hins, mmWeights], hW, hWs, hshape, none, .inl ⟨rfl, rfl⟩, main none (by simp)⟩
  | true =>
    have hb := hmem ⟨e.name ++ ".bias", [fout]⟩ (by simp [mmWeights])
    obtain ⟨B, hB, hbs, hbl⟩ := weight_facts hq hc hs hg hck hu he hb
    rw [hop, transposeShape_eq, if_pos rfl] at hbs
    have hBs : B.shape = [fout] := by
      revert hbs
      cases h : B.shape with
      | nil => intro h'; cases h'
      | cons a l =>
        rcases l with _ | ⟨b, _ | ⟨d, l⟩⟩ <;> simp only [swapped] <;> intro h'
        · exact h'.symm
        · simp at h'
        · simp at h'
    obtain ⟨m', hm', hmop', htb⟩ := consumer_op hq hc hk hu he hb
    have hconst : u.constant (e.name ++ ".bias") = some B := by
      unfold Setup.constant
      rw [if_pos (loadable hbl), source_of hu hB, hm']
      simp [Preload.transposed, hBs, preprocess, htb]
    refine ⟨x.name, e.name ++ ".weight", [e.name ++ ".bias"], W, fin, fout, by simp [hins, mmWeights], hW, hWs, hshape, some B,
      .inr ⟨_, B, rfl, rfl, hB, hconst⟩, main (some B) (by simpa using hBs)⟩

/-- **C109, the other weights** — the embedding and the scales of the norms — reach the kernels exactly as stored. -/
theorem C109_as_stored (hq : QwenLike c) (hc : CfgOk c WMap.default) (hs : buildGraph c WMap.default = .ok s) (hg : FromFile s g)
    (hck : IsCheckpoint c tied (shapesOf tck)) (hu : EngineFor c tied s g tck u) (name : String) (n : BNode) (hn : (name, n) ∈ s.nodes)
    (hop : n.op ≠ "MatMul") (w : String) (hw : w ∈ n.input) (hi : w ∈ s.initials) (h1 : w ≠ "rope.cos") (h2 : w ≠ "rope.sin") :
    ∃ W, TensorOf tck (qwenMap c.layers tied) w W ∧ W.shape = s.shape w ∧ u.constant w = some W := by
  have hk := known hq hc hs
  rw [hk.nodes] at hn
  obtain ⟨d, hd, hen⟩ := List.mem_map.1 hn
  obtain ⟨rfl, rfl⟩ := Prod.mk.inj hen
  obtain ⟨e, he, t, ht, rfl, hsh⟩ := hk.initial w hi h1 h2
  obtain rfl : d = e := single_reader hc (C55_default_map_ok c hq.postAttnNorm) (noGdn hq) he ht hd hw
  obtain ⟨W, hW, hs2, hl⟩ := weight_facts hq hc hs hg hck hu he ht
  obtain ⟨m, hm, hmop, htb⟩ := consumer_op hq hc hk hu he ht
  have hop' : d.op ≠ "MatMul" := hop
  rw [transposeShape_eq, if_neg hop'] at hs2
  refine ⟨W, hW, by rw [hsh, hs2], ?_⟩
  unfold Setup.constant
  rw [if_pos (loadable hl), source_of hu hW, hm]
  simp [Preload.transposed, hmop, hop', preprocess, htb]

end

/-! ### The hypotheses are met -/

/-- Every decoder of the family can be built, and there is a file as described: the theorems above are not about nothing. -/
theorem C109_file_exists (c : Cfg) (hq : QwenLike c) (hc : CfgOk c WMap.default) : ∃ s g, buildGraph c WMap.default = .ok s ∧ FromFile s g := by
  have hn := C55_default_map_ok c hq.postAttnNorm
  obtain ⟨s, hs, hv, _⟩ := C55_built_graph_is_valid c WMap.default hc hn (noGdn hq) (by rw [hq.posEmbedding]; simp)
  refine ⟨s, ⟨s.nodes.map fun n => (n.2.op, n.2.input), s.initials.map fun x => (x, []), s.input, s.output⟩, hs, List.Perm.refl _, ?_, fun x => Iff.rfl, rfl, ?_⟩
  · intro x hx _ _
    have : ∀ l : List String, x ∈ l → Dict.get? (l.map fun x => (x, ([] : List Nat))) x = some [] := by
      intro l
      induction l with
      | nil => intro h; cases h
      | cons a l ih =>
        intro h
        simp only [List.map_cons, Dict.get?]
        split
        · rfl
        · rename_i hne
          exact ih ((List.mem_cons.1 h).resolve_left fun e => hne (by simp [e]))
    exact this _ hx
  · have := hv.distinct
    rw [List.nodup_append, List.nodup_append] at this
    simpa [Dict.keys, Function.comp_def] using this.1.2.1

/-- a small Qwen: two layers, biases, query/key norms, tied embeddings -/
def smallQwen : Cfg :=
  { batch := 1, seq := 2, hidden := 4, heads := 2, kvHeads := 1, headSize := 2, inter := 3, vocab := 5, layers := 2, rotaryDim := 2, qkvBias := true, qkNorm := true }

/-- a configuration and a checkpoint as required -/
theorem C109_example : QwenLike smallQwen ∧ CfgOk smallQwen WMap.default ∧ IsCheckpoint smallQwen true (entries smallQwen true) := by
  refine ⟨⟨rfl, rfl, rfl, rfl, rfl, rfl, rfl, rfl, rfl, rfl, rfl, rfl, rfl, rfl, rfl, by intro i _ h; cases i <;> cases h⟩,
    ⟨by decide, by decide, by decide, by decide, by decide⟩, by decide +kernel, ?_⟩
  intro k sh h
  have : ∀ d : Dict (List Nat), Dict.get? d k = some sh → (k, sh) ∈ d := by
    intro d
    induction d with
    | nil => intro h; cases h
    | cons a d ih =>
      intro h
      simp only [Dict.get?] at h
      split at h
      · rename_i e
        injection h with h
        have e : a.1 = k := by simpa using e
        rw [← e, ← h]
        exact List.mem_cons_self
      · exact List.mem_cons_of_mem _ (ih h)
  exact this _ h

/-! ### Where it fails -/

/-- **Without the name map a tied head is never found**: its shape stays unknown and it is not loaded. -/
theorem C109_tied_needs_map (c : Cfg) (g : Loaded) (ck : Dict (List Nat)) (hn : g.tensors.keys.Nodup) (hck : IsCheckpoint c true ck) :
    "lm_head.weight" ∉ (update g ck []).2 ∧ (update g ck []).1.get? "lm_head.weight" = g.tensors.get? "lm_head.weight" := by
  refine C109_kept g ck [] hn _ (.inr ?_)
  rintro sh (h | ⟨_, y, h, _⟩)
  · have := hck.2 _ _ h
    unfold entries at this
    simp only [if_true, List.append_nil, List.mem_append, List.mem_cons, List.not_mem_nil, or_false, Prod.mk.injEq, List.mem_flatMap] at this
    rcases this with (⟨h, _⟩ | ⟨h, _⟩) | ⟨i, _, h⟩
    · simp at h
    · simp at h
    · exact absurd (layerEntries_mapped c i _ h) (lm_not_layer i)
  · cases h

/-- **Checkpoints that store input × output features (GPT-2's `Conv1D`) are turned the wrong way round**: the layout is never looked at. -/
theorem C109_conv1d_counterexample :
    (update ⟨[("MatMul", ["x", "h.0.attn.c_attn.weight"])], [("h.0.attn.c_attn.weight", [])], ["x"], []⟩
      [("h.0.attn.c_attn.weight", [768, 2304])] []).1.get? "h.0.attn.c_attn.weight" = some [2304, 768] := by decide

/-- **One tensor for embedding and head** (a graph with truly tied weights): the first reader is the embedding, so the matrix product sees
the vocabulary as its input features. -/
theorem C109_shared_counterexample :
    (update ⟨[("Gather", ["e", "ids"]), ("MatMul", ["x", "e"])], [("e", [])], ["ids"], []⟩ [("e", [5, 4])] []).1.get? "e" = some [5, 4] ∧
    (update ⟨[("MatMul", ["x", "e"]), ("Gather", ["e", "ids"])], [("e", [])], ["ids"], []⟩ [("e", [5, 4])] []).1.get? "e" = some [4, 5] := by decide

end OnnxTool.Props
