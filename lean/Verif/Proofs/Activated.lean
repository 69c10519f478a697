import Verif.Model.Activated
import Verif.Spec.Activated
import Verif.Proofs.HybridCost
import Mathlib.Tactic.Ring
/-!
# The constant operands of a built decoder, node by node
-/
namespace OnnxTool.Activated
open OnnxTool OnnxTool.Builder OnnxTool.LlmCost

variable (c : Cfg)

/-- elements of the constant operands of one call -/
def emitParams (e : Emit) : Nat := statics (e.ins.map (mark c e))

/-- the calls have constant operands of `n` elements and the result satisfies `Q` -/
def Par {α : Type} (m : W α) (Q : α → Prop) (n : Nat) : Prop := Q m.1 ∧ (m.2.map (emitParams c)).sum = n

variable {c}

theorem par_bind {α β : Type} {m : W α} {f : α → W β} {Q : α → Prop} {R : β → Prop} {n n' : Nat} (h : Par c m Q n) (k : ∀ a, Q a → Par c (f a) R n') :
    Par c (m >>= f) R (n + n') := by
  obtain ⟨hq, h1⟩ := h
  obtain ⟨hr, h2⟩ := k _ hq
  refine ⟨hr, ?_⟩
  rw [bind_snd, List.map_append, List.sum_append, h1, h2]

theorem par_pure {α : Type} {a : α} {Q : α → Prop} (h : Q a) : Par c (pure a : W α) Q 0 := ⟨h, rfl⟩

theorem par_eq {α : Type} {m : W α} {Q : α → Prop} {n n' : Nat} (h : Par c m Q n) (e : n = n') : Par c m Q n' := e ▸ h

theorem par_mono {α : Type} {m : W α} {Q R : α → Prop} {n : Nat} (h : Par c m Q n) (k : ∀ a, Q a → R a) : Par c m R n := ⟨k _ h.1, h.2⟩

theorem par_emit {e : Emit} {n : Nat} (h : emitParams c e = n) {Q : T → Prop} (hq : Q e.out) : Par c (emit e) Q n := by
  refine ⟨hq, ?_⟩
  show ([e].map (emitParams c)).sum = n
  simp [h]

theorem embedding_par (t : T) (n : Nat) (name : String) (ht : t.shape = [c.batch, c.seq]) (hn : ∀ m, t.name ≠ m ++ ".weight") :
    Par c (addEmbedding c t n name) (Has [c.batch, c.seq, c.hidden]) (n * c.hidden) := by
  unfold addEmbedding
  refine par_emit ?_ rfl
  have h1 : ∀ e : Emit, e.statics = [⟨name ++ ".weight", [n, c.hidden]⟩] → mark c e t = (false, t.shape) := by
    intro e he
    unfold mark
    rw [decide_eq_false]
    rintro (h | h)
    · rw [he, List.mem_singleton] at h
      exact hn name (by rw [h])
    · exact not_table (by rw [ht]; simp) h
  simp only [emitParams, List.map_cons, List.map_nil]
  rw [h1 _ rfl, mark_static (List.mem_singleton.2 rfl)]
  simp [statics, vol2]

/-- the result of a call is named after it -/
def Named (t : T) : Prop := ∃ m, t.name = m ++ ".output"

theorem layernorm_par (t : T) (name : String) (ht : t.shape = [c.batch, c.seq, c.hidden]) :
    Par c (addLayernorm c t name) (fun t => Has [c.batch, c.seq, c.hidden] t ∧ Named t) (norm c) := by
  unfold addLayernorm
  refine par_emit ?_ ⟨ht, _, rfl⟩
  simp only [emitParams, List.map_cons]
  rw [mark_statics _ _ (fun t h => h), mark_dyn (by
      intro u hu
      rw [ht]
      simp only [normWeights] at hu
      split at hu
      · simp only [List.mem_cons] at hu
        rcases hu with rfl | hu
        · simp
        · split at hu
          · simp only [List.mem_singleton] at hu; subst hu; simp
          · simp at hu
      · simp at hu) (by rw [ht]; simp)]
  simp only [statics, List.filter_cons, Bool.false_eq_true, if_false, norm_statics]
  unfold norm; cases c.normScale <;> cases c.normBias <;> simp

theorem act_par (t : T) (act name : String) (d : Nat) (ht : t.shape = [c.batch, c.seq, d]) :
    Par c (addAct t act name) (Has [c.batch, c.seq, d]) 0 := by
  unfold addAct
  refine par_emit ?_ ht
  simp only [emitParams, List.map_cons, List.map_nil]
  rw [mark_dyn (by simp) (by rw [ht]; simp)]
  simp [statics]

theorem gegelu_par (t : T) (name : String) (d : Nat) (ht : t.shape = [c.batch, c.seq, d * 2]) :
    Par c (addGegelu t name) (Has [c.batch, c.seq, d]) 0 := by
  unfold addGegelu
  refine par_emit ?_ (by simp [ht])
  simp only [emitParams, List.map_cons, List.map_nil]
  rw [mark_dyn (by simp) (by rw [ht]; simp)]
  simp [statics]

theorem eltop_par (a b : T) (op name : String) (d : Nat) (ha : a.shape = [c.batch, c.seq, d]) (hb : b.shape = [c.batch, c.seq, d]) :
    Par c (addEltop a b op name) (Has [c.batch, c.seq, d]) 0 := by
  unfold addEltop
  refine par_emit ?_ (by simp [Shape.maxLoop, ha, hb])
  simp only [emitParams, List.map_cons, List.map_nil]
  rw [mark_dyn (by simp) (by rw [ha]; simp), mark_dyn (by simp) (by rw [hb]; simp)]
  simp [statics]

theorem mm_par (t : T) (fin fout : Nat) (bias : Bool) (name : String) (ht : t.shape = [c.batch, c.seq, fin]) :
    Par c (addMm c t fin fout bias name) (Has [c.batch, c.seq, fout]) (linear fin fout bias) := by
  unfold addMm
  refine par_emit ?_ rfl
  simp only [emitParams, List.map_cons]
  rw [mark_statics _ _ (fun t h => h), mark_dyn (by rw [ht]; exact mm_weights_two fin fout bias name) (by rw [ht]; simp)]
  cases bias <;> simp [mmWeights, statics, linear, vol2, vol1]

theorem slice_par (t : T) (off size d : Nat) (name : String) (ht : t.shape = [c.batch, c.seq, d]) :
    Par c (addSlice t off size name) (Has [c.batch, c.seq, size]) 4 := by
  unfold addSlice
  refine par_emit ?_ (by simp [ht])
  simp only [emitParams, List.map_cons]
  rw [mark_statics _ _ (fun t h => h), mark_dyn (by rw [ht]; simp [sliceConsts]) (by rw [ht]; simp)]
  simp [sliceConsts, statics, vol1]

theorem qknorm_par (t : T) (name : String) (d : Nat) (ht : t.shape = [c.batch, c.seq, d]) :
    Par c (addQkNorm c t name) (Has [c.batch, c.seq, d]) c.headSize := by
  unfold addQkNorm
  refine par_emit ?_ ht
  simp only [emitParams, List.map_cons, List.map_nil]
  rw [mark_dyn (by rw [ht]; simp) (by rw [ht]; simp), mark_static (List.mem_singleton.2 rfl)]
  simp [statics, vol1]

theorem softcap_par (t : T) (name : String) (d : Nat) (ht : t.shape = [c.batch, c.seq, d]) :
    Par c (addSoftcapping t name) (Has [c.batch, c.seq, d]) 0 := by
  unfold addSoftcapping
  refine par_emit ?_ ht
  simp only [emitParams, List.map_cons, List.map_nil]
  rw [mark_dyn (by rw [ht]; simp) (by rw [ht]; simp), mark_static (List.mem_singleton.2 rfl)]
  simp [statics, Profile.volume]

theorem rope_par (t : T) (name : String) (d : Nat) (ht : t.shape = [c.batch, c.seq, d]) :
    Par c (addRope c t name) (Has [c.batch, c.seq, d]) (2 * (c.maxPos * (c.rotaryDim / 2))) := by
  unfold addRope
  refine par_emit ?_ ht
  simp only [emitParams, List.map_cons, List.map_nil]
  rw [mark_dyn (by simp) (by rw [ht]; simp)]
  have h4 : ∀ (e : Emit), mark c e ⟨"position", [c.batch, c.seq]⟩ = (decide ((⟨"position", [c.batch, c.seq]⟩ : T) ∈ e.statics), [c.batch, c.seq]) := by
    intro e
    simp only [mark, tables, List.mem_cons, T.mk.injEq, String.reduceEq, false_and, List.not_mem_nil, or_false]
  rw [h4]
  simp only [mark, tables, List.not_mem_nil, List.mem_cons, true_or, or_true, decide_true, decide_false]
  simp [statics, Profile.volume]
  omega

theorem mha_par (q k v : T) (layer : Nat) (name : String) (sq : q.shape = [c.batch, c.seq, c.heads * c.headSize])
    (sk : k.shape = [c.batch, c.seq, c.kvHeads * c.headSize]) (sv : v.shape = [c.batch, c.seq, c.kvHeads * c.headSize]) :
    Par c (addMha c q k v layer name) (Has [c.batch, c.seq, c.heads * c.headSize]) 0 := by
  unfold addMha
  refine par_emit ?_ rfl
  simp only [emitParams, List.map_cons, List.map_nil]
  rw [mark_dyn (by simp) (by rw [sq]; simp), mark_dyn (by simp) (by rw [sk]; simp), mark_dyn (by simp) (by rw [sv]; simp)]
  simp [statics]

theorem out_ne_weight (a b : String) : a ++ ".output" ≠ b ++ ".weight" := by
  intro h
  have := congrArg String.toList h
  simp only [String.toList_append] at this
  have := List.append_inj_right' this rfl
  exact absurd this (by decide)

theorem moe_named (p : String) : ∀ t ∈ moeWeights c p, ∃ m, t.name = m ++ ".weight" := by
  intro t ht
  simp only [moeWeights, List.mem_append, List.mem_cons, List.not_mem_nil, or_false] at ht
  rcases ht with (rfl | rfl | rfl | rfl) | ht
  · exact ⟨_, rfl⟩
  · exact ⟨_, rfl⟩
  · exact ⟨_, rfl⟩
  · exact ⟨_, rfl⟩
  split at ht
  · cases ht
  · simp only [List.mem_append, List.mem_cons, List.not_mem_nil, or_false] at ht
    rcases ht with (rfl | rfl | rfl) | ht
    · exact ⟨_, rfl⟩
    · exact ⟨_, rfl⟩
    · exact ⟨_, rfl⟩
    split at ht
    · cases ht
    · simp only [List.mem_cons, List.not_mem_nil, or_false] at ht
      subst ht; exact ⟨_, rfl⟩

theorem moe_par (p : String) (t : T) (ht : t.shape = [c.batch, c.seq, c.hidden]) (hn : Named t) :
    Par c (addMoe c p t) (Has [c.batch, c.seq, c.hidden]) (moeParams c) := by
  unfold addMoe
  refine par_emit ?_ rfl
  simp only [emitParams, List.map_cons]
  have h1 : ∀ e : Emit, e.statics = moeWeights c p → mark c e t = (false, t.shape) := by
    intro e he
    unfold mark
    rw [decide_eq_false]
    rintro (h | h)
    · rw [he] at h
      obtain ⟨a, ha⟩ := moe_named p t h
      obtain ⟨b, hb⟩ := hn
      exact out_ne_weight b a (hb ▸ ha)
    · exact not_table (by rw [ht]; simp) h
  rw [mark_statics _ _ (fun t h => h), h1 _ rfl]
  unfold moeParams moeWeights
  cases c.noSharedExpert <;> cases c.noSharedGate <;> simp [statics, vol3, vol2, vol1] <;> ring

/-! ### Blocks -/

theorem mlp_par (w : WMap) (p : String) (t : T) (ht : t.shape = [c.batch, c.seq, c.hidden]) :
    Par c (addMlp c w p t) (Has [c.batch, c.seq, c.hidden]) (mlpParams c) := by
  unfold addMlp mlpParams
  by_cases hp : c.phi3 = true
  · simp only [hp, if_true]
    refine par_eq (par_bind (mm_par t _ _ _ _ ht) fun t1 s1 => par_bind (gegelu_par t1 _ c.inter s1) fun t2 s2 => mm_par t2 _ _ _ _ s2) ?_
    ring
  · have hp' : c.phi3 = false := by simpa using hp
    simp only [hp', Bool.false_eq_true, if_false]
    by_cases hg : c.mlpGate = true
    · simp only [hg, if_true]
      refine par_eq (par_bind (mm_par t _ _ _ _ ht) fun t1 s1 => par_bind (mm_par t _ _ _ _ ht) fun t2 s2 =>
        par_bind (act_par t2 _ _ _ s2) fun t3 s3 => par_bind (eltop_par t1 t3 "Mul" _ _ s1 s3) fun t4 s4 => mm_par t4 _ _ _ _ s4) ?_
      ring
    · have hg' : c.mlpGate = false := by simpa using hg
      simp only [hg', Bool.false_eq_true, if_false]
      refine par_eq (par_bind (mm_par t _ _ _ _ ht) fun t1 s1 => par_bind (act_par t1 _ _ _ s1) fun t3 s3 => mm_par t3 _ _ _ _ s3) ?_
      ring

theorem projections_par (w : WMap) (p : String) (t : T) (ht : t.shape = [c.batch, c.seq, c.hidden]) :
    Par c (addProjections c w p t) (ProjShapes c) (projWeights c + (if c.qkvGated then 2 * 4 else if c.fuseQkv then 3 * 4 else 0)) := by
  unfold addProjections projWeights ProjShapes
  by_cases hg : c.qkvGated = true
  · simp only [hg, if_true, addQkvGated]
    refine par_eq (par_bind (par_bind (mm_par t _ _ _ _ ht) fun t1 s1 => par_bind (mm_par t _ _ _ _ ht) fun t2 s2 =>
      par_bind (mm_par t _ _ _ _ ht) fun t3 s3 => par_bind (slice_par t1 _ _ _ _ s1) fun t4 s4 =>
      par_bind (slice_par t1 _ _ _ _ s1) fun t5 s5 =>
      par_pure (Q := fun r : T × T × T × T => Has [c.batch, c.seq, c.heads * c.headSize] r.1 ∧ Has [c.batch, c.seq, c.kvHeads * c.headSize] r.2.1 ∧
        Has [c.batch, c.seq, c.kvHeads * c.headSize] r.2.2.1 ∧ Has [c.batch, c.seq, c.heads * c.headSize] r.2.2.2) ⟨s4, s2, s3, s5⟩)
      fun r hr => par_pure ⟨hr.1, hr.2.1, hr.2.2.1, _, rfl, hr.2.2.2⟩) ?_
    simp only [qDim, kvDim]
    ring
  · have hg' : c.qkvGated = false := by simpa using hg
    simp only [hg', Bool.false_eq_true, if_false, addQkv]
    by_cases hf : c.fuseQkv = true
    · simp only [hf, if_true]
      refine par_eq (par_bind (par_bind (mm_par t _ _ _ _ ht) fun t1 s1 => par_bind (slice_par t1 _ _ _ _ s1) fun t2 s2 =>
        par_bind (slice_par t1 _ _ _ _ s1) fun t3 s3 => par_bind (slice_par t1 _ _ _ _ s1) fun t4 s4 =>
        par_pure (Q := fun r : T × T × T => Has [c.batch, c.seq, c.heads * c.headSize] r.1 ∧ Has [c.batch, c.seq, c.kvHeads * c.headSize] r.2.1 ∧
          Has [c.batch, c.seq, c.kvHeads * c.headSize] r.2.2) ⟨s2, s3, s4⟩)
        fun r hr => par_pure ⟨hr.1, hr.2.1, hr.2.2, rfl⟩) ?_
      simp only [qDim, kvDim]
    · have hf' : c.fuseQkv = false := by simpa using hf
      simp only [hf', Bool.false_eq_true, if_false]
      refine par_eq (par_bind (par_bind (mm_par t _ _ _ _ ht) fun t1 s1 => par_bind (mm_par t _ _ _ _ ht) fun t2 s2 =>
        par_bind (mm_par t _ _ _ _ ht) fun t3 s3 =>
        par_pure (Q := fun r : T × T × T => Has [c.batch, c.seq, c.heads * c.headSize] r.1 ∧ Has [c.batch, c.seq, c.kvHeads * c.headSize] r.2.1 ∧
          Has [c.batch, c.seq, c.kvHeads * c.headSize] r.2.2) ⟨s1, s2, s3⟩)
        fun r hr => par_pure ⟨hr.1, hr.2.1, hr.2.2, rfl⟩) ?_
      simp only [qDim, kvDim]
      ring

theorem qknorms_par (p : String) (q k : T) (h : QKShapes c (q, k)) :
    Par c (addQkNorms c p q k) (QKShapes c) (if c.qkNorm then 2 * c.headSize else 0) := by
  unfold addQkNorms
  split
  · refine par_eq (par_bind (qknorm_par q _ _ h.1) fun t1 s1 => par_bind (qknorm_par k _ _ h.2) fun t2 s2 => par_pure ⟨s1, s2⟩) ?_
    ring
  · exact par_pure h

theorem ropes_par (p : String) (q k : T) (h : QKShapes c (q, k)) :
    Par c (addRopes c p q k) (QKShapes c) (if c.qkRope then 4 * (c.maxPos * (c.rotaryDim / 2)) else 0) := by
  unfold addRopes
  split
  · refine par_eq (par_bind (rope_par q _ _ h.1) fun t1 s1 => par_bind (rope_par k _ _ h.2) fun t2 s2 => par_pure ⟨s1, s2⟩) ?_
    ring
  · exact par_pure h

theorem gate_par (p : String) (cur : T) (gate : Option T) (hc : cur.shape = [c.batch, c.seq, c.heads * c.headSize])
    (hg : if c.qkvGated then ∃ g, gate = some g ∧ g.shape = [c.batch, c.seq, c.heads * c.headSize] else gate = none) :
    Par c (addGate p cur gate) (Has [c.batch, c.seq, c.heads * c.headSize]) 0 := by
  split at hg
  · obtain ⟨g, rfl, sg⟩ := hg
    unfold addGate
    exact par_eq (par_bind (act_par g "silu" _ _ sg) fun t1 s1 => eltop_par cur t1 "Mul" _ _ hc s1) rfl
  · subst hg
    exact par_pure hc

/-- constants of an attention block, the rotary tables for queries and for keys -/
def attnHeld (c : Cfg) : Nat :=
  attnWeights c + (if c.qkNorm then 2 * c.headSize else 0) + (if c.qkvGated then 2 * 4 else if c.fuseQkv then 3 * 4 else 0) +
    (if c.qkRope then 4 * (c.maxPos * (c.rotaryDim / 2)) else 0)

theorem attention_par (w : WMap) (i : Nat) (p : String) (t : T) (ht : t.shape = [c.batch, c.seq, c.hidden]) :
    Par c (addAttention c w i p t) (Has [c.batch, c.seq, c.hidden]) (attnHeld c) := by
  unfold addAttention
  refine par_eq (par_bind (projections_par w p t ht) fun r hr => par_bind (qknorms_par p _ _ ⟨hr.1, hr.2.1⟩) fun n hn =>
    par_bind (ropes_par p _ _ hn) fun e he => par_bind (mha_par _ _ _ i _ he.1 he.2 hr.2.2.1) fun t1 s1 =>
    par_bind (gate_par p t1 _ s1 hr.2.2.2) fun t2 s2 => mm_par t2 _ _ _ _ s2) ?_
  have e : attnWeights c = projWeights c + linear (c.heads * c.headSize) c.hidden c.oBias := rfl
  unfold attnHeld
  rw [e]
  ring

theorem optnorm_par (on : Bool) (t : T) (name : String) (ht : t.shape = [c.batch, c.seq, c.hidden]) :
    Par c (addOptNorm c on t name) (Has [c.batch, c.seq, c.hidden]) ((if on then 1 else 0) * norm c) := by
  unfold addOptNorm
  split
  · simpa using par_mono (layernorm_par t name ht) fun _ h => h.1
  · exact par_eq (par_pure ht) (by simp)

theorem ffn_par (w : WMap) (p : String) (t : T) (ht : t.shape = [c.batch, c.seq, c.hidden]) (hn : Named t) :
    Par c (addFfn c w p t) (Has [c.batch, c.seq, c.hidden]) (if c.isMoe then moeParams c else mlpParams c) := by
  unfold addFfn
  split
  · exact moe_par p t ht hn
  · exact mlp_par w p t ht

theorem mla_named (p : String) : ∀ t ∈ mlaWeights c p, ∃ m, t.name = m ++ ".weight" := by
  intro t ht
  simp only [mlaWeights, List.mem_cons, List.not_mem_nil, or_false] at ht
  rcases ht with rfl | rfl | rfl | rfl | rfl | rfl | rfl <;> exact ⟨_, rfl⟩

theorem mla_par (p : String) (t : T) (ht : t.shape = [c.batch, c.seq, c.hidden]) (hn : Named t) :
    Par c (addMla c p t) (Has [c.batch, c.seq, c.hidden]) (mlaParams c) := by
  unfold addMla
  refine par_emit ?_ rfl
  simp only [emitParams, List.map_cons]
  have h1 : ∀ e : Emit, e.statics = mlaWeights c p → mark c e t = (false, t.shape) := by
    intro e he
    unfold mark
    rw [decide_eq_false]
    rintro (h | h)
    · rw [he] at h
      obtain ⟨a, ha⟩ := mla_named p t h
      obtain ⟨b, hb⟩ := hn
      exact out_ne_weight b a (hb ▸ ha)
    · exact not_table (by rw [ht]; simp) h
  rw [mark_statics _ _ (fun t h => h), h1 _ rfl]
  unfold mlaParams mlaWeights
  simp [statics, vol2, vol1]
  ring

theorem net_par (q k v : T) (p : String) (d e : Nat) (sq : q.shape = [c.batch, c.seq, d]) (sk : k.shape = [c.batch, c.seq, d])
    (sv : v.shape = [c.batch, c.seq, e]) :
    Par c (emit { name := p ++ "gdn", op := "GDN", ins := [q, k, v], out := ⟨p ++ "gdn" ++ ".output", [c.batch, c.seq, c.hidden]⟩ })
      (Has [c.batch, c.seq, c.hidden]) 0 := by
  refine par_emit ?_ rfl
  simp only [emitParams, List.map_cons, List.map_nil]
  rw [mark_dyn (by simp) (by rw [sq]; simp), mark_dyn (by simp) (by rw [sk]; simp), mark_dyn (by simp) (by rw [sv]; simp)]
  simp [statics]

theorem gdn_par (w : WMap) (p : String) (t : T) (ht : t.shape = [c.batch, c.seq, c.hidden]) :
    Par c (addGdn c w p t) (Has [c.batch, c.seq, c.hidden]) (gdnParams c) := by
  unfold addGdn
  refine par_eq (par_bind (mm_par t _ _ _ _ ht) fun q sq => par_bind (mm_par t _ _ _ _ ht) fun k sk => par_bind (mm_par t _ _ _ _ ht)
    fun v sv => par_bind (qknorm_par q _ _ sq) fun q1 sq1 => par_bind (qknorm_par k _ _ sk) fun k1 sk1 => net_par q1 k1 v p _ _ sq1 sk1 sv) ?_
  unfold gdnParams
  ring

/-- the rotary tables of layer `i`: both for queries and for keys -/
def ropeHeld (c : Cfg) (rows i : Nat) : Nat := if ropeLayer c i then 4 * (rows * (c.rotaryDim / 2)) else 0

theorem attnHeld_eq (c : Cfg) : attnHeld c = attnParams c + if c.qkRope then 4 * (c.maxPos * (c.rotaryDim / 2)) else 0 := by
  unfold attnHeld attnParams attnWeights qDim kvDim
  cases c.qkvGated <;> cases c.fuseQkv <;> simp <;> omega

theorem mixer_par (w : WMap) (i : Nat) (p : String) (t : T) (ht : t.shape = [c.batch, c.seq, c.hidden]) (hn : Named t) :
    Par c (addMixer c w i p t) (Has [c.batch, c.seq, c.hidden]) (mixerParams c i + ropeHeld c c.maxPos i) := by
  unfold addMixer mixerParams ropeHeld
  by_cases hi : linearLayer c i
  · have hr : ¬ ropeLayer c i := fun h => h.2.2 hi
    rw [if_pos hi, if_pos ((isGdn_iff c i).2 hi), if_neg hr]
    exact gdn_par w p t ht
  · rw [if_neg hi, if_neg (fun h => hi ((isGdn_iff c i).1 h))]
    by_cases hm : c.isMla = true
    · have hr : ¬ ropeLayer c i := fun h => by have := h.2.1; rw [hm] at this; cases this
      rw [if_pos hm, if_pos hm, if_neg hr]
      exact mla_par p t ht hn
    · rw [if_neg hm, if_neg hm]
      refine par_eq (attention_par w i p t ht) ?_
      rw [attnHeld_eq]
      by_cases hq : c.qkRope = true
      · have hr : ropeLayer c i := ⟨hq, by simpa using hm, hi⟩
        rw [if_pos hq, if_pos hr]
      · have hr : ¬ ropeLayer c i := fun h => hq h.1
        rw [if_neg hq, if_neg hr]

/-- constants of one layer -/
def layerHeld (c : Cfg) (i : Nat) : Nat := layerParams c i + ropeHeld c c.maxPos i

theorem layer_par (w : WMap) (i : Nat) (t : T) (ht : t.shape = [c.batch, c.seq, c.hidden]) :
    Par c (addLayer c w i t) (Has [c.batch, c.seq, c.hidden]) (layerHeld c i) := by
  unfold addLayer
  refine par_eq (par_bind (layernorm_par t _ ht) fun t1 s1 => par_bind (mixer_par w i _ t1 s1.1 s1.2) fun t2 s2 =>
    par_bind (optnorm_par _ t2 _ s2) fun t3 s3 => par_bind (eltop_par t t3 "Add" _ _ ht s3) fun t4 s4 =>
    par_bind (layernorm_par t4 _ s4) fun t5 s5 => par_bind (ffn_par w _ t5 s5.1 s5.2) fun t6 s6 =>
    par_bind (optnorm_par _ t6 _ s6) fun t7 s7 => eltop_par t4 t7 "Add" _ _ s4 s7) ?_
  have e : layerParams c i = mixerParams c i + (if c.isMoe then moeParams c else mlpParams c) +
    (2 + (if c.postAttnNorm then 1 else 0) + (if c.postMlpNorm then 1 else 0)) * norm c := rfl
  unfold layerHeld
  rw [e]
  ring

theorem layers_par (w : WMap) (t : T) (ht : t.shape = [c.batch, c.seq, c.hidden]) : ∀ (n : Nat),
    Par c (addLayers c w t n) (Has [c.batch, c.seq, c.hidden]) ((List.range n).map (layerHeld c)).sum := by
  intro n
  induction n with
  | zero => exact par_eq (par_pure ht) (by simp)
  | succ n ih =>
    refine par_eq (par_bind ih fun t1 s1 => layer_par w n t1 s1) ?_
    rw [sum_range_succ']

theorem position_par (h : ∀ m, (positionT c).name ≠ m ++ ".weight") (w : WMap) (hc : CfgOk c w) (t : T) (ht : t.shape = [c.batch, c.seq, c.hidden]) :
    Par c (addPos c w t) (Has [c.batch, c.seq, c.hidden]) (if c.posEmbedding then c.nPositions * c.hidden else 0) := by
  unfold addPos
  by_cases hp : c.posEmbedding = true
  · simp only [hp, if_true]
    have := hc.pos hp
    cases hw : w.pos with
    | none => rw [hw] at this; cases this
    | some pos => exact par_eq (par_bind (embedding_par (positionT c) _ _ rfl h) fun t2 s2 => eltop_par t2 t "Add" _ _ s2 ht) rfl
  · have hp' : c.posEmbedding = false := by simpa using hp
    simp only [hp', Bool.false_eq_true, if_false]
    exact par_pure ht

theorem short_ne (s : String) (hl : s.toList.getLast? ≠ some 't' := by decide) : ∀ m, s ≠ m ++ ".weight" := by
  intro m e
  refine hl ?_
  rw [e, String.toList_append, List.getLast?_append]
  rfl

/-- all constants, as often as a node has them -/
def allHeld (c : Cfg) : Nat :=
  c.vocab * c.hidden + (if c.posEmbedding then c.nPositions * c.hidden else 0) + overLayers c (layerHeld c) + norm c + linear c.hidden c.vocab c.lmHeadBias

theorem build_par (w : WMap) (h : CfgOk c w) : Par c (build c w) (Has [c.batch, c.seq, c.vocab]) (allHeld c) := by
  unfold build
  refine par_eq (par_bind (embedding_par (idsT c) _ _ rfl (short_ne "ids")) fun t1 s1 => par_bind (position_par (short_ne "position") w h t1 s1) fun t2 s2 =>
    par_bind (layers_par w t2 s2 c.layers) fun t3 s3 =>
    par_bind (par_bind (layernorm_par t3 _ s3) fun t4 s4 => mm_par t4 _ _ _ _ s4.1) fun t5 s5 =>
    (show Par c (if c.softcap then addSoftcapping t5 "models.final_logit_softcapping" else pure t5) (Has [c.batch, c.seq, c.vocab]) 0 from ?_)) ?_
  · split
    · exact softcap_par t5 _ _ s5
    · exact par_pure s5
  · unfold allHeld overLayers
    ring

/-! ### The graph -/

variable {w : WMap} {s : St}

theorem paramsLoop_emits (node : Emit → String × BNode) (es : List Emit) (t : St)
    (hn : ∀ e ∈ es, (node e).2.input.map t.tensors.get? = (e.ins.map (mark c e)).map some) (n : Nat) :
    paramsLoop t (es.map node) n = .ok (n + (es.map (emitParams c)).sum) := by
  induction es generalizing n with
  | nil => rfl
  | cons e es ih =>
    have h3 := hn e (by simp)
    simp only [List.map_cons, paramsLoop, nodeParams, lookups_ok _ _ h3, ih fun e he => hn e (by simp [he]), List.sum_cons, emitParams, Nat.add_assoc]

theorem params_graph (h : CfgOk c w) (hg : GdnOk c) (hi : Inv c (baseInputs c w) (build c w).2 s) (o : List String) :
    paramsLoop { s with output := o } { s with output := o }.nodes 0 = .ok (((build c w).2.map (emitParams c)).sum) := by
  have := paramsLoop_emits (c := c) enode (build c w).2 { s with output := o } (fun e he => by
    simp only [enode, List.map_map]
    exact List.map_congr_left fun y hy => operand_flag h hg hi he hy) 0
  rw [Nat.zero_add] at this
  rw [← this]
  show paramsLoop _ s.nodes 0 = _
  rw [hi.nodes]

end OnnxTool.Activated
