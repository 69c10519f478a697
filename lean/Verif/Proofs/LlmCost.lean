import Verif.Model.LlmCost
import Verif.Spec.LlmCost
import Verif.Proofs.BuilderState
import Mathlib.Tactic.Ring
/-!
# The figures of a built decoder
-/
namespace OnnxTool.LlmCost
open OnnxTool OnnxTool.Builder OnnxTool.Macs

/-- sums over the nodes: MACs, those of MatMul nodes, activations, weights of matrix products / experts / embeddings, other constants, cache -/
@[ext] structure Tot where
  macs : Nat
  mm : Nat
  mmW : Nat
  io : Nat
  wMM : Nat
  wOther : Nat
  kv : Nat

instance : Add Tot := ⟨fun a b => ⟨a.macs + b.macs, a.mm + b.mm, a.mmW + b.mmW, a.io + b.io, a.wMM + b.wMM, a.wOther + b.wOther, a.kv + b.kv⟩⟩
def Tot.zero : Tot := ⟨0, 0, 0, 0, 0, 0, 0⟩

theorem Tot.add_assoc (a b c : Tot) : a + b + c = a + (b + c) := by
  ext <;> exact Nat.add_assoc ..
theorem Tot.zero_add (a : Tot) : Tot.zero + a = a := by
  ext <;> exact Nat.zero_add _
theorem Tot.add_zero (a : Tot) : a + Tot.zero = a := by
  ext <;> rfl
@[simp] theorem Tot.add_def (a b : Tot) : a + b =
  ⟨a.macs + b.macs, a.mm + b.mm, a.mmW + b.mmW, a.io + b.io, a.wMM + b.wMM, a.wOther + b.wOther, a.kv + b.kv⟩ := rfl

/-- operators whose constants count as matrix weights -/
def isMM (op : String) : Bool := op == "MatMul" || op == "MoE" || op == "MLA" || op == "GDN" || op == "Gather"

def rowTot (op : String) (f : Fig) : Tot :=
  ⟨f.macs, if op = "MatMul" then f.macs else 0, if op = "MatMul" then f.static else 0, f.io, if isMM op then f.static else 0,
   if isMM op ∨ op = "SDPA" then 0 else f.static, f.kv⟩

def total : List Row → Tot
  | [] => .zero
  | r :: rs => rowTot r.op r.fig + total rs

theorem total_append (l m : List Row) : total (l ++ m) = total l + total m := by
  induction l with
  | nil => exact (Tot.zero_add _).symm
  | cons r l ih => simp only [List.cons_append, total, ih]; exact (Tot.add_assoc ..).symm

/-- static flag and shape of an operand -/
def mark (c : Cfg) (e : Emit) (t : T) : Bool × List Nat := (decide (t ∈ e.statics ∨ t ∈ tables c), t.shape)

variable (c : Cfg) (x : Attrs) (past : Nat) (cache : List (Bool × List Nat))

/-- the figures of one call -/
def emitFig (e : Emit) : Except PyErr Fig :=
  opFig c x past e.op (e.ins.map (mark c e) ++ if e.op = "SDPA" then cache else []) e.out.shape

def figs : List Emit → Except PyErr (List Row)
  | [] => .ok []
  | e :: es =>
    match emitFig c x past cache e with
    | .error e => .error e
    | .ok f =>
      match figs es with
      | .error e => .error e
      | .ok r => .ok (⟨e.name, e.op, f⟩ :: r)

theorem figs_append (l m : List Emit) {rs ts : List Row} (h1 : figs c x past cache l = .ok rs) (h2 : figs c x past cache m = .ok ts) :
    figs c x past cache (l ++ m) = .ok (rs ++ ts) := by
  induction l generalizing rs with
  | nil => cases h1; exact h2
  | cons e l ih =>
    simp only [figs, List.cons_append] at h1 ⊢
    cases he : emitFig c x past cache e with
    | error _ => rw [he] at h1; cases h1
    | ok f =>
      rw [he] at h1
      simp only at h1 ⊢
      cases hl : figs c x past cache l with
      | error _ => rw [hl] at h1; cases h1
      | ok r =>
        rw [hl] at h1
        cases h1
        rw [ih hl]
        rfl

/-- the calls have figures adding up to `n` and the result satisfies `Q` -/
def Costs {α : Type} (m : W α) (Q : α → Prop) (n : Tot) : Prop :=
  Q m.1 ∧ ∃ rs, figs c x past cache m.2 = .ok rs ∧ total rs = n ∧ ∀ r ∈ rs, r.op = "SDPA" → r.fig.static = 0

variable {c x past cache}

theorem costs_bind {α β : Type} {m : W α} {f : α → W β} {Q : α → Prop} {R : β → Prop} {n n' : Tot} (h : Costs c x past cache m Q n)
    (k : ∀ a, Q a → Costs c x past cache (f a) R n') : Costs c x past cache (m >>= f) R (n + n') := by
  obtain ⟨hq, rs, h1, h2, z1⟩ := h
  obtain ⟨hr, ts, h3, h4, z2⟩ := k _ hq
  exact ⟨hr, rs ++ ts, figs_append c x past cache _ _ h1 h3, by rw [total_append, h2, h4], fun r h => (List.mem_append.1 h).elim (z1 r) (z2 r)⟩

theorem costs_pure {α : Type} {a : α} {Q : α → Prop} (h : Q a) : Costs c x past cache (pure a : W α) Q .zero :=
  ⟨h, [], rfl, rfl, fun _ h => by cases h⟩

theorem costs_eq {α : Type} {m : W α} {Q : α → Prop} {n n' : Tot} (h : Costs c x past cache m Q n) (e : n = n') : Costs c x past cache m Q n' := e ▸ h

theorem costs_mono {α : Type} {m : W α} {Q R : α → Prop} {n : Tot} (h : Costs c x past cache m Q n) (k : ∀ a, Q a → R a) : Costs c x past cache m R n :=
  ⟨k _ h.1, h.2⟩

theorem costs_emit {e : Emit} {f : Fig} (h : emitFig c x past cache e = .ok f) {sh : List Nat} (hs : e.out.shape = sh)
    (hz : e.op = "SDPA" → f.static = 0 := by first | exact fun _ => rfl | (intro h; simp only [String.reduceEq] at h)) :
    Costs c x past cache (emit e) (fun t => t.shape = sh) (rowTot e.op f) := by
  refine ⟨hs, [⟨e.name, e.op, f⟩], ?_, Tot.add_zero _, fun r h => by cases List.mem_singleton.1 h; exact hz⟩
  show figs c x past cache [e] = _
  simp only [figs, h]

theorem not_table {t : T} (h : t.shape.length ≠ 4) : t ∉ tables c := by
  intro hm
  simp only [tables, List.mem_cons, List.not_mem_nil, or_false] at hm
  rcases hm with rfl | rfl <;> simp at h

theorem mark_dyn {e : Emit} {t : T} (h : ∀ u ∈ e.statics, u.shape.length ≠ t.shape.length) (h4 : t.shape.length ≠ 4) : mark c e t = (false, t.shape) := by
  unfold mark
  have : ¬ (t ∈ e.statics ∨ t ∈ tables c) := by
    rintro (hm | hm)
    · exact h t hm rfl
    · exact not_table h4 hm
  rw [decide_eq_false this]

theorem mark_static {e : Emit} {t : T} (h : t ∈ e.statics) : mark c e t = (true, t.shape) := by
  unfold mark
  rw [decide_eq_true (.inl h)]

theorem mark_statics (e : Emit) (l : List T) (h : ∀ t ∈ l, t ∈ e.statics) : l.map (mark c e) = l.map fun t => (true, t.shape) :=
  List.map_congr_left fun t ht => mark_static (h t ht)

theorem vol3 (a b d : Nat) : Profile.volume [a, b, d] = a * b * d := by simp [Profile.volume]
theorem vol2 (a b : Nat) : Profile.volume [a, b] = a * b := by simp [Profile.volume]
theorem vol1 (a : Nat) : Profile.volume [a] = a := by simp [Profile.volume]

abbrev Has (sh : List Nat) (t : T) : Prop := t.shape = sh

theorem embedding_costs (t : T) (n : Nat) (name : String) (ht : t.shape = [c.batch, c.seq]) :
    Costs c x past cache (addEmbedding c t n name) (Has [c.batch, c.seq, c.hidden])
      ⟨0, 0, 0, tokens c * c.hidden, tokens c * c.hidden, 0, 0⟩ := by
  unfold addEmbedding
  refine costs_eq (costs_emit (f := ⟨0, tokens c * c.hidden, tokens c * c.hidden, 0⟩) ?_ rfl) ?_
  · simp [emitFig, opFig, mark, ht, vol3, vol2, tokens]
  · simp [rowTot, isMM]

theorem norm_statics (name : String) : (((normWeights c name).map fun t => (true, t.shape)).filter (·.1)).map (fun t => Profile.volume t.2) =
    if c.normScale then c.hidden :: (if c.normBias then [c.hidden] else []) else [] := by
  unfold normWeights
  cases c.normScale <;> cases c.normBias <;> simp [vol1]

theorem layernorm_costs (t : T) (name : String) (ht : t.shape = [c.batch, c.seq, c.hidden]) :
    Costs c x past cache (addLayernorm c t name) (Has [c.batch, c.seq, c.hidden])
      ⟨tokens c * normOps c.hidden, 0, 0, tokens c * c.hidden, 0, norm c, 0⟩ := by
  unfold addLayernorm
  refine costs_eq (costs_emit (f := ⟨tokens c * normOps c.hidden, tokens c * c.hidden, norm c, 0⟩) ?_ ht) ?_
  · simp only [emitFig, List.map_cons]
    rw [mark_statics _ _ (fun t h => h), mark_dyn (by
      intro u hu
      rw [ht]
      simp only [normWeights] at hu
      split at hu
      · simp only [List.mem_cons] at hu
        rcases hu with rfl | hu
        · simp
        · split at hu
          · simp only [List.mem_singleton] at hu; subst hu; simp
          · simp at hu
      · simp at hu) (by rw [ht]; simp)]
    simp only [opFig, String.reduceEq, if_false, if_true, ht]
    simp only [base, statics, List.append_nil, List.filter_cons, Bool.false_eq_true, if_false, norm_statics, lnMacs, vol3]
    simp only [reduceCtorEq, if_false, Except.ok.injEq, Fig.mk.injEq, and_true]
    refine ⟨?_, rfl, ?_⟩
    · simp only [List.length_cons, List.length_nil, Nat.reduceAdd, Nat.reduceSub, List.set_cons_succ, List.set_cons_zero, vol3]
      simp only [tokens, normOps, MUL, ADD, SQRT, DIV]; ring
    · unfold norm; cases c.normScale <;> cases c.normBias <;> simp
  · simp [rowTot, isMM]

theorem act_costs (t : T) (act name : String) (d : Nat) (hact : act = "silu" ∨ act = "gelu_new") (ht : t.shape = [c.batch, c.seq, d]) :
    Costs c x past cache (addAct t act name) (Has [c.batch, c.seq, d])
      ⟨tokens c * (d * if act = "silu" then 33 else 34), 0, 0, tokens c * d, 0, 0, 0⟩ := by
  unfold addAct
  refine costs_eq (costs_emit (f := ⟨tokens c * (d * if act = "silu" then 33 else 34), tokens c * d, 0, 0⟩) ?_ ht) ?_
  · simp only [emitFig, List.map_cons, List.map_nil]
    rw [mark_dyn (by simp) (by rw [ht]; simp)]
    rcases hact with rfl | rfl <;>
      · simp [opFig, actOp, ht, base, statics, pointwise, vol3, EXP, MUL, tokens]
        ring
  · rcases hact with rfl | rfl <;> simp [rowTot, isMM, actOp]

theorem gegelu_costs (t : T) (name : String) (d : Nat) (ht : t.shape = [c.batch, c.seq, d * 2]) :
    Costs c x past cache (addGegelu t name) (Has [c.batch, c.seq, d]) ⟨tokens c * (d * 34), 0, 0, tokens c * d, 0, 0, 0⟩ := by
  unfold addGegelu
  refine costs_eq (costs_emit (f := ⟨tokens c * (d * 34), tokens c * d, 0, 0⟩) ?_ (by simp [ht])) ?_
  · simp only [emitFig, List.map_cons, List.map_nil]
    rw [mark_dyn (by simp) (by rw [ht]; simp)]
    simp [opFig, ht, base, statics, pointwise, vol3, EXP, MUL, tokens]
    ring
  · simp [rowTot, isMM]

theorem eltop_costs (a b : T) (op name : String) (d : Nat) (hop : op = "Add" ∨ op = "Mul") (ha : a.shape = [c.batch, c.seq, d])
    (hb : b.shape = [c.batch, c.seq, d]) :
    Costs c x past cache (addEltop a b op name) (Has [c.batch, c.seq, d]) ⟨tokens c * d, 0, 0, tokens c * d, 0, 0, 0⟩ := by
  unfold addEltop
  refine costs_eq (costs_emit (f := ⟨tokens c * d, tokens c * d, 0, 0⟩) ?_ (by simp [Shape.maxLoop, ha, hb])) ?_
  · simp only [emitFig, List.map_cons, List.map_nil]
    rw [mark_dyn (by simp) (by rw [ha]; simp), mark_dyn (by simp) (by rw [hb]; simp)]
    rcases hop with rfl | rfl <;> simp [opFig, ha, hb, base, statics, pointwise, vol3, ADD, MUL, tokens, Shape.maxLoop]
  · rcases hop with rfl | rfl <;> simp [rowTot, isMM]

theorem mm_weights_two (fin fout : Nat) (bias : Bool) (name : String) : ∀ u ∈ mmWeights fin fout bias name, u.shape.length ≠ 3 := by
  intro u hu
  simp only [mmWeights, List.mem_cons] at hu
  rcases hu with rfl | hu
  · simp
  · split at hu
    · simp only [List.mem_singleton] at hu; subst hu; simp
    · simp at hu

theorem mm_costs (t : T) (fin fout : Nat) (bias : Bool) (name : String) (ht : t.shape = [c.batch, c.seq, fin]) :
    Costs c x past cache (addMm c t fin fout bias name) (Has [c.batch, c.seq, fout])
      ⟨tokens c * linear fin fout bias, tokens c * linear fin fout bias, linear fin fout bias, tokens c * fout, linear fin fout bias, 0, 0⟩ := by
  unfold addMm
  refine costs_eq (costs_emit (f := ⟨tokens c * linear fin fout bias, tokens c * fout, linear fin fout bias, 0⟩) ?_ rfl) ?_
  · simp only [emitFig, List.map_cons]
    rw [mark_statics _ _ (fun t h => h), mark_dyn (by rw [ht]; exact mm_weights_two fin fout bias name) (by rw [ht]; simp)]
    cases bias
    · simp [opFig, mmWeights, gemmMacs, base, statics, linear, Shape.volume, tokens, Profile.volume]
      ring
    · simp [opFig, mmWeights, gemmMacs, base, statics, linear, Shape.volume, tokens, Profile.volume, ADD]
      ring
  · simp [rowTot, isMM]

theorem slice_costs (t : T) (off size d : Nat) (name : String) (ht : t.shape = [c.batch, c.seq, d]) :
    Costs c x past cache (addSlice t off size name) (Has [c.batch, c.seq, size]) ⟨0, 0, 0, tokens c * size, 0, 4, 0⟩ := by
  unfold addSlice
  refine costs_eq (costs_emit (f := ⟨0, tokens c * size, 4, 0⟩) ?_ (by simp [ht])) ?_
  · simp only [emitFig, List.map_cons]
    rw [mark_statics _ _ (fun t h => h), mark_dyn (by rw [ht]; simp [sliceConsts]) (by rw [ht]; simp)]
    simp [opFig, sliceConsts, base, statics, ht, vol3, vol1, tokens]
  · simp [rowTot, isMM]

theorem qknorm_costs (t : T) (name : String) (d : Nat) (ht : t.shape = [c.batch, c.seq, d]) :
    Costs c x past cache (addQkNorm c t name) (Has [c.batch, c.seq, d]) ⟨tokens c * normOps d, 0, 0, tokens c * d, 0, c.headSize, 0⟩ := by
  unfold addQkNorm
  refine costs_eq (costs_emit (f := ⟨tokens c * normOps d, tokens c * d, c.headSize, 0⟩) ?_ ht) ?_
  · simp only [emitFig, List.map_cons, List.map_nil]
    rw [mark_dyn (by rw [ht]; simp) (by rw [ht]; simp), mark_static (List.mem_singleton.2 rfl)]
    simp [opFig, base, statics, ht, vol3, vol1, lnMacs, tokens, normOps, MUL, ADD, SQRT, DIV]
    ring
  · simp [rowTot, isMM]

theorem softcap_costs (t : T) (name : String) (d : Nat) (ht : t.shape = [c.batch, c.seq, d]) :
    Costs c x past cache (addSoftcapping t name) (Has [c.batch, c.seq, d]) ⟨tokens c * (43 * d), 0, 0, tokens c * d, 0, Profile.volume [], 0⟩ := by
  unfold addSoftcapping
  refine costs_eq (costs_emit (f := ⟨tokens c * (43 * d), tokens c * d, Profile.volume [], 0⟩) ?_ ht) ?_
  · simp only [emitFig, List.map_cons, List.map_nil]
    rw [mark_dyn (by rw [ht]; simp) (by rw [ht]; simp), mark_static (List.mem_singleton.2 rfl)]
    simp [opFig, base, statics, ht, vol3, tokens, pointwise, TANH, EXP, ADD, DIV, MUL]
    ring
  · simp [rowTot, isMM]

theorem rope_costs (t : T) (name : String) (d : Nat) (ht : t.shape = [c.batch, c.seq, d]) :
    Costs c x past cache (addRope c t name) (Has [c.batch, c.seq, d])
      ⟨tokens c * (80 * d), 0, 0, tokens c * d, 0, 2 * (min c.seq c.maxPos * (c.rotaryDim / 2)), 0⟩ := by
  unfold addRope
  refine costs_eq (costs_emit (f := ⟨tokens c * (80 * d), tokens c * d, 2 * (min c.seq c.maxPos * (c.rotaryDim / 2)), 0⟩) ?_ ht) ?_
  · simp only [emitFig, List.map_cons, List.map_nil]
    rw [mark_dyn (by simp) (by rw [ht]; simp)]
    have h4 : ∀ (e : Emit), mark c e ⟨"position", [c.batch, c.seq]⟩ = (decide ((⟨"position", [c.batch, c.seq]⟩ : T) ∈ e.statics), [c.batch, c.seq]) := by
      intro e
      simp only [mark, tables, List.mem_cons, T.mk.injEq, String.reduceEq, false_and, List.not_mem_nil, or_false]
    rw [h4]
    simp only [mark, tables, List.not_mem_nil, List.mem_cons, true_or, or_true, decide_true, decide_false]
    simp only [opFig, String.reduceEq, if_false, if_true, ht, List.append_nil]
    simp [ropeStatics, pointwise, vol3, tokens, COS, SIN, MUL]
    refine ⟨by ring, ?_⟩
    by_cases h : c.seq < c.maxPos
    · rw [if_pos h, Nat.min_eq_left (by omega)]; omega
    · rw [if_neg h, Nat.min_eq_right (by omega)]
      simp [Profile.volume]; omega
  · simp [rowTot, isMM]

/-- the operands an attention node has after `add_kv_cache`, and the number of keys -/
inductive CacheIs (c : Cfg) (past : Nat) : List (Bool × List Nat) → Nat → Prop
  | none : CacheIs c past [] c.seq
  | some {ctx n m : Nat} (h : past + c.seq ≤ ctx) : CacheIs c past [(false, []), (false, [c.batch, n, ctx, m])] (past + c.seq)

theorem mha_costs {keys : Nat} (hc : CacheIs c past cache keys) (q k v : T) (layer : Nat) (name : String)
    (sq : q.shape = [c.batch, c.seq, c.heads * c.headSize]) (sk : k.shape = [c.batch, c.seq, c.kvHeads * c.headSize])
    (sv : v.shape = [c.batch, c.seq, c.kvHeads * c.headSize]) :
    Costs c x past cache (addMha c q k v layer name) (Has [c.batch, c.seq, c.heads * c.headSize])
      ⟨attentionOps c keys, 0, 0, tokens c * qDim c, 0, 0, c.batch * keys * (kvDim c * 2)⟩ := by
  unfold addMha
  refine costs_eq (costs_emit (f := ⟨attentionOps c keys, tokens c * qDim c, 0, c.batch * keys * (kvDim c * 2)⟩) ?_ rfl) ?_
  · simp only [emitFig, List.map_cons, List.map_nil]
    rw [mark_dyn (by simp) (by rw [sq]; simp), mark_dyn (by simp) (by rw [sk]; simp), mark_dyn (by simp) (by rw [sv]; simp)]
    cases hc with
    | none =>
      simp [opFig, sq, sdpaMacs, base, statics, vol3, tokens, attentionOps, qDim, kvDim, EXP, DIV]
      constructor <;> ring
    | some h =>
      simp [opFig, sq, sdpaCacheMacs, h, base, statics, vol3, tokens, attentionOps, qDim, kvDim, EXP, DIV]
      constructor <;> ring
  · simp [rowTot, isMM]

theorem moe_costs (p : String) (t : T) (ht : t.shape = [c.batch, c.seq, c.hidden]) :
    Costs c x past cache (addMoe c p t) (Has [c.batch, c.seq, c.hidden])
      ⟨tokens c * moeOps c x.topK, 0, 0, tokens c * (2 * c.hidden), moeRead c x.topK, 0, 0⟩ := by
  unfold addMoe
  refine costs_eq (costs_emit (f := ⟨tokens c * moeOps c x.topK, tokens c * (2 * c.hidden), moeRead c x.topK, 0⟩) ?_ rfl) ?_
  · simp only [emitFig, List.map_cons]
    rw [show mark c _ t = (_, t.shape) from rfl, ht]
    simp only [opFig, String.reduceEq, or_self, if_false, if_true, List.cons_append, MoE.profile, Except.ok.injEq, Fig.mk.injEq, and_true]
    refine ⟨?_, ?_, ?_⟩
    · simp only [tokens, moeOps, EXP, MUL, ADD]
      cases c.noSharedExpert <;> cases c.noSharedGate <;> simp <;> ring
    · simp only [tokens]; ring
    · simp only [tokens, moeRead]
      by_cases h : c.batch * c.seq * x.topK < c.numExperts
      · rw [if_pos h, Nat.min_eq_left (by omega)]; cases c.noSharedExpert <;> simp <;> ring
      · rw [if_neg h, Nat.min_eq_right (by omega)]; cases c.noSharedExpert <;> simp <;> ring
  · simp [rowTot, isMM]

/-! ### Blocks -/

theorem mlp_costs (w : WMap) (hact : c.phi3 = true ∨ c.act = "silu" ∨ c.act = "gelu_new") (p : String) (t : T)
    (ht : t.shape = [c.batch, c.seq, c.hidden]) :
    Costs c x past cache (addMlp c w p t) (Has [c.batch, c.seq, c.hidden])
      ⟨tokens c * (mlpParams c + mlpOps c), tokens c * mlpParams c, mlpParams c,
       tokens c * ((if c.phi3 then 3 else if c.mlpGate then 4 else 2) * c.inter + c.hidden), mlpParams c, 0, 0⟩ := by
  unfold addMlp mlpParams mlpOps actOps
  by_cases hp : c.phi3 = true
  · simp only [hp, if_true]
    refine costs_eq (costs_bind (mm_costs t _ _ _ _ ht) fun t1 s1 => costs_bind (gegelu_costs t1 _ c.inter s1) fun t2 s2 => mm_costs t2 _ _ _ _ s2) ?_
    ext <;> simp <;> ring
  · have hp' : c.phi3 = false := by simpa using hp
    have hact' := hact.resolve_left hp
    simp only [hp', Bool.false_eq_true, if_false]
    by_cases hg : c.mlpGate = true
    · simp only [hg, if_true]
      refine costs_eq (costs_bind (mm_costs t _ _ _ _ ht) fun t1 s1 => costs_bind (mm_costs t _ _ _ _ ht) fun t2 s2 =>
        costs_bind (act_costs t2 _ _ _ hact' s2) fun t3 s3 => costs_bind (eltop_costs t1 t3 "Mul" _ _ (.inr rfl) s1 s3) fun t4 s4 =>
        mm_costs t4 _ _ _ _ s4) ?_
      ext <;> simp only [Tot.add_def, Bool.not_false, Bool.and_true, if_true] <;> ring
    · have hg' : c.mlpGate = false := by simpa using hg
      simp only [hg', Bool.false_eq_true, if_false]
      refine costs_eq (costs_bind (mm_costs t _ _ _ _ ht) fun t1 s1 =>
        costs_bind (act_costs t1 _ _ _ hact' s1) fun t3 s3 => mm_costs t3 _ _ _ _ s3) ?_
      ext <;> simp only [Tot.add_def, Bool.not_false, Bool.and_false, Bool.false_eq_true, if_false] <;> ring

/-- queries, keys, values and the optional gate -/
def ProjShapes (c : Cfg) (r : T × T × T × Option T) : Prop :=
  r.1.shape = [c.batch, c.seq, c.heads * c.headSize] ∧ r.2.1.shape = [c.batch, c.seq, c.kvHeads * c.headSize] ∧
  r.2.2.1.shape = [c.batch, c.seq, c.kvHeads * c.headSize] ∧
  (if c.qkvGated then ∃ g, r.2.2.2 = some g ∧ g.shape = [c.batch, c.seq, c.heads * c.headSize] else r.2.2.2 = none)

def projWeights (c : Cfg) : Nat :=
  if c.qkvGated then linear c.hidden (qDim c * 2) c.qkvBias + 2 * linear c.hidden (kvDim c) c.qkvBias
   else if c.fuseQkv then linear c.hidden (qDim c + kvDim c + kvDim c) c.qkvBias
   else linear c.hidden (qDim c) c.qkvBias + 2 * linear c.hidden (kvDim c) c.qkvBias

theorem projections_costs (w : WMap) (p : String) (t : T) (ht : t.shape = [c.batch, c.seq, c.hidden]) :
    Costs c x past cache (addProjections c w p t) (ProjShapes c)
      ⟨tokens c * projWeights c, tokens c * projWeights c, projWeights c,
       tokens c * (if c.qkvGated then 4 * qDim c + 2 * kvDim c else (if c.fuseQkv then 2 else 1) * (qDim c + 2 * kvDim c)),
       projWeights c, (if c.qkvGated then 2 * 4 else if c.fuseQkv then 3 * 4 else 0), 0⟩ := by
  unfold addProjections projWeights ProjShapes
  by_cases hg : c.qkvGated = true
  · simp only [hg, if_true, addQkvGated]
    refine costs_eq (costs_bind (costs_bind (mm_costs t _ _ _ _ ht) fun t1 s1 => costs_bind (mm_costs t _ _ _ _ ht) fun t2 s2 =>
      costs_bind (mm_costs t _ _ _ _ ht) fun t3 s3 => costs_bind (slice_costs t1 _ _ _ _ s1) fun t4 s4 =>
      costs_bind (slice_costs t1 _ _ _ _ s1) fun t5 s5 =>
      costs_pure (Q := fun r : T × T × T × T => Has [c.batch, c.seq, c.heads * c.headSize] r.1 ∧ Has [c.batch, c.seq, c.kvHeads * c.headSize] r.2.1 ∧
        Has [c.batch, c.seq, c.kvHeads * c.headSize] r.2.2.1 ∧ Has [c.batch, c.seq, c.heads * c.headSize] r.2.2.2) ⟨s4, s2, s3, s5⟩)
      fun r hr => costs_pure ⟨hr.1, hr.2.1, hr.2.2.1, _, rfl, hr.2.2.2⟩) ?_
    simp only [qDim, kvDim, Tot.zero]
    ext <;> simp <;> ring
  · have hg' : c.qkvGated = false := by simpa using hg
    simp only [hg', Bool.false_eq_true, if_false, addQkv]
    by_cases hf : c.fuseQkv = true
    · simp only [hf, if_true]
      refine costs_eq (costs_bind (costs_bind (mm_costs t _ _ _ _ ht) fun t1 s1 => costs_bind (slice_costs t1 _ _ _ _ s1) fun t2 s2 =>
        costs_bind (slice_costs t1 _ _ _ _ s1) fun t3 s3 => costs_bind (slice_costs t1 _ _ _ _ s1) fun t4 s4 =>
        costs_pure (Q := fun r : T × T × T => Has [c.batch, c.seq, c.heads * c.headSize] r.1 ∧ Has [c.batch, c.seq, c.kvHeads * c.headSize] r.2.1 ∧
          Has [c.batch, c.seq, c.kvHeads * c.headSize] r.2.2) ⟨s2, s3, s4⟩)
        fun r hr => costs_pure ⟨hr.1, hr.2.1, hr.2.2, rfl⟩) ?_
      simp only [qDim, kvDim, Tot.zero]
      ext <;> simp; all_goals ring
    · have hf' : c.fuseQkv = false := by simpa using hf
      simp only [hf', Bool.false_eq_true, if_false]
      refine costs_eq (costs_bind (costs_bind (mm_costs t _ _ _ _ ht) fun t1 s1 => costs_bind (mm_costs t _ _ _ _ ht) fun t2 s2 =>
        costs_bind (mm_costs t _ _ _ _ ht) fun t3 s3 =>
        costs_pure (Q := fun r : T × T × T => Has [c.batch, c.seq, c.heads * c.headSize] r.1 ∧ Has [c.batch, c.seq, c.kvHeads * c.headSize] r.2.1 ∧
          Has [c.batch, c.seq, c.kvHeads * c.headSize] r.2.2) ⟨s1, s2, s3⟩)
        fun r hr => costs_pure ⟨hr.1, hr.2.1, hr.2.2, rfl⟩) ?_
      simp only [qDim, kvDim, Tot.zero]
      ext <;> simp <;> ring

def QKShapes (c : Cfg) (r : T × T) : Prop :=
  r.1.shape = [c.batch, c.seq, c.heads * c.headSize] ∧ r.2.shape = [c.batch, c.seq, c.kvHeads * c.headSize]

theorem qknorms_costs (p : String) (q k : T) (h : QKShapes c (q, k)) :
    Costs c x past cache (addQkNorms c p q k) (QKShapes c)
      ⟨tokens c * (if c.qkNorm then normOps (qDim c) + normOps (kvDim c) else 0), 0, 0, tokens c * (if c.qkNorm then qDim c + kvDim c else 0), 0,
       (if c.qkNorm then 2 * c.headSize else 0), 0⟩ := by
  unfold addQkNorms
  split
  · refine costs_eq (costs_bind (qknorm_costs q _ _ h.1) fun t1 s1 => costs_bind (qknorm_costs k _ _ h.2) fun t2 s2 => costs_pure ⟨s1, s2⟩) ?_
    simp only [qDim, kvDim, Tot.zero]
    ext <;> simp <;> ring
  · exact costs_pure h

theorem ropes_costs (p : String) (q k : T) (h : QKShapes c (q, k)) :
    Costs c x past cache (addRopes c p q k) (QKShapes c)
      ⟨tokens c * (if c.qkRope then 80 * (qDim c + kvDim c) else 0), 0, 0, tokens c * (if c.qkRope then qDim c + kvDim c else 0), 0,
       (if c.qkRope then 4 * (min c.seq c.maxPos * (c.rotaryDim / 2)) else 0), 0⟩ := by
  unfold addRopes
  split
  · refine costs_eq (costs_bind (rope_costs q _ _ h.1) fun t1 s1 => costs_bind (rope_costs k _ _ h.2) fun t2 s2 => costs_pure ⟨s1, s2⟩) ?_
    simp only [qDim, kvDim, Tot.zero]
    ext <;> simp <;> ring
  · exact costs_pure h

theorem gate_costs (p : String) (cur : T) (gate : Option T) (hc : cur.shape = [c.batch, c.seq, c.heads * c.headSize])
    (hg : if c.qkvGated then ∃ g, gate = some g ∧ g.shape = [c.batch, c.seq, c.heads * c.headSize] else gate = none) :
    Costs c x past cache (addGate p cur gate) (Has [c.batch, c.seq, c.heads * c.headSize])
      ⟨tokens c * (if c.qkvGated then 34 * qDim c else 0), 0, 0, tokens c * (if c.qkvGated then 2 * qDim c else 0), 0, 0, 0⟩ := by
  split at hg
  · obtain ⟨g, rfl, sg⟩ := hg
    unfold addGate
    refine costs_eq (costs_bind (act_costs g "silu" _ _ (.inl rfl) sg) fun t1 s1 => eltop_costs cur t1 "Mul" _ _ (.inr rfl) hc s1) ?_
    simp only [qDim]
    ext <;> simp [*] <;> ring
  · subst hg
    rename_i hq
    simp only [hq]
    exact costs_pure hc

theorem attention_costs {keys : Nat} (hc : CacheIs c past cache keys) (w : WMap) (i : Nat) (p : String) (t : T)
    (ht : t.shape = [c.batch, c.seq, c.hidden]) :
    Costs c x past cache (addAttention c w i p t) (Has [c.batch, c.seq, c.hidden])
      ⟨tokens c * (attnWeights c + (if c.qkNorm then normOps (qDim c) + normOps (kvDim c) else 0) +
         (if c.qkRope then 80 * (qDim c + kvDim c) else 0) + (if c.qkvGated then 34 * qDim c else 0)) + attentionOps c keys,
       tokens c * attnWeights c, attnWeights c,
       tokens c * ((if c.qkvGated then 4 * qDim c + 2 * kvDim c else (if c.fuseQkv then 2 else 1) * (qDim c + 2 * kvDim c)) +
         (if c.qkNorm then qDim c + kvDim c else 0) + (if c.qkRope then qDim c + kvDim c else 0) + qDim c + (if c.qkvGated then 2 * qDim c else 0) + c.hidden),
       attnWeights c,
       (if c.qkNorm then 2 * c.headSize else 0) + (if c.qkvGated then 2 * 4 else if c.fuseQkv then 3 * 4 else 0) +
         (if c.qkRope then 4 * (min c.seq c.maxPos * (c.rotaryDim / 2)) else 0),
       c.batch * keys * (kvDim c * 2)⟩ := by
  unfold addAttention
  refine costs_eq (costs_bind (projections_costs w p t ht) fun r hr => costs_bind (qknorms_costs p _ _ ⟨hr.1, hr.2.1⟩) fun n hn =>
    costs_bind (ropes_costs p _ _ hn) fun e he => costs_bind (mha_costs hc _ _ _ i _ he.1 he.2 hr.2.2.1) fun t1 s1 =>
    costs_bind (gate_costs p t1 _ s1 hr.2.2.2) fun t2 s2 => mm_costs t2 _ _ _ _ s2) ?_
  have e : attnWeights c = projWeights c + linear (c.heads * c.headSize) c.hidden c.oBias := rfl
  rw [e]
  ext <;> simp only [Tot.add_def] <;> ring

theorem optnorm_costs (on : Bool) (t : T) (name : String) (ht : t.shape = [c.batch, c.seq, c.hidden]) :
    Costs c x past cache (addOptNorm c on t name) (Has [c.batch, c.seq, c.hidden])
      ⟨tokens c * ((if on then 1 else 0) * normOps c.hidden), 0, 0, tokens c * ((if on then 1 else 0) * c.hidden), 0, (if on then 1 else 0) * norm c, 0⟩ := by
  unfold addOptNorm
  split
  · simpa using layernorm_costs t name ht
  · refine costs_eq (costs_pure ht) ?_
    ext <;> simp [Tot.zero]

def ffnWeights (c : Cfg) : Nat := if c.isMoe then 0 else mlpParams c

theorem ffn_costs (w : WMap) (hact : c.isMoe = true ∨ c.phi3 = true ∨ c.act = "silu" ∨ c.act = "gelu_new") (p : String) (t : T)
    (ht : t.shape = [c.batch, c.seq, c.hidden]) :
    Costs c x past cache (addFfn c w p t) (Has [c.batch, c.seq, c.hidden])
      ⟨tokens c * (ffnWeights c + if c.isMoe then moeOps c x.topK else mlpOps c), tokens c * ffnWeights c, ffnWeights c,
       tokens c * (if c.isMoe then 2 * c.hidden else (if c.phi3 then 3 else if c.mlpGate then 4 else 2) * c.inter + c.hidden),
       ffnWeights c + (if c.isMoe then moeRead c x.topK else 0), 0, 0⟩ := by
  unfold addFfn ffnWeights
  split
  · simpa using moe_costs p t ht
  · rename_i hm
    simpa using mlp_costs w (hact.resolve_left hm) p t ht

theorem layer_costs {keys : Nat} (hc : CacheIs c past cache keys) (w : WMap) (i : Nat) (hi : ¬ linearLayer c i) (hm : c.isMla = false)
    (hact : c.isMoe = true ∨ c.phi3 = true ∨ c.act = "silu" ∨ c.act = "gelu_new") (t : T) (ht : t.shape = [c.batch, c.seq, c.hidden]) :
    Costs c x past cache (addLayer c w i t) (Has [c.batch, c.seq, c.hidden])
      ⟨tokens c * (layerWeights c + layerOps c x.topK) + attentionOps c keys, tokens c * layerWeights c, layerWeights c, tokens c * layerWritten c,
       layerWeights c + (if c.isMoe then moeRead c x.topK else 0),
       (2 + (if c.postAttnNorm then 1 else 0) + (if c.postMlpNorm then 1 else 0)) * norm c +
         ((if c.qkNorm then 2 * c.headSize else 0) + (if c.qkvGated then 2 * 4 else if c.fuseQkv then 3 * 4 else 0) +
         (if c.qkRope then 4 * (min c.seq c.maxPos * (c.rotaryDim / 2)) else 0)),
       c.batch * keys * (kvDim c * 2)⟩ := by
  unfold addLayer
  have hmix : ∀ t : T, t.shape = [c.batch, c.seq, c.hidden] → addMixer c w i (layerName w i) t = addAttention c w i (layerName w i) t := by
    intro t _
    unfold addMixer
    rw [if_neg (fun h => hi ((isGdn_iff c i).1 h)), if_neg (by simp [hm])]
  refine costs_eq (costs_bind (layernorm_costs t _ ht) fun t1 s1 => costs_bind (by rw [hmix t1 s1]; exact attention_costs hc w i _ t1 s1) fun t2 s2 =>
    costs_bind (optnorm_costs _ t2 _ s2) fun t3 s3 => costs_bind (eltop_costs t t3 "Add" _ _ (.inl rfl) ht s3) fun t4 s4 =>
    costs_bind (layernorm_costs t4 _ s4) fun t5 s5 => costs_bind (ffn_costs w hact _ t5 s5) fun t6 s6 =>
    costs_bind (optnorm_costs _ t6 _ s6) fun t7 s7 => eltop_costs t4 t7 "Add" _ _ (.inl rfl) s4 s7) ?_
  have e : layerWeights c = attnWeights c + ffnWeights c := rfl
  rw [e]
  unfold layerOps layerWritten
  ext <;> simp only [Tot.add_def] <;> ring

theorem layers_costs {keys : Nat} (hc : CacheIs c past cache keys) (w : WMap) (hm : c.isMla = false)
    (hact : c.isMoe = true ∨ c.phi3 = true ∨ c.act = "silu" ∨ c.act = "gelu_new") (t : T) (ht : t.shape = [c.batch, c.seq, c.hidden]) : ∀ (n : Nat),
    (∀ i, i < n → ¬ linearLayer c i) → Costs c x past cache (addLayers c w t n) (Has [c.batch, c.seq, c.hidden])
      ⟨n * (tokens c * (layerWeights c + layerOps c x.topK) + attentionOps c keys), n * (tokens c * layerWeights c), n * layerWeights c,
       n * (tokens c * layerWritten c), n * (layerWeights c + (if c.isMoe then moeRead c x.topK else 0)),
       n * ((2 + (if c.postAttnNorm then 1 else 0) + (if c.postMlpNorm then 1 else 0)) * norm c +
         ((if c.qkNorm then 2 * c.headSize else 0) + (if c.qkvGated then 2 * 4 else if c.fuseQkv then 3 * 4 else 0) +
         (if c.qkRope then 4 * (min c.seq c.maxPos * (c.rotaryDim / 2)) else 0))),
       n * (c.batch * keys * (kvDim c * 2))⟩ := by
  intro n
  induction n with
  | zero =>
    intro _
    refine costs_eq (costs_pure ht) ?_
    ext <;> simp [Tot.zero]
  | succ n ih =>
    intro h
    refine costs_eq (costs_bind (ih fun i hi => h i (by omega)) fun t1 s1 => layer_costs hc w n (h n (by omega)) hm hact t1 s1) ?_
    ext <;> simp only [Tot.add_def] <;> ring

theorem pos_costs (w : WMap) (h : CfgOk c w) (t : T) (ht : t.shape = [c.batch, c.seq, c.hidden]) :
    Costs c x past cache (addPos c w t) (Has [c.batch, c.seq, c.hidden])
      ⟨tokens c * (if c.posEmbedding then c.hidden else 0), 0, 0, tokens c * (if c.posEmbedding then 2 * c.hidden else 0),
       (if c.posEmbedding then tokens c * c.hidden else 0), 0, 0⟩ := by
  unfold addPos
  by_cases hp : c.posEmbedding = true
  · simp only [hp, if_true]
    have := h.pos hp
    cases hw : w.pos with
    | none => rw [hw] at this; cases this
    | some pos =>
      refine costs_eq (costs_bind (embedding_costs (positionT c) _ _ rfl) fun t2 s2 => eltop_costs t2 t "Add" _ _ (.inl rfl) s2 ht) ?_
      ext <;> simp; all_goals ring
  · have hp' : c.posEmbedding = false := by simpa using hp
    simp only [hp', Bool.false_eq_true, if_false]
    exact costs_pure ht

theorem build_costs {keys : Nat} (hc : CacheIs c past cache keys) (w : WMap) (h : CfgOk c w) (hs : Standard c) :
    Costs c x past cache (build c w) (Has [c.batch, c.seq, c.vocab])
      ⟨LlmCost.macs c x.topK keys, tokens c * matmulWeights c, matmulWeights c, written c, weightsRead c x.topK, othersRead c, cached c keys⟩ := by
  unfold build
  refine costs_eq (costs_bind (embedding_costs (idsT c) _ _ rfl) fun t1 s1 => costs_bind (pos_costs w h t1 s1) fun t2 s2 =>
    costs_bind (layers_costs hc w hs.1 h.act t2 s2 c.layers fun i hi => hs.2 i (List.mem_range.2 hi)) fun t3 s3 =>
    costs_bind (costs_bind (layernorm_costs t3 _ s3) fun t4 s4 => mm_costs t4 _ _ _ _ s4) fun t5 s5 =>
    (show Costs c x past cache (if c.softcap then addSoftcapping t5 "models.final_logit_softcapping" else pure t5) (Has [c.batch, c.seq, c.vocab])
      ⟨tokens c * (if c.softcap then 43 * c.vocab else 0), 0, 0, tokens c * (if c.softcap then c.vocab else 0), 0, 0, 0⟩ from ?_)) ?_
  · split
    · exact softcap_costs t5 _ _ s5
    · exact costs_pure s5
  · unfold LlmCost.macs matmulWeights written weightsRead othersRead cached
    ext <;> simp only [Tot.add_def]
    · ring
    · ring
    · ring
    · by_cases h1 : c.posEmbedding = true <;> by_cases h2 : c.softcap = true <;> simp only [h1, h2, if_true, if_false, Bool.false_eq_true] <;> ring
    · unfold matmulWeights
      by_cases h1 : c.posEmbedding = true <;> by_cases h2 : c.isMoe = true <;> simp only [h1, h2, if_true, if_false, Bool.false_eq_true] <;> ring
    · ring
    · ring

end OnnxTool.LlmCost
