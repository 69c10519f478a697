import Verif.Spec.Builder
import Verif.Proofs.Dict
import Mathlib.Data.List.Nodup
import Std.Data.String.ToNat
/-!
# The builder: availability, shapes, names and parameters of what is added
-/
namespace OnnxTool.Builder
open OnnxTool

/-! ### The writer -/

theorem bind_fst {α β : Type} (x : W α) (f : α → W β) : (x >>= f).1 = (f x.1).1 := rfl
theorem bind_snd {α β : Type} (x : W α) (f : α → W β) : (x >>= f).2 = x.2 ++ (f x.1).2 := rfl
theorem pure_fst {α : Type} (a : α) : (pure a : W α).1 = a := rfl
theorem pure_snd {α : Type} (a : α) : (pure a : W α).2 = [] := rfl

/-! ### Availability and shapes -/

/-- tensors available after the calls `es`, if `A` were available before -/
def After (A : T → Prop) (es : List Emit) : T → Prop := fun t => A t ∨ ∃ e ∈ es, t = e.out

/-- a rotary embedding reads the shared tables, an attention node knows its layer -/
def RopeReads (c : Cfg) (e : Emit) : Prop :=
  (e.op = "Rope" → ⟨"rope.cos", [1, 1, c.maxPos, c.rotaryDim / 2]⟩ ∈ e.ins ∧ ⟨"rope.sin", [1, 1, c.maxPos, c.rotaryDim / 2]⟩ ∈ e.ins) ∧
  (e.op = "SDPA" → e.layer.isSome ∧ ∀ x ∈ e.ins, x.shape.take 2 = [c.batch, c.seq])

/-- every call finds its operands, does not raise, names its output after itself and declares the right shape -/
def Chain (c : Cfg) : (T → Prop) → List Emit → Prop
  | _, [] => True
  | A, e :: es => (∀ x ∈ e.ins, A x ∨ x ∈ e.statics) ∧ (∀ x ∈ e.statics, x ∈ e.ins) ∧ e.err = none ∧
      e.out.name = e.name ++ ".output" ∧ opRule c e.op e.slice (e.ins.map (·.shape)) = some e.out.shape ∧
      RopeReads c e ∧ Chain c (After A [e]) es

theorem after_nil (A : T → Prop) : After A [] = A := by funext t; simp [After]

theorem after_append (A : T → Prop) (l m : List Emit) : After A (l ++ m) = After (After A l) m := by
  funext t; simp only [After, List.mem_append, eq_iff_iff]
  constructor
  · rintro (h | ⟨e, h | h, he⟩)
    · exact .inl (.inl h)
    · exact .inl (.inr ⟨e, h, he⟩)
    · exact .inr ⟨e, h, he⟩
  · rintro ((h | ⟨e, h, he⟩) | ⟨e, h, he⟩)
    · exact .inl h
    · exact .inr ⟨e, .inl h, he⟩
    · exact .inr ⟨e, .inr h, he⟩

theorem chain_append {c : Cfg} (l m : List Emit) : ∀ (A : T → Prop), Chain c A l → Chain c (After A l) m → Chain c A (l ++ m) := by
  induction l with
  | nil => intro A _ h; rw [after_nil] at h; exact h
  | cons e l ih =>
    intro A hl hm
    obtain ⟨h1, h2, h3, h4, h5, h7, h6⟩ := hl
    refine ⟨h1, h2, h3, h4, h5, h7, ih _ h6 ?_⟩
    rw [← after_append]; exact hm

/-- Hoare triple: from available tensors `A` the calls are fine and the result satisfies `Q` with what is then available. -/
def Runs (c : Cfg) {α : Type} (A : T → Prop) (m : W α) (Q : α → (T → Prop) → Prop) : Prop :=
  Chain c A m.2 ∧ Q m.1 (After A m.2)

theorem runs_bind {c : Cfg} {α β : Type} {A : T → Prop} {m : W α} {f : α → W β} {Q : β → (T → Prop) → Prop}
    (h : Runs c A m (fun a B => Runs c B (f a) Q)) : Runs c A (m >>= f) Q := by
  obtain ⟨h1, h2, h3⟩ := h
  refine ⟨chain_append _ _ _ h1 h2, ?_⟩
  rw [bind_snd, after_append]; exact h3

theorem runs_pure {c : Cfg} {α : Type} {A : T → Prop} {a : α} {Q : α → (T → Prop) → Prop} (h : Q a A) : Runs c A (pure a : W α) Q := by
  refine ⟨trivial, ?_⟩
  rw [pure_snd, after_nil]; exact h

theorem runs_mono {c : Cfg} {α : Type} {A : T → Prop} {m : W α} {P Q : α → (T → Prop) → Prop} (h : Runs c A m P)
    (hi : ∀ a B, P a B → Q a B) : Runs c A m Q := ⟨h.1, hi _ _ h.2⟩

/-- the usual result: a tensor of shape `sh` is available and nothing is lost -/
def Res (A : T → Prop) (sh : List Nat) (t : T) (B : T → Prop) : Prop := B t ∧ t.shape = sh ∧ ∀ x, A x → B x

theorem runs_emit {c : Cfg} {A : T → Prop} {e : Emit} (h1 : ∀ x ∈ e.ins, A x ∨ x ∈ e.statics) (h2 : ∀ x ∈ e.statics, x ∈ e.ins)
    (h3 : e.err = none) (h4 : e.out.name = e.name ++ ".output")
    (h5 : opRule c e.op e.slice (e.ins.map (·.shape)) = some e.out.shape)
    (h6 : RopeReads c e := by constructor <;> intro h <;> simp at h) : Runs c A (emit e) (Res A e.out.shape) :=
  ⟨⟨h1, h2, h3, h4, h5, h6, trivial⟩, .inr ⟨e, by simp [emit], rfl⟩, rfl, fun _ h => .inl h⟩

theorem runs_let {c : Cfg} {α : Type} {A : T → Prop} {m : W T} {sh : List Nat} {f : T → W α} {Q : α → (T → Prop) → Prop}
    (h : Runs c A m (Res A sh)) (k : ∀ t B, B t → t.shape = sh → (∀ x, A x → B x) → Runs c B (f t) Q) : Runs c A (m >>= f) Q :=
  runs_bind (runs_mono h fun t B r => k t B r.1 r.2.1 r.2.2)

theorem res_trans {A B C : T → Prop} {sh : List Nat} {t : T} (h : ∀ x, A x → B x) (r : Res B sh t C) : Res A sh t C :=
  ⟨r.1, r.2.1, fun x hx => r.2.2 x (h x hx)⟩

theorem runs_tail {c : Cfg} {A B : T → Prop} {m : W T} {sh : List Nat} (h : ∀ x, A x → B x) (r : Runs c B m (Res B sh)) :
    Runs c B m (Res A sh) := runs_mono r fun _ _ => res_trans h

variable {c : Cfg} {A : T → Prop}

theorem embedding_runs (inp : T) (n : Nat) (name : String) (ha : A inp) (hs : inp.shape = [c.batch, c.seq]) :
    Runs c A (addEmbedding c inp n name) (Res A [c.batch, c.seq, c.hidden]) := by
  refine runs_emit ?_ ?_ rfl rfl ?_
  · intro x hx; simp only [List.mem_cons, List.not_mem_nil, or_false] at hx ⊢
    rcases hx with rfl | rfl
    · exact .inr rfl
    · exact .inl ha
  · intro x hx; simp only [List.mem_cons, List.not_mem_nil, or_false] at hx ⊢; exact .inl hx
  · simp [opRule, hs]

theorem layernorm_runs (heps : c.rmsEps = true ∨ c.lnEps = true) (inp : T) (name : String) (ha : A inp)
    (hs : inp.shape = [c.batch, c.seq, c.hidden]) :
    Runs c A (addLayernorm c inp name) (Res A [c.batch, c.seq, c.hidden]) := by
  rw [← hs]
  refine runs_emit ?_ ?_ ?_ rfl ?_
  · intro x hx; rcases List.mem_cons.1 hx with rfl | h
    · exact .inl ha
    · exact .inr h
  · intro x hx; exact List.mem_cons_of_mem _ hx
  · simp only [Bool.or_eq_true]; rw [if_pos heps]
  · have : (normWeights c name).map (·.shape) = if c.normScale then [c.hidden] :: (if c.normBias then [[c.hidden]] else []) else [] := by
      unfold normWeights; split
      · split <;> rfl
      · rfl
    simp only [List.map_cons, this, opRule]
    rw [if_neg (by decide), if_pos trivial, if_pos]
    rw [hs]; split
    · split <;> simp
    · simp

theorem act_runs (inp : T) (act name : String) (hact : act = "silu" ∨ act = "gelu_new") (ha : A inp) :
    Runs c A (addAct inp act name) (Res A inp.shape) := by
  rcases hact with rfl | rfl <;> refine runs_emit ?_ ?_ rfl rfl ?_ ⟨fun h => by simp [actOp] at h, fun h => by simp [actOp] at h⟩ <;> simp [ha, actOp, opRule]

theorem rope_runs (inp : T) (name : String) (ha : A inp) (h1 : A ⟨"rope.cos", [1, 1, c.maxPos, c.rotaryDim / 2]⟩)
    (h2 : A ⟨"rope.sin", [1, 1, c.maxPos, c.rotaryDim / 2]⟩) (h3 : A (positionT c)) :
    Runs c A (addRope c inp name) (Res A inp.shape) := by
  refine runs_emit ?_ ?_ rfl rfl ?_ ⟨fun _ => by simp, fun h => by simp at h⟩
  · intro x hx; simp only [List.mem_cons, List.not_mem_nil, or_false] at hx
    rcases hx with rfl | rfl | rfl | rfl
    · exact .inl ha
    · exact .inl h1
    · exact .inl h2
    · exact .inl h3
  · simp
  · simp [opRule]

theorem eltop_runs (a b : T) (op name : String) (hop : op = "Add" ∨ op = "Mul") (ha : A a) (hb : A b) (hs : a.shape = b.shape) :
    Runs c A (addEltop a b op name) (Res A a.shape) := by
  have e : (Shape.maxLoop [a.shape, b.shape] (a.shape, Shape.volume a.shape)).1 = a.shape := by
    simp [Shape.maxLoop, ← hs]
  unfold addEltop
  rw [e]
  refine runs_emit ?_ (by simp) rfl rfl ?_ ⟨fun h => ?_, fun h => ?_⟩
  · intro x hx; simp only [List.mem_cons, List.not_mem_nil, or_false] at hx
    rcases hx with rfl | rfl
    exacts [.inl ha, .inl hb]
  · rcases hop with rfl | rfl <;> simp [opRule, hs]
  · simp only at h; subst h; simp at hop
  · simp only at h; subst h; simp at hop

theorem mm_runs (inp : T) (fin fout : Nat) (bias : Bool) (name : String) (ha : A inp) (hs : inp.shape = [c.batch, c.seq, fin]) :
    Runs c A (addMm c inp fin fout bias name) (Res A [c.batch, c.seq, fout]) := by
  refine runs_emit ?_ ?_ rfl rfl ?_
  · intro x hx; rcases List.mem_cons.1 hx with rfl | h
    · exact .inl ha
    · exact .inr h
  · intro x hx; exact List.mem_cons_of_mem _ hx
  · cases bias <;> simp [opRule, mmWeights, hs]

theorem slice_runs (inp : T) (off size d : Nat) (name : String) (ha : A inp) (hs : inp.shape = [c.batch, c.seq, d]) (hd : off + size ≤ d) :
    Runs c A (addSlice inp off size name) (Res A [c.batch, c.seq, size]) := by
  have e : inp.shape.set 2 size = [c.batch, c.seq, size] := by rw [hs]; rfl
  unfold addSlice
  rw [e]
  refine runs_emit ?_ ?_ rfl rfl ?_
  · intro x hx; rcases List.mem_cons.1 hx with rfl | h
    · exact .inl ha
    · exact .inr h
  · intro x hx; exact List.mem_cons_of_mem _ hx
  · simp [opRule, hs, hd]

theorem mha_runs (q k v : T) (layer : Nat) (name : String) (hq : A q) (hk : A k) (hv : A v)
    (sq : q.shape = [c.batch, c.seq, c.heads * c.headSize]) (sk : k.shape = [c.batch, c.seq, c.kvHeads * c.headSize])
    (sv : v.shape = [c.batch, c.seq, c.kvHeads * c.headSize]) :
    Runs c A (addMha c q k v layer name) (Res A [c.batch, c.seq, c.heads * c.headSize]) := by
  refine runs_emit ?_ ?_ rfl rfl ?_ ⟨fun h => by simp at h, fun _ => ⟨rfl, by simp [sq, sk, sv]⟩⟩
  · intro x hx; simp only [List.mem_cons, List.not_mem_nil, or_false] at hx
    rcases hx with rfl | rfl | rfl
    exacts [.inl hq, .inl hk, .inl hv]
  · simp
  · simp [opRule, sq, sk, sv]

theorem qknorm_runs (heps : c.rmsEps = true) (inp : T) (name : String) (d : Nat) (ha : A inp)
    (hs : inp.shape = [c.batch, c.seq, d]) (hd : c.headSize ∣ d) :
    Runs c A (addQkNorm c inp name) (Res A [c.batch, c.seq, d]) := by
  rw [← hs]
  refine runs_emit ?_ ?_ (by simp [heps]) rfl ?_
  · intro x hx; simp only [List.mem_cons, List.not_mem_nil, or_false] at hx ⊢
    rcases hx with rfl | rfl
    · exact .inl ha
    · exact .inr rfl
  · intro x hx; exact List.mem_cons_of_mem _ hx
  · simp [opRule, hs, hd]

theorem gegelu_runs (inp : T) (name : String) (d : Nat) (ha : A inp) (hs : inp.shape = [c.batch, c.seq, d * 2]) :
    Runs c A (addGegelu inp name) (Res A [c.batch, c.seq, d]) := by
  unfold addGegelu
  have e : inp.shape.set (inp.shape.length - 1) (inp.shape.getD (inp.shape.length - 1) 0 / 2) = [c.batch, c.seq, d] := by
    rw [hs]; simp
  rw [e]
  refine runs_emit (by simp [ha]) (by simp) rfl rfl ?_
  simp [opRule, hs, Nat.dvd_mul_left]

theorem moe_runs (p : String) (inp : T) (ha : A inp) (hs : inp.shape = [c.batch, c.seq, c.hidden]) :
    Runs c A (addMoe c p inp) (Res A [c.batch, c.seq, c.hidden]) := by
  refine runs_emit ?_ ?_ rfl rfl ?_
  · intro x hx; rcases List.mem_cons.1 hx with rfl | h
    · exact .inl ha
    · exact .inr h
  · intro x hx; exact List.mem_cons_of_mem _ hx
  · simp [opRule, hs]

theorem mla_runs (hg : 0 < c.oGroups) (p : String) (inp : T) (ha : A inp) (hs : inp.shape = [c.batch, c.seq, c.hidden]) :
    Runs c A (addMla c p inp) (Res A [c.batch, c.seq, c.hidden]) := by
  refine runs_emit ?_ ?_ ?_ rfl ?_
  · intro x hx; rcases List.mem_cons.1 hx with rfl | h
    · exact .inl ha
    · exact .inr h
  · intro x hx; exact List.mem_cons_of_mem _ hx
  · simp only; rw [if_neg (by omega)]
  · simp [opRule, hs]

theorem softcap_runs (inp : T) (name : String) (ha : A inp) : Runs c A (addSoftcapping inp name) (Res A inp.shape) := by
  refine runs_emit ?_ ?_ rfl rfl ?_
  · intro x hx; simp only [List.mem_cons, List.not_mem_nil, or_false] at hx ⊢
    rcases hx with rfl | rfl
    · exact .inl ha
    · exact .inr rfl
  · intro x hx; exact List.mem_cons_of_mem _ hx
  · simp [opRule]

theorem mlp_runs (w : WMap) (hact : c.phi3 = true ∨ c.act = "silu" ∨ c.act = "gelu_new") (p : String) (inp : T) (ha : A inp)
    (hs : inp.shape = [c.batch, c.seq, c.hidden]) : Runs c A (addMlp c w p inp) (Res A [c.batch, c.seq, c.hidden]) := by
  unfold addMlp
  by_cases hp : c.phi3 = true
  · rw [if_pos hp]
    refine runs_let (mm_runs inp _ _ _ _ ha hs) fun t1 B1 b1 s1 m1 => ?_
    refine runs_let (gegelu_runs t1 _ _ b1 s1) fun t2 B2 b2 s2 m2 => ?_
    exact runs_tail (fun x hx => m2 x (m1 x hx)) (mm_runs t2 _ _ _ _ b2 s2)
  · rw [if_neg hp]
    have hact' := hact.resolve_left hp
    refine runs_let (mm_runs inp _ _ _ _ ha hs) fun t1 B1 b1 s1 m1 => ?_
    by_cases hg : c.mlpGate = true
    · rw [if_pos hg]
      refine runs_let (mm_runs inp _ _ _ _ (m1 _ ha) hs) fun t2 B2 b2 s2 m2 => ?_
      refine runs_let (act_runs t2 _ _ hact' b2) fun t3 B3 b3 s3 m3 => ?_
      refine runs_let (eltop_runs t1 t3 "Mul" _ (.inr rfl) (m3 _ (m2 _ b1)) b3 (by rw [s1, s3, s2])) fun t4 B4 b4 s4 m4 => ?_
      exact runs_tail (fun x hx => m4 x (m3 x (m2 x (m1 x hx)))) (mm_runs t4 _ _ _ _ b4 (by rw [s4, s1]))
    · rw [if_neg hg]
      refine runs_let (act_runs t1 _ _ hact' b1) fun t3 B3 b3 s3 m3 => ?_
      exact runs_tail (fun x hx => m3 x (m1 x hx)) (mm_runs t3 _ _ _ _ b3 (by rw [s3, s1]))

theorem gdn_runs (w : WMap) (heps : c.rmsEps = true) (hd : c.headSize ∣ c.gdnQkHeads * c.gdnQkDim) (p : String) (inp : T) (ha : A inp)
    (hs : inp.shape = [c.batch, c.seq, c.hidden]) : Runs c A (addGdn c w p inp) (Res A [c.batch, c.seq, c.hidden]) := by
  unfold addGdn
  refine runs_let (mm_runs inp _ _ _ _ ha hs) fun t1 B1 b1 s1 m1 => ?_
  refine runs_let (mm_runs inp _ _ _ _ (m1 _ ha) hs) fun t2 B2 b2 s2 m2 => ?_
  refine runs_let (mm_runs inp _ _ _ _ (m2 _ (m1 _ ha)) hs) fun t3 B3 b3 s3 m3 => ?_
  refine runs_let (qknorm_runs heps t1 _ _ (m3 _ (m2 _ b1)) s1 hd) fun t4 B4 b4 s4 m4 => ?_
  refine runs_let (qknorm_runs heps t2 _ _ (m4 _ (m3 _ b2)) s2 hd) fun t5 B5 b5 s5 m5 => ?_
  refine runs_tail (fun x hx => m5 x (m4 x (m3 x (m2 x (m1 x hx))))) (runs_emit ?_ (by simp) rfl rfl ?_)
  · intro x hx; simp only [List.mem_cons, List.not_mem_nil, or_false] at hx
    rcases hx with rfl | rfl | rfl
    exacts [.inl (m5 _ b4), .inl b5, .inl (m5 _ (m4 _ b3))]
  · simp [opRule, s4, s5, s3]

/-- what the rotary embedding needs -/
def RopeReady (c : Cfg) (A : T → Prop) : Prop :=
  A ⟨"rope.cos", [1, 1, c.maxPos, c.rotaryDim / 2]⟩ ∧ A ⟨"rope.sin", [1, 1, c.maxPos, c.rotaryDim / 2]⟩ ∧ A (positionT c)

theorem projections_runs (w : WMap) (p : String) (inp : T) (ha : A inp) (hs : inp.shape = [c.batch, c.seq, c.hidden]) :
    Runs c A (addProjections c w p inp)
      (fun r B => (B r.1 ∧ r.1.shape = [c.batch, c.seq, c.heads * c.headSize]) ∧
        (B r.2.1 ∧ r.2.1.shape = [c.batch, c.seq, c.kvHeads * c.headSize]) ∧
        (B r.2.2.1 ∧ r.2.2.1.shape = [c.batch, c.seq, c.kvHeads * c.headSize]) ∧
        (∀ g, r.2.2.2 = some g → B g ∧ g.shape = [c.batch, c.seq, c.heads * c.headSize]) ∧ ∀ x, A x → B x) := by
  unfold addProjections
  split
  · refine runs_bind ?_
    unfold addQkvGated
    refine runs_let (mm_runs inp _ _ _ _ ha hs) fun t1 B1 b1 s1 m1 => ?_
    refine runs_let (mm_runs inp _ _ _ _ (m1 _ ha) hs) fun t2 B2 b2 s2 m2 => ?_
    refine runs_let (mm_runs inp _ _ _ _ (m2 _ (m1 _ ha)) hs) fun t3 B3 b3 s3 m3 => ?_
    refine runs_let (slice_runs t1 _ _ _ _ (m3 _ (m2 _ b1)) s1 (by omega)) fun t4 B4 b4 s4 m4 => ?_
    refine runs_let (slice_runs t1 _ _ _ _ (m4 _ (m3 _ (m2 _ b1))) s1 (by omega)) fun t5 B5 b5 s5 m5 => ?_
    refine runs_pure (runs_pure ⟨⟨m5 _ b4, s4⟩, ⟨m5 _ (m4 _ (m3 _ b2)), s2⟩, ⟨m5 _ (m4 _ b3), s3⟩, ?_, ?_⟩)
    · intro g hg; cases hg; exact ⟨b5, s5⟩
    · exact fun x hx => m5 x (m4 x (m3 x (m2 x (m1 x hx))))
  · refine runs_bind ?_
    unfold addQkv
    simp only
    split
    · refine runs_let (mm_runs inp _ _ _ _ ha hs) fun t1 B1 b1 s1 m1 => ?_
      refine runs_let (slice_runs t1 _ _ _ _ b1 s1 (by omega)) fun t2 B2 b2 s2 m2 => ?_
      refine runs_let (slice_runs t1 _ _ _ _ (m2 _ b1) s1 (by omega)) fun t3 B3 b3 s3 m3 => ?_
      refine runs_let (slice_runs t1 _ _ _ _ (m3 _ (m2 _ b1)) s1 (by omega)) fun t4 B4 b4 s4 m4 => ?_
      refine runs_pure (runs_pure ⟨⟨m4 _ (m3 _ b2), s2⟩, ⟨m4 _ b3, s3⟩, ⟨b4, s4⟩, ?_, ?_⟩)
      · intro g hg; cases hg
      · exact fun x hx => m4 x (m3 x (m2 x (m1 x hx)))
    · refine runs_let (mm_runs inp _ _ _ _ ha hs) fun t1 B1 b1 s1 m1 => ?_
      refine runs_let (mm_runs inp _ _ _ _ (m1 _ ha) hs) fun t2 B2 b2 s2 m2 => ?_
      refine runs_let (mm_runs inp _ _ _ _ (m2 _ (m1 _ ha)) hs) fun t3 B3 b3 s3 m3 => ?_
      refine runs_pure (runs_pure ⟨⟨m3 _ (m2 _ b1), s1⟩, ⟨m3 _ b2, s2⟩, ⟨b3, s3⟩, ?_, ?_⟩)
      · intro g hg; cases hg
      · exact fun x hx => m3 x (m2 x (m1 x hx))

theorem qknorms_runs (heps : c.qkNorm = true → c.rmsEps = true) (p : String) (q k : T) (bq : A q) (bk : A k)
    (sq : q.shape = [c.batch, c.seq, c.heads * c.headSize]) (sk : k.shape = [c.batch, c.seq, c.kvHeads * c.headSize]) :
    Runs c A (addQkNorms c p q k) (fun r D => (D r.1 ∧ r.1.shape = [c.batch, c.seq, c.heads * c.headSize]) ∧
      (D r.2 ∧ r.2.shape = [c.batch, c.seq, c.kvHeads * c.headSize]) ∧ ∀ x, A x → D x) := by
  unfold addQkNorms
  split
  · rename_i hq
    refine runs_let (qknorm_runs (heps hq) q _ _ bq sq (Nat.dvd_mul_left _ _)) fun t1 B1 b1 s1 m1 => ?_
    refine runs_let (qknorm_runs (heps hq) k _ _ (m1 _ bk) sk (Nat.dvd_mul_left _ _)) fun t2 B2 b2 s2 m2 => ?_
    exact runs_pure ⟨⟨m2 _ b1, s1⟩, ⟨b2, s2⟩, fun x hx => m2 x (m1 x hx)⟩
  · exact runs_pure ⟨⟨bq, sq⟩, ⟨bk, sk⟩, fun _ h => h⟩

theorem ropes_runs (hr : c.qkRope = true → RopeReady c A) (p : String) (q k : T) (bq : A q) (bk : A k)
    (sq : q.shape = [c.batch, c.seq, c.heads * c.headSize]) (sk : k.shape = [c.batch, c.seq, c.kvHeads * c.headSize]) :
    Runs c A (addRopes c p q k) (fun r D => (D r.1 ∧ r.1.shape = [c.batch, c.seq, c.heads * c.headSize]) ∧
      (D r.2 ∧ r.2.shape = [c.batch, c.seq, c.kvHeads * c.headSize]) ∧ ∀ x, A x → D x) := by
  unfold addRopes
  split
  · rename_i hq
    obtain ⟨r1, r2, r3⟩ := hr hq
    refine runs_let (rope_runs q _ bq r1 r2 r3) fun t1 B1 b1 s1 m1 => ?_
    refine runs_let (rope_runs k _ (m1 _ bk) (m1 _ r1) (m1 _ r2) (m1 _ r3)) fun t2 B2 b2 s2 m2 => ?_
    exact runs_pure ⟨⟨m2 _ b1, by rw [s1, sq]⟩, ⟨b2, by rw [s2, sk]⟩, fun x hx => m2 x (m1 x hx)⟩
  · exact runs_pure ⟨⟨bq, sq⟩, ⟨bk, sk⟩, fun _ h => h⟩

theorem gate_runs (p : String) (cur : T) (gate : Option T) (ha : A cur) (hg : ∀ g, gate = some g → A g ∧ g.shape = cur.shape) :
    Runs c A (addGate p cur gate) (Res A cur.shape) := by
  cases gate with
  | none => exact runs_pure ⟨ha, rfl, fun _ h => h⟩
  | some g =>
    obtain ⟨bg, sg⟩ := hg g rfl
    unfold addGate
    refine runs_let (act_runs g "silu" _ (.inl rfl) bg) fun t2 B2 b2 s2 m2 => ?_
    exact runs_tail m2 (eltop_runs cur t2 "Mul" _ (.inr rfl) (m2 _ ha) b2 (by rw [s2, sg]))

theorem attention_runs (w : WMap) (heps : c.qkNorm = true → c.rmsEps = true) (hr : c.qkRope = true → RopeReady c A) (i : Nat) (p : String)
    (inp : T) (ha : A inp) (hs : inp.shape = [c.batch, c.seq, c.hidden]) :
    Runs c A (addAttention c w i p inp) (Res A [c.batch, c.seq, c.hidden]) := by
  unfold addAttention
  refine runs_bind (runs_mono (projections_runs w p inp ha hs) ?_)
  rintro ⟨q, k, v, gate⟩ B ⟨⟨bq, sq⟩, ⟨bk, sk⟩, ⟨bv, sv⟩, hg, mB⟩
  simp only at bq sq bk sk bv sv hg ⊢
  refine runs_bind (runs_mono (qknorms_runs heps p q k bq bk sq sk) ?_)
  rintro ⟨q', k'⟩ D ⟨⟨dq, sq'⟩, ⟨dk, sk'⟩, mD⟩
  simp only at dq sq' dk sk' ⊢
  refine runs_bind (runs_mono (ropes_runs (fun h => ?_) p q' k' dq dk sq' sk') ?_)
  · obtain ⟨r1, r2, r3⟩ := hr h
    exact ⟨mD _ (mB _ r1), mD _ (mB _ r2), mD _ (mB _ r3)⟩
  rintro ⟨q'', k''⟩ E ⟨⟨eq, sq''⟩, ⟨ek, sk''⟩, mE⟩
  simp only at eq sq'' ek sk'' ⊢
  refine runs_let (mha_runs q'' k'' v i _ eq ek (mE _ (mD _ bv)) sq'' sk'' sv) fun t1 B1 b1 s1 m1 => ?_
  refine runs_let (gate_runs p t1 gate b1 ?_) fun t2 B2 b2 s2 m2 => ?_
  · intro g h
    obtain ⟨b, s⟩ := hg g h
    exact ⟨m1 _ (mE _ (mD _ b)), by rw [s, s1]⟩
  exact runs_tail (fun x hx => m2 x (m1 x (mE x (mD x (mB x hx))))) (mm_runs t2 _ _ _ _ b2 (by rw [s2, s1]))

/-- the requirements of layer `i` -/
structure LayerOk (c : Cfg) (i : Nat) : Prop where
  eps : c.rmsEps = true ∨ c.lnEps = true
  qkEps : c.qkNorm = true → c.rmsEps = true
  gdnEps : linearLayer c i → c.rmsEps = true ∧ c.headSize ∣ c.gdnQkHeads * c.gdnQkDim
  act : c.isMoe = true ∨ c.phi3 = true ∨ c.act = "silu" ∨ c.act = "gelu_new"
  groups : c.isMla = true → 0 < c.oGroups

theorem isGdn_iff (c : Cfg) (i : Nat) : isGdn c i = true ↔ linearLayer c i := by simp [isGdn, linearLayer]

theorem optnorm_runs (heps : c.rmsEps = true ∨ c.lnEps = true) (on : Bool) (t : T) (name : String) (ha : A t)
    (hs : t.shape = [c.batch, c.seq, c.hidden]) : Runs c A (addOptNorm c on t name) (Res A [c.batch, c.seq, c.hidden]) := by
  unfold addOptNorm
  split
  · exact layernorm_runs heps t _ ha hs
  · exact runs_pure ⟨ha, hs, fun _ h => h⟩

theorem mixer_runs (w : WMap) (i : Nat) (h : LayerOk c i) (hr : ropeLayer c i → RopeReady c A) (p : String) (t : T) (ha : A t)
    (hs : t.shape = [c.batch, c.seq, c.hidden]) : Runs c A (addMixer c w i p t) (Res A [c.batch, c.seq, c.hidden]) := by
  unfold addMixer
  split
  · rename_i hg
    rw [isGdn_iff] at hg
    exact gdn_runs w (h.gdnEps hg).1 (h.gdnEps hg).2 _ t ha hs
  · rename_i hg
    split
    · rename_i hm; exact mla_runs (h.groups hm) _ t ha hs
    · rename_i hm
      refine attention_runs w h.qkEps ?_ i _ t ha hs
      exact fun hq => hr ⟨hq, by simpa using hm, fun hl => hg ((isGdn_iff c i).2 hl)⟩

theorem ffn_runs (w : WMap) (hact : c.isMoe = true ∨ c.phi3 = true ∨ c.act = "silu" ∨ c.act = "gelu_new") (p : String) (t : T) (ha : A t)
    (hs : t.shape = [c.batch, c.seq, c.hidden]) : Runs c A (addFfn c w p t) (Res A [c.batch, c.seq, c.hidden]) := by
  unfold addFfn
  split
  · exact moe_runs _ t ha hs
  · rename_i hm; exact mlp_runs w (hact.resolve_left hm) _ t ha hs

theorem layer_runs (w : WMap) (i : Nat) (h : LayerOk c i) (hr : ropeLayer c i → RopeReady c A) (inp : T) (ha : A inp)
    (hs : inp.shape = [c.batch, c.seq, c.hidden]) : Runs c A (addLayer c w i inp) (Res A [c.batch, c.seq, c.hidden]) := by
  unfold addLayer
  refine runs_let (layernorm_runs h.eps inp _ ha hs) fun t1 B1 b1 s1 m1 => ?_
  refine runs_let (mixer_runs w i h (fun hl => ?_) _ t1 b1 s1) fun t2 B2 b2 s2 m2 => ?_
  · obtain ⟨r1, r2, r3⟩ := hr hl
    exact ⟨m1 _ r1, m1 _ r2, m1 _ r3⟩
  refine runs_let (optnorm_runs h.eps _ t2 _ b2 s2) fun t3 B3 b3 s3 m3 => ?_
  refine runs_let (eltop_runs inp t3 "Add" _ (.inl rfl) (m3 _ (m2 _ (m1 _ ha))) b3 (by rw [hs, s3])) fun t4 B4 b4 s4 m4 => ?_
  rw [hs] at s4
  refine runs_let (layernorm_runs h.eps t4 _ b4 s4) fun t5 B5 b5 s5 m5 => ?_
  refine runs_let (ffn_runs w h.act _ t5 b5 s5) fun t6 B6 b6 s6 m6 => ?_
  refine runs_let (optnorm_runs h.eps _ t6 _ b6 s6) fun t7 B7 b7 s7 m7 => ?_
  have := eltop_runs (c := c) t4 t7 "Add" (layerName w i ++ "mlp_add") (.inl rfl) (m7 _ (m6 _ (m5 _ b4))) b7 (by rw [s4, s7])
  rw [s4] at this
  exact runs_tail (fun x hx => m7 x (m6 x (m5 x (m4 x (m3 x (m2 x (m1 x hx))))))) this

theorem layers_runs (w : WMap) (inp : T) (ha : A inp) (hs : inp.shape = [c.batch, c.seq, c.hidden]) : ∀ (n : Nat),
    (∀ i, i < n → LayerOk c i) → (∀ i, i < n → ropeLayer c i → RopeReady c A) →
    Runs c A (addLayers c w inp n) (Res A [c.batch, c.seq, c.hidden]) := by
  intro n
  induction n with
  | zero => intro _ _; exact runs_pure ⟨ha, hs, fun _ h => h⟩
  | succ n ih =>
    intro h hr
    unfold addLayers
    refine runs_let (ih (fun i hi => h i (by omega)) (fun i hi => hr i (by omega))) fun t B b s m => ?_
    refine runs_tail m (layer_runs w n (h n (by omega)) ?_ t b s)
    intro hl
    obtain ⟨r1, r2, r3⟩ := hr n (by omega) hl
    exact ⟨m _ r1, m _ r2, m _ r3⟩

/-- what is there before the first call: the inputs, and the shared tables if some layer needs them -/
def Start (c : Cfg) (t : T) : Prop :=
  t = idsT c ∨ (c.posEmbedding = true ∧ t = positionT c) ∨
  ((∃ i ∈ List.range c.layers, ropeLayer c i) ∧
    (t = ⟨"rope.cos", [1, 1, c.maxPos, c.rotaryDim / 2]⟩ ∨ t = ⟨"rope.sin", [1, 1, c.maxPos, c.rotaryDim / 2]⟩ ∨ t = positionT c))

theorem pos_runs (w : WMap) (h : CfgOk c w) (t1 : T) (b1 : A t1) (s1 : t1.shape = [c.batch, c.seq, c.hidden])
    (hp : c.posEmbedding = true → A (positionT c)) : Runs c A (addPos c w t1) (Res A [c.batch, c.seq, c.hidden]) := by
  unfold addPos
  split
  · rename_i hpe
    have := h.pos hpe
    cases hw : w.pos with
    | none => rw [hw] at this; cases this
    | some pos =>
      simp only
      refine runs_let (embedding_runs (positionT c) _ _ (hp hpe) rfl) fun t2 B2 b2 s2 m2 => ?_
      have := eltop_runs (c := c) t2 t1 "Add" "embedding_pos_add" (.inl rfl) b2 (m2 _ b1) (by rw [s1, s2])
      rw [s2] at this
      exact runs_tail m2 this
  · exact runs_pure ⟨b1, s1, fun _ h => h⟩

theorem lmhead_runs (w : WMap) (heps : c.rmsEps = true ∨ c.lnEps = true) (t : T) (ha : A t) (hs : t.shape = [c.batch, c.seq, c.hidden]) :
    Runs c A (addLmHead c w t) (Res A [c.batch, c.seq, c.vocab]) := by
  unfold addLmHead
  refine runs_let (layernorm_runs heps t _ ha hs) fun t4 B4 b4 s4 m4 => ?_
  exact runs_tail m4 (mm_runs t4 _ _ _ _ b4 s4)

theorem build_runs (w : WMap) (h : CfgOk c w)
    (hg : (∃ i ∈ List.range c.layers, linearLayer c i) → c.headSize ∣ c.gdnQkHeads * c.gdnQkDim) :
    Runs c (Start c) (build c w) (Res (Start c) [c.batch, c.seq, c.vocab]) := by
  unfold build
  refine runs_let (embedding_runs (idsT c) _ _ (.inl rfl) rfl) fun t1 B1 b1 s1 m1 => ?_
  refine runs_let (pos_runs w h t1 b1 s1 (fun hp => m1 _ (.inr (.inl ⟨hp, rfl⟩)))) fun t2 B2 b2 s2 m2 => ?_
  refine runs_let (layers_runs w t2 b2 s2 c.layers ?_ ?_) fun t3 B3 b3 s3 m3 => ?_
  · intro i hi
    have hm : i ∈ List.range c.layers := List.mem_range.2 hi
    exact ⟨h.eps, fun hq => h.qkEps (.inl hq), fun hl => ⟨h.qkEps (.inr ⟨i, hm, hl⟩), hg ⟨i, hm, hl⟩⟩, h.act, h.groups⟩
  · intro i hi hl
    have hm : ∃ i ∈ List.range c.layers, ropeLayer c i := ⟨i, List.mem_range.2 hi, hl⟩
    exact ⟨m2 _ (m1 _ (.inr (.inr ⟨hm, .inl rfl⟩))), m2 _ (m1 _ (.inr (.inr ⟨hm, .inr (.inl rfl)⟩))),
      m2 _ (m1 _ (.inr (.inr ⟨hm, .inr (.inr rfl)⟩)))⟩
  refine runs_let (lmhead_runs w h.eps t3 b3 s3) fun t4 B4 b4 s4 m4 => ?_
  have mAll : ∀ x, Start c x → B4 x := fun x hx => m4 x (m3 x (m2 x (m1 x hx)))
  split
  · have := softcap_runs (c := c) t4 "models.final_logit_softcapping" b4
    rw [s4] at this
    exact runs_tail mAll this
  · exact runs_pure ⟨b4, s4, mAll⟩

end OnnxTool.Builder
