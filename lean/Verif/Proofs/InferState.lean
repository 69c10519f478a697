import Verif.Spec.InferState
import Verif.Props.Engine
/-! # Lemmas on the state of `GraphInfer` between calls -/
namespace OnnxTool.Infer
open OnnxTool OnnxTool.Props

/-- What `__init__` guarantees: the engine's expressions are ordered, with existing sources and no division by zero; derived variables
are not named dimensions; a model without named dimensions has no derived ones. -/
structure SetupOk (S : Setup) : Prop where
  einv : EInv S.se0
  base : ∀ v ∈ boundVars S, v ∉ S.se0.exprs.keys
  derived : boundVars S ≠ [] ∨ S.se0.exprs = []

/-- all (dimension, size) pairs the shape update looks at -/
def pairs (S : Setup) (shape : List Nat) : List (Engine.Dim × Nat) :=
  S.inputDesc.flatMap fun d => if d.2.length = shape.length then d.2.zip shape else []

theorem updDims_append (rg : List String) (l1 l2 : List (Engine.Dim × Nat)) (s : Engine.Engine × Dict Int × Bool) :
    updDims rg (l1 ++ l2) s = updDims rg l2 (updDims rg l1 s) := by
  induction l1 generalizing s with
  | nil => rfl
  | cons a l ih =>
    obtain ⟨d, n⟩ := a
    obtain ⟨se, last, ch⟩ := s
    cases d with
    | num k => simp only [List.cons_append, updDims]; exact ih _
    | var v =>
      simp only [List.cons_append, updDims]
      split
      · exact ih _
      · exact ih _

theorem updDescs_eq (rg : List String) (shape : List Nat) (ds : Dict (List Engine.Dim)) (s : Engine.Engine × Dict Int × Bool) :
    updDescs rg shape ds s = updDims rg (ds.flatMap fun d => if d.2.length = shape.length then d.2.zip shape else []) s := by
  induction ds generalizing s with
  | nil => rfl
  | cons a l ih =>
    obtain ⟨t, desc⟩ := a
    simp only [updDescs, List.flatMap_cons, updDims_append]
    rw [ih]
    split <;> rfl

/-- the invariant of the engine part of the state -/
structure EngInv (S : Setup) (se : Engine.Engine) (last : Dict Int) : Prop where
  exprs : se.exprs = S.se0.exprs
  desc : se.tensorDesc = S.se0.tensorDesc
  other : ∀ q, q ∉ S.se0.exprs.keys → q ∉ boundVars S → se.variables.get? q = S.se0.variables.get? q
  bound : ∀ v ∈ boundVars S, ∀ n, last.get? v = some n → se.variables.get? v = some n
  keys : ∀ q ∈ S.se0.variables.keys, q ∈ se.variables.keys

theorem updDims_spec (S : Setup) (σ : String → Nat) (l : List (Engine.Dim × Nat))
    (hl : ∀ v n, (Engine.Dim.var v, n) ∈ l → v ∈ S.ranged → n = σ v ∧ v ∈ boundVars S)
    (se : Engine.Engine) (last : Dict Int) (ch : Bool) (hi : EngInv S se last) :
    ∃ se' last' ch', updDims S.ranged l (se, last, ch) = (se', last', ch') ∧ EngInv S se' last' ∧
      (∀ v, v ∈ S.ranged → (∃ n, (Engine.Dim.var v, n) ∈ l) → last'.get? v = some (σ v : Int)) ∧
      (∀ v, last.get? v = some (σ v : Int) → last'.get? v = some (σ v : Int)) ∧
      (ch = true → ch' = true) ∧ (ch' = false → se' = se ∧ last' = last) ∧
      ((∀ v, v ∈ S.ranged → (∃ n, (Engine.Dim.var v, n) ∈ l) → last.get? v = some (σ v : Int)) → ch' = ch) := by
  induction l generalizing se last ch with
  | nil => exact ⟨se, last, ch, rfl, hi, fun v _ ⟨n, h⟩ => absurd h (by simp), fun _ h => h, fun h => h, fun _ => ⟨rfl, rfl⟩, fun _ => rfl⟩
  | cons a l ih =>
    obtain ⟨d, n⟩ := a
    have hl' : ∀ v n, (Engine.Dim.var v, n) ∈ l → v ∈ S.ranged → n = σ v ∧ v ∈ boundVars S :=
      fun v n h => hl v n (List.mem_cons_of_mem _ h)
    cases d with
    | num k =>
      simp only [updDims]
      obtain ⟨se', last', ch', h1, h2, h3, h4, h5, h6, h7⟩ := ih hl' se last ch hi
      refine ⟨se', last', ch', h1, h2, ?_, h4, h5, h6, fun h => h7 fun v hv ⟨m, hm⟩ => h v hv ⟨m, List.mem_cons_of_mem _ hm⟩⟩
      rintro v hv ⟨m, hm⟩
      rcases List.mem_cons.1 hm with e | hm
      · cases e
      · exact h3 v hv ⟨m, hm⟩
    | var w =>
      simp only [updDims]
      by_cases hc : w ∈ S.ranged ∧ last.get? w ≠ some (n : Int)
      · rw [if_pos hc]
        obtain ⟨hn, hw⟩ := hl w n List.mem_cons_self hc.1
        have hi' : EngInv S (se.updateVariable w n) (last.set w n) := by
          refine ⟨hi.exprs, hi.desc, ?_, ?_, ?_⟩
          · intro q h1 h2
            have : w ≠ q := fun e => h2 (e ▸ hw)
            show (se.variables.set w n).get? q = _
            rw [Dict.get?_set_ne _ _ this]; exact hi.other q h1 h2
          · intro v hv m hm
            show (se.variables.set w n).get? v = _
            rw [Dict.get?_set] at hm ⊢
            split at hm
            · rename_i e; rw [if_pos e]; exact hm
            · rename_i e; rw [if_neg e]; exact hi.bound v hv m hm
          · intro q hq; exact keys_mono (hi.keys q hq)
        obtain ⟨se', last', ch', h1, h2, h3, h4, h5, h6, h7⟩ := ih hl' _ _ true hi'
        refine ⟨se', last', ch', h1, h2, ?_, ?_, fun _ => h5 rfl, ?_, ?_⟩
        · rintro v hv ⟨m, hm⟩
          by_cases e : v = w
          · subst e; exact h4 v (by rw [Dict.get?_set_self, hn])
          · rcases List.mem_cons.1 hm with e' | hm
            · cases e'; exact absurd rfl e
            · exact h3 v hv ⟨m, hm⟩
        · intro v hv
          apply h4
          rw [Dict.get?_set]
          split
          · rename_i e; rw [hn, e]
          · exact hv
        · intro h; rw [h5 rfl] at h; cases h
        · intro h
          exact absurd (h w hc.1 ⟨n, List.mem_cons_self⟩) (hn ▸ hc.2)
      · rw [if_neg hc]
        obtain ⟨se', last', ch', h1, h2, h3, h4, h5, h6, h7⟩ := ih hl' se last ch hi
        refine ⟨se', last', ch', h1, h2, ?_, h4, h5, h6, fun h => h7 fun v hv ⟨m, hm⟩ => h v hv ⟨m, List.mem_cons_of_mem _ hm⟩⟩
        rintro v hv ⟨m, hm⟩
        rcases List.mem_cons.1 hm with e | hm
        · cases e
          have hlast : last.get? w = some (n : Int) := Classical.byContradiction fun hne => hc ⟨hv, hne⟩
          apply h4
          rw [hlast, (hl w n List.mem_cons_self hv).1]
        · exact h3 v hv ⟨m, hm⟩

theorem updLoopSt_ok : ∀ (es : Dict (String × Engine.ValueExpr)) (vs vs' : Dict Int), Engine.updLoop es vs = .ok vs' →
    updLoopSt es vs = (vs', none) := by
  intro es
  induction es with
  | nil => intro vs vs' h; simp only [Engine.updLoop, Except.ok.injEq] at h; simp [updLoopSt, h]
  | cons p es ih =>
    intro vs vs' h
    obtain ⟨k, src, e⟩ := p
    simp only [Engine.updLoop] at h
    simp only [updLoopSt]
    cases hx : vs.get? src with
    | none => rw [hx] at h; cases h
    | some x =>
      rw [hx] at h
      simp only [bind, Except.bind] at h ⊢
      cases hy : e.call x with
      | error er => rw [hy] at h; cases h
      | ok y => rw [hy] at h; exact ih _ _ h

/-- the engine agrees with the reference engine for the dimensions `σ` -/
def EngAt (S : Setup) (σ : String → Nat) (se : Engine.Engine) : Prop :=
  ∃ ref, (bindVars σ (boundVars S) S.se0).updateVariables = .ok ref ∧ se.tensorDesc = ref.tensorDesc ∧
    ∀ q, se.variables.get? q = ref.variables.get? q

theorem shapeFromDesc_congr {v1 v2 : Dict Int} (h : ∀ q, v1.get? q = v2.get? q) (d : List Engine.Dim) :
    Engine.shapeFromDesc v1 d = Engine.shapeFromDesc v2 d := by
  induction d with
  | nil => rfl
  | cons a d ih =>
    have : Engine.dimVal v1 a = Engine.dimVal v2 a := by cases a <;> simp [Engine.dimVal, h]
    simp only [Engine.shapeFromDesc, this, ih]

theorem engAt_shape {S : Setup} {σ : String → Nat} {se : Engine.Engine} (h : EngAt S σ se) (t : String) :
    freshShape S se t = refShape S σ t := by
  obtain ⟨ref, h1, h2, h3⟩ := h
  unfold refShape
  rw [h1]
  have : se.getTensorShape t = ref.getTensorShape t := by
    unfold Engine.Engine.getTensorShape
    rw [h2]
    cases ref.tensorDesc.get? t with
    | none => rfl
    | some d => exact shapeFromDesc_congr h3 d
  simp only [freshShape, engShape, this]
  cases ref.getTensorShape t with
  | error e => cases S.tm.get? t <;> rfl
  | ok s =>
    by_cases hp : (s.all fun d => decide (0 < d)) = true
    · simp only [if_pos hp, Except.toOption, Option.filter]
    · simp only [if_neg hp, Except.toOption, Option.filter]
      cases S.tm.get? t <;> rfl

theorem bindVars_facts (S : Setup) (σ : String → Nat) : ∀ (l : List String) (se : Engine.Engine),
    (bindVars σ l se).exprs = se.exprs ∧ (bindVars σ l se).tensorDesc = se.tensorDesc ∧
    (∀ q ∉ l, (bindVars σ l se).variables.get? q = se.variables.get? q) ∧
    (∀ q ∈ l, (bindVars σ l se).variables.get? q = some (σ q : Int)) ∧
    (∀ q ∈ se.variables.keys, q ∈ (bindVars σ l se).variables.keys) := by
  intro l
  induction l with
  | nil => intro se; exact ⟨rfl, rfl, fun _ _ => rfl, fun _ h => absurd h (by simp), fun _ h => h⟩
  | cons v l ih =>
    intro se
    obtain ⟨h1, h2, h3, h4, h5⟩ := ih (se.updateVariable v (σ v))
    refine ⟨h1, h2, ?_, ?_, fun q hq => h5 q (keys_mono hq)⟩
    · intro q hq
      simp only [List.mem_cons, not_or] at hq
      show (bindVars σ l _).variables.get? q = _
      rw [h3 q hq.2]
      exact Dict.get?_set_ne _ _ (fun e => hq.1 e.symm)
    · intro q hq
      show (bindVars σ l _).variables.get? q = _
      by_cases hm : q ∈ l
      · exact h4 q hm
      · rw [h3 q hm]
        rcases List.mem_cons.1 hq with rfl | h
        · exact Dict.get?_set_self _ _ _
        · exact absurd h hm

theorem upd_at {S : Setup} (hS : SetupOk S) {σ : String → Nat} {se : Engine.Engine} {last : Dict Int} (hi : EngInv S se last)
    (hl : ∀ v ∈ boundVars S, last.get? v = some (σ v : Int)) :
    ∃ vs, updLoopSt se.exprs se.variables = (vs, none) ∧ EngInv S { se with variables := vs } last ∧
      EngAt S σ { se with variables := vs } := by
  obtain ⟨e1, e2⟩ := hS.einv
  have tot : ∀ k src e, (k, (src, e)) ∈ se.exprs → src ∈ se.variables.keys ∧ (e.factor = true → e.alpha ≠ 0) := by
    intro k src e h
    rw [hi.exprs] at h
    exact ⟨hi.keys _ (e2 k src e h).1, (e2 k src e h).2⟩
  obtain ⟨vs, hv, hk⟩ := updLoop_total _ _ tot
  obtain ⟨b1, b2, b3, b4, b5⟩ := bindVars_facts S σ (boundVars S) S.se0
  obtain ⟨ws, hw, _⟩ := updLoop_total (bindVars σ (boundVars S) S.se0).exprs (bindVars σ (boundVars S) S.se0).variables (by
    intro k src e h
    rw [b1] at h
    exact ⟨b5 _ (e2 k src e h).1, (e2 k src e h).2⟩)
  have hse : se.updateVariables = .ok { se with variables := vs } := by
    simp only [Engine.Engine.updateVariables, hv, bind, Except.bind, pure, Except.pure]
  have hre : (bindVars σ (boundVars S) S.se0).updateVariables = .ok { bindVars σ (boundVars S) S.se0 with variables := ws } := by
    simp only [Engine.Engine.updateVariables, hw, bind, Except.bind, pure, Except.pure]
  have hoth := Engine.updLoop_other _ _ _ hv
  refine ⟨vs, updLoopSt_ok _ _ _ hv, ⟨hi.exprs, hi.desc, ?_, ?_, fun q hq => hk q (hi.keys q hq)⟩, _, hre, ?_, ?_⟩
  · intro q h1 h2
    show vs.get? q = _
    rw [hoth q (by rw [hi.exprs]; exact h1)]
    exact hi.other q h1 h2
  · intro v hb n hn
    show vs.get? v = _
    rw [hoth v (by rw [hi.exprs]; exact hS.base v hb)]
    exact hi.bound v hb n hn
  · show se.tensorDesc = (bindVars σ (boundVars S) S.se0).tensorDesc
    rw [b2, hi.desc]
  · refine C28_update_deterministic se (bindVars σ (boundVars S) S.se0) _ _ (by rw [b1, hi.exprs]) (by rw [hi.exprs]; exact e1) ?_ hse hre
    intro q hq
    rw [hi.exprs] at hq
    by_cases hb : q ∈ boundVars S
    · rw [b4 q hb]; exact hi.bound q hb _ (hl q hb)
    · rw [b3 q hb]; exact hi.other q hq hb

theorem pairs_facts {S : Setup} {σ : String → Nat} {shape : List Nat} (hf : Fits S σ shape) :
    (∀ v n, (Engine.Dim.var v, n) ∈ pairs S shape → v ∈ S.ranged → n = σ v ∧ v ∈ boundVars S) ∧
    (∀ v ∈ boundVars S, v ∈ S.ranged ∧ ∃ n, (Engine.Dim.var v, n) ∈ pairs S shape) := by
  constructor
  · intro v n h hr
    obtain ⟨d, hd, hm⟩ := List.mem_flatMap.1 h
    split at hm
    · rename_i hlen
      obtain ⟨i, hi, hp⟩ := List.getElem_of_mem hm
      simp only [List.length_zip] at hi
      rw [List.getElem_zip] at hp
      simp only [Prod.mk.injEq] at hp
      refine ⟨hf.1 d hd hlen i v n ?_ hr ?_, ?_⟩
      · rw [List.getElem?_eq_some_iff]; exact ⟨by omega, hp.1⟩
      · rw [List.getElem?_eq_some_iff]; exact ⟨by omega, hp.2⟩
      · refine List.mem_flatMap.2 ⟨d, hd, List.mem_filterMap.2 ⟨.var v, ?_, by simp [hr]⟩⟩
        rw [← hp.1]; exact List.getElem_mem _
    · simp at hm
  · intro v hv
    refine ⟨?_, ?_⟩
    · obtain ⟨d, hd, hm⟩ := List.mem_flatMap.1 hv
      obtain ⟨x, hx, he⟩ := List.mem_filterMap.1 hm
      cases x with
      | num k => simp at he
      | var w =>
        simp only at he
        split at he
        · rename_i h; cases he; exact h
        · cases he
    · obtain ⟨d, hd, hlen, hm⟩ := hf.2 v hv
      obtain ⟨i, hi, hp⟩ := List.getElem_of_mem hm
      refine ⟨shape[i]'(by omega), List.mem_flatMap.2 ⟨d, hd, ?_⟩⟩
      rw [if_pos hlen]
      rw [← hp]
      have : (d.2.zip shape)[i]'(by simp only [List.length_zip]; omega) = (d.2[i], shape[i]'(by omega)) := List.getElem_zip
      rw [← this]; exact List.getElem_mem _

/-- The shape phase of a call. -/
theorem updateShape_spec {S : Setup} (hS : SetupOk S) {σ : String → Nat} {shape : List Nat} (hf : Fits S σ shape) (st : St)
    (hi : EngInv S st.se st.last) :
    ∃ se' last' ch, updateShape S st shape = ({ st with se := se', last := last' }, .ok ch) ∧ EngInv S se' last' ∧
      (∀ v ∈ boundVars S, last'.get? v = some (σ v : Int)) ∧
      (ch = true → EngAt S σ se') ∧ (ch = false → se' = st.se ∧ last' = st.last) ∧
      ((∀ v ∈ boundVars S, st.last.get? v = some (σ v : Int)) → ch = false) := by
  obtain ⟨p1, p2⟩ := pairs_facts hf
  obtain ⟨se', last', ch, h1, h2, h3, _, _, h6, h7⟩ := updDims_spec S σ (pairs S shape) p1 st.se st.last false hi
  have hl : ∀ v ∈ boundVars S, last'.get? v = some (σ v : Int) := fun v hv => h3 v (p2 v hv).1 (p2 v hv).2
  have hu : updDescs S.ranged shape S.inputDesc (st.se, st.last, false) = (se', last', ch) := by
    rw [updDescs_eq]; exact h1
  have h8 : (∀ v ∈ boundVars S, st.last.get? v = some (σ v : Int)) → ch = false :=
    fun h => h7 fun v hv ⟨n, hn⟩ => h v (p1 v n hn hv).2
  unfold updateShape
  rw [hu]
  cases ch with
  | false => exact ⟨se', last', false, rfl, h2, hl, fun h => (by cases h), h6, h8⟩
  | true =>
    obtain ⟨vs, e1, e2, e3⟩ := upd_at hS h2 hl
    simp only [e1]
    exact ⟨_, last', true, rfl, e2, hl, fun _ => e3, fun h => (by cases h), h8⟩

/-! ### The cache -/

theorem refreshed_sound (S : Setup) (se : Engine.Engine) (t : String) (s : List Nat) (h : (refreshed S se).get? t = some s) :
    s = freshShape S se t := by
  have hm := Dict.get?_mem h
  unfold refreshed at hm
  unfold freshShape
  rcases List.mem_append.1 hm with hm | hm
  · obtain ⟨u, _, hu⟩ := List.mem_filterMap.1 hm
    cases he : engShape se u with
    | none => simp [he] at hu
    | some s' =>
      rw [he] at hu
      simp only [Option.map_some, Option.some.injEq, Prod.mk.injEq] at hu
      obtain ⟨rfl, rfl⟩ := hu
      rw [he]
  · obtain ⟨u, _, hu⟩ := List.mem_filterMap.1 hm
    cases he : engShape se u with
    | some s' => simp [he] at hu
    | none =>
      simp only [he, Option.isSome_none, Bool.false_eq_true, if_false] at hu
      cases ht : S.tm.get? u with
      | none => simp [ht] at hu
      | some i =>
        rw [ht] at hu
        simp only [Option.map_some, Option.some.injEq, Prod.mk.injEq] at hu
        obtain ⟨rfl, rfl⟩ := hu
        simp only [he, ht]

def CacheOk (S : Setup) (σ : String → Nat) (cache : Dict (List Nat)) : Prop :=
  ∀ t s, cache.get? t = some s → s = refShape S σ t

theorem lookup_ref {S : Setup} {σ : String → Nat} {st : St} (h1 : EngAt S σ st.se) (h2 : CacheOk S σ st.cache) :
    lookupShape S st = refShape S σ := by
  funext t
  unfold lookupShape
  cases h : st.cache.get? t with
  | none => exact engAt_shape h1 t
  | some s => exact h2 t s h

/-! ### The loops -/

theorem copySt_eq (e : Engine) (l : List (String × Bytes)) (s : Mem × Dict Bytes) :
    copyInputs e l s = match copySt e l s with
      | (r, none) => .ok r
      | (_, some x) => .error x := by
  induction l generalizing s with
  | nil => rfl
  | cons a l ih =>
    obtain ⟨t, b⟩ := a
    obtain ⟨mem, dyn⟩ := s
    simp only [copyInputs, copySt]
    cases e.views.get? t with
    | none => exact ih _
    | some v =>
      simp only
      by_cases h : b.length ≤ v.2
      · rw [if_pos h, if_pos h]; exact ih _
      · rw [if_neg h, if_neg h]

def DynOk (e : Engine) (dyn : Dict Bytes) : Prop := ∀ t, (dyn.get? t).isSome → e.views.get? t = none ∧ e.consts.get? t = none

theorem copySt_dyn (e : Engine) (l : List (String × Bytes)) (mem : Mem) (dyn : Dict Bytes) (hd : DynOk e dyn)
    (hl : ∀ t b, (t, b) ∈ l → e.views.get? t = none → e.consts.get? t = none) :
    DynOk e (copySt e l (mem, dyn)).1.2 ∧ ∀ t, (dyn.get? t).isSome → ((copySt e l (mem, dyn)).1.2.get? t).isSome := by
  induction l generalizing mem dyn with
  | nil => exact ⟨hd, fun _ h => h⟩
  | cons a l ih =>
    obtain ⟨u, b⟩ := a
    have hl' : ∀ t b, (t, b) ∈ l → e.views.get? t = none → e.consts.get? t = none := fun t b h => hl t b (List.mem_cons_of_mem _ h)
    simp only [copySt]
    cases hv : e.views.get? u with
    | none =>
      have hd' : DynOk e (dyn.set u b) := by
        intro t ht
        rw [Dict.get?_set] at ht
        split at ht
        · rename_i e; subst e; exact ⟨hv, hl _ _ List.mem_cons_self hv⟩
        · exact hd t ht
      obtain ⟨h1, h2⟩ := ih mem (dyn.set u b) hd' hl'
      refine ⟨h1, fun t ht => h2 t ?_⟩
      rw [Dict.get?_set]; split
      · rfl
      · exact ht
    | some v =>
      simp only
      split
      · exact ih _ dyn hd hl'
      · exact ⟨hd, fun _ h => h⟩

/-- the kept lists are those the rebuild would produce, up to tensors outside the pool -/
def KeptOk (e : Engine) (shape : String → List Nat) (dyn : Dict Bytes) : List Node → List (List Arg × List (Nat × Nat)) → Prop
  | [], kept => kept = []
  | n :: ns, (args, outs) :: kept =>
    (∃ dyn0 : Dict Bytes, (∀ t, (dyn0.get? t).isSome → (dyn.get? t).isSome) ∧ mapE (resolveArg e shape dyn0) n.input = .ok args) ∧
    mapE (resolveOut e shape) n.output = .ok outs ∧ KeptOk e shape dyn ns kept
  | _ :: _, [] => False

theorem KeptOk.mono {e : Engine} {shape : String → List Nat} {dyn dyn' : Dict Bytes}
    (hd : ∀ t, (dyn.get? t).isSome → (dyn'.get? t).isSome) : ∀ (ns : List Node) (kept : List (List Arg × List (Nat × Nat))),
    KeptOk e shape dyn ns kept → KeptOk e shape dyn' ns kept := by
  intro ns
  induction ns with
  | nil => intro kept h; exact h
  | cons n ns ih =>
    intro kept h
    cases kept with
    | nil => exact h
    | cons a kept =>
      obtain ⟨⟨d0, h1, h2⟩, h3, h4⟩ := h
      exact ⟨⟨d0, fun t ht => hd t (h1 t ht), h2⟩, h3, ih kept h4⟩

theorem refresh_ok {e : Engine} {shape : String → List Nat} {dyn0 dyn : Dict Bytes} (hd : DynOk e dyn)
    (hsub : ∀ t, (dyn0.get? t).isSome → (dyn.get? t).isSome) : ∀ (ts : List String) (args : List Arg),
    mapE (resolveArg e shape dyn0) ts = .ok args → mapE (resolveArg e shape dyn) ts = .ok (refreshArgs dyn ts args) := by
  intro ts
  induction ts with
  | nil => intro args h; simp only [mapE, Except.ok.injEq] at h; subst h; rfl
  | cons t ts ih =>
    intro args h
    simp only [mapE] at h ⊢
    cases ha : resolveArg e shape dyn0 t with
    | error x => rw [ha] at h; cases h
    | ok a =>
      rw [ha] at h
      cases hm : mapE (resolveArg e shape dyn0) ts with
      | error x => rw [hm] at h; cases h
      | ok as =>
        rw [hm] at h
        simp only [Except.ok.injEq] at h
        subst h
        rw [ih as hm]
        simp only [refreshArgs]
        have hone : resolveArg e shape dyn t = .ok (match dyn.get? t with | some b => .data b | none => a) := by
          unfold resolveArg at ha ⊢
          cases hg : dyn.get? t with
          | some b =>
            obtain ⟨h1, h2⟩ := hd t (by rw [hg]; rfl)
            simp [h1, h2]
          | none =>
            have h0 : dyn0.get? t = none := by
              cases hg0 : dyn0.get? t with
              | none => rfl
              | some b =>
                have := hsub t (by rw [hg0]; rfl)
                rw [hg] at this; cases this
            rw [h0] at ha
            exact ha
        rw [hone]
        cases dyn.get? t <;> rfl

theorem loopRebuild_spec (S : Setup) (crash : Mem) (shape : String → List Nat) (dyn : Dict Bytes) (ns : List Node)
    (acc : List (List Arg × List (Nat × Nat))) (mem : Mem) :
    runNodes S.eng S.kern shape dyn ns mem = (match (loopRebuild S crash shape dyn ns acc mem).2 with
      | none => .ok (loopRebuild S crash shape dyn ns acc mem).1.2
      | some x => .error x) ∧
    ((loopRebuild S crash shape dyn ns acc mem).2 = none → ∃ kept, (loopRebuild S crash shape dyn ns acc mem).1.1 = acc ++ kept ∧
      KeptOk S.eng shape dyn ns kept) := by
  induction ns generalizing acc mem with
  | nil => exact ⟨rfl, fun _ => ⟨[], by simp [loopRebuild], rfl⟩⟩
  | cons n ns ih =>
    simp only [runNodes, runNode, loopRebuild]
    cases h1 : mapE (resolveArg S.eng shape dyn) n.input with
    | error x => exact ⟨rfl, fun h => by cases h⟩
    | ok args =>
      cases h2 : mapE (resolveOut S.eng shape) n.output with
      | error x => exact ⟨rfl, fun h => by cases h⟩
      | ok outs =>
        cases h3 : S.kern n with
        | none => exact ⟨rfl, fun h => by cases h⟩
        | some k =>
          cases h4 : k args outs mem with
          | error x => exact ⟨by simp only [h4], fun h => by simp only [h4] at h; cases h⟩
          | ok m =>
            simp only [h4]
            obtain ⟨i1, i2⟩ := ih (acc ++ [(args, outs)]) m
            refine ⟨i1, fun h => ?_⟩
            obtain ⟨kept, e1, e2⟩ := i2 h
            exact ⟨(args, outs) :: kept, by rw [e1]; simp, ⟨dyn, fun _ h => h, h1⟩, h2, e2⟩

theorem loopKept_spec (S : Setup) (crash : Mem) (shape : String → List Nat) (dyn : Dict Bytes) (hd : DynOk S.eng dyn) (ns : List Node)
    (acc kept : List (List Arg × List (Nat × Nat))) (mem : Mem) (hk : KeptOk S.eng shape dyn ns kept) :
    runNodes S.eng S.kern shape dyn ns mem = (match (loopKept S crash dyn ns acc kept mem).2 with
      | none => .ok (loopKept S crash dyn ns acc kept mem).1.2
      | some x => .error x) ∧
    ∃ kept', (loopKept S crash dyn ns acc kept mem).1.1 = acc ++ kept' ∧ KeptOk S.eng shape dyn ns kept' := by
  induction ns generalizing acc kept mem with
  | nil => exact ⟨rfl, kept, rfl, hk⟩
  | cons n ns ih =>
    cases kept with
    | nil => exact hk.elim
    | cons a kept =>
      obtain ⟨args, outs⟩ := a
      obtain ⟨⟨d0, h0, h1⟩, h2, h3⟩ := hk
      have h1' := refresh_ok hd h0 _ _ h1
      have hkeep : KeptOk S.eng shape dyn (n :: ns) ((refreshArgs dyn n.input args, outs) :: kept) :=
        ⟨⟨dyn, fun _ h => h, h1'⟩, h2, h3⟩
      simp only [runNodes, runNode, loopKept, h1', h2]
      cases h4 : S.kern n with
      | none => exact ⟨rfl, _, rfl, hkeep⟩
      | some k =>
        cases h5 : k (refreshArgs dyn n.input args) outs mem with
        | error x => simp only [h5]; exact ⟨trivial, _, rfl, hkeep⟩
        | ok m =>
          simp only [h5]
          obtain ⟨i1, kept', e1, e2⟩ := ih (acc ++ [(refreshArgs dyn n.input args, outs)]) kept m h3
          exact ⟨i1, (refreshArgs dyn n.input args, outs) :: kept', by rw [e1]; simp, ⟨dyn, fun _ h => h, h1'⟩, h2, e2⟩

/-! ### The whole call -/

/-- holds in every reachable state -/
structure Reach (S : Setup) (st : St) : Prop where
  eng : EngInv S st.se st.last
  dyn : DynOk S.eng st.dyn
  at_ : ∀ σ : String → Nat, (∀ v ∈ boundVars S, st.last.get? v = some (σ v : Int)) → EngAt S σ st.se ∧ CacheOk S σ st.cache

def NodesOk (S : Setup) (σ : String → Nat) (st : St) : Prop :=
  ∀ kept, st.nodes = some kept → KeptOk S.eng (refShape S σ) st.dyn S.eng.nodes kept

theorem bindVars_congr {σ τ : String → Nat} : ∀ (l : List String) (se : Engine.Engine), (∀ v ∈ l, σ v = τ v) → bindVars σ l se = bindVars τ l se
  | [], _, _ => rfl
  | v :: l, se, h => by
    simp only [bindVars, h v (by simp)]
    exact bindVars_congr l _ (fun w hw => h w (List.mem_cons_of_mem _ hw))

theorem refShape_congr {S : Setup} {σ τ : String → Nat} (h : ∀ v ∈ boundVars S, σ v = τ v) : refShape S σ = refShape S τ := by
  funext t; unfold refShape; rw [bindVars_congr _ _ h]

theorem engAt_congr {S : Setup} {σ τ : String → Nat} (h : ∀ v ∈ boundVars S, σ v = τ v) {se : Engine.Engine} (he : EngAt S σ se) :
    EngAt S τ se := by
  unfold EngAt at he ⊢; rwa [← bindVars_congr _ _ h]

theorem reach_start {S : Setup} (hS : SetupOk S) (mem : Mem) : Reach S (S.start mem) := by
  refine ⟨⟨rfl, rfl, fun _ _ _ => rfl, fun v _ n h => absurd h (by simp [Setup.start]), fun _ h => h⟩, fun t h => absurd h (by simp [Setup.start]), ?_⟩
  intro σ hσ
  rcases hS.derived with hne | hex
  · obtain ⟨v, hv⟩ := List.exists_mem_of_ne_nil _ hne
    have := hσ v hv
    simp [Setup.start] at this
  · refine ⟨?_, fun t s h => by simp [Setup.start] at h⟩
    by_cases hb : boundVars S = []
    · refine ⟨S.se0, ?_, rfl, fun _ => rfl⟩
      rw [hb]
      simp [bindVars, Engine.Engine.updateVariables, hex, Engine.updLoop, bind, Except.bind, pure, Except.pure]
      rw [← hex]
    · obtain ⟨v, hv⟩ := List.exists_mem_of_ne_nil _ hb
      have := hσ v hv
      simp [Setup.start] at this

/-- One call from a reachable state. -/
theorem call_spec {S : Setup} (hS : SetupOk S) {σ : String → Nat} {c : Call} (hv : ValidCall S σ c) {st : St} (hr : Reach S st) :
    Reach S (call S st c).1 ∧ (∀ v ∈ boundVars S, (call S st c).1.last.get? v = some (σ v : Int)) ∧
    (((∃ v ∈ boundVars S, st.last.get? v ≠ some (σ v : Int)) ∨ NodesOk S σ st) →
      ((call S st c).2 = (forward S.eng S.kern (refShape S σ) st.mem st.dyn c.bytes).map (·.1) ∧
        ∀ d m, forward S.eng S.kern (refShape S σ) st.mem st.dyn c.bytes = .ok (d, m) →
          (call S st c).1.mem = m ∧ ∃ m1, copyInputs S.eng c.bytes (st.mem, st.dyn) = .ok (m1, (call S st c).1.dyn)) ∧
      ((∃ d, (call S st c).2 = .ok d) → NodesOk S σ (call S st c).1 ∧ (call S st c).1.nodes.isSome)) ∧
    ((∀ v ∈ boundVars S, st.last.get? v = some (σ v : Int)) → NodesOk S σ st → st.nodes.isSome →
      NodesOk S σ (call S st c).1 ∧ (call S st c).1.nodes.isSome) := by
  obtain ⟨t0, shape, b0, rest, hin, hf⟩ := hv.first
  obtain ⟨se', last', ch, hu, hi, hl, hch, hnc, hsame⟩ := updateShape_spec hS hf st hr.eng
  have hcall : call S st c = callRest S { st with se := se', last := last' } ch c := by
    unfold call; rw [hin]; simp only [hu]
  -- the engine and the cache after the shape phase
  have heng : EngAt S σ se' := by
    cases ch with
    | true => exact hch rfl
    | false =>
      obtain ⟨e1, e2⟩ := hnc rfl
      rw [e1]
      exact (hr.at_ σ (by rw [← e2]; exact hl)).1
  obtain ⟨cache', hcache'⟩ : ∃ cache', (if ch = true ∨ st.cache = [] then refreshed S se' else st.cache) = cache' := ⟨_, rfl⟩
  have hcok : CacheOk S σ cache' := by
    rw [← hcache']
    split
    · intro t s h; rw [refreshed_sound _ _ _ _ h]; exact engAt_shape heng t
    · rename_i hn
      cases ch with
      | true => exact absurd (.inl rfl) hn
      | false =>
        obtain ⟨e1, e2⟩ := hnc rfl
        exact (hr.at_ σ (by rw [← e2]; exact hl)).2
  simp only [callRest, hcache'] at hcall
  have hlook : ∀ (nodes : Option (List (List Arg × List (Nat × Nat)))) (dyn : Dict Bytes) (mem : Mem),
      lookupShape S { se := se', last := last', cache := cache', nodes := nodes, dyn := dyn, mem := mem } = refShape S σ :=
    fun _ _ _ => lookup_ref heng hcok
  obtain ⟨hdyn1, hdyn2⟩ := copySt_dyn S.eng c.bytes st.mem st.dyn hr.dyn hv.noConst
  have hfwd := copySt_eq S.eng c.bytes (st.mem, st.dyn)
  have hreach : ∀ (nodes : Option (List (List Arg × List (Nat × Nat)))) (dyn : Dict Bytes) (mem : Mem), DynOk S.eng dyn →
      Reach S { se := se', last := last', cache := cache', nodes := nodes, dyn := dyn, mem := mem } := by
    intro nodes dyn mem hd
    refine ⟨hi, hd, fun τ hτ => ?_⟩
    have hστ : ∀ v ∈ boundVars S, σ v = τ v := by
      intro v hv
      have h1 := hl v hv
      have h2 : last'.get? v = some (τ v : Int) := hτ v hv
      rw [h1] at h2
      simp only [Option.some.injEq] at h2
      exact_mod_cast h2
    refine ⟨engAt_congr hστ heng, ?_⟩
    intro t s h
    rw [← refShape_congr hστ]; exact hcok t s h
  have hchanged : (∃ v ∈ boundVars S, st.last.get? v ≠ some (σ v : Int)) → ch = true := by
    rintro ⟨v, hv, hne⟩
    cases ch with
    | true => rfl
    | false =>
      obtain ⟨_, e2⟩ := hnc rfl
      rw [← e2] at hne
      exact absurd (hl v hv) hne
  generalize hcp : copySt S.eng c.bytes (st.mem, st.dyn) = cp at hcall hfwd hdyn1 hdyn2
  obtain ⟨⟨mem, dyn⟩, err⟩ := cp
  simp only at hdyn1 hdyn2
  cases err with
  | some x =>
    simp only at hcall hfwd
    rw [hcall]
    refine ⟨hreach _ _ _ hdyn1, hl, fun _ => ⟨?_, ?_⟩, ?_⟩
    · unfold forward; rw [hfwd]; exact ⟨rfl, fun d m h => by cases h⟩
    · rintro ⟨d, h⟩; cases h
    · intro _ hn hs
      exact ⟨fun kept hk => KeptOk.mono hdyn2 _ _ (hn kept hk), hs⟩
  | none =>
    simp only [callRun] at hcall hfwd
    rw [hlook] at hcall
    generalize hr' : loopOf S c.crash (refShape S σ) dyn mem ch st.nodes = r at hcall
    obtain ⟨⟨acc, mem'⟩, er⟩ := r
    rw [hlook] at hcall
    have hone : (call S st c).1 = { se := se', last := last', cache := cache', nodes := some acc, dyn := dyn, mem := mem' } := by
      rw [hcall]; cases er <;> rfl
    have htwo : (call S st c).2 = (match (generalizing := false) er with
        | some x => .error x
        | none => collect S.eng (refShape S σ) mem' S.eng.output) := by
      rw [hcall]; cases er <;> rfl
    have hfin : runNodes S.eng S.kern (refShape S σ) dyn S.eng.nodes mem = (match (generalizing := false) er with
        | none => .ok mem'
        | some x => .error x) →
        (call S st c).2 = (forward S.eng S.kern (refShape S σ) st.mem st.dyn c.bytes).map (·.1) ∧
        ∀ d m, forward S.eng S.kern (refShape S σ) st.mem st.dyn c.bytes = .ok (d, m) →
          (call S st c).1.mem = m ∧ ∃ m1, copyInputs S.eng c.bytes (st.mem, st.dyn) = .ok (m1, (call S st c).1.dyn) := by
      intro h
      rw [htwo, hone]
      unfold forward; rw [hfwd]; simp only [h]
      cases er with
      | some x => exact ⟨rfl, fun d m h => by cases h⟩
      | none =>
        simp only
        cases collect S.eng (refShape S σ) mem' S.eng.output with
        | error x => exact ⟨rfl, fun d m h => by cases h⟩
        | ok d => exact ⟨rfl, fun d' m h => by cases h; exact ⟨rfl, mem, rfl⟩⟩
    have hret : (∃ d, (call S st c).2 = .ok d) → er = none := by
      rintro ⟨d, h⟩
      rw [htwo] at h
      cases er with
      | none => rfl
      | some x => cases h
    have hN : KeptOk S.eng (refShape S σ) dyn S.eng.nodes acc → NodesOk S σ (call S st c).1 ∧ (call S st c).1.nodes.isSome := by
      intro h
      rw [hone]
      exact ⟨fun q hq => by cases hq; exact h, rfl⟩
    refine ⟨by rw [hone]; exact hreach _ _ _ hdyn1, by rw [hone]; exact hl, ?_⟩
    by_cases hcase : ch = false ∧ ∃ kept, st.nodes = some kept
    · obtain ⟨rfl, kept, hkept⟩ := hcase
      rw [hkept] at hr'
      simp only [loopOf] at hr'
      have main : NodesOk S σ st → _ := fun hno =>
        loopKept_spec S c.crash (refShape S σ) dyn hdyn1 S.eng.nodes [] kept mem (KeptOk.mono hdyn2 _ _ (hno kept hkept))
      rw [hr'] at main
      simp only [List.nil_append] at main
      refine ⟨fun h => ?_, fun _ hno _ => ?_⟩
      · have hno : NodesOk S σ st := by
          rcases h with h | h
          · have := hchanged h; cases this
          · exact h
        obtain ⟨k1, kept', k2, k3⟩ := main hno
        subst k2
        exact ⟨hfin k1, fun _ => hN k3⟩
      · obtain ⟨k1, kept', k2, k3⟩ := main hno
        subst k2
        exact hN k3
    · have hloop : loopOf S c.crash (refShape S σ) dyn mem ch st.nodes =
          loopRebuild S c.crash (refShape S σ) dyn S.eng.nodes [] mem := by
        cases ch with
        | true => rfl
        | false =>
          cases hk : st.nodes with
          | none => rfl
          | some kept => exact absurd ⟨rfl, kept, hk⟩ hcase
      obtain ⟨k1, k2⟩ := loopRebuild_spec S c.crash (refShape S σ) dyn S.eng.nodes [] mem
      rw [← hloop, hr'] at k1 k2
      simp only [List.nil_append] at k1 k2
      refine ⟨fun _ => ⟨hfin k1, fun h => ?_⟩, fun h _ hs => ?_⟩
      · obtain ⟨kept', e1, k3⟩ := k2 (hret h)
        subst e1
        exact hN k3
      · exact absurd ⟨hsame h, Option.isSome_iff_exists.1 hs⟩ hcase

end OnnxTool.Infer
