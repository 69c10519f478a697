import Verif.Proofs.BuilderState
/-!
# Graphs made by calls without rotary embedding
-/
namespace OnnxTool.Builder
open OnnxTool

/-- rule for the result shape -/
abbrev Rule := String → Option (Nat × Nat) → List (List Nat) → Option (List Nat)

/-- every call finds its operands, does not raise, names its output after itself and declares the right shape -/
def Flow (rule : Rule) : (T → Prop) → List Emit → Prop
  | _, [] => True
  | A, e :: es => (∀ x ∈ e.ins, A x ∨ x ∈ e.statics) ∧ (∀ x ∈ e.statics, x ∈ e.ins) ∧ e.err = none ∧ e.op ≠ "Rope" ∧
      e.out.name = e.name ++ ".output" ∧ rule e.op e.slice (e.ins.map (·.shape)) = some e.out.shape ∧ Flow rule (After A [e]) es

theorem flow_append {rule : Rule} (l m : List Emit) : ∀ (A : T → Prop), Flow rule A l → Flow rule (After A l) m → Flow rule A (l ++ m) := by
  induction l with
  | nil => intro A _ h; rw [after_nil] at h; exact h
  | cons e l ih =>
    intro A h1 h2
    obtain ⟨a1, a2, a3, a4, a5, a6, a7⟩ := h1
    refine ⟨a1, a2, a3, a4, a5, a6, ih _ a7 ?_⟩
    rw [show e :: l = [e] ++ l from rfl, after_append] at h2
    exact h2

/-- a builder method that flows, with a condition on its result and on what is available afterwards -/
def Goes (rule : Rule) {α : Type} (A : T → Prop) (m : W α) (Q : α → (T → Prop) → Prop) : Prop :=
  Flow rule A m.2 ∧ Q m.1 (After A m.2)

theorem goes_bind {rule : Rule} {α β : Type} {A : T → Prop} {m : W α} {f : α → W β} {Q : β → (T → Prop) → Prop}
    (h : Goes rule A m (fun a B => Goes rule B (f a) Q)) : Goes rule A (m >>= f) Q := by
  obtain ⟨h1, h2, h3⟩ := h
  refine ⟨flow_append _ _ _ h1 h2, ?_⟩
  rw [bind_fst, bind_snd, after_append]; exact h3

theorem goes_pure {rule : Rule} {α : Type} {A : T → Prop} {a : α} {Q : α → (T → Prop) → Prop} (h : Q a A) : Goes rule A (pure a : W α) Q := by
  refine ⟨trivial, ?_⟩
  rw [pure_snd, after_nil]; exact h

theorem goes_mono {rule : Rule} {α : Type} {A : T → Prop} {m : W α} {P Q : α → (T → Prop) → Prop} (h : Goes rule A m P)
    (hi : ∀ a B, P a B → Q a B) : Goes rule A m Q := ⟨h.1, hi _ _ h.2⟩

theorem goes_emit {rule : Rule} {A : T → Prop} {e : Emit} (h1 : ∀ x ∈ e.ins, A x ∨ x ∈ e.statics) (h2 : ∀ x ∈ e.statics, x ∈ e.ins)
    (h3 : e.err = none) (h4 : e.op ≠ "Rope") (h5 : e.out.name = e.name ++ ".output")
    (h6 : rule e.op e.slice (e.ins.map (·.shape)) = some e.out.shape) : Goes rule A (emit e) (Res A e.out.shape) :=
  ⟨⟨h1, h2, h3, h4, h5, h6, trivial⟩, .inr ⟨e, List.mem_singleton.2 rfl, rfl⟩, rfl, fun _ hx => .inl hx⟩

theorem goes_let {rule : Rule} {α : Type} {A : T → Prop} {m : W T} {sh : List Nat} {f : T → W α} {Q : α → (T → Prop) → Prop}
    (h : Goes rule A m (Res A sh)) (k : ∀ t B, B t → t.shape = sh → (∀ x, A x → B x) → Goes rule B (f t) Q) : Goes rule A (m >>= f) Q :=
  goes_bind (goes_mono h fun t B r => k t B r.1 r.2.1 r.2.2)

theorem goes_tail {rule : Rule} {A B : T → Prop} {m : W T} {sh : List Nat} (h : ∀ x, A x → B x) (r : Goes rule B m (Res B sh)) :
    Goes rule B m (Res A sh) := goes_mono r fun _ _ => res_trans h

theorem flow_get {rule : Rule} (es : List Emit) : ∀ (A : T → Prop), Flow rule A es → ∀ (k : Nat) (e : Emit), es[k]? = some e →
    (∀ x ∈ e.ins, x ∈ e.statics ∨ A x ∨ ∃ (j : Nat) (d : Emit), j < k ∧ es[j]? = some d ∧ x = d.out) ∧ (∀ x ∈ e.statics, x ∈ e.ins) ∧
    e.out.name = e.name ++ ".output" ∧ rule e.op e.slice (e.ins.map (·.shape)) = some e.out.shape ∧ e.err = none ∧ e.op ≠ "Rope" := by
  induction es with
  | nil => intro A _ k e h; cases h
  | cons d es ih =>
    intro A hf k e hk
    obtain ⟨a1, a2, a3, a4, a5, a6, a7⟩ := hf
    cases k with
    | zero =>
      simp only [List.getElem?_cons_zero, Option.some.injEq] at hk
      subst hk
      refine ⟨fun x hx => ?_, a2, a5, a6, a3, a4⟩
      rcases a1 x hx with h | h
      exacts [.inr (.inl h), .inl h]
    | succ k =>
      simp only [List.getElem?_cons_succ] at hk
      obtain ⟨h1, h2⟩ := ih _ a7 k e hk
      refine ⟨fun x hx => ?_, h2⟩
      rcases h1 x hx with h | h | ⟨j, d', hj, hd, rfl⟩
      · exact .inl h
      · rcases h with h | ⟨e', he', rfl⟩
        · exact .inr (.inl h)
        · rw [List.mem_singleton] at he'
          subst he'
          exact .inr (.inr ⟨0, e', Nat.succ_pos _, rfl, rfl⟩)
      · exact .inr (.inr ⟨j + 1, d', by omega, by simpa using hd, rfl⟩)

theorem flow_mem {rule : Rule} {es : List Emit} {A : T → Prop} (h : Flow rule A es) {e : Emit} (he : e ∈ es) :
    (∀ x ∈ e.statics, x ∈ e.ins) ∧ e.out.name = e.name ++ ".output" ∧ rule e.op e.slice (e.ins.map (·.shape)) = some e.out.shape ∧
    e.err = none ∧ e.op ≠ "Rope" := by
  obtain ⟨k, hk, hke⟩ := List.getElem_of_mem he
  exact (flow_get es A h k e (by rw [List.getElem?_eq_getElem hk, hke])).2

/-- the graph after the calls -/
structure Made (s0 : St) (es : List Emit) (s : St) : Prop where
  nodes : s.nodes = s0.nodes ++ es.map enode
  initials : s.initials = s0.initials ++ (es.flatMap (·.statics)).map (·.name)
  input : s.input = s0.input
  output : s.output = s0.output
  statics : ∀ e ∈ es, ∀ x ∈ e.statics, s.tensors.get? x.name = some (true, x.shape)
  outs : ∀ e ∈ es, s.tensors.get? e.out.name = some (false, e.out.shape)
  rest : ∀ q, q ∉ keys es → s.tensors.get? q = s0.tensors.get? q

theorem made_run {c : Cfg} (es : List Emit) : ∀ (s0 : St), (∀ e ∈ es, e.err = none ∧ e.op ≠ "Rope") → (keys es).Nodup →
    (es.map (·.name)).Nodup → (∀ e ∈ es, e.name ∉ s0.nodes.keys) → ∃ s, applyEmits c es s0 = .ok s ∧ Made s0 es s := by
  induction es with
  | nil => intro s0 _ _ _ _; exact ⟨s0, rfl, by simp, by simp, rfl, rfl, by simp, by simp, fun _ _ => rfl⟩
  | cons e es ih =>
    intro s0 hp hk hn hd
    obtain ⟨he, ho⟩ := hp e (List.mem_cons_self ..)
    obtain ⟨f1, f2, f3, f4, _, _, f7, f8⟩ := foldl_addStatic e.statics s0
    have hek : (ekeys e).Nodup := by
      have : (keys (e :: es)) = ekeys e ++ keys es := rfl
      rw [this] at hk
      exact (List.nodup_append.1 hk).1
    have hdis : ∀ x ∈ ekeys e, x ∉ keys es := by
      have : (keys (e :: es)) = ekeys e ++ keys es := rfl
      rw [this, List.nodup_append] at hk
      intro x hx hx'
      exact hk.2.2 x hx x hx' rfl
    have hes : (keys es).Nodup := by
      have : (keys (e :: es)) = ekeys e ++ keys es := rfl
      rw [this] at hk
      exact (List.nodup_append.1 hk).2.1
    have hekS : (e.statics.map (·.name)).Nodup := (List.nodup_append.1 hek).1
    have hout : e.out.name ∉ e.statics.map (·.name) := fun h => (List.nodup_append.1 hek).2.2 _ h _ (List.mem_singleton.2 rfl) rfl
    let s1 : St := { e.statics.foldl addStatic s0 with
      tensors := (e.statics.foldl addStatic s0).tensors.set e.out.name (false, e.out.shape)
      nodes := (e.statics.foldl addStatic s0).nodes.set e.name ⟨e.op, e.ins.map (·.name), [e.out.name], e.layer, e.slice⟩ }
    have hs1 : applyEmit c s0 e = .ok s1 := by
      unfold applyEmit
      rw [he]
      simp only [if_neg ho]
      rfl
    have hn1 : s1.nodes = s0.nodes ++ [enode e] := by
      show (e.statics.foldl addStatic s0).nodes.set e.name _ = _
      rw [f1, set_fresh _ _ _ (hd e (List.mem_cons_self ..))]
      rfl
    simp only [List.map_cons, List.nodup_cons] at hn
    have hd1 : ∀ x ∈ es, x.name ∉ s1.nodes.keys := by
      intro x hx hm
      rw [hn1] at hm
      simp only [Dict.keys, List.map_append, List.map_cons, List.map_nil, List.mem_append, List.mem_singleton] at hm
      rcases hm with hm | hm
      · exact hd x (List.mem_cons_of_mem _ hx) hm
      · exact hn.1 (List.mem_map.2 ⟨x, hx, hm⟩)
    obtain ⟨s, hs, hm⟩ := ih s1 (fun x hx => hp x (List.mem_cons_of_mem _ hx)) hes hn.2 hd1
    refine ⟨s, by rw [applyEmits, hs1]; exact hs, ?_⟩
    have ht : ∀ q, q ≠ e.out.name → s1.tensors.get? q = (e.statics.foldl addStatic s0).tensors.get? q :=
      fun q hq => Dict.get?_set_ne _ _ (fun h => hq h.symm)
    refine ⟨?_, ?_, ?_, ?_, ?_, ?_, ?_⟩
    · rw [hm.nodes, hn1]; simp
    · rw [hm.initials]
      show (e.statics.foldl addStatic s0).initials ++ _ = _
      rw [f2]; simp
    · rw [hm.input]; exact f3
    · rw [hm.output]; exact f4
    · intro d hd' x hx
      rcases List.mem_cons.1 hd' with rfl | hd'
      · have hxk : x.name ∈ ekeys d := List.mem_append_left _ (List.mem_map.2 ⟨x, hx, rfl⟩)
        rw [hm.rest _ (hdis _ hxk), ht _ (fun h => hout (h ▸ List.mem_map.2 ⟨x, hx, rfl⟩))]
        exact f8 hekS x hx
      · exact hm.statics d hd' x hx
    · intro d hd'
      rcases List.mem_cons.1 hd' with rfl | hd'
      · rw [hm.rest _ (hdis _ (List.mem_append_right _ (List.mem_singleton.2 rfl)))]
        exact Dict.get?_set_self _ _ _
      · exact hm.outs d hd'
    · intro q hq
      have hq' : q ∉ ekeys e ∧ q ∉ keys es := by
        have : (keys (e :: es)) = ekeys e ++ keys es := rfl
        rw [this, List.mem_append, not_or] at hq
        exact hq
      rw [hm.rest q hq'.2, ht q (fun h => hq'.1 (h ▸ List.mem_append_right _ (List.mem_singleton.2 rfl)))]
      exact f7 q (fun h => hq'.1 (List.mem_append_left _ h))

theorem outs_flat (l : List Emit) : (l.map enode).flatMap (·.2.output) = l.map (·.out.name) := by
  induction l with
  | nil => rfl
  | cons a l ih => simp only [List.map_cons, List.flatMap_cons, ih]; rfl

/-- The graph of a flow from one input: valid, shapes by the rule, elements of the initializers. -/
theorem flow_graph {rule : Rule} {c : Cfg} (inp : T) (es : List Emit) (last : T) (hf : Flow rule (· = inp) es) (hk : (keys es).Nodup)
    (hi : inp.name ∉ keys es) (hl : ∃ xs e, es = xs ++ [e] ∧ e.out = last) :
    ∃ s, applyEmits c es (addInput {} inp) = .ok s ∧ Made (addInput {} inp) es s ∧ Valid { s with output := [last.name] } ∧
      (∀ n ∈ s.nodes, ∃ o, n.2.output = [o] ∧ rule n.2.op n.2.slice (n.2.input.map s.shape) = some (s.shape o)) ∧
      s.shape last.name = last.shape ∧ s.shape inp.name = inp.shape ∧
      (s.initials.map fun x => (s.shape x).prod).sum = cost es := by
  have houts : (es.map (·.out.name)).Nodup := (List.nodup_append.1 ((keys_perm es).nodup_iff.1 hk)).2.1
  have hnames : (es.map (·.name)).Nodup := by
    have e : es.map (·.out.name) = (es.map (·.name)).map (· ++ ".output") := by
      rw [List.map_map]
      exact List.map_congr_left fun e he => (flow_mem hf he).2.1
    rw [e] at houts
    exact List.Nodup.of_map _ houts
  obtain ⟨s, hs, hm⟩ := made_run (c := c) es (addInput {} inp) (fun e he => ⟨(flow_mem hf he).2.2.2.1, (flow_mem hf he).2.2.2.2⟩) hk hnames
    (by intro e _ h; exact absurd h (by simp [addInput, Dict.keys]))
  have hin : s.input = [inp.name] := by rw [hm.input]; rfl
  have hnd : s.nodes = es.map enode := by rw [hm.nodes]; rfl
  have hini : s.initials = (es.flatMap (·.statics)).map (·.name) := by rw [hm.initials]; simp [addInput]
  have hpix : s.tensors.get? inp.name = some (false, inp.shape) := by
    rw [hm.rest _ hi]
    exact Dict.get?_set_self _ _ _
  have hstat : ∀ e ∈ es, ∀ x ∈ e.statics, s.shape x.name = x.shape := fun e he x hx => by simp [St.shape, hm.statics e he x hx]
  have hout : ∀ e ∈ es, s.shape e.out.name = e.out.shape := fun e he => by simp [St.shape, hm.outs e he]
  have hinp : s.shape inp.name = inp.shape := by simp [St.shape, hpix]
  have hoper : ∀ (k : Nat) (e : Emit), es[k]? = some e → ∀ x ∈ e.ins, s.shape x.name = x.shape := by
    intro k e he x hx
    rcases (flow_get es _ hf k e he).1 x hx with h | h | ⟨j, d, _, hd, rfl⟩
    · exact hstat e (List.mem_of_getElem? he) x h
    · rw [h]; exact hinp
    · exact hout d (List.mem_of_getElem? hd)
  obtain ⟨xs, el, hxs, hel⟩ := hl
  refine ⟨s, hs, hm, ⟨?_, ?_, ?_, ?_, ?_, ?_, ?_⟩, ?_, ?_, hinp, ?_⟩
  · intro k name n hkn x hx
    simp only at hkn ⊢
    rw [hnd, List.getElem?_map] at hkn
    cases hke : es[k]? with
    | none => rw [hke] at hkn; cases hkn
    | some e =>
      rw [hke] at hkn
      simp only [Option.map_some, Option.some.injEq, enode, Prod.mk.injEq] at hkn
      obtain ⟨rfl, rfl⟩ := hkn
      obtain ⟨t, ht, rfl⟩ := List.mem_map.1 hx
      rcases (flow_get es _ hf k e hke).1 t ht with h | h | ⟨j, d, hj, hd, rfl⟩
      · refine .inr (.inl ?_)
        rw [hini]
        exact List.mem_map.2 ⟨t, List.mem_flatMap.2 ⟨e, List.mem_of_getElem? hke, h⟩, rfl⟩
      · exact .inl (by rw [hin, h]; exact List.mem_singleton.2 rfl)
      · refine .inr (.inr ⟨j, enode d, hj, ?_, by simp [enode]⟩)
        rw [hnd, List.getElem?_map, hd]; rfl
  · simp only
    rw [hin, hini, hnd, outs_flat]
    have hp : ((es.flatMap (·.statics)).map (·.name) ++ es.map (·.out.name)).Nodup := (keys_perm es).nodup_iff.1 hk
    rw [List.append_assoc]
    refine List.nodup_append.2 ⟨by simp, hp, ?_⟩
    rintro a ha b hb rfl
    rw [List.mem_singleton] at ha
    subst ha
    exact hi ((keys_perm es).mem_iff.2 hb)
  · simp only [hnd, List.map_map]
    exact hnames
  · intro x hx
    simp only at hx ⊢
    rw [hini] at hx
    obtain ⟨t, ht, rfl⟩ := List.mem_map.1 hx
    obtain ⟨e, he, hte⟩ := List.mem_flatMap.1 ht
    rw [hnd]
    exact ⟨enode e, List.mem_map.2 ⟨e, he, rfl⟩, List.mem_map.2 ⟨t, (flow_mem hf he).1 t hte, rfl⟩⟩
  · intro x hx
    simp only at hx ⊢
    rw [hini] at hx
    obtain ⟨t, ht, rfl⟩ := List.mem_map.1 hx
    obtain ⟨e, he, hte⟩ := List.mem_flatMap.1 ht
    exact ⟨_, hm.statics e he t hte⟩
  · intro x hx
    simp only at hx ⊢
    rw [hin, hnd, outs_flat] at hx
    rcases List.mem_append.1 hx with hx | hx
    · rw [List.mem_singleton] at hx
      exact ⟨_, hx ▸ hpix⟩
    · obtain ⟨e, he, rfl⟩ := List.mem_map.1 hx
      exact ⟨_, hm.outs e he⟩
  · refine ⟨enode el, ?_, ?_⟩
    · simp [hnd, hxs]
    · simp [enode, hel]
  · intro n hn
    rw [hnd] at hn
    obtain ⟨e, he, rfl⟩ := List.mem_map.1 hn
    obtain ⟨k, hk', hke⟩ := List.getElem_of_mem he
    have hke' : es[k]? = some e := by rw [List.getElem?_eq_getElem hk', hke]
    refine ⟨e.out.name, rfl, ?_⟩
    rw [hout e he, ← (flow_mem hf he).2.2.1]
    congr 1
    simp only [enode, List.map_map]
    exact List.map_congr_left fun x hx => hoper k e hke' x hx
  · rw [← hel]
    exact hout el (by rw [hxs]; simp)
  · rw [hini, List.map_map]
    unfold cost
    congr 1
    refine List.map_congr_left fun t ht => ?_
    obtain ⟨e, he, hte⟩ := List.mem_flatMap.1 ht
    simp [hstat e he t hte]

end OnnxTool.Builder
