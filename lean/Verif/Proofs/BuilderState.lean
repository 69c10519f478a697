import Verif.Proofs.BuilderCount
/-!
# The builder: the graph after the calls
-/
namespace OnnxTool.Builder
open OnnxTool

/-- the node one call adds -/
def enode (e : Emit) : String × BNode := (e.name, ⟨e.op, e.ins.map (·.name), [e.out.name], e.layer, e.slice⟩)

/-- the shared tables of the rotary embedding -/
def tables (c : Cfg) : List T := [⟨"rope.cos", [1, 1, c.maxPos, c.rotaryDim / 2]⟩, ⟨"rope.sin", [1, 1, c.maxPos, c.rotaryDim / 2]⟩]

/-- the graph after the calls `done`, starting from inputs `base` -/
structure Inv (c : Cfg) (base : List String) (done : List Emit) (s : St) : Prop where
  nodes : s.nodes = done.map enode
  rope : s.ropeAdded = hasRope done
  pos : s.posAdded = hasRope done
  input : s.input = base ++ if hasRope done then ["position"] else []
  inits : ∃ ts : List T, s.initials = ts.map (·.name) ∧ ts.Perm ((if hasRope done then tables c else []) ++ done.flatMap (·.statics))
  statics : ∀ e ∈ done, ∀ x ∈ e.statics, s.tensors.get? x.name = some (true, x.shape)
  outs : ∀ e ∈ done, s.tensors.get? e.out.name = some (false, e.out.shape)
  ids : "ids" ∈ s.input → s.tensors.get? "ids" = some (false, [c.batch, c.seq])
  position : "position" ∈ s.input → s.tensors.get? "position" = some (false, [c.batch, c.seq])
  tab : hasRope done = true → ∀ x ∈ tables c, s.tensors.get? x.name = some (true, x.shape)
  out : s.output = []

theorem set_fresh {α : Type} (d : Dict α) (k : String) (v : α) (h : k ∉ d.keys) : d.set k v = d ++ [(k, v)] := by
  induction d with
  | nil => rfl
  | cons a d ih =>
    obtain ⟨x, y⟩ := a
    simp only [Dict.keys, List.map_cons, List.mem_cons, not_or] at h
    simp only [Dict.set]
    rw [if_neg (by simpa using fun e => h.1 (by simpa using e.symm)), List.cons_append, ih h.2]

theorem foldl_addStatic (ts : List T) : ∀ (s : St),
    (ts.foldl addStatic s).nodes = s.nodes ∧ (ts.foldl addStatic s).initials = s.initials ++ ts.map (·.name) ∧
    (ts.foldl addStatic s).input = s.input ∧ (ts.foldl addStatic s).output = s.output ∧
    (ts.foldl addStatic s).ropeAdded = s.ropeAdded ∧ (ts.foldl addStatic s).posAdded = s.posAdded ∧
    (∀ q, q ∉ ts.map (·.name) → (ts.foldl addStatic s).tensors.get? q = s.tensors.get? q) ∧
    ((ts.map (·.name)).Nodup → ∀ x ∈ ts, (ts.foldl addStatic s).tensors.get? x.name = some (true, x.shape)) := by
  induction ts with
  | nil => intro s; simp
  | cons t ts ih =>
    intro s
    obtain ⟨h1, h2, h3, h4, h5, h6, h7, h8⟩ := ih (addStatic s t)
    simp only [List.foldl_cons]
    refine ⟨h1, ?_, h3, h4, h5, h6, ?_, ?_⟩
    · rw [h2]; simp [addStatic]
    · intro q hq
      simp only [List.map_cons, List.mem_cons, not_or] at hq
      rw [h7 q hq.2]
      exact Dict.get?_set_ne _ _ (fun e => hq.1 e.symm)
    · intro hn x hx
      simp only [List.map_cons, List.nodup_cons] at hn
      rcases List.mem_cons.1 hx with rfl | hx
      · rw [h7 _ hn.1]; exact Dict.get?_set_self _ _ _
      · exact h8 hn.2 x hx

theorem ropeShared_spec (c : Cfg) (s : St) (hf : s.posAdded = s.ropeAdded) :
    (ropeShared c s).nodes = s.nodes ∧ (ropeShared c s).output = s.output ∧ (ropeShared c s).ropeAdded = true ∧ (ropeShared c s).posAdded = true ∧
    (ropeShared c s).initials = s.initials ++ (if s.ropeAdded then [] else (tables c).map (·.name)) ∧
    (ropeShared c s).input = s.input ++ (if s.ropeAdded then [] else ["position"]) ∧
    (∀ q, q ∉ fixedNames → (ropeShared c s).tensors.get? q = s.tensors.get? q) ∧
    (ropeShared c s).tensors.get? "ids" = s.tensors.get? "ids" ∧
    (s.ropeAdded = true → ropeShared c s = s) ∧
    (s.ropeAdded = false → (ropeShared c s).tensors.get? "position" = some (false, [c.batch, c.seq]) ∧
      ∀ x ∈ tables c, (ropeShared c s).tensors.get? x.name = some (true, x.shape)) := by
  cases hr : s.ropeAdded with
  | true =>
    rw [hr] at hf
    have e : ropeShared c s = s := by simp [ropeShared, hr, hf]
    rw [e]
    simp [hr, hf]
  | false =>
    rw [hr] at hf
    have e : ropeShared c s = { addInput { addStatic (addStatic s ⟨"rope.cos", [1, 1, c.maxPos, c.rotaryDim / 2]⟩)
        ⟨"rope.sin", [1, 1, c.maxPos, c.rotaryDim / 2]⟩ with ropeAdded := true } (positionT c) with posAdded := true } := by
      simp [ropeShared, hr, addStatic, hf]
    rw [e]
    have g : ∀ q, ((((s.tensors.set "rope.cos" (true, [1, 1, c.maxPos, c.rotaryDim / 2])).set "rope.sin"
        (true, [1, 1, c.maxPos, c.rotaryDim / 2])).set "position" (false, [c.batch, c.seq])).get? q) =
        if q = "position" then some (false, [c.batch, c.seq]) else if q = "rope.sin" then some (true, [1, 1, c.maxPos, c.rotaryDim / 2])
        else if q = "rope.cos" then some (true, [1, 1, c.maxPos, c.rotaryDim / 2]) else s.tensors.get? q := by
      intro q
      by_cases h1 : q = "position"
      · subst h1; rw [if_pos rfl]; exact Dict.get?_set_self _ _ _
      · rw [if_neg h1, Dict.get?_set_ne _ _ (fun e => h1 e.symm)]
        by_cases h2 : q = "rope.sin"
        · subst h2; rw [if_pos rfl]; exact Dict.get?_set_self _ _ _
        · rw [if_neg h2, Dict.get?_set_ne _ _ (fun e => h2 e.symm)]
          by_cases h3 : q = "rope.cos"
          · subst h3; rw [if_pos rfl]; exact Dict.get?_set_self _ _ _
          · rw [if_neg h3, Dict.get?_set_ne _ _ (fun e => h3 e.symm)]
    refine ⟨rfl, rfl, rfl, rfl, ?_, rfl, ?_, ?_, ?_, ?_⟩
    · simp [addInput, addStatic, tables]
    · intro q hq
      refine (g q).trans ?_
      simp only [fixedNames, List.mem_cons, not_or] at hq
      rw [if_neg hq.2.1, if_neg hq.2.2.2.1, if_neg hq.2.2.1]
    · exact (g "ids").trans rfl
    · intro h; cases h
    · intro _
      refine ⟨(g "position").trans rfl, ?_⟩
      intro x hx
      simp only [tables, List.mem_cons, List.not_mem_nil, or_false] at hx
      rcases hx with rfl | rfl
      · exact (g "rope.cos").trans rfl
      · exact (g "rope.sin").trans rfl

theorem hasRope_append (l m : List Emit) : hasRope (l ++ m) = (hasRope l || hasRope m) := List.any_append

theorem keys_append (l m : List Emit) : keys (l ++ m) = keys l ++ keys m := List.flatMap_append

theorem mem_keys_static {es : List Emit} {e : Emit} {x : T} (he : e ∈ es) (hx : x ∈ e.statics) : x.name ∈ keys es :=
  List.mem_flatMap.2 ⟨e, he, List.mem_append_left _ (List.mem_map.2 ⟨x, hx, rfl⟩)⟩

theorem mem_keys_out {es : List Emit} {e : Emit} (he : e ∈ es) : e.out.name ∈ keys es :=
  List.mem_flatMap.2 ⟨e, he, List.mem_append_right _ (List.mem_singleton.2 rfl)⟩

theorem inv_step {c : Cfg} {base : List String} {done : List Emit} {s : St} {e : Emit} (hi : Inv c base done s)
    (herr : e.err = none) (hout : e.out.name = e.name ++ ".output") (houts : ∀ d ∈ done, d.out.name = d.name ++ ".output")
    (hk : (keys (done ++ [e])).Nodup) (hF : ∀ x ∈ keys (done ++ [e]), x ∉ fixedNames) :
    ∃ s', applyEmit c s e = .ok s' ∧ Inv c base (done ++ [e]) s' := by
  have hf : ∀ x ∈ keys [e], x ∉ fixedNames := fun x hx => hF x (by rw [keys_append]; exact List.mem_append_right _ hx)
  have hfd : ∀ x ∈ keys done, x ∉ fixedNames := fun x hx => hF x (by rw [keys_append]; exact List.mem_append_left _ hx)
  have hk' := hk
  rw [keys_append, List.nodup_append] at hk'
  obtain ⟨_, hke, hdis⟩ := hk'
  have hke' : (ekeys e).Nodup := by simpa [keys] using hke
  rw [ekeys, List.nodup_append] at hke'
  obtain ⟨hst, _, hso⟩ := hke'
  have hoN : e.out.name ∉ e.statics.map (·.name) := fun h => hso _ h _ (by simp) rfl
  have hkeyE : ∀ x ∈ e.statics, x.name ∈ keys [e] := fun x hx => mem_keys_static (by simp) hx
  have hkeyO : e.out.name ∈ keys [e] := mem_keys_out (by simp)
  have hstF : ∀ q ∈ fixedNames, q ∉ e.statics.map (·.name) := by
    intro q hq h
    obtain ⟨x, hx, rfl⟩ := List.mem_map.1 h
    exact hf _ (hkeyE x hx) hq
  have houF : ∀ q ∈ fixedNames, e.out.name ≠ q := fun q hq h => hf _ hkeyO (h ▸ hq)
  have hfresh : e.name ∉ (done.map enode).map (·.1) := by
    intro h
    simp only [List.map_map, List.mem_map, Function.comp, enode] at h
    obtain ⟨d, hd, hn⟩ := h
    refine hdis _ (mem_keys_out hd) _ hkeyO ?_
    rw [houts d hd, hout, hn]
  -- the state with the shared tables
  let s1 := if e.op = "Rope" then ropeShared c s else s
  have hpr : s.posAdded = s.ropeAdded := by rw [hi.pos, hi.rope]
  obtain ⟨r1, r2, r3, r4, r5, r6, r7, r8, r9, r10⟩ := ropeShared_spec c s hpr
  have hrope1 : hasRope [e] = decide (e.op = "Rope") := by simp only [hasRope, List.any_cons, List.any_nil, Bool.or_false]; rfl
  have hadd : hasRope (done ++ [e]) = (hasRope done || decide (e.op = "Rope")) := by rw [hasRope_append, hrope1]
  have n1 : s1.nodes = s.nodes := by simp only [s1]; split; exacts [r1, rfl]
  have o1 : s1.output = s.output := by simp only [s1]; split; exacts [r2, rfl]
  have ra1 : s1.ropeAdded = hasRope (done ++ [e]) := by
    rw [hadd]; simp only [s1]; split
    · rename_i h; rw [r3]; simp [h]
    · rename_i h; rw [hi.rope]; simp [h]
  have pa1 : s1.posAdded = hasRope (done ++ [e]) := by
    rw [hadd]; simp only [s1]; split
    · rename_i h; rw [r4]; simp [h]
    · rename_i h; rw [hi.pos]; simp [h]
  have in1 : s1.input = base ++ if hasRope (done ++ [e]) then ["position"] else [] := by
    rw [hadd]; simp only [s1]; split
    · rename_i h
      rw [r6, hi.input, hi.rope]
      cases hasRope done <;> simp [h]
    · rename_i h; rw [hi.input]; simp [h]
  have it1 : ∃ ts : List T, s1.initials = ts.map (·.name) ∧
      ts.Perm ((if hasRope (done ++ [e]) then tables c else []) ++ done.flatMap (·.statics)) := by
    obtain ⟨ts, ht, hp⟩ := hi.inits
    rw [hadd]; simp only [s1]; split
    · rename_i h
      rw [r5, hi.rope, ht]
      cases hd : hasRope done with
      | true => rw [hd] at hp; exact ⟨ts, by simp, by simpa [h] using hp⟩
      | false =>
        rw [hd] at hp
        refine ⟨ts ++ tables c, by simp, ?_⟩
        simp only [Bool.false_or, h, decide_true, if_true]
        refine (List.perm_append_comm).trans (List.Perm.append_left _ ?_)
        simpa using hp
    · rename_i h; rw [ht]; exact ⟨ts, rfl, by simpa [h] using hp⟩
  have te1 : ∀ q, q ∉ fixedNames → s1.tensors.get? q = s.tensors.get? q := by
    intro q hq; simp only [s1]; split
    · exact r7 q hq
    · rfl
  have id1 : s1.tensors.get? "ids" = s.tensors.get? "ids" := by
    simp only [s1]; split
    · exact r8
    · rfl
  have po1 : "position" ∈ s1.input → s1.tensors.get? "position" = some (false, [c.batch, c.seq]) := by
    simp only [s1]; split
    · cases hr : s.ropeAdded with
      | true => rw [r9 hr]; exact hi.position
      | false => intro _; exact (r10 hr).1
    · exact hi.position
  have ta1 : hasRope (done ++ [e]) = true → ∀ x ∈ tables c, s1.tensors.get? x.name = some (true, x.shape) := by
    rw [hadd]; simp only [s1]; split
    · intro _
      cases hr : s.ropeAdded with
      | true => rw [r9 hr]; exact hi.tab (by rw [← hi.rope, hr])
      | false => exact (r10 hr).2
    · rename_i h; intro hh; exact hi.tab (by simpa [h] using hh)
  obtain ⟨f1, f2, f3, f4, f5, f6, f7, f8⟩ := foldl_addStatic e.statics s1
  refine ⟨{ (e.statics.foldl addStatic s1) with
      tensors := (e.statics.foldl addStatic s1).tensors.set e.out.name (false, e.out.shape)
      nodes := (e.statics.foldl addStatic s1).nodes.set e.name ⟨e.op, e.ins.map (·.name), [e.out.name], e.layer, e.slice⟩ }, ?_, ?_⟩
  · simp only [applyEmit, herr]; rfl
  have final : ∀ q, q ≠ e.out.name → q ∉ e.statics.map (·.name) →
      ((e.statics.foldl addStatic s1).tensors.set e.out.name (false, e.out.shape)).get? q = s1.tensors.get? q := by
    intro q h1 h2
    rw [Dict.get?_set_ne _ _ (fun h => h1 h.symm), f7 q h2]
  have final' : ∀ q ∈ fixedNames,
      ((e.statics.foldl addStatic s1).tensors.set e.out.name (false, e.out.shape)).get? q = s1.tensors.get? q :=
    fun q hq => final q (fun h => houF q hq h.symm) (hstF q hq)
  have old : ∀ q ∈ keys done,
      ((e.statics.foldl addStatic s1).tensors.set e.out.name (false, e.out.shape)).get? q = s.tensors.get? q := by
    intro q hq
    have hqf := hfd q hq
    rw [final q (fun h => hdis q hq _ hkeyO h) ?_, te1 q hqf]
    intro h
    obtain ⟨x, hx, hxn⟩ := List.mem_map.1 h
    exact hdis q hq _ (hkeyE x hx) hxn.symm
  refine ⟨?_, ?_, ?_, ?_, ?_, ?_, ?_, ?_, ?_, ?_, ?_⟩
  · simp only [f1, n1, hi.nodes, List.map_append, List.map_cons, List.map_nil]
    exact set_fresh _ _ _ hfresh
  · simp only [f5]; exact ra1
  · simp only [f6]; exact pa1
  · simp only [f3]; exact in1
  · obtain ⟨ts, ht, hp⟩ := it1
    refine ⟨ts ++ e.statics, by simp only [f2, ht, List.map_append], ?_⟩
    rw [List.flatMap_append, List.flatMap_cons, List.flatMap_nil, List.append_nil, ← List.append_assoc]
    exact hp.append_right _
  · intro d hd x hx
    rcases List.mem_append.1 hd with hd | hd
    · exact (old _ (mem_keys_static hd hx)).trans (hi.statics d hd x hx)
    · rw [List.mem_singleton] at hd
      subst hd
      refine (Dict.get?_set_ne _ _ ?_).trans (f8 hst x hx)
      intro h; exact hoN (h ▸ List.mem_map.2 ⟨x, hx, rfl⟩)
  · intro d hd
    rcases List.mem_append.1 hd with hd | hd
    · exact (old _ (mem_keys_out hd)).trans (hi.outs d hd)
    · rw [List.mem_singleton] at hd
      subst hd
      exact Dict.get?_set_self _ _ _
  · simp only [f3]
    intro h
    refine (final' "ids" (by decide)).trans (id1.trans (hi.ids ?_))
    rw [in1] at h
    rw [hi.input]
    rcases List.mem_append.1 h with h | h
    · exact List.mem_append_left _ h
    · split at h
      · simp at h
      · cases h
  · simp only [f3]
    exact fun h => (final' "position" (by decide)).trans (po1 h)
  · intro h x hx
    refine (final' x.name ?_).trans (ta1 h x hx)
    simp only [tables, List.mem_cons, List.not_mem_nil, or_false] at hx
    rcases hx with rfl | rfl <;> simp [fixedNames]
  · simp only [f4, o1]; exact hi.out

theorem inv_run {c : Cfg} {base : List String} (es : List Emit) : ∀ (A : T → Prop) (done : List Emit) (s : St), Inv c base done s →
    Chain c A es → (∀ d ∈ done, d.out.name = d.name ++ ".output") → (keys (done ++ es)).Nodup → (∀ x ∈ keys (done ++ es), x ∉ fixedNames) →
    ∃ s', applyEmits c es s = .ok s' ∧ Inv c base (done ++ es) s' := by
  induction es with
  | nil => intro A done s hi _ _ _ _; exact ⟨s, rfl, by simpa using hi⟩
  | cons e es ih =>
    intro A done s hi hc ho hk hf
    obtain ⟨_, _, h3, h4, _, _, h6⟩ := hc
    have e1 : done ++ e :: es = (done ++ [e]) ++ es := by simp
    rw [e1] at hk hf ⊢
    have hk1 : (keys (done ++ [e])).Nodup := by rw [keys_append] at hk; exact (List.nodup_append.1 hk).1
    have hf1 : ∀ x ∈ keys (done ++ [e]), x ∉ fixedNames := fun x hx => hf x (by rw [keys_append]; exact List.mem_append_left _ hx)
    obtain ⟨s1, a1, i1⟩ := inv_step hi h3 h4 ho hk1 hf1
    have ho' : ∀ d ∈ done ++ [e], d.out.name = d.name ++ ".output" := by
      intro d hd
      rcases List.mem_append.1 hd with hd | hd
      · exact ho d hd
      · rw [List.mem_singleton] at hd; subst hd; exact h4
    obtain ⟨s', a2, i2⟩ := ih _ _ s1 i1 h6 ho' hk hf
    refine ⟨s', ?_, i2⟩
    rw [applyEmits, a1]; exact a2
theorem chain_get {c : Cfg} (es : List Emit) : ∀ (A : T → Prop), Chain c A es → ∀ (k : Nat) (e : Emit), es[k]? = some e →
    (∀ x ∈ e.ins, x ∈ e.statics ∨ A x ∨ ∃ (j : Nat) (d : Emit), j < k ∧ es[j]? = some d ∧ x = d.out) ∧ (∀ x ∈ e.statics, x ∈ e.ins) ∧
    e.out.name = e.name ++ ".output" ∧ opRule c e.op e.slice (e.ins.map (·.shape)) = some e.out.shape ∧ RopeReads c e := by
  induction es with
  | nil => intro A _ k e h; simp at h
  | cons a es ih =>
    intro A hc k e h
    obtain ⟨h1, h2, _, h4, h5, h7, h6⟩ := hc
    cases k with
    | zero =>
      simp only [List.getElem?_cons_zero, Option.some.injEq] at h
      subst h
      refine ⟨fun x hx => ?_, h2, h4, h5, h7⟩
      rcases h1 x hx with h | h
      exacts [.inr (.inl h), .inl h]
    | succ k =>
      rw [List.getElem?_cons_succ] at h
      obtain ⟨g1, g2, g3, g4⟩ := ih _ h6 k e h
      refine ⟨fun x hx => ?_, g2, g3, g4⟩
      rcases g1 x hx with h | h | ⟨j, d, hj, hd, he⟩
      · exact .inl h
      · rcases h with h | ⟨d, hd, he⟩
        · exact .inr (.inl h)
        · rw [List.mem_singleton] at hd
          subst hd
          exact .inr (.inr ⟨0, d, by omega, rfl, he⟩)
      · exact .inr (.inr ⟨j + 1, d, by omega, by simpa using hd, he⟩)

/-- inputs before the first call -/
def baseInputs (c : Cfg) (w : WMap) : List String := if c.posEmbedding && w.pos.isSome then ["ids", "position"] else ["ids"]

/-- the condition on gated delta net layers -/
def GdnOk (c : Cfg) : Prop := (∃ i ∈ List.range c.layers, linearLayer c i) → c.headSize ∣ c.gdnQkHeads * c.gdnQkDim

theorem inv_start (c : Cfg) (w : WMap) :
    Inv c (baseInputs c w) [] (if c.posEmbedding && w.pos.isSome then addInput (addInput {} (idsT c)) (positionT c) else addInput {} (idsT c)) := by
  unfold baseInputs
  cases h : (c.posEmbedding && w.pos.isSome)
  · exact ⟨rfl, rfl, rfl, rfl, ⟨[], rfl, List.Perm.refl _⟩, by simp, by simp, fun _ => rfl, by simp [addInput, idsT], by simp [hasRope], rfl⟩
  · exact ⟨rfl, rfl, rfl, rfl, ⟨[], rfl, List.Perm.refl _⟩, by simp, by simp, fun _ => rfl, fun _ => rfl, by simp [hasRope], rfl⟩

theorem build_ok {c : Cfg} {w : WMap} (h : CfgOk c w) (hn : NamesOk c w) (hg : GdnOk c) :
    ∃ s, buildGraph c w = .ok { s with output := [(build c w).1.name] } ∧ Inv c (baseInputs c w) (build c w).2 s := by
  have hr := build_runs w h hg
  obtain ⟨s, hs, hi⟩ := inv_run (build c w).2 (Start c) [] _ (inv_start c w) hr.1 (by simp) (by simpa using keys_nodup h hn)
    (by simpa using fun x hx => keys_not_fixed h hx)
  refine ⟨s, ?_, by simpa using hi⟩
  unfold buildGraph
  simp only
  rw [hs]

theorem build_last (c : Cfg) (w : WMap) : ∃ xs e, (build c w).2 = xs ++ [e] ∧ e.out = (build c w).1 := by
  unfold build
  simp only [bind_snd, bind_fst]
  by_cases hs : c.softcap = true
  · simp only [if_pos hs, ← List.append_assoc]
    exact ⟨_, _, rfl, rfl⟩
  · simp only [if_neg hs, pure_snd, pure_fst, List.append_nil, ← List.append_assoc]
    unfold addLmHead
    simp only [bind_snd, bind_fst, ← List.append_assoc]
    exact ⟨_, _, rfl, rfl⟩

section
variable {c : Cfg} {w : WMap} {s : St}

/-- what was available at the start is a graph input or an initializer with that shape -/
theorem start_known (h : CfgOk c w) (hi : Inv c (baseInputs c w) (build c w).2 s) {x : T} (hx : Start c x) :
    (x.name ∈ s.input ∨ x.name ∈ s.initials) ∧ s.shape x.name = x.shape := by
  have ids : "ids" ∈ s.input := by rw [hi.input]; unfold baseInputs; split <;> simp
  have posK : "position" ∈ s.input → (x = positionT c → (x.name ∈ s.input ∨ x.name ∈ s.initials) ∧ s.shape x.name = x.shape) := by
    rintro hp rfl
    exact ⟨.inl hp, by simp [St.shape, positionT, hi.position hp]⟩
  rcases hx with rfl | ⟨hp, hx⟩ | ⟨hr, hx⟩
  · exact ⟨.inl ids, by simp [St.shape, idsT, hi.ids ids]⟩
  · refine posK ?_ hx
    rw [hi.input]; unfold baseInputs; rw [if_pos (by simp [hp, h.pos hp])]; simp
  · have hR : hasRope (build c w).2 = true := (build_rope c w).2 hr
    obtain ⟨ts, ht, hperm⟩ := hi.inits
    rw [hR] at hperm
    have tabK : x ∈ tables c → (x.name ∈ s.input ∨ x.name ∈ s.initials) ∧ s.shape x.name = x.shape := by
      intro hm
      refine ⟨.inr ?_, by simp [St.shape, hi.tab hR x hm]⟩
      rw [ht]
      exact List.mem_map.2 ⟨x, hperm.mem_iff.2 (List.mem_append_left _ (by simpa using hm)), rfl⟩
    rcases hx with rfl | rfl | hx
    · exact tabK (by simp [tables])
    · exact tabK (by simp [tables])
    · refine posK ?_ hx
      rw [hi.input, hR]; simp

theorem static_known (hi : Inv c (baseInputs c w) (build c w).2 s) {e : Emit} (he : e ∈ (build c w).2) {x : T} (hx : x ∈ e.statics) :
    x.name ∈ s.initials ∧ s.shape x.name = x.shape := by
  obtain ⟨ts, ht, hperm⟩ := hi.inits
  refine ⟨?_, by simp [St.shape, hi.statics e he x hx]⟩
  rw [ht]
  exact List.mem_map.2 ⟨x, hperm.mem_iff.2 (List.mem_append_right _ (List.mem_flatMap.2 ⟨e, he, hx⟩)), rfl⟩

theorem out_known (hi : Inv c (baseInputs c w) (build c w).2 s) {e : Emit} (he : e ∈ (build c w).2) : s.shape e.out.name = e.out.shape := by
  simp [St.shape, hi.outs e he]

theorem operand_shapes (h : CfgOk c w) (hg : GdnOk c) (hi : Inv c (baseInputs c w) (build c w).2 s) {k : Nat} {e : Emit}
    (he : (build c w).2[k]? = some e) {x : T} (hx : x ∈ e.ins) : s.shape x.name = x.shape := by
  have hm := List.mem_of_getElem? he
  rcases (chain_get _ _ (build_runs w h hg).1 k e he).1 x hx with hx | hx | ⟨j, d, _, hd, rfl⟩
  · exact (static_known hi hm hx).2
  · exact (start_known h hi hx).2
  · exact out_known hi (List.mem_of_getElem? hd)

theorem shapes_consistent (h : CfgOk c w) (hg : GdnOk c) (hi : Inv c (baseInputs c w) (build c w).2 s) : ShapesConsistent c s := by
  intro n hn
  rw [hi.nodes] at hn
  obtain ⟨e, he, rfl⟩ := List.mem_map.1 hn
  obtain ⟨k, hk, hke⟩ := List.getElem_of_mem he
  have hk' : (build c w).2[k]? = some e := by rw [List.getElem?_eq_getElem hk, hke]
  obtain ⟨_, _, _, h4, _⟩ := chain_get _ _ (build_runs w h hg).1 k e hk'
  refine ⟨e.out.name, rfl, ?_⟩
  rw [out_known hi he, ← h4]
  congr 1
  simp only [enode, List.map_map]
  exact List.map_congr_left fun x hx => operand_shapes h hg hi hk' hx

theorem keys_perm (es : List Emit) :
    (keys es).Perm ((es.flatMap (·.statics)).map (·.name) ++ es.map (·.out.name)) := by
  induction es with
  | nil => exact List.Perm.refl _
  | cons e es ih =>
    simp only [keys, ekeys, List.flatMap_cons, List.map_append, List.map_cons, List.append_assoc] at ih ⊢
    refine List.Perm.append_left _ ?_
    refine List.Perm.trans (List.Perm.cons _ ih) ?_
    exact (List.perm_middle (l₁ := (es.flatMap (·.statics)).map (·.name))).symm

theorem initials_nodup_outs (h : CfgOk c w) (hn : NamesOk c w) (hi : Inv c (baseInputs c w) (build c w).2 s) :
    (s.initials ++ s.nodes.flatMap (·.2.output)).Nodup ∧
    ∀ x ∈ s.initials ++ s.nodes.flatMap (·.2.output), x ≠ "ids" ∧ x ≠ "position" ∧ x ≠ "n_past" ∧ x ≠ "kv_cache" := by
  obtain ⟨ts, ht, hperm⟩ := hi.inits
  have houts : s.nodes.flatMap (·.2.output) = (build c w).2.map (·.out.name) := by
    rw [hi.nodes, List.flatMap_map]
    simp [enode, List.flatMap_def]
    induction (build c w).2 with
    | nil => rfl
    | cons a l ih => simp [ih]
  have hp : (s.initials ++ s.nodes.flatMap (·.2.output)).Perm
      ((if hasRope (build c w).2 then tables c else []).map (·.name) ++ keys (build c w).2) := by
    rw [ht, houts]
    refine ((hperm.map (·.name)).append_right _).trans ?_
    rw [List.map_append, List.append_assoc]
    exact List.Perm.append_left _ (keys_perm _).symm
  have htab : ∀ x ∈ (if hasRope (build c w).2 then tables c else []).map (·.name), x = "rope.cos" ∨ x = "rope.sin" := by
    intro x hx
    split at hx
    · simpa [tables] using hx
    · cases hx
  constructor
  · rw [hp.nodup_iff, List.nodup_append]
    refine ⟨?_, keys_nodup h hn, ?_⟩
    · split
      · simp [tables]
      · simp
    · rintro a ha b hb rfl
      refine keys_not_fixed h hb ?_
      rcases htab a ha with rfl | rfl <;> decide
  · intro x hx
    rcases List.mem_append.1 (hp.mem_iff.1 hx) with hx | hx
    · rcases htab x hx with rfl | rfl <;> decide
    · have := keys_not_fixed h hx
      simp only [fixedNames, List.mem_cons, List.not_mem_nil, or_false, not_or] at this
      exact ⟨this.1, this.2.1, this.2.2.2.2.1, this.2.2.2.2.2⟩

theorem valid_graph (h : CfgOk c w) (hn : NamesOk c w) (hg : GdnOk c)
    (hp : ¬ (c.posEmbedding = true ∧ ∃ i ∈ List.range c.layers, ropeLayer c i)) (hi : Inv c (baseInputs c w) (build c w).2 s) :
    Valid { s with output := [(build c w).1.name] } := by
  obtain ⟨hnd, hfix⟩ := initials_nodup_outs h hn hi
  have hch := chain_get _ _ (build_runs w h hg).1
  have hin : s.input = ["ids"] ∨ s.input = ["ids", "position"] := by
    rw [hi.input]; unfold baseInputs
    by_cases hR : hasRope (build c w).2 = true
    · have hpe : c.posEmbedding = false := by
        cases hpp : c.posEmbedding
        · rfl
        · exact absurd ⟨hpp, (build_rope c w).1 hR⟩ hp
      rw [if_pos hR, hpe]; exact .inr rfl
    · rw [if_neg hR]; split
      · exact .inr rfl
      · exact .inl rfl
  refine ⟨?_, ?_, ?_, ?_, ?_, ?_, ?_⟩
  · intro k name n hk x hx
    simp only at hk
    rw [hi.nodes, List.getElem?_map] at hk
    cases hke : (build c w).2[k]? with
    | none => rw [hke] at hk; cases hk
    | some e =>
      rw [hke] at hk
      simp only [Option.map_some, Option.some.injEq, enode, Prod.mk.injEq] at hk
      obtain ⟨rfl, rfl⟩ := hk
      obtain ⟨t, ht, rfl⟩ := List.mem_map.1 hx
      rcases (hch k e hke).1 t ht with ht | ht | ⟨j, d, hj, hd, rfl⟩
      · exact .inr (.inl (static_known hi (List.mem_of_getElem? hke) ht).1)
      · rcases (start_known h hi ht).1 with h | h
        exacts [.inl h, .inr (.inl h)]
      · refine .inr (.inr ⟨j, enode d, hj, ?_, by simp [enode]⟩)
        simp only [hi.nodes, List.getElem?_map, hd, Option.map_some]
  · simp only [List.append_assoc]
    rw [List.nodup_append]
    refine ⟨?_, hnd, ?_⟩
    · rcases hin with e | e <;> rw [e] <;> decide
    · rintro a ha b hb rfl
      obtain ⟨h1, h2, _⟩ := hfix a hb
      rcases hin with e | e <;> rw [e] at ha <;> simp at ha
      · exact h1 ha
      · rcases ha with ha | ha
        exacts [h1 ha, h2 ha]
  · simp only [hi.nodes, List.map_map]
    have : ((build c w).2.map (·.out.name)).Nodup := by
      have := (keys_perm (build c w).2).nodup_iff.1 (keys_nodup h hn)
      exact (List.nodup_append.1 this).2.1
    have e : (build c w).2.map (·.out.name) = ((build c w).2.map (Prod.fst ∘ enode)).map (· ++ ".output") := by
      rw [List.map_map]
      refine List.map_congr_left fun e he => ?_
      obtain ⟨k, hk, hke⟩ := List.getElem_of_mem he
      exact (hch k e (by rw [List.getElem?_eq_getElem hk, hke])).2.2.1
    rw [e] at this
    exact List.Nodup.of_map _ this
  · intro x hx
    simp only at hx ⊢
    obtain ⟨ts, ht, hperm⟩ := hi.inits
    rw [ht] at hx
    obtain ⟨t, htm, rfl⟩ := List.mem_map.1 hx
    rw [hi.nodes]
    rcases List.mem_append.1 (hperm.mem_iff.1 htm) with htm | htm
    · split at htm
      · rename_i hR
        simp only [hasRope, List.any_eq_true, beq_iff_eq] at hR
        obtain ⟨e, he, hop⟩ := hR
        refine ⟨enode e, List.mem_map.2 ⟨e, he, rfl⟩, ?_⟩
        obtain ⟨k, hk, hke⟩ := List.getElem_of_mem he
        obtain ⟨t1, t2⟩ := (hch k e (by rw [List.getElem?_eq_getElem hk, hke])).2.2.2.2.1 hop
        simp only [tables, List.mem_cons, List.not_mem_nil, or_false] at htm
        rcases htm with rfl | rfl
        · exact List.mem_map.2 ⟨_, t1, rfl⟩
        · exact List.mem_map.2 ⟨_, t2, rfl⟩
      · cases htm
    · obtain ⟨e, he, hs⟩ := List.mem_flatMap.1 htm
      obtain ⟨k, hk, hke⟩ := List.getElem_of_mem he
      refine ⟨enode e, List.mem_map.2 ⟨e, he, rfl⟩, ?_⟩
      exact List.mem_map.2 ⟨t, (hch k e (by rw [List.getElem?_eq_getElem hk, hke])).2.1 t hs, rfl⟩
  · intro x hx
    simp only at hx ⊢
    obtain ⟨ts, ht, hperm⟩ := hi.inits
    rw [ht] at hx
    obtain ⟨t, htm, rfl⟩ := List.mem_map.1 hx
    rcases List.mem_append.1 (hperm.mem_iff.1 htm) with htm | htm
    · split at htm
      · rename_i hR; exact ⟨_, hi.tab hR t htm⟩
      · cases htm
    · obtain ⟨e, he, hs⟩ := List.mem_flatMap.1 htm
      exact ⟨_, hi.statics e he t hs⟩
  · intro x hx
    simp only at hx ⊢
    rcases List.mem_append.1 hx with hx | hx
    · have hid : "ids" ∈ s.input := by rcases hin with e | e <;> rw [e] <;> simp
      have hx' : x = "ids" ∨ x = "position" := by rcases hin with e | e <;> rw [e] at hx <;> simp at hx <;> simp [hx]
      rcases hx' with rfl | rfl
      · exact ⟨_, hi.ids hid⟩
      · exact ⟨_, hi.position hx⟩
    · rw [hi.nodes] at hx
      obtain ⟨n, hn, hx⟩ := List.mem_flatMap.1 hx
      obtain ⟨e, he, rfl⟩ := List.mem_map.1 hn
      simp only [enode, List.mem_singleton] at hx
      subst hx
      exact ⟨_, hi.outs e he⟩
  · obtain ⟨xs, e, he, ho⟩ := build_last c w
    refine ⟨enode e, ?_, by simp [enode, ho]⟩
    simp only [hi.nodes, he, List.map_append, List.map_cons, List.map_nil, List.getLast?_append, List.getLast?_singleton, Option.some_or]

theorem count_graph (h : CfgOk c w) (hi : Inv c (baseInputs c w) (build c w).2 s) : (s.initials.map fun x => (s.shape x).prod).sum = params c := by
  obtain ⟨ts, ht, hperm⟩ := hi.inits
  have known : ∀ t ∈ ts, s.shape t.name = t.shape := by
    intro t htm
    rcases List.mem_append.1 (hperm.mem_iff.1 htm) with htm | htm
    · split at htm
      · rename_i hR; simp [St.shape, hi.tab hR t htm]
      · cases htm
    · obtain ⟨e, he, hs⟩ := List.mem_flatMap.1 htm
      exact (static_known hi he hs).2
  rw [ht, List.map_map]
  have e1 : (ts.map ((fun x => (s.shape x).prod) ∘ fun x => x.name)).sum = (ts.map (·.shape.prod)).sum := by
    congr 1
    exact List.map_congr_left fun t htm => by simp [known t htm]
  rw [e1, (hperm.map (fun x : T => x.shape.prod)).sum_nat, List.map_append, List.sum_append, ← build_cost c w h, Nat.add_comm]
  congr 1
  by_cases hR : hasRope (build c w).2 = true
  · rw [if_pos hR, if_pos ((build_rope c w).1 hR)]
    simp [tables]; omega
  · rw [if_neg hR, if_neg (fun h => hR ((build_rope c w).2 h))]; rfl

theorem layers_graph (hi : Inv c (baseInputs c w) (build c w).2 s) :
    s.nodes.filterMap (·.2.layer) = (List.range c.layers).filter (attnLayer c) := by
  rw [hi.nodes, List.filterMap_map, ← build_sdpas c w]
  rfl

theorem sdpa_tagged (h : CfgOk c w) (hg : GdnOk c) (hi : Inv c (baseInputs c w) (build c w).2 s) : ∀ n ∈ s.nodes, n.2.op = "SDPA" →
    ∃ i, n.2.layer = some i ∧ i < c.layers ∧ attnLayer c i = true ∧ ∀ x ∈ n.2.input, (s.shape x).take 2 = [c.batch, c.seq] := by
  intro n hn hop
  have hl := layers_graph hi
  rw [hi.nodes] at hn
  obtain ⟨e, he, rfl⟩ := List.mem_map.1 hn
  obtain ⟨k, hk, hke⟩ := List.getElem_of_mem he
  have hke' : (build c w).2[k]? = some e := by rw [List.getElem?_eq_getElem hk, hke]
  obtain ⟨this, hsh⟩ := (chain_get _ _ (build_runs w h hg).1 k e hke').2.2.2.2.2 hop
  obtain ⟨i, hi'⟩ := Option.isSome_iff_exists.1 this
  refine ⟨i, hi', ?_⟩
  have hm : i ∈ s.nodes.filterMap (·.2.layer) := by
    rw [hi.nodes]; exact List.mem_filterMap.2 ⟨enode e, hn, hi'⟩
  rw [hl, List.mem_filter, List.mem_range] at hm
  refine ⟨hm.1, hm.2, ?_⟩
  intro x hx
  obtain ⟨t, ht, rfl⟩ := List.mem_map.1 hx
  rw [operand_shapes h hg hi hke' ht]
  exact hsh t ht

theorem shape_output (s : St) (o : List String) (x : String) : St.shape { s with output := o } x = s.shape x := rfl

/-- the declared shape of the graph output -/
theorem output_shape (h : CfgOk c w) (hg : GdnOk c) (hi : Inv c (baseInputs c w) (build c w).2 s) :
    s.shape (build c w).1.name = [c.batch, c.seq, c.vocab] := by
  obtain ⟨xs, e, he, ho⟩ := build_last c w
  have := (build_runs w h hg).2.2.1
  rw [← ho] at this ⊢
  rw [out_known hi (by rw [he]; simp), this]
end

/-! ### Adding the cache -/

theorem kv_valid (c : Cfg) (n : Nat) (s : St) (hv : Valid s)
    (h1 : "n_past" ∉ s.input ++ s.initials ++ s.nodes.flatMap (·.2.output))
    (h2 : "kv_cache" ∉ s.input ++ s.initials ++ s.nodes.flatMap (·.2.output)) : Valid (addKvCache c n s) := by
  have hin : (addKvCache c n s).input = s.input ++ ["n_past", "kv_cache"] := by simp [addKvCache, addInput]
  have hit : (addKvCache c n s).initials = s.initials := rfl
  have hnd : (addKvCache c n s).nodes = s.nodes.map fun e =>
      if e.2.op = "SDPA" then (e.1, { e.2 with input := e.2.input ++ ["n_past", "kv_cache"] }) else e := rfl
  have hot : (addKvCache c n s).nodes.flatMap (·.2.output) = s.nodes.flatMap (·.2.output) := by
    rw [hnd, List.flatMap_map]
    congr 1
    funext e; split <;> rfl
  have hte : ∀ q, q ≠ "n_past" → q ≠ "kv_cache" → (addKvCache c n s).tensors.get? q = s.tensors.get? q := by
    intro q a b
    simp only [addKvCache, addInput]
    rw [Dict.get?_set_ne _ _ (fun e => b e.symm), Dict.get?_set_ne _ _ (fun e => a e.symm)]
  have ne : ∀ q ∈ s.input ++ s.initials ++ s.nodes.flatMap (·.2.output), q ≠ "n_past" ∧ q ≠ "kv_cache" :=
    fun q hq => ⟨fun e => h1 (e ▸ hq), fun e => h2 (e ▸ hq)⟩
  refine ⟨?_, ?_, ?_, ?_, ?_, ?_, ?_⟩
  · intro k name m hk x hx
    rw [hnd, List.getElem?_map] at hk
    cases hke : s.nodes[k]? with
    | none => rw [hke] at hk; cases hk
    | some e =>
      rw [hke] at hk
      simp only [Option.map_some, Option.some.injEq] at hk
      have key : x ∈ e.2.input → x ∈ (addKvCache c n s).input ∨ x ∈ (addKvCache c n s).initials ∨
          ∃ (j : Nat) (m : String × BNode), j < k ∧ (addKvCache c n s).nodes[j]? = some m ∧ x ∈ m.2.output := by
        intro hx
        rcases hv.ordered k e.1 e.2 hke x hx with h | h | ⟨j, m, hj, hm, hxm⟩
        · exact .inl (by rw [hin]; exact List.mem_append_left _ h)
        · exact .inr (.inl h)
        · refine .inr (.inr ⟨j, if m.2.op = "SDPA" then (m.1, { m.2 with input := m.2.input ++ ["n_past", "kv_cache"] }) else m, hj, ?_, ?_⟩)
          · rw [hnd, List.getElem?_map, hm]; rfl
          · split <;> exact hxm
      split at hk
      · cases hk
        simp only [List.mem_append] at hx
        rcases hx with hx | hx
        · exact key hx
        · exact .inl (by rw [hin]; exact List.mem_append_right _ hx)
      · subst hk; exact key hx
  · rw [hin, hit, hot]
    have hp : (s.input ++ ["n_past", "kv_cache"] ++ s.initials ++ s.nodes.flatMap (·.2.output)).Perm
        (["n_past", "kv_cache"] ++ (s.input ++ s.initials ++ s.nodes.flatMap (·.2.output))) := by
      simp only [List.append_assoc]
      rw [← List.append_assoc, ← List.append_assoc ["n_past", "kv_cache"]]
      exact List.Perm.append_right _ List.perm_append_comm
    rw [hp.nodup_iff, List.nodup_append]
    refine ⟨by decide, hv.distinct, ?_⟩
    rintro a ha b hb rfl
    obtain ⟨x, y⟩ := ne a hb
    simp at ha
    rcases ha with ha | ha
    exacts [x ha, y ha]
  · rw [hnd, List.map_map]
    have : s.nodes.map ((fun x => x.1) ∘ fun e => if e.2.op = "SDPA" then (e.1, { e.2 with input := e.2.input ++ ["n_past", "kv_cache"] }) else e) =
        s.nodes.map (·.1) := List.map_congr_left fun e _ => by simp only [Function.comp]; split <;> rfl
    rw [this]; exact hv.names
  · intro x hx
    obtain ⟨m, hm, hxm⟩ := hv.used x hx
    refine ⟨if m.2.op = "SDPA" then (m.1, { m.2 with input := m.2.input ++ ["n_past", "kv_cache"] }) else m, ?_, ?_⟩
    · rw [hnd]; exact List.mem_map.2 ⟨m, hm, rfl⟩
    · split
      · exact List.mem_append_left _ hxm
      · exact hxm
  · intro x hx
    obtain ⟨a, b⟩ := ne x (List.mem_append_left _ (List.mem_append_right _ hx))
    rw [hte x a b]; exact hv.statics x hx
  · intro x hx
    rw [hin, hot] at hx
    rcases List.mem_append.1 hx with hx | hx
    · rcases List.mem_append.1 hx with hx | hx
      · obtain ⟨a, b⟩ := ne x (List.mem_append_left _ (List.mem_append_left _ hx))
        rw [hte x a b]; exact hv.dynamics x (List.mem_append_left _ hx)
      · simp at hx
        rcases hx with rfl | rfl
        · refine ⟨[], ?_⟩
          simp only [addKvCache, addInput]
          rw [Dict.get?_set_ne _ _ (by decide)]; exact Dict.get?_set_self _ _ _
        · exact ⟨_, Dict.get?_set_self _ _ _⟩
    · obtain ⟨a, b⟩ := ne x (List.mem_append_right _ hx)
      rw [hte x a b]; exact hv.dynamics x (List.mem_append_right _ hx)
  · obtain ⟨m, hm, ho⟩ := hv.output
    refine ⟨if m.2.op = "SDPA" then (m.1, { m.2 with input := m.2.input ++ ["n_past", "kv_cache"] }) else m, ?_, ?_⟩
    · rw [hnd, List.getLast?_map, hm]; rfl
    · rw [show (addKvCache c n s).output = s.output from rfl, ho]; split <;> rfl

end OnnxTool.Builder
