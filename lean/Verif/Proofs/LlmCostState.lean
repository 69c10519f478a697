import Verif.Proofs.LlmCost
/-!
# The figures of the graph are those of the builder calls
-/
namespace OnnxTool.LlmCost
open OnnxTool OnnxTool.Builder OnnxTool.Macs

variable {c : Cfg} {w : WMap} {s : St}

theorem operand_flag (h : CfgOk c w) (hg : GdnOk c) (hi : Inv c (baseInputs c w) (build c w).2 s) {e : Emit} (he : e ∈ (build c w).2)
    {x : T} (hx : x ∈ e.ins) : s.tensors.get? x.name = some (mark c e x) := by
  have nf : ∀ {y : T}, y.name ∈ fixedNames → y ∉ e.statics := fun hy hs => keys_not_fixed h (mem_keys_static he hs) hy
  have dyn : x ∉ e.statics → x ∉ tables c → mark c e x = (false, x.shape) := by
    intro a b
    unfold mark
    rw [decide_eq_false (by rintro (h | h); exacts [a h, b h])]
  obtain ⟨k, hk, hke⟩ := List.getElem_of_mem he
  have hk' : (build c w).2[k]? = some e := by rw [List.getElem?_eq_getElem hk, hke]
  have posK : x = positionT c → "position" ∈ s.input → s.tensors.get? x.name = some (mark c e x) := by
    rintro rfl hp
    rw [dyn (nf (by simp [positionT, fixedNames])) (by simp [positionT, tables])]
    exact hi.position hp
  have tabK : x ∈ tables c → hasRope (build c w).2 = true → s.tensors.get? x.name = some (mark c e x) := by
    intro hm hR
    rw [hi.tab hR x hm]
    unfold mark
    rw [decide_eq_true (.inr hm)]
  rcases (chain_get _ _ (build_runs w h hg).1 k e hk').1 x hx with hx | hx | ⟨j, d, _, hd, rfl⟩
  · rw [hi.statics e he x hx, mark_static hx]
  · rcases hx with rfl | ⟨hp, hx⟩ | ⟨hr, hx⟩
    · rw [dyn (nf (by simp [idsT, fixedNames])) (by simp [idsT, tables])]
      exact hi.ids (by rw [hi.input]; unfold baseInputs; split <;> simp)
    · refine posK hx ?_
      rw [hi.input]; unfold baseInputs; rw [if_pos (by simp [hp, h.pos hp])]; simp
    · have hR : hasRope (build c w).2 = true := (build_rope c w).2 hr
      rcases hx with rfl | rfl | hx
      · exact tabK (by simp [tables]) hR
      · exact tabK (by simp [tables]) hR
      · exact posK hx (by rw [hi.input, hR]; simp)
  · have hdm := List.mem_of_getElem? hd
    rw [hi.outs d hdm, dyn]
    · intro hs
      have := hi.statics e he _ hs
      rw [hi.outs d hdm] at this
      cases this
    · intro ht
      refine keys_not_fixed h (mem_keys_out hdm) ?_
      simp only [tables, List.mem_cons, List.not_mem_nil, or_false] at ht
      rcases ht with ht | ht <;> rw [ht] <;> simp [fixedNames]

theorem lookups_ok {tm : Dict (Bool × List Nat)} (l : List String) (m : List (Bool × List Nat)) (h : l.map tm.get? = m.map some) :
    lookups tm l = .ok m := by
  induction l generalizing m with
  | nil => cases m with
    | nil => rfl
    | cons _ _ => simp at h
  | cons a l ih =>
    cases m with
    | nil => simp at h
    | cons b m =>
      simp only [List.map_cons, List.cons.injEq] at h
      simp only [lookups, h.1, ih m h.2]

theorem rows_figs {x : Attrs} {past : Nat} {cache : List (Bool × List Nat)} {t : St} (node : Emit → String × BNode) (es : List Emit)
    (hn : ∀ e ∈ es, (node e).1 = e.name ∧ (node e).2.op = e.op ∧
      (node e).2.input.map t.tensors.get? = (e.ins.map (mark c e) ++ if e.op = "SDPA" then cache else []).map some ∧
      (node e).2.output.map t.tensors.get? = [some (false, e.out.shape)]) :
    rows c x past t (es.map node) = figs c x past cache es := by
  induction es with
  | nil => rfl
  | cons e es ih =>
    obtain ⟨h1, h2, h3, h4⟩ := hn e (by simp)
    have h5 : nodeFig c x past t (node e) = emitFig c x past cache e := by
      unfold nodeFig emitFig
      rw [lookups_ok _ _ h3, lookups_ok _ [(false, e.out.shape)] h4]
      simp only [h1, h2]
    simp only [List.map_cons, rows, figs, h5, ih fun e he => hn e (by simp [he])]
    rw [h1, h2]
    cases emitFig c x past cache e with
    | error _ => rfl
    | ok f => cases figs c x past cache es <;> rfl

theorem profile_plain (h : CfgOk c w) (hg : GdnOk c) (hi : Inv c (baseInputs c w) (build c w).2 s) (x : Attrs) (past : Nat) :
    profileGraph c x past s = figs c x past [] (build c w).2 := by
  unfold profileGraph
  rw [hi.nodes]
  refine rows_figs enode _ fun e he => ⟨rfl, rfl, ?_, ?_⟩
  · simp only [enode, List.map_map, ite_self, List.append_nil]
    exact List.map_congr_left fun y hy => operand_flag h hg hi he hy
  · simp [enode, hi.outs e he]

theorem profile_cached (h : CfgOk c w) (hg : GdnOk c) (hi : Inv c (baseInputs c w) (build c w).2 s) (x : Attrs) (past n : Nat) :
    profileGraph c x past (addKvCache c n s) =
      figs c x past [(false, []), (false, [c.batch, c.layers * 2, n, kvSize c])] (build c w).2 := by
  unfold profileGraph
  have hnd : (addKvCache c n s).nodes = (build c w).2.map fun e =>
      if e.op = "SDPA" then (e.name, { (enode e).2 with input := (enode e).2.input ++ ["n_past", "kv_cache"] }) else enode e := by
    show s.nodes.map _ = _
    rw [hi.nodes, List.map_map]
    rfl
  have hte : ∀ q, q ≠ "n_past" → q ≠ "kv_cache" → (addKvCache c n s).tensors.get? q = s.tensors.get? q := by
    intro q a b
    simp only [addKvCache, addInput]
    rw [Dict.get?_set_ne _ _ (fun e => b e.symm), Dict.get?_set_ne _ _ (fun e => a e.symm)]
  have e1 : (addKvCache c n s).tensors.get? "n_past" = some (false, []) := by
    simp only [addKvCache, addInput]
    rw [Dict.get?_set_ne _ _ (by decide), Dict.get?_set_self]
  have e2 : (addKvCache c n s).tensors.get? "kv_cache" = some (false, [c.batch, c.layers * 2, n, kvSize c]) := by
    simp only [addKvCache, addInput]
    rw [Dict.get?_set_self]
  have notf : ∀ {e : Emit}, e ∈ (build c w).2 → ∀ y ∈ e.ins, y.name ≠ "n_past" ∧ y.name ≠ "kv_cache" := by
    intro e he y hy
    obtain ⟨k, hk, hke⟩ := List.getElem_of_mem he
    have hk' : (build c w).2[k]? = some e := by rw [List.getElem?_eq_getElem hk, hke]
    have key : y.name ∈ keys (build c w).2 → y.name ≠ "n_past" ∧ y.name ≠ "kv_cache" := by
      intro hm
      have := keys_not_fixed h hm
      constructor <;> (intro e; rw [e] at this; exact this (by decide))
    rcases (chain_get _ _ (build_runs w h hg).1 k e hk').1 y hy with hy | hy | ⟨j, d, _, hd, rfl⟩
    · exact key (mem_keys_static he hy)
    · rcases hy with rfl | ⟨_, rfl⟩ | ⟨_, rfl | rfl | rfl⟩ <;> simp [idsT, positionT]
    · exact key (mem_keys_out (List.mem_of_getElem? hd))
  have hins : ∀ {e : Emit}, e ∈ (build c w).2 → (e.ins.map (·.name)).map (addKvCache c n s).tensors.get? = (e.ins.map (mark c e)).map some := by
    intro e he
    rw [List.map_map, List.map_map]
    refine List.map_congr_left fun y hy => ?_
    simp only [Function.comp_apply]
    rw [hte _ (notf he y hy).1 (notf he y hy).2, operand_flag h hg hi he hy]
  have hout : ∀ {e : Emit}, e ∈ (build c w).2 → (addKvCache c n s).tensors.get? e.out.name = some (false, e.out.shape) := by
    intro e he
    have := keys_not_fixed h (mem_keys_out he)
    rw [hte _ (fun e => this (by rw [e]; decide)) (fun e => this (by rw [e]; decide)), hi.outs e he]
  rw [hnd]
  refine rows_figs (fun e => if e.op = "SDPA" then (e.name, { (enode e).2 with input := (enode e).2.input ++ ["n_past", "kv_cache"] }) else enode e) _
    fun e he => ?_
  by_cases hs : e.op = "SDPA"
  · simp only [hs, if_true]
    refine ⟨trivial, by simp [enode, hs], ?_, ?_⟩
    · show (e.ins.map (·.name) ++ ["n_past", "kv_cache"]).map _ = _
      rw [List.map_append, List.map_append, hins he]
      simp [e1, e2]
    · simp [enode, hout he]
  · simp only [hs, if_false, List.append_nil]
    refine ⟨rfl, rfl, hins he, ?_⟩
    simp [enode, hout he]

end OnnxTool.LlmCost
