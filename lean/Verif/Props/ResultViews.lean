import Verif.Spec.ResultViews
import Verif.Props.InferState
import Verif.Model.ComputeGraph
/-!
# C121: how long a result is valid
-/
namespace OnnxTool.Props
open OnnxTool OnnxTool.Infer

private theorem collect_views (e : Engine) (shape : String → List Nat) (mem : Mem) (os : List String) : Infer.collect e shape mem os = (outputViews e shape os).map (readAll mem) := by
  induction os with
  | nil => rfl
  | cons o os ih =>
    rw [Infer.collect, outputViews]
    cases e.views.get? o with
    | none => exact ih
    | some v =>
      simp only
      cases shapeView e.elt v (shape o) with
      | error x => rfl
      | ok w =>
        simp only
        rw [ih]
        cases outputViews e shape os <;> rfl

/-- **C121, what is returned.** A call that returns gives views of the pool, and at that moment they have the contents C46 and C47 speak about. -/
theorem C121_returned (S : Setup) (st : St) (c : Call) (d : Dict Bytes) (h : (call S st c).2 = .ok d) :
    ∃ vs, returned S (call S st c).1 = .ok vs ∧ readAll (call S st c).1.mem vs = d := by
  unfold call at h ⊢
  cases hi : c.inputs with
  | nil => rw [hi] at h; cases h
  | cons p rest =>
    rw [hi] at h
    obtain ⟨t, first, b⟩ := p
    simp only at h ⊢
    cases hu : updateShape S st first with
    | mk st1 r =>
      rw [hu] at h
      cases r with
      | error x => cases h
      | ok ch =>
        simp only [callRest] at h ⊢
        cases hc : copySt S.eng c.bytes (st1.mem, st1.dyn) with
        | mk md err =>
          obtain ⟨mem, dyn⟩ := md
          rw [hc] at h
          cases err with
          | some x => cases h
          | none =>
            simp only [callRun] at h ⊢
            generalize hl : loopOf S c.crash (lookupShape S { st1 with cache := if ch = true ∨ st1.cache = [] then refreshed S st1.se else st1.cache, mem := mem, dyn := dyn }) dyn mem ch st1.nodes = r at h ⊢
            obtain ⟨⟨kept, m⟩, err⟩ := r
            cases err with
            | some x => cases h
            | none =>
              simp only at h ⊢
              rw [collect_views] at h
              unfold returned
              cases hv : outputViews S.eng (lookupShape S { st1 with cache := if ch = true ∨ st1.cache = [] then refreshed S st1.se else st1.cache, mem := m, dyn := dyn, nodes := some kept }) S.eng.output with
              | error x => rw [hv] at h; cases h
              | ok vs =>
                rw [hv] at h
                exact ⟨vs, rfl, Except.ok.inj h⟩

/-- the shapes used for the views after a call are those of its dimensions -/
private theorem returned_ref (S : Setup) (hS : SetupOk S) (mem0 : Mem) (h : List DimCall) (hv : ∀ z ∈ h, ValidCall S z.σ z.c) (x : DimCall) (hx : ValidCall S x.σ x.c) :
    returned S (call S (stateBefore S mem0 h) x.c).1 = outputViews S.eng (refShape S x.σ) S.eng.output := by
  have hr : Reach S (stateBefore S mem0 h) := by
    unfold stateBefore calls
    have : ∀ (h : List DimCall) (st : St), Reach S st → (∀ z ∈ h, ValidCall S z.σ z.c) → Reach S ((h.map (·.c)).foldl (fun st c => (call S st c).1) st) := by
      intro h
      induction h with
      | nil => intro st hr _; exact hr
      | cons z h ih => intro st hr hv; exact ih _ (call_spec hS (hv z (by simp)) hr).1 fun q hq => hv q (by simp [hq])
    exact this h _ (reach_start hS mem0) hv
  obtain ⟨c1, c2, _⟩ := call_spec hS hx hr
  obtain ⟨a1, a2⟩ := c1.at_ x.σ c2
  unfold returned
  rw [lookup_ref a1 a2]

/-- **C121 (finding): a later call writes into results that were returned.** Over every history of calls (failed ones included): a result that the caller keeps is, after a later call with the same dimensions that
returns, the result of the later call. -/
theorem C121_result_overwritten (S : Setup) (hS : SetupOk S) (mem0 : Mem) (h h' : List DimCall) (x y : DimCall) (hv : ∀ z ∈ h ++ x :: h' ++ [y], ValidCall S z.σ z.c) (hsame : ¬ Differ S x.σ y.σ)
    (vs : Dict (Nat × Nat)) (hvs : returned S (call S (stateBefore S mem0 h) x.c).1 = .ok vs) (d : Dict Bytes) (hd : (call S (stateBefore S mem0 (h ++ x :: h')) y.c).2 = .ok d) :
    readAll (call S (stateBefore S mem0 (h ++ x :: h')) y.c).1.mem vs = d := by
  obtain ⟨ws, h1, h2⟩ := C121_returned S _ y.c d hd
  have e1 := returned_ref S hS mem0 h (fun z hz => hv z (by simp [hz])) x (hv x (by simp))
  have e2 := returned_ref S hS mem0 (h ++ x :: h') (fun z hz => hv z (List.mem_append_left _ hz)) y (hv y (by simp))
  have e3 : refShape S x.σ = refShape S y.σ := refShape_congr fun v hb => Classical.byContradiction fun hne => hsame ⟨v, hb, hne⟩
  rw [e2] at h1
  rw [e1, e3, h1] at hvs
  cases hvs
  exact h2

/-- **C121 (finding), other dimensions.** If the later call has other dimensions, the kept result of an output begins with the bytes of the new one, as far as both go. -/
theorem C121_result_overwritten_in_part (S : Setup) (hS : SetupOk S) (mem0 : Mem) (h h' : List DimCall) (x y : DimCall) (hv : ∀ z ∈ h ++ x :: h' ++ [y], ValidCall S z.σ z.c)
    (vs : Dict (Nat × Nat)) (hvs : returned S (call S (stateBefore S mem0 h) x.c).1 = .ok vs) (d : Dict Bytes) (hd : (call S (stateBefore S mem0 (h ++ x :: h')) y.c).2 = .ok d) :
    ∀ o b b', (readAll (call S (stateBefore S mem0 (h ++ x :: h')) y.c).1.mem vs).get? o = some b → d.get? o = some b' → ∀ i, i < b.length → i < b'.length → b[i]? = b'[i]? := by
  obtain ⟨ws, h1, h2⟩ := C121_returned S _ y.c d hd
  have e1 := returned_ref S hS mem0 h (fun z hz => hv z (by simp [hz])) x (hv x (by simp))
  have e2 := returned_ref S hS mem0 (h ++ x :: h') (fun z hz => hv z (List.mem_append_left _ hz)) y (hv y (by simp))
  rw [e2] at h1
  rw [e1] at hvs
  have hget : ∀ (mem : Mem) (vs : Dict (Nat × Nat)) (o : String) (b : Bytes), (readAll mem vs).get? o = some b → ∃ v, vs.get? o = some v ∧ b = readView mem v := by
    intro mem vs
    induction vs with
    | nil => intro o b h; cases h
    | cons p vs ih =>
      obtain ⟨k, v⟩ := p
      intro o b h
      simp only [readAll, List.map_cons, Dict.get?] at h ⊢
      by_cases e : k = o
      · rw [if_pos e] at h ⊢; exact ⟨v, rfl, (Option.some.inj h).symm⟩
      · rw [if_neg e] at h ⊢; exact ih o b h
  have hoff : ∀ (shape : String → List Nat) (os : List String) (vs : Dict (Nat × Nat)), outputViews S.eng shape os = .ok vs → ∀ o v, vs.get? o = some v → ∃ u, S.eng.views.get? o = some u ∧ v.1 = u.1 := by
    intro shape os
    induction os with
    | nil => intro vs h o v hv; cases h; cases hv
    | cons q os ih =>
      intro vs h o v hv
      rw [outputViews] at h
      cases hq : S.eng.views.get? q with
      | none => rw [hq] at h; exact ih vs h o v hv
      | some u =>
        rw [hq] at h
        simp only at h
        cases hs : shapeView S.eng.elt u (shape q) with
        | error x => rw [hs] at h; cases h
        | ok w =>
          rw [hs] at h
          simp only at h
          cases ht : outputViews S.eng shape os with
          | error x => rw [ht] at h; cases h
          | ok ts =>
            rw [ht] at h
            cases h
            simp only [Dict.get?] at hv
            by_cases e : q = o
            · rw [if_pos e] at hv
              cases hv
              subst e
              refine ⟨u, hq, ?_⟩
              unfold shapeView at hs
              split at hs
              · cases hs; rfl
              · cases hs
            · rw [if_neg e] at hv; exact ih ts ht o v hv
  intro o b b' hb hb' i hi hi'
  rw [← h2] at hb'
  obtain ⟨v, g1, rfl⟩ := hget _ _ _ _ hb
  obtain ⟨w, g2, rfl⟩ := hget _ _ _ _ hb'
  obtain ⟨u, g3, g4⟩ := hoff _ _ _ hvs o v g1
  obtain ⟨u', g5, g6⟩ := hoff _ _ _ h1 o w g2
  rw [g3] at g5; cases g5
  simp only [readView, List.length_map, List.length_range] at hi hi'
  simp only [readView, List.getElem?_map, List.getElem?_range hi, List.getElem?_range hi', Option.map_some, g4, g6]

private theorem readView_length (mem : Mem) (v : Nat × Nat) : (readView mem v).length = v.2 := by simp [readView]

private theorem readView_getD (mem : Mem) (v : Nat × Nat) (i : Nat) (h : i < v.2) : (readView mem v).getD i 0 = mem (v.1 + i) := by
  simp [readView, List.getD, List.getElem?_map, List.getElem?_range h]

private theorem copy_same (e : Engine) (mem : Mem) : ∀ (l : List (String × List Nat × Source)) (m : Mem) (dyn : Dict Bytes),
    (∀ p ∈ l, ∀ w : Nat × Nat, p.2.2 = .view w → ∀ i, w.1 ≤ i → i < w.1 + w.2 → m i = mem i) →
    (l.Pairwise fun p q => ∀ v w, e.views.get? p.1 = some v → q.2.2 = .view w → Apart (v.1, p.2.2.size) w) →
    (∀ p ∈ l, ∀ v w, e.views.get? p.1 = some v → p.2.2 = .view w → w = (v.1, w.2) ∨ Apart (v.1, w.2) w) →
    copySources e (l.map fun x => (x.1, x.2.2)) (m, dyn) = copySt e (l.map fun x => (x.1, x.2.2.bytes mem)) (m, dyn) := by
  intro l
  induction l with
  | nil => intro m dyn _ _ _; rfl
  | cons p l ih =>
    intro m dyn hagree hpw hown
    obtain ⟨t, sh, s⟩ := p
    rw [List.pairwise_cons] at hpw
    have hbytes : s.bytes m = s.bytes mem := by
      cases s with
      | own b => rfl
      | view w =>
        simp only [Source.bytes, readView]
        apply List.map_congr_left
        intro i hi
        exact hagree _ (List.mem_cons_self) w rfl _ (by omega) (by have := List.mem_range.mp hi; omega)
    have hsize : (s.bytes mem).length = s.size := by
      cases s with
      | own b => rfl
      | view w => exact readView_length mem w
    simp only [List.map_cons, copySources, copySt]
    cases hv : e.views.get? t with
    | none =>
      simp only
      rw [hbytes]
      exact ih m _ (fun q hq => hagree q (List.mem_cons_of_mem _ hq)) hpw.2 fun q hq => hown q (List.mem_cons_of_mem _ hq)
    | some v =>
      simp only
      rw [hsize]
      by_cases hfit : s.size ≤ v.2
      · simp only [if_pos hfit]
        have hw : copyInto m (v.1, s.size) s = .ok (Pool.write m (v.1, s.size) fun i => (s.bytes mem).getD i 0) := by
          cases s with
          | own b => rfl
          | view w =>
            have hrd : ∀ i, i < w.2 → (readView mem w).getD i 0 = m (w.1 + i) := by
              intro i hi
              rw [readView_getD mem w i hi]
              exact (hagree _ (List.mem_cons_self) w rfl _ (by omega) (by omega)).symm
            show (if w = (v.1, w.2) then Except.ok m else if w.1 < v.1 + w.2 ∧ v.1 < w.1 + w.2 then Except.error PyErr.runtimeError else Except.ok (Pool.write m (v.1, w.2) fun i => m (w.1 + i))) =
              Except.ok (Pool.write m (v.1, w.2) fun i => (readView mem w).getD i 0)
            rcases hown _ (List.mem_cons_self) v w hv rfl with h | h
            · rw [if_pos h]
              have h1 : w.1 = v.1 := by rw [h]
              congr 1
              funext a
              simp only [Pool.write]
              by_cases ha : v.1 ≤ a ∧ a < v.1 + w.2
              · rw [if_pos ha, hrd _ (by omega)]
                congr 1; omega
              · rw [if_neg ha]
            · by_cases he : w = (v.1, w.2)
              · rw [if_pos he]
                have h1 : w.1 = v.1 := by rw [he]
                congr 1
                funext a
                simp only [Pool.write]
                by_cases ha : v.1 ≤ a ∧ a < v.1 + w.2
                · rw [if_pos ha, hrd _ (by omega)]
                  congr 1; omega
                · rw [if_neg ha]
              · simp only [Apart] at h
                rw [if_neg he, if_neg (by omega)]
                congr 1
                funext a
                simp only [Pool.write]
                by_cases ha : v.1 ≤ a ∧ a < v.1 + w.2
                · rw [if_pos ha, if_pos ha, hrd _ (by omega)]
                · rw [if_neg ha, if_neg ha]
        rw [hw]
        refine ih _ _ ?_ hpw.2 fun q hq => hown q (List.mem_cons_of_mem _ hq)
        intro q hq w hqw i h1 h2
        have hap := hpw.1 q hq v w hv hqw
        simp only [Apart] at hap
        simp only [Pool.write]
        rw [if_neg (by omega)]
        exact hagree q (List.mem_cons_of_mem _ hq) w hqw i h1 h2
      · simp only [if_neg hfit]

private theorem updateShape_mem (S : Setup) (st : St) (sh : List Nat) : (updateShape S st sh).1.mem = st.mem := by
  unfold updateShape
  split
  · rfl
  · split <;> rfl

/-- **C121, feeding results back.** If no tensor of the call lies where an input that comes before it in the dict is stored (and none overlaps its own input in part), then passing views of the pool does what passing copies
made before the call does: the same result or exception and the same state, from every state. -/
theorem C121_feedback_partial (S : Setup) (st : St) (c : SourceCall) (h : FeedsBack S.eng c) : callSources S st c = call S st (c.cloned st.mem) := by
  unfold callSources call
  obtain ⟨inputs, crash⟩ := c
  cases inputs with
  | nil => rfl
  | cons p l =>
    obtain ⟨t, first, s⟩ := p
    simp only [SourceCall.cloned, List.map_cons]
    have hm := updateShape_mem S st first
    cases hu : updateShape S st first with
    | mk st1 r =>
      rw [hu] at hm
      simp only at hm
      cases r with
      | error x => rfl
      | ok ch =>
        simp only [callRest, Call.bytes]
        have := copy_same S.eng st.mem ((t, first, s) :: l) st1.mem st1.dyn (fun _ _ _ _ _ _ _ => by rw [hm]) h.earlier h.own
        simp only [List.map_cons] at this
        simp only [List.map_cons, List.map_map, Function.comp_def]
        rw [this]
        rfl

/-- a call with tensors of the caller alone is a call -/
theorem C121_own_tensors (S : Setup) (st : St) (c : Call) : callSources S st ⟨c.inputs.map fun x => (x.1, x.2.1, .own x.2.2), c.crash⟩ = call S st c := by
  rw [C121_feedback_partial]
  · simp [SourceCall.cloned, Source.bytes, Function.comp_def]
  · refine ⟨?_, ?_, ?_⟩
    · intro p hp w h
      obtain ⟨q, _, rfl⟩ := List.mem_map.mp hp
      cases h
    · rw [List.pairwise_map]
      exact List.pairwise_of_forall fun _ _ _ _ _ h => nomatch h
    · intro p hp v w _ h
      obtain ⟨q, _, rfl⟩ := List.mem_map.mp hp
      cases h

/-! ### The cases -/

/-- the hypotheses of `C121_result_overwritten` are met by `demo`: the result of [1, 2] that is kept reads [6, 7] after a call with [5, 6] -/
example : returned demo (call demo (stateBefore demo zeroMem []) (demoCall [1, 2] [0])).1 = .ok [("y", (8, 2))] ∧
    (call demo (stateBefore demo zeroMem ([] ++ ⟨fun _ => 2, demoCall [1, 2] [0]⟩ :: [])) (demoCall [5, 6] [0])).2 = .ok [("y", [6, 7])] ∧
    readAll (call demo (stateBefore demo zeroMem []) (demoCall [1, 2] [0])).1.mem [("y", (8, 2))] = [("y", [2, 3])] := ⟨rfl, rfl, rfl⟩

/-- two states: `h2 = f(f(h))` and `c2 = f(c)`, one element each, as `get_compute_graph` leaves it -/
def twoStates : Graph :=
  let g := Graph.updateTensorRelations
    { nodemap := [⟨"n1", "Exp", ["h"], ["a"]⟩, ⟨"n2", "Exp", ["c"], ["c2"]⟩, ⟨"n3", "Exp", ["a"], ["h2"]⟩]
      input := ["h", "c"], output := ["h2", "c2"] }
  { g with dynamics := ComputeGraph.rebuildDynamics g }

def twoStatesTM : Dict TInfo := [("h", ⟨[1], 1⟩), ("c", ⟨[1], 1⟩), ("a", ⟨[1], 1⟩), ("h2", ⟨[1], 1⟩), ("c2", ⟨[1], 1⟩)]

def twoStatesSetup (cm : Dict (Nat × Nat)) (sz : Nat) : Setup where
  eng := mkEngine twoStates cm sz twoStatesTM 1 []
  inputDesc := [("h", [.num 1]), ("c", [.num 1])]
  ranged := []
  blocks := ["h", "c", "a", "c2", "h2"]
  tm := twoStatesTM
  kern := incKern
  se0 := ⟨[], [("h", [.num 1]), ("c", [.num 1]), ("a", [.num 1]), ("h2", [.num 1]), ("c2", [.num 1])], []⟩

/-- the state after a call with `h = [1]`, `c = [5]` -/
def afterFirst (cm : Dict (Nat × Nat)) (sz : Nat) : St := (call (twoStatesSetup cm sz) ((twoStatesSetup cm sz).start zeroMem) ⟨[("h", [1], [1]), ("c", [1], [5])], zeroMem⟩).1

/-- the second call with the views that the first returned, as a recurrent loop writes it -/
def fedBack (vs : Dict (Nat × Nat)) : SourceCall := ⟨[("h", [1], .view ((vs.get? "h2").getD (0, 0))), ("c", [1], .view ((vs.get? "c2").getD (0, 0)))], zeroMem⟩

/-- **C121 (finding): feeding back two states mixes them up.** The plan of `compress_memory` puts `c2` where `h` was and `h2` where `c` was.  A second call with the two results of the first copies `h2` over `c2` and then
takes that for `c`: it returns `c2 = [4]`, while copies of the same results give `c2 = [7]`; no exception is raised. -/
theorem C121_two_states_mixed : ∃ cm sz vs, Mem.compressMemory twoStates (memsizes twoStatesTM) 64 = .ok (cm, sz) ∧ returned (twoStatesSetup cm sz) (afterFirst cm sz) = .ok vs ∧
    readAll (afterFirst cm sz).mem vs = [("h2", [3]), ("c2", [6])] ∧
    (callSources (twoStatesSetup cm sz) (afterFirst cm sz) (fedBack vs)).2 = .ok [("h2", [5]), ("c2", [4])] ∧
    (call (twoStatesSetup cm sz) (afterFirst cm sz) ((fedBack vs).cloned (afterFirst cm sz).mem)).2 = .ok [("h2", [5]), ("c2", [7])] :=
  ⟨[("h", (0, 64)), ("c", (64, 64)), ("a", (128, 64)), ("c2", (0, 64)), ("h2", (64, 64))], 192, [("h2", (64, 1)), ("c2", (0, 1))], rfl, rfl, rfl, rfl, rfl⟩

/-- `FeedsBack` holds for one state: `y` of `demo` is fed back as `x` -/
example : FeedsBack demo.eng ⟨[("x", [2], .view (8, 2)), ("z", [1], .own [0])], zeroMem⟩ ∧
    (callSources demo (call demo (demo.start zeroMem) (demoCall [1, 2] [0])).1 ⟨[("x", [2], .view (8, 2)), ("z", [1], .own [0])], zeroMem⟩).2 = .ok [("y", [3, 4])] := by
  refine ⟨⟨?_, ?_, ?_⟩, rfl⟩
  · intro p hp w hw
    simp only [List.mem_cons, List.not_mem_nil, or_false] at hp
    rcases hp with rfl | rfl
    · rfl
    · cases hw
  · simp
  · intro p hp v w hv hw
    simp only [List.mem_cons, List.not_mem_nil, or_false] at hp
    rcases hp with rfl | rfl
    · cases hw
      cases hv
      exact .inr (.inl (by decide))
    · cases hw

end OnnxTool.Props
