import Verif.Spec.Overlap
/-!
# Calls in steps and at once
-/
namespace OnnxTool.Infer
open OnnxTool OnnxTool.Pool

/-- the end of the loop over the nodes -/
def loopEnd (S : Setup) (st : St) (r : (List (List Arg × List (Nat × Nat)) × Mem) × Option PyErr) : St × Except PyErr (Dict Bytes) :=
  let st' := { st with nodes := some r.1.1, mem := r.1.2 }
  match r.2 with
  | some x => (st', .error x)
  | none => (st', collect S.eng (lookupShape S st') r.1.2 S.eng.output)

/-- what a call does from where it stands if nothing comes between -/
def finish (S : Setup) (c : Call) (st : St) : Phase → St × Except PyErr (Dict Bytes)
  | .start => call S st c
  | .copy ch =>
    match copySt S.eng c.bytes (st.mem, st.dyn) with
    | ((mem, dyn), some x) => ({ st with mem := mem, dyn := dyn }, .error x)
    | ((mem, dyn), none) => callRun S { st with mem := mem, dyn := dyn } ch c.crash
  | .node true idx => loopEnd S st (loopRebuild S c.crash (lookupShape S st) st.dyn (S.eng.nodes.drop idx) (st.nodes.getD []) st.mem)
  | .node false idx => loopEnd S st (loopKept S c.crash st.dyn (S.eng.nodes.drop idx) ((st.nodes.getD []).take idx) ((st.nodes.getD []).drop idx) st.mem)
  | .done r => (st, r)

/-- in the loop over the nodes the argument lists exist -/
def Good (st : St) : Phase → Prop
  | .node _ _ => st.nodes.isSome = true
  | _ => True

private theorem loop_eta (S : Setup) (st : St) (ch : Bool) (crash : Mem) : callRun S st ch crash = loopEnd S st (loopOf S crash (lookupShape S st) st.dyn st.mem ch st.nodes) := rfl

private theorem lookup_nodes (S : Setup) (st : St) (m : Mem) (ns : Option (List (List Arg × List (Nat × Nat)))) : lookupShape S { st with mem := m, nodes := ns } = lookupShape S st := rfl

private theorem loopEnd_nodes (S : Setup) (st : St) (m : Mem) (ns : Option (List (List Arg × List (Nat × Nat)))) (r : (List (List Arg × List (Nat × Nat)) × Mem) × Option PyErr) :
    loopEnd S { st with mem := m, nodes := ns } r = loopEnd S st r := rfl

theorem good_step (S : Setup) (c : Call) (st : St) (p : Phase) (h : Good st p) : Good (step S c st p).1 (step S c st p).2 := by
  cases p with
  | start =>
    simp only [step]
    split
    · trivial
    · split <;> trivial
  | copy ch =>
    simp only [step]
    split
    · trivial
    · split <;> exact rfl
  | node rb idx =>
    simp only [step]
    split
    · trivial
    · simp only [nodeStep]
      cases rb with
      | true =>
        simp only [if_true]
        split
        · trivial
        · split
          · trivial
          · split
            · trivial
            · split
              · trivial
              · exact rfl
      | false =>
        simp only [Bool.false_eq_true, if_false]
        split
        · trivial
        · split
          · trivial
          · split
            · trivial
            · exact rfl
  | done r => trivial

theorem finish_step (S : Setup) (c : Call) (st : St) (p : Phase) (h : Good st p) : finish S c (step S c st p).1 (step S c st p).2 = finish S c st p := by
  cases p with
  | start =>
    simp only [step, finish, call]
    cases hi : c.inputs with
    | nil => rfl
    | cons q l =>
      obtain ⟨t, first, b⟩ := q
      simp only
      cases hu : updateShape S st first with
      | mk st1 r =>
        cases r with
        | error x => rfl
        | ok ch =>
          simp only [callRest]
          rfl
  | copy ch =>
    simp only [step, finish]
    cases hc : copySt S.eng c.bytes (st.mem, st.dyn) with
    | mk md err =>
      obtain ⟨mem, dyn⟩ := md
      cases err with
      | some x => rfl
      | none =>
        simp only
        rw [loop_eta]
        cases ch with
        | true => rfl
        | false =>
          cases hn : st.nodes with
          | none => rfl
          | some kept =>
            simp only [finish, loopOf, hn]
            simp only [Option.getD_some, List.take_zero, List.drop_zero]
            try rfl
  | node rb idx =>
    obtain ⟨ns, hns⟩ := Option.isSome_iff_exists.mp (show st.nodes.isSome = true from h)
    simp only [step]
    cases hn : S.eng.nodes[idx]? with
    | none =>
      have hd : S.eng.nodes.drop idx = [] := List.drop_eq_nil_of_le (List.getElem?_eq_none_iff.mp hn)
      cases rb with
      | true =>
        simp only [finish, hd, loopRebuild, loopEnd, hns, Option.getD_some]
        rw [← hns]
      | false =>
        simp only [finish, hd, loopKept, loopEnd, hns, Option.getD_some, List.take_append_drop]
        rw [← hns]
    | some n =>
      obtain ⟨hlt, hget⟩ := List.getElem?_eq_some_iff.mp hn
      have hd : S.eng.nodes.drop idx = n :: S.eng.nodes.drop (idx + 1) := by rw [List.drop_eq_getElem_cons hlt, hget]
      simp only [nodeStep]
      cases rb with
      | true =>
        simp only [if_true, finish]
        rw [hd]
        simp only [loopRebuild]
        cases ha : mapE (resolveArg S.eng (lookupShape S st) st.dyn) n.input with
        | error x => simp only [finish, loopEnd, hns, Option.getD_some]; rw [← hns]
        | ok args =>
          cases ho : mapE (resolveOut S.eng (lookupShape S st)) n.output with
          | error x => simp only [finish, loopEnd, hns, Option.getD_some]; rw [← hns]
          | ok outs =>
            cases hk : S.kern n with
            | none => simp only [finish, loopEnd, hns, Option.getD_some]; rw [← hns]
            | some k =>
              cases hr : k args outs st.mem with
              | error x => simp only [hr, finish, loopEnd, hns, Option.getD_some]
              | ok mem => simp only [hr, finish]; rfl
      | false =>
        simp only [Bool.false_eq_true, if_false, finish]
        rw [hd]
        simp only [hns, Option.getD_some]
        cases hg : ns[idx]? with
        | none =>
          have h1 : ns.drop idx = [] := List.drop_eq_nil_of_le (List.getElem?_eq_none_iff.mp hg)
          have h2 : ns.take idx = ns := List.take_of_length_le (List.getElem?_eq_none_iff.mp hg)
          simp only [h1, h2, loopKept, finish, loopEnd]
          rw [← hns]
        | some ao =>
          obtain ⟨args, outs⟩ := ao
          obtain ⟨hl, hg'⟩ := List.getElem?_eq_some_iff.mp hg
          have h1 : ns.drop idx = (args, outs) :: ns.drop (idx + 1) := by rw [List.drop_eq_getElem_cons hl, hg']
          have hset : ns.set idx (refreshArgs st.dyn n.input args, outs) = ns.take idx ++ (refreshArgs st.dyn n.input args, outs) :: ns.drop (idx + 1) := by
            rw [List.set_eq_take_append_cons_drop, if_pos hl]
          have hlen : (ns.take idx).length = idx := by simp; omega
          have htake : (ns.set idx (refreshArgs st.dyn n.input args, outs)).take (idx + 1) = ns.take idx ++ [(refreshArgs st.dyn n.input args, outs)] := by
            rw [hset, List.take_append, hlen]; simp [List.take_of_length_le, hlen]
          have hdrop : (ns.set idx (refreshArgs st.dyn n.input args, outs)).drop (idx + 1) = ns.drop (idx + 1) := by
            rw [List.drop_set, if_pos (by omega)]
          rw [h1]
          simp only [loopKept]
          cases hk : S.kern n with
          | none => simp only [finish, loopEnd]; rw [hset]
          | some k =>
            simp only
            cases hr : k (refreshArgs st.dyn n.input args) outs st.mem with
            | error x => simp only [hr, finish, loopEnd]; rw [hset]
            | ok mem =>
              simp only [hr, finish, Option.getD_some]
              rw [htake, hdrop]
              rfl
  | done r => rfl

end OnnxTool.Infer
