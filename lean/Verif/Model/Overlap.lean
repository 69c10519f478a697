import Verif.Model.InferState
/-!
# Calls of `forward` that overlap in time (`/repo/inference/infer.py` 232-445, `/repo/inference/sr_gui.py` 359-383, 409-436, 484-518)

The window starts a thread for every image, batch and profile; each calls `forward` of the one engine, without a lock.  A call is cut into steps: taking the dimensions and refreshing the cache, copying the inputs, each
node, collecting the outputs.  Between two steps any other thread may run.  Simplified: the interpreter may also switch inside a step; that gives more schedules, for which only the theorems about calls that do not overlap
say something.
-/
namespace OnnxTool.Infer
open OnnxTool OnnxTool.Pool

/-- where a call stands; `changed` and `rebuild` are locals of `forward` (246, 300) -/
inductive Phase where
  | start
  | copy (changed : Bool)
  | node (rebuild : Bool) (idx : Nat)
  | done (r : Except PyErr (Dict Bytes))

/-- one node (306-410): the argument lists are built and appended, or the kept ones refreshed; then the kernel runs -/
def nodeStep (S : Setup) (crash : Mem) (st : St) (rebuild : Bool) (idx : Nat) (n : Node) : St × Phase :=
  if rebuild then
    match mapE (resolveArg S.eng (lookupShape S st) st.dyn) n.input with
    | .error x => (st, .done (.error x))
    | .ok args =>
      match mapE (resolveOut S.eng (lookupShape S st)) n.output with
      | .error x => (st, .done (.error x))
      | .ok outs =>
        match S.kern n with
        | none => (st, .done (.error .runtimeError))
        | some k =>
          match k args outs st.mem with
          | .error x => ({ st with mem := crash }, .done (.error x))
          | .ok mem => ({ st with mem := mem, nodes := some (st.nodes.getD [] ++ [(args, outs)]) }, .node rebuild (idx + 1))
  else
    match (st.nodes.getD [])[idx]? with
    | none => (st, .done (.error .indexError))
    | some (args, outs) =>
      let st := { st with nodes := some ((st.nodes.getD []).set idx (refreshArgs st.dyn n.input args, outs)) }
      match S.kern n with
      | none => (st, .done (.error .runtimeError))
      | some k =>
        match k (refreshArgs st.dyn n.input args) outs st.mem with
        | .error x => ({ st with mem := crash }, .done (.error x))
        | .ok mem => ({ st with mem := mem }, .node rebuild (idx + 1))

/-- one step of a call (232-445) -/
def step (S : Setup) (c : Call) (st : St) : Phase → St × Phase
  | .start =>
    match c.inputs with
    | [] => (st, .done (.error .runtimeError))
    | (_, first, _) :: _ =>
      match updateShape S st first with
      | (st, .error x) => (st, .done (.error x))
      | (st, .ok changed) => ({ st with cache := if changed = true ∨ st.cache = [] then refreshed S st.se else st.cache }, .copy changed)
  | .copy changed =>
    match copySt S.eng c.bytes (st.mem, st.dyn) with
    | ((mem, dyn), some x) => ({ st with mem := mem, dyn := dyn }, .done (.error x))
    | ((mem, dyn), none) =>
      match changed, st.nodes with
      | false, some kept => ({ st with mem := mem, dyn := dyn, nodes := some kept }, .node false 0)
      | _, _ => ({ st with mem := mem, dyn := dyn, nodes := some [] }, .node true 0)
  | .node rebuild idx =>
    match S.eng.nodes[idx]? with
    | none => (st, .done (collect S.eng (lookupShape S st) st.mem S.eng.output))
    | some n => nodeStep S c.crash st rebuild idx n
  | .done r => (st, .done r)

/-- the engines and the threads; thread `i` runs call `(T i).2` on engine `(T i).1` -/
structure Threads where
  st : Nat → St
  phase : Nat → Phase

/-- thread `i` makes a step -/
def Threads.run (S : Nat → Setup) (T : Nat → Nat × Call) (w : Threads) (i : Nat) : Threads :=
  let r := step (S (T i).1) (T i).2 (w.st (T i).1) (w.phase i)
  { st := fun e => if e = (T i).1 then r.1 else w.st e
    phase := fun j => if j = i then r.2 else w.phase j }

/-- a schedule: the threads that make a step, from the first -/
def Threads.exec (S : Nat → Setup) (T : Nat → Nat × Call) (w : Threads) (sched : List Nat) : Threads := sched.foldl (Threads.run S T) w

/-- all threads are about to call -/
def ready (st : Nat → St) : Threads := ⟨st, fun _ => .start⟩

end OnnxTool.Infer
