import Verif.Proofs.InferState
import Verif.Props.Infer
import Mathlib.Data.List.Induction
/-!
# C47 and C48: `GraphInfer.forward` over histories of calls
-/
namespace OnnxTool.Props
open OnnxTool OnnxTool.Infer

/-- A call together with the values of the named dimensions in it. -/
structure DimCall where
  σ : String → Nat
  c : Call

/-- the history up to call `i` (exclusive) -/
def stateBefore (S : Setup) (mem0 : Mem) (h : List DimCall) : St := calls S (S.start mem0) (h.map (·.c))

private theorem stateBefore_snoc (S : Setup) (mem0 : Mem) (h : List DimCall) (x : DimCall) :
    stateBefore S mem0 (h ++ [x]) = (call S (stateBefore S mem0 h) x.c).1 := by
  simp [stateBefore, calls, List.foldl_append]

private theorem reach_history {S : Setup} (hS : SetupOk S) (mem0 : Mem) (h : List DimCall) (hv : ∀ x ∈ h, ValidCall S x.σ x.c) :
    Reach S (stateBefore S mem0 h) ∧
    (∀ y, h.getLast? = some y → ∀ v ∈ boundVars S, (stateBefore S mem0 h).last.get? v = some (y.σ v : Int)) ∧
    (h = [] → (stateBefore S mem0 h).nodes = none ∧ (stateBefore S mem0 h).last = []) := by
  induction h using List.reverseRecOn with
  | nil => exact ⟨reach_start hS mem0, fun y h => by simp at h, fun _ => ⟨rfl, rfl⟩⟩
  | append_singleton h x ih =>
    obtain ⟨h1, _, _⟩ := ih (fun y hy => hv y (by simp [hy]))
    obtain ⟨c1, c2, _, _⟩ := call_spec hS (hv x (by simp)) h1
    rw [stateBefore_snoc]
    exact ⟨c1, fun y hy v hb => by simp at hy; subst hy; exact c2 v hb, fun h => by simp at h⟩

/-- The call's result is that of `forward` on a fresh engine whose tensors have the shapes belonging to this call's dimensions: it
depends on the history only through the pool's contents and the tensors kept outside the pool.  When it returns, it leaves the pool and
these tensors as the fresh engine would. -/
def AsFresh (S : Setup) (st : St) (x : DimCall) : Prop :=
  (call S st x.c).2 = (forward S.eng S.kern (refShape S x.σ) st.mem st.dyn x.c.bytes).map (·.1) ∧
  ∀ d m, forward S.eng S.kern (refShape S x.σ) st.mem st.dyn x.c.bytes = .ok (d, m) →
    (call S st x.c).1.mem = m ∧ ∃ m1, copyInputs S.eng x.c.bytes (st.mem, st.dyn) = .ok (m1, (call S st x.c).1.dyn)

/-- **C48, recovery.** After any history of calls, failed ones included, a call whose dimensions differ from those of the previous call
behaves as on a fresh engine; so does the first call. -/
theorem C48_new_shape_recovers (S : Setup) (hS : SetupOk S) (mem0 : Mem) (h : List DimCall) (hv : ∀ y ∈ h, ValidCall S y.σ y.c)
    (x : DimCall) (hx : ValidCall S x.σ x.c) (hd : ∀ y, h.getLast? = some y → Differ S x.σ y.σ) :
    AsFresh S (stateBefore S mem0 h) x := by
  obtain ⟨h1, h2, h3⟩ := reach_history hS mem0 h hv
  obtain ⟨_, _, c3, _⟩ := call_spec hS hx h1
  refine (c3 ?_).1
  cases hl : h.getLast? with
  | none =>
    have : h = [] := by simpa using hl
    exact .inr fun kept hk => by rw [(h3 this).1] at hk; cases hk
  | some y =>
    obtain ⟨v, hvb, hne⟩ := hd y hl
    refine .inl ⟨v, hvb, ?_⟩
    rw [h2 y hl v hvb]
    simp only [ne_eq, Option.some.injEq]
    intro e
    exact hne (by exact_mod_cast e.symm)

private theorem nodesOk_congr {S : Setup} {σ τ : String → Nat} (h : ∀ v ∈ boundVars S, σ v = τ v) {st : St} (hn : NodesOk S σ st) :
    NodesOk S τ st := by
  intro k hk; rw [← refShape_congr h]; exact hn k hk

/-- After the history, the kept lists (if any) are right for the dimensions of its last call. -/
private def GoodEnd (S : Setup) (mem0 : Mem) (h : List DimCall) : Prop :=
  ∀ y, h.getLast? = some y → NodesOk S y.σ (stateBefore S mem0 h) ∧ (stateBefore S mem0 h).nodes.isSome

private theorem good_asFresh {S : Setup} (hS : SetupOk S) (mem0 : Mem) (h : List DimCall) (hv : ∀ y ∈ h, ValidCall S y.σ y.c)
    (x : DimCall) (hx : ValidCall S x.σ x.c) (hg : GoodEnd S mem0 h) :
    AsFresh S (stateBefore S mem0 h) x ∧
    ((∃ d, (call S (stateBefore S mem0 h) x.c).2 = .ok d) → GoodEnd S mem0 (h ++ [x])) ∧
    ((∃ y, h.getLast? = some y ∧ ¬ Differ S x.σ y.σ) → GoodEnd S mem0 (h ++ [x])) := by
  obtain ⟨h1, h2, h3⟩ := reach_history hS mem0 h hv
  obtain ⟨_, _, c3, c4⟩ := call_spec hS hx h1
  have key : (∃ v ∈ boundVars S, (stateBefore S mem0 h).last.get? v ≠ some (x.σ v : Int)) ∨ NodesOk S x.σ (stateBefore S mem0 h) := by
    cases hl : h.getLast? with
    | none =>
      have : h = [] := by simpa using hl
      exact .inr fun kept hk => by rw [(h3 this).1] at hk; cases hk
    | some y =>
      by_cases hd : Differ S x.σ y.σ
      · obtain ⟨v, hvb, hne⟩ := hd
        refine .inl ⟨v, hvb, ?_⟩
        rw [h2 y hl v hvb]
        simp only [ne_eq, Option.some.injEq]
        intro e; exact hne (by exact_mod_cast e.symm)
      · refine .inr (nodesOk_congr ?_ (hg y hl).1)
        intro v hb
        exact Classical.byContradiction fun hne => hd ⟨v, hb, fun e => hne e.symm⟩
  have hsn : ∀ y, (h ++ [x]).getLast? = some y → y = x := by intro y hy; simp at hy; exact hy.symm
  refine ⟨(c3 key).1, fun hr y hy => ?_, ?_⟩
  · rw [hsn y hy, stateBefore_snoc]; exact (c3 key).2 hr
  · rintro ⟨y', hl, hnd⟩ y hy
    rw [hsn y hy, stateBefore_snoc]
    have heq : ∀ v ∈ boundVars S, y'.σ v = x.σ v := fun v hb =>
      Classical.byContradiction fun hne => hnd ⟨v, hb, fun e => hne e.symm⟩
    refine c4 ?_ (nodesOk_congr heq (hg y' hl).1) (hg y' hl).2
    intro v hb
    rw [h2 y' hl v hb, heq v hb]

/-- every call of the history returned -/
def AllReturned (S : Setup) (mem0 : Mem) (h : List DimCall) : Prop :=
  ∀ h1 x h2, h = h1 ++ x :: h2 → ∃ d, (call S (stateBefore S mem0 h1) x.c).2 = .ok d

/-- **C47.** After any history of calls that all returned, with any dimensions in any order, the next call behaves as on a fresh engine:
no shape, view or argument list left over from an earlier call is used. -/
theorem C47_no_stale_state (S : Setup) (hS : SetupOk S) (mem0 : Mem) (h : List DimCall) (hv : ∀ y ∈ h, ValidCall S y.σ y.c)
    (hret : AllReturned S mem0 h) (x : DimCall) (hx : ValidCall S x.σ x.c) : AsFresh S (stateBefore S mem0 h) x := by
  refine (good_asFresh hS mem0 h hv x hx ?_).1
  clear hx x
  induction h using List.reverseRecOn with
  | nil => intro y h; simp at h
  | append_singleton h x ih =>
    have hv' : ∀ y ∈ h, ValidCall S y.σ y.c := fun y hy => hv y (by simp [hy])
    have hg := ih hv' (fun h1 y h2 e => hret h1 y (h2 ++ [x]) (by rw [e]; simp))
    exact (good_asFresh hS mem0 h hv' x (hv x (by simp)) hg).2.1 (hret h x [] rfl)

/-- **C48, harmless failures.** Suppose that in a history the calls up to and including `y` returned.  Calls after `y` with the same
dimensions may fail at any point; the next call with any dimensions still behaves as on a fresh engine. -/
theorem C48_same_shape_failures_harmless (S : Setup) (hS : SetupOk S) (mem0 : Mem) (h1 : List DimCall) (y : DimCall) (h2 : List DimCall)
    (hv : ∀ z ∈ h1 ++ [y] ++ h2, ValidCall S z.σ z.c) (hret : AllReturned S mem0 (h1 ++ [y]))
    (hsame : ∀ z ∈ h2, ¬ Differ S z.σ y.σ) (x : DimCall) (hx : ValidCall S x.σ x.c) :
    AsFresh S (stateBefore S mem0 (h1 ++ [y] ++ h2)) x := by
  refine (good_asFresh hS mem0 _ hv x hx ?_).1
  have base : ∀ h : List DimCall, (∀ z ∈ h, ValidCall S z.σ z.c) → AllReturned S mem0 h → GoodEnd S mem0 h := by
    intro h
    induction h using List.reverseRecOn with
    | nil => intro _ _ y h; simp at h
    | append_singleton h x ih =>
      intro hv hret
      have hv' : ∀ y ∈ h, ValidCall S y.σ y.c := fun y hy => hv y (by simp [hy])
      have hg := ih hv' (fun h1 y h2 e => hret h1 y (h2 ++ [x]) (by rw [e]; simp))
      exact (good_asFresh hS mem0 h hv' x (hv x (by simp)) hg).2.1 (hret h x [] rfl)
  clear hx x
  induction h2 using List.reverseRecOn with
  | nil => rw [List.append_nil] at hv ⊢; exact base _ hv hret
  | append_singleton h x ih =>
    have hv' : ∀ z ∈ h1 ++ [y] ++ h, ValidCall S z.σ z.c := fun z hz => hv z (by rw [← List.append_assoc]; exact List.mem_append_left _ hz)
    have hg := ih hv' (fun z hz => hsame z (by simp [hz]))
    rw [← List.append_assoc]
    refine (good_asFresh hS mem0 _ hv' x (hv x (by simp)) hg).2.2 ?_
    -- the last call before `x` has the dimensions of `y`
    have hlast : ∃ w, (h1 ++ [y] ++ h).getLast? = some w ∧ ¬ Differ S w.σ y.σ := by
      cases hl : h.getLast? with
      | none =>
        have : h = [] := by simpa using hl
        subst this
        exact ⟨y, by simp, fun ⟨v, _, hne⟩ => hne rfl⟩
      | some w =>
        have hw : w ∈ h := List.mem_of_getLast? hl
        exact ⟨w, by rw [List.getLast?_append, hl]; rfl, hsame w (by simp [hw])⟩
    obtain ⟨w, hw, hnd⟩ := hlast
    refine ⟨w, hw, ?_⟩
    rintro ⟨v, hb, hne⟩
    have h1 : w.σ v = y.σ v := Classical.byContradiction fun h => hnd ⟨v, hb, h⟩
    have h2 : x.σ v = y.σ v := Classical.byContradiction fun h => hsame x (by simp) ⟨v, hb, h⟩
    exact hne (h2.trans h1.symm)

/-- **C47, together with C46.** In any history of calls that all returned, every graph output that no node reads has in the next call the
value of the reference execution with this call's dimensions (every tensor in storage of its own, nothing kept from earlier calls but the
tensors outside the pool that the caller does not supply again). -/
theorem C47_outputs_are_reference (S : Setup) (hS : SetupOk S) (mem0 : Mem) (h : List DimCall) (hv : ∀ y ∈ h, ValidCall S y.σ y.c)
    (hret : AllReturned S mem0 h) (x : DimCall) (hx : ValidCall S x.σ x.c)
    (g : Graph) (p : Nat) (hp : 0 < p) (cm : Dict (Nat × Nat)) (sz elt : Nat) (helt : 0 < elt) (consts : Dict Bytes)
    (hidx : g.IndexExact) (hssa : SSA g.input g.nodemap) (hrun : Mem.compressMemory g (memsizes S.tm) p = .ok (cm, sz))
    (hE : S.eng = mkEngine g cm sz S.tm elt consts) (sem : Sem)
    (hkern : ∀ n ∈ g.nodemap, ∃ k, S.kern n = some k ∧ Computes k (sem n))
    (hok : RunOk g S.tm S.eng (refShape S x.σ) (stateBefore S mem0 h).dyn x.c.bytes sem) :
    ∃ d, (call S (stateBefore S mem0 h) x.c).2 = .ok d ∧
      ∀ o, o ∈ g.output → (∃ k, ProducedAt g.nodemap k o) → (∀ j, ¬ ReadAt g.nodemap j o) →
        (d.get? o).isSome ∧ d.get? o = refRun sem g.nodemap (startEnv S.eng (stateBefore S mem0 h).dyn x.c.bytes) o := by
  have hf := C47_no_stale_state S hS mem0 h hv hret x hx
  unfold AsFresh at hf
  rw [hE] at hok hf ⊢
  obtain ⟨d, mem', e1, e2⟩ := C46_forward_partial g S.tm p hp cm sz elt helt consts _ _ _ sem S.kern hidx hssa hrun hok hkern
    (stateBefore S mem0 h).mem
  rw [e1] at hf
  exact ⟨d, hf.1, e2⟩

/-- the chain `x → a → b → y` of at most three elements -/
def chainSetup (cm : Dict (Nat × Nat)) (sz : Nat) : Setup where
  eng := mkEngine chain cm sz chainTM 2 []
  inputDesc := [("x", [.var "n"])]
  ranged := ["n"]
  blocks := ["x", "a", "b", "y"]
  tm := chainTM
  kern := incKern
  se0 := ⟨[("n", 3)], [("x", [.var "n"]), ("a", [.var "n"]), ("b", [.var "n"]), ("y", [.var "n"])], []⟩

/-- the hypotheses of `C47_outputs_are_reference` are met (with no earlier call) -/
example : ∃ cm sz, Mem.compressMemory chain (memsizes chainTM) 64 = .ok (cm, sz) ∧ SetupOk (chainSetup cm sz) ∧
    (∀ mem0, AllReturned (chainSetup cm sz) mem0 []) ∧
    ValidCall (chainSetup cm sz) (fun _ => 2) ⟨[("x", [2], [1, 2, 3, 4])], fun _ => 0⟩ ∧
    RunOk chain chainTM (chainSetup cm sz).eng (refShape (chainSetup cm sz) (fun _ => 2)) [] [("x", [1, 2, 3, 4])] incSem := by
  obtain ⟨cm, sz, h1, h2⟩ := chain_runOk
  refine ⟨cm, sz, h1, ⟨⟨trivial, fun _ _ _ h => absurd h (by simp [chainSetup])⟩, ?_, .inl (by simp [boundVars, chainSetup])⟩, ?_, ⟨?_, ?_⟩, h2.congr ?_ ?_ ?_⟩
  · intro v _ h; simp [chainSetup, Dict.keys] at h
  · intro mem0 l1 x l2 h; simp at h
  · refine ⟨_, _, _, _, rfl, ?_, ?_⟩
    · intro d hd _ i v n h1 _ h2
      simp only [chainSetup, List.mem_singleton] at hd
      subst hd
      cases i with
      | zero => simp at h2; exact h2.symm
      | succ i => simp at h1
    · intro v hv
      have : v = "n" := by simpa [boundVars, chainSetup] using hv
      subst this
      exact ⟨_, List.mem_cons_self, rfl, List.mem_cons_self⟩
  · intro t b h _; rfl
  · intro t i h
    simp only [chainTM, Dict.get?] at h
    repeat' split at h
    all_goals first | (subst_vars; rfl) | cases h
  · intro t b h
    simp at h
    obtain ⟨rfl, _⟩ := h
    rfl
  · intro n hn t ht
    have : n ∈ [(⟨"n1", "Relu", ["x"], ["a"]⟩ : Node), ⟨"n2", "Exp", ["a"], ["b"]⟩, ⟨"n3", "Exp", ["b"], ["y"]⟩] := hn
    simp at this
    rcases this with rfl | rfl | rfl <;> (simp at ht; subst ht; rfl)

/-! ### What goes wrong otherwise -/

/-- adds one to every byte of its input; raises when a byte is 255 (as a kernel may on bad data) -/
def fussyKernel : Kernel := fun args outs mem =>
  match args.map (content mem), outs with
  | some b :: _, o :: _ => if 255 ∈ b then .error .valueError else .ok (Pool.write mem o (fun i => b.getD i 0 + 1))
  | _, _ => .error .typeError

/-- `y = f(x)` with `x, y : [n]`, `n ≤ 4`, and a second input `z : [1]`; one byte per element -/
def demo : Setup where
  eng := ⟨[⟨"f", "Exp", ["x"], ["y"]⟩], ["y"], [("x", (0, 4)), ("z", (4, 1)), ("y", (8, 4))], 1, []⟩
  inputDesc := [("x", [.var "n"])]
  ranged := ["n"]
  blocks := ["x", "z", "y"]
  tm := [("x", ⟨[4], 1⟩), ("z", ⟨[1], 1⟩), ("y", ⟨[4], 1⟩)]
  kern := fun _ => some fussyKernel
  se0 := ⟨[("n", 4)], [("x", [.var "n"]), ("y", [.var "n"]), ("z", [.num 1])], []⟩

def zeroMem : Mem := fun _ => 0
def demoCall (x : List UInt8) (z : List UInt8) : Call := ⟨[("x", [x.length], x), ("z", [z.length], z)], zeroMem⟩
def demoCalls (h : List Call) (c : Call) : Except PyErr (Dict Bytes) := (call demo (calls demo (demo.start zeroMem) h) c).2

/-- the hypotheses of C47 are met by calls with two and with three elements -/
example : SetupOk demo ∧ ∀ x z : List UInt8, ValidCall demo (fun _ => x.length) (demoCall x z) := by
  refine ⟨⟨⟨trivial, fun _ _ _ h => absurd h (by simp [demo])⟩, ?_, .inl (by decide)⟩, fun x z => ⟨?_, ?_⟩⟩
  · intro v _ h
    simp [demo, Dict.keys] at h
  · refine ⟨_, _, _, _, rfl, ?_, ?_⟩
    · intro d hd _ i v n h1 _ h2
      simp only [demo, List.mem_singleton] at hd
      subst hd
      cases i with
      | zero => simp at h2; exact h2.symm
      | succ i => simp at h1
    · intro v hv
      have : v = "n" := by simpa [boundVars, demo] using hv
      subst this
      exact ⟨_, List.mem_cons_self, rfl, List.mem_cons_self⟩
  · intro t b h _
    rfl

example : demoCalls [demoCall [1, 2] [0]] (demoCall [5, 6, 7] [0]) = .ok [("y", [6, 7, 8])] := rfl

/-- **C48 (finding): a failure while the inputs are copied.** Two elements, then three with a second input that is too large (raises),
then three with correct inputs: the last call returns, but its third element is left over from an earlier call — the kernel was given the
views for two elements. -/
theorem C48_failed_copy_then_stale_shape :
    demoCalls [demoCall [9, 9, 9] [0], demoCall [1, 2] [0], demoCall [5, 6, 7] [0, 0]] (demoCall [5, 6, 7] [0]) =
      .ok [("y", [6, 7, 10])] ∧
    (demoCalls [demoCall [9, 9, 9] [0], demoCall [1, 2] [0]] (demoCall [5, 6, 7] [0, 0])) = .error .runtimeError := ⟨rfl, rfl⟩

/-- **C48 (finding): a failure inside a kernel.** The first call with three elements fails in a kernel; every later call with three
elements raises IndexError, although its inputs are fine. -/
theorem C48_failed_kernel_then_index_error :
    demoCalls [demoCall [255, 6, 7] [0]] (demoCall [5, 6, 7] [0]) = .error .indexError ∧
    demoCalls [demoCall [255, 6, 7] [0], demoCall [5, 6, 7] [0]] (demoCall [1, 2, 3] [0]) = .error .indexError ∧
    demoCalls [demoCall [255, 6, 7] [0]] (demoCall [5, 6] [0]) = .ok [("y", [6, 7])] := ⟨rfl, rfl, rfl⟩

/-- two inputs with dimensions of their own; `y = f(b)` -/
def twoInputs : Setup where
  eng := ⟨[⟨"f", "Exp", ["b"], ["y"]⟩], ["y"], [("a", (0, 4)), ("b", (4, 4)), ("y", (8, 4))], 1, []⟩
  inputDesc := [("a", [.var "n"]), ("b", [.var "m"])]
  ranged := ["n", "m"]
  blocks := ["a", "b", "y"]
  tm := [("a", ⟨[4], 1⟩), ("b", ⟨[4], 1⟩), ("y", ⟨[4], 1⟩)]
  kern := fun _ => some fussyKernel
  se0 := ⟨[("n", 4), ("m", 4)], [("a", [.var "n"]), ("b", [.var "m"]), ("y", [.var "m"])], []⟩

/-- **C47 (finding): only the first tensor is looked at.** With two inputs of the same rank and different named dimensions, all named
dimensions are taken from the tensor that comes first in the caller's dict: the result has two of the three elements, and all three when
the caller passes the tensors in the other order. -/
theorem C47_second_input_shape_ignored :
    (call twoInputs (twoInputs.start zeroMem) ⟨[("a", [2], [1, 2]), ("b", [3], [5, 6, 7])], zeroMem⟩).2 = .ok [("y", [6, 7])] ∧
    (call twoInputs (twoInputs.start zeroMem) ⟨[("b", [3], [5, 6, 7]), ("a", [2], [1, 2])], zeroMem⟩).2 = .ok [("y", [6, 7, 8])] :=
  ⟨rfl, rfl⟩

/-- `y = f(w)` with a weight `w` -/
def constSetup : Setup where
  eng := ⟨[⟨"f", "Exp", ["w"], ["y"]⟩], ["y"], [("x", (0, 4)), ("y", (8, 4))], 1, [("w", [1, 1])]⟩
  inputDesc := [("x", [.var "n"])]
  ranged := ["n"]
  blocks := ["x", "y"]
  tm := [("x", ⟨[4], 1⟩), ("y", ⟨[4], 1⟩)]
  kern := fun _ => some fussyKernel
  se0 := ⟨[("n", 4)], [("x", [.var "n"]), ("y", [.var "n"])], []⟩

/-- **C47 (finding): a tensor passed under the name of a weight** is ignored by the first call and used by the second, which has the same
inputs. -/
theorem C47_weight_override_inconsistent :
    let c : Call := ⟨[("x", [2], [1, 2]), ("w", [2], [7, 7])], zeroMem⟩
    (call constSetup (constSetup.start zeroMem) c).2 = .ok [("y", [2, 2])] ∧
    (call constSetup (calls constSetup (constSetup.start zeroMem) [c]) c).2 = .ok [("y", [8, 8])] := ⟨rfl, rfl⟩

/-- **C47, tensors outside the pool** (such as `n_past`): in every history of calls the value a kernel sees is the last one supplied: after
the inputs are copied, a name outside the pool holds this call's tensor if there is one, and else what the previous calls left. -/
theorem C47_last_supplied_value (e : Engine) (l : List (String × Bytes)) (mem : Mem) (dyn : Dict Bytes) (mem' : Mem) (dyn' : Dict Bytes)
    (h : copySt e l (mem, dyn) = ((mem', dyn'), none)) (hn : (l.map (·.1)).Nodup) (t : String) (hv : e.views.get? t = none) :
    dyn'.get? t = (Dict.get? l t).or (dyn.get? t) := by
  induction l generalizing mem dyn with
  | nil => simp only [copySt, Prod.mk.injEq, and_true] at h; rw [h.2]; rfl
  | cons a l ih =>
    obtain ⟨u, b⟩ := a
    simp only [List.map_cons, List.nodup_cons] at hn
    simp only [copySt] at h
    cases hu : e.views.get? u with
    | none =>
      rw [hu] at h
      rw [ih _ _ h hn.2]
      simp only [Dict.get?, Dict.get?_set]
      by_cases e : u = t
      · subst e
        have : Dict.get? l u = none := Dict.get?_eq_none_of_not_mem hn.1
        simp [this]
      · simp [e]
    | some v =>
      rw [hu] at h
      simp only at h
      split at h
      · rw [ih _ _ h hn.2]
        have : u ≠ t := by rintro rfl; rw [hu] at hv; cases hv
        simp [Dict.get?, this]
      · simp at h

end OnnxTool.Props
