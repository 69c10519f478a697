import Mathlib.Data.List.Perm.Subperm
import Mathlib.Data.List.Nodup
import Verif.Spec.Pattern
/-! # Proofs about pattern search -/
namespace OnnxTool.Pattern
open OnnxTool

theorem cmp_eval {c : Cmp} {a b : Int} {r : Bool} (h : c.eval a b = .ok r) : r = true ↔ c.Holds a b := by
  cases c <;> simp only [Cmp.eval] at h <;> cases h <;> simp [Cmp.Holds]

theorem attr_call {e : AttrExpr} {as : Dict AttrV} {r : Bool} (h : e.call as = .ok r) : r = true ↔ e.Holds as := by
  unfold AttrExpr.call at h
  unfold AttrExpr.Holds
  cases hg : as.get? e.attr with
  | none =>
    rw [hg] at h; simp only at h; cases h
    cases e.idx <;> simp
  | some v =>
    rw [hg] at h
    cases v with
    | num v =>
      cases hi : e.idx with
      | none => simp only [hi] at h; rw [cmp_eval h]; simp
      | some i => simp only [hi] at h; cases h
    | nums vs =>
      cases hi : e.idx with
      | none =>
        simp only [hi] at h
        unfold Cmp.evalList at h
        split at h
        · cases h; simp
        · cases h
      | some i =>
        simp only [hi] at h
        cases hv : vs[i]? with
        | none => rw [hv] at h; cases h
        | some v =>
          rw [hv] at h
          rw [cmp_eval h]
          constructor
          · intro hh; exact ⟨vs, v, rfl, hv, hh⟩
          · rintro ⟨vs', v', e1, e2, e3⟩
            cases e1
            rw [hv] at e2; cases e2; exact e3

theorem attrsHold_iff {as : Dict AttrV} {es : List AttrExpr} {r : Bool} (h : attrsHold as es = .ok r) :
    r = true ↔ ∀ e ∈ es, e.Holds as := by
  induction es generalizing r with
  | nil => simp only [attrsHold] at h; cases h; simp
  | cons e es ih =>
    simp only [attrsHold] at h
    split at h
    · cases h
    · rename_i b hb
      split at h
      · cases h
      · rename_i c' hc
        cases h
        rw [Bool.and_eq_true, attr_call hb, ih hc]
        simp

theorem isNode_iff {d : Desc} {attrs : String → Dict AttrV} {n : Node} {r : Bool} (h : d.isNode attrs n = .ok r) :
    r = true ↔ d.Holds attrs n := by
  unfold Desc.isNode at h
  simp only at h
  split at h
  · cases h
  · rename_i b hb
    cases h
    rw [Bool.and_eq_true, attrsHold_iff hb]
    unfold Desc.Holds OpCond.Holds
    cases d.op <;> simp

theorem cmp_norec {c : Cmp} {a b : Int} : c.eval a b ≠ .error .recursion := by cases c <;> simp [Cmp.eval]
theorem call_norec (e : AttrExpr) (as : Dict AttrV) : e.call as ≠ .error .recursion := by
  unfold AttrExpr.call
  split
  · simp
  · split
    · exact cmp_norec
    · simp
  · split
    · unfold Cmp.evalList; split <;> simp
    · split
      · simp
      · exact cmp_norec
theorem attrsHold_norec (as : Dict AttrV) (es : List AttrExpr) : attrsHold as es ≠ .error .recursion := by
  induction es with
  | nil => simp [attrsHold]
  | cons e es ih =>
    simp only [attrsHold]
    split
    · rename_i x hx; intro h; cases h; exact call_norec _ _ hx
    · split
      · rename_i x hx; intro h; cases h; exact ih hx
      · simp
theorem isNode_norec (d : Desc) (attrs : String → Dict AttrV) (n : Node) : d.isNode attrs n ≠ .error .recursion := by
  unfold Desc.isNode
  simp only
  split
  · rename_i x hx; intro h; cases h; exact attrsHold_norec _ _ hx
  · simp
theorem portOk_norec (w : Option Nat) (names : List String) (t : String) : portOk w names t ≠ .error .recursion := by
  unfold portOk
  split
  · simp
  · split <;> simp

theorem portOk_iff {w : Option Nat} {names : List String} {t : String} (h : portOk w names t = .ok true) : FirstAt names w t := by
  unfold portOk at h
  unfold FirstAt
  split at h
  · trivial
  · split at h
    · rename_i hc
      injection h with h
      exact ⟨by simpa using hc, by simpa using h⟩
    · cases h

/-- names of the graph's nodes -/
def Ctx.names (c : Ctx) : List String := c.g.nodemap.map (·.name)

theorem findNode_mem {ns : List Node} {n : String} {nd : Node} (h : findNode ns n = some nd) : n ∈ ns.map (·.name) ∧ nd.name = n := by
  unfold findNode at h
  have h1 := List.mem_of_find?_eq_some h
  have h2 := List.find?_some h
  simp only [decide_eq_true_eq] at h2
  exact ⟨List.mem_map.mpr ⟨nd, h1, h2⟩, h2⟩

theorem desc_name {p : Pat} {n : String} {d : Desc} (h : p.desc? n = some d) : d.name = n := by
  unfold Pat.desc? at h
  simpa using List.find?_some h

def Sound (c : Ctx) (p : Pat) (x : String × String) : Prop :=
  ∃ d n, p.desc? x.1 = some d ∧ findNode c.g.nodemap x.2 = some n ∧ d.Holds c.attrs n

/-- precondition of a recursive call with fuel `k` -/
structure Pre (c : Ctx) (p : Pat) (k : Nat) (pos n : String) (s : List String) : Prop where
  nodup : s.Nodup
  sub : ∀ x ∈ s, x ∈ c.names
  fresh : n ∉ s
  fuel : c.names.length < s.length + k
  sound : Sound c p (pos, n)

structure Post (c : Ctx) (p : Pat) (pos n : String) (s : List String) (r : Option Path) (s' : List String) : Prop where
  nodup : s'.Nodup
  sub : ∀ x ∈ s', x ∈ c.names
  mono : ∀ x ∈ s, x ∈ s'
  genuine : ∀ path, r = some path → Genuine c p (pos, n) path
  inS : ∀ path, r = some path → ∀ x ∈ path, x.2 ∈ s' ∧ x.2 ∉ s

def RecOK (c : Ctx) (p : Pat) (k : Nat) (rec : Rec) : Prop :=
  ∀ pos n s, Pre c p k pos n s → rec pos n s ≠ .error .recursion ∧ ∀ r s', rec pos n s = .ok (r, s') → Post c p pos n s r s'

/-- invariant of the loops started with `searched = s0`; `E` says which pairs may be roots of collected paths -/
structure Inv (c : Ctx) (p : Pat) (E : String × String → Prop) (s0 : List String) (st : St) : Prop where
  nodup : st.searched.Nodup
  sub : ∀ x ∈ st.searched, x ∈ c.names
  mono : ∀ x ∈ s0, x ∈ st.searched
  paths : ∀ path ∈ st.paths, ∃ root, E root ∧ Genuine c p root path
  distinct : (st.paths.flatten.map (·.2)).Nodup
  inS : ∀ x ∈ st.paths.flatten, x.2 ∈ st.searched ∧ x.2 ∉ s0

theorem Inv.setValid {c : Ctx} {p : Pat} {E : String × String → Prop} {s0 : List String} {st : St} (h : Inv c p E s0 st) (b : Bool) :
    Inv c p E s0 { st with valid := b } := ⟨h.nodup, h.sub, h.mono, h.paths, h.distinct, h.inS⟩

theorem Inv.fail {c : Ctx} {p : Pat} {E : String × String → Prop} {s0 : List String} {st : St} (h : Inv c p E s0 st) {pos n : String}
    {s : List String} {b : Bool} (hp : Post c p pos n st.searched none s) : Inv c p E s0 ⟨b, st.paths, s⟩ :=
  ⟨hp.nodup, hp.sub, fun x hx => hp.mono x (h.mono x hx), h.paths, h.distinct, fun x hx => ⟨hp.mono _ (h.inS x hx).1, (h.inS x hx).2⟩⟩

theorem Inv.add {c : Ctx} {p : Pat} {E : String × String → Prop} {s0 : List String} {st : St} (h : Inv c p E s0 st) {pos n : String}
    {s : List String} {b : Bool} {path : Path} (hp : Post c p pos n st.searched (some path) s) (hE : E (pos, n)) :
    Inv c p E s0 ⟨b, st.paths ++ [path], s⟩ := by
  have hg := hp.genuine path rfl
  have hin := hp.inS path rfl
  refine ⟨hp.nodup, hp.sub, fun x hx => hp.mono x (h.mono x hx), ?_, ?_, ?_⟩
  · intro q hq
    rcases List.mem_append.mp hq with hq | hq
    · exact h.paths q hq
    · rw [List.mem_singleton.mp hq]; exact ⟨_, hE, hg⟩
  · rw [List.flatten_append, List.map_append, List.nodup_append]
    refine ⟨h.distinct, by simpa using hg.nodes_distinct, ?_⟩
    intro a ha b hb hab
    obtain ⟨x, hx, rfl⟩ := List.mem_map.mp ha
    obtain ⟨y, hy, rfl⟩ := List.mem_map.mp hb
    have hy' : y ∈ path := by simpa using hy
    exact (hin y hy').2 (hab ▸ (h.inS x hx).1)
  · intro x hx
    rw [List.flatten_append, List.mem_append] at hx
    rcases hx with hx | hx
    · exact ⟨hp.mono _ (h.inS x hx).1, (h.inS x hx).2⟩
    · have hx' : x ∈ path := by simpa using hx
      exact ⟨(hin x hx').1, fun h0 => (hin x hx').2 (h.mono _ h0)⟩

/-- fuel left inside a loop -/
theorem Inv.pre {c : Ctx} {p : Pat} {E : String × String → Prop} {s0 : List String} {st : St} (h : Inv c p E s0 st) {k : Nat}
    (h0 : s0.Nodup) (hk : c.names.length < s0.length + k) {pos n : String} (hf : n ∉ st.searched) (hs : Sound c p (pos, n)) :
    Pre c p k pos n st.searched := by
  refine ⟨h.nodup, h.sub, hf, ?_, hs⟩
  have := (h0.subperm h.mono).length_le
  omega

/-- what a loop must establish -/
def LoopOK (c : Ctx) (p : Pat) (E : String × String → Prop) (s0 : List String) (r : Except PyErr St) : Prop :=
  r ≠ .error .recursion ∧ ∀ st, r = .ok st → Inv c p E s0 st

theorem LoopOK.ok {c : Ctx} {p : Pat} {E : String × String → Prop} {s0 : List String} {st : St} (h : Inv c p E s0 st) :
    LoopOK c p E s0 (.ok st) := ⟨by simp, fun st' e => by cases e; exact h⟩

theorem LoopOK.err {c : Ctx} {p : Pat} {E : String × String → Prop} {s0 : List String} {e : PyErr} (h : e ≠ .recursion) :
    LoopOK c p E s0 (.error e) := ⟨by simpa using h, fun st' e => by cases e⟩

variable {c : Ctx} {p : Pat} {E : String × String → Prop} {s0 : List String} {k : Nat} {rec : Rec}

theorem tryProducers_ok (hr : RecOK c p k rec) (h0 : s0.Nodup) (hk : c.names.length < s0.length + k) (next : Desc)
    (hnext : p.desc? next.name = some next) (want : Option Nat) (t : String) (ns : List String) (st : St) (hi : Inv c p E s0 st)
    (hE : ∀ n ∈ ns, ∀ nd, findNode c.g.nodemap n = some nd → FirstAt nd.output want t → E (next.name, n)) :
    LoopOK c p E s0 (tryProducers c rec next want t ns st) := by
  induction ns generalizing st with
  | nil => exact .ok hi
  | cons n ns ih =>
    have ih' := fun st hi => ih st hi (fun n hn => hE n (by simp [hn]))
    unfold tryProducers
    cases hf : findNode c.g.nodemap n with
    | none => exact .err (by decide)
    | some nd =>
      simp only []
      cases hp : portOk want nd.output t with
      | error e => exact .err (fun h => portOk_norec _ _ _ (h ▸ hp))
      | ok b =>
        cases b with
        | false => exact ih' _ (hi.setValid _)
        | true =>
          simp only []
          cases hn : next.isNode c.attrs nd with
          | error e => exact .err (fun h => isNode_norec _ _ _ (h ▸ hn))
          | ok b =>
            cases b with
            | false => exact ih' _ (hi.setValid _)
            | true =>
              simp only []
              split
              · exact ih' _ (hi.setValid _)
              · rename_i hs
                have hs' : n ∉ st.searched := by simpa using hs
                have hsound : Sound c p (next.name, n) := ⟨next, nd, hnext, hf, (isNode_iff hn).mp rfl⟩
                obtain ⟨a, b⟩ := hr _ _ _ (hi.pre h0 hk hs' hsound)
                cases hrec : rec next.name n st.searched with
                | error e => exact .err (fun h => a (h ▸ hrec))
                | ok x =>
                  obtain ⟨r, s⟩ := x
                  have hpost := b r s hrec
                  cases r with
                  | some path => exact .ok (hi.add hpost (hE n (by simp) nd hf (portOk_iff hp)))
                  | none => exact ih' _ (hi.fail hpost)

theorem tryConsumers_ok (hr : RecOK c p k rec) (h0 : s0.Nodup) (hk : c.names.length < s0.length + k) (next : Desc)
    (hnext : p.desc? next.name = some next) (want : Option Nat) (t : String) (brk : Bool) (ns : List String) (st : St) (hi : Inv c p E s0 st)
    (hE : ∀ n ∈ ns, ∀ nd, findNode c.g.nodemap n = some nd → FirstAt nd.input want t → E (next.name, n)) :
    LoopOK c p E s0 (tryConsumers c rec next want t brk ns st) := by
  induction ns generalizing st with
  | nil => exact .ok hi
  | cons n ns ih =>
    have ih' := fun st hi => ih st hi (fun n hn => hE n (by simp [hn]))
    unfold tryConsumers
    cases hf : findNode c.g.nodemap n with
    | none => exact .err (by decide)
    | some nd =>
      simp only []
      cases hp : portOk want nd.input t with
      | error e => exact .err (fun h => portOk_norec _ _ _ (h ▸ hp))
      | ok b =>
        cases b with
        | false => exact ih' _ hi
        | true =>
          simp only []
          cases hn : next.isNode c.attrs nd with
          | error e => exact .err (fun h => isNode_norec _ _ _ (h ▸ hn))
          | ok b =>
            cases b with
            | false => exact ih' _ hi
            | true =>
              simp only []
              split
              · split
                · exact .ok (hi.setValid _)
                · exact ih' _ (hi.setValid _)
              · rename_i hs
                have hs' : n ∉ st.searched := by simpa using hs
                have hsound : Sound c p (next.name, n) := ⟨next, nd, hnext, hf, (isNode_iff hn).mp rfl⟩
                obtain ⟨a, b⟩ := hr _ _ _ (hi.pre h0 hk hs' hsound)
                cases hrec : rec next.name n st.searched with
                | error e => exact .err (fun h => a (h ▸ hrec))
                | ok x =>
                  obtain ⟨r, s⟩ := x
                  have hpost := b r s hrec
                  cases r with
                  | some path => exact .ok (hi.add hpost (hE n (by simp) nd hf (portOk_iff hp)))
                  | none => exact ih' _ (hi.fail hpost)

theorem tryInputs_ok (hr : RecOK c p k rec) (h0 : s0.Nodup) (hk : c.names.length < s0.length + k) (next : Desc)
    (hnext : p.desc? next.name = some next) (want : Option Nat) (ts : List String) (st : St) (hi : Inv c p E s0 st)
    (hE : ∀ t ∈ ts, ∀ ps, c.g.producedby.get? t = some ps → ∀ n ∈ ps, ∀ nd, findNode c.g.nodemap n = some nd →
      FirstAt nd.output want t → E (next.name, n)) :
    LoopOK c p E s0 (tryInputs c rec next want ts st) := by
  induction ts generalizing st with
  | nil => exact .ok hi
  | cons t ts ih =>
    have ih' := fun st hi => ih st hi (fun t ht => hE t (by simp [ht]))
    unfold tryInputs
    cases hg : c.g.producedby.get? t with
    | none => exact ih' _ hi
    | some ps =>
      simp only []
      have h := tryProducers_ok hr h0 hk next hnext want t ps st hi (hE t (by simp) ps hg)
      cases hx : tryProducers c rec next want t ps st with
      | error e => exact .err (fun he => h.1 (he ▸ hx))
      | ok st' => exact ih' _ (h.2 st' hx)

theorem inPhase_ok (hr : RecOK c p k rec) (h0 : s0.Nodup) (hk : c.names.length < s0.length + k) (a : String × String) (d : Desc) (node : Node)
    (hd : p.desc? a.1 = some d) (hnode : findNode c.g.nodemap a.2 = some node) (pts : List Port) (hsub : ∀ x ∈ pts, x ∈ d.inport) (st : St)
    (hi : Inv c p (EdgeIn c p a) s0 st) : LoopOK c p (EdgeIn c p a) s0 (inPhase c p rec node pts st) := by
  induction pts generalizing st with
  | nil => exact .ok hi
  | cons pt pts ih =>
    have ih' := fun st hi => ih (fun x hx => hsub x (by simp [hx])) st hi
    unfold inPhase
    cases hn : p.desc? pt.pos with
    | none => exact .err (by decide)
    | some next =>
      have hname := desc_name hn
      have hnext : p.desc? next.name = some next := by rw [hname]; exact hn
      simp only []
      have key : LoopOK c p (EdgeIn c p a) s0 (inPort c rec next node pt st) := by
        unfold inPort
        have hmem := hsub pt (by simp)
        cases ho : pt.own with
        | none =>
          simp only []
          exact tryInputs_ok hr h0 hk next hnext _ _ st hi fun t ht ps hps n hns nd hnd hfa =>
            ⟨d, node, nd, pt, t, ps, hd, hnode, hnd, hmem, hname.symm, by rw [ho]; exact ht, hps, hns, hfa⟩
        | some i =>
          simp only []
          cases hi' : node.input[i]? with
          | none => exact .ok hi
          | some t =>
            simp only []
            cases hg : c.g.producedby.get? t with
            | none => exact .err (by decide)
            | some ps =>
              exact tryProducers_ok hr h0 hk next hnext _ _ _ st hi fun n hns nd hnd hfa =>
                ⟨d, node, nd, pt, t, ps, hd, hnode, hnd, hmem, hname.symm, by rw [ho]; exact hi', hg, hns, hfa⟩
      generalize inPort c rec next node pt st = r at key ⊢
      cases r with
      | error e => exact .err (fun he => key.1 (he ▸ rfl))
      | ok st' => exact ih' _ (key.2 st' rfl)

theorem tryOutput_ok (hr : RecOK c p k rec) (h0 : s0.Nodup) (hk : c.names.length < s0.length + k) (next : Desc)
    (hnext : p.desc? next.name = some next) (want : Option Nat) (brk : Bool) (t : String) (st : St) (hi : Inv c p E s0 st)
    (hE : ∀ cs, c.g.consumedby.get? t = some cs → (p.inplace = true → cs.length ≤ 1) → ∀ n ∈ cs, ∀ nd, findNode c.g.nodemap n = some nd →
      FirstAt nd.input want t → E (next.name, n)) :
    LoopOK c p E s0 (tryOutput c p rec next want brk t st) := by
  unfold tryOutput
  cases hg : c.g.consumedby.get? t with
  | none => exact .ok hi
  | some cs =>
    simp only []
    split
    · exact .ok hi
    · rename_i hc
      apply tryConsumers_ok hr h0 hk next hnext want t brk cs st hi
      apply hE cs hg
      intro hin
      by_contra hcon
      exact hc (by simp [hin]; omega)

theorem tryOutputs_ok (hr : RecOK c p k rec) (h0 : s0.Nodup) (hk : c.names.length < s0.length + k) (next : Desc)
    (hnext : p.desc? next.name = some next) (want : Option Nat) (ts : List String) (st : St) (hi : Inv c p E s0 st)
    (hE : ∀ t ∈ ts, ∀ cs, c.g.consumedby.get? t = some cs → (p.inplace = true → cs.length ≤ 1) → ∀ n ∈ cs, ∀ nd,
      findNode c.g.nodemap n = some nd → FirstAt nd.input want t → E (next.name, n)) :
    LoopOK c p E s0 (tryOutputs c p rec next want ts st) := by
  induction ts generalizing st with
  | nil => exact .ok hi
  | cons t ts ih =>
    have ih' := fun st hi => ih st hi (fun t ht => hE t (by simp [ht]))
    unfold tryOutputs
    split
    · exact .ok hi
    · have h := tryOutput_ok hr h0 hk next hnext want false t st hi (hE t (by simp))
      cases hx : tryOutput c p rec next want false t st with
      | error e => exact .err (fun he => h.1 (he ▸ hx))
      | ok st' => exact ih' _ (h.2 st' hx)

theorem outPhase_ok (hr : RecOK c p k rec) (h0 : s0.Nodup) (hk : c.names.length < s0.length + k) (a : String × String) (d : Desc) (node : Node)
    (hd : p.desc? a.1 = some d) (hnode : findNode c.g.nodemap a.2 = some node) (pts : List Port) (hsub : ∀ x ∈ pts, x ∈ d.outport) (st : St)
    (hi : Inv c p (EdgeOut c p a) s0 st) : LoopOK c p (EdgeOut c p a) s0 (outPhase c p rec node pts st) := by
  induction pts generalizing st with
  | nil => exact .ok hi
  | cons pt pts ih =>
    have ih' := fun st hi => ih (fun x hx => hsub x (by simp [hx])) st hi
    unfold outPhase
    cases hn : p.desc? pt.pos with
    | none => exact .err (by decide)
    | some next =>
      have hname := desc_name hn
      have hnext : p.desc? next.name = some next := by rw [hname]; exact hn
      simp only []
      have key : LoopOK c p (EdgeOut c p a) s0 (outPort c p rec next node pt st) := by
        unfold outPort
        have hmem := hsub pt (by simp)
        cases ho : pt.own with
        | none =>
          simp only []
          exact tryOutputs_ok hr h0 hk next hnext _ _ st hi fun t ht cs hcs hin n hns nd hnd hfa =>
            ⟨d, node, nd, pt, t, cs, hd, hnode, hnd, hmem, hname.symm, by rw [ho]; exact ht, hcs, hns, hfa, hin⟩
        | some i =>
          simp only []
          cases hi' : node.output[i]? with
          | none => exact .ok hi
          | some t =>
            exact tryOutput_ok hr h0 hk next hnext _ _ _ st hi fun cs hcs hin n hns nd hnd hfa =>
              ⟨d, node, nd, pt, t, cs, hd, hnode, hnd, hmem, hname.symm, by rw [ho]; exact hi', hcs, hns, hfa, hin⟩
      generalize outPort c p rec next node pt st = r at key ⊢
      cases r with
      | error e => exact .err (fun he => key.1 (he ▸ rfl))
      | ok st' => exact ih' _ (key.2 st' rfl)

theorem mem_erase_ne {l : List String} {a x : String} (h : x ∈ l) (hne : x ≠ a) : x ∈ l.erase a := (List.mem_erase_of_ne hne).mpr h

theorem searchNode_ok (c : Ctx) (p : Pat) (k : Nat) : RecOK c p k (searchNode c p k) := by
  induction k with
  | zero =>
    intro pos n s hp
    exfalso
    have := (hp.nodup.subperm hp.sub).length_le
    have := hp.fuel
    omega
  | succ k ih =>
    intro pos n s hp
    obtain ⟨d, node, hd, hnode, hholds⟩ := hp.sound
    have hnames := (findNode_mem hnode).1
    have h0 : (s ++ [n]).Nodup := by
      rw [List.nodup_append]
      refine ⟨hp.nodup, by simp, ?_⟩
      intro a ha b hb hab
      rw [List.mem_singleton.mp hb] at hab
      exact hp.fresh (hab ▸ ha)
    have hsub : ∀ x ∈ s ++ [n], x ∈ c.names := by
      intro x hx
      rcases List.mem_append.mp hx with hx | hx
      · exact hp.sub x hx
      · rw [List.mem_singleton.mp hx]; exact hnames
    have hk : c.names.length < (s ++ [n]).length + k := by
      have := hp.fuel
      simp only [List.length_append, List.length_cons, List.length_nil]; omega
    have hi0 : Inv c p (EdgeIn c p (pos, n)) (s ++ [n]) ⟨d.inport.isEmpty, [], s ++ [n]⟩ :=
      ⟨h0, hsub, fun x hx => hx, by simp, by simp, by simp⟩
    have hin := inPhase_ok ih h0 hk (pos, n) d node hd hnode d.inport (fun x hx => hx) _ hi0
    have fail : ∀ s' : List String, s'.Nodup → (∀ x ∈ s', x ∈ c.names) → (∀ x ∈ s ++ [n], x ∈ s') → Post c p pos n s none (s'.erase n) := by
      intro s' h1 h2 h3
      refine ⟨h1.erase n, fun x hx => h2 x (List.mem_of_mem_erase hx), ?_, by simp, by simp⟩
      intro x hx
      exact mem_erase_ne (h3 x (by simp [hx])) (fun e => hp.fresh (e ▸ hx))
    unfold searchNode
    simp only at hd hnode
    simp only [hd, hnode]
    cases hx : inPhase c p (searchNode c p k) node d.inport ⟨d.inport.isEmpty, [], s ++ [n]⟩ with
    | error e => exact ⟨fun h => hin.1 (by injection h with h; rw [hx, h]), fun r s' h => by cases h⟩
    | ok st =>
      have I1 := hin.2 st hx
      simp only []
      split
      · refine ⟨by simp, fun r s' h => ?_⟩
        cases h
        exact fail _ I1.nodup I1.sub I1.mono
      · have hk2 : c.names.length < st.searched.length + k := by
          have := (h0.subperm I1.mono).length_le
          omega
        have hi1 : Inv c p (EdgeOut c p (pos, n)) st.searched ⟨d.outport.isEmpty, [], st.searched⟩ :=
          ⟨I1.nodup, I1.sub, fun x hx => hx, by simp, by simp, by simp⟩
        have hout := outPhase_ok ih I1.nodup hk2 (pos, n) d node hd hnode d.outport (fun x hx => hx) _ hi1
        cases hy : outPhase c p (searchNode c p k) node d.outport ⟨d.outport.isEmpty, [], st.searched⟩ with
        | error e => exact ⟨fun h => hout.1 (by injection h with h; rw [hy, h]), fun r s' h => by cases h⟩
        | ok st2 =>
          have I2 := hout.2 st2 hy
          simp only []
          split
          swap
          · refine ⟨by simp, fun r s' h => ?_⟩
            cases h
            exact fail _ I2.nodup I2.sub (fun x hx => I2.mono x (I1.mono x hx))
          · refine ⟨by simp, fun r s' h => ?_⟩
            cases h
            have hroot : n ∈ st.searched := I1.mono n (by simp)
            refine ⟨I2.nodup, I2.sub, fun x hx => I2.mono x (I1.mono x (by simp [hx])), ?_, ?_⟩
            · intro path hpath
              cases hpath
              have sub1 : ∀ q ∈ st.paths, ∀ x ∈ q, x ∈ st.paths.flatten ++ [(pos, n)] ++ st2.paths.flatten := by
                intro q hq x hxq
                simp only [List.mem_append, List.mem_flatten]
                exact .inl (.inl ⟨q, hq, hxq⟩)
              have sub2 : ∀ q ∈ st2.paths, ∀ x ∈ q, x ∈ st.paths.flatten ++ [(pos, n)] ++ st2.paths.flatten := by
                intro q hq x hxq
                simp only [List.mem_append, List.mem_flatten]
                exact .inr ⟨q, hq, hxq⟩
              have lift : ∀ (q : Path) (root : String × String) (full : Path), (∀ x ∈ q, x ∈ full) → Genuine c p root q →
                  Link c p (pos, n) root → ∀ x ∈ q, Relation.ReflTransGen (fun a b => Link c p a b ∧ b ∈ full) (pos, n) x := by
                intro q root full hsub hg hl x hx
                refine Relation.ReflTransGen.head ⟨hl, hsub _ hg.root_mem⟩ ?_
                have hmono : (fun a b => Link c p a b ∧ b ∈ q) ≤ (fun a b => Link c p a b ∧ b ∈ full) := fun a b hab => ⟨hab.1, hsub b hab.2⟩
                exact Relation.ReflTransGen.mono hmono root x (hg.connected x hx)
              refine ⟨by simp, ?_, ?_, ?_⟩
              · intro x hx
                simp only [List.mem_append, List.mem_flatten, List.mem_singleton] at hx
                rcases hx with (⟨q, hq, hxq⟩ | rfl) | ⟨q, hq, hxq⟩
                · obtain ⟨root, _, hg⟩ := I1.paths q hq
                  exact hg.conditions x hxq
                · exact hp.sound
                · obtain ⟨root, _, hg⟩ := I2.paths q hq
                  exact hg.conditions x hxq
              · rw [List.map_append, List.map_append, List.nodup_append, List.nodup_append]
                refine ⟨⟨I1.distinct, by simp, ?_⟩, I2.distinct, ?_⟩
                · intro a ha b hb hab
                  obtain ⟨x, hxm, hxe⟩ := List.mem_map.mp ha
                  have hbn : b = n := by simpa using hb
                  exact (I1.inS x hxm).2 (by rw [hxe, hab, hbn]; simp)
                · intro a ha b hb hab
                  obtain ⟨y, hy, rfl⟩ := List.mem_map.mp hb
                  apply (I2.inS y hy).2
                  rw [← hab]
                  rcases List.mem_append.mp ha with ha | ha
                  · obtain ⟨x, hx, rfl⟩ := List.mem_map.mp ha
                    exact (I1.inS x hx).1
                  · have : a = n := by simpa using ha
                    rw [this]; exact hroot
              · intro x hx
                have hx' := hx
                simp only [List.mem_append, List.mem_flatten, List.mem_singleton] at hx
                rcases hx with (⟨q, hq, hxq⟩ | rfl) | ⟨q, hq, hxq⟩
                · obtain ⟨root, hE, hg⟩ := I1.paths q hq
                  exact lift q root _ (sub1 q hq) hg (.inl hE) x hxq
                · exact .refl
                · obtain ⟨root, hE, hg⟩ := I2.paths q hq
                  exact lift q root _ (sub2 q hq) hg (.inr hE) x hxq
            · intro path hpath x hx
              cases hpath
              simp only [List.mem_append, List.mem_singleton] at hx
              rcases hx with (hx | rfl) | hx
              · exact ⟨I2.mono _ (I1.inS x hx).1, fun hs => (I1.inS x hx).2 (by simp [hs])⟩
              · exact ⟨I2.mono _ hroot, hp.fresh⟩
              · exact ⟨(I2.inS x hx).1, fun hs => (I2.inS x hx).2 (I1.mono _ (by simp [hs]))⟩

/-! ## `search_pattern` -/

theorem mem_of_desc {p : Pat} {n : String} {d : Desc} (h : p.desc? n = some d) : n ∈ p.descs.map (·.name) := by
  have := desc_name h
  exact List.mem_map.mpr ⟨d, List.mem_of_find?_eq_some h, this⟩

theorem fill_aux (keys : List String) (path done : Path) (acc : List String) (hl : acc.length = keys.length)
    (hk : ∀ x ∈ path, x.1 ∈ keys)
    (hacc : ∀ i k s, keys[i]? = some k → keys.idxOf k = i → acc[i]? = some s → (k, s) ∈ done ∨ (s = "a" ∧ ∀ x ∈ done, x.1 ≠ k)) :
    (path.foldl (fun nodes v => nodes.set (keys.idxOf v.1) v.2) acc).length = keys.length ∧
    ∀ i k s, keys[i]? = some k → keys.idxOf k = i → (path.foldl (fun nodes v => nodes.set (keys.idxOf v.1) v.2) acc)[i]? = some s →
      (k, s) ∈ done ++ path ∨ (s = "a" ∧ ∀ x ∈ done ++ path, x.1 ≠ k) := by
  induction path generalizing done acc with
  | nil => rw [List.append_nil]; exact ⟨hl, hacc⟩
  | cons v path ih =>
    have h := ih (done ++ [v]) (acc.set (keys.idxOf v.1) v.2) (by simpa using hl) (fun x hx => hk x (by simp [hx])) (by
      intro i k s hik hidx hs
      by_cases hv : v.1 = k
      · have hlt : i < acc.length := by
          rw [hl]
          exact (List.getElem?_eq_some_iff.mp hik).1
        rw [hv, hidx, List.getElem?_set_self hlt] at hs
        cases hs
        left
        rw [← hv]; simp
      · have hne : keys.idxOf v.1 ≠ i := by
          intro h
          have h1 : keys[keys.idxOf v.1]? = some v.1 := by
            have hm := hk v (by simp)
            rw [List.getElem?_eq_getElem (List.idxOf_lt_length_iff.mpr hm)]
            simp
          rw [h, hik] at h1
          injection h1 with h1
          exact hv h1.symm
        rw [List.getElem?_set_ne hne] at hs
        rcases hacc i k s hik hidx hs with h | ⟨h1, h2⟩
        · left; simp [h]
        · right
          refine ⟨h1, ?_⟩
          intro x hx
          rcases List.mem_append.mp hx with hx | hx
          · exact h2 x hx
          · rw [List.mem_singleton.mp hx]; exact hv)
    simpa using h

theorem fill_presents {c : Ctx} {p : Pat} {path : Path} {root : String × String} (hn : (p.descs.map (·.name)).Nodup) (hg : Genuine c p root path) :
    Presents p path (fillPath (p.descs.map (·.name)) path) := by
  have h := fill_aux (p.descs.map (·.name)) path [] (List.replicate (p.descs.map (·.name)).length "a") (by simp)
    (fun x hx => by obtain ⟨d, n, h1, _⟩ := hg.conditions x hx; exact mem_of_desc h1)
    (fun i k s hk _ hs => by
      right
      rw [List.getElem?_replicate] at hs
      split at hs
      · cases hs; simp
      · cases hs)
  refine ⟨by unfold fillPath; simpa using h.1, ?_⟩
  intro i d s hd hs
  have hk : (p.descs.map (·.name))[i]? = some d.name := by simp [hd]
  have := h.2 i d.name s hk ?_ hs
  · simpa using this
  · obtain ⟨hlt, he⟩ := List.getElem?_eq_some_iff.mp hk
    rw [← he]
    exact hn.idxOf_getElem i hlt

theorem findNode_self {ns : List Node} (hn : (ns.map (·.name)).Nodup) {nd : Node} (h : nd ∈ ns) : findNode ns nd.name = some nd := by
  unfold findNode
  induction ns with
  | nil => cases h
  | cons a ns ih =>
    rw [List.map_cons, List.nodup_cons] at hn
    rcases List.mem_cons.mp h with rfl | h
    · simp
    · rw [List.find?_cons_of_neg]
      · exact ih hn.2 h
      · simp only [decide_eq_true_eq]
        intro he
        exact hn.1 (List.mem_map.mpr ⟨nd, h, he.symm⟩)

theorem searchAll_ok (c : Ctx) (p : Pat) (first : Desc) (rest : List Desc) (hp : p.descs = first :: rest)
    (hd : (p.descs.map (·.name)).Nodup) (hn : c.names.Nodup) (ns : List Node) (hsub : ∀ x ∈ ns, x ∈ c.g.nodemap) :
    searchAll c p first (c.g.nodemap.length + 1) ns ≠ .error .recursion ∧
    ∀ ms, searchAll c p first (c.g.nodemap.length + 1) ns = .ok ms → ∀ m ∈ ms,
      ∃ n path, n ∈ ns ∧ Genuine c p (first.name, n.name) path ∧ Presents p path m := by
  induction ns with
  | nil => exact ⟨by simp [searchAll], fun ms h m hm => by simp only [searchAll] at h; cases h; cases hm⟩
  | cons n ns ih =>
    have ih := ih (fun x hx => hsub x (by simp [hx]))
    have hf : p.desc? first.name = some first := by unfold Pat.desc?; rw [hp]; simp
    unfold searchAll
    cases hin : first.isNode c.attrs n with
    | error e => exact ⟨fun h => isNode_norec first c.attrs n (by injection h with h; rw [hin, h]), fun ms h => by cases h⟩
    | ok b =>
      cases b with
      | false =>
        refine ⟨ih.1, fun ms h m hm => ?_⟩
        obtain ⟨n', path, h1, h2⟩ := ih.2 ms h m hm
        exact ⟨n', path, by simp [h1], h2⟩
      | true =>
        simp only []
        have hpre : Pre c p (c.g.nodemap.length + 1) first.name n.name [] :=
          ⟨by simp, by simp, by simp, by simp [Ctx.names], first, n, hf, findNode_self hn (hsub n (by simp)), (isNode_iff hin).mp rfl⟩
        have hs := searchNode_ok c p (c.g.nodemap.length + 1) first.name n.name [] hpre
        cases hx : searchNode c p (c.g.nodemap.length + 1) first.name n.name [] with
        | error e => exact ⟨fun h => hs.1 (by injection h with h; rw [hx, h]), fun ms h => by cases h⟩
        | ok r =>
          obtain ⟨r, s'⟩ := r
          cases r with
          | none =>
            refine ⟨ih.1, fun ms h m hm => ?_⟩
            obtain ⟨n', path, h1, h2⟩ := ih.2 ms h m hm
            exact ⟨n', path, by simp [h1], h2⟩
          | some path =>
            simp only []
            cases hy : searchAll c p first (c.g.nodemap.length + 1) ns with
            | error e => exact ⟨fun h => ih.1 (by injection h with h; rw [hy, h]), fun ms h => by cases h⟩
            | ok ms' =>
              refine ⟨by simp, fun ms h m hm => ?_⟩
              injection h with h
              subst h
              rcases List.mem_cons.mp hm with rfl | hm
              · have hg := (hs.2 _ _ hx).genuine path rfl
                exact ⟨n, path, by simp, hg, fill_presents hd hg⟩
              · obtain ⟨n', path, h1, h2⟩ := ih.2 ms' hy m hm
                exact ⟨n', path, by simp [h1], h2⟩

end OnnxTool.Pattern
