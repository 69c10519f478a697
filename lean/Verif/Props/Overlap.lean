import Mathlib.Logic.Function.Iterate
import Mathlib.Data.List.Induction
import Mathlib.Data.List.TakeWhile
import Mathlib.Tactic.ByContra
import Verif.Spec.Overlap
import Verif.Proofs.Overlap
import Verif.Props.InferState
/-!
# C122: calls from several threads
-/
namespace OnnxTool.Props
open OnnxTool OnnxTool.Infer

/-- the steps of one call, `n` of them -/
private theorem after_done (S : Setup) (c : Call) : ∀ (n : Nat) (st : St) (p : Phase), Good st p →
    (∀ idx rb, p = .node rb idx → idx ≤ S.eng.nodes.length ∧ S.eng.nodes.length + 1 ≤ n + idx) → (∀ ch, p = .copy ch → S.eng.nodes.length + 2 ≤ n) → (p = .start → S.eng.nodes.length + 3 ≤ n) →
    (fun x : St × Phase => step S c x.1 x.2)^[n] (st, p) = ((finish S c st p).1, .done (finish S c st p).2) := by
  intro n
  induction n with
  | zero =>
    intro st p _ h1 h2 h3
    cases p with
    | start => have := h3 rfl; omega
    | copy ch => have := h2 ch rfl; omega
    | done r => rfl
    | node rb idx => 
      have := h1 idx rb rfl
      omega
  | succ n ih =>
    intro st p hg h1 h2 h3
    rw [Function.iterate_succ, Function.comp]
    show (fun x : St × Phase => step S c x.1 x.2)^[n] ((step S c st p).1, (step S c st p).2) = _
    rw [← finish_step S c st p hg]
    refine ih _ _ (good_step S c st p hg) ?_ ?_ ?_
    · intro idx rb hp
      cases p with
      | start =>
        simp only [step] at hp
        split at hp
        · cases hp
        · split at hp <;> cases hp
      | copy ch =>
        have := h2 ch rfl
        have : idx = 0 := by
          simp only [step] at hp
          repeat' split at hp
          all_goals first | (cases hp; done) | (cases hp; rfl)
        omega
      | done r => cases hp
      | node rb' idx' =>
        have := h1 idx' rb' rfl
        have : idx = idx' + 1 ∧ idx' < S.eng.nodes.length := by
          simp only [step] at hp
          split at hp
          · cases hp
          · rename_i hn
            refine ⟨?_, (List.getElem?_eq_some_iff.mp hn).1⟩
            simp only [nodeStep] at hp
            repeat' split at hp
            all_goals first | (cases hp; done) | (cases hp; rfl)
        omega
    · intro ch hp
      cases p with
      | start => have := h3 rfl; omega
      | copy ch =>
        simp only [step] at hp
        repeat' split at hp
        all_goals cases hp
      | done r => cases hp
      | node rb' idx' =>
        simp only [step] at hp
        split at hp
        · cases hp
        · simp only [nodeStep] at hp
          repeat' split at hp
          all_goals cases hp
    · intro hp
      cases p with
      | start =>
        simp only [step] at hp
        repeat' split at hp
        all_goals cases hp
      | copy ch =>
        simp only [step] at hp
        repeat' split at hp
        all_goals cases hp
      | done r => cases hp
      | node rb' idx' =>
        simp only [step] at hp
        split at hp
        · cases hp
        · simp only [nodeStep] at hp
          repeat' split at hp
          all_goals cases hp

/-- **C122, one call.** A call whose steps are made without another thread between them ends, after at most three steps more than there are nodes, with the result and the state of the call of C47. -/
theorem C122_alone (S : Setup) (c : Call) (st : St) (n : Nat) (hn : S.eng.nodes.length + 3 ≤ n) :
    (fun x : St × Phase => step S c x.1 x.2)^[n] (st, .start) = ((call S st c).1, .done (call S st c).2) :=
  after_done S c n st .start trivial (fun _ _ h => by cases h) (fun _ h => by cases h) fun _ => hn

/-! ### schedules -/

private theorem step_not_start (S : Setup) (c : Call) (st : St) (p : Phase) : (step S c st p).2 ≠ .start := by
  intro hp
  cases p with
  | start =>
    simp only [step] at hp
    repeat' split at hp
    all_goals cases hp
  | copy ch =>
    simp only [step] at hp
    repeat' split at hp
    all_goals cases hp
  | done r => cases hp
  | node rb' idx' =>
    simp only [step] at hp
    split at hp
    · cases hp
    · simp only [nodeStep] at hp
      repeat' split at hp
      all_goals cases hp

private def cl (T : Nat → Nat × Call) (e : Nat) (l : List Nat) : List Call := (l.filter fun j => (T j).1 = e).map fun j => (T j).2

private structure Inv (S : Nat → Setup) (T : Nat → Nat × Call) (st0 : Nat → St) (w : Threads) (ord : List Nat) : Prop where
  nodup : ord.Nodup
  fresh : ∀ i, i ∉ ord → w.phase i = .start
  began : ∀ i ∈ ord, w.phase i ≠ .start
  ended : ∀ i a b r, ord = a ++ i :: b → w.phase i = .done r → r = (call (S (T i).1) (calls (S (T i).1) (st0 (T i).1) (cl T (T i).1 a)) (T i).2).2
  idle : ∀ e, (∀ i ∈ ord, (T i).1 = e → (w.phase i).Ended) → w.st e = calls (S e) (st0 e) (cl T e ord)
  busy : ∀ i, (w.phase i).Busy → ∃ a b, ord = a ++ i :: b ∧ (∀ j ∈ b, (T j).1 ≠ (T i).1) ∧ Good (w.st (T i).1) (w.phase i) ∧
    finish (S (T i).1) (T i).2 (w.st (T i).1) (w.phase i) = call (S (T i).1) (calls (S (T i).1) (st0 (T i).1) (cl T (T i).1 a)) (T i).2

private theorem phase_cases (p : Phase) : p = .start ∨ p.Busy ∨ ∃ r, p = .done r := by
  cases p with
  | start => exact .inl rfl
  | copy _ => exact .inr (.inl trivial)
  | node _ _ => exact .inr (.inl trivial)
  | done r => exact .inr (.inr ⟨r, rfl⟩)

private theorem cl_append (T : Nat → Nat × Call) (e : Nat) (a b : List Nat) : cl T e (a ++ b) = cl T e a ++ cl T e b := by simp [cl]
private theorem cl_other (T : Nat → Nat × Call) (e : Nat) (b : List Nat) (h : ∀ j ∈ b, (T j).1 ≠ e) : cl T e b = [] := by
  simp only [cl, List.map_eq_nil_iff, List.filter_eq_nil_iff, decide_eq_true_eq]
  exact h
private theorem cl_cons (T : Nat → Nat × Call) (i : Nat) (b : List Nat) : cl T (T i).1 (i :: b) = (T i).2 :: cl T (T i).1 b := by simp [cl]
private theorem calls_snoc (S : Setup) (st : St) (l : List Call) (c : Call) : calls S st (l ++ [c]) = (call S (calls S st l) c).1 := by simp [calls]

private theorem split_eq {i : Nat} {a b a' b' : List Nat} (hn : (a ++ i :: b).Nodup) (h : a ++ i :: b = a' ++ i :: b') : a = a' ∧ b = b' := by
  induction a generalizing a' with
  | nil =>
    cases a' with
    | nil => simp at h; exact ⟨rfl, h⟩
    | cons x a' =>
      simp only [List.nil_append, List.cons_append, List.cons.injEq] at h
      obtain ⟨rfl, h⟩ := h
      simp only [List.nil_append, List.nodup_cons] at hn
      exact absurd (by rw [h]; simp) hn.1
  | cons x a ih =>
    cases a' with
    | nil =>
      simp only [List.nil_append, List.cons_append, List.cons.injEq] at h
      obtain ⟨rfl, h⟩ := h
      simp at hn
    | cons y a' =>
      simp only [List.cons_append, List.cons.injEq] at h
      simp only [List.cons_append, List.nodup_cons] at hn
      obtain ⟨h1, h2⟩ := ih hn.2 h.2
      exact ⟨by rw [h.1, h1], h2⟩

/-- a thread that has begun, or begins, makes a step, while its engine is its own -/
private theorem inv_step {S : Nat → Setup} {T : Nat → Nat × Call} {st0 : Nat → St} {w : Threads} {ord : List Nat} (h : Inv S T st0 w ord) (i : Nat)
    (hl : ¬ (w.phase i).Ended → ∀ j, j ≠ i → (T j).1 = (T i).1 → ¬ (w.phase j).Busy) :
    Inv S T st0 (w.run S T i) (if i ∈ ord then ord else ord ++ [i]) := by
  generalize hr : step (S (T i).1) (T i).2 (w.st (T i).1) (w.phase i) = r
  have hrun : w.run S T i = { st := fun e => if e = (T i).1 then r.1 else w.st e, phase := fun j => if j = i then r.2 else w.phase j } := by
    unfold Threads.run
    rw [hr]
  rcases phase_cases (w.phase i) with hp | hp | ⟨v, hp⟩
  rotate_left
  rotate_left
  · -- the call has ended
    have hi : i ∈ ord := by
      by_contra hn
      rw [h.fresh i hn] at hp
      cases hp
    have hw : w.run S T i = w := by
      rw [hrun]
      rw [hp] at hr
      cases hr
      cases w with
      | mk st phase =>
        simp only at hp ⊢
        congr 1
        · funext e
          by_cases he : e = (T i).1
          · rw [if_pos he, he]; rfl
          · rw [if_neg he]
        · funext j
          by_cases hj : j = i
          · rw [if_pos hj, hj, hp]; rfl
          · rw [if_neg hj]
    rw [if_pos hi, hw]
    exact h
  all_goals
    have hne : ¬ (w.phase i).Ended := by
      first
        | (rw [hp]; exact fun h => h)
        | (intro he; cases hq : w.phase i with
            | start => rw [hq] at hp; exact hp
            | copy _ => rw [hq] at he; exact he
            | node _ _ => rw [hq] at he; exact he
            | done _ => rw [hq] at hp; exact hp)
    have hl := hl hne
    -- the thread, where it stands in the order, and what is left of its call
    have key : ∃ a b, (if i ∈ ord then ord else ord ++ [i]) = a ++ i :: b ∧ (∀ j ∈ b, (T j).1 ≠ (T i).1) ∧ Good (w.st (T i).1) (w.phase i) ∧
        finish (S (T i).1) (T i).2 (w.st (T i).1) (w.phase i) = call (S (T i).1) (calls (S (T i).1) (st0 (T i).1) (cl T (T i).1 a)) (T i).2 := by
      first
        | (have hi : i ∉ ord := fun hm => h.began i hm hp
           rw [if_neg hi]
           refine ⟨ord, [], rfl, by simp, by rw [hp]; trivial, ?_⟩
           have hst := h.idle (T i).1 (by
             intro j hj he
             rcases phase_cases (w.phase j) with hq | hq | ⟨v, hq⟩
             · exact absurd hq (h.began j hj)
             · exact absurd hq (hl j (fun e => hi (e ▸ hj)) he)
             · rw [hq]; trivial)
           rw [hp, ← hst]
           rfl)
        | (have hi : i ∈ ord := by
             by_contra hn
             rw [h.fresh i hn] at hp
             exact hp
           rw [if_pos hi]
           exact h.busy i hp)
    obtain ⟨a, b, ho, hb, hgood, hfin⟩ := key
    have hnd : (if i ∈ ord then ord else ord ++ [i]).Nodup := by
      split
      · exact h.nodup
      · rename_i hi
        rw [List.nodup_append]
        exact ⟨h.nodup, by simp, by intro x hx y hy; simp at hy; subst hy; exact fun e => hi (e ▸ hx)⟩
    have hmem : ∀ j, j ≠ i → (j ∈ (if i ∈ ord then ord else ord ++ [i]) ↔ j ∈ ord) := by
      intro j hj
      split
      · rfl
      · simp [hj]
    have hg' := good_step (S (T i).1) (T i).2 _ _ hgood
    have hf' := finish_step (S (T i).1) (T i).2 _ _ hgood
    rw [hr] at hg' hf'
    rw [hfin] at hf'
    have hns := step_not_start (S (T i).1) (T i).2 (w.st (T i).1) (w.phase i)
    rw [hr] at hns
    have hcle : ∀ e, e ≠ (T i).1 → cl T e (if i ∈ ord then ord else ord ++ [i]) = cl T e ord := by
      intro e he
      split
      · rfl
      · rw [cl_append, cl_other T e [i] (by simpa using fun h => he h.symm), List.append_nil]
    generalize ho' : (if i ∈ ord then ord else ord ++ [i]) = ord' at ho hnd hmem hcle ⊢
    have hpre : ∀ j a' b', j ≠ i → ord' = a' ++ j :: b' → ∃ b'', ord = a' ++ j :: b'' ∧ ∀ x ∈ b', x ∈ b'' ∨ x = i := by
      intro j a' b' hj hd
      rw [← ho'] at hd
      split at hd
      · exact ⟨b', hd, fun x hx => .inl hx⟩
      · rcases List.eq_nil_or_concat b' with rfl | ⟨b2, y, rfl⟩
        · have := (List.append_inj' hd rfl).2
          simp at this
          exact absurd this.symm hj
        · refine ⟨b2, ?_, ?_⟩
          · have h2 : ord ++ [i] = (a' ++ j :: b2) ++ [y] := by simpa using hd
            exact (List.append_inj' h2 rfl).1
          · have h2 : ord ++ [i] = (a' ++ j :: b2) ++ [y] := by simpa using hd
            have h3 := (List.append_inj' h2 rfl).2
            simp at h3
            intro x hx
            simp at hx
            rcases hx with hx | hx
            · exact .inl hx
            · exact .inr (by rw [hx, h3])
    rw [hrun]
    refine ⟨hnd, ?_, ?_, ?_, ?_, ?_⟩
    · intro j hj
      have hji : j ≠ i := by rintro rfl; exact hj (by rw [ho]; simp)
      show (if j = i then r.2 else w.phase j) = _
      rw [if_neg hji]
      exact h.fresh j fun hm => hj ((hmem j hji).mpr hm)
    · intro j hj
      show (if j = i then r.2 else w.phase j) ≠ _
      by_cases hji : j = i
      · rw [if_pos hji]; exact hns
      · rw [if_neg hji]; exact h.began j ((hmem j hji).mp hj)
    · intro j a' b' v hd hv
      replace hv : (if j = i then r.2 else w.phase j) = .done v := hv
      by_cases hji : j = i
      · subst hji
        rw [if_pos rfl] at hv
        obtain ⟨rfl, rfl⟩ := split_eq (ho ▸ hnd) (ho.symm.trans hd)
        rw [hv] at hf'
        exact congrArg Prod.snd hf'
      · rw [if_neg hji] at hv
        obtain ⟨b'', hd', _⟩ := hpre j a' b' hji hd
        exact h.ended j a' b'' v hd' hv
    · intro e he
      show (if e = (T i).1 then r.1 else w.st e) = _
      by_cases hee : e = (T i).1
      · rw [if_pos hee]
        subst hee
        have hend := he i (by rw [ho]; simp) rfl
        replace hend : (if i = i then r.2 else w.phase i).Ended := hend
        rw [if_pos rfl] at hend
        cases hq : r.2 with
        | start => rw [hq] at hend; exact hend.elim
        | copy _ => rw [hq] at hend; exact hend.elim
        | node _ _ => rw [hq] at hend; exact hend.elim
        | done v =>
          rw [hq] at hf'
          rw [ho, cl_append, cl_cons, cl_other T _ b hb, calls_snoc]
          exact congrArg Prod.fst hf'
      · rw [if_neg hee, hcle e hee]
        refine h.idle e fun j hj hje => ?_
        have hji : j ≠ i := by rintro rfl; exact hee hje.symm
        have := he j ((hmem j hji).mpr hj) hje
        replace this : (if j = i then r.2 else w.phase j).Ended := this
        rwa [if_neg hji] at this
    · intro j hj
      replace hj : (if j = i then r.2 else w.phase j).Busy := hj
      show ∃ a b, ord' = a ++ j :: b ∧ (∀ x ∈ b, (T x).1 ≠ (T j).1) ∧ Good (if (T j).1 = (T i).1 then r.1 else w.st (T j).1) (if j = i then r.2 else w.phase j) ∧
        finish (S (T j).1) (T j).2 (if (T j).1 = (T i).1 then r.1 else w.st (T j).1) (if j = i then r.2 else w.phase j) = call (S (T j).1) (calls (S (T j).1) (st0 (T j).1) (cl T (T j).1 a)) (T j).2
      by_cases hji : j = i
      · subst hji
        rw [if_pos rfl, if_pos rfl]
        exact ⟨a, b, ho, hb, hg', hf'⟩
      · rw [if_neg hji] at hj
        have hne : (T j).1 ≠ (T i).1 := fun e => hl j hji e hj
        rw [if_neg hne, if_neg hji]
        obtain ⟨a1, b1, h1, h2, h3, h4⟩ := h.busy j hj
        refine ⟨a1, if i ∈ ord then b1 else b1 ++ [i], ?_, ?_, h3, h4⟩
        · rw [← ho']
          split
          · exact h1
          · rw [h1]; simp
        · intro x hx
          split at hx
          · exact h2 x hx
          · simp at hx
            rcases hx with hx | rfl
            · exact h2 x hx
            · exact fun e => hne e.symm

private theorem inv_exec (S : Nat → Setup) (T : Nat → Nat × Call) (st0 : Nat → St) (sched : List Nat) (hl : Locked S T (ready st0) sched) :
    Inv S T st0 ((ready st0).exec S T sched) (begun sched) := by
  induction sched using List.reverseRecOn with
  | nil =>
    refine ⟨List.nodup_nil, fun _ _ => rfl, (fun _ h => by cases h), (fun i a b r h _ => ?_), (fun e _ => rfl), fun i h => False.elim h⟩
    have := congrArg List.length h
    simp [begun] at this
  | append_singleton l i ih =>
    have hl' : Locked S T (ready st0) l := by
      intro a j r he
      exact hl a j (r ++ [i]) (by rw [he]; simp)
    have := inv_step (ih hl') i (hl l i [] rfl)
    have hb : begun (l ++ [i]) = if i ∈ begun l then begun l else begun l ++ [i] := by
      unfold begun
      rw [List.foldl_append]
      simp only [List.foldl_cons, List.foldl_nil]
    rw [hb]
    have he : (ready st0).exec S T (l ++ [i]) = ((ready st0).exec S T l).run S T i := by simp [Threads.exec]
    rw [he]
    exact this

private theorem takeWhile_split (l : List Nat) (i : Nat) (h : i ∈ l) : ∃ b, l = l.takeWhile (· ≠ i) ++ i :: b := by
  induction l with
  | nil => cases h
  | cons x l ih =>
    by_cases hx : x = i
    · subst hx
      exact ⟨l, by simp⟩
    · rcases List.mem_cons.mp h with rfl | h
      · exact absurd rfl hx
      · obtain ⟨b, hb⟩ := ih h
        refine ⟨b, ?_⟩
        rw [List.takeWhile_cons_of_pos (by simpa using hx), List.cons_append, ← hb]

/-- **C122, calls that do not overlap.** Under every schedule of any number of threads and engines in which the calls on one engine do not overlap, each call that ends has the result of the call made alone after the calls
on its engine that began before it, in that order. -/
theorem C122_locked_partial (S : Nat → Setup) (T : Nat → Nat × Call) (st0 : Nat → St) (sched : List Nat) (hl : Locked S T (ready st0) sched) (i : Nat) (r : Except PyErr (Dict Bytes))
    (h : ((ready st0).exec S T sched).phase i = .done r) : r = (call (S (T i).1) (calls (S (T i).1) (st0 (T i).1) (earlierCalls T sched i)) (T i).2).2 := by
  have hi := inv_exec S T st0 sched hl
  have hm : i ∈ begun sched := by
    by_contra hn
    rw [hi.fresh i hn] at h
    cases h
  obtain ⟨b, hb⟩ := takeWhile_split _ i hm
  exact hi.ended i _ b r hb h

/-- **C122, an engine for each thread.** If every thread has its own engine, then under every schedule each call that ends has the result it has alone. -/
theorem C122_own_engines (S : Nat → Setup) (T : Nat → Nat × Call) (hT : ∀ i j, (T i).1 = (T j).1 → i = j) (st0 : Nat → St) (sched : List Nat) (i : Nat) (r : Except PyErr (Dict Bytes))
    (h : ((ready st0).exec S T sched).phase i = .done r) : r = (call (S (T i).1) (st0 (T i).1) (T i).2).2 := by
  have := C122_locked_partial S T st0 sched (fun l j r _ _ k hk he => absurd (hT k j he) hk) i r h
  have he : earlierCalls T sched i = [] := by
    simp only [earlierCalls, List.map_eq_nil_iff, List.filter_eq_nil_iff, decide_eq_true_eq]
    intro j hj e
    have := hT j i e
    subst this
    have := List.mem_takeWhile_imp hj
    simp at this
  rw [he] at this
  exact this

/-! ### The cases -/

/-- thread 0 calls with `x = a`, thread 1 with `x = b`; the others have engines of their own -/
def pair (a b : List UInt8) : Nat → Nat × Call
  | 0 => (0, demoCall a [0])
  | 1 => (0, demoCall b [0])
  | n + 2 => (n + 1, demoCall [] [0])

def demoReady : Threads := ready fun _ => demo.start zeroMem

/-- the hypotheses of `C122_locked_partial` are met: two calls on one engine, one after the other, while thread 2 works on another engine -/
example : Locked (fun _ => demo) (pair [1, 2] [5, 6]) demoReady [0, 0, 2, 0, 0, 1, 2, 1, 1, 1] ∧
    (demoReady.exec (fun _ => demo) (pair [1, 2] [5, 6]) [0, 0, 2, 0, 0, 1, 2, 1, 1, 1]).phase 1 = .done (.ok [("y", [6, 7])]) := by
  refine ⟨?_, rfl⟩
  intro l i r h _ j hj he
  have key : ∀ n, (pair [1, 2] [5, 6] (n + 2)).1 = n + 1 := fun n => rfl
  have hlen := congrArg List.length h
  simp only [List.length_append, List.length_cons, List.length_nil] at hlen
  have hl : l = [0, 0, 2, 0, 0, 1, 2, 1, 1, 1].take l.length := by rw [h]; simp
  have hi : [0, 0, 2, 0, 0, 1, 2, 1, 1, 1][l.length]? = some i := by rw [h]; simp
  generalize l.length = k at hlen hl hi
  have hj3 : (i = 0 ∧ j = 1) ∨ (i = 1 ∧ j = 0) := by
    have : i = 0 ∨ i = 1 ∨ i = 2 := by
      have := List.mem_of_getElem? hi
      simp at this
      omega
    rcases this with rfl | rfl | rfl
    · match j, hj, he with
      | 0, hj, _ => exact absurd rfl hj
      | 1, _, _ => exact .inl ⟨rfl, rfl⟩
      | n + 2, _, he => rw [key] at he; cases he
    · match j, hj, he with
      | 1, hj, _ => exact absurd rfl hj
      | 0, _, _ => exact .inr ⟨rfl, rfl⟩
      | n + 2, _, he => rw [key] at he; cases he
    · match j, hj, he with
      | 0, _, he => cases he
      | 1, _, he => cases he
      | n + 2, hj, he =>
        rw [key] at he
        have : n + 1 = 1 := he
        exact absurd (by omega) hj
  subst hl
  match k, hlen with
  | 0, _ => cases hi; rcases hj3 with ⟨_, rfl⟩ | ⟨h, _⟩ <;> first | exact id | cases h
  | 1, _ => cases hi; rcases hj3 with ⟨_, rfl⟩ | ⟨h, _⟩ <;> first | exact id | cases h
  | 2, _ => cases hi; rcases hj3 with ⟨h, _⟩ | ⟨h, _⟩ <;> cases h
  | 3, _ => cases hi; rcases hj3 with ⟨_, rfl⟩ | ⟨h, _⟩ <;> first | exact id | cases h
  | 4, _ => cases hi; rcases hj3 with ⟨_, rfl⟩ | ⟨h, _⟩ <;> first | exact id | cases h
  | 5, _ => cases hi; rcases hj3 with ⟨h, _⟩ | ⟨_, rfl⟩ <;> first | exact id | cases h
  | 6, _ => cases hi; rcases hj3 with ⟨h, _⟩ | ⟨h, _⟩ <;> cases h
  | 7, _ => cases hi; rcases hj3 with ⟨h, _⟩ | ⟨_, rfl⟩ <;> first | exact id | cases h
  | 8, _ => cases hi; rcases hj3 with ⟨h, _⟩ | ⟨_, rfl⟩ <;> first | exact id | cases h
  | 9, _ => cases hi; rcases hj3 with ⟨h, _⟩ | ⟨_, rfl⟩ <;> first | exact id | cases h
  | n + 10, h => omega

/-- **C122 (finding): overlapping calls.** Two threads on one engine, as in the window, which has no lock: a call returns the result of the other call; a call with three elements returns two; a call raises IndexError.  Alone
each returns its own result. -/
theorem C122_overlap_wrong :
    (demoReady.exec (fun _ => demo) (pair [1, 2] [5, 6]) [0, 0, 1, 1, 0, 0]).phase 0 = .done (.ok [("y", [6, 7])]) ∧
    (demoReady.exec (fun _ => demo) (pair [1, 2, 3] [5, 6]) [0, 1, 0, 0, 0]).phase 0 = .done (.ok [("y", [2, 3])]) ∧
    (demoReady.exec (fun _ => demo) (pair [1, 2] [5, 6]) [0, 0, 1, 1, 1]).phase 1 = .done (.error .indexError) ∧
    (demoReady.exec (fun _ => demo) (pair [1, 2] [5, 6]) [0, 0, 0, 0]).phase 0 = .done (.ok [("y", [2, 3])]) := ⟨rfl, rfl, rfl, rfl⟩

/-- `a = f(x)`, `y = f(a)` with `x, a, y : [n]`, `n ≤ 4`; one byte per element -/
def inferTwo : Setup where
  eng := ⟨[⟨"f", "Exp", ["x"], ["a"]⟩, ⟨"g", "Exp", ["a"], ["y"]⟩], ["y"], [("x", (0, 4)), ("a", (4, 4)), ("y", (8, 4)), ("z", (12, 1))], 1, []⟩
  inputDesc := [("x", [.var "n"])]
  ranged := ["n"]
  blocks := ["x", "a", "y", "z"]
  tm := [("x", ⟨[4], 1⟩), ("a", ⟨[4], 1⟩), ("y", ⟨[4], 1⟩), ("z", ⟨[1], 1⟩)]
  kern := fun _ => some fussyKernel
  se0 := ⟨[("n", 4)], [("x", [.var "n"]), ("a", [.var "n"]), ("y", [.var "n"]), ("z", [.num 1])], []⟩

/-- a call with three elements and one with two that overlap: the second begins when the first has run one node -/
def overlapping : Threads := (ready fun _ => inferTwo.start zeroMem).exec (fun _ => inferTwo) (pair [1, 2, 3] [5, 6]) [0, 0, 0, 1, 1, 0, 0, 1, 1, 1]

/-- the engine after them -/
def overlapped : St := overlapping.st 0

/-- **C122 (finding): the engine stays wrong.** After the two calls overlapped once (both returned), every later call with two elements, alone, runs the nodes with each other's tensors: it returns a result that is one call
behind, without an exception. -/
theorem C122_overlap_leaves_engine_wrong :
    (overlapping.phase 0).Ended ∧ overlapping.phase 1 = .done (.ok [("y", [7, 8])]) ∧
    (call inferTwo overlapped (demoCall [20, 30] [0])).2 ≠ .ok [("y", [22, 32])] ∧
    (call inferTwo (calls inferTwo overlapped [demoCall [20, 30] [0]]) (demoCall [70, 80] [0])).2 = .ok [("y", [22, 32])] ∧
    (call inferTwo (inferTwo.start zeroMem) (demoCall [70, 80] [0])).2 = .ok [("y", [72, 82])] := by
  refine ⟨trivial, rfl, ?_, rfl, rfl⟩
  intro h
  have e : (call inferTwo overlapped (demoCall [20, 30] [0])).2 = .ok [("y", [7, 8])] := rfl
  rw [e] at h
  cases h

end OnnxTool.Props
