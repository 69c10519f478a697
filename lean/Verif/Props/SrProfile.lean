import Verif.Model.SrProfile
import Mathlib.Data.List.Nodup
/-!
# C132: the profile window shows the profile
-/
namespace OnnxTool.Props
open OnnxTool OnnxTool.SrProfile

/-- the threads of `order` run one after another, each to its end -/
def oneByOne (jobs : Nat → Job) (order : List Nat) : List Nat := order.flatMap fun i => List.replicate (program (jobs i)).length i

/-- what a job leaves on the console -/
def onConsole : Job → List String
  | .prints ls => ls
  | _ => []

/-- what the window of a job shows -/
def inWindow : Job → Option (List String)
  | .profile ls => some ls
  | _ => none

private theorem exec_append (s : St) (a b : List Nat) : exec s (a ++ b) = exec (exec s a) b := by
  unfold exec
  exact List.foldl_append

private theorem exec_step {s : St} {i : Nat} {a : Act} {r : List Act} (h : s.todo i = a :: r) (n : Nat) :
    exec s (List.replicate (n + 1) i) = exec (act { s with todo := Function.update s.todo i r } i a) (List.replicate n i) := by
  show exec (step s i) (List.replicate n i) = _
  unfold step
  rw [h]

/-- printing to the console -/
private theorem run_console (i : Nat) (r : List Act) : ∀ (ls : List String) (s : St), s.todo i = ls.map .print ++ r → s.stdout = .console →
    exec s (List.replicate ls.length i) = { s with console := s.console ++ ls, todo := Function.update s.todo i r } := by
  intro ls
  induction ls with
  | nil =>
    intro s h _
    have : Function.update s.todo i r = s.todo := by rw [← (show s.todo i = r from h)]; exact Function.update_eq_self _ _
    rw [this, List.append_nil]
    rfl
  | cons l ls ih =>
    intro s h hc
    rw [List.length_cons, exec_step (r := ls.map .print ++ r) h]
    unfold act
    simp only [hc]
    rw [ih _ (by simp) rfl]
    simp

/-- printing to a buffer -/
private theorem run_buffer (i j : Nat) (r : List Act) : ∀ (ls : List String) (s : St), s.todo i = ls.map .print ++ r → s.stdout = .buffer j →
    exec s (List.replicate ls.length i) = { s with buf := Function.update s.buf j (s.buf j ++ ls), todo := Function.update s.todo i r } := by
  intro ls
  induction ls with
  | nil =>
    intro s h _
    have : Function.update s.todo i r = s.todo := by rw [← (show s.todo i = r from h)]; exact Function.update_eq_self _ _
    rw [this, List.append_nil, Function.update_eq_self]
    rfl
  | cons l ls ih =>
    intro s h hc
    rw [List.length_cons, exec_step (r := ls.map .print ++ r) h]
    unfold act
    simp only [hc]
    rw [ih _ (by simp) rfl]
    simp

private theorem run_profile_in (o : Out) (i : Nat) (ls : List String) (tail : List Act) (s : St) (h : s.todo i = [.save, .redirect] ++ ls.map .print ++ (.restore :: tail))
    (hc : s.stdout = o) (hb : s.buf i = []) :
    exec s (List.replicate (ls.length + 3) i) = { s with old := Function.update s.old i o, buf := Function.update s.buf i ls, todo := Function.update s.todo i tail } := by
  have e : List.replicate (ls.length + 3) i = List.replicate (ls.length + 1 + 1 + 1) i := rfl
  have h' : s.todo i = .save :: .redirect :: (ls.map .print ++ (.restore :: tail)) := by rw [h]; simp
  rw [e, exec_step h', exec_step (a := .redirect) (r := ls.map .print ++ (.restore :: tail)) (by simp [act])]
  rw [List.replicate_succ', exec_append, run_buffer i i (.restore :: tail) ls _ (by simp [act]) (by simp [act])]
  show step _ i = _
  unfold step
  simp only [Function.update_self]
  simp [act, hc, hb]

private theorem run_profile (i : Nat) (ls : List String) (tail : List Act) (s : St) (h : s.todo i = [.save, .redirect] ++ ls.map .print ++ (.restore :: tail))
    (hc : s.stdout = .console) (hb : s.buf i = []) :
    exec s (List.replicate (ls.length + 3) i) = { s with old := Function.update s.old i .console, buf := Function.update s.buf i ls, todo := Function.update s.todo i tail } :=
  run_profile_in .console i ls tail s h hc hb

/-- a whole job, alone -/
private theorem run_job (j : Job) (i : Nat) (s : St) (h : s.todo i = program j) (hc : s.stdout = .console) (hb : s.buf i = []) :
    let t := exec s (List.replicate (program j).length i)
    t.stdout = .console ∧ t.console = s.console ++ onConsole j ∧ t.todo = Function.update s.todo i [] ∧
      (t.shown = match inWindow j with | some ls => Function.update s.shown i (some ls) | none => s.shown) ∧ ∀ k, k ≠ i → t.buf k = s.buf k := by
  intro t
  cases j with
  | prints ls =>
    have e : t = { s with console := s.console ++ ls, todo := Function.update s.todo i [] } := by
      show exec s (List.replicate (ls.map Act.print).length i) = _
      rw [List.length_map]
      exact run_console i [] ls s (by rw [h, List.append_nil]; rfl) hc
    rw [e]
    exact ⟨hc, rfl, rfl, rfl, fun _ _ => rfl⟩
  | profile ls =>
    have e : t = act { s with old := Function.update s.old i .console, buf := Function.update s.buf i ls, todo := Function.update (Function.update s.todo i [.collect]) i [] } i .collect := by
      show exec s (List.replicate ([Act.save, Act.redirect] ++ ls.map Act.print ++ [Act.restore, Act.collect]).length i) = _
      rw [show ([Act.save, Act.redirect] ++ ls.map Act.print ++ [Act.restore, Act.collect]).length = (ls.length + 3) + 1 by simp, List.replicate_succ', exec_append,
        run_profile i ls [.collect] s h hc hb]
      show step _ i = _
      unfold step
      simp only [Function.update_self]
    rw [e]
    refine ⟨hc, by simp [act, onConsole], by simp [act], by simp [act, inWindow], fun k hk => by simp [act, Function.update_of_ne hk]⟩
  | profileFails ls =>
    have e : t = { s with old := Function.update s.old i .console, buf := Function.update s.buf i ls, todo := Function.update s.todo i [] } := by
      show exec s (List.replicate ([Act.save, Act.redirect] ++ ls.map Act.print ++ [Act.restore]).length i) = _
      rw [show ([Act.save, Act.redirect] ++ ls.map Act.print ++ [Act.restore]).length = ls.length + 3 by simp]
      exact run_profile i ls [] s h hc hb
    rw [e]
    refine ⟨hc, by simp [onConsole], rfl, rfl, fun k hk => by simp [Function.update_of_ne hk]⟩

/-- **C132, one after another (partial).** Threads that run one after another, in any order, each at most once: the standard output is the console again, also after exceptions; every
window shows exactly its own report; the console has the lines of the printing threads, in the order in which they ran, and no line of a report.  Missing: threads that overlap, for which
it is false. -/
theorem C132_one_by_one_partial (jobs : Nat → Job) (order : List Nat) (hn : order.Nodup) :
    (exec (start jobs) (oneByOne jobs order)).stdout = .console ∧ (exec (start jobs) (oneByOne jobs order)).console = order.flatMap (fun i => onConsole (jobs i)) ∧
      (∀ i ∈ order, (exec (start jobs) (oneByOne jobs order)).todo i = [] ∧ (exec (start jobs) (oneByOne jobs order)).shown i = inWindow (jobs i)) ∧
      ∀ i, i ∉ order → (exec (start jobs) (oneByOne jobs order)).shown i = none := by
  have key : ∀ (order : List Nat) (s : St), order.Nodup → (∀ i ∈ order, s.todo i = program (jobs i) ∧ s.buf i = [] ∧ s.shown i = none) → s.stdout = .console →
      (exec s (oneByOne jobs order)).stdout = .console ∧ (exec s (oneByOne jobs order)).console = s.console ++ order.flatMap (fun i => onConsole (jobs i)) ∧
      (∀ i ∈ order, (exec s (oneByOne jobs order)).todo i = [] ∧ (exec s (oneByOne jobs order)).shown i = inWindow (jobs i)) ∧
      ∀ i, i ∉ order → (exec s (oneByOne jobs order)).todo i = s.todo i ∧ (exec s (oneByOne jobs order)).shown i = s.shown i := by
    intro order
    induction order with
    | nil => intro s _ _ hc; exact ⟨hc, by simp [oneByOne, exec], fun i hi => absurd hi (List.not_mem_nil), fun i _ => ⟨rfl, rfl⟩⟩
    | cons i order ih =>
      intro s hn hs hc
      obtain ⟨h1, h2, h3⟩ := hs i List.mem_cons_self
      obtain ⟨hni, hno⟩ := List.nodup_cons.mp hn
      obtain ⟨r1, r2, r3, r4, r5⟩ := run_job (jobs i) i s h1 hc h2
      have hsh : ∀ k, k ≠ i → (exec s (List.replicate (program (jobs i)).length i)).shown k = s.shown k := by
        intro k hk
        rw [r4]
        split
        · rw [Function.update_of_ne hk]
        · rfl
      have hshi : (exec s (List.replicate (program (jobs i)).length i)).shown i = inWindow (jobs i) := by
        rw [r4]
        cases e : inWindow (jobs i) with
        | none => exact h3
        | some ls => simp
      have e : exec s (oneByOne jobs (i :: order)) = exec (exec s (List.replicate (program (jobs i)).length i)) (oneByOne jobs order) := by
        unfold oneByOne
        rw [List.flatMap_cons, exec_append]
      rw [e]
      obtain ⟨q1, q2, q3, q4⟩ := ih (exec s (List.replicate (program (jobs i)).length i)) hno (fun k hk => by
        have hki : k ≠ i := fun h => hni (h ▸ hk)
        obtain ⟨a, b, c⟩ := hs k (List.mem_cons_of_mem _ hk)
        refine ⟨?_, ?_, ?_⟩
        · rw [r3, Function.update_of_ne hki]; exact a
        · rw [r5 k hki]; exact b
        · rw [hsh k hki]; exact c) r1
      refine ⟨q1, ?_, ?_, ?_⟩
      · rw [q2, r2, List.flatMap_cons, List.append_assoc]
      · intro k hk
        rcases List.mem_cons.mp hk with rfl | hk
        · obtain ⟨a, b⟩ := q4 k hni
          exact ⟨by rw [a, r3]; simp, by rw [b, hshi]⟩
        · exact q3 k hk
      · intro k hk
        have hki : k ≠ i := fun h => hk (h ▸ List.mem_cons_self)
        obtain ⟨a, b⟩ := q4 k fun h => hk (List.mem_cons_of_mem _ h)
        exact ⟨by rw [a, r3, Function.update_of_ne hki], by rw [b, hsh k hki]⟩
  obtain ⟨a, b, c, d⟩ := key order (start jobs) hn (fun i _ => ⟨rfl, rfl, rfl⟩) rfl
  exact ⟨a, b, c, fun i hi => (d i hi).2⟩

example : let jobs := fun i => if i = 0 then Job.profile ["Conv 1 ms", "Total 1 ms"] else if i = 1 then .profileFails ["Conv"] else .prints ["saved"]
    let s := exec (start jobs) (oneByOne jobs [1, 2, 0])
    s.stdout = .console ∧ s.console = ["saved"] ∧ s.shown 0 = some ["Conv 1 ms", "Total 1 ms"] ∧ s.shown 1 = none := by decide +kernel

/-- **C132, one inside the other (partial).** A profile that begins and ends while another prints its report does no harm, wherever in the report it falls: both windows are right, the
console is untouched and in use again.  It is the other kind of overlap that does: `C132_overlap_counterexample`. -/
theorem C132_nested_partial (a1 a2 b : List String) (jobs : Nat → Job) (h0 : jobs 0 = .profile (a1 ++ a2)) (h1 : jobs 1 = .profile b) :
    let t := exec (start jobs) (List.replicate (2 + a1.length) 0 ++ List.replicate (b.length + 4) 1 ++ List.replicate (a2.length + 2) 0)
    t.todo 0 = [] ∧ t.todo 1 = [] ∧ t.shown 0 = some (a1 ++ a2) ∧ t.shown 1 = some b ∧ t.console = [] ∧ t.stdout = .console := by
  intro t
  have p0 : program (jobs 0) = .save :: .redirect :: (a1.map .print ++ (a2.map .print ++ [.restore, .collect])) := by rw [h0]; simp [program]
  have p1 : program (jobs 1) = [.save, .redirect] ++ b.map .print ++ (.restore :: [.collect]) := by rw [h1]; simp [program]
  let s1 : St := { stdout := .buffer 0, old := Function.update (fun _ => .console) 0 .console, buf := Function.update (fun _ => []) 0 a1,
                   todo := Function.update (fun i => program (jobs i)) 0 (a2.map .print ++ [.restore, .collect]) }
  have e1 : exec (start jobs) (List.replicate (2 + a1.length) 0) = s1 := by
    rw [show 2 + a1.length = a1.length + 1 + 1 by omega, exec_step (a := .save) (r := .redirect :: (a1.map .print ++ (a2.map .print ++ [.restore, .collect]))) p0,
      exec_step (a := .redirect) (r := a1.map .print ++ (a2.map .print ++ [.restore, .collect])) (by simp [act]),
      run_buffer 0 0 (a2.map .print ++ [.restore, .collect]) a1 _ (by simp [act]) (by simp [act])]
    simp [act, start, s1]
  let s2 : St := { s1 with old := Function.update s1.old 1 (.buffer 0), buf := Function.update s1.buf 1 b, todo := Function.update s1.todo 1 [], shown := Function.update s1.shown 1 (some b) }
  have e2 : exec s1 (List.replicate (b.length + 4) 1) = s2 := by
    rw [show b.length + 4 = (b.length + 3) + 1 by omega, List.replicate_succ', exec_append,
      run_profile_in (.buffer 0) 1 b [.collect] s1 (by simpa [s1] using p1) rfl (by simp [s1])]
    show exec _ (List.replicate (0 + 1) 1) = _
    rw [exec_step (a := .collect) (r := []) (by simp)]
    simp [act, exec, s2]
  have e3 : exec s2 (List.replicate a2.length 0) = { s2 with buf := Function.update s2.buf 0 (s2.buf 0 ++ a2), todo := Function.update s2.todo 0 [.restore, .collect] } :=
    run_buffer 0 0 [.restore, .collect] a2 s2 (by simp [s2, s1]) rfl
  have e : t = exec (exec s2 (List.replicate a2.length 0)) (List.replicate (0 + 1 + 1) 0) := by
    show exec (start jobs) _ = _
    rw [exec_append, exec_append, e1, e2, List.replicate_add, exec_append]
  rw [e, e3, exec_step (a := .restore) (r := [.collect]) (by simp), exec_step (a := .collect) (r := []) (by simp [act])]
  simp [act, exec, s2, s1]

/-! ## Every line -/

/-- how often a line is on the console, in one of the first `n` buffers, or still to be printed by one of the first `n` threads -/
def occurrences (n : Nat) (x : String) (s : St) : Nat :=
  s.console.count x + ((List.range n).map fun j => (s.buf j).count x).sum + ((List.range n).map fun i => (s.todo i).count (.print x)).sum

private theorem sum_update {α : Type} (F : α → Nat) (f : Nat → α) (i : Nat) (b : α) : ∀ n, i < n →
    ((List.range n).map fun j => F (Function.update f i b j)).sum + F (f i) = ((List.range n).map fun j => F (f j)).sum + F b := by
  intro n
  induction n with
  | zero => intro h; omega
  | succ n ih =>
    intro h
    rw [List.range_succ]
    simp only [List.map_append, List.map_cons, List.map_nil, List.sum_append, List.sum_cons, List.sum_nil, Nat.add_zero]
    by_cases hi : i = n
    · subst hi
      have : ((List.range i).map fun j => F (Function.update f i b j)) = (List.range i).map fun j => F (f j) :=
        List.map_congr_left fun j hj => by rw [Function.update_of_ne (by have := List.mem_range.mp hj; omega)]
      rw [this, Function.update_self]
      omega
    · rw [Function.update_of_ne (fun h => hi h.symm)]
      have := ih (by omega)
      omega

/-- **C132, every line.** However the threads take turns: every line is on the console or in a buffer as often as it was printed; none is lost or doubled. -/
theorem C132_every_line (jobs : Nat → Job) (n : Nat) (moves : List Nat) (hm : ∀ i ∈ moves, i < n) (hd : ∀ i, i < n → (exec (start jobs) moves).todo i = []) (x : String) :
    (exec (start jobs) moves).console.count x + ((List.range n).map fun j => ((exec (start jobs) moves).buf j).count x).sum =
      ((List.range n).map fun i => (program (jobs i)).count (.print x)).sum := by
  have key : ∀ (moves : List Nat) (s : St), (∀ i ∈ moves, i < n) → (∀ j, s.stdout = .buffer j → j < n) → (∀ i j, s.old i = .buffer j → j < n) →
      occurrences n x (exec s moves) = occurrences n x s := by
    intro moves
    induction moves with
    | nil => intro s _ _ _; rfl
    | cons i moves ih =>
      intro s hm h1 h2
      have hi := hm i List.mem_cons_self
      have hm' := fun k hk => hm k (List.mem_cons_of_mem i hk)
      show occurrences n x (exec (step s i) moves) = _
      unfold step
      cases h : s.todo i with
      | nil => exact ih s hm' h1 h2
      | cons a r =>
        simp only
        have ht := sum_update (fun l : List Act => l.count (.print x)) s.todo i r n hi
        rw [h] at ht
        cases a with
        | save =>
          refine (ih (act { s with todo := Function.update s.todo i r } i .save) hm' h1 (fun k j e => ?_)).trans ?_
          · by_cases hk : k = i
            · subst hk
              simp only [act, Function.update_self] at e
              exact h1 j e
            · simp only [act, Function.update_of_ne hk] at e
              exact h2 k j e
          rw [List.count_cons_of_ne (by simp)] at ht
          simp only [occurrences, act]
          omega
        | redirect =>
          refine (ih (act { s with todo := Function.update s.todo i r } i .redirect) hm' (fun j e => by cases e; exact hi) h2).trans ?_
          rw [List.count_cons_of_ne (by simp)] at ht
          simp only [occurrences, act]
          omega
        | restore =>
          refine (ih (act { s with todo := Function.update s.todo i r } i .restore) hm' (fun j e => h2 i j e) h2).trans ?_
          rw [List.count_cons_of_ne (by simp)] at ht
          simp only [occurrences, act]
          omega
        | collect =>
          refine (ih (act { s with todo := Function.update s.todo i r } i .collect) hm' h1 h2).trans ?_
          rw [List.count_cons_of_ne (by simp)] at ht
          simp only [occurrences, act]
          omega
        | print l =>
          have hc : (Act.print l :: r).count (.print x) = r.count (.print x) + [l].count x := by
            by_cases hl : l = x
            · subst hl; simp
            · simp [hl]
          rw [hc] at ht
          have hcase : s.stdout = .console ∨ ∃ j, s.stdout = .buffer j := by
            cases s.stdout with
            | console => exact .inl rfl
            | buffer j => exact .inr ⟨j, rfl⟩
          rcases hcase with hs | ⟨j, hs⟩
          · have e : act { s with todo := Function.update s.todo i r } i (.print l) = { s with todo := Function.update s.todo i r, console := s.console ++ [l] } := by
              simp only [act, hs]
            rw [e]
            refine (ih { s with todo := Function.update s.todo i r, console := s.console ++ [l] } hm' h1 h2).trans ?_
            simp only [occurrences, List.count_append]
            omega
          · have hj := h1 j hs
            have e : act { s with todo := Function.update s.todo i r } i (.print l) =
                { s with todo := Function.update s.todo i r, buf := Function.update s.buf j (s.buf j ++ [l]) } := by
              simp only [act, hs]
            rw [e]
            refine (ih { s with todo := Function.update s.todo i r, buf := Function.update s.buf j (s.buf j ++ [l]) } hm' h1 h2).trans ?_
            have hb := sum_update (fun l : List String => l.count x) s.buf j (s.buf j ++ [l]) n hj
            simp only [List.count_append] at hb
            simp only [occurrences]
            omega
  have hk := key moves (start jobs) hm (fun j e => by cases e) (fun i j e => by cases e)
  have h0 : ((List.range n).map fun i => ((exec (start jobs) moves).todo i).count (Act.print x)).sum = 0 := by
    rw [List.map_congr_left (g := fun _ => 0) fun i hi => by rw [hd i (List.mem_range.mp hi)]; rfl]
    simp
  have h1 : ((List.range n).map fun j => ((start jobs).buf j).count x).sum = 0 := by simp [start]
  unfold occurrences at hk
  rw [h0, h1] at hk
  simpa [start] using hk

/-- **C132 finding, two clicks**: two profiles that overlap, whatever their reports: the first window is empty, the second shows the first one's report, the second report is printed on
the console, and the standard output stays in the first thread's buffer. -/
theorem C132_overlap_counterexample (a b : List String) (jobs : Nat → Job) (h0 : jobs 0 = .profile a) (h1 : jobs 1 = .profile b) :
    ∃ moves, (exec (start jobs) moves).todo 0 = [] ∧ (exec (start jobs) moves).todo 1 = [] ∧ (exec (start jobs) moves).shown 0 = some [] ∧ (exec (start jobs) moves).shown 1 = some a ∧
      (exec (start jobs) moves).console = b ∧ (exec (start jobs) moves).stdout = .buffer 0 := by
  have p0 : program (jobs 0) = .save :: .redirect :: (a.map .print ++ [.restore, .collect]) := by rw [h0]; simp [program]
  have p1 : program (jobs 1) = .save :: .redirect :: (b.map .print ++ [.restore, .collect]) := by rw [h1]; simp [program]
  let s4 : St := exec (start jobs) [0, 0, 1, 1]
  have hs4 : s4 = { stdout := .buffer 1, old := Function.update (Function.update (fun _ => .console) 0 .console) 1 (.buffer 0), todo := Function.update (Function.update (fun i => program (jobs i)) 0 (a.map .print ++ [.restore, .collect])) 1 (b.map .print ++ [.restore, .collect]) } := by
    have e0 : exec (start jobs) [0, 0] = { stdout := .buffer 0, old := Function.update (fun _ => .console) 0 .console, todo := Function.update (fun i => program (jobs i)) 0 (a.map .print ++ [.restore, .collect]) } := by
      show exec (start jobs) (List.replicate (0 + 1 + 1) 0) = _
      rw [exec_step (a := .save) (r := .redirect :: (a.map .print ++ [.restore, .collect])) p0, exec_step (a := .redirect) (r := a.map .print ++ [.restore, .collect]) (by simp [act])]
      simp [act, start, exec]
    show exec (exec (start jobs) [0, 0]) (List.replicate (0 + 1 + 1) 1) = _
    rw [e0, exec_step (a := .save) (r := .redirect :: (b.map .print ++ [.restore, .collect])) (by simpa using p1), exec_step (a := .redirect) (r := b.map .print ++ [.restore, .collect]) (by simp [act])]
    simp [act, exec]
  have r1 : exec s4 (List.replicate a.length 0) = { s4 with buf := Function.update s4.buf 1 (s4.buf 1 ++ a), todo := Function.update s4.todo 0 [.restore, .collect] } :=
    run_buffer 0 1 [.restore, .collect] a s4 (by rw [hs4]; simp) (by rw [hs4])
  let s5 : St := exec (exec s4 (List.replicate a.length 0)) [0, 0]
  have hs5 : s5 = { stdout := .console, old := Function.update (Function.update (fun _ => .console) 0 .console) 1 (.buffer 0), buf := Function.update (fun _ => []) 1 a, shown := Function.update (fun _ => none) 0 (some []), todo := Function.update (Function.update (Function.update (fun i => program (jobs i)) 0 (a.map .print ++ [.restore, .collect])) 1 (b.map .print ++ [.restore, .collect])) 0 [] } := by
    show exec (exec s4 (List.replicate a.length 0)) (List.replicate (0 + 1 + 1) 0) = _
    rw [r1, exec_step (a := .restore) (r := [.collect]) (by simp), exec_step (a := .collect) (r := []) (by simp [act])]
    rw [hs4]
    simp [act, exec]
  have r2 : exec s5 (List.replicate b.length 1) = { s5 with console := s5.console ++ b, todo := Function.update s5.todo 1 [.restore, .collect] } :=
    run_console 1 [.restore, .collect] b s5 (by rw [hs5]; simp) (by rw [hs5])
  refine ⟨[0, 0, 1, 1] ++ List.replicate a.length 0 ++ [0, 0] ++ List.replicate b.length 1 ++ [1, 1], ?_⟩
  have e : exec (start jobs) ([0, 0, 1, 1] ++ List.replicate a.length 0 ++ [0, 0] ++ List.replicate b.length 1 ++ [1, 1]) = exec (exec s5 (List.replicate b.length 1)) (List.replicate (0 + 1 + 1) 1) := by
    simp only [exec_append]
    rfl
  rw [e, r2, exec_step (a := .restore) (r := [.collect]) (by simp), exec_step (a := .collect) (r := []) (by simp [act])]
  rw [hs5]
  simp [act, exec]

/-- **C132 finding, the console stays silent**: once the standard output is left in a buffer and all that is still to come are prints, nothing reaches the console any more, whatever
prints and in whatever order. -/
theorem C132_silent (s : St) (j : Nat) (hs : s.stdout = .buffer j) (hp : ∀ i, ∀ x ∈ s.todo i, ∃ l, x = .print l) (moves : List Nat) :
    (exec s moves).console = s.console ∧ (exec s moves).stdout = .buffer j := by
  induction moves generalizing s with
  | nil => exact ⟨rfl, hs⟩
  | cons i moves ih =>
    show (exec (step s i) moves).console = _ ∧ (exec (step s i) moves).stdout = _
    cases h : s.todo i with
    | nil =>
      have e : step s i = s := by unfold step; rw [h]
      rw [e]
      exact ih s hs hp
    | cons x r =>
      obtain ⟨l, rfl⟩ := hp i x (by rw [h]; exact List.mem_cons_self)
      have e : step s i = { s with todo := Function.update s.todo i r, buf := Function.update s.buf j (s.buf j ++ [l]) } := by
        unfold step
        rw [h]
        simp only [act, hs]
      rw [e]
      refine ih _ hs ?_
      intro k y hy
      replace hy : y ∈ Function.update s.todo i r k := hy
      by_cases hk : k = i
      · subst hk
        rw [Function.update_self] at hy
        exact hp k y (by rw [h]; exact List.mem_cons_of_mem _ hy)
      · rw [Function.update_of_ne hk] at hy
        exact hp k y hy

/-- two clicks, then a thread that prints: its line never appears -/
example : let jobs := fun i => if i = 0 then Job.profile ["a"] else if i = 1 then .profile ["b"] else .prints ["saved"]
    let s := exec (start jobs) [0, 0, 1, 1, 0, 0, 0, 1, 1, 1]
    s.stdout = .buffer 0 ∧ s.todo 0 = [] ∧ s.todo 1 = [] ∧ s.todo 2 = [.print "saved"] ∧ (exec s [2]).console = ["b"] ∧ (exec s [2]).buf 0 = ["saved"] ∧
      (exec s [2]).shown 0 = some [] ∧ (exec s [2]).shown 1 = some ["a"] := by decide +kernel

/-- **C132 finding, foreign lines**: a line that another thread prints during a profile is in the window and not on the console. -/
theorem C132_foreign_line_counterexample (line : String) (jobs : Nat → Job) (h0 : jobs 0 = .profile []) (h1 : jobs 1 = .prints [line]) :
    (exec (start jobs) [0, 0, 1, 0, 0]).shown 0 = some [line] ∧ (exec (start jobs) [0, 0, 1, 0, 0]).console = [] ∧ (exec (start jobs) [0, 0, 1, 0, 0]).stdout = .console := by
  have p0 : program (jobs 0) = [.save, .redirect, .restore, .collect] := by rw [h0]; rfl
  have p1 : program (jobs 1) = [.print line] := by rw [h1]; rfl
  simp [exec, step, start, p0, p1, act]

end OnnxTool.Props
