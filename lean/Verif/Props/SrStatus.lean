import Verif.Model.SrStatus
import Mathlib.Data.List.Perm.Basic
/-!
# C127: the window says how its work ended
-/
namespace OnnxTool.Props
open OnnxTool OnnxTool.SrStatus

/-- the text of a step, if it has one -/
def actText : Act → List String
  | .show s => [s]
  | .post s => [s]
  | .postError s => [s]
  | .print => []
  | .unbind => []

/-- the texts of a thread's steps -/
def texts (p : List Act) : List String := p.flatMap actText

/-- all texts: on the screen or the console, waiting, and to come -/
def allTexts (w : Window) : List String := w.log.map (·.text) ++ (w.queue.map (·.text) ++ w.threads.flatMap fun t => texts t.todo)

private theorem flatMap_set {α β} (f : α → List β) : ∀ (l : List α) (i : Nat) (a b : α), l[i]? = some a → (x : List β) → (f a).Perm (x ++ f b) →
    (l.flatMap f).Perm (x ++ (l.set i b).flatMap f) := by
  intro l
  induction l with
  | nil => intro i a b h; cases h
  | cons c l ih =>
    intro i a b h x hp
    cases i with
    | zero =>
      cases h
      rw [List.set_cons_zero, List.flatMap_cons, List.flatMap_cons, ← List.append_assoc]
      exact hp.append_right _
    | succ i =>
      rw [List.set_cons_succ, List.flatMap_cons, List.flatMap_cons]
      refine ((ih i a b h x hp).append_left (f c)).trans ?_
      rw [← List.append_assoc, ← List.append_assoc]
      exact List.perm_append_comm.append_right _

private theorem step_texts (w : Window) (mv : Move) : (allTexts (step w mv)).Perm (allTexts w) := by
  cases mv with
  | none =>
    show (allTexts (mainLoop w)).Perm _
    unfold mainLoop
    split
    · exact List.Perm.refl _
    · rename_i c q hq
      unfold allTexts
      simp only [List.map_append, List.map_cons, List.map_nil, hq]
      rw [List.append_assoc]
      exact List.Perm.refl _
  | some i =>
    show (allTexts (match w.threads[i]? with | none => w | some t => act w i t)).Perm _
    cases ht : w.threads[i]? with
    | none => exact List.Perm.refl _
    | some t =>
      simp only []
      have key : ∀ (b : Thread) (x : List String), (texts t.todo).Perm (x ++ texts b.todo) →
          (w.threads.flatMap fun t => texts t.todo).Perm (x ++ (w.threads.set i b).flatMap fun t => texts t.todo) := fun b x hp =>
        flatMap_set (fun t => texts t.todo) w.threads i t b ht x hp
      unfold act
      split
      · exact List.Perm.refl _
      · rename_i s r hr
        have := key { t with todo := r } [s] (by rw [hr]; exact List.Perm.refl _)
        unfold allTexts
        simp only [List.map_append, List.map_cons, List.map_nil, List.append_assoc]
        refine List.Perm.append_left _ ?_
        refine List.Perm.trans ?_ (List.Perm.append_left _ this.symm)
        rw [← List.append_assoc, ← List.append_assoc]
        exact List.perm_append_comm.append_right _
      · rename_i s r hr
        have := key { t with todo := r } [s] (by rw [hr]; exact List.Perm.refl _)
        unfold allTexts
        simp only [List.map_append, List.map_cons, List.map_nil, List.append_assoc]
        exact List.Perm.append_left _ (List.Perm.append_left _ this.symm)
      · rename_i s r hr
        have := key { t with todo := r } [s] (by rw [hr]; exact List.Perm.refl _)
        unfold allTexts
        simp only [List.map_append, List.map_cons, List.map_nil, List.append_assoc]
        exact List.Perm.append_left _ (List.Perm.append_left _ this.symm)
      · rename_i r hr
        have := key { t with todo := r } [] (by rw [hr]; exact List.Perm.refl _)
        exact List.Perm.append_left _ (List.Perm.append_left _ this.symm)
      · rename_i r hr
        have := key { todo := r, bound := false } [] (by rw [hr]; exact List.Perm.refl _)
        exact List.Perm.append_left _ (List.Perm.append_left _ this.symm)

private theorem exec_texts (moves : List Move) (w : Window) : (allTexts (exec w moves)).Perm (allTexts w) := by
  unfold exec
  induction moves generalizing w with
  | nil => exact List.Perm.refl _
  | cons mv moves ih => exact (ih _).trans (step_texts w mv)

/-- a window whose threads are about to run these programs -/
def windowOf (ps : List (List Act)) : Window := { threads := ps.map fun p => { todo := p } }

/-- **However the threads and the main loop interleave: when all is done, every message of every thread has had its turn exactly once.** -/
theorem C127_every_message (ps : List (List Act)) (moves : List Move) (h : Finished (exec (windowOf ps) moves)) :
    ((exec (windowOf ps) moves).log.map (·.text)).Perm (ps.flatMap texts) := by
  have := exec_texts moves (windowOf ps)
  have h2 : allTexts (windowOf ps) = ps.flatMap texts := by
    unfold allTexts windowOf
    simp only [List.map_nil, List.nil_append, List.flatMap_map]
  have h3 : allTexts (exec (windowOf ps) moves) = (exec (windowOf ps) moves).log.map (·.text) := by
    unfold allTexts
    rw [h.1, List.flatMap_eq_nil_iff.mpr fun t ht => by rw [h.2 t ht]; rfl]
    simp
  rw [h2, h3] at this
  exact this

/-- a property of the log that every event added keeps -/
private theorem exec_log {P : Event → Prop} (h : ∀ w : Window, ∀ c ∈ w.queue, P ⟨usable w c, c.thread, c.text⟩) (h2 : ∀ s, P ⟨true, none, s⟩) :
    ∀ (moves : List Move) (w : Window), (∀ e ∈ w.log, P e) → ∀ e ∈ (exec w moves).log, P e := by
  intro moves
  induction moves with
  | nil => intro w hw; exact hw
  | cons mv moves ih =>
    intro w hw
    refine ih (step w mv) ?_
    cases mv with
    | none =>
      show ∀ e ∈ (mainLoop w).log, P e
      unfold mainLoop
      split
      · exact hw
      · rename_i c q hq
        intro e he
        rcases List.mem_append.mp he with he | he
        · exact hw e he
        · rw [List.mem_singleton.mp he]
          exact h w c (by rw [hq]; exact List.mem_cons_self)
    | some i =>
      show ∀ e ∈ (match w.threads[i]? with | none => w | some t => act w i t).log, P e
      cases w.threads[i]? with
      | none => exact hw
      | some t =>
        simp only []
        unfold act
        split
        · exact hw
        · intro e he
          rcases List.mem_append.mp he with he | he
          · exact hw e he
          · rw [List.mem_singleton.mp he]; exact h2 _
        all_goals exact hw

/-- **Only a message about an exception can fail to be shown:** what successful work says, and all progress, is shown in every schedule. -/
theorem C127_only_errors_fail (ps : List (List Act)) (moves : List Move) : ∀ e ∈ (exec (windowOf ps) moves).log, e.shown = false → e.thread ≠ none := by
  refine exec_log (P := fun e => e.shown = false → e.thread ≠ none) ?_ (fun _ h => by cases h) moves _ (fun e he => by cases he)
  intro w c _ h hc
  simp only [] at h hc
  unfold usable at h
  rw [hc] at h
  cases h

private theorem step_bound (w : Window) (mv : Move) (i : Nat) (h : (w.threads[i]?.map (·.bound)) = some false) : ((step w mv).threads[i]?.map (·.bound)) = some false := by
  cases mv with
  | none =>
    show ((mainLoop w).threads[i]?.map (·.bound)) = some false
    unfold mainLoop
    split <;> exact h
  | some j =>
    show ((match w.threads[j]? with | none => w | some t => act w j t).threads[i]?.map (·.bound)) = some false
    cases hj : w.threads[j]? with
    | none => exact h
    | some t =>
      simp only []
      have key : ∀ b : Thread, (t.bound = false → b.bound = false) → ((w.threads.set j b)[i]?.map (·.bound)) = some false := by
        intro b hb
        by_cases hij : j = i
        · subst hij
          rw [hj] at h
          have hlt : j < w.threads.length := (List.getElem?_eq_some_iff.mp hj).1
          rw [List.getElem?_set_self hlt]
          exact congrArg some (hb (by simpa using h))
        · rw [List.getElem?_set_ne hij]
          exact h
      unfold act
      split
      · exact h
      all_goals first | exact key _ (fun hb => hb) | exact key _ (fun _ => rfl)

/-- **Once the `except` branch of a thread has ended, its message is never shown any more, whatever happens then.** -/
theorem C127_too_late (w : Window) (i : Nat) (t : Thread) (ht : w.threads[i]? = some t) (hb : t.bound = false) (hl : ∀ e ∈ w.log, e.thread = some i → e.shown = false) (moves : List Move) :
    ∀ e ∈ (exec w moves).log, e.thread = some i → e.shown = false := by
  have hbound : (w.threads[i]?.map (·.bound)) = some false := by rw [ht]; exact congrArg some hb
  clear ht hb
  induction moves generalizing w with
  | nil => exact hl
  | cons mv moves ih =>
    refine ih (step w mv) ?_ (step_bound w mv i hbound)
    cases mv with
    | none =>
      show ∀ e ∈ (mainLoop w).log, e.thread = some i → e.shown = false
      unfold mainLoop
      split
      · exact hl
      · rename_i c q hq
        intro e he hei
        rcases List.mem_append.mp he with he | he
        · exact hl e he hei
        · rw [List.mem_singleton.mp he] at hei ⊢
          simp only [] at hei ⊢
          unfold usable
          rw [hei]
          simp only []
          cases ht : w.threads[i]? with
          | none => rfl
          | some t => rw [ht] at hbound; simpa using hbound
    | some j =>
      show ∀ e ∈ (match w.threads[j]? with | none => w | some t => act w j t).log, e.thread = some i → e.shown = false
      cases w.threads[j]? with
      | none => exact hl
      | some t =>
        simp only []
        unfold act
        split
        · exact hl
        · intro e he hei
          rcases List.mem_append.mp he with he | he
          · exact hl e he hei
          · rw [List.mem_singleton.mp he] at hei
            cases hei
        all_goals exact hl

/-! ## One thread -/

/-- the steps that show at once come first -/
def ShowsFirst : List Act → Prop
  | [] => True
  | .show _ :: r => ShowsFirst r
  | _ :: r => ∀ s, Act.show s ∉ r

private theorem showsFirst_of_none : ∀ {p : List Act}, (∀ s, Act.show s ∉ p) → ShowsFirst p
  | [], _ => trivial
  | .show s :: _, h => absurd List.mem_cons_self (h s)
  | .post _ :: _, h => fun s hs => h s (List.mem_cons_of_mem _ hs)
  | .postError _ :: _, h => fun s hs => h s (List.mem_cons_of_mem _ hs)
  | .print :: _, h => fun s hs => h s (List.mem_cons_of_mem _ hs)
  | .unbind :: _, h => fun s hs => h s (List.mem_cons_of_mem _ hs)

/-- one thread: what was said, what waits and what is to come are the program's texts in order -/
private def SoloInv (p : List Act) (w : Window) : Prop :=
  ∃ t, w.threads = [t] ∧ w.log.map (·.text) ++ (w.queue.map (·.text) ++ texts t.todo) = texts p ∧ ShowsFirst t.todo ∧ (w.queue ≠ [] → ∀ s, Act.show s ∉ t.todo)

private theorem solo_step (p : List Act) (w : Window) (mv : Move) (h : SoloInv p w) : SoloInv p (step w mv) := by
  obtain ⟨t, ht, h1, h2, h3⟩ := h
  cases mv with
  | none =>
    show SoloInv p (mainLoop w)
    unfold mainLoop
    split
    · exact ⟨t, ht, h1, h2, h3⟩
    · rename_i c q hq
      refine ⟨t, ht, ?_, h2, fun _ => h3 (by rw [hq]; exact List.cons_ne_nil _ _)⟩
      rw [hq] at h1
      simpa using h1
  | some i =>
    show SoloInv p (match w.threads[i]? with | none => w | some t => act w i t)
    cases i with
    | succ i => rw [ht]; exact ⟨t, ht, h1, h2, h3⟩
    | zero =>
      have : w.threads[0]? = some t := by rw [ht]; rfl
      rw [this]
      simp only []
      unfold act
      split
      · exact ⟨t, ht, h1, h2, h3⟩
      · rename_i s r hr
        have hq : w.queue = [] := by
          by_contra hne
          exact h3 hne s (by rw [hr]; exact List.mem_cons_self)
        rw [hr] at h1 h2
        refine ⟨{ t with todo := r }, by simp only [ht, List.set_cons_zero], ?_, h2, fun hne => absurd hq hne⟩
        rw [hq] at h1
        simp only [hq]
        simpa [texts, actText] using h1
      · rename_i s r hr
        rw [hr] at h1 h2
        refine ⟨{ t with todo := r }, by simp only [ht, List.set_cons_zero], ?_, showsFirst_of_none h2, fun _ => h2⟩
        simpa [texts, actText] using h1
      · rename_i s r hr
        rw [hr] at h1 h2
        refine ⟨{ t with todo := r }, by simp only [ht, List.set_cons_zero], ?_, showsFirst_of_none h2, fun _ => h2⟩
        simpa [texts, actText] using h1
      · rename_i r hr
        rw [hr] at h1 h2
        refine ⟨{ t with todo := r }, by simp only [ht, List.set_cons_zero], ?_, showsFirst_of_none h2, fun _ => h2⟩
        simpa [texts, actText] using h1
      · rename_i r hr
        rw [hr] at h1 h2
        refine ⟨⟨r, false⟩, by simp only [ht, List.set_cons_zero], ?_, showsFirst_of_none h2, fun _ => h2⟩
        simpa [texts, actText] using h1

/-- **One thread: its messages come in the order of its program, in every schedule.** -/
theorem C127_order (p : List Act) (hp : ShowsFirst p) (moves : List Move) (h : Finished (exec (windowOf [p]) moves)) :
    (exec (windowOf [p]) moves).log.map (·.text) = texts p := by
  have : ∀ (moves : List Move) (w : Window), SoloInv p w → SoloInv p (exec w moves) := by
    intro moves
    induction moves with
    | nil => intro w hw; exact hw
    | cons mv moves ih => intro w hw; exact ih _ (solo_step p w mv hw)
  obtain ⟨t, ht, h1, _, _⟩ := this moves (windowOf [p]) ⟨⟨p, true⟩, rfl, by simp [windowOf], hp, fun hne => absurd rfl hne⟩
  rw [h.1, h.2 t (by rw [ht]; exact List.mem_cons_self)] at h1
  simpa [texts] using h1

/-- the threads of an error message are those that post one -/
private theorem errors_from (p : List Act) (hp : ∀ s, Act.postError s ∉ p) (moves : List Move) : ∀ e ∈ (exec (windowOf [p]) moves).log, e.thread = none := by
  have : ∀ (moves : List Move) (w : Window), (∀ e ∈ w.log, e.thread = none) → (∀ c ∈ w.queue, c.thread = none) → (∀ t ∈ w.threads, ∀ s, Act.postError s ∉ t.todo) →
      ∀ e ∈ (exec w moves).log, e.thread = none := by
    intro moves
    induction moves with
    | nil => intro w hw _ _; exact hw
    | cons mv moves ih =>
      intro w hl hq ht
      cases mv with
      | none =>
        refine ih (mainLoop w) ?_ ?_ ?_ <;> unfold mainLoop <;> split
        · exact hl
        · rename_i c q hqq
          intro e he
          rcases List.mem_append.mp he with he | he
          · exact hl e he
          · rw [List.mem_singleton.mp he]
            exact hq c (by rw [hqq]; exact List.mem_cons_self)
        · exact hq
        · rename_i c q hqq
          exact fun c' hc' => hq c' (by rw [hqq]; exact List.mem_cons_of_mem _ hc')
        · exact ht
        · exact ht
      | some i =>
        show ∀ e ∈ (exec (match w.threads[i]? with | none => w | some t => act w i t) moves).log, e.thread = none
        cases hi : w.threads[i]? with
        | none => exact ih w hl hq ht
        | some t =>
          simp only []
          have htm := List.mem_of_getElem? hi
          have key : ∀ (a : Act) (r : List Act) (b : Bool), t.todo = a :: r → ∀ t' ∈ w.threads.set i ⟨r, b⟩, ∀ s, Act.postError s ∉ t'.todo := by
            intro a r b hr t' ht' s
            rcases List.mem_or_eq_of_mem_set ht' with h' | h'
            · exact ht t' h' s
            · rw [h']
              exact fun hs => ht t htm s (by rw [hr]; exact List.mem_cons_of_mem _ hs)
          unfold act
          split
          · exact ih w hl hq ht
          · rename_i s r hr
            refine ih _ (fun e he => ?_) hq (key _ r _ hr)
            rcases List.mem_append.mp he with he | he
            · exact hl e he
            · rw [List.mem_singleton.mp he]
          · rename_i s r hr
            refine ih _ hl (fun c hc => ?_) (key _ r _ hr)
            rcases List.mem_append.mp hc with hc | hc
            · exact hq c hc
            · rw [List.mem_singleton.mp hc]
          · rename_i s r hr
            exact absurd (by rw [hr]; exact List.mem_cons_self) (ht t htm s)
          · rename_i r hr
            exact ih _ hl hq (key _ r _ hr)
          · rename_i r hr
            exact ih _ hl hq (key _ r _ hr)
  exact this moves (windowOf [p]) (fun e he => by cases he) (fun c hc => by cases hc) (fun t ht s => by
    rw [List.mem_singleton.mp ht]; exact hp s)

/-- **Work that succeeds: in every schedule the status line ends with its last message, and all its messages were shown in order.** -/
theorem C127_success (p : List Act) (last : String) (hp : ShowsFirst p) (hne : ∀ s, Act.postError s ∉ p) (hlast : (texts p).getLast? = some last) (initial : String) (moves : List Move)
    (h : Finished (exec (windowOf [p]) moves)) :
    (exec (windowOf [p]) moves).log.map (fun e => (e.shown, e.text)) = (texts p).map (fun s => (true, s)) ∧ status initial (exec (windowOf [p]) moves) = last := by
  have hshown : ∀ e ∈ (exec (windowOf [p]) moves).log, e.shown = true := by
    intro e he
    by_contra hs
    exact C127_only_errors_fail [p] moves e he (by simpa using hs) (errors_from p hne moves e he)
  have ho := C127_order p hp moves h
  constructor
  · rw [← ho, List.map_map]
    exact List.map_congr_left fun e he => by
      show (e.shown, e.text) = (true, e.text)
      rw [hshown e he]
  · unfold status
    rw [List.filter_eq_self.mpr hshown, ← List.getLast?_map, ho, hlast]
    rfl

/-- the programs of the window's work that succeeds -/
theorem C127_successful_work (done : String) (progress : List String) (initial : String) (p : List Act) (last : String)
    (hp : (p = processOk done ∧ last = done) ∨ (p = profileOk ∧ last = "Profile done.") ∨ (p = batchOk progress done ∧ last = done)) (moves : List Move)
    (h : Finished (exec (windowOf [p]) moves)) : status initial (exec (windowOf [p]) moves) = last := by
  rcases hp with ⟨rfl, rfl⟩ | ⟨rfl, rfl⟩ | ⟨rfl, rfl⟩
  · exact (C127_success _ _ (by simp [ShowsFirst, processOk]) (by simp [processOk]) rfl initial moves h).2
  · exact (C127_success _ _ (by simp [ShowsFirst, profileOk]) (by simp [profileOk]) rfl initial moves h).2
  · refine (C127_success _ _ (showsFirst_of_none (by simp [batchOk])) (by simp [batchOk]) ?_ initial moves h).2
    unfold texts batchOk
    rw [List.flatMap_append]
    exact List.getLast?_concat

/-- Processing an image says what it is doing: first the enlarging, then the network, then the end. -/
theorem C127_process (done : String) (moves : List Move) (h : Finished (exec (windowOf [processOk done]) moves)) :
    (exec (windowOf [processOk done]) moves).log.map (fun e => (e.shown, e.text)) =
      [(true, "Processing (bicubic)..."), (true, "Processing (GraphInfer SR)..."), (true, done)] :=
  (C127_success _ done (by simp [ShowsFirst, processOk]) (by simp [processOk]) rfl "" moves h).1

/-- **A batch shows its files in order and then its end.** -/
theorem C127_batch (progress : List String) (done : String) (moves : List Move) (h : Finished (exec (windowOf [batchOk progress done]) moves)) :
    (exec (windowOf [batchOk progress done]) moves).log.map (fun e => (e.shown, e.text)) = (progress ++ [done]).map (fun s => (true, s)) := by
  have ht : texts (batchOk progress done) = progress ++ [done] := by
    unfold texts batchOk
    rw [List.flatMap_append, List.flatMap_map]
    show progress.flatMap (fun s => [s]) ++ [done] = _
    simp
  rw [(C127_success _ done (showsFirst_of_none (by simp [batchOk])) (by simp [batchOk]) (by rw [ht]; exact List.getLast?_concat) "" moves h).1, ht]

/-! ## Work that fails -/

/-- what a step queues, if it is of thread 0 -/
def queuedBy : Act → List Callback
  | .post s => [⟨none, s⟩]
  | .postError s => [⟨some 0, s⟩]
  | _ => []

/-- what a step shows at once -/
def shownBy : Act → List Event
  | .show s => [⟨true, none, s⟩]
  | _ => []

/-- the whole thread first, then the main loop -/
private theorem exec_thread : ∀ (p : List Act) (q : List Callback) (l : List Event) (b : Bool),
    exec ⟨q, [⟨p, b⟩], l⟩ (List.replicate p.length (some 0)) =
      ⟨q ++ p.flatMap queuedBy,
       [⟨[], b && !p.contains .unbind⟩], l ++ p.flatMap shownBy⟩ := by
  intro p
  induction p with
  | nil => intro q l b; simp [exec]
  | cons a p ih =>
    intro q l b
    show exec (step ⟨q, [⟨a :: p, b⟩], l⟩ (some 0)) (List.replicate p.length (some 0)) = _
    cases a with
    | «show» s => rw [show (Act.show s :: p).contains .unbind = p.contains .unbind from rfl]; refine (ih q (l ++ [⟨true, none, s⟩]) b).trans ?_; simp [queuedBy, shownBy]
    | post s => rw [show (Act.post s :: p).contains .unbind = p.contains .unbind from rfl]; refine (ih (q ++ [⟨none, s⟩]) l b).trans ?_; simp [queuedBy, shownBy]
    | postError s => rw [show (Act.postError s :: p).contains .unbind = p.contains .unbind from rfl]; refine (ih (q ++ [⟨some 0, s⟩]) l b).trans ?_; simp [queuedBy, shownBy]
    | print => refine (ih q l b).trans ?_; simp [queuedBy, shownBy]
    | unbind => refine (ih q l false).trans ?_; simp [queuedBy, shownBy]

private theorem exec_drain : ∀ (q : List Callback) (t : Thread) (l : List Event),
    exec ⟨q, [t], l⟩ (List.replicate q.length none) = ⟨[], [t], l ++ q.map fun c => ⟨usable ⟨[], [t], []⟩ c, c.thread, c.text⟩⟩ := by
  intro q
  induction q with
  | nil => intro t l; simp [exec]
  | cons c q ih =>
    intro t l
    show exec ⟨q, [t], l ++ [⟨usable ⟨c :: q, [t], l⟩ c, c.thread, c.text⟩]⟩ (List.replicate q.length none) = _
    rw [ih]
    simp [usable]

/-- **Opening an image that fails: with one schedule the window shows the error, with another the status line stays at the work that never ended, and the error is nowhere in the window.** -/
theorem C127_error_lost (bicubic : Bool) (e initial : String) :
    (∃ moves, Finished (exec (windowOf [processFails bicubic e]) moves) ∧ status initial (exec (windowOf [processFails bicubic e]) moves) = "Error: " ++ e) ∧
    (∃ moves, Finished (exec (windowOf [processFails bicubic e]) moves) ∧
      status initial (exec (windowOf [processFails bicubic e]) moves) = (if bicubic then "Processing (bicubic)..." else "Processing (GraphInfer SR)...") ∧
      ∀ ev ∈ (exec (windowOf [processFails bicubic e]) moves).log, ev.text = "Error: " ++ e → ev.shown = false ∨ ev.thread = none) := by
  cases bicubic with
  | true =>
    refine ⟨⟨[some 0, some 0, none, some 0, some 0], ⟨rfl, fun t ht => by rw [List.mem_singleton.mp ht]⟩, rfl⟩,
      ⟨[some 0, some 0, some 0, some 0, none], ⟨rfl, fun t ht => by rw [List.mem_singleton.mp ht]⟩, rfl, ?_⟩⟩
    intro ev hev _
    rcases List.mem_cons.mp hev with rfl | hev
    · exact .inr rfl
    · rw [List.mem_singleton.mp hev]; exact .inl rfl
  | false =>
    refine ⟨⟨[some 0, some 0, some 0, none, some 0, some 0], ⟨rfl, fun t ht => by rw [List.mem_singleton.mp ht]⟩, rfl⟩,
      ⟨[some 0, some 0, some 0, some 0, some 0, none], ⟨rfl, fun t ht => by rw [List.mem_singleton.mp ht]⟩, rfl, ?_⟩⟩
    intro ev hev _
    rcases List.mem_cons.mp hev with rfl | hev
    · exact .inr rfl
    rcases List.mem_cons.mp hev with rfl | hev
    · exact .inr rfl
    · rw [List.mem_singleton.mp hev]; exact .inl rfl

/-- **A batch of any length that fails: if the thread ends before the main loop runs its callbacks, the files are shown and the error is not.** -/
theorem C127_batch_error_lost (progress : List String) (e : String) : ∃ moves, Finished (exec (windowOf [batchFails progress e]) moves) ∧
    (exec (windowOf [batchFails progress e]) moves).log.map (fun ev => (ev.shown, ev.text)) = progress.map (fun s => (true, s)) ++ [(false, "Batch error: " ++ e)] := by
  refine ⟨List.replicate (batchFails progress e).length (some 0) ++ List.replicate (progress.length + 1) none, ?_⟩
  have hs : exec (windowOf [batchFails progress e]) (List.replicate (batchFails progress e).length (some 0) ++ List.replicate (progress.length + 1) none) =
      ⟨[], [⟨[], false⟩], (progress.map fun s => (⟨true, none, s⟩ : Event)) ++ [(⟨false, some 0, "Batch error: " ++ e⟩ : Event)]⟩ := by
    have h1 := exec_thread (batchFails progress e) [] [] true
    have hq : ([] ++ (batchFails progress e).flatMap queuedBy) =
        (progress.map fun s => (⟨none, s⟩ : Callback)) ++ [(⟨some 0, "Batch error: " ++ e⟩ : Callback)] := by
      unfold batchFails
      rw [List.flatMap_append, List.flatMap_map, List.nil_append]
      show (progress.flatMap fun s => [(⟨none, s⟩ : Callback)]) ++ _ = _
      rw [← List.map_eq_flatMap]
      rfl
    have hl : ([] ++ (batchFails progress e).flatMap shownBy) = [] := by
      unfold batchFails
      rw [List.flatMap_append, List.flatMap_map, List.nil_append]
      show (progress.flatMap fun _ => ([] : List Event)) ++ _ = _
      simp [shownBy]
    have hb : (true && !(batchFails progress e).contains Act.unbind) = false := by
      simp [batchFails]
    rw [hq, hl, hb] at h1
    have h2 := exec_drain ((progress.map fun s => (⟨none, s⟩ : Callback)) ++ [(⟨some 0, "Batch error: " ++ e⟩ : Callback)]) ⟨[], false⟩ []
    have hlen : ((progress.map fun s => (⟨none, s⟩ : Callback)) ++ [(⟨some 0, "Batch error: " ++ e⟩ : Callback)]).length = progress.length + 1 := by simp
    rw [hlen] at h2
    unfold exec at h1 h2 ⊢
    rw [List.foldl_append]
    refine (congrArg (fun w => List.foldl step w _) h1).trans (h2.trans ?_)
    simp [usable]
  rw [hs]
  refine ⟨⟨rfl, fun t ht => ?_⟩, by simp⟩
  rw [List.mem_singleton.mp ht]

/-- two threads in one window, finished: the first works, the second fails and is reported in time -/
example : Finished (exec (windowOf [processOk "Done", profileFails "no image"]) [some 1, some 0, none, some 0, some 1, some 0, none]) ∧
    status "" (exec (windowOf [processOk "Done", profileFails "no image"]) [some 1, some 0, none, some 0, some 1, some 0, none]) = "Done" := by
  unfold Finished
  decide +kernel

end OnnxTool.Props
