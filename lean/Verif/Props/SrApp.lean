import Verif.Proofs.SrApp
/-!
# C118 — the window of the super-resolution tool under every schedule of its threads
-/
namespace OnnxTool.Props
open OnnxTool OnnxTool.SrApp

variable {I R : Type}

/-- the paths opened in a history -/
def openedPaths (events : List Event) : List String := events.filterMap fun | .opens p => some p | .step _ => none

theorem from_run (t : Tool I R) (events : List Event) (paths : List String) (s : App I R) (h : From t paths s) : From t (paths ++ openedPaths events) (run t s events) := by
  induction events generalizing s paths with
  | nil => rw [run_nil]; simpa [openedPaths] using h
  | cons e rest ih =>
    rw [run_cons]
    cases e with
    | opens p =>
      have := ih _ _ (from_open t paths s h p)
      rw [List.append_assoc] at this
      exact this
    | step i => exact ih _ _ (from_step t paths s h i)

theorem run_last (t : Tool I R) (events : List Event) (s : App I R) :
    (run t s events).path = ((openedPaths events).getLast?.or s.path) ∧ (run t s events).img = (lastRead t events).or s.img := by
  induction events generalizing s with
  | nil => exact ⟨by simp [openedPaths, run_nil], by simp [lastRead, run_nil]⟩
  | cons e rest ih =>
    rw [run_cons]
    obtain ⟨h1, h2⟩ := ih (stepEvent t s e)
    rw [h1, h2]
    cases e with
    | step i =>
      obtain ⟨a, b⟩ := step_img t s i
      refine ⟨?_, ?_⟩
      · show (openedPaths rest).getLast?.or (stepThread t s i).path = _
        rw [b]; rfl
      · show (lastRead t rest).or (stepThread t s i).img = _
        rw [a, lastRead]
        cases lastRead t rest <;> rfl
    | opens p =>
      refine ⟨?_, ?_⟩
      · have hp : (openImage t s p).path = some p := by unfold openImage; cases t.imread p <;> rfl
        show (openedPaths rest).getLast?.or (openImage t s p).path = ((p :: openedPaths rest).getLast?.or s.path)
        rw [hp]
        cases hr : openedPaths rest with
        | nil => rfl
        | cons a l => simp [List.getLast?_cons]
      · show (lastRead t rest).or (openImage t s p).img = _
        rw [lastRead]
        cases lastRead t rest with
        | some x => rfl
        | none =>
          unfold openImage
          cases t.imread p <;> rfl

/-- C118: after every history, under every schedule: the image is that of the last file that could be read, and each result is the result of some image that was opened (never a mixture) -/
theorem C118_provenance (t : Tool I R) (events : List Event) :
    let s := run t {} events
    s.path = (openedPaths events).getLast? ∧ s.img = lastRead t events ∧
    (∀ b, s.bicubic = some b → ∃ p ∈ openedPaths events, ∃ im, t.imread p = .ok im ∧ b = t.bicubic im) ∧
    (∀ r, s.sr = some r → ∃ p ∈ openedPaths events, ∃ im, t.imread p = .ok im ∧ t.process im = .ok r) := by
  obtain ⟨h1, h2⟩ := run_last t events ({} : App I R)
  have h0 : From t [] ({} : App I R) := ⟨fun _ h => (by cases h), fun c hc => (by simp at hc), fun _ h => (by cases h), fun _ h => (by cases h)⟩
  have hf := from_run t events [] {} h0
  rw [List.nil_append] at hf
  refine ⟨?_, ?_, hf.bicubic, hf.sr⟩
  · rw [h1]; simp
  · rw [h2]; simp

/-- C118: a thread ends after four steps at the latest: every schedule that gives each thread four steps leaves all of them ended -/
theorem C118_threads_end (t : Tool I R) (s : App I R) (events : List Event) (hn : NoOpen events) (h : ∀ i, i < s.threads.length → 4 ≤ events.count (.step i)) :
    Quiet (run t s events) := by
  intro c hc
  obtain ⟨i, hi, rfl⟩ := List.getElem_of_mem hc
  have hi' : i < s.threads.length := by rw [run_len t events hn s] at hi; exact hi
  obtain ⟨d, h1, h2⟩ := run_left t events s i _ (List.getElem?_eq_getElem hi')
  rw [List.getElem?_eq_getElem hi] at h1
  cases h1
  rw [← left_zero]
  have h4 : left s.threads[i] ≤ 4 := by cases s.threads[i] <;> simp [left]
  have := h i hi'
  omega

theorem new_thread_done (t : Tool I R) (s : App I R) (p : String) (im : I) (hp : t.imread p = .ok im) (events : List Event) (hn : NoOpen events) (hq : Quiet (run t s (.opens p :: events))) :
    (run t s (.opens p :: events)).threads[s.threads.length]? = some .done := by
  have hlen : (run t s (.opens p :: events)).threads.length = s.threads.length + 1 := by
    rw [run_cons, run_len t events hn]
    show (openImage t s p).threads.length = _
    unfold openImage
    rw [hp]
    simp
  have hlt : s.threads.length < (run t s (.opens p :: events)).threads.length := by omega
  rw [List.getElem?_eq_getElem hlt]
  exact congrArg some (hq _ (List.getElem_mem hlt))

/-- C118: an image is opened while no thread is inside the network; then, under every schedule of the threads, when all have ended and nothing else has been opened, the
window shows the image and its result (or, if the network failed on it, still the earlier result); if moreover no thread was inside the bicubic enlargement, it shows the bicubic enlargement of the image -/
theorem C118_result (t : Tool I R) (s : App I R) (p : String) (im : I) (hp : t.imread p = .ok im) (hrun : ∀ x, .running x ∉ s.threads)
    (events : List Event) (hn : NoOpen events) (hq : Quiet (run t s (.opens p :: events))) :
    let e := run t s (.opens p :: events)
    e.path = some p ∧ e.img = some im ∧ (∀ r, t.process im = .ok r → e.sr = some r) ∧ (∀ err, t.process im = .error err → e.sr = s.sr) ∧
    ((∀ x, .scaling x ∉ s.threads) → e.bicubic = some (t.bicubic im)) := by
  have h := follows_run t s im events hn _ (follows_start t s p im hp hrun)
  have hdone := new_thread_done t s p im hp events hn hq
  refine ⟨?_, h.img, ?_, h.srErr, fun hsc => ?_⟩
  · show (run t (openImage t s p) events).path = _
    rw [(run_img t events hn _).2]
    unfold openImage
    rw [hp]
  · intro r hr
    rcases h.srOk r hr with hs | ⟨_, hs⟩
    · exact hs
    · exact absurd hdone hs
  · have h' := scales_run t s im events hn _ (scales_start t s p im hp hsc)
    rcases h'.bic with hb | ⟨_, hb | ⟨x, hb⟩⟩
    · exact hb
    · have := hb.symm.trans hdone; cases this
    · have := hb.symm.trans hdone; cases this

theorem held_none {s : App I R} (hheld : ∀ c ∈ s.threads, held c = none) : (∀ x, .running x ∉ s.threads) ∧ ∀ x, .scaling x ∉ s.threads :=
  ⟨fun x hx => (by have := hheld _ hx; cases this), fun x hx => (by have := hheld _ hx; cases this)⟩

/-- C118: what Save writes then: the result and the comparison of the image that was opened, under its name -/
theorem C118_saved (t : Tool I R) (s : App I R) (p : String) (im : I) (r : R) (hp : t.imread p = .ok im) (hr : t.process im = .ok r) (hheld : ∀ c ∈ s.threads, held c = none)
    (events : List Event) (hn : NoOpen events) (hq : Quiet (run t s (.opens p :: events))) :
    save (run t s (.opens p :: events)) = some ⟨String.ofList (stem (SrEngine.basename p.toList)) ++ "_sr.png", r, some ⟨some im, r, t.bicubic im⟩⟩ := by
  obtain ⟨h1, h2, h4, _, h3⟩ := C118_result t s p im hp (held_none hheld).1 events hn hq
  unfold save
  simp only [h4 r hr, h1, h2, h3 (held_none hheld).2, Option.map_some]

/-- the step with which a thread stores its result, after all the others have ended -/
theorem last_writer (t : Tool I R) (s : App I R) (i : Nat) (old : I) (r : R) (hr : t.process old = .ok r) (hi : s.threads[i]? = some (.running old)) :
    ∃ events, NoOpen events ∧ Quiet (run t s events) ∧ (run t s events).sr = some r := by
  refine ⟨others s.threads.length i ++ [.step i], ?_, ?_, ?_⟩
  · intro p hp
    rcases List.mem_append.1 hp with hp | hp
    · exact others_noOpen _ _ p hp
    · simp at hp
  all_goals rw [run_append]
  all_goals have hkeep : (run t s (others s.threads.length i)).threads[i]? = some (.running old) := by
              rw [run_others_keep t i _ (others_mem _ i) s]; exact hi
  · intro c hc
    obtain ⟨j, hj, rfl⟩ := List.getElem_of_mem hc
    have hlen : (run t (run t s (others s.threads.length i)) [.step i]).threads.length = s.threads.length := by
      rw [run_len t _ (fun p hp => by simp at hp), run_len t _ (others_noOpen _ _)]
    have hj' : j < s.threads.length := by omega
    have hg := List.getElem?_eq_getElem hj
    by_cases hij : i = j
    · subst hij
      obtain ⟨d, h1, h2⟩ := run_left t [.step i] _ i _ hkeep
      rw [hg] at h1
      cases h1
      rw [← left_zero]
      simp [left] at h2
      exact h2
    · obtain ⟨d, h1, h2⟩ := run_left t (others s.threads.length i) s j _ (List.getElem?_eq_getElem hj')
      have h4 : left s.threads[j] ≤ 4 := by cases s.threads[j] <;> simp [left]
      have hc4 := count_others s.threads.length i j hj' (Ne.symm hij)
      have hd : d = .done := by rw [← left_zero]; omega
      subst hd
      have : (run t (run t s (others s.threads.length i)) [.step i]).threads[j]? = some .done := by
        show (stepThread t (run t s (others s.threads.length i)) i).threads[j]? = some .done
        rw [step_other t _ i j hij]; exact h1
      rw [hg] at this
      exact Option.some.inj this
  · show (stepThread t (run t s (others s.threads.length i)) i).sr = some r
    unfold stepThread
    rw [hkeep]
    simp only [hr]

/-- C118 (finding): if a thread is still working on an earlier image when the next one is opened, there is a schedule after which all threads have ended and the window shows the new image with the
result of the earlier one: this is what Save then writes, under the name of the new image -/
theorem C118_stale (t : Tool I R) (s : App I R) (i : Nat) (old im : I) (p : String) (r : R) (hp : t.imread p = .ok im) (hr : t.process old = .ok r)
    (hi : s.threads[i]? = some (.running old)) :
    ∃ events, NoOpen events ∧ let e := run t s (.opens p :: events)
      Quiet e ∧ e.path = some p ∧ e.img = some im ∧ e.sr = some r ∧
      (save e).map (fun x => (x.name, x.result)) = some (String.ofList (stem (SrEngine.basename p.toList)) ++ "_sr.png", r) := by
  have hi' : (openImage t s p).threads[i]? = some (.running old) := by
    unfold openImage
    rw [hp]
    simp only []
    rw [List.getElem?_append_left (List.getElem?_eq_some_iff.1 hi).1]
    exact hi
  obtain ⟨events, h1, h2, h3⟩ := last_writer t (openImage t s p) i old r hr hi'
  refine ⟨events, h1, ?_⟩
  obtain ⟨a, b⟩ := run_img t events h1 (openImage t s p)
  have hpth : (run t (openImage t s p) events).path = some p := by rw [b]; unfold openImage; rw [hp]
  refine ⟨h2, hpth, by show (run t (openImage t s p) events).img = _; rw [a]; unfold openImage; rw [hp], h3, ?_⟩
  show (save (run t (openImage t s p) events)).map _ = _
  unfold save
  simp only [h3, hpth, Option.map_some]

/-- C118: the exact condition: with a network that tells the images apart, the result shown at the end is right under every schedule if and only if no thread was inside the network
when the image was opened -/
theorem C118_safe_iff (t : Tool I R) (s : App I R) (p : String) (im : I) (r : R) (hp : t.imread p = .ok im) (hr : t.process im = .ok r)
    (hne : ∀ old, .running old ∈ s.threads → ∃ r', t.process old = .ok r' ∧ r' ≠ r) :
    (∀ events, NoOpen events → Quiet (run t s (.opens p :: events)) → (run t s (.opens p :: events)).sr = some r) ↔ ∀ old, .running old ∉ s.threads := by
  constructor
  · intro h old hold
    obtain ⟨r', hr', hd⟩ := hne old hold
    obtain ⟨i, hi, hi'⟩ := List.getElem_of_mem hold
    obtain ⟨events, hn, hq, _, _, hsr, _⟩ := C118_stale t s i old im p r' hp hr' (by rw [List.getElem?_eq_getElem hi, hi'])
    have := (h events hn hq).symm.trans hsr
    exact hd (Option.some.inj this).symm
  · intro h events hn hq
    exact (C118_result t s p im hp h events hn hq).2.2.1 r hr

/-- C118 (finding): if the network fails on an image, everything else goes on with it, but the result of the earlier image stays: Save writes it under the name of the new one -/
theorem C118_failure_keeps_old (t : Tool I R) (s : App I R) (p : String) (im : I) (err : PyErr) (r : R) (hp : t.imread p = .ok im) (hf : t.process im = .error err) (hs : s.sr = some r)
    (hheld : ∀ c ∈ s.threads, held c = none) (events : List Event) (hn : NoOpen events) (hq : Quiet (run t s (.opens p :: events))) :
    save (run t s (.opens p :: events)) = some ⟨String.ofList (stem (SrEngine.basename p.toList)) ++ "_sr.png", r, some ⟨some im, r, t.bicubic im⟩⟩ := by
  obtain ⟨h1, h2, _, h5, h3⟩ := C118_result t s p im hp (held_none hheld).1 events hn hq
  unfold save
  simp only [(h5 err hf).trans hs, h1, h2, h3 (held_none hheld).2, Option.map_some]

/-- C118 (finding): a file that cannot be read changes nothing but the name under which the earlier image's result is saved -/
theorem C118_unreadable_renames (t : Tool I R) (s : App I R) (p : String) (err : PyErr) (hp : t.imread p = .error err) (r : R) (hs : s.sr = some r) :
    stepEvent t s (.opens p) = { s with path := some p } ∧
    (save (stepEvent t s (.opens p))).map (fun x => (x.name, x.result)) = some (String.ofList (stem (SrEngine.basename p.toList)) ++ "_sr.png", r) := by
  have h : stepEvent t s (.opens p) = { s with path := some p } := by
    show openImage t s p = _
    unfold openImage
    rw [hp]
  refine ⟨h, ?_⟩
  rw [h]
  unfold save
  simp only [hs, Option.map_some]

/-! ## Examples -/

/-- images are numbers; 9 is too large for the network, 0 is no image -/
def demoTool : Tool Nat (String × Nat) where
  imread p := if p = "/pics/a.png" then .ok 1 else if p = "/pics/b.jpg" then .ok 2 else if p = "/pics/large.png" then .ok 9 else .error .valueError
  bicubic n := ("bicubic", n)
  process n := if n = 9 then .error .indexError else .ok ("sr", n)

/-- a result, and then a second image -/
example : save (run demoTool {} [.opens "/pics/a.png", .step 0, .step 0, .step 0, .step 0]) = some ⟨"a_sr.png", ("sr", 1), some ⟨some 1, ("sr", 1), ("bicubic", 1)⟩⟩ := by decide +kernel

/-- C118 (finding): the second image is opened while the network works on the first: all threads have ended, and the result of `a.png` is saved as `b_sr.png` -/
theorem C118_race :
    let e := run demoTool {} [.opens "/pics/a.png", .step 0, .step 0, .step 0, .opens "/pics/b.jpg", .step 1, .step 1, .step 1, .step 1, .step 0]
    (∀ c ∈ e.threads, c = .done) ∧ save e = some ⟨"b_sr.png", ("sr", 1), some ⟨some 2, ("sr", 1), ("bicubic", 2)⟩⟩ := by
  decide +kernel

/-- C118 (finding): likewise for the bicubic enlargement: the comparison shows three different things -/
theorem C118_race_bicubic :
    let e := run demoTool {} [.opens "/pics/a.png", .step 0, .opens "/pics/b.jpg", .step 1, .step 1, .step 0, .step 1, .step 1, .step 0, .step 0]
    (∀ c ∈ e.threads, c = .done) ∧ save e = some ⟨"b_sr.png", ("sr", 2), some ⟨some 2, ("sr", 2), ("bicubic", 1)⟩⟩ := by
  decide +kernel

/-- after `a.png`, an image that is too large and a file that is no image -/
example : (save (run demoTool {} [.opens "/pics/a.png", .step 0, .step 0, .step 0, .step 0, .opens "/pics/large.png", .step 1, .step 1, .step 1, .step 1])).map (fun x => (x.name, x.result))
    = some ("large_sr.png", ("sr", 1)) := by decide +kernel
example : (save (run demoTool {} [.opens "/pics/a.png", .step 0, .step 0, .step 0, .step 0, .opens "/pics/notes.txt"])).map (fun x => (x.name, x.result)) = some ("notes_sr.png", ("sr", 1)) := by decide +kernel
example : save (run demoTool {} [.opens "/pics/a.png", .step 0]) = none := by decide +kernel
example : String.ofList (stem "a.b.png".toList) = "a.b" ∧ String.ofList (stem "name".toList) = "name" ∧ String.ofList (stem ".png".toList) = ".png" ∧ String.ofList (stem "..png".toList) = "..png" := by decide +kernel

end OnnxTool.Props
