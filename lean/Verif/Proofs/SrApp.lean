import Verif.Spec.SrApp
/-! # Lemmas about histories of the window -/
namespace OnnxTool.SrApp
open OnnxTool
variable {I R : Type}

theorem run_nil (t : Tool I R) (s : App I R) : run t s [] = s := rfl
theorem run_cons (t : Tool I R) (s : App I R) (e : Event) (l : List Event) : run t s (e :: l) = run t (stepEvent t s e) l := rfl
theorem run_append (t : Tool I R) (s : App I R) (l m : List Event) : run t s (l ++ m) = run t (run t s l) m := List.foldl_append

/-- after a readable file has been opened with no thread in the network, until the next one is opened -/
structure Follows (t : Tool I R) (s0 : App I R) (im : I) (s : App I R) : Prop where
  img : s.img = some im
  len : s.threads.length = s0.threads.length + 1
  holds : ∀ x, .running x ∈ s.threads → x = im
  srOk : ∀ r, t.process im = .ok r → s.sr = some r ∨ s.sr = s0.sr ∧ s.threads[s0.threads.length]? ≠ some .done
  srErr : ∀ e, t.process im = .error e → s.sr = s0.sr

/-- the same for the bicubic enlargement -/
structure Scales (t : Tool I R) (s0 : App I R) (im : I) (s : App I R) : Prop where
  img : s.img = some im
  len : s.threads.length = s0.threads.length + 1
  holds : ∀ x, .scaling x ∈ s.threads → x = im
  bic : s.bicubic = some (t.bicubic im) ∨ s.bicubic = s0.bicubic ∧ (s.threads[s0.threads.length]? = some .start ∨ ∃ x, s.threads[s0.threads.length]? = some (.scaling x))

theorem mem_set' {α : Type} (l : List α) (i : Nat) (a c : α) (h : c ∈ l.set i a) : c ∈ l ∨ c = a := List.mem_or_eq_of_mem_set h

theorem follows_start (t : Tool I R) (s : App I R) (p : String) (im : I) (hp : t.imread p = .ok im) (hheld : ∀ x, .running x ∉ s.threads) : Follows t s im (openImage t s p) := by
  unfold openImage
  rw [hp]
  refine ⟨rfl, by simp, ?_, fun r _ => .inr ⟨rfl, by simp⟩, fun _ _ => rfl⟩
  intro x hc
  rcases List.mem_append.1 hc with h | h
  · exact absurd h (hheld x)
  · rw [List.mem_singleton] at h; cases h

theorem scales_start (t : Tool I R) (s : App I R) (p : String) (im : I) (hp : t.imread p = .ok im) (hheld : ∀ x, .scaling x ∉ s.threads) : Scales t s im (openImage t s p) := by
  unfold openImage
  rw [hp]
  refine ⟨rfl, by simp, ?_, .inr ⟨rfl, .inl (by simp)⟩⟩
  intro x hc
  rcases List.mem_append.1 hc with h | h
  · exact absurd h (hheld x)
  · rw [List.mem_singleton] at h; cases h

theorem set_get (l : List (Pc I)) (i : Nat) (c : Pc I) (hc : l[i]? = some c) (j : Nat) (d : Pc I) : (l.set i d)[j]? = if i = j then some d else l[j]? := by
  rw [List.getElem?_set]
  split
  · rename_i e; subst e; rw [if_pos (List.getElem?_eq_some_iff.1 hc).1]
  · rfl

theorem follows_step (t : Tool I R) (s0 : App I R) (im : I) (s : App I R) (i : Nat) (h : Follows t s0 im s) : Follows t s0 im (stepThread t s i) := by
  unfold stepThread
  cases hc : s.threads[i]? with
  | none => exact h
  | some c =>
    have hmem : c ∈ s.threads := List.mem_of_getElem? hc
    have hg := set_get s.threads i c hc
    have hsr : ∀ d : Pc I, d ≠ .done → ∀ r, t.process im = .ok r → s.sr = some r ∨ s.sr = s0.sr ∧ (s.threads.set i d)[s0.threads.length]? ≠ some .done := by
      intro d hd r hr
      rcases h.srOk r hr with hs | ⟨hs, hs'⟩
      · exact .inl hs
      · refine .inr ⟨hs, ?_⟩
        rw [hg]
        split
        · simpa using hd
        · exact hs'
    have hh : ∀ d : Pc I, (∀ x, d = .running x → x = im) → ∀ x, .running x ∈ s.threads.set i d → x = im := by
      intro d hd x hx
      rcases mem_set' _ _ _ _ hx with hx | hx
      · exact h.holds x hx
      · exact hd x hx.symm
    cases c with
    | done => exact h
    | start =>
      simp only [h.img]
      exact ⟨rfl, by simpa using h.len, hh _ (fun x e => by cases e), hsr _ (by simp), h.srErr⟩
    | scaling x =>
      simp only []
      exact ⟨h.img, by simpa using h.len, hh _ (fun x e => by cases e), hsr _ (by simp), h.srErr⟩
    | ready =>
      simp only [h.img]
      exact ⟨rfl, by simpa using h.len, hh _ (fun x e => by cases e; rfl), hsr _ (by simp), h.srErr⟩
    | running x =>
      simp only []
      have hx : x = im := h.holds x hmem
      subst hx
      have hholds := hh .done (fun x e => by cases e)
      cases hr : t.process x with
      | error e => exact ⟨h.img, by simpa using h.len, hholds, fun r hr' => (by rw [hr] at hr'; cases hr'), h.srErr⟩
      | ok r =>
        refine ⟨h.img, by simpa using h.len, hholds, fun r' hr' => ?_, fun e he => ?_⟩
        · rw [hr] at hr'; cases hr'; exact .inl rfl
        · rw [hr] at he; cases he

theorem scales_step (t : Tool I R) (s0 : App I R) (im : I) (s : App I R) (i : Nat) (h : Scales t s0 im s) : Scales t s0 im (stepThread t s i) := by
  unfold stepThread
  cases hc : s.threads[i]? with
  | none => exact h
  | some c =>
    have hmem : c ∈ s.threads := List.mem_of_getElem? hc
    have hg := set_get s.threads i c hc
    have hlate : (∀ x, c ≠ .scaling x) → c ≠ .start → ∀ d : Pc I, s.bicubic = some (t.bicubic im) ∨ s.bicubic = s0.bicubic ∧
        ((s.threads.set i d)[s0.threads.length]? = some .start ∨ ∃ x, (s.threads.set i d)[s0.threads.length]? = some (.scaling x)) := by
      intro h1 h2 d
      rcases h.bic with hb | ⟨hb, hb'⟩
      · exact .inl hb
      · refine .inr ⟨hb, ?_⟩
        simp only [hg]
        split
        · rename_i e
          subst e
          rw [hc] at hb'
          rcases hb' with hb' | ⟨x, hb'⟩
          · exact absurd (Option.some.inj hb') h2
          · exact absurd (Option.some.inj hb') (h1 x)
        · exact hb'
    have hh : ∀ d : Pc I, (∀ x, d = .scaling x → x = im) → ∀ x, .scaling x ∈ s.threads.set i d → x = im := by
      intro d hd x hx
      rcases mem_set' _ _ _ _ hx with hx | hx
      · exact h.holds x hx
      · exact hd x hx.symm
    cases c with
    | done => exact h
    | start =>
      simp only [h.img]
      refine ⟨rfl, by simpa using h.len, hh _ (fun x e => by cases e; rfl), ?_⟩
      rcases h.bic with hb | ⟨hb, hb'⟩
      · exact .inl hb
      · refine .inr ⟨hb, ?_⟩
        simp only [hg]
        split
        · exact .inr ⟨im, rfl⟩
        · exact hb'
    | scaling x =>
      simp only []
      have hx : x = im := h.holds x hmem
      subst hx
      exact ⟨h.img, by simpa using h.len, hh _ (fun x e => by cases e), .inl rfl⟩
    | ready =>
      simp only [h.img]
      exact ⟨rfl, by simpa using h.len, hh _ (fun x e => by cases e), hlate (by simp) (by simp) _⟩
    | running x =>
      simp only []
      have hb := hlate (by simp) (by simp) .done
      cases t.process x with
      | error e => exact ⟨h.img, by simpa using h.len, hh _ (fun x e => by cases e), hb⟩
      | ok r => exact ⟨h.img, by simpa using h.len, hh _ (fun x e => by cases e), hb⟩

theorem follows_run (t : Tool I R) (s0 : App I R) (im : I) (events : List Event) (hn : NoOpen events) (s : App I R) (h : Follows t s0 im s) : Follows t s0 im (run t s events) := by
  induction events generalizing s with
  | nil => exact h
  | cons e rest ih =>
    rw [run_cons]
    refine ih (fun q hq => hn q (by simp [hq])) _ ?_
    cases e with
    | opens q => exact absurd (List.mem_cons_self) (hn q)
    | step i => exact follows_step t s0 im s i h

theorem scales_run (t : Tool I R) (s0 : App I R) (im : I) (events : List Event) (hn : NoOpen events) (s : App I R) (h : Scales t s0 im s) : Scales t s0 im (run t s events) := by
  induction events generalizing s with
  | nil => exact h
  | cons e rest ih =>
    rw [run_cons]
    refine ih (fun q hq => hn q (by simp [hq])) _ ?_
    cases e with
    | opens q => exact absurd (List.mem_cons_self) (hn q)
    | step i => exact scales_step t s0 im s i h

/-! ## threads end -/

/-- the steps a thread still has -/
def left : Pc I → Nat
  | .start => 4
  | .scaling _ => 3
  | .ready => 2
  | .running _ => 1
  | .done => 0

theorem left_zero (c : Pc I) : left c = 0 ↔ c = .done := by cases c <;> simp [left]

theorem step_len (t : Tool I R) (s : App I R) (i : Nat) : (stepThread t s i).threads.length = s.threads.length := by
  unfold stepThread
  cases s.threads[i]? with
  | none => rfl
  | some c =>
    cases c with
    | start => cases s.img <;> simp
    | scaling x => simp
    | ready => cases s.img <;> simp
    | running x => simp only []; split <;> simp
    | done => rfl

theorem step_img (t : Tool I R) (s : App I R) (i : Nat) : (stepThread t s i).img = s.img ∧ (stepThread t s i).path = s.path := by
  unfold stepThread
  cases s.threads[i]? with
  | none => exact ⟨rfl, rfl⟩
  | some c =>
    cases c with
    | start => cases h : s.img <;> simp
    | scaling x => exact ⟨rfl, rfl⟩
    | ready => cases h : s.img <;> simp
    | running x => simp only []; split <;> exact ⟨rfl, rfl⟩
    | done => exact ⟨rfl, rfl⟩

/-- a step of another thread does not move a thread -/
theorem step_other (t : Tool I R) (s : App I R) (i j : Nat) (h : i ≠ j) : (stepThread t s i).threads[j]? = s.threads[j]? := by
  unfold stepThread
  cases s.threads[i]? with
  | none => rfl
  | some c =>
    cases c with
    | start => cases s.img <;> simp [h]
    | scaling x => simp [h]
    | ready => cases s.img <;> simp [h]
    | running x => simp only []; split <;> simp [h]
    | done => rfl

/-- a step of a thread brings it nearer to its end -/
theorem step_self (t : Tool I R) (s : App I R) (i : Nat) (c : Pc I) (hc : s.threads[i]? = some c) :
    ∃ d, (stepThread t s i).threads[i]? = some d ∧ left d ≤ left c - 1 := by
  have hi : i < s.threads.length := (List.getElem?_eq_some_iff.1 hc).1
  have hset : ∀ d, (s.threads.set i d)[i]? = some d := fun d => by rw [List.getElem?_set, if_pos rfl, if_pos hi]
  unfold stepThread
  rw [hc]
  cases c with
  | start =>
    cases s.img with
    | none => exact ⟨_, hset _, by simp [left]⟩
    | some im => exact ⟨_, hset _, by simp [left]⟩
  | scaling x => exact ⟨_, hset _, by simp [left]⟩
  | ready =>
    cases s.img with
    | none => exact ⟨_, hset _, by simp [left]⟩
    | some im => exact ⟨_, hset _, by simp [left]⟩
  | running x =>
    simp only []
    split
    · exact ⟨_, hset _, by simp [left]⟩
    · exact ⟨_, hset _, by simp [left]⟩
  | done => exact ⟨.done, hc, by simp [left]⟩

theorem run_left (t : Tool I R) (events : List Event) (s : App I R) (i : Nat) (c : Pc I) (hc : s.threads[i]? = some c) :
    ∃ d, (run t s events).threads[i]? = some d ∧ left d ≤ left c - events.count (.step i) := by
  induction events generalizing s c with
  | nil => exact ⟨c, hc, by simp⟩
  | cons e rest ih =>
    rw [run_cons]
    cases e with
    | opens p =>
      have : (stepEvent t s (.opens p)).threads[i]? = some c := by
        show (openImage t s p).threads[i]? = some c
        unfold openImage
        split
        · exact hc
        · rw [List.getElem?_append_left (List.getElem?_eq_some_iff.1 hc).1]; exact hc
      obtain ⟨d, h1, h2⟩ := ih _ c this
      exact ⟨d, h1, by rw [List.count_cons_of_ne (by simp)]; exact h2⟩
    | step j =>
      by_cases hij : j = i
      · subst hij
        obtain ⟨c', h1, h2⟩ := step_self t s j c hc
        obtain ⟨d, h3, h4⟩ := ih _ c' h1
        refine ⟨d, h3, ?_⟩
        rw [List.count_cons_self]
        omega
      · have : (stepEvent t s (.step j)).threads[i]? = some c := by
          show (stepThread t s j).threads[i]? = some c
          rw [step_other t s j i hij]; exact hc
        obtain ⟨d, h1, h2⟩ := ih _ c this
        exact ⟨d, h1, by rw [List.count_cons_of_ne (by simpa using hij)]; exact h2⟩

theorem run_len (t : Tool I R) (events : List Event) (hn : NoOpen events) (s : App I R) : (run t s events).threads.length = s.threads.length := by
  induction events generalizing s with
  | nil => rfl
  | cons e rest ih =>
    rw [run_cons, ih fun q hq => hn q (by simp [hq])]
    cases e with
    | opens q => exact absurd List.mem_cons_self (hn q)
    | step i => exact step_len t s i

theorem run_img (t : Tool I R) (events : List Event) (hn : NoOpen events) (s : App I R) : (run t s events).img = s.img ∧ (run t s events).path = s.path := by
  induction events generalizing s with
  | nil => exact ⟨rfl, rfl⟩
  | cons e rest ih =>
    rw [run_cons]
    obtain ⟨h1, h2⟩ := ih (fun q hq => hn q (by simp [hq])) (stepEvent t s e)
    cases e with
    | opens q => exact absurd List.mem_cons_self (hn q)
    | step i => rw [h1, h2]; exact step_img t s i

/-- the steps of all threads but one -/
def others (n i : Nat) : List Event := ((List.range n).filter (· ≠ i)).flatMap fun j => List.replicate 4 (.step j)

theorem others_noOpen (n i : Nat) : NoOpen (others n i) := by
  intro p hp
  unfold others at hp
  obtain ⟨j, _, hj⟩ := List.mem_flatMap.1 hp
  have := List.eq_of_mem_replicate hj
  cases this

theorem others_mem (n i : Nat) (e : Event) (h : e ∈ others n i) : ∃ j, j ≠ i ∧ e = .step j := by
  unfold others at h
  obtain ⟨j, hj, he⟩ := List.mem_flatMap.1 h
  rw [List.mem_filter, decide_eq_true_eq] at hj
  exact ⟨j, hj.2, List.eq_of_mem_replicate he⟩

theorem run_others_keep (t : Tool I R) (i : Nat) (events : List Event) (he : ∀ e ∈ events, ∃ j, j ≠ i ∧ e = .step j) (s : App I R) : (run t s events).threads[i]? = s.threads[i]? := by
  induction events generalizing s with
  | nil => rfl
  | cons e rest ih =>
    obtain ⟨j, hj, rfl⟩ := he e (by simp)
    rw [run_cons, ih fun e h => he e (by simp [h])]
    exact step_other t s j i hj

theorem count_others (n i j : Nat) (hj : j < n) (hij : j ≠ i) : 4 ≤ (others n i).count (.step j) := by
  unfold others
  have hm : j ∈ (List.range n).filter (· ≠ i) := List.mem_filter.2 ⟨List.mem_range.2 hj, by simpa using hij⟩
  obtain ⟨a, b, hab⟩ := List.append_of_mem hm
  rw [hab, List.flatMap_append, List.flatMap_cons, List.count_append, List.count_append, List.count_replicate_self]
  omega

/-! ## what the attributes can be -/

/-- everything in the state comes from a readable file of the history -/
structure From (t : Tool I R) (paths : List String) (s : App I R) : Prop where
  img : ∀ im, s.img = some im → ∃ p ∈ paths, t.imread p = .ok im
  held : ∀ c ∈ s.threads, ∀ im, held c = some im → ∃ p ∈ paths, t.imread p = .ok im
  bicubic : ∀ b, s.bicubic = some b → ∃ p ∈ paths, ∃ im, t.imread p = .ok im ∧ b = t.bicubic im
  sr : ∀ r, s.sr = some r → ∃ p ∈ paths, ∃ im, t.imread p = .ok im ∧ t.process im = .ok r

theorem from_open (t : Tool I R) (paths : List String) (s : App I R) (h : From t paths s) (p : String) : From t (paths ++ [p]) (openImage t s p) := by
  have up : ∀ {P : String → Prop}, (∃ q ∈ paths, P q) → ∃ q ∈ paths ++ [p], P q := fun ⟨q, hq, hP⟩ => ⟨q, by simp [hq], hP⟩
  unfold openImage
  cases hp : t.imread p with
  | error e => exact ⟨fun im hi => up (h.img im hi), fun c hc im hi => up (h.held c hc im hi), fun b hb => up (h.bicubic b hb), fun r hr => up (h.sr r hr)⟩
  | ok im =>
    refine ⟨fun im' hi => ?_, fun c hc im' hi => ?_, fun b hb => up (h.bicubic b hb), fun r hr => up (h.sr r hr)⟩
    · cases hi; exact ⟨p, by simp, hp⟩
    · rcases List.mem_append.1 hc with hc | hc
      · exact up (h.held c hc im' hi)
      · rw [List.mem_singleton] at hc; subst hc; cases hi

theorem from_step (t : Tool I R) (paths : List String) (s : App I R) (h : From t paths s) (i : Nat) : From t paths (stepThread t s i) := by
  have hset : ∀ d : Pc I, (∀ im, SrApp.held d = some im → ∃ p ∈ paths, t.imread p = .ok im) → ∀ c ∈ s.threads.set i d, ∀ im, SrApp.held c = some im → ∃ p ∈ paths, t.imread p = .ok im := by
    intro d hd c hc im hi
    rcases mem_set' _ _ _ _ hc with hc | rfl
    · exact h.held c hc im hi
    · exact hd im hi
  unfold stepThread
  cases hc : s.threads[i]? with
  | none => exact h
  | some c =>
    have hmem : c ∈ s.threads := List.mem_of_getElem? hc
    cases c with
    | done => exact h
    | start =>
      cases hi : s.img with
      | none => exact ⟨fun im hh => h.img im (by rw [hi]; exact hh), hset _ (fun im hh => by cases hh), h.bicubic, h.sr⟩
      | some x => exact ⟨fun im hh => h.img im (by rw [hi]; exact hh), hset _ (fun im hh => by cases hh; exact h.img _ hi), h.bicubic, h.sr⟩
    | scaling x =>
      refine ⟨h.img, hset _ (fun im hh => by cases hh), fun b hb => ?_, h.sr⟩
      cases hb
      obtain ⟨p, hp, hr⟩ := h.held _ hmem x rfl
      exact ⟨p, hp, x, hr, rfl⟩
    | ready =>
      cases hi : s.img with
      | none => exact ⟨fun im hh => h.img im (by rw [hi]; exact hh), hset _ (fun im hh => by cases hh), h.bicubic, h.sr⟩
      | some x => exact ⟨fun im hh => h.img im (by rw [hi]; exact hh), hset _ (fun im hh => by cases hh; exact h.img _ hi), h.bicubic, h.sr⟩
    | running x =>
      simp only []
      cases hr : t.process x with
      | error e => exact ⟨h.img, hset _ (fun im hh => by cases hh), h.bicubic, h.sr⟩
      | ok r =>
        refine ⟨h.img, hset _ (fun im hh => by cases hh), h.bicubic, fun r' hr' => ?_⟩
        cases hr'
        obtain ⟨p, hp, hrd⟩ := h.held _ hmem x rfl
        exact ⟨p, hp, x, hrd, hr⟩

end OnnxTool.SrApp
