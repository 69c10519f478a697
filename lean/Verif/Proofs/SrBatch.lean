import Verif.Spec.SrBatch
import Verif.Proofs.Dict
import Mathlib.Order.Basic
/-! # Lemmas about the batch -/
namespace OnnxTool.SrBatch
open OnnxTool
variable {I R : Type}

/-! ## the output folder -/

theorem content_append (old : Dict R) (a b : List (Write R)) : content old (a ++ b) = content (content old a) b := List.foldl_append

theorem content_other (old : Dict R) (ws : List (Write R)) (f : String) (h : ∀ w ∈ ws, w.1 ≠ f) : (content old ws).get? f = old.get? f := by
  induction ws generalizing old with
  | nil => rfl
  | cons w ws ih =>
    show (content (old.set w.1 w.2) ws).get? f = _
    rw [ih _ fun w' hw => h w' (by simp [hw]), Dict.get?_set, if_neg (h w (by simp))]

theorem content_last (old : Dict R) (a b : List (Write R)) (f : String) (v : R) (h : ∀ w ∈ b, w.1 ≠ f) : (content old (a ++ (f, v) :: b)).get? f = some v := by
  rw [content_append]
  show (content ((content old a).set f v) b).get? f = some v
  rw [content_other _ b f h, Dict.get?_set, if_pos rfl]

/-! ## names -/

theorem append_cancel (a b c : String) (h : a ++ c = b ++ c) : a = b := by
  have := congrArg String.toList h
  simp only [String.toList_append] at this
  exact String.toList_inj.1 (List.append_cancel_right this)

theorem sr_inj (m n : String) (h : srFile m = srFile n) : stemOf m = stemOf n := append_cancel _ _ _ h

theorem compare_inj (m n : String) (h : compareFile m = compareFile n) : stemOf m = stemOf n := append_cancel _ _ _ h

theorem sr_ne_compare (m n : String) : srFile m ≠ compareFile n := by
  intro h
  have := congrArg (fun s : String => s.toList.reverse.take 5) h
  unfold srFile compareFile at this
  simp only [String.toList_append, List.reverse_append] at this
  have h1 : ("_sr.png" : String).toList.reverse = ['g', 'n', 'p', '.', 'r', 's', '_'] := by decide
  have h2 : ("_compare.png" : String).toList.reverse = ['g', 'n', 'p', '.', 'e', 'r', 'a', 'p', 'm', 'o', 'c', '_'] := by decide
  rw [h1, h2] at this
  simp at this

/-! ## the writes of an image -/

theorem ofImage_names (t : Tool I R) (n : String) : ∀ w ∈ (ofImage t n).1, w.1 = srFile n ∨ w.1 = compareFile n := by
  intro w hw
  unfold ofImage at hw
  cases hi : t.imread n with
  | error e => simp [hi] at hw
  | ok im =>
    cases hp : t.process im with
    | error e => simp [hi, hp] at hw
    | ok r =>
      cases hc : t.compare im r with
      | error e => simp [hi, hp, hc] at hw; subst hw; exact .inl rfl
      | ok g =>
        simp [hi, hp, hc] at hw
        rcases hw with rfl | rfl
        · exact .inl rfl
        · exact .inr rfl

theorem ofImage_ok (t : Tool I R) (n : String) : (ofImage t n).2 = none ↔ ∃ r g, Result t n r g ∧ (ofImage t n).1 = [(srFile n, r), (compareFile n, g)] := by
  unfold ofImage Result
  cases hi : t.imread n with
  | error e => simp
  | ok im =>
    cases hp : t.process im with
    | error e => simp [hp]
    | ok r =>
      cases hc : t.compare im r with
      | error e => simp [hp, hc]
      | ok g =>
        exact ⟨fun _ => ⟨r, g, ⟨im, rfl, hp, hc⟩, by simp [hp, hc, srFile, compareFile]⟩, fun _ => by simp [hp, hc]⟩

theorem ofImage_error (t : Tool I R) (n : String) (h : (ofImage t n).2 ≠ none) :
    (ofImage t n).1 = [] ∨ ∃ im r, t.imread n = .ok im ∧ t.process im = .ok r ∧ (ofImage t n).1 = [(srFile n, r)] := by
  unfold ofImage at h ⊢
  cases hi : t.imread n with
  | error e => exact .inl rfl
  | ok im =>
    cases hp : t.process im with
    | error e => simp [hp]
    | ok r =>
      cases hc : t.compare im r with
      | error e => exact .inr ⟨im, r, rfl, hp, by simp [hp, hc]; rfl⟩
      | ok g => simp [hi, hp, hc] at h

/-! ## the loop, stopped anywhere -/

theorem loop_cons (t : Tool I R) (n : String) (rest : List String) :
    loop t (n :: rest) = if (ofImage t n).2 = none then ((ofImage t n).1 ++ (loop t rest).1, (loop t rest).2) else ofImage t n := by
  rw [loop]
  rcases h : ofImage t n with ⟨w, _ | e⟩ <;> simp

/-- the first writes are those of some images that are complete, and perhaps the first of the next -/
theorem loop_take (t : Tool I R) (L : List String) (k : Nat) :
    ∃ done rest extra, L = done ++ rest ∧ (∀ n ∈ done, (ofImage t n).2 = none) ∧ (loop t L).1.take k = (done.flatMap fun n => (ofImage t n).1) ++ extra ∧
      (extra = [] ∨ ∃ n im r, rest.head? = some n ∧ t.imread n = .ok im ∧ t.process im = .ok r ∧ extra = [(srFile n, r)]) := by
  induction L generalizing k with
  | nil => exact ⟨[], [], [], rfl, by simp, by simp [loop], .inl rfl⟩
  | cons n L ih =>
    rw [loop_cons]
    by_cases h : (ofImage t n).2 = none
    · rw [if_pos h]
      obtain ⟨r, g, hres, hw⟩ := (ofImage_ok t n).1 h
      match k with
      | 0 => exact ⟨[], n :: L, [], rfl, by simp, by simp, .inl rfl⟩
      | 1 =>
        obtain ⟨im, h1, h2, _⟩ := hres
        exact ⟨[], n :: L, [(srFile n, r)], rfl, by simp, by simp [hw], .inr ⟨n, im, r, rfl, h1, h2, rfl⟩⟩
      | k + 2 =>
        obtain ⟨done, rest, extra, h1, h2, h3, h4⟩ := ih k
        refine ⟨n :: done, rest, extra, by rw [h1]; rfl, ?_, ?_, h4⟩
        · intro m hm
          rcases List.mem_cons.1 hm with rfl | hm
          · exact h
          · exact h2 m hm
        · simp only [hw, List.flatMap_cons, List.cons_append, List.nil_append, List.take_succ_cons, h3]
    · rw [if_neg h]
      rcases ofImage_error t n h with hw | ⟨im, r, h1, h2, hw⟩
      · exact ⟨[], n :: L, [], rfl, by simp, by simp [hw], .inl rfl⟩
      · rw [hw]
        match k with
        | 0 => exact ⟨[], n :: L, [], rfl, by simp, by simp, .inl rfl⟩
        | k + 1 => exact ⟨[], n :: L, [(srFile n, r)], rfl, by simp, by simp, .inr ⟨n, im, r, rfl, h1, h2, rfl⟩⟩

theorem loop_ok (t : Tool I R) (L : List String) (h : (loop t L).2 = none) : (∀ n ∈ L, (ofImage t n).2 = none) ∧ (loop t L).1 = L.flatMap fun n => (ofImage t n).1 := by
  induction L with
  | nil => exact ⟨by simp, rfl⟩
  | cons n L ih =>
    rw [loop_cons] at h ⊢
    by_cases hn : (ofImage t n).2 = none
    · rw [if_pos hn] at h ⊢
      obtain ⟨h1, h2⟩ := ih h
      refine ⟨?_, by simp [h2]⟩
      intro m hm
      rcases List.mem_cons.1 hm with rfl | hm
      · exact hn
      · exact h1 m hm
    · rw [if_neg hn] at h; exact absurd h hn

/-- the files of a list of images -/
theorem flatMap_names (t : Tool I R) (L : List String) : ∀ w ∈ L.flatMap (fun n => (ofImage t n).1), ∃ n ∈ L, w.1 = srFile n ∨ w.1 = compareFile n := by
  intro w hw
  obtain ⟨n, hn, hw⟩ := List.mem_flatMap.1 hw
  exact ⟨n, hn, ofImage_names t n w hw⟩

/-- the files of an image after which none of the same stem comes -/
theorem content_image (t : Tool I R) (old : Dict R) (a b : List String) (n : String) (hn : (ofImage t n).2 = none) (hb : ∀ m ∈ b, stemOf m ≠ stemOf n) (extra : List (Write R))
    (he : ∀ w ∈ extra, w.1 ≠ srFile n ∧ w.1 ≠ compareFile n) :
    ∃ r g, Result t n r g ∧ (content old (((a ++ n :: b).flatMap fun n => (ofImage t n).1) ++ extra)).get? (srFile n) = some r ∧
      (content old (((a ++ n :: b).flatMap fun n => (ofImage t n).1) ++ extra)).get? (compareFile n) = some g := by
  obtain ⟨r, g, hres, hw⟩ := (ofImage_ok t n).1 hn
  refine ⟨r, g, hres, ?_, ?_⟩
  · rw [List.flatMap_append, List.flatMap_cons, hw]
    have := content_last old (a.flatMap fun n => (ofImage t n).1) ((compareFile n, g) :: ((b.flatMap fun n => (ofImage t n).1) ++ extra)) (srFile n) r ?_
    · simpa using this
    · intro w hw'
      rcases List.mem_cons.1 hw' with rfl | hw'
      · exact (sr_ne_compare n n).symm
      · rcases List.mem_append.1 hw' with hw' | hw'
        · obtain ⟨m, hm, h | h⟩ := flatMap_names t b w hw'
          · rw [h]; exact fun e => hb m hm (sr_inj m n e)
          · rw [h]; exact (sr_ne_compare n m).symm
        · exact (he w hw').1
  · rw [List.flatMap_append, List.flatMap_cons, hw]
    have := content_last old ((a.flatMap fun n => (ofImage t n).1) ++ [(srFile n, r)]) ((b.flatMap fun n => (ofImage t n).1) ++ extra) (compareFile n) g ?_
    · simpa using this
    · intro w hw'
      rcases List.mem_append.1 hw' with hw' | hw'
      · obtain ⟨m, hm, h | h⟩ := flatMap_names t b w hw'
        · rw [h]; exact sr_ne_compare m n
        · rw [h]; exact fun e => hb m hm (compare_inj m n e)
      · exact (he w hw').2

end OnnxTool.SrBatch
