import Verif.Spec.Grow
import Verif.Model.Broadcast
import Verif.Model.Axes
import Verif.Model.Conv
import Verif.Model.Slice
import Verif.Model.Resample
import Verif.Proofs.Axes
import Mathlib.Data.List.Forall2
import Mathlib.Tactic.Linarith
import Mathlib.Tactic.Ring
import Mathlib.Tactic.ByContra
/-! Proofs for C116: operators rise -/
namespace OnnxTool.Grow
open OnnxTool OnnxTool.Shape OnnxTool.Axes OnnxTool.Conv OnnxTool.Slice OnnxTool.Resample

section basics
variable {α : Type} [Preorder α]

theorem Fits.refl (s : List α) : Fits s s := List.forall₂_same.mpr fun _ _ => le_refl _

theorem Fits.length {s s' : List α} (h : Fits s s') : s.length = s'.length := List.Forall₂.length_eq h

theorem Fits.append {s s' t t' : List α} (h : Fits s s') (h' : Fits t t') : Fits (s ++ t) (s' ++ t') := List.rel_append h h'

theorem Fits.cons {a b : α} {s s' : List α} (hab : a ≤ b) (h : Fits s s') : Fits (a :: s) (b :: s') := List.Forall₂.cons hab h

theorem Fits.nil : Fits ([] : List α) [] := List.Forall₂.nil

theorem Fits.take {s s' : List α} (n : Nat) (h : Fits s s') : Fits (s.take n) (s'.take n) := List.forall₂_take n h

theorem Fits.drop {s s' : List α} (n : Nat) (h : Fits s s') : Fits (s.drop n) (s'.drop n) := List.forall₂_drop n h

theorem Fits.reverse {s s' : List α} (h : Fits s s') : Fits s.reverse s'.reverse := List.rel_reverse h

theorem Fits.getD {s s' : List α} (h : Fits s s') (i : Nat) (d : α) : s.getD i d ≤ s'.getD i d := by
  induction h generalizing i with
  | nil => simp
  | cons hab _ ih =>
    cases i with
    | zero => simpa using hab
    | succ i => simpa using ih i

theorem Fits.get? {s s' : List α} (h : Fits s s') (i : Nat) (a b : α) (ha : s[i]? = some a) (hb : s'[i]? = some b) : a ≤ b := by
  have := h.getD i a
  rw [List.getD_eq_getElem?_getD, List.getD_eq_getElem?_getD, ha, hb] at this
  exact this

theorem Fits.set {s s' : List α} (h : Fits s s') (i : Nat) {a b : α} (hab : a ≤ b) : Fits (s.set i a) (s'.set i b) := by
  induction h generalizing i with
  | nil => exact Fits.nil
  | cons hc h ih =>
    cases i with
    | zero => exact Fits.cons hab h
    | succ i => exact Fits.cons hc (ih i)

theorem fits_replicate (n : Nat) {a b : α} (h : a ≤ b) : Fits (List.replicate n a) (List.replicate n b) := by
  induction n with
  | zero => exact Fits.nil
  | succ n ih => exact Fits.cons h ih

theorem Fits.map {β : Type} [Preorder β] {s s' : List α} (h : Fits s s') (f : α → β) (hf : ∀ a b, a ≤ b → f a ≤ f b) : Fits (s.map f) (s'.map f) := by
  induction h with
  | nil => exact Fits.nil
  | cons hab _ ih => exact Fits.cons (hf _ _ hab) ih

end basics

/-! ### broadcasting -/

theorem listMax_le (ds : List Nat) : ∀ d ∈ ds, d ≤ listMax ds := by
  have key : ∀ (ds : List Nat) (a : Nat), a ≤ ds.foldl max a ∧ ∀ d ∈ ds, d ≤ ds.foldl max a := by
    intro ds
    induction ds with
    | nil => intro a; simp
    | cons x ds ih =>
      intro a
      obtain ⟨h1, h2⟩ := ih (max a x)
      refine ⟨le_trans (le_max_left _ _) h1, fun d hd => ?_⟩
      rcases List.mem_cons.mp hd with rfl | hd
      · exact le_trans (le_max_right _ _) h1
      · exact h2 d hd
  exact (key ds 0).2

theorem listMax_mem (ds : List Nat) : listMax ds = 0 ∨ listMax ds ∈ ds := by
  have key : ∀ (ds : List Nat) (a : Nat), ds.foldl max a = a ∨ ds.foldl max a ∈ ds := by
    intro ds
    induction ds with
    | nil => intro a; left; rfl
    | cons x ds ih =>
      intro a
      simp only [List.foldl_cons]
      rcases ih (max a x) with h | h
      · rw [h]
        rcases max_choice a x with h | h
        · left; exact h
        · right; rw [h]; exact List.mem_cons_self
      · right; exact List.mem_cons_of_mem _ h
  exact key ds 0

theorem mem_rel {ds ds' : List Nat} (h : Fits ds ds') (d : Nat) (hd : d ∈ ds) : ∃ d' ∈ ds', d ≤ d' := by
  induction h with
  | nil => cases hd
  | cons hab _ ih =>
    rcases List.mem_cons.mp hd with rfl | hd
    · exact ⟨_, List.mem_cons_self, hab⟩
    · obtain ⟨d', h1, h2⟩ := ih hd
      exact ⟨d', List.mem_cons_of_mem _ h1, h2⟩

theorem mem_rel' {ds ds' : List Nat} (h : Fits ds ds') (d : Nat) (hd : d ∈ ds') : ∃ d' ∈ ds, d' ≤ d := by
  induction h with
  | nil => cases hd
  | cons hab _ ih =>
    rcases List.mem_cons.mp hd with rfl | hd
    · exact ⟨_, List.mem_cons_self, hab⟩
    · obtain ⟨d', h1, h2⟩ := ih hd
      exact ⟨d', List.mem_cons_of_mem _ h1, h2⟩

theorem mergeDims_rises {ds ds' : List Nat} (h : Fits ds ds') {d d' : Nat} (hd : mergeDims ds = .ok d) (hd' : mergeDims ds' = .ok d') : d ≤ d' := by
  unfold mergeDims at hd hd'
  simp only at hd hd'
  by_cases hz : ds.contains 0 = true
  · rw [if_pos hz] at hd
    split at hd
    · cases hd; exact Nat.zero_le _
    · cases hd
  · rw [if_neg hz] at hd
    have hz' : ¬ ds'.contains 0 = true := by
      intro c
      obtain ⟨x, hx, hle⟩ := mem_rel' h 0 (List.contains_iff_mem.mp c)
      have : x = 0 := by omega
      subst this
      exact hz (List.contains_iff_mem.mpr hx)
    rw [if_neg hz'] at hd'
    split at hd
    · cases hd
      split at hd'
      · cases hd'
        rcases listMax_mem ds with h0 | h0
        · rw [h0]; exact Nat.zero_le _
        · obtain ⟨x, hx, hle⟩ := mem_rel h _ h0
          exact le_trans hle (listMax_le ds' x hx)
      · cases hd'
    · cases hd

theorem padTo_rises (n : Nat) {s s' : Shp} (h : Fits s s') : Fits (padTo n s) (padTo n s') := by
  unfold padTo
  rw [h.length]
  split
  · exact (fits_replicate _ (le_refl 1)).append h
  · exact h

theorem maxLen_eq {ss ss' : List Shp} (h : List.Forall₂ Fits ss ss') : maxLen ss = maxLen ss' := by
  unfold maxLen
  generalize 0 = a
  induction h generalizing a with
  | nil => rfl
  | cons hs _ ih =>
    simp only [List.foldl_cons]
    rw [Fits.length hs]
    exact ih _

theorem mergeAll_rises {p p' : List Shp} (h : List.Forall₂ Fits p p') (js : List Nat) (y y' : Shp) (hy : mergeAll p js = .ok y) (hy' : mergeAll p' js = .ok y') :
    Fits y y' := by
  induction js generalizing y y' with
  | nil => cases hy; cases hy'; exact Fits.nil
  | cons j js ih =>
    unfold mergeAll at hy hy'
    split at hy
    · cases hy
    · rename_i d hd
      split at hy
      · cases hy
      · rename_i r hr
        cases hy
        split at hy'
        · cases hy'
        · rename_i d' hd'
          split at hy'
          · cases hy'
          · rename_i r' hr'
            cases hy'
            refine Fits.cons (mergeDims_rises ?_ hd hd') (ih _ _ hr hr')
            clear hd hd' hr hr' ih
            induction h with
            | nil => exact Fits.nil
            | cons hs _ ih => exact Fits.cons (Fits.getD hs j 1) ih

theorem broadcast_rises : RisesAll broadcastShape := by
  intro ss ss' y y' h hy hy'
  unfold broadcastShape at hy hy'
  rw [← maxLen_eq h] at hy'
  refine mergeAll_rises ?_ _ _ _ hy hy'
  generalize maxLen ss = n
  clear hy hy'
  induction h with
  | nil => exact List.Forall₂.nil
  | cons hs _ ih => exact List.Forall₂.cons (padTo_rises n hs) ih

theorem expand_rises {x x' e e' : Shp} (hx : Fits x x') (he : Fits e e') : Fits (expandShape x e) (expandShape x' e') := by
  unfold expandShape
  rw [hx.length, he.length]
  have h1 := padTo_rises e'.length hx
  have h2 := padTo_rises x'.length he
  generalize padTo e'.length x = a at h1
  generalize padTo e'.length x' = a' at h1
  generalize padTo x'.length e = b at h2
  generalize padTo x'.length e' = b' at h2
  induction h1 generalizing b b' with
  | nil => exact Fits.nil
  | cons hab _ ih =>
    cases h2 with
    | nil => exact Fits.nil
    | cons hcd h2 => exact Fits.cons (max_le_max hab hcd) (ih _ _ h2)

/-! ### rearranging axes -/

theorem pyGet_rises {x x' : List Nat} (h : Fits x x') (i : Int) {v v' : Nat} (hv : pyGet x i = .ok v) (hv' : pyGet x' i = .ok v') : v ≤ v' := by
  unfold pyGet at hv hv'
  rw [h.length] at hv
  cases hk : normIndex x'.length i with
  | error e => rw [hk] at hv; cases hv
  | ok k =>
    rw [hk] at hv hv'
    cases hv; cases hv'
    exact h.getD k 0

theorem gatherAll_rises (p : List Int) : Rises fun x => gatherAll x p := by
  intro x x' y y' h hy hy'
  simp only at hy hy'
  induction p generalizing y y' with
  | nil => cases hy; cases hy'; exact Fits.nil
  | cons a as ih =>
    unfold gatherAll at hy hy'
    cases h1 : pyGet x a with
    | error e => rw [h1] at hy; cases hy
    | ok v =>
      cases h2 : gatherAll x as with
      | error e => rw [h1, h2] at hy; cases hy
      | ok vs =>
        rw [h1, h2] at hy
        cases h3 : pyGet x' a with
        | error e => rw [h3] at hy'; cases hy'
        | ok v' =>
          cases h4 : gatherAll x' as with
          | error e => rw [h3, h4] at hy'; cases hy'
          | ok vs' =>
            rw [h3, h4] at hy'
            cases hy; cases hy'
            exact Fits.cons (pyGet_rises h a h1 h3) (ih _ _ h2 h4)

theorem gatherLoop_rises (axis : Int) {ids ids' : List Nat} (hi : Fits ids ids') (i : Nat) {x x' : List Nat} (h : Fits x x') :
    Fits (gatherLoop axis ids i x) (gatherLoop axis ids' i x') := by
  induction h generalizing i with
  | nil => exact Fits.nil
  | cons hab _ ih =>
    unfold gatherLoop
    refine Fits.append ?_ (ih (i + 1))
    split
    · exact hi
    · exact Fits.cons hab Fits.nil

theorem dropAxes_rises (axes : List Int) (i : Nat) {x x' : List Nat} (h : Fits x x') : Fits (dropAxes axes i x) (dropAxes axes i x') := by
  induction h generalizing i with
  | nil => exact Fits.nil
  | cons hab _ ih =>
    unfold dropAxes
    split
    · exact ih (i + 1)
    · exact Fits.cons hab (ih (i + 1))

theorem onesAt_rises (axes : List Int) (i : Nat) {x x' : List Nat} (h : Fits x x') : Fits (onesAt axes i x) (onesAt axes i x') := by
  induction h generalizing i with
  | nil => exact Fits.nil
  | cons hab _ ih =>
    unfold onesAt
    refine Fits.cons ?_ (ih (i + 1))
    split
    · exact le_refl _
    · exact hab

theorem insLoop_rises (axes : List Int) (n i : Nat) : Rises (insLoop axes n i) := by
  induction n generalizing i with
  | zero => intro x x' y y' h hy hy'; cases hy; cases hy'; exact Fits.nil
  | succ n ih =>
    intro x x' y y' h hy hy'
    unfold insLoop at hy hy'
    by_cases hc : axes.contains (i : Int) = true
    · rw [if_pos hc] at hy hy'
      cases h1 : insLoop axes n (i + 1) x with
      | error e => rw [h1] at hy; cases hy
      | ok r =>
        cases h2 : insLoop axes n (i + 1) x' with
        | error e => rw [h2] at hy'; cases hy'
        | ok r' =>
          rw [h1] at hy; rw [h2] at hy'
          cases hy; cases hy'
          exact Fits.cons (le_refl _) (ih _ _ _ _ _ h h1 h2)
    · rw [if_neg hc] at hy hy'
      cases h with
      | nil => cases hy
      | cons hab h =>
        simp only at hy hy'
        rename_i a b xs xs'
        cases h1 : insLoop axes n (i + 1) xs with
        | error e => rw [h1] at hy; cases hy
        | ok r =>
          cases h2 : insLoop axes n (i + 1) xs' with
          | error e => rw [h2] at hy'; cases hy'
          | ok r' =>
            rw [h1] at hy; rw [h2] at hy'
            cases hy; cases hy'
            exact Fits.cons hab (ih _ _ _ _ _ h h1 h2)

theorem padLoop_rises (pads : List Int) (r i : Nat) : Rises (padLoop pads r i) := by
  intro x x' y y' h
  induction h generalizing i y y' with
  | nil => intro hy hy'; cases hy; cases hy'; exact Fits.nil
  | @cons a b xs xs' hab _ ih =>
    intro hy hy'
    unfold padLoop at hy hy'
    cases h1 : idx pads i with
    | error e => rw [h1] at hy; cases hy
    | ok p =>
      cases h2 : idx pads (i + r) with
      | error e => rw [h1, h2] at hy; cases hy
      | ok q =>
        rw [h1, h2] at hy hy'
        cases h3 : padLoop pads r (i + 1) xs with
        | error e => rw [h3] at hy; cases hy
        | ok t =>
          cases h4 : padLoop pads r (i + 1) xs' with
          | error e => rw [h4] at hy'; cases hy'
          | ok t' =>
            rw [h3] at hy; rw [h4] at hy'
            cases hy; cases hy'
            refine Fits.cons ?_ (ih _ _ _ h3 h4)
            have : (a : Int) ≤ b := by exact_mod_cast hab
            omega

theorem concatLoop_rises (axis : Int) {ss ss' : List (List Nat)} (hs : List.Forall₂ Fits ss ss') {o o' : List Nat} (ho : Fits o o') {y y' : List Nat}
    (hy : concatLoop axis o ss = .ok y) (hy' : concatLoop axis o' ss' = .ok y') : Fits y y' := by
  induction hs generalizing o o' with
  | nil => cases hy; cases hy'; exact ho
  | @cons s s' ss ss' hss _ ih =>
    unfold concatLoop at hy hy'
    cases h1 : pyGet o axis with
    | error e => rw [h1] at hy; cases hy
    | ok a =>
      cases h2 : pyGet s axis with
      | error e => rw [h1, h2] at hy; cases hy
      | ok b =>
        cases h3 : normIndex o.length axis with
        | error e => rw [h1, h2, h3] at hy; cases hy
        | ok k =>
          rw [h1, h2, h3] at hy
          cases h4 : pyGet o' axis with
          | error e => rw [h4] at hy'; cases hy'
          | ok a' =>
            cases h5 : pyGet s' axis with
            | error e => rw [h4, h5] at hy'; cases hy'
            | ok b' =>
              rw [h4, h5, ← ho.length, h3] at hy'
              exact ih (ho.set k (Nat.add_le_add (pyGet_rises ho axis h1 h4) (pyGet_rises hss axis h2 h5))) hy hy'

/-! ### Conv and pooling -/

theorem idx_rises {x x' : List Int} (h : Fits x x') (i : Nat) {v v' : Int} (hv : idx x i = .ok v) (hv' : idx x' i = .ok v') : v ≤ v' := by
  unfold idx at hv hv'
  cases h1 : x[i]? with
  | none => rw [h1] at hv; cases hv
  | some a =>
    cases h2 : x'[i]? with
    | none => rw [h2] at hv'; cases hv'
    | some b =>
      rw [h1] at hv; rw [h2] at hv'
      cases hv; cases hv'
      exact h.get? i _ _ h1 h2

theorem tdiv_rises {a b s : Int} (hs : 0 < s) (h : a ≤ b) : Int.tdiv a s ≤ Int.tdiv b s := by
  have pos : ∀ c : Int, 0 ≤ c → Int.tdiv c s = c / s := fun c hc => Int.tdiv_eq_ediv_of_nonneg hc
  have neg : ∀ c : Int, c < 0 → Int.tdiv c s = -((-c) / s) := by
    intro c hc
    have := pos (-c) (by omega)
    rw [Int.neg_tdiv] at this
    omega
  by_cases ha : 0 ≤ a
  · rw [pos a ha, pos b (by omega)]
    exact Int.ediv_le_ediv hs h
  · rw [neg a (by omega)]
    by_cases hb : 0 ≤ b
    · rw [pos b hb]
      have h1 : 0 ≤ (-a) / s := Int.ediv_nonneg (by omega) (by omega)
      have h2 : 0 ≤ b / s := Int.ediv_nonneg hb (by omega)
      omega
    · rw [neg b (by omega)]
      have := Int.ediv_le_ediv (a := -b) (b := -a) hs (by omega)
      omega

theorem fdiv_rises {a b s : Int} (hs : 0 < s) (h : a ≤ b) : Int.fdiv a s ≤ Int.fdiv b s := by
  rw [Int.fdiv_eq_ediv_of_nonneg _ (by omega), Int.fdiv_eq_ediv_of_nonneg _ (by omega)]
  exact Int.ediv_le_ediv hs h

theorem ceilDiv_rises {a b s : Int} (hs : 0 < s) (h : a ≤ b) : ceilDiv a s ≤ ceilDiv b s := by
  unfold ceilDiv
  have := fdiv_rises (a := -b) (b := -a) hs (by omega)
  omega

theorem bindOk {α β : Type} {m : Except PyErr α} {f : α → Except PyErr β} {y : β} (h : (m >>= f) = .ok y) : ∃ a, m = .ok a ∧ f a = .ok y := by
  cases m with
  | error e => cases h
  | ok a => exact ⟨a, rfl, h⟩

theorem okInj {α : Type} {a b : α} (h : (pure a : Except PyErr α) = .ok b) : a = b := by cases h; rfl

/-- every stride is positive -/
def Positive (a : Attrs) : Prop := ∀ s ∈ a.strides, 0 < s

theorem idx_mem {xs : List Int} {i : Nat} {v : Int} (h : idx xs i = .ok v) : v ∈ xs := by
  unfold idx at h
  split at h
  · rename_i w hw; cases h; exact List.mem_of_getElem? hw
  · cases h

theorem convAxis_rises {a : Attrs} (ha : Positive a) {x x' w : List Int} (h : Fits x x') {i b e : Nat} {v v' : Int} (hv : convAxis a x w i b e = .ok v)
    (hv' : convAxis a x' w i b e = .ok v') : v ≤ v' := by
  unfold convAxis at hv hv'
  replace hv := bindOk hv; obtain ⟨d, h1, hv⟩ := hv
  replace hv := bindOk hv; obtain ⟨p, h2, hv⟩ := hv
  replace hv := bindOk hv; obtain ⟨q, h3, hv⟩ := hv
  replace hv := bindOk hv; obtain ⟨k, h4, hv⟩ := hv
  replace hv := bindOk hv; obtain ⟨s, h5, hv⟩ := hv
  replace hv := bindOk hv; obtain ⟨l, h6, hv⟩ := hv
  replace hv' := bindOk hv'; obtain ⟨d', g1, hv'⟩ := hv'
  rw [h2] at hv'
  replace hv' := bindOk hv'; obtain ⟨p', g2, hv'⟩ := hv'
  cases g2
  rw [h3] at hv'
  replace hv' := bindOk hv'; obtain ⟨q', g3, hv'⟩ := hv'
  cases g3
  rw [h4] at hv'
  replace hv' := bindOk hv'; obtain ⟨k', g4, hv'⟩ := hv'
  cases g4
  rw [h5] at hv'
  replace hv' := bindOk hv'; obtain ⟨s', g5, hv'⟩ := hv'
  cases g5
  rw [h6] at hv'
  replace hv' := bindOk hv'; obtain ⟨l', g6, hv'⟩ := hv'
  cases g6
  have hd := idx_rises h _ h1 g1
  have hs := ha s (idx_mem h5)
  unfold convOut at hv hv'
  rw [if_neg (by omega)] at hv hv'
  cases hv; cases hv'
  exact tdiv_rises hs (by omega)

theorem autoSame_rises {x x' s v v' : Int} (hs : 0 < s) (h : x ≤ x') (hv : autoSame x s = .ok v) (hv' : autoSame x' s = .ok v') : v ≤ v' := by
  unfold autoSame at hv hv'
  rw [if_neg (by omega)] at hv hv'
  cases hv; cases hv'
  exact ceilDiv_rises hs h

theorem autoValid_rises {x x' k s v v' : Int} (hs : 0 < s) (h : x ≤ x') (hv : autoValid x k s = .ok v) (hv' : autoValid x' k s = .ok v') : v ≤ v' := by
  unfold autoValid at hv hv'
  rw [if_neg (by omega)] at hv hv'
  cases hv; cases hv'
  exact ceilDiv_rises hs (by omega)

theorem sameOk {α : Type} {m : Except PyErr α} {a b : α} (h : m = .ok a) (h' : m = .ok b) : a = b := by
  rw [h] at h'; cases h'; rfl

theorem conv_rises {a : Attrs} (ha : Positive a) (w : List Int) : Rises fun x => convShape a x w := by
  intro x x' y y' h hy hy'
  simp only at hy hy'
  unfold convShape at hy hy'
  rw [← h.length] at hy'
  cases hp : a.autoPad with
  | none =>
    rw [hp] at hy hy'
    simp only at hy hy'
    by_cases h5 : x.length = 5
    · rw [if_pos h5] at hy hy'
      replace hy := bindOk hy; obtain ⟨n, h1, hy⟩ := hy
      replace hy := bindOk hy; obtain ⟨c, h2, hy⟩ := hy
      replace hy := bindOk hy; obtain ⟨s1, h3, hy⟩ := hy
      replace hy := bindOk hy; obtain ⟨s2, h4, hy⟩ := hy
      replace hy := bindOk hy; obtain ⟨s3, h6, hy⟩ := hy
      replace hy' := bindOk hy'; obtain ⟨n', g1, hy'⟩ := hy'
      replace hy' := bindOk hy'; obtain ⟨c', g2, hy'⟩ := hy'
      replace hy' := bindOk hy'; obtain ⟨s1', g3, hy'⟩ := hy'
      replace hy' := bindOk hy'; obtain ⟨s2', g4, hy'⟩ := hy'
      replace hy' := bindOk hy'; obtain ⟨s3', g6, hy'⟩ := hy'
      cases hy; cases hy'
      cases sameOk h2 g2
      exact Fits.cons (idx_rises h _ h1 g1) (Fits.cons (le_refl _) (Fits.cons (convAxis_rises ha h h3 g3) (Fits.cons (convAxis_rises ha h h4 g4)
        (Fits.cons (convAxis_rises ha h h6 g6) Fits.nil))))
    rw [if_neg h5] at hy hy'
    by_cases h4 : x.length = 4
    · rw [if_pos h4] at hy hy'
      replace hy := bindOk hy; obtain ⟨n, h1, hy⟩ := hy
      replace hy := bindOk hy; obtain ⟨c, h2, hy⟩ := hy
      replace hy := bindOk hy; obtain ⟨s1, h3, hy⟩ := hy
      replace hy := bindOk hy; obtain ⟨s2, h4, hy⟩ := hy
      replace hy' := bindOk hy'; obtain ⟨n', g1, hy'⟩ := hy'
      replace hy' := bindOk hy'; obtain ⟨c', g2, hy'⟩ := hy'
      replace hy' := bindOk hy'; obtain ⟨s1', g3, hy'⟩ := hy'
      replace hy' := bindOk hy'; obtain ⟨s2', g4, hy'⟩ := hy'
      cases hy; cases hy'
      cases sameOk h2 g2
      exact Fits.cons (idx_rises h _ h1 g1) (Fits.cons (le_refl _) (Fits.cons (convAxis_rises ha h h3 g3) (Fits.cons (convAxis_rises ha h h4 g4) Fits.nil)))
    rw [if_neg h4] at hy hy'
    by_cases h3 : x.length = 3
    · rw [if_pos h3] at hy hy'
      replace hy := bindOk hy; obtain ⟨n, h1, hy⟩ := hy
      replace hy := bindOk hy; obtain ⟨c, h2, hy⟩ := hy
      replace hy := bindOk hy; obtain ⟨s1, h3, hy⟩ := hy
      replace hy' := bindOk hy'; obtain ⟨n', g1, hy'⟩ := hy'
      replace hy' := bindOk hy'; obtain ⟨c', g2, hy'⟩ := hy'
      replace hy' := bindOk hy'; obtain ⟨s1', g3, hy'⟩ := hy'
      cases hy; cases hy'
      cases sameOk h2 g2
      exact Fits.cons (idx_rises h _ h1 g1) (Fits.cons (le_refl _) (Fits.cons (convAxis_rises ha h h3 g3) Fits.nil))
    rw [if_neg h3] at hy hy'
    cases hy; cases hy'
    exact Fits.nil
  | some p =>
    rw [hp] at hy hy'
    cases p with
    | other => cases hy
    | same =>
      simp only at hy hy'
      replace hy := bindOk hy; obtain ⟨n, h1, hy⟩ := hy
      replace hy := bindOk hy; obtain ⟨c, h2, hy⟩ := hy
      replace hy := bindOk hy; obtain ⟨d, h3, hy⟩ := hy
      replace hy := bindOk hy; obtain ⟨s, h4, hy⟩ := hy
      replace hy := bindOk hy; obtain ⟨v, h5, hy⟩ := hy
      replace hy' := bindOk hy'; obtain ⟨n', g1, hy'⟩ := hy'
      replace hy' := bindOk hy'; obtain ⟨c', g2, hy'⟩ := hy'
      replace hy' := bindOk hy'; obtain ⟨d', g3, hy'⟩ := hy'
      replace hy' := bindOk hy'; obtain ⟨s', g4, hy'⟩ := hy'
      replace hy' := bindOk hy'; obtain ⟨v', g5, hy'⟩ := hy'
      cases sameOk h2 g2; cases sameOk h4 g4
      have base : Fits [n, c, v] [n', c, v'] := Fits.cons (idx_rises h _ h1 g1) (Fits.cons (le_refl _) (Fits.cons
        (autoSame_rises (ha _ (idx_mem h4)) (idx_rises h _ h3 g3) h5 g5) Fits.nil))
      by_cases hl : x.length = 4
      · simp only [hl, if_true] at hy hy'
        replace hy := bindOk hy; obtain ⟨e, h6, hy⟩ := hy
        replace hy := bindOk hy; obtain ⟨t, h7, hy⟩ := hy
        replace hy := bindOk hy; obtain ⟨u, h8, hy⟩ := hy
        replace hy' := bindOk hy'; obtain ⟨e', g6, hy'⟩ := hy'
        replace hy' := bindOk hy'; obtain ⟨t', g7, hy'⟩ := hy'
        replace hy' := bindOk hy'; obtain ⟨u', g8, hy'⟩ := hy'
        cases sameOk h7 g7
        cases hy; cases hy'
        exact base.append (Fits.cons (autoSame_rises (ha _ (idx_mem h7)) (idx_rises h _ h6 g6) h8 g8) Fits.nil)
      · simp only [hl, if_false] at hy hy'
        cases hy; cases hy'
        exact base
    | valid =>
      simp only at hy hy'
      replace hy := bindOk hy; obtain ⟨n, h1, hy⟩ := hy
      replace hy := bindOk hy; obtain ⟨c, h2, hy⟩ := hy
      replace hy := bindOk hy; obtain ⟨d, h3, hy⟩ := hy
      replace hy := bindOk hy; obtain ⟨k, hk, hy⟩ := hy
      replace hy := bindOk hy; obtain ⟨s, h4, hy⟩ := hy
      replace hy := bindOk hy; obtain ⟨v, h5, hy⟩ := hy
      replace hy' := bindOk hy'; obtain ⟨n', g1, hy'⟩ := hy'
      replace hy' := bindOk hy'; obtain ⟨c', g2, hy'⟩ := hy'
      replace hy' := bindOk hy'; obtain ⟨d', g3, hy'⟩ := hy'
      replace hy' := bindOk hy'; obtain ⟨k', gk, hy'⟩ := hy'
      replace hy' := bindOk hy'; obtain ⟨s', g4, hy'⟩ := hy'
      replace hy' := bindOk hy'; obtain ⟨v', g5, hy'⟩ := hy'
      cases sameOk h2 g2; cases sameOk h4 g4; cases sameOk hk gk
      have base : Fits [n, c, v] [n', c, v'] := Fits.cons (idx_rises h _ h1 g1) (Fits.cons (le_refl _) (Fits.cons
        (autoValid_rises (ha _ (idx_mem h4)) (idx_rises h _ h3 g3) h5 g5) Fits.nil))
      by_cases hl : x.length = 4
      · simp only [hl, if_true] at hy hy'
        replace hy := bindOk hy; obtain ⟨e, h6, hy⟩ := hy
        replace hy := bindOk hy; obtain ⟨l, hl, hy⟩ := hy
        replace hy := bindOk hy; obtain ⟨t, h7, hy⟩ := hy
        replace hy := bindOk hy; obtain ⟨u, h8, hy⟩ := hy
        replace hy' := bindOk hy'; obtain ⟨e', g6, hy'⟩ := hy'
        replace hy' := bindOk hy'; obtain ⟨l', gl, hy'⟩ := hy'
        replace hy' := bindOk hy'; obtain ⟨t', g7, hy'⟩ := hy'
        replace hy' := bindOk hy'; obtain ⟨u', g8, hy'⟩ := hy'
        cases sameOk h7 g7; cases sameOk hl gl
        cases hy; cases hy'
        exact base.append (Fits.cons (autoValid_rises (ha _ (idx_mem h7)) (idx_rises h _ h6 g6) h8 g8) Fits.nil)
      · simp only [hl, if_false] at hy hy'
        cases hy; cases hy'
        exact base

theorem poolAxis_rises {a : Attrs} (ha : Positive a) {x x' : List Int} (h : Fits x x') {i b e di : Nat} {v v' : Int} (hv : poolAxis a x i b e di = .ok v)
    (hv' : poolAxis a x' i b e di = .ok v') : v ≤ v' := by
  unfold poolAxis at hv hv'
  replace hv := bindOk hv; obtain ⟨d, h1, hv⟩ := hv
  replace hv := bindOk hv; obtain ⟨p, h2, hv⟩ := hv
  replace hv := bindOk hv; obtain ⟨q, h3, hv⟩ := hv
  replace hv := bindOk hv; obtain ⟨k, h4, hv⟩ := hv
  replace hv := bindOk hv; obtain ⟨l, h5, hv⟩ := hv
  replace hv := bindOk hv; obtain ⟨s, h6, hv⟩ := hv
  replace hv' := bindOk hv'; obtain ⟨d', g1, hv'⟩ := hv'
  replace hv' := bindOk hv'; obtain ⟨p', g2, hv'⟩ := hv'
  replace hv' := bindOk hv'; obtain ⟨q', g3, hv'⟩ := hv'
  replace hv' := bindOk hv'; obtain ⟨k', g4, hv'⟩ := hv'
  replace hv' := bindOk hv'; obtain ⟨l', g5, hv'⟩ := hv'
  replace hv' := bindOk hv'; obtain ⟨s', g6, hv'⟩ := hv'
  cases sameOk h2 g2; cases sameOk h3 g3; cases sameOk h4 g4; cases sameOk h5 g5; cases sameOk h6 g6
  have hd := idx_rises h _ h1 g1
  have hs := ha s (idx_mem h6)
  unfold poolOut at hv hv'
  rw [if_neg (by omega)] at hv hv'
  simp only at hv hv'
  cases hv; cases hv'
  split
  · exact ceilDiv_rises hs (by omega)
  · exact fdiv_rises hs (by omega)

theorem pool_rises {a : Attrs} (ha : Positive a) : Rises fun x => poolShape a x := by
  intro x x' y y' h hy hy'
  simp only at hy hy'
  unfold poolShape at hy hy'
  cases hp : a.autoPad with
  | none =>
    rw [hp] at hy hy'
    simp only at hy hy'
    split at hy
    · rename_i hk
      simp only [hk] at hy'
      replace hy := bindOk hy; obtain ⟨s1, h1, hy⟩ := hy
      replace hy' := bindOk hy'; obtain ⟨s1', g1, hy'⟩ := hy'
      cases hy; cases hy'
      exact (h.take 2).append (Fits.cons (poolAxis_rises ha h h1 g1) Fits.nil)
    · rename_i hk
      simp only [hk] at hy'
      replace hy := bindOk hy; obtain ⟨s1, h1, hy⟩ := hy
      replace hy := bindOk hy; obtain ⟨s2, h2, hy⟩ := hy
      replace hy' := bindOk hy'; obtain ⟨s1', g1, hy'⟩ := hy'
      replace hy' := bindOk hy'; obtain ⟨s2', g2, hy'⟩ := hy'
      cases hy; cases hy'
      exact (h.take 2).append (Fits.cons (poolAxis_rises ha h h1 g1) (Fits.cons (poolAxis_rises ha h h2 g2) Fits.nil))
    · rename_i hk
      simp only [hk] at hy'
      replace hy := bindOk hy; obtain ⟨s1, h1, hy⟩ := hy
      replace hy := bindOk hy; obtain ⟨s2, h2, hy⟩ := hy
      replace hy := bindOk hy; obtain ⟨s3, h3, hy⟩ := hy
      replace hy' := bindOk hy'; obtain ⟨s1', g1, hy'⟩ := hy'
      replace hy' := bindOk hy'; obtain ⟨s2', g2, hy'⟩ := hy'
      replace hy' := bindOk hy'; obtain ⟨s3', g3, hy'⟩ := hy'
      cases hy; cases hy'
      exact (h.take 2).append (Fits.cons (poolAxis_rises ha h h1 g1) (Fits.cons (poolAxis_rises ha h h2 g2) (Fits.cons (poolAxis_rises ha h h3 g3) Fits.nil)))
    · cases hy
  | some p =>
    rw [hp] at hy hy'
    cases p with
    | other => cases hy; cases hy'; exact h.take 2
    | same =>
      simp only at hy hy'
      replace hy := bindOk hy; obtain ⟨d, h3, hy⟩ := hy
      replace hy := bindOk hy; obtain ⟨s, h4, hy⟩ := hy
      replace hy := bindOk hy; obtain ⟨v, h5, hy⟩ := hy
      replace hy' := bindOk hy'; obtain ⟨d', g3, hy'⟩ := hy'
      replace hy' := bindOk hy'; obtain ⟨s', g4, hy'⟩ := hy'
      replace hy' := bindOk hy'; obtain ⟨v', g5, hy'⟩ := hy'
      cases sameOk h4 g4
      have base : Fits (x.take 2 ++ [v]) (x'.take 2 ++ [v']) :=
        (h.take 2).append (Fits.cons (autoSame_rises (ha _ (idx_mem h4)) (idx_rises h _ h3 g3) h5 g5) Fits.nil)
      by_cases hl : a.strides.length = 2
      · simp only [hl, if_true] at hy hy'
        replace hy := bindOk hy; obtain ⟨e, h6, hy⟩ := hy
        replace hy := bindOk hy; obtain ⟨t, h7, hy⟩ := hy
        replace hy := bindOk hy; obtain ⟨u, h8, hy⟩ := hy
        replace hy' := bindOk hy'; obtain ⟨e', g6, hy'⟩ := hy'
        replace hy' := bindOk hy'; obtain ⟨t', g7, hy'⟩ := hy'
        replace hy' := bindOk hy'; obtain ⟨u', g8, hy'⟩ := hy'
        cases sameOk h7 g7
        cases hy; cases hy'
        exact base.append (Fits.cons (autoSame_rises (ha _ (idx_mem h7)) (idx_rises h _ h6 g6) h8 g8) Fits.nil)
      · simp only [hl, if_false] at hy hy'
        cases hy; cases hy'
        exact base
    | valid =>
      simp only at hy hy'
      replace hy := bindOk hy; obtain ⟨d, h3, hy⟩ := hy
      replace hy := bindOk hy; obtain ⟨k, hk, hy⟩ := hy
      replace hy := bindOk hy; obtain ⟨s, h4, hy⟩ := hy
      replace hy := bindOk hy; obtain ⟨v, h5, hy⟩ := hy
      replace hy' := bindOk hy'; obtain ⟨d', g3, hy'⟩ := hy'
      replace hy' := bindOk hy'; obtain ⟨k', gk, hy'⟩ := hy'
      replace hy' := bindOk hy'; obtain ⟨s', g4, hy'⟩ := hy'
      replace hy' := bindOk hy'; obtain ⟨v', g5, hy'⟩ := hy'
      cases sameOk h4 g4; cases sameOk hk gk
      have base : Fits (x.take 2 ++ [v]) (x'.take 2 ++ [v']) :=
        (h.take 2).append (Fits.cons (autoValid_rises (ha _ (idx_mem h4)) (idx_rises h _ h3 g3) h5 g5) Fits.nil)
      by_cases hl : a.strides.length = 2
      · simp only [hl, if_true] at hy hy'
        replace hy := bindOk hy; obtain ⟨e, h6, hy⟩ := hy
        replace hy := bindOk hy; obtain ⟨l, hl, hy⟩ := hy
        replace hy := bindOk hy; obtain ⟨t, h7, hy⟩ := hy
        replace hy := bindOk hy; obtain ⟨u, h8, hy⟩ := hy
        replace hy' := bindOk hy'; obtain ⟨e', g6, hy'⟩ := hy'
        replace hy' := bindOk hy'; obtain ⟨l', gl, hy'⟩ := hy'
        replace hy' := bindOk hy'; obtain ⟨t', g7, hy'⟩ := hy'
        replace hy' := bindOk hy'; obtain ⟨u', g8, hy'⟩ := hy'
        cases sameOk h7 g7; cases sameOk hl gl
        cases hy; cases hy'
        exact base.append (Fits.cons (autoValid_rises (ha _ (idx_mem h7)) (idx_rises h _ h6 g6) h8 g8) Fits.nil)
      · simp only [hl, if_false] at hy hy'
        cases hy; cases hy'
        exact base

theorem convTransAxis_rises {a : Attrs} (ha : ∀ s ∈ a.strides, 0 ≤ s) {x x' w : List Int} (h : Fits x x') {i b e : Nat} {v v' : Int}
    (hv : convTransAxis a x w i b e = .ok v) (hv' : convTransAxis a x' w i b e = .ok v') : v ≤ v' := by
  unfold convTransAxis at hv hv'
  replace hv := bindOk hv; obtain ⟨d, h1, hv⟩ := hv
  replace hv := bindOk hv; obtain ⟨o, h2, hv⟩ := hv
  replace hv := bindOk hv; obtain ⟨p, h3, hv⟩ := hv
  replace hv := bindOk hv; obtain ⟨q, h4, hv⟩ := hv
  replace hv := bindOk hv; obtain ⟨k, h5, hv⟩ := hv
  replace hv := bindOk hv; obtain ⟨s, h6, hv⟩ := hv
  replace hv := bindOk hv; obtain ⟨l, h7, hv⟩ := hv
  replace hv' := bindOk hv'; obtain ⟨d', g1, hv'⟩ := hv'
  replace hv' := bindOk hv'; obtain ⟨o', g2, hv'⟩ := hv'
  replace hv' := bindOk hv'; obtain ⟨p', g3, hv'⟩ := hv'
  replace hv' := bindOk hv'; obtain ⟨q', g4, hv'⟩ := hv'
  replace hv' := bindOk hv'; obtain ⟨k', g5, hv'⟩ := hv'
  replace hv' := bindOk hv'; obtain ⟨s', g6, hv'⟩ := hv'
  replace hv' := bindOk hv'; obtain ⟨l', g7, hv'⟩ := hv'
  cases sameOk h2 g2; cases sameOk h3 g3; cases sameOk h4 g4; cases sameOk h5 g5; cases sameOk h6 g6; cases sameOk h7 g7
  cases hv; cases hv'
  have hd := idx_rises h _ h1 g1
  have := Int.mul_le_mul_of_nonneg_left (show d - 1 ≤ d' - 1 by omega) (ha s (idx_mem h6))
  unfold convTransOut
  omega

theorem convTrans_rises {a : Attrs} (ha : ∀ s ∈ a.strides, 0 ≤ s) (w : List Int) : Rises fun x => convTransShape a x w := by
  intro x x' y y' h hy hy'
  simp only at hy hy'
  unfold convTransShape at hy hy'
  rw [← h.length] at hy'
  replace hy := bindOk hy; obtain ⟨c, h0, hy⟩ := hy
  replace hy' := bindOk hy'; obtain ⟨c', g0, hy'⟩ := hy'
  cases sameOk h0 g0
  simp only at hy hy'
  by_cases h5 : x.length = 5
  · rw [if_pos h5] at hy hy'
    replace hy := bindOk hy; obtain ⟨s1, h1, hy⟩ := hy
    replace hy := bindOk hy; obtain ⟨s2, h2, hy⟩ := hy
    replace hy := bindOk hy; obtain ⟨s3, h3, hy⟩ := hy
    replace hy := bindOk hy; obtain ⟨n, h4, hy⟩ := hy
    replace hy' := bindOk hy'; obtain ⟨s1', g1, hy'⟩ := hy'
    replace hy' := bindOk hy'; obtain ⟨s2', g2, hy'⟩ := hy'
    replace hy' := bindOk hy'; obtain ⟨s3', g3, hy'⟩ := hy'
    replace hy' := bindOk hy'; obtain ⟨n', g4, hy'⟩ := hy'
    cases hy; cases hy'
    refine (Fits.cons (idx_rises h _ h4 g4) (Fits.cons (le_refl _) Fits.nil)).append ?_
    split
    · exact Fits.refl _
    · exact Fits.cons (convTransAxis_rises ha h h1 g1) (Fits.cons (convTransAxis_rises ha h h2 g2) (Fits.cons (convTransAxis_rises ha h h3 g3) Fits.nil))
  rw [if_neg h5] at hy hy'
  by_cases h4 : x.length = 4
  · rw [if_pos h4] at hy hy'
    replace hy := bindOk hy; obtain ⟨s1, h1, hy⟩ := hy
    replace hy := bindOk hy; obtain ⟨s2, h2, hy⟩ := hy
    replace hy := bindOk hy; obtain ⟨n, h4, hy⟩ := hy
    replace hy' := bindOk hy'; obtain ⟨s1', g1, hy'⟩ := hy'
    replace hy' := bindOk hy'; obtain ⟨s2', g2, hy'⟩ := hy'
    replace hy' := bindOk hy'; obtain ⟨n', g4, hy'⟩ := hy'
    cases hy; cases hy'
    refine (Fits.cons (idx_rises h _ h4 g4) (Fits.cons (le_refl _) Fits.nil)).append ?_
    split
    · exact Fits.refl _
    · exact Fits.cons (convTransAxis_rises ha h h1 g1) (Fits.cons (convTransAxis_rises ha h h2 g2) Fits.nil)
  rw [if_neg h4] at hy hy'
  by_cases h3 : x.length = 3
  · rw [if_pos h3] at hy hy'
    replace hy := bindOk hy; obtain ⟨s1, h1, hy⟩ := hy
    replace hy' := bindOk hy'; obtain ⟨s1', g1, hy'⟩ := hy'
    by_cases hv : volumeInt a.outputShape ≠ 0
    · rw [if_pos hv] at hy hy'
      replace hy := bindOk hy; obtain ⟨n, h4, hy⟩ := hy
      replace hy := bindOk hy; obtain ⟨o, h5, hy⟩ := hy
      replace hy' := bindOk hy'; obtain ⟨n', g4, hy'⟩ := hy'
      replace hy' := bindOk hy'; obtain ⟨o', g5, hy'⟩ := hy'
      cases sameOk h5 g5
      cases hy; cases hy'
      exact Fits.cons (idx_rises h _ h4 g4) (Fits.refl _)
    · rw [if_neg hv] at hy hy'
      replace hy := bindOk hy; obtain ⟨n, h4, hy⟩ := hy
      replace hy' := bindOk hy'; obtain ⟨n', g4, hy'⟩ := hy'
      cases hy; cases hy'
      exact Fits.cons (idx_rises h _ h4 g4) (Fits.cons (le_refl _) (Fits.cons (convTransAxis_rises ha h h1 g1) Fits.nil))
  rw [if_neg h3] at hy hy'
  cases hy; cases hy'
  exact Fits.nil

/-! ### matrix products -/

theorem gemm_rises {gemm ta tb : Bool} {a a' b b' y y' : Shp} (ha : Fits a a') (hb : Fits b b') (h2 : b.length = 2)
    (hy : gemmShape gemm ta tb a b = .ok y) (hy' : gemmShape gemm ta tb a' b' = .ok y') : Fits y y' := by
  unfold gemmShape at hy hy'
  have h2' : b'.length = 2 := by rw [← hb.length]; exact h2
  rw [← ha.length, h2'] at hy'
  rw [h2] at hy
  have hv : ∀ s : Shp, volume s ≥ volume ([] : Shp) := fun s => Nat.zero_le _
  split at hy
  · cases hy
  · rename_i hc
    rw [if_neg hc] at hy'
    simp only [Nat.sub_self, List.take_zero, hv, if_true] at hy hy'
    have ht := ha.take (a.length - 2)
    have e0 := hb.getD 0 0
    have e1 := hb.getD (2 - 1) 0
    have f0 := ha.getD (a.length - 2) 0
    have f1 := ha.getD (a.length - 1) 0
    by_cases hg : gemm = true
    · rw [if_pos hg] at hy hy'
      cases ta <;> cases tb <;> simp only [if_true, Bool.false_eq_true, if_false] at hy hy' <;>
        (split at hy
         · cases hy
         · split at hy'
           · cases hy'
           · cases hy; cases hy'
             exact ht.append (Fits.cons (by assumption) (Fits.cons (by assumption) Fits.nil)))
    · rw [if_neg hg] at hy hy'
      cases hy; cases hy'
      exact ht.append (Fits.cons f0 (Fits.cons e1 Fits.nil))

theorem gemm_ends {gemm ta tb : Bool} {a b y : Shp} (hy : gemmShape gemm ta tb a b = .ok y) :
    ∃ i j, i = (if gemm && ta then a.length - 1 else a.length - 2) ∧ j = (if gemm && tb then b.length - 2 else b.length - 1) ∧
      y = (if volume (a.take (a.length - 2)) ≥ volume (b.take (b.length - 2)) then a.take (a.length - 2) else b.take (b.length - 2)) ++ [a.getD i 0, b.getD j 0] := by
  unfold gemmShape at hy
  by_cases hc : a.length < 2 ∨ b.length < 2
  · rw [if_pos hc] at hy; cases hy
  · rw [if_neg hc] at hy
    simp only at hy
    cases gemm
    · simp only [Bool.false_eq_true, if_false] at hy
      cases hy
      exact ⟨_, _, rfl, rfl, rfl⟩
    · cases ta <;> cases tb <;> simp only [if_true, Bool.false_eq_true, if_false] at hy <;>
        (split at hy
         · cases hy
         · cases hy
           exact ⟨_, _, rfl, rfl, rfl⟩)

theorem gemm_batch {gemm ta tb : Bool} {a b y : Shp} (hy : gemmShape gemm ta tb a b = .ok y) :
    y.take (y.length - 2) = if volume (a.take (a.length - 2)) ≥ volume (b.take (b.length - 2)) then a.take (a.length - 2) else b.take (b.length - 2) := by
  obtain ⟨i, j, _, _, rfl⟩ := gemm_ends hy
  generalize (if volume (a.take (a.length - 2)) ≥ volume (b.take (b.length - 2)) then a.take (a.length - 2) else b.take (b.length - 2)) = w
  simp

theorem gemm_rises_batch {gemm ta tb : Bool} {a a' b b' r r' y y' : Shp} (ha : Fits a a') (hb : Fits b b') (hr : Fits r r')
    (hy : gemmShape gemm ta tb a b = .ok y) (hy' : gemmShape gemm ta tb a' b' = .ok y') (e : y.take (y.length - 2) = r) (e' : y'.take (y'.length - 2) = r') : Fits y y' := by
  rw [gemm_batch hy] at e
  rw [gemm_batch hy'] at e'
  obtain ⟨i, j, hi, hj, rfl⟩ := gemm_ends hy
  obtain ⟨i', j', hi', hj', rfl⟩ := gemm_ends hy'
  rw [e, e']
  have hii : i' = i := by rw [hi, hi', ha.length]
  have hjj : j' = j := by rw [hj, hj', hb.length]
  subst hii; subst hjj
  exact hr.append (Fits.cons (ha.getD _ 0) (Fits.cons (hb.getD _ 0) Fits.nil))

/-! ### Split, Resize, Slice -/

theorem splitOne_rises (axis e v : Int) (i : Nat) {x x' : List Nat} (h : Fits x x') : Fits (splitOne axis e v i x) (splitOne axis e v i x') := by
  induction h generalizing i with
  | nil => exact Fits.nil
  | cons hab _ ih =>
    unfold splitOne
    refine Fits.cons ?_ (ih (i + 1))
    rename_i a b _ _ _
    have : (a : Int) ≤ b := by exact_mod_cast hab
    split
    · split <;> split <;> omega
    · exact this

theorem splitLoop_rises (axis : Int) (e : Int) (sp : List Int) {x x' : List Nat} (h : Fits x x') :
    List.Forall₂ Fits (splitLoop x axis e sp) (splitLoop x' axis e sp) := by
  induction sp generalizing e with
  | nil => exact List.Forall₂.nil
  | cons v vs ih => exact List.Forall₂.cons (splitOne_rises axis e v 0 h) (ih (e + v))

theorem zipFloor_rises (scales : List Rat) (hs : ∀ s ∈ scales, 0 ≤ s) {x x' : List Nat} (h : Fits x x') :
    Fits (List.zipWith (fun (d : Nat) s => ((d : Rat) * s).floor.toNat) x scales) (List.zipWith (fun (d : Nat) s => ((d : Rat) * s).floor.toNat) x' scales) := by
  induction h generalizing scales with
  | nil => exact Fits.nil
  | cons hab _ ih =>
    cases scales with
    | nil => exact Fits.nil
    | cons s ss =>
      refine Fits.cons ?_ (ih ss fun t ht => hs t (List.mem_cons_of_mem _ ht))
      have h0 := hs s List.mem_cons_self
      rename_i a b _ _ _
      have h1 : (a : Rat) ≤ b := by exact_mod_cast hab
      have h2 : (a : Rat) * s ≤ b * s := mul_le_mul_of_nonneg_right h1 h0
      have h3 : ((a : Rat) * s).floor ≤ ((b : Rat) * s).floor := Rat.floor_monotone h2
      simp only
      omega

theorem axisSize_rises {d d' : Nat} (h : d ≤ d') {s e st : Int} (hs : Steady d d' s e st) {v v' : Nat} (hv : axisSize (effOf d s e st) = .ok v)
    (hv' : axisSize (effOf d' s e st) = .ok v') : v ≤ v' := by
  have hd : (d : Int) ≤ d' := by exact_mod_cast h
  rcases hs with ⟨hp, hc⟩ | ⟨hn, hd0, hd1, hc⟩
  · have key : (effOf d s e st).2.1 - (effOf d s e st).1 ≤ (effOf d' s e st).2.1 - (effOf d' s e st).1 ∨ (effOf d s e st).2.1 - (effOf d s e st).1 ≤ 0 := by
      unfold effOf
      simp only [if_neg (show ¬ st < 0 by omega)]
      split <;> split <;> omega
    have e1 : (effOf d s e st).2.2 = st := rfl
    have e2 : (effOf d' s e st).2.2 = st := rfl
    generalize effOf d s e st = t at *
    generalize effOf d' s e st = t' at *
    unfold axisSize at hv hv'
    rw [e1, if_pos hp] at hv
    rw [e2, if_pos hp] at hv'
    simp only at hv hv'
    split at hv
    · cases hv; exact Nat.zero_le _
    · rename_i hpos
      rw [if_neg (by omega)] at hv'
      cases hv; cases hv'
      have := ceilDiv_rises hp (show t.2.1 - t.1 ≤ t'.2.1 - t'.1 by omega)
      omega
  · have key : (effOf d s e st).1 - (effOf d s e st).2.1 ≤ (effOf d' s e st).1 - (effOf d' s e st).2.1 ∨ (effOf d s e st).1 - (effOf d s e st).2.1 ≤ 0 := by
      unfold effOf
      simp only [if_pos hn]
      split <;> split <;> omega
    have e1 : (effOf d s e st).2.2 = st := rfl
    have e2 : (effOf d' s e st).2.2 = st := rfl
    generalize effOf d s e st = t at *
    generalize effOf d' s e st = t' at *
    unfold axisSize at hv hv'
    rw [e1, if_neg (by omega)] at hv
    rw [e2, if_neg (by omega)] at hv'
    simp only at hv hv'
    split at hv
    · cases hv; exact Nat.zero_le _
    · rename_i hpos
      rw [if_neg (by omega), if_neg (by omega)] at hv'
      rw [if_neg (by omega)] at hv
      cases hv; cases hv'
      have := ceilDiv_rises (show 0 < -st by omega) (show t.1 - t.2.1 ≤ t'.1 - t'.2.1 by omega)
      omega

/-- the size of an axis does not fall from the range `t` to the range `t'` -/
def SizeLe (t t' : Int × Int × Int) : Prop := ∀ v v', axisSize t = .ok v → axisSize t' = .ok v' → v ≤ v'

theorem sizes_rises {ts ts' : List (Int × Int × Int)} (h : List.Forall₂ SizeLe ts ts') {y y' : List Nat} (hy : sizes ts = .ok y) (hy' : sizes ts' = .ok y') :
    Fits y y' := by
  induction h generalizing y y' with
  | nil => cases hy; cases hy'; exact Fits.nil
  | cons hr _ ih =>
    unfold sizes at hy hy'
    replace hy := bindOk hy; obtain ⟨v, h1, hy⟩ := hy
    replace hy := bindOk hy; obtain ⟨vs, h2, hy⟩ := hy
    replace hy' := bindOk hy'; obtain ⟨v', g1, hy'⟩ := hy'
    replace hy' := bindOk hy'; obtain ⟨vs', g2, hy'⟩ := hy'
    cases hy; cases hy'
    exact Fits.cons (hr _ _ h1 g1) (ih h2 g2)

theorem forall2_set {α : Type} {R : α → α → Prop} {l l' : List α} (h : List.Forall₂ R l l') (k : Nat) {a b : α} (hab : R a b) :
    List.Forall₂ R (l.set k a) (l'.set k b) := by
  induction h generalizing k with
  | nil => exact List.Forall₂.nil
  | cons hc h ih =>
    cases k with
    | zero => exact List.Forall₂.cons hab h
    | succ k => exact List.Forall₂.cons hc (ih k)

theorem idx_getD {xs : List Int} {i : Nat} {v : Int} (h : idx xs i = .ok v) (d : Int) : xs.getD i d = v := by
  unfold idx at h
  split at h
  · rename_i w hw; cases h; rw [List.getD_eq_getElem?_getD, hw]; rfl
  · cases h

theorem effLoop_rises {x x' : List Nat} (h : Fits x x') {starts ends steps : List Int} (i : Nat) (as : List Int) {eff eff' r r' : List (Int × Int × Int)}
    (he : List.Forall₂ SizeLe eff eff')
    (hs : ∀ j a k, as[j]? = some a → normIndex x.length a = .ok k →
      Steady (x.getD k 0) (x'.getD k 0) (starts.getD (i + j) 0) (ends.getD (i + j) 0) (steps.getD (i + j) 0))
    (hr : effLoop x starts ends steps i as eff = .ok r) (hr' : effLoop x' starts ends steps i as eff' = .ok r') : List.Forall₂ SizeLe r r' := by
  induction as generalizing i eff eff' with
  | nil => cases hr; cases hr'; exact he
  | cons a as ih =>
    unfold effLoop at hr hr'
    rw [← h.length] at hr'
    replace hr := bindOk hr; obtain ⟨s, h1, hr⟩ := hr
    replace hr := bindOk hr; obtain ⟨e, h2, hr⟩ := hr
    replace hr := bindOk hr; obtain ⟨st, h3, hr⟩ := hr
    replace hr := bindOk hr; obtain ⟨k, h4, hr⟩ := hr
    replace hr' := bindOk hr'; obtain ⟨s', g1, hr'⟩ := hr'
    replace hr' := bindOk hr'; obtain ⟨e', g2, hr'⟩ := hr'
    replace hr' := bindOk hr'; obtain ⟨st', g3, hr'⟩ := hr'
    replace hr' := bindOk hr'; obtain ⟨k', g4, hr'⟩ := hr'
    cases sameOk h1 g1; cases sameOk h2 g2; cases sameOk h3 g3; cases sameOk h4 g4
    refine ih (i + 1) (forall2_set he k ?_) ?_ hr hr'
    · intro v v' hv hv'
      have := hs 0 a k rfl h4
      rw [Nat.add_zero, idx_getD h1, idx_getD h2, idx_getD h3] at this
      exact axisSize_rises (h.getD k 0) this hv hv'
    · intro j a' k' ha' hk'
      have := hs (j + 1) a' k' ha' hk'
      rw [show i + 1 + j = i + (j + 1) by omega]
      exact this

theorem slice_rises {x x' : List Nat} (h : Fits x x') {starts ends : List Int} {axes steps : Option (List Int)} {y y' : List Nat}
    (hs : ∀ j a k, (axesNeg2Pos x.length (axes.getD ((List.range x.length).map Int.ofNat)))[j]? = some a → normIndex x.length a = .ok k →
      Steady (x.getD k 0) (x'.getD k 0) (starts.getD j 0) (ends.getD j 0) ((steps.getD (List.replicate starts.length 1)).getD j 0))
    (hy : sliceShape x starts ends axes steps = .ok y) (hy' : sliceShape x' starts ends axes steps = .ok y') : Fits y y' := by
  unfold sliceShape at hy hy'
  rw [← h.length] at hy'
  simp only at hy hy'
  replace hy := bindOk hy; obtain ⟨eff, h1, hy⟩ := hy
  replace hy' := bindOk hy'; obtain ⟨eff', g1, hy'⟩ := hy'
  refine sizes_rises (effLoop_rises h 0 _ ?_ ?_ h1 g1) hy hy'
  · clear hs hy hy' h1 g1
    induction h with
    | nil => exact List.Forall₂.nil
    | @cons d d' _ _ hd _ ih =>
      refine List.Forall₂.cons ?_ ih
      intro v v' hv hv'
      refine axisSize_rises (s := 0) (e := d') (st := 1) hd (Or.inl ⟨by omega, Or.inl (le_refl _)⟩) ?_ ?_
      · have : effOf d 0 d' 1 = (0, (d : Int), 1) := by
          unfold effOf
          have : (d : Int) ≤ d' := by exact_mod_cast hd
          simp only [show ¬ (1 : Int) < 0 by omega, show ¬ (0 : Int) < 0 by omega, show ¬ (d' : Int) < 0 by omega, if_false, Prod.mk.injEq, and_true]
          omega
        rw [this]; exact hv
      · have : effOf d' 0 d' 1 = (0, (d' : Int), 1) := by
          unfold effOf
          simp only [show ¬ (1 : Int) < 0 by omega, show ¬ (0 : Int) < 0 by omega, show ¬ (d' : Int) < 0 by omega, if_false, Prod.mk.injEq, and_true]
          omega
        rw [this]; exact hv'
  · intro j a k ha hk
    rw [Nat.zero_add]
    exact hs j a k ha hk

/-! ### Reshape -/

/-- the product of the source dimensions that the target copies -/
def copied : List Nat → List Int → Int
  | d :: ds, t :: ts => (if t = 0 then (d : Int) else 1) * copied ds ts
  | _, _ => 1

/-- the product of the others -/
def others : List Nat → List Int → Int
  | d :: ds, t :: ts => (if t = 0 then 1 else (d : Int)) * others ds ts
  | d :: ds, [] => (d : Int) * others ds []
  | [], _ => 1

/-- the product of the target dimensions that are not zero -/
def given : List Int → Int
  | [] => 1
  | t :: ts => (if t = 0 then 1 else t) * given ts

theorem copied_others (x : List Nat) (t : List Int) : prodI (x.map Int.ofNat) = copied x t * others x t := by
  induction x generalizing t with
  | nil => cases t <;> rfl
  | cons d x ih =>
    rw [List.map_cons, prodI_cons]
    cases t with
    | nil =>
      have := ih []
      have hc : ∀ x : List Nat, copied x [] = 1 := fun x => by cases x <;> rfl
      rw [hc] at this
      show _ = 1 * ((d : Int) * others x [])
      rw [this]
      show (d : Int) * _ = _
      ring
    | cons t ts =>
      have := ih ts
      unfold copied others
      rw [this]
      show (d : Int) * _ = _
      split <;> ring

theorem copied_pos (x : List Nat) (hx : ∀ d ∈ x, 0 < d) (t : List Int) : 0 < copied x t := by
  induction x generalizing t with
  | nil => unfold copied; simp
  | cons d x ih =>
    cases t with
    | nil => unfold copied; simp
    | cons t ts =>
      unfold copied
      refine Int.mul_pos ?_ (ih (fun e he => hx e (List.mem_cons_of_mem _ he)) ts)
      split
      · exact_mod_cast hx d List.mem_cons_self
      · omega

theorem others_pos (x : List Nat) (hx : ∀ d ∈ x, 0 < d) (t : List Int) : 0 < others x t := by
  induction x generalizing t with
  | nil => unfold others; simp
  | cons d x ih =>
    have hd : (0 : Int) < d := by exact_mod_cast hx d List.mem_cons_self
    cases t with
    | nil => exact Int.mul_pos hd (ih (fun e he => hx e (List.mem_cons_of_mem _ he)) [])
    | cons t ts =>
      unfold others
      refine Int.mul_pos ?_ (ih (fun e he => hx e (List.mem_cons_of_mem _ he)) ts)
      split <;> omega

theorem others_rises {x x' : List Nat} (h : Fits x x') (hx : ∀ d ∈ x, 0 < d) (t : List Int) : others x t ≤ others x' t := by
  induction h generalizing t with
  | nil => exact le_refl _
  | @cons d d' ds ds' hd hr ih =>
    have hd' : (d : Int) ≤ d' := by exact_mod_cast hd
    have hp : (0 : Int) < d := by exact_mod_cast hx d List.mem_cons_self
    have hxs : ∀ e ∈ ds, 0 < e := fun e he => hx e (List.mem_cons_of_mem _ he)
    cases t with
    | nil => exact Int.mul_le_mul hd' (ih hxs []) (others_pos _ hxs _).le (by omega)
    | cons t ts =>
      unfold others
      refine Int.mul_le_mul ?_ (ih hxs ts) (others_pos _ hxs _).le ?_ <;> split <;> omega

theorem copied_cons (d : Nat) (ds : List Nat) (t : Int) (ts : List Int) : copied (d :: ds) (t :: ts) = (if t = 0 then (d : Int) else 1) * copied ds ts := rfl

theorem given_cons (t : Int) (ts : List Int) : given (t :: ts) = (if t = 0 then 1 else t) * given ts := rfl

theorem copyZeros_cons (x : List Nat) (i : Nat) (t : Int) (ts new : List Int) (h : copyZeros x i (t :: ts) = .ok new) :
    ∃ v vs, (if t = 0 then idx (x.map Int.ofNat) i else .ok t) = .ok v ∧ copyZeros x (i + 1) ts = .ok vs ∧ new = v :: vs := by
  unfold copyZeros at h
  simp only at h
  by_cases ht : t = 0
  · rw [if_pos ht] at h ⊢
    replace h := bindOk h; obtain ⟨v, h1, h⟩ := h
    replace h := bindOk h; obtain ⟨vs, h2, h⟩ := h
    cases h
    exact ⟨v, vs, h1, h2, rfl⟩
  · rw [if_neg ht] at h ⊢
    replace h := bindOk h; obtain ⟨v, h1, h⟩ := h
    replace h := bindOk h; obtain ⟨vs, h2, h⟩ := h
    cases h
    exact ⟨v, vs, h1, h2, rfl⟩

/-- the copy from position `i` on -/
theorem copyZeros_prod (x : List Nat) (i : Nat) (t new : List Int) (h : copyZeros x i t = .ok new) : prodI new = copied (x.drop i) t * given t ∧ new.length = t.length := by
  induction t generalizing i new with
  | nil => cases h; exact ⟨by cases x.drop i <;> rfl, rfl⟩
  | cons t ts ih =>
    obtain ⟨v, vs, h1, h2, rfl⟩ := copyZeros_cons x i t ts new h
    obtain ⟨e1, e2⟩ := ih (i + 1) vs h2
    refine ⟨?_, by simp [e2]⟩
    rw [prodI_cons, e1]
    by_cases ht : t = 0
    · rw [if_pos ht] at h1
      unfold idx at h1
      split at h1
      · rename_i w hw
        cases h1
        rw [List.getElem?_map] at hw
        cases hg : x[i]? with
        | none => rw [hg] at hw; cases hw
        | some d =>
          rw [hg] at hw; cases hw
          have hdrop : x.drop i = d :: x.drop (i + 1) := by
            obtain ⟨hl, hv⟩ := List.getElem?_eq_some_iff.mp hg
            rw [← hv, List.drop_eq_getElem_cons hl]
          rw [hdrop]
          rw [copied_cons, given_cons, if_pos ht, if_pos ht]
          show (d : Int) * _ = _
          ring
      · cases h1
    · rw [if_neg ht] at h1
      cases h1
      cases hd : x.drop i with
      | nil =>
        have : x.drop (i + 1) = [] := by
          rw [List.drop_eq_nil_iff] at hd ⊢; omega
        rw [this]
        have hc : ∀ t, copied [] t = 1 := fun t => by cases t <;> rfl
        rw [hc, hc]
        rw [given_cons, if_neg ht]
        ring
      | cons d ds =>
        have : x.drop (i + 1) = ds := by
          rw [← List.drop_drop, hd]; rfl
        rw [this]
        rw [copied_cons, given_cons, if_neg ht, if_neg ht]
        ring

theorem copyZeros_rises {x x' : List Nat} (h : Fits x x') (i : Nat) (t new new' : List Int) (h1 : copyZeros x i t = .ok new) (h2 : copyZeros x' i t = .ok new') :
    Fits new new' ∧ List.Forall₂ (fun a b => a = b ∨ (0 ≤ a ∧ 0 ≤ b)) new new' := by
  induction t generalizing i new new' with
  | nil => cases h1; cases h2; exact ⟨Fits.nil, List.Forall₂.nil⟩
  | cons t ts ih =>
    obtain ⟨v, vs, a1, a2, rfl⟩ := copyZeros_cons x i t ts new h1
    obtain ⟨v', vs', b1, b2, rfl⟩ := copyZeros_cons x' i t ts new' h2
    obtain ⟨c1, c2⟩ := ih (i + 1) vs vs' a2 b2
    by_cases ht : t = 0
    · rw [if_pos ht] at a1 b1
      have hm : Fits (x.map Int.ofNat) (x'.map Int.ofNat) := h.map _ (fun a b hab => Int.ofNat_le.mpr hab)
      have nn : ∀ (y : List Nat) (v : Int), idx (y.map Int.ofNat) i = .ok v → 0 ≤ v := by
        intro y v hv
        obtain ⟨n, -, rfl⟩ := List.mem_map.mp (idx_mem hv)
        exact Int.natCast_nonneg n
      exact ⟨Fits.cons (idx_rises hm _ a1 b1) c1, List.Forall₂.cons (Or.inr ⟨nn _ _ a1, nn _ _ b1⟩) c2⟩
    · rw [if_neg ht] at a1 b1
      cases a1; cases b1
      exact ⟨Fits.cons (le_refl _) c1, List.Forall₂.cons (Or.inl rfl) c2⟩

theorem fillFirst_rises {new new' : List Int} (h : Fits new new') (hs : List.Forall₂ (fun a b => a = b ∨ (0 ≤ a ∧ 0 ≤ b)) new new') {r r' : Int} (hr : r ≤ r') :
    Fits (fillFirst r new) (fillFirst r' new') := by
  induction h with
  | nil => exact Fits.nil
  | @cons a b as bs hab ht ih =>
    cases hs with
    | cons h0 hs =>
      unfold fillFirst
      by_cases ha : a = -1
      · have hb : b = -1 := by omega
        rw [if_pos ha, if_pos hb]
        exact Fits.cons hr ht
      · have hb : ¬ b = -1 := by omega
        rw [if_neg ha, if_neg hb]
        exact Fits.cons hab (ih hs)

theorem fillFirst_prod (r : Int) (new : List Int) (h : -1 ∈ new) : prodI (fillFirst r new) = -r * prodI new := by
  induction new with
  | nil => cases h
  | cons a as ih =>
    unfold fillFirst
    by_cases ha : a = -1
    · rw [if_pos ha, prodI_cons, prodI_cons, ha]; ring
    · rw [if_neg ha, prodI_cons, prodI_cons, ih ((List.mem_cons.mp h).resolve_left fun c => ha c.symm)]; ring

theorem fillFirst_none (r : Int) (new : List Int) (h : -1 ∉ new) : fillFirst r new = new := by
  induction new with
  | nil => rfl
  | cons a as ih =>
    unfold fillFirst
    rw [if_neg (fun ha => h (by rw [ha]; exact List.mem_cons_self)), ih fun c => h (List.mem_cons_of_mem _ c)]

theorem reshape_rises {x x' : List Nat} (h : Fits x x') (hx : ∀ d ∈ x, 0 < d) {t y y' : List Int} (hy : reshapeShape x t = .ok y) (hy' : reshapeShape x' t = .ok y') :
    Fits y y' := by
  unfold reshapeShape at hy hy'
  replace hy := bindOk hy; obtain ⟨new, h1, hy⟩ := hy
  replace hy' := bindOk hy'; obtain ⟨new', g1, hy'⟩ := hy'
  simp only at hy hy'
  obtain ⟨e1, e2⟩ := copyZeros_prod x 0 t new h1
  obtain ⟨f1, f2⟩ := copyZeros_prod x' 0 t new' g1
  rw [List.drop_zero] at e1 f1
  obtain ⟨c1, c2⟩ := copyZeros_rises h 0 t new new' h1 g1
  have hx' : ∀ d ∈ x', 0 < d := by
    intro d hd
    obtain ⟨d0, hd0, hle⟩ := mem_rel' h d hd
    have := hx d0 hd0
    omega
  by_cases hn : new = []
  · have hn' : new' = [] := by
      rw [← List.length_eq_zero_iff, f2, ← e2, hn]; rfl
    subst hn hn'
    have hv : ¬ volumeInt ([] : List Int) < 0 := by decide
    simp only [if_neg hv] at hy hy'
    split at hy
    · split at hy'
      · cases hy; cases hy'; exact Fits.nil
      · cases hy'
    · cases hy
  have hn' : new' ≠ [] := by
    intro c
    apply hn
    rw [← List.length_eq_zero_iff, e2, ← f2, c]; rfl
  rw [volumeInt_eq hn] at hy
  rw [volumeInt_eq hn'] at hy'
  have cp := copied_pos x hx t
  have cp' := copied_pos x' hx' t
  by_cases hs : prodI new < 0
  · have hg : given t < 0 := by
      rw [e1] at hs
      exact neg_of_mul_neg_right hs cp.le
    have hs' : prodI new' < 0 := by
      rw [f1]
      exact mul_neg_of_pos_of_neg cp' hg
    rw [if_pos hs] at hy
    rw [if_pos hs'] at hy'
    split at hy
    · rename_i q
      split at hy'
      · rename_i q'
        cases hy; cases hy'
        by_cases hm : -1 ∈ new
        · have hm' : -1 ∈ new' := by
            clear q q' e1 f1 hs hs' h1 g1 e2 f2 hn hn'
            induction c2 with
            | nil => cases hm
            | cons h0 _ ih =>
              cases c1 with
              | cons _ c1 =>
                rcases List.mem_cons.mp hm with hm | hm
                · rcases h0 with rfl | h0
                  · rw [hm]; exact List.mem_cons_self
                  · omega
                · exact List.mem_cons_of_mem _ (ih c1 hm)
          have fn : ∀ (r : Int) (l : List Int), l ≠ [] → fillFirst r l ≠ [] := by
            intro r l hl
            cases l with
            | nil => exact absurd rfl hl
            | cons a as => unfold fillFirst; split <;> simp
          have xn : ∀ (l : List Int) (r : Int) (z : List Nat), (∀ d ∈ z, 0 < d) → l ≠ [] → -1 ∈ l → prodI l = copied z t * given t →
              volumeInt (z.map Int.ofNat) = volumeInt (fillFirst r l) → z ≠ [] → r * (-given t) = others z t := by
            intro l r z hz hl hm1 hp hq hz0
            rw [volumeInt_eq (fn r l hl), fillFirst_prod r l hm1, hp, volumeInt_eq (by simpa using hz0), copied_others z t] at hq
            have : copied z t * others z t = copied z t * (r * (-given t)) := by rw [hq]; ring
            exact (Int.eq_of_mul_eq_mul_left (by have := copied_pos z hz t; omega) this).symm
          by_cases hxn : x = []
          · subst hxn
            cases h
            exact (copyZeros_rises Fits.nil 0 t new new' h1 g1).1 |> fun c => fillFirst_rises c c2 (by
              have : copied [] t = 1 := by cases t <;> rfl
              rw [e1, f1])
          · have hxn' : x' ≠ [] := by
              intro c; subst c; cases h; exact hxn rfl
            have k1 := xn _ _ x hx hn hm e1 q hxn
            have k2 := xn _ _ x' hx' hn' hm' f1 q' hxn'
            refine fillFirst_rises c1 c2 ?_
            have k3 := others_rises h hx t
            rw [← k1, ← k2] at k3
            exact le_of_mul_le_mul_right k3 (by omega)
        · have hm' : -1 ∉ new' := by
            intro c
            apply hm
            clear q q' e1 f1 hs hs' h1 g1 e2 f2 hn hn' hm
            induction c2 with
            | nil => cases c
            | cons h0 _ ih =>
              cases c1 with
              | cons _ c1 =>
                rcases List.mem_cons.mp c with c | c
                · rcases h0 with rfl | h0
                  · rw [c]; exact List.mem_cons_self
                  · omega
                · exact List.mem_cons_of_mem _ (ih c1 c)
          rw [fillFirst_none _ _ hm, fillFirst_none _ _ hm']
          exact c1
      · cases hy'
    · cases hy
  · have hg : 0 ≤ given t := by
      rw [e1] at hs
      by_contra hc
      exact hs (mul_neg_of_pos_of_neg cp (by omega))
    have hs' : ¬ prodI new' < 0 := by
      rw [f1]
      have := Int.mul_nonneg cp'.le hg
      omega
    rw [if_neg hs] at hy
    rw [if_neg hs'] at hy'
    split at hy
    · split at hy'
      · cases hy; cases hy'; exact c1
      · cases hy'
    · cases hy

end OnnxTool.Grow
