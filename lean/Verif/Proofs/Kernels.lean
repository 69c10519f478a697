import Verif.Model.Kernels
import Verif.Spec.Kernels
import Verif.Proofs.Torch
import Mathlib.Data.List.Induction
import Mathlib.Data.List.GetD
import Mathlib.Tactic.Set
/-!
# Kernels that move data
-/
namespace OnnxTool.Kernels
open OnnxTool OnnxTool.Torch

variable {V : Type}

/-! ### Copying -/

theorem copy_relaid {x r : Tensor V} {os : List Nat} (hs : r.shape = os) (hf : r.flat = x.flat) : ∃ y, copyTo os r = .ok y ∧ IsRelaid x os y := by
  obtain ⟨y, hy, h⟩ := copyTo_same r hs
  exact ⟨y, hy, h.1.trans hs, (same_flat h).trans hf⟩

/-! ### Flatten -/

theorem numel_append (s t : List Nat) : numel (s ++ t) = numel s * numel t := by
  induction s with
  | nil => simp [numel]
  | cons d s ih => simp only [List.cons_append, numel, ih]; ring

theorem upTo_fromTo (s : List Nat) (a : Int) : upTo s a ++ fromTo s a = s := List.take_append_drop ..

theorem flatten_ok (axis : Int) (x : Tensor V) (os : List Nat) (h : numel os = numel x.shape) :
    ∃ y, flattenKernel axis x os = .ok y ∧ IsRelaid x os y := by
  have hn : numel (if axis = 0 then [numel x.shape] else upTo x.shape axis ++ [numel (fromTo x.shape axis)]) = numel x.shape := by
    split
    · simp [numel]
    · rw [numel_append]
      conv_rhs => rw [← upTo_fromTo x.shape axis, numel_append]
      simp [numel]
  obtain ⟨r, hr, hrs, hrf⟩ := reshape_ok x hn
  unfold flattenKernel
  rw [hr]
  simp only
  by_cases hos : r.shape = os
  · rw [if_pos hos]; exact copy_relaid hos hrf
  · rw [if_neg hos]
    obtain ⟨r', hr', hs', hf'⟩ := reshape_ok r (s := os) (by rw [hrs, h, hn])
    rw [hr']
    exact copy_relaid hs' (hf'.trans hrf)

/-! ### Unsqueeze -/

/-- elements at the positions satisfying `p`, counted from `i` -/
def keep (p : Nat → Bool) : Nat → List Nat → List Nat
  | _, [] => []
  | i, d :: l => if p i then d :: keep p (i + 1) l else keep p (i + 1) l

theorem keep_append (p : Nat → Bool) (l m : List Nat) : ∀ i, keep p i (l ++ m) = keep p i l ++ keep p (i + l.length) m := by
  induction l with
  | nil => intro i; simp [keep]
  | cons d l ih =>
    intro i
    simp only [List.cons_append, keep, ih, List.length_cons]
    rw [show i + 1 + l.length = i + (l.length + 1) from by omega]
    split <;> rfl

theorem keep_congr {p q : Nat → Bool} (l : List Nat) : ∀ i, (∀ k, i ≤ k → k < i + l.length → p k = q k) → keep p i l = keep q i l := by
  induction l with
  | nil => intro i _; rfl
  | cons d l ih =>
    intro i h
    simp only [keep, h i (Nat.le_refl _) (by simp)]
    rw [ih (i + 1) fun k h1 h2 => h k (by omega) (by simp; omega)]

theorem keep_all {p : Nat → Bool} (l : List Nat) : ∀ i, (∀ k, i ≤ k → p k = true) → keep p i l = l := by
  induction l with
  | nil => intro i _; rfl
  | cons d l ih =>
    intro i h
    simp only [keep, h i (Nat.le_refl _), if_true]
    rw [ih (i + 1) fun k hk => h k (by omega)]

theorem keep_eq (p : Nat → Bool) (l : List Nat) : ∀ i, ((List.range' i l.length).filter p).map (fun k => l.getD (k - i) 0) = keep p i l := by
  induction l with
  | nil => intro i; rfl
  | cons d l ih =>
    intro i
    have : ((List.range' (i + 1) l.length).filter p).map (fun k => (d :: l).getD (k - i) 0) = keep p (i + 1) l := by
      rw [← ih (i + 1)]
      refine List.map_congr_left fun k hk => ?_
      have := (List.mem_range'_1.1 (List.mem_filter.1 hk).1).1
      rw [show k - i = (k - (i + 1)) + 1 from by omega, List.getD_cons_succ]
    simp only [List.length_cons, List.range'_succ, List.filter_cons, keep]
    split
    · rw [List.map_cons, this]; simp
    · exact this

theorem keep_range (p : Nat → Bool) (l : List Nat) : ((List.range l.length).filter p).map (fun k => l.getD k 0) = keep p 0 l := by
  have := keep_eq p l 0
  simpa [List.range_eq_range'] using this

theorem loop_append (as bs : List Int) : ∀ (t : Tensor V), unsqueezeLoop (as ++ bs) t =
    match unsqueezeLoop as t with
    | .error e => .error e
    | .ok u => unsqueezeLoop bs u := by
  induction as with
  | nil => intro t; rfl
  | cons a as ih =>
    intro t
    simp only [List.cons_append, unsqueezeLoop]
    cases t.unsqueeze a with
    | error e => rfl
    | ok u => exact ih u

theorem loop_flat (as : List Int) : ∀ (t u : Tensor V), unsqueezeLoop as t = .ok u → u.flat = t.flat := by
  induction as with
  | nil => intro t u h; injection h with h; rw [h]
  | cons a as ih =>
    intro t u h
    simp only [unsqueezeLoop] at h
    cases hu : t.unsqueeze a with
    | error e => rw [hu] at h; cases h
    | ok v => rw [hu] at h; exact (ih v u h).trans (unsqueeze_flat hu)

theorem insert_mid (A B : List Nat) (x : Nat) : (A ++ B).insertIdx A.length x = A ++ x :: B := by
  induction A with
  | nil => simp
  | cons a A ih => simp only [List.cons_append, List.length_cons, List.insertIdx_succ_cons, ih]

theorem loop_shape (as : List Nat) : ∀ (t : Tensor V) (os : List Nat), as.Pairwise (· < ·) → (∀ a ∈ as, a < t.shape.length + as.length) →
    IsUnsqueezed as t.shape os → ∃ u, unsqueezeLoop (as.map Int.ofNat) t = .ok u ∧ u.shape = os := by
  induction as using List.reverseRecOn with
  | nil =>
    intro t os _ _ h
    refine ⟨t, rfl, ?_⟩
    have := h.rest
    rw [keep_range, keep_all _ 0 (by simp)] at this
    exact this.symm
  | append_singleton init m ih =>
    intro t os hp hb h
    have hlast : ∀ a ∈ init, a < m := fun a ha => (List.pairwise_append.1 hp).2.2 a ha m (by simp)
    have hm : m < os.length := by rw [h.rank]; exact hb m (by simp)
    have hm' : m ≤ t.shape.length + init.length := by have := hb m (by simp); simp at this; omega
    have hone : os[m] = 1 := by
      have := h.ones m (by simp)
      rwa [List.getD_eq_getElem _ _ hm] at this
    have hsplit : os = os.take m ++ 1 :: os.drop (m + 1) := by
      conv_lhs => rw [← List.take_append_drop m os, List.drop_eq_getElem_cons hm, hone]
    generalize hA : os.take m = A at hsplit
    generalize hB : os.drop (m + 1) = B at hsplit
    have hAl : A.length = m := by rw [← hA, List.length_take]; omega
    have h0 : IsUnsqueezed init t.shape (A ++ B) := by
      refine ⟨?_, ?_, ?_⟩
      · have := h.rank
        rw [hsplit] at this
        simp at this ⊢
        omega
      · intro a ha
        have := h.ones a (by simp [ha])
        have hlt : a < A.length := by rw [hAl]; exact hlast a ha
        rw [hsplit, List.getD_append _ _ _ _ hlt] at this
        rw [List.getD_append _ _ _ _ hlt]; exact this
      · have := h.rest
        rw [keep_range] at this
        rw [keep_range]
        rw [hsplit, keep_append] at this
        rw [keep_append]
        simp only [Nat.zero_add, hAl, keep] at this ⊢
        rw [if_neg (by simp)] at this
        rw [keep_all B (m + 1) (by
          intro k hk
          simp only [List.mem_append, List.mem_singleton, decide_eq_true_eq]
          rintro (hk' | hk')
          · have := hlast k hk'; omega
          · omega)] at this
        rw [keep_all B m (by
          intro k hk
          simp only [decide_eq_true_eq]
          intro hk'
          have := hlast k hk'; omega)]
        rw [← this]
        congr 1
        refine keep_congr A 0 fun k _ hk => ?_
        have : k ≠ m := by omega
        simp [this]
    obtain ⟨u, hu, hus⟩ := ih t (A ++ B) (List.pairwise_append.1 hp).1
      (fun a ha => by have := hlast a ha; omega) h0
    rw [List.map_append, loop_append, hu]
    have hr : (u.shape.length : Int) = t.shape.length + init.length := by rw [hus, h0.rank]; push_cast; ring
    have hle : (m : Int) ≤ u.shape.length := by rw [hr]; exact_mod_cast hm'
    have hcond : -((u.shape.length : Int) + 1) ≤ (m : Int) ∧ (m : Int) ≤ u.shape.length := ⟨by omega, hle⟩
    refine ⟨⟨u.shape.insertIdx m 1, fun idx => u.at (idx.eraseIdx m)⟩, ?_, ?_⟩
    · simp only [List.map_cons, List.map_nil, unsqueezeLoop, Tensor.unsqueeze, Int.ofNat_eq_natCast, if_pos hcond]
      rw [if_neg (by omega)]
      simp
    · show u.shape.insertIdx m 1 = os
      rw [hus, hsplit, ← hAl, insert_mid]

theorem unsqueezed_perm {as bs : List Nat} {s os : List Nat} (hp : as.Perm bs) (h : IsUnsqueezed as s os) : IsUnsqueezed bs s os := by
  refine ⟨by rw [h.rank, hp.length_eq], fun a ha => h.ones a (hp.mem_iff.2 ha), ?_⟩
  rw [← h.rest]
  congr 1
  refine List.filter_congr fun k _ => ?_
  simp only [hp.mem_iff]

theorem unsqueeze_ok (as : List Nat) (x : Tensor V) (os : List Nat) (hd : as.Nodup) (hb : ∀ a ∈ as, a < x.shape.length + as.length)
    (h : IsUnsqueezed as x.shape os) : ∃ y, unsqueezeKernel (as.map Int.ofNat) x os = .ok y ∧ IsRelaid x os y := by
  have hperm : ((as.map Int.ofNat).insertionSort (· ≤ ·)).Perm (as.map Int.ofNat) := List.perm_insertionSort _ _
  have hsort := List.pairwise_insertionSort (· ≤ ·) (as.map Int.ofNat)
  generalize hL : (as.map Int.ofNat).insertionSort (· ≤ ·) = L at hperm hsort
  have hnn : ∀ z ∈ L, ∃ a : Nat, z = Int.ofNat a := by
    intro z hz
    obtain ⟨a, _, rfl⟩ := List.mem_map.1 (hperm.mem_iff.1 hz)
    exact ⟨a, rfl⟩
  have hLm : L = (L.map Int.toNat).map Int.ofNat := by
    rw [List.map_map]
    conv_lhs => rw [← List.map_id L]
    refine List.map_congr_left fun z hz => ?_
    obtain ⟨a, rfl⟩ := hnn z hz
    rfl
  have hpa : (L.map Int.toNat).Perm as := by
    have := hperm.map Int.toNat
    rw [List.map_map] at this
    have e : as.map (Int.toNat ∘ Int.ofNat) = as := by
      conv_rhs => rw [← List.map_id as]
      rfl
    rwa [e] at this
  have hlt : (L.map Int.toNat).Pairwise (· < ·) := by
    have h1 : (L.map Int.toNat).Pairwise (· ≤ ·) := by
      rw [List.pairwise_map]
      exact hsort.imp fun hab => Int.toNat_le_toNat hab
    have h2 : (L.map Int.toNat).Nodup := hpa.nodup_iff.2 hd
    exact List.Pairwise.imp₂ (fun a b h1 h2 => Nat.lt_of_le_of_ne h1 h2) h1 h2
  obtain ⟨u, hu, hus⟩ := loop_shape (L.map Int.toNat) x os hlt
    (fun a ha => by rw [hpa.length_eq]; exact hb a (hpa.mem_iff.1 ha)) (unsqueezed_perm hpa.symm h)
  unfold unsqueezeKernel
  rw [hL, hLm, hu]
  exact copy_relaid hus (loop_flat _ _ _ hu)

/-! ### Reshape -/

/-- entry `d` of the target stands for the size `o` -/
def Fits (d : Int) (o : Nat) : Prop := d = -1 ∨ d = (o : Int)

theorem known_full : ∀ (l : List Int) (os : List Nat), List.Forall₂ Fits l os → l.count (-1) = 0 → l.map Int.toNat = os := by
  intro l os h
  induction h with
  | nil => intro _; rfl
  | @cons d o l os hd _ ih =>
    intro hc
    have hne : d ≠ -1 := by
      rintro rfl
      simp at hc
    rcases hd with hd | hd
    · exact absurd hd hne
    · subst hd
      rw [List.count_cons_of_ne hne] at hc
      rw [List.map_cons, ih hc]; rfl

theorem known_numel : ∀ (l : List Int) (os : List Nat), List.Forall₂ Fits l os → l.count (-1) = 0 → known l = numel os := by
  intro l os h
  induction h with
  | nil => intro _; rfl
  | @cons d o l os hd _ ih =>
    intro hc
    have hne : d ≠ -1 := by
      rintro rfl
      simp at hc
    rcases hd with hd | hd
    · exact absurd hd hne
    · subst hd
      rw [List.count_cons_of_ne hne] at hc
      rw [known, if_neg hne, ih hc, numel]; rfl

theorem known_one : ∀ (l : List Int) (os : List Nat), List.Forall₂ Fits l os → l.count (-1) = 1 →
    ∃ v, numel os = v * known l ∧ l.map (fun d => if d = -1 then v else d.toNat) = os := by
  intro l os h
  induction h with
  | nil => intro hc; simp at hc
  | @cons d o l os hd hl ih =>
    intro hc
    by_cases hne : d = -1
    · subst hne
      have hc' : l.count (-1) = 0 := by simpa using hc
      refine ⟨o, ?_, ?_⟩
      · rw [known, if_pos rfl, known_numel l os hl hc', numel]
      · rw [List.map_cons, if_pos rfl]
        congr 1
        rw [← known_full l os hl hc']
        refine List.map_congr_left fun d hd => ?_
        rw [if_neg]
        rintro rfl
        exact absurd hc' (Nat.ne_of_gt (List.count_pos_iff.2 hd))
    · rcases hd with hd | hd
      · exact absurd hd hne
      · subst hd
        rw [List.count_cons_of_ne hne] at hc
        obtain ⟨v, h1, h2⟩ := ih hc
        refine ⟨v, ?_, ?_⟩
        · rw [known, if_neg hne, numel, h1]
          simp only [Int.toNat_natCast]; ring
        · rw [List.map_cons, h2, if_neg hne]; rfl

theorem copyDims_ok (xs : List Nat) : ∀ (target : List Int) (si : Nat), (∀ i, i < target.length → target.getD i 0 = 0 → si + i < xs.length) →
    copyDims xs si target = .ok (target.mapIdx fun i d => if d = 0 then ((xs.getD (si + i) 0 : Nat) : Int) else d) := by
  intro target
  induction target with
  | nil => intro si _; rfl
  | cons d t ih =>
    intro si h
    have h1 := ih (si + 1) fun i hi h0 => by
      have := h (i + 1) (by simpa using hi) (by simpa using h0)
      omega
    rw [copyDims, h1]
    simp only [List.mapIdx_cons, Nat.add_zero]
    have e : (fun i d => if d = 0 then ((xs.getD (si + (i + 1)) 0 : Nat) : Int) else d) =
        (fun (i : Nat) (d : Int) => if d = 0 then ((xs.getD (si + 1 + i) 0 : Nat) : Int) else d) := by
      funext i d; rw [show si + (i + 1) = si + 1 + i from by omega]
    rw [e]
    by_cases hd : d = 0
    · have hlt := h 0 (by simp) (by simpa using hd)
      rw [if_pos hd, if_pos hd, List.getElem?_eq_getElem (by simpa using hlt), List.getD_eq_getElem _ _ (by simpa using hlt)]
    · rw [if_neg hd, if_neg hd]

theorem reshapeInts_ok (target : List Int) (x : Tensor V) (os : List Nat) (h : IsReshaped x.shape target os)
    (hneg : ∀ d ∈ target, -1 ≤ d) (hone : target.count (-1) ≤ 1) (hpos : 0 < numel x.shape ∨ target.count (-1) = 0) :
    ∃ s r, copyDims x.shape 0 target = .ok s ∧ reshapeInts x s = .ok r ∧ r.shape = os ∧ r.flat = x.flat := by
  have hc := copyDims_ok x.shape target 0 fun i hi h0 => by simpa using (h.copied i hi h0).1
  simp only [Nat.zero_add] at hc
  generalize hl : (target.mapIdx fun i d => if d = 0 then ((x.shape.getD i 0 : Nat) : Int) else d) = l at hc
  have hlen : l.length = target.length := by rw [← hl]; simp
  have hget : ∀ i (hi : i < target.length), l[i]'(by omega) = if target[i] = 0 then ((x.shape.getD i 0 : Nat) : Int) else target[i] := by
    intro i hi
    simp only [← hl, List.getElem_mapIdx]
  have hfit : List.Forall₂ Fits l os := by
    rw [List.forall₂_iff_get]
    refine ⟨by rw [hlen, h.rank], fun i h1 h2 => ?_⟩
    have hi : i < target.length := by omega
    simp only [List.get_eq_getElem]
    rw [hget i hi]
    have hg : target.getD i 0 = target[i] := List.getD_eq_getElem _ _ hi
    have ho : os.getD i 0 = os[i] := List.getD_eq_getElem _ _ h2
    by_cases h0 : target[i] = 0
    · rw [if_pos h0]
      right
      rw [← (h.copied i hi (hg.trans h0)).2, ho]
    · rw [if_neg h0]
      have hge := hneg target[i] (List.getElem_mem _)
      by_cases hm : target[i] = -1
      · exact Or.inl hm
      · right
        have := h.given i hi (by rw [hg]; omega)
        rw [hg, ho] at this
        exact this.symm
  have hcount : l.count (-1) = target.count (-1) := by
    have key : ∀ (t : List Int) (f : Nat → Nat), (t.mapIdx fun i d => if d = 0 then ((f i : Nat) : Int) else d).count (-1) = t.count (-1) := by
      intro t
      induction t with
      | nil => intro f; rfl
      | cons d t ih =>
        intro f
        rw [List.mapIdx_cons]
        have := ih (fun i => f (i + 1))
        by_cases hd : d = 0
        · rw [if_pos hd, List.count_cons_of_ne (by omega), List.count_cons_of_ne (by omega)]; exact this
        · rw [if_neg hd, List.count_cons, List.count_cons, this]
    rw [← hl]
    exact key target fun i => x.shape.getD i 0
  have hany : ¬ (l.any (· < -1) = true ∨ 1 < l.count (-1)) := by
    rintro (h1 | h1)
    · obtain ⟨d, hd, hlt⟩ := List.any_eq_true.1 h1
      obtain ⟨i, hi, rfl⟩ := List.getElem_of_mem hd
      have hi' : i < target.length := by omega
      rw [hget i hi'] at hlt
      have hge := hneg target[i] (List.getElem_mem _)
      have hlt := of_decide_eq_true hlt
      split at hlt <;> omega
    · omega
  have hres : ∃ r, reshapeInts x l = .ok r ∧ r.shape = os ∧ r.flat = x.flat := by
    unfold reshapeInts
    rw [if_neg hany]
    by_cases hc1 : l.count (-1) = 1
    · rw [if_pos hc1]
      obtain ⟨v, hv, hm⟩ := known_one l os hfit hc1
      rw [h.count] at hv
      have hk : 0 < known l := by
        rcases Nat.eq_zero_or_pos (known l) with h0 | h0
        · rw [h0] at hv
          rcases hpos with hpos | hpos <;> omega
        · exact h0
      have hdiv : numel x.shape / known l = v := by rw [hv]; exact Nat.mul_div_cancel _ hk
      rw [if_pos ⟨by omega, by rw [hv]; exact Nat.mul_mod_left _ _⟩, hdiv, hm]
      exact reshape_ok x h.count
    · rw [if_neg hc1, known_full l os hfit (by omega)]
      exact reshape_ok x h.count
  obtain ⟨r, hr, hrs, hrf⟩ := hres
  exact ⟨l, r, hc, hr, hrs, hrf⟩

theorem reshape_kernel_ok (target : List Int) (x : Tensor V) (os : List Nat) (h : IsReshaped x.shape target os)
    (hneg : ∀ d ∈ target, -1 ≤ d) (hone : target.count (-1) ≤ 1) (hpos : 0 < numel x.shape) :
    ∃ y, reshapeKernel target x os = .ok y ∧ IsRelaid x os y := by
  obtain ⟨l, r, hc, hr, hrs, hrf⟩ := reshapeInts_ok target x os h hneg hone (Or.inl hpos)
  unfold reshapeKernel
  rw [hc]
  simp only [hr]
  exact copy_relaid hrs hrf

/-! ### Gather -/

theorem flat_getD (t : Tensor V) (d : V) {idx : List Nat} (h : InB t.shape idx) : t.flat.getD (ravel t.shape idx) d = t.at idx := by
  have hl := ravel_lt h
  unfold Tensor.flat
  rw [List.getD_eq_getElem _ _ (by simpa using hl), List.getElem_map, List.getElem_range, unravel_ravel h]

theorem flat_length (t : Tensor V) : t.flat.length = numel t.shape := by simp [Tensor.flat]

theorem mem_flat (t : Tensor V) {v : V} (h : v ∈ t.flat) : ∃ idx, InB t.shape idx ∧ v = t.at idx := by
  obtain ⟨n, hn, rfl⟩ := List.mem_map.1 h
  exact ⟨_, unravel_inb (List.mem_range.1 hn), rfl⟩

theorem inb_append {s t i j : List Nat} (hi : InB s i) (hj : InB t j) : InB (s ++ t) (i ++ j) := by
  induction s generalizing i with
  | nil => cases i with
    | nil => exact hj
    | cons _ _ => exact hi.elim
  | cons d s ih => cases i with
    | nil => exact hi.elim
    | cons a i => exact ⟨hi.1, ih hi.2⟩

theorem set_mid (A B : List Nat) (x y : Nat) (k : Nat) (hk : A.length = k) : (A ++ x :: B).set k y = A ++ y :: B := by
  subst hk
  induction A with
  | nil => rfl
  | cons a A ih => simp only [List.cons_append, List.length_cons, List.set_cons_succ, ih]

theorem getD_mid (A B : List Nat) (x d : Nat) (k : Nat) (hk : A.length = k) : (A ++ x :: B).getD k d = x := by
  subst hk
  rw [List.getD_append_right _ _ _ _ (Nat.le_refl _), Nat.sub_self, List.getD_cons_zero]

/-- what `index_select` gives for a list of valid non-negative indices -/
theorem select_ok (a : Nat) (data : Tensor V) (indices : Tensor Int) (ha : a < data.shape.length) (hi : GatherIndicesOk a data indices)
    (hn : ∀ i, InB indices.shape i → 0 ≤ indices.at i) :
    ∃ r, data.indexSelect a indices.flat = .ok r ∧ r.shape = data.shape.set a (numel indices.shape) ∧
      ∀ pre i post, pre.length = a → InB indices.shape i → r.at (pre ++ ravel indices.shape i :: post) = data.at (pre ++ (indices.at i).toNat :: post) := by
  have hc : a < data.shape.length ∧ indices.flat.all (fun i => 0 ≤ i ∧ i < (data.shape.getD a 0 : Int)) = true := by
    refine ⟨ha, List.all_eq_true.2 fun v hv => ?_⟩
    obtain ⟨idx, h, rfl⟩ := mem_flat _ hv
    simpa using ⟨hn idx h, (hi idx h).2⟩
  unfold Tensor.indexSelect
  rw [if_pos hc]
  refine ⟨_, rfl, by rw [flat_length], fun pre i post hp h => ?_⟩
  show data.at ((pre ++ ravel indices.shape i :: post).set a _) = _
  rw [getD_mid _ _ _ _ _ hp, flat_getD _ _ h, set_mid _ _ _ _ _ hp]

theorem set_split (s : List Nat) (a v : Nat) (ha : a < s.length) : s.set a v = s.take a ++ v :: s.drop (a + 1) := by
  conv_lhs => rw [← List.take_append_drop a s, List.drop_eq_getElem_cons ha]
  exact set_mid _ _ _ _ _ (by rw [List.length_take]; omega)

/-- one-dimensional indices -/
theorem gather_one (axis : Int) (a : Nat) (data : Tensor V) (indices : Tensor Int) (n : Nat) (hp : position data.shape.length axis = a)
    (ha : a < data.shape.length) (hs : indices.shape = [n]) (hi : GatherIndicesOk a data indices) (hn : ∀ i, InB indices.shape i → 0 ≤ indices.at i) :
    ∃ y, gatherKernel axis data indices (data.shape.take a ++ indices.shape ++ data.shape.drop (a + 1)) = .ok y ∧ IsGather a data indices y := by
  obtain ⟨r, hr, hrs, hrv⟩ := select_ok a data indices ha hi hn
  have hos : r.shape = data.shape.take a ++ indices.shape ++ data.shape.drop (a + 1) := by
    rw [hrs, hs, set_split _ _ _ ha]; simp [numel]
  unfold gatherKernel
  rw [hp, hr]
  obtain ⟨y, hy, h⟩ := copyTo_same r hos
  refine ⟨y, hy, h.1.trans hos, fun pre i post h1 h2 h3 => ?_⟩
  have hb : InB r.shape (pre ++ i ++ post) := by rw [hos]; exact inb_append (inb_append h1 h2) h3
  rw [h.2 _ (by rw [h.1]; exact hb), if_neg (by have := hn i h2; omega)]
  rw [hs] at h2
  have hlen : pre.length = a := by rw [inb_length h1, List.length_take]; omega
  obtain ⟨j, rfl⟩ : ∃ j, i = [j] := List.length_eq_one_iff.1 (inb_length h2)
  have h2' : InB indices.shape [j] := by rw [hs]; exact h2
  have := hrv pre [j] post hlen h2'
  have e : ravel indices.shape [j] = j := by rw [hs]; simp [ravel, numel]
  rw [e] at this
  simpa using this

theorem inb_replicate {k : Nat} {s idx : List Nat} (h : InB (List.replicate k 1 ++ s) idx) : ∃ j, idx = List.replicate k 0 ++ j ∧ InB s j := by
  induction k generalizing idx with
  | zero => exact ⟨idx, by simp, by simpa using h⟩
  | succ k ih => cases idx with
    | nil => exact h.elim
    | cons i idx =>
      simp only [List.replicate_succ, List.cons_append] at h
      obtain ⟨h1, h2⟩ := h
      obtain ⟨j, rfl, hj⟩ := ih h2
      exact ⟨j, by simp [List.replicate_succ]; omega, hj⟩

theorem numel_replicate (k : Nat) (s : List Nat) : numel (List.replicate k 1 ++ s) = numel s := by
  induction k with
  | zero => simp
  | succ k ih => simp only [List.replicate_succ, List.cons_append, numel, ih]; ring

theorem ravel_replicate (k : Nat) (s j : List Nat) : ravel (List.replicate k 1 ++ s) (List.replicate k 0 ++ j) = ravel s j := by
  induction k with
  | zero => simp
  | succ k ih => simp only [List.replicate_succ, List.cons_append, ravel, ih]; simp

/-- embedding lookup: axis 0, all leading axes of the indices of size 1 -/
theorem gather_rows (data : Tensor V) (indices : Tensor Int) (k n : Nat) (ha : 0 < data.shape.length) (hs : indices.shape = List.replicate k 1 ++ [n])
    (hi : GatherIndicesOk 0 data indices) (hn : ∀ i, InB indices.shape i → 0 ≤ indices.at i) :
    ∃ y, gatherKernel 0 data indices (indices.shape ++ data.shape.drop 1) = .ok y ∧ IsGather 0 data indices y := by
  obtain ⟨r, hr, hrs, hrv⟩ := select_ok 0 data indices ha hi hn
  have hrs' : r.shape = n :: data.shape.drop 1 := by
    rw [hrs, set_split _ _ _ ha, hs, numel_replicate]; simp [numel]
  have hos : indices.shape ++ data.shape.drop 1 = List.replicate k 1 ++ r.shape := by rw [hrs', hs]; simp
  have hp : position data.shape.length 0 = 0 := rfl
  unfold gatherKernel
  rw [hp, hr, hos]
  have hdrop : ∀ (A B : List Nat) (hl : A.length = k), (A ++ B).drop ((A ++ B).length - B.length) = B := by
    intro A B hl
    rw [List.length_append, Nat.add_sub_cancel, List.drop_append_of_le_length (Nat.le_refl _), List.drop_length, List.nil_append]
  have hce : canExpand r.shape (List.replicate k 1 ++ r.shape) = true := by
    have := canExpand_self r.shape
    simp only [canExpand, Nat.le_refl, decide_true, Bool.true_and, Nat.sub_self, List.drop_zero] at this
    unfold canExpand
    rw [hdrop (List.replicate k 1) r.shape (List.length_replicate ..), this, Bool.and_true, decide_eq_true_eq, List.length_append]
    omega
  simp only [copyTo, hce, if_true]
  refine ⟨_, rfl, ?_, fun pre i post h1 h2 h3 => ?_⟩
  · simp only [List.take_zero, List.nil_append]; exact hos.symm
  · rw [if_neg (by have := hn i h2; omega)]
    have hpre : pre = [] := by
      have := inb_length h1
      simpa using this
    subst hpre
    have h2' := h2
    rw [hs] at h2'
    obtain ⟨j, rfl, hj⟩ := inb_replicate h2'
    obtain ⟨j0, rfl⟩ : ∃ j0, j = [j0] := List.length_eq_one_iff.1 (inb_length hj)
    have hin : InB r.shape (j0 :: post) := by rw [hrs']; exact ⟨hj.1, by simpa using h3⟩
    have hb : bcastIdx r.shape ([] ++ (List.replicate k 0 ++ [j0]) ++ post) = j0 :: post := by
      rw [List.nil_append, List.append_assoc]
      unfold bcastIdx
      rw [← inb_length hin]
      show List.zipWith _ r.shape (List.drop ((List.replicate k 0 ++ j0 :: post).length - (j0 :: post).length) (List.replicate k 0 ++ j0 :: post)) = _
      rw [hdrop _ (j0 :: post) (List.length_replicate ..)]
      have := bcastIdx_self hin
      unfold bcastIdx at this
      rwa [inb_length hin, Nat.sub_self, List.drop_zero] at this
    simp only [hb]
    have := hrv [] (List.replicate k 0 ++ [j0]) post rfl h2
    have e : ravel indices.shape (List.replicate k 0 ++ [j0]) = j0 := by rw [hs, ravel_replicate]; simp [ravel, numel]
    rw [e] at this
    simpa using this

/-- two rows of indices or more: never -/
theorem gather_batch (data : Tensor V) (indices : Tensor Int) (b n : Nat) (hs : indices.shape = [b, n]) (hb : 2 ≤ b) (hn : 0 < n) :
    ∀ y, gatherKernel 0 data indices (indices.shape ++ data.shape.drop 1) ≠ .ok y := by
  intro y hy
  unfold gatherKernel at hy
  cases hsel : data.indexSelect (position data.shape.length 0) indices.flat with
  | error e => rw [hsel] at hy; cases hy
  | ok r =>
    rw [hsel] at hy
    simp only at hy
    have hp : position data.shape.length 0 = 0 := rfl
    rw [hp] at hsel
    unfold Tensor.indexSelect at hsel
    split at hsel
    · rename_i hc
      injection hsel with hsel
      have hrs : r.shape = b * n :: data.shape.drop 1 := by
        rw [← hsel]
        show data.shape.set 0 indices.flat.length = _
        rw [flat_length, hs, set_split _ _ _ hc.1]
        simp [numel]
      unfold copyTo at hy
      split at hy
      · rename_i hce
        rw [hrs, hs] at hce
        unfold canExpand at hce
        rw [Bool.and_eq_true] at hce
        have h2 := hce.2
        have hd : ([b, n] ++ data.shape.drop 1).drop (([b, n] ++ data.shape.drop 1).length - (b * n :: data.shape.drop 1).length) =
            n :: data.shape.drop 1 := by
          simp only [List.cons_append, List.nil_append, List.length_cons]
          rw [show (data.shape.drop 1).length + 1 + 1 - ((data.shape.drop 1).length + 1) = 1 from by omega]
          rfl
        rw [hd, List.zipWith_cons_cons, List.all_cons, Bool.and_eq_true] at h2
        have h3 := h2.1
        simp only [id, Bool.or_eq_true, decide_eq_true_eq] at h3
        have h4 : 2 * n ≤ b * n := Nat.mul_le_mul_right n hb
        omega
      · cases hy
    · cases hsel

theorem gather_negative (axis : Int) (data : Tensor V) (indices : Tensor Int) (os i : List Nat) (hi : InB indices.shape i) (hneg : indices.at i < 0) :
    gatherKernel axis data indices os = .error .indexError := by
  have hc : ¬ (position data.shape.length axis < data.shape.length ∧ indices.flat.all (fun j => decide (0 ≤ j ∧
      j < (data.shape.getD (position data.shape.length axis) 0 : Int))) = true) := by
    rintro ⟨_, h⟩
    rw [List.all_eq_true] at h
    have hm : indices.at i ∈ indices.flat := by
      unfold Tensor.flat
      exact List.mem_map.2 ⟨ravel indices.shape i, List.mem_range.2 (ravel_lt hi), by rw [unravel_ravel hi]⟩
    have := h _ hm
    simp only [decide_eq_true_eq] at this
    omega
  unfold gatherKernel Tensor.indexSelect
  rw [if_neg hc]

theorem gather_scalar (data : Tensor V) (indices : Tensor Int) :
    ∀ y, gatherKernel 0 data indices (data.shape.drop 1) ≠ .ok y := by
  intro y hy
  unfold gatherKernel at hy
  cases hsel : data.indexSelect (position data.shape.length 0) indices.flat with
  | error e => rw [hsel] at hy; cases hy
  | ok r =>
    rw [hsel] at hy
    simp only at hy
    have hp : position data.shape.length 0 = 0 := rfl
    rw [hp] at hsel
    unfold Tensor.indexSelect at hsel
    split at hsel
    · rename_i hc
      injection hsel with hsel
      have hrs : r.shape.length = data.shape.length := by rw [← hsel]; exact List.length_set ..
      unfold copyTo at hy
      split at hy
      · rename_i hce
        unfold canExpand at hce
        rw [Bool.and_eq_true, decide_eq_true_eq, hrs, List.length_drop] at hce
        have := hc.1
        omega
      · cases hy
    · cases hsel

/-! ### Squeeze and Transpose -/

theorem dropOnes_keep (p : Nat → Bool) (s : List Nat) : ∀ i, (∀ k, k < s.length → p (i + k) = true → s.getD k 0 = 1) →
    dropOnes p i s = keep (fun k => !p k) i s := by
  induction s with
  | nil => intro i _; rfl
  | cons d s ih =>
    intro i h
    have ih' := ih (i + 1) fun k hk hp => by
      have := h (k + 1) (by simpa using hk) (by rwa [show i + (k + 1) = i + 1 + k from by omega])
      simpa using this
    have h0 := h 0 (by simp)
    simp only [Nat.add_zero, List.getD_cons_zero] at h0
    simp only [dropOnes, keep, ih']
    by_cases hp : p i = true
    · simp [hp, h0 hp]
    · simp [hp]

theorem numel_dropOnes (p : Nat → Bool) (s : List Nat) : ∀ i, numel (dropOnes p i s) = numel s := by
  induction s with
  | nil => intro i; rfl
  | cons d s ih =>
    intro i
    simp only [dropOnes]
    split
    · rename_i h
      simp only [Bool.and_eq_true, beq_iff_eq] at h
      rw [ih, numel, h.2, Nat.one_mul]
    · simp only [numel, ih]

theorem squeeze_flat {t u : Tensor V} {dims : Option (List Int)} (h : t.squeeze dims = .ok u) : u.flat = t.flat := by
  unfold Tensor.squeeze at h
  cases dims with
  | none => exact (reshape_flat h).2
  | some l =>
    simp only at h
    split at h
    · exact (reshape_flat h).2
    · cases h

theorem squeeze_ok (axes : List Int) (x : Tensor V) (os : List Nat) (hb : ∀ a ∈ axes, -(x.shape.length : Int) ≤ a ∧ a < x.shape.length)
    (hd : (axes.map (position x.shape.length)).Nodup) (h : IsUnsqueezed (axes.map (position x.shape.length)) os x.shape) :
    ∃ y, squeezeKernel (some axes) x os = .ok y ∧ IsRelaid x os y := by
  have hpos : axes.map (fun a => (if a < 0 then a + (x.shape.length : Int) else a).toNat) = axes.map (position x.shape.length) := rfl
  have hc : (axes.all (fun a => decide (-(x.shape.length : Int) ≤ a) && decide (a < (x.shape.length : Int))) &&
      decide (axes.map (fun a => (if a < 0 then a + (x.shape.length : Int) else a).toNat)).Nodup) = true := by
    rw [hpos, Bool.and_eq_true, List.all_eq_true]
    refine ⟨fun a ha => ?_, by simpa using hd⟩
    simpa using hb a ha
  have hsh : dropOnes (fun i => (axes.map (position x.shape.length)).contains i) 0 x.shape = os := by
    rw [dropOnes_keep]
    · rw [← h.rest, keep_range]
      refine keep_congr _ _ fun k _ _ => ?_
      by_cases hk : k ∈ axes.map (position x.shape.length)
      · simp [hk]
      · simp [hk]
    · intro k _ hp
      rw [Nat.zero_add] at hp
      exact h.ones k (by simpa using hp)
  obtain ⟨u, hu, hus, huf⟩ := reshape_ok x (s := os) (by rw [← hsh, numel_dropOnes])
  unfold squeezeKernel Tensor.squeeze
  simp only [hc, if_true]
  rw [hpos, hsh, hu]
  exact copy_relaid hus huf

theorem map_getD_range (s : List Nat) : (List.range s.length).map (fun j => s.getD j 0) = s := by
  refine List.ext_getElem (by simp) fun k h1 h2 => ?_
  rw [List.getElem_map, List.getElem_range, List.getD_eq_getElem _ _ h2]

theorem transpose_ok (perm : List Nat) (x : Tensor V) (h : perm.Perm (List.range x.shape.length)) :
    ∃ y, transposeKernel (some perm) x (perm.map fun p => x.shape.getD p 0) = .ok y ∧ IsTranspose perm x y := by
  unfold transposeKernel Tensor.permute
  simp only [List.isPerm_iff.2 h, if_true]
  obtain ⟨y, hy, hsame⟩ := copyTo_same (os := perm.map fun p => x.shape.getD p 0) (⟨perm.map fun p => x.shape.getD p 0,
    fun idx => x.at ((List.range x.shape.length).map fun j => idx.getD (perm.idxOf j) 0)⟩ : Tensor V) rfl
  refine ⟨y, hy, hsame.1, fun src hsrc => ?_⟩
  have hin : InB (perm.map fun p => x.shape.getD p 0) (perm.map fun p => src.getD p 0) := by
    rw [inb_iff]
    refine ⟨by simp, fun k hk => ?_⟩
    have hk' : k < perm.length := by simpa using hk
    rw [List.getD_eq_getElem _ _ (by simpa using hk'), List.getD_eq_getElem _ _ (by simpa using hk'), List.getElem_map, List.getElem_map]
    exact (inb_iff.1 hsrc).2 _ (List.mem_range.1 (h.mem_iff.1 (List.getElem_mem hk')))
  rw [hsame.2 _ (by rw [hsame.1]; exact hin)]
  show x.at ((List.range x.shape.length).map fun j => (perm.map fun p => src.getD p 0).getD (perm.idxOf j) 0) = _
  congr 1
  conv_rhs => rw [← map_getD_range src, inb_length hsrc]
  refine List.map_congr_left fun j hj => ?_
  have hm : j ∈ perm := h.mem_iff.2 hj
  have hl := List.idxOf_lt_length_of_mem hm
  rw [List.getD_eq_getElem _ _ (by simpa using hl), List.getElem_map, List.getElem_idxOf]

theorem transpose_default (x : Tensor V) :
    ∃ y, transposeKernel none x x.shape.reverse = .ok y ∧ IsTranspose (List.range x.shape.length).reverse x y := by
  obtain ⟨y, hy, hsame⟩ := copyTo_same (os := x.shape.reverse) x.T rfl
  have hrev : ∀ s : List Nat, ((List.range s.length).reverse.map fun p => s.getD p 0) = s.reverse := by
    intro s
    rw [List.map_reverse, map_getD_range]
  refine ⟨y, hy, ?_, fun src hsrc => ?_⟩
  · rw [hrev]; exact hsame.1
  · rw [← inb_length hsrc, hrev]
    have hin : InB x.shape.reverse src.reverse := by
      rw [inb_iff]
      have hl := inb_length hsrc
      refine ⟨by simpa using hl, fun k hk => ?_⟩
      have hk' : k < x.shape.length := by simpa using hk
      rw [List.getD_eq_getElem _ _ (by simpa [hl] using hk'), List.getD_eq_getElem _ _ (by simpa using hk'), List.getElem_reverse, List.getElem_reverse]
      have := (inb_iff.1 hsrc).2 (x.shape.length - 1 - k) (by omega)
      rw [List.getD_eq_getElem _ _ (by omega), List.getD_eq_getElem _ _ (by omega)] at this
      simpa only [hl] using this
    rw [hsame.2 _ (by rw [hsame.1]; exact hin)]
    show x.at src.reverse.reverse = _
    rw [List.reverse_reverse]

/-! ### Never silently wrong -/

theorem flatten_safe {axis : Int} {x y : Tensor V} {os : List Nat} (hn : numel os = numel x.shape) (h : flattenKernel axis x os = .ok y) : IsRelaid x os y := by
  obtain ⟨y', hy', hr⟩ := flatten_ok axis x os hn
  rw [h] at hy'
  injection hy' with e
  exact e ▸ hr

theorem relaid_of {x r y : Tensor V} {os : List Nat} (hn : numel os = numel x.shape) (hf : r.flat = x.flat) (h : copyTo os r = .ok y) : IsRelaid x os y := by
  have hc : numel r.shape = numel x.shape := by
    have := congrArg List.length hf
    simpa [Tensor.flat] using this
  obtain ⟨h1, h2⟩ := copyTo_count h (hn.trans hc.symm)
  exact ⟨h1, h2.trans hf⟩

theorem reshapeInts_flat {x r : Tensor V} {s : List Int} (h : reshapeInts x s = .ok r) : r.flat = x.flat := by
  unfold reshapeInts at h
  split at h
  · cases h
  · split at h
    · split at h
      · exact (reshape_flat h).2
      · cases h
    · exact (reshape_flat h).2

theorem reshape_safe {target : List Int} {x y : Tensor V} {os : List Nat} (hn : numel os = numel x.shape) (h : reshapeKernel target x os = .ok y) :
    IsRelaid x os y := by
  unfold reshapeKernel at h
  cases h1 : copyDims x.shape 0 target with
  | error e => rw [h1] at h; cases h
  | ok s =>
    rw [h1] at h
    simp only at h
    cases h2 : reshapeInts x s with
    | error e => rw [h2] at h; cases h
    | ok r => rw [h2] at h; exact relaid_of hn (reshapeInts_flat h2) h

theorem unsqueeze_safe {axes : List Int} {x y : Tensor V} {os : List Nat} (hn : numel os = numel x.shape) (h : unsqueezeKernel axes x os = .ok y) :
    IsRelaid x os y := by
  unfold unsqueezeKernel at h
  cases h1 : unsqueezeLoop (axes.insertionSort (· ≤ ·)) x with
  | error e => rw [h1] at h; cases h
  | ok r => rw [h1] at h; exact relaid_of hn (loop_flat _ _ _ h1) h

theorem squeeze_safe {axes : Option (List Int)} {x y : Tensor V} {os : List Nat} (hn : numel os = numel x.shape) (h : squeezeKernel axes x os = .ok y) :
    IsRelaid x os y := by
  unfold squeezeKernel at h
  cases h1 : x.squeeze axes with
  | error e => rw [h1] at h; cases h
  | ok r => rw [h1] at h; exact relaid_of hn (squeeze_flat h1) h

/-! ### Pad -/

theorem pairUp_reverse (f g : Nat → Int) (n : Nat) : pairUp ((List.range n).flatMap fun i => [f i, g i]).reverse = ((List.range n).map fun i => (g i, f i)).reverse := by
  induction n with
  | zero => rfl
  | succ n ih =>
    rw [List.range_succ, List.flatMap_append, List.map_append, List.reverse_append, List.reverse_append]
    simp only [List.flatMap_cons, List.flatMap_nil, List.append_nil, List.reverse_cons, List.reverse_nil, List.nil_append, List.cons_append, List.map_cons,
      List.map_nil, pairUp, ih]

theorem zipWith_getD {α β : Type} (f : Nat → α → β) (l : List Nat) (q : List α) (d : β) (da : α) (h : l.length = q.length) (k : Nat) (hk : k < l.length) :
    (List.zipWith f l q).getD k d = f (l.getD k 0) (q.getD k da) := by
  rw [List.getD_eq_getElem _ _ (by simp; omega), List.getD_eq_getElem _ _ hk, List.getD_eq_getElem _ _ (by omega), List.getElem_zipWith]

/-- the kernel pads with beginnings and ends exchanged -/
theorem pad_swapped (begins ends : List Int) (value : V) (x : Tensor V) (os : List Nat) (hb : begins.length = x.shape.length)
    (he : ends.length = x.shape.length) (hos : os.length = x.shape.length)
    (hsz : ∀ k, k < x.shape.length → (os.getD k 0 : Int) = begins.getD k 0 + x.shape.getD k 0 + ends.getD k 0) :
    ∃ y, padKernel (begins ++ ends) value x os = .ok y ∧ IsPad ends begins value x y := by
  set r := x.shape.length with hr
  have hpairs : (pairUp (padTuple (begins ++ ends))).reverse = (List.range r).map fun i => (ends.getD i 0, begins.getD i 0) := by
    unfold padTuple
    have hn : (begins ++ ends).length / 2 = r := by rw [List.length_append]; omega
    simp only [hn, pairUp_reverse, List.reverse_reverse]
    refine List.map_congr_left fun i hi => ?_
    have hi := List.mem_range.1 hi
    have e1 : (begins ++ ends).getD i 0 = begins.getD i 0 := List.getD_append _ _ _ _ (by omega)
    have e2 : (begins ++ ends).getD (i + r) 0 = ends.getD i 0 := by
      rw [List.getD_append_right _ _ _ _ (by omega), hb, Nat.add_sub_cancel]
    rw [e1, e2]
  generalize hq : (pairUp (padTuple (begins ++ ends))).reverse = q at hpairs
  have hql : q.length = r := by rw [hpairs]; simp
  have hqg : ∀ k, k < r → q.getD k (0, 0) = (ends.getD k 0, begins.getD k 0) := by
    intro k hk
    rw [hpairs, List.getD_eq_getElem _ _ (by simpa using hk), List.getElem_map, List.getElem_range]
  have hsl : (List.zipWith (fun (d : Nat) (a : Int × Int) => a.1 + d + a.2) x.shape q).length = r := by rw [List.length_zipWith, hql]; omega
  have hsg : ∀ k, k < r → (List.zipWith (fun (d : Nat) (a : Int × Int) => a.1 + (d : Int) + a.2) x.shape q).getD k 0 = (os.getD k 0 : Int) := by
    intro k hk
    rw [zipWith_getD _ _ _ 0 (0, 0) (by omega) k hk, hqg k hk, hsz k hk]
    ring
  have hso : List.zipWith (fun (d : Nat) (a : Int × Int) => a.1 + (d : Int) + a.2) x.shape q = os.map Int.ofNat := by
    refine List.ext_getElem (by rw [hsl, List.length_map, hos]) fun k h1 h2 => ?_
    have := hsg k (by omega)
    rw [List.getD_eq_getElem _ _ h1, List.getD_eq_getElem _ _ (by omega)] at this
    rw [this, List.getElem_map]; rfl
  have hall : (os.map Int.ofNat).all (0 ≤ ·) = true := by
    rw [List.all_eq_true]
    intro z hz
    obtain ⟨a, _, rfl⟩ := List.mem_map.1 hz
    simp
  have hshape : (os.map Int.ofNat).map Int.toNat = os := by
    rw [List.map_map]
    conv_rhs => rw [← List.map_id os]
    rfl
  unfold padKernel Tensor.pad
  simp only [hq, hso, hall, if_true, hshape]
  obtain ⟨y, hy, h⟩ := copyTo_same (os := os) (⟨os, fun idx =>
      if (List.zipWith (fun (i : Nat) (a : Int × Int) => (i : Int) - a.1) idx q).all (0 ≤ ·) = true ∧
          InB x.shape ((List.zipWith (fun (i : Nat) (a : Int × Int) => (i : Int) - a.1) idx q).map Int.toNat)
      then x.at ((List.zipWith (fun (i : Nat) (a : Int × Int) => (i : Int) - a.1) idx q).map Int.toNat) else value⟩ : Tensor V) rfl
  refine ⟨y, hy, ?_⟩
  have hys : y.shape = os := h.1
  have hsrc : ∀ idx : List Nat, idx.length = r → ∀ k, k < r →
      (List.zipWith (fun (i : Nat) (a : Int × Int) => (i : Int) - a.1) idx q).getD k 0 = (idx.getD k 0 : Int) - ends.getD k 0 := by
    intro idx hl k hk
    rw [zipWith_getD _ _ _ 0 (0, 0) (by omega) k (by omega), hqg k hk]
  have hlen : ∀ idx : List Nat, idx.length = r → (List.zipWith (fun (i : Nat) (a : Int × Int) => (i : Int) - a.1) idx q).length = r := by
    intro idx hl
    rw [List.length_zipWith]; omega
  refine ⟨by rw [hys, hos], fun k hk => by rw [hys, hsz k hk]; ring, ?_, ?_⟩
  · intro idx src hidx hsrcb hrel
    rw [h.2 idx hidx]
    have hl : idx.length = r := by rw [inb_length hidx, hys, hos]
    have hsl : src.length = r := inb_length hsrcb
    have e : List.zipWith (fun (i : Nat) (a : Int × Int) => (i : Int) - a.1) idx q = src.map Int.ofNat := by
      refine List.ext_getElem (by rw [hlen idx hl, List.length_map, hsl]) fun k h1 h2 => ?_
      have hk : k < r := by have := hlen idx hl; omega
      have h3 := hsrc idx hl k hk
      rw [List.getD_eq_getElem _ _ h1] at h3
      have h4 := hrel k hk
      rw [h3, List.getElem_map]
      rw [List.getD_eq_getElem src _ (by omega)] at h4
      rw [h4]
      simp
    have e2 : (src.map Int.ofNat).map Int.toNat = src := by
      rw [List.map_map]
      conv_rhs => rw [← List.map_id src]
      rfl
    show (if _ then _ else _) = _
    rw [e, e2, if_pos]
    refine ⟨?_, hsrcb⟩
    rw [List.all_eq_true]
    intro z hz
    obtain ⟨a, _, rfl⟩ := List.mem_map.1 hz
    simp
  · rintro idx hidx ⟨k, hk, hout⟩
    rw [h.2 idx hidx]
    have hl : idx.length = r := by rw [inb_length hidx, hys, hos]
    show (if _ then _ else _) = _
    rw [if_neg]
    rintro ⟨h1, h2⟩
    have h3 := hsrc idx hl k hk
    have hlk : k < (List.zipWith (fun (i : Nat) (a : Int × Int) => (i : Int) - a.1) idx q).length := by rw [hlen idx hl]; exact hk
    rw [List.getD_eq_getElem _ _ hlk] at h3
    have h4 := (List.all_eq_true.1 h1) _ (List.getElem_mem hlk)
    have h4 := of_decide_eq_true h4
    have h5 := (inb_iff.1 h2).2 k hk
    rw [List.getD_eq_getElem _ _ (by simpa using hlk), List.getElem_map] at h5
    omega

end OnnxTool.Kernels
