import Verif.Model.KernelsConv
import Verif.Spec.KernelsConv
import Verif.Proofs.Torch
import Verif.Proofs.Kernels
import Verif.Proofs.Conv
import Mathlib.Algebra.BigOperators.Group.Finset.Basic
import Mathlib.Algebra.Field.Basic
import Mathlib.Data.List.Nodup
import Mathlib.Order.Interval.Finset.Nat
/-!
# Conv and pooling kernels
-/
namespace OnnxTool.Kernels
open OnnxTool OnnxTool.Torch OnnxTool.Conv Finset

theorem outSize_windows {h k s p d : Nat} (hs : 0 < s) (hf : d * (k - 1) + 1 ≤ h + 2 * p) : outSize h k s p d = windows (h + p + p) (extent k d) s := by
  rw [windows_eq hs, if_pos (by unfold extent; omega)]
  unfold outSize extent
  rw [show h + 2 * p = h + p + p from by omega]

theorem window_fits {size ek s a : Nat} (hs : 0 < s) (h : a < windows size ek s) : a * s + ek ≤ size := by
  rw [windows_eq hs] at h
  split at h
  · rename_i hle
    have h1 : a ≤ (size - ek) / s := by omega
    have h2 := Nat.div_mul_le_self (size - ek) s
    have h3 := Nat.mul_le_mul_right s h1
    omega
  · omega

section
variable {F : Type}

theorem padded_shape {p : Pads} {v : F} {x xp : Tensor F} {n c h wd : Nat} (hx : x.shape = [n, c, h, wd]) (hp : Padded p v x xp) :
    xp.shape = [n, c, h + p.top + p.bottom, wd + p.left + p.right] := by
  have hr := hp.rank
  have hs := hp.sizes
  rw [hx] at hr hs
  obtain ⟨e0, e1, e2, e3, he⟩ : ∃ e0 e1 e2 e3, xp.shape = [e0, e1, e2, e3] := by
    match hh : xp.shape, hr with
    | [e0, e1, e2, e3], _ => exact ⟨e0, e1, e2, e3, rfl⟩
  rw [he] at hs ⊢
  have h0 := hs 0 (by simp)
  have h1 := hs 1 (by simp)
  have h2 := hs 2 (by simp)
  have h3 := hs 3 (by simp)
  simp only [List.getD_cons_zero, List.getD_cons_succ] at h0 h1 h2 h3
  congr 1
  · omega
  · congr 1
    · omega
    · congr 1
      · omega
      · congr 1; omega

/-- reading at a signed position is reading the padded tensor -/
theorem readPad_padded [Zero F] {p : Pads} {x xp : Tensor F} {n c h wd : Nat} (hx : x.shape = [n, c, h, wd]) (hp : Padded p 0 x xp) {i ch a e : Nat}
    (hi : i < n) (hc : ch < c) (ha : a < h + p.top + p.bottom) (he : e < wd + p.left + p.right) :
    readPad x i ch ((a : Nat) - (p.top : Int)) ((e : Nat) - (p.left : Int)) = xp.at [i, ch, a, e] := by
  have hsh := padded_shape hx hp
  have hin : InB xp.shape [i, ch, a, e] := by rw [hsh]; exact ⟨hi, hc, ha, he, trivial⟩
  unfold readPad
  rw [hx]
  simp only [List.getD_cons_succ, List.getD_cons_zero]
  by_cases hcond : 0 ≤ ((a : Int) - p.top) ∧ ((a : Int) - p.top) < h ∧ 0 ≤ ((e : Int) - p.left) ∧ ((e : Int) - p.left) < wd
  · rw [if_pos hcond]
    refine (hp.inside [i, ch, a, e] [i, ch, ((a : Int) - p.top).toNat, ((e : Int) - p.left).toNat] hin ?_ ?_).symm
    · rw [hx]
      exact ⟨hi, hc, by omega, by omega, trivial⟩
    · intro k hk
      rw [hx] at hk
      simp only [List.length_cons, List.length_nil] at hk
      match k, hk with
      | 0, _ => simp
      | 1, _ => simp
      | 2, _ => simp only [List.getD_cons_succ, List.getD_cons_zero]; omega
      | 3, _ => simp only [List.getD_cons_succ, List.getD_cons_zero]; omega
  · rw [if_neg hcond]
    refine (hp.outside [i, ch, a, e] hin ?_).symm
    rw [hx]
    by_cases h2 : 0 ≤ ((a : Int) - p.top) ∧ ((a : Int) - p.top) < h
    · refine ⟨3, by simp, ?_⟩
      simp only [List.getD_cons_succ, List.getD_cons_zero]
      omega
    · refine ⟨2, by simp, ?_⟩
      simp only [List.getD_cons_succ, List.getD_cons_zero]
      omega

/-- `Conv` with the padding `(ph, pw)` on both sides -/
theorem conv2d_ok [CommSemiring F] {n c h wd m cg kh kw g : Nat} {s d : Nat × Nat} {ph pw : Nat} {x w : Tensor F} (b : Option (Tensor F))
    (hx : x.shape = [n, c, h, wd]) (hw : w.shape = [m, cg, kh, kw]) (hg : 0 < g) (hc : c = cg * g) (hm : m % g = 0) (hs1 : 0 < s.1) (hs2 : 0 < s.2)
    (hk1 : 0 < kh) (hk2 : 0 < kw) (hf1 : extent kh d.1 ≤ h + ph + ph) (hf2 : extent kw d.2 ≤ wd + pw + pw) :
    ∃ r, conv2d x w b s (ph, pw) d g = .ok r ∧ IsConv n c h wd m cg kh kw s d ⟨ph, pw, ph, pw⟩ g x w b r := by
  have hf1' : d.1 * (kh - 1) + 1 ≤ h + 2 * ph := by unfold extent at hf1; omega
  have hf2' : d.2 * (kw - 1) + 1 ≤ wd + 2 * pw := by unfold extent at hf2; omega
  unfold conv2d
  rw [hx, hw]
  simp only [hg, hc, hm, hs1, hs2, hk1, hk2, hf1', hf2', and_self, if_true]
  refine ⟨_, rfl, ?_, fun xp hp i o a e hi ho ha he => ?_⟩
  · simp only [outSize_windows hs1 hf1', outSize_windows hs2 hf2']
  · have hfa := window_fits hs1 ha
    have hfe := window_fits hs2 he
    simp only [List.getD_cons_succ, List.getD_cons_zero]
    congr 1
    refine Finset.sum_congr rfl fun cc hcc => Finset.sum_congr rfl fun u hu => Finset.sum_congr rfl fun v hv => ?_
    rw [Finset.mem_range] at hcc hu hv
    congr 1
    have hmg : m / g * g = m := Nat.div_mul_cancel (Nat.dvd_of_mod_eq_zero hm)
    have hmpos : 0 < m / g := by
      rcases Nat.eq_zero_or_pos (m / g) with h0 | h0
      · rw [h0, Nat.zero_mul] at hmg; omega
      · exact h0
    have hog : o / (m / g) < g := (Nat.div_lt_iff_lt_mul hmpos).2 (by rw [Nat.mul_comm, hmg]; exact ho)
    have hch : o / (m / g) * cg + cc < c := by
      have : (o / (m / g) + 1) * cg ≤ g * cg := Nat.mul_le_mul_right cg hog
      rw [Nat.add_mul, Nat.one_mul] at this
      rw [hc, Nat.mul_comm cg g]
      omega
    have hu' : u * d.1 ≤ d.1 * (kh - 1) := by rw [Nat.mul_comm]; exact Nat.mul_le_mul_left _ (by omega)
    have hv' : v * d.2 ≤ d.2 * (kw - 1) := by rw [Nat.mul_comm]; exact Nat.mul_le_mul_left _ (by omega)
    unfold extent at hfa hfe
    simp only at hfa hfe
    exact readPad_padded (p := ⟨ph, pw, ph, pw⟩) hx hp hi hch (by simp only; omega) (by simp only; omega)

theorem conv_same [CommSemiring F] {n c h wd m cg kh kw g : Nat} {s d : Nat × Nat} {p : Pads} {x w : Tensor F} {b : Option (Tensor F)} {r y : Tensor F}
    (h1 : IsConv n c h wd m cg kh kw s d p g x w b r) (hs : y.Same r) : IsConv n c h wd m cg kh kw s d p g x w b y := by
  refine ⟨hs.1.trans h1.shape, fun xp hp i o a e hi ho ha he => ?_⟩
  rw [hs.2 _ (by rw [hs.1, h1.shape]; exact ⟨hi, ho, ha, he, trivial⟩)]
  exact h1.value xp hp i o a e hi ho ha he
end

/-! ### Pooling -/

theorem mem_taps {h k s p i a : Nat} : a ∈ taps h k s p i ↔ a < h ∧ InWindow k s p i a := by
  unfold taps InWindow
  rw [List.mem_filterMap]
  constructor
  · rintro ⟨u, hu, h1⟩
    have hu := List.mem_range.1 hu
    split at h1
    · injection h1 with h1
      omega
    · cases h1
  · rintro ⟨h1, h2, h3⟩
    refine ⟨a + p - i * s, List.mem_range.2 (by omega), ?_⟩
    rw [if_pos (by omega)]
    congr 1
    omega

theorem taps_nodup (h k s p i : Nat) : (taps h k s p i).Nodup := by
  unfold taps
  refine List.Nodup.filterMap ?_ List.nodup_range
  intro a b c ha hb
  simp only [Option.mem_def] at ha hb
  split at ha
  · split at hb
    · injection ha with ha
      injection hb with hb
      omega
    · cases hb
  · cases ha

theorem taps_ne {h k s p i : Nat} (hs : 0 < s) (hh : 0 < h) (hk : 0 < k) (hp : 2 * p ≤ k) (hi : i < windows (h + p + p) k s) : taps h k s p i ≠ [] := by
  have hf := window_fits hs hi
  intro h0
  by_cases hc : i * s ≤ p
  · have : 0 ∈ taps h k s p i := mem_taps.2 ⟨hh, by unfold InWindow; omega⟩
    rw [h0] at this
    cases this
  · have : i * s - p ∈ taps h k s p i := mem_taps.2 ⟨by omega, by unfold InWindow; omega⟩
    rw [h0] at this
    cases this

theorem taps_windowSet (h k s p i : Nat) : (taps h k s p i).toFinset = windowSet h k s p i := by
  ext a
  rw [List.mem_toFinset, mem_taps, windowSet, Finset.mem_filter, Finset.mem_range]

theorem poolShape_ok {n c h wd : Nat} {k s : Nat × Nat} {ph pw : Nat} (hc : 0 < c) (hh : 0 < h) (hw : 0 < wd) (hs1 : 0 < s.1) (hs2 : 0 < s.2)
    (hk1 : 0 < k.1) (hk2 : 0 < k.2) (hp1 : 2 * ph ≤ k.1) (hp2 : 2 * pw ≤ k.2) (hf1 : k.1 ≤ h + ph + ph) (hf2 : k.2 ≤ wd + pw + pw) :
    poolShape [n, c, h, wd] k s (ph, pw) = .ok [n, c, windows (h + ph + ph) k.1 s.1, windows (wd + pw + pw) k.2 s.2] := by
  unfold poolShape
  have e1 := outSize_windows (h := h) (k := k.1) (p := ph) (d := 1) hs1 (by omega)
  have e2 := outSize_windows (h := wd) (k := k.2) (p := pw) (d := 1) hs2 (by omega)
  have x1 : extent k.1 1 = k.1 := by unfold extent; omega
  have x2 : extent k.2 1 = k.2 := by unfold extent; omega
  rw [x1] at e1
  rw [x2] at e2
  simp only [e1, e2]
  rw [if_pos ⟨hc, hh, hw, hs1, hs2, hk1, hk2, hp1, hp2, by omega, by omega⟩]

theorem foldl_max {V : Type} [LinearOrder V] (l : List V) : ∀ a, a ≤ l.foldl max a ∧ (∀ b ∈ l, b ≤ l.foldl max a) ∧ (l.foldl max a = a ∨ l.foldl max a ∈ l) := by
  induction l with
  | nil => intro a; exact ⟨le_refl _, (fun b hb => absurd hb (by simp)), Or.inl rfl⟩
  | cons c l ih =>
    intro a
    obtain ⟨h1, h2, h3⟩ := ih (max a c)
    simp only [List.foldl_cons]
    refine ⟨le_trans (le_max_left _ _) h1, fun b hb => ?_, ?_⟩
    · rcases List.mem_cons.1 hb with rfl | hb
      · exact le_trans (le_max_right _ _) h1
      · exact h2 b hb
    · rcases h3 with h3 | h3
      · rw [h3]
        rcases le_total a c with hac | hac
        · right; rw [max_eq_right hac]; exact List.mem_cons_self
        · left; exact max_eq_left hac
      · exact Or.inr (List.mem_cons_of_mem _ h3)

theorem maxPool2d_ok {V : Type} [LinearOrder V] {n c h wd : Nat} {k s : Nat × Nat} {ph pw : Nat} {x : Tensor V} (hx : x.shape = [n, c, h, wd])
    (hc : 0 < c) (hh : 0 < h) (hw : 0 < wd) (hs1 : 0 < s.1) (hs2 : 0 < s.2)
    (hk1 : 0 < k.1) (hk2 : 0 < k.2) (hp1 : 2 * ph ≤ k.1) (hp2 : 2 * pw ≤ k.2) (hf1 : k.1 ≤ h + ph + ph) (hf2 : k.2 ≤ wd + pw + pw) :
    ∃ r, maxPool2d x k s (ph, pw) = .ok r ∧ IsMaxPool n c h wd k s ⟨ph, pw, ph, pw⟩ x r := by
  unfold maxPool2d
  rw [hx, poolShape_ok hc hh hw hs1 hs2 hk1 hk2 hp1 hp2 hf1 hf2]
  have hmem : ∀ i o a e v, v ∈ window x k s (ph, pw) i o a e ↔ ∃ r q, r < h ∧ q < wd ∧ InWindow k.1 s.1 ph a r ∧ InWindow k.2 s.2 pw e q ∧ v = x.at [i, o, r, q] := by
    intro i o a e v
    unfold window
    rw [hx]
    simp only [List.getD_cons_succ, List.getD_cons_zero, List.mem_flatMap, List.mem_map, mem_taps]
    constructor
    · rintro ⟨r, ⟨h1, h2⟩, q, ⟨h3, h4⟩, rfl⟩
      exact ⟨r, q, h1, h3, h2, h4, rfl⟩
    · rintro ⟨r, q, h1, h3, h2, h4, rfl⟩
      exact ⟨r, ⟨h1, h2⟩, q, ⟨h3, h4⟩, rfl⟩
  have hne : ∀ i o a e, a < windows (h + ph + ph) k.1 s.1 → e < windows (wd + pw + pw) k.2 s.2 → window x k s (ph, pw) i o a e ≠ [] := by
    intro i o a e ha he h0
    obtain ⟨r, hr⟩ := List.exists_mem_of_ne_nil _ (taps_ne hs1 hh hk1 hp1 ha)
    obtain ⟨q, hq⟩ := List.exists_mem_of_ne_nil _ (taps_ne hs2 hw hk2 hp2 he)
    rw [mem_taps] at hr hq
    have := (hmem i o a e (x.at [i, o, r, q])).2 ⟨r, q, hr.1, hq.1, hr.2, hq.2, rfl⟩
    rw [h0] at this
    cases this
  refine ⟨_, rfl, rfl, fun i o a e hi ho ha he => ?_, fun i o a e hi ho ha he r q hr hq h1 h2 => ?_⟩
  · simp only [List.getD_cons_succ, List.getD_cons_zero]
    have hn := hne i o a e ha he
    have hm := hmem i o a e
    generalize window x k s (ph, pw) i o a e = L at hn hm
    cases L with
    | nil => exact absurd rfl hn
    | cons v l =>
      simp only
      have := (foldl_max l v).2.2
      have hin : l.foldl max v ∈ v :: l := by
        rcases this with h0 | h0
        · rw [h0]; exact List.mem_cons_self
        · exact List.mem_cons_of_mem _ h0
      exact (hm _).1 hin
  · simp only [List.getD_cons_succ, List.getD_cons_zero]
    have hm := (hmem i o a e _).2 ⟨r, q, hr, hq, h1, h2, rfl⟩
    generalize window x k s (ph, pw) i o a e = L at hm
    cases L with
    | nil => cases hm
    | cons v l =>
      simp only
      rcases List.mem_cons.1 hm with h0 | h0
      · rw [h0]; exact (foldl_max l v).1
      · exact (foldl_max l v).2.1 _ h0

theorem maxPool_same {V : Type} [LinearOrder V] {n c h wd : Nat} {k s : Nat × Nat} {p : Pads} {x r y : Tensor V} (h1 : IsMaxPool n c h wd k s p x r)
    (hs : y.Same r) : IsMaxPool n c h wd k s p x y := by
  have e : ∀ i o a e, i < n → o < c → a < windows (h + p.top + p.bottom) k.1 s.1 → e < windows (wd + p.left + p.right) k.2 s.2 →
      y.at [i, o, a, e] = r.at [i, o, a, e] := fun i o a e hi ho ha he =>
    hs.2 _ (by rw [hs.1, h1.shape]; exact ⟨hi, ho, ha, he, trivial⟩)
  refine ⟨hs.1.trans h1.shape, fun i o a e' hi ho ha he => ?_, fun i o a e' hi ho ha he => ?_⟩
  · rw [e i o a e' hi ho ha he]; exact h1.attained i o a e' hi ho ha he
  · rw [e i o a e' hi ho ha he]; exact h1.largest i o a e' hi ho ha he

theorem sum_flatMap {α F : Type} [AddCommMonoid F] (l : List α) (f : α → List F) : (l.flatMap f).sum = (l.map fun a => (f a).sum).sum := by
  induction l with
  | nil => rfl
  | cons a l ih => rw [List.flatMap_cons, List.sum_append, ih, List.map_cons, List.sum_cons]

theorem avgPool2d_ok {F : Type} [Field F] {n c h wd : Nat} {k s : Nat × Nat} {ph pw : Nat} {x : Tensor F} (hx : x.shape = [n, c, h, wd])
    (hc : 0 < c) (hh : 0 < h) (hw : 0 < wd) (hs1 : 0 < s.1) (hs2 : 0 < s.2)
    (hk1 : 0 < k.1) (hk2 : 0 < k.2) (hp1 : 2 * ph ≤ k.1) (hp2 : 2 * pw ≤ k.2) (hf1 : k.1 ≤ h + ph + ph) (hf2 : k.2 ≤ wd + pw + pw) :
    ∃ r, avgPool2d x k s (ph, pw) = .ok r ∧ IsAvgPool true n c h wd k s ⟨ph, pw, ph, pw⟩ x r := by
  unfold avgPool2d
  rw [hx, poolShape_ok hc hh hw hs1 hs2 hk1 hk2 hp1 hp2 hf1 hf2]
  refine ⟨_, rfl, rfl, fun i o a e hi ho ha he => ?_⟩
  simp only [List.getD_cons_succ, List.getD_cons_zero, if_true]
  congr 1
  unfold window
  rw [hx, sum_flatMap]
  simp only [List.getD_cons_succ, List.getD_cons_zero]
  rw [← taps_windowSet, ← taps_windowSet, List.sum_toFinset _ (taps_nodup ..)]
  congr 1
  refine List.map_congr_left fun r _ => ?_
  rw [List.sum_toFinset _ (taps_nodup ..)]

theorem avgPool_same {F : Type} [Field F] {cp : Bool} {n c h wd : Nat} {k s : Nat × Nat} {p : Pads} {x r y : Tensor F} (h1 : IsAvgPool cp n c h wd k s p x r)
    (hs : y.Same r) : IsAvgPool cp n c h wd k s p x y := by
  refine ⟨hs.1.trans h1.shape, fun i o a e hi ho ha he => ?_⟩
  rw [hs.2 _ (by rw [hs.1, h1.shape]; exact ⟨hi, ho, ha, he, trivial⟩)]
  exact h1.value i o a e hi ho ha he

theorem windowSet_card {h k s i : Nat} (hs : 0 < s) (hi : i < windows (h + 0 + 0) k s) : (windowSet h k s 0 i).card = k := by
  have hf := window_fits hs hi
  have : windowSet h k s 0 i = Finset.Ico (i * s) (i * s + k) := by
    ext a
    rw [windowSet, Finset.mem_filter, Finset.mem_range, Finset.mem_Ico]
    unfold InWindow
    omega
  rw [this, Nat.card_Ico]
  omega

/-- without padding both divisors agree -/
theorem avgPool_nopad {F : Type} [Field F] {n c h wd : Nat} {k s : Nat × Nat} {x y : Tensor F} (hs1 : 0 < s.1) (hs2 : 0 < s.2)
    (h1 : IsAvgPool true n c h wd k s ⟨0, 0, 0, 0⟩ x y) : IsAvgPool false n c h wd k s ⟨0, 0, 0, 0⟩ x y := by
  refine ⟨h1.shape, fun i o a e hi ho ha he => ?_⟩
  rw [h1.value i o a e hi ho ha he]
  simp only [Bool.false_eq_true, if_false, if_true]
  rw [windowSet_card hs1 ha, windowSet_card hs2 he]

end OnnxTool.Kernels
