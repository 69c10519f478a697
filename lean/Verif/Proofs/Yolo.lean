import Verif.Spec.Yolo
import Mathlib.Tactic.Linarith
import Mathlib.Tactic.Positivity
import Mathlib.Tactic.FieldSimp
import Mathlib.Tactic.Ring
import Mathlib.Tactic.NormNum
/-! # Lemmas about the suppression of overlapping boxes -/
namespace OnnxTool.Yolo
open OnnxTool

/-! ## the loop -/

def nmsPairs (thr : ℚ) : List (Nat × Det) → List (Nat × Det)
  | [] => []
  | p :: rest => p :: nmsPairs thr (survivors thr p.2 rest)
termination_by l => l.length
decreasing_by exact Nat.lt_succ_of_le (List.length_filter_le _ _)

theorem nmsLoop_eq (thr : ℚ) (l : List (Nat × Det)) : nmsLoop thr l = (nmsPairs thr l).map (·.1) := by
  induction l using nmsPairs.induct (thr := thr) with
  | case1 => simp [nmsLoop, nmsPairs]
  | case2 p rest ih => rw [nmsLoop, nmsPairs, ih]; rfl

theorem nmsPairs_sub (thr : ℚ) (l : List (Nat × Det)) : (nmsPairs thr l).Sublist l := by
  induction l using nmsPairs.induct (thr := thr) with
  | case1 => simp [nmsPairs]
  | case2 p rest ih =>
    rw [nmsPairs]
    exact (ih.trans List.filter_sublist).cons_cons p

theorem nmsPairs_sep (thr : ℚ) (l : List (Nat × Det)) : (nmsPairs thr l).Pairwise fun p q => boxIou p.2 q.2 ≤ thr := by
  induction l using nmsPairs.induct (thr := thr) with
  | case1 => simp [nmsPairs]
  | case2 p rest ih =>
    rw [nmsPairs, List.pairwise_cons]
    refine ⟨fun q hq => ?_, ih⟩
    have := (nmsPairs_sub thr _).subset hq
    simpa using (List.mem_filter.1 this).2

theorem nmsPairs_cover (thr : ℚ) (l : List (Nat × Det)) (hs : l.Pairwise fun p q => q.2.conf ≤ p.2.conf) (q : Nat × Det) (hq : q ∈ l) :
    q ∈ nmsPairs thr l ∨ ∃ p ∈ nmsPairs thr l, q.2.conf ≤ p.2.conf ∧ thr < boxIou p.2 q.2 := by
  induction l using nmsPairs.induct (thr := thr) with
  | case1 => simp at hq
  | case2 p rest ih =>
    rw [nmsPairs]
    rw [List.pairwise_cons] at hs
    rcases List.mem_cons.1 hq with rfl | hq'
    · exact .inl (by simp)
    · by_cases h : boxIou p.2 q.2 ≤ thr
      · rcases ih (hs.2.sublist List.filter_sublist) (by simp [survivors, hq', h]) with h' | ⟨p', hp', hc, hi⟩
        · exact .inl (by simp [h'])
        · exact .inr ⟨p', by simp [hp'], hc, hi⟩
      · exact .inr ⟨p, by simp, hs.1 q hq', by push Not at h; exact h⟩

/-! ## the indices -/

theorem mem_indexed (dets : List Det) (i : Nat) (d : Det) : (i, d) ∈ indexed dets ↔ dets[i]? = some d := by
  unfold indexed
  simp only [List.mem_map, Prod.exists, Prod.mk.injEq]
  constructor
  · rintro ⟨a, b, h, rfl, rfl⟩
    exact List.mem_zipIdx_iff_getElem?.1 h
  · intro h
    exact ⟨d, i, List.mem_zipIdx_iff_getElem?.2 h, rfl, rfl⟩

theorem indexed_fst (dets : List Det) : (indexed dets).map (·.1) = List.range dets.length := by
  unfold indexed
  rw [List.map_map]
  apply List.ext_getElem
  · simp
  · intro i h1 h2
    simp

theorem indexed_snd (dets : List Det) : (indexed dets).map (·.2) = dets := by
  unfold indexed
  rw [List.map_map]
  apply List.ext_getElem
  · simp
  · intro i h1 h2
    simp

theorem indexed_nodup (dets : List Det) : ((indexed dets).map (·.1)).Nodup := by
  rw [indexed_fst]; exact List.nodup_range

theorem boxIou_comm (a b : Det) : boxIou a b = boxIou b a := by
  unfold boxIou
  simp only [max_comm a.x1, max_comm a.y1, min_comm a.x2, min_comm a.y2]
  congr 2
  ring

/-- the pairs kept in one class -/
def keptIn (order : List (Nat × Det) → List (Nat × Det)) (dets : List Det) (thr c : ℚ) : List (Nat × Det) :=
  nmsPairs thr (order ((indexed dets).filter fun p => p.2.cls = c))

theorem mem_classesOf (dets : List Det) (c : ℚ) : c ∈ classesOf dets ↔ ∃ d ∈ dets, d.cls = c := by
  unfold classesOf
  rw [List.mem_insertionSort, List.mem_dedup, List.mem_map]

theorem classesOf_nodup (dets : List Det) : (classesOf dets).Nodup := by
  unfold classesOf
  exact (List.perm_insertionSort _ _).nodup_iff.2 (List.nodup_dedup _)

theorem keptIn_mem {order : List (Nat × Det) → List (Nat × Det)} (ho : SortsDown order) (dets : List Det) (thr c : ℚ) (p : Nat × Det)
    (h : p ∈ keptIn order dets thr c) : dets[p.1]? = some p.2 ∧ p.2.cls = c := by
  have h1 := (nmsPairs_sub thr _).subset h
  have h2 := (ho _).1.subset h1
  rw [List.mem_filter] at h2
  exact ⟨(mem_indexed _ _ _).1 h2.1, by simpa using h2.2⟩

theorem keptIn_fst_nodup {order : List (Nat × Det) → List (Nat × Det)} (ho : SortsDown order) (dets : List Det) (thr c : ℚ) :
    ((keptIn order dets thr c).map (·.1)).Nodup := by
  have h1 : ((order ((indexed dets).filter fun p => p.2.cls = c)).map (·.1)).Nodup := by
    rw [((ho _).1.map _).nodup_iff]
    exact (indexed_nodup dets).sublist (List.filter_sublist.map _)
  exact h1.sublist ((nmsPairs_sub thr _).map _)

theorem nms_mem {order : List (Nat × Det) → List (Nat × Det)} (ho : SortsDown order) (dets : List Det) (thr : ℚ) (i : Nat) (d : Det)
    (hd : dets[i]? = some d) : i ∈ nmsPerClass order dets thr ↔ (i, d) ∈ keptIn order dets thr d.cls := by
  unfold nmsPerClass
  rw [if_neg (by intro h; have := List.eq_nil_of_length_eq_zero h; simp [this] at hd)]
  simp only [List.mem_insertionSort, List.mem_flatMap, nmsLoop_eq]
  constructor
  · rintro ⟨c, hc, hi⟩
    rw [List.mem_map] at hi
    obtain ⟨p, hp, rfl⟩ := hi
    obtain ⟨h1, h2⟩ := keptIn_mem ho dets thr c p hp
    rw [hd] at h1
    cases h1
    rw [h2]
    exact hp
  · intro h
    refine ⟨d.cls, (mem_classesOf _ _).2 ⟨d, List.mem_of_getElem? hd, rfl⟩, List.mem_map.2 ⟨(i, d), h, rfl⟩⟩

theorem nms_lt {order : List (Nat × Det) → List (Nat × Det)} (ho : SortsDown order) (dets : List Det) (thr : ℚ) (i : Nat)
    (h : i ∈ nmsPerClass order dets thr) : ∃ d, dets[i]? = some d := by
  unfold nmsPerClass at h
  split at h
  · simp at h
  · simp only [List.mem_insertionSort, List.mem_flatMap, nmsLoop_eq] at h
    obtain ⟨c, hc, hi⟩ := h
    rw [List.mem_map] at hi
    obtain ⟨p, hp, rfl⟩ := hi
    exact ⟨p.2, (keptIn_mem ho dets thr c p hp).1⟩

theorem nms_nodup {order : List (Nat × Det) → List (Nat × Det)} (ho : SortsDown order) (dets : List Det) (thr : ℚ) :
    (nmsPerClass order dets thr).Nodup := by
  unfold nmsPerClass
  split
  · simp
  · refine (List.perm_insertionSort _ _).nodup_iff.2 ?_
    rw [List.nodup_flatMap]
    refine ⟨fun c _ => by rw [nmsLoop_eq]; exact keptIn_fst_nodup ho dets thr c, ?_⟩
    refine (classesOf_nodup dets).imp ?_
    intro a b hab
    simp only [Function.onFun, nmsLoop_eq]
    intro i h1 h2
    rw [List.mem_map] at h1 h2
    obtain ⟨p, hp, rfl⟩ := h1
    obtain ⟨q, hq, he⟩ := h2
    have e1 := keptIn_mem ho dets thr a p hp
    have e2 := keptIn_mem ho dets thr b q hq
    rw [he, e1.1] at e2
    obtain ⟨e3, e4⟩ := e2
    have e3 := Option.some.inj e3
    rw [← e3] at e4
    exact hab (e1.2.symm.trans e4)

theorem nms_sorted {order : List (Nat × Det) → List (Nat × Det)} (ho : SortsDown order) (dets : List Det) (thr : ℚ) :
    (nmsPerClass order dets thr).Pairwise (· < ·) := by
  have h1 : (nmsPerClass order dets thr).Pairwise (· ≤ ·) := by
    unfold nmsPerClass
    split
    · simp
    · exact List.pairwise_insertionSort _ _
  have h2 := nms_nodup ho dets thr
  exact (h1.and h2).imp fun h => Nat.lt_of_le_of_ne h.1 h.2

/-- kept rows of one class do not overlap more than the threshold -/
theorem nms_sep {order : List (Nat × Det) → List (Nat × Det)} (ho : SortsDown order) (dets : List Det) (thr : ℚ) (i j : Nat) (d e : Det)
    (hd : dets[i]? = some d) (he : dets[j]? = some e) (hij : i ≠ j) (hc : d.cls = e.cls)
    (hi : i ∈ nmsPerClass order dets thr) (hj : j ∈ nmsPerClass order dets thr) : boxIou d e ≤ thr := by
  rw [nms_mem ho dets thr _ _ hd] at hi
  rw [nms_mem ho dets thr _ _ he, ← hc] at hj
  rcases List.pairwise_iff_getElem.1 (nmsPairs_sep thr (order ((indexed dets).filter fun p => p.2.cls = d.cls))) with h
  obtain ⟨m, hm, em⟩ := List.getElem_of_mem hi
  obtain ⟨n, hn, en⟩ := List.getElem_of_mem hj
  rcases Nat.lt_trichotomy m n with hmn | hmn | hmn
  · have := h m n hm hn hmn
    unfold keptIn at em en
    rwa [em, en] at this
  · subst hmn
    rw [em] at en
    exact absurd (Prod.mk.inj en).1 hij
  · have := h n m hn hm hmn
    unfold keptIn at em en
    rwa [em, en, boxIou_comm] at this

/-- a row that is not kept overlaps a kept row of its class, at least as sure, more than the threshold -/
theorem nms_cover {order : List (Nat × Det) → List (Nat × Det)} (ho : SortsDown order) (dets : List Det) (thr : ℚ) (i : Nat) (d : Det)
    (hd : dets[i]? = some d) (hi : i ∉ nmsPerClass order dets thr) :
    ∃ j e, dets[j]? = some e ∧ j ∈ nmsPerClass order dets thr ∧ e.cls = d.cls ∧ d.conf ≤ e.conf ∧ thr < boxIou e d := by
  rw [nms_mem ho dets thr _ _ hd] at hi
  have hm : (i, d) ∈ order ((indexed dets).filter fun p => p.2.cls = d.cls) := by
    rw [(ho _).1.mem_iff]
    simp [mem_indexed, hd]
  rcases nmsPairs_cover thr _ (ho _).2 _ hm with h | ⟨p, hp, hc, ho'⟩
  · exact absurd h hi
  · obtain ⟨h1, h2⟩ := keptIn_mem ho dets thr d.cls p hp
    refine ⟨p.1, p.2, h1, ?_, h2, hc, ho'⟩
    rw [nms_mem ho dets thr _ _ h1, h2]
    exact hp

/-! ## the kept rows -/

theorem kept_eq {order : List (Nat × Det) → List (Nat × Det)} (ho : SortsDown order) (dets : List Det) (thr : ℚ) :
    ((nmsPerClass order dets thr).filterMap fun i => dets[i]?)
      = ((indexed dets).filter fun p => p.1 ∈ nmsPerClass order dets thr).map (·.2) := by
  generalize hK : nmsPerClass order dets thr = K
  have hs := nms_sorted ho dets thr
  have hlt := fun i => nms_lt ho dets thr i
  rw [hK] at hs hlt
  have hfst : K = ((indexed dets).filter fun p => p.1 ∈ K).map (·.1) := by
    have h2 : (((indexed dets).filter fun p => p.1 ∈ K).map (·.1)).Pairwise (· < ·) := by
      refine List.Pairwise.sublist (List.filter_sublist.map _) ?_
      rw [indexed_fst]
      exact List.pairwise_lt_range
    refine List.Perm.eq_of_pairwise (fun a b _ _ h1 h2 => absurd (Nat.lt_trans h1 h2) (Nat.lt_irrefl _)) hs h2 ?_
    rw [List.perm_ext_iff_of_nodup (hs.imp Nat.ne_of_lt) (h2.imp Nat.ne_of_lt)]
    intro i
    simp only [List.mem_map, List.mem_filter, decide_eq_true_eq, Prod.exists, exists_and_right, exists_eq_right]
    constructor
    · intro h
      obtain ⟨d, hd⟩ := hlt i h
      exact ⟨⟨d, (mem_indexed _ _ _).2 hd⟩, h⟩
    · exact fun h => h.2
  conv => lhs; rw [hfst]
  rw [List.filterMap_map]
  have : ∀ l : List (Nat × Det), (∀ p ∈ l, dets[p.1]? = some p.2) → l.filterMap ((fun i => dets[i]?) ∘ (·.1)) = l.map (·.2) := by
    intro l hl
    induction l with
    | nil => rfl
    | cons p l ih =>
      rw [List.filterMap_cons, Function.comp, hl p (by simp)]
      simp only [List.map_cons]
      rw [ih fun q hq => hl q (by simp [hq])]
  exact this _ fun p hp => (mem_indexed _ _ _).1 (List.mem_filter.1 hp).1

theorem candidates_eq (rows : List (Nat → ℚ)) (H W c : ℚ) : candidates rows H W c = rows.filterMap (candidate H W c) := by
  unfold candidates
  rw [← List.filterMap_eq_filter, ← List.filterMap_eq_filter, ← List.filterMap_eq_map, List.filterMap_filterMap, List.filterMap_filterMap]
  congr 1
  funext r
  unfold candidate clip
  by_cases h : c < r 4
  · simp only [Option.guard, gt_iff_lt, h, decide_true, if_true, Option.bind_some, Function.comp, true_and]
    simp only [decide_eq_true_eq]
  · simp [Option.guard, h]

theorem candidate_some (H W c : ℚ) (r : Nat → ℚ) (d : Det) (h : candidate H W c r = some d) :
    c < d.conf ∧ 0 ≤ d.x1 ∧ d.x1 < d.x2 ∧ d.x2 ≤ W ∧ 0 ≤ d.y1 ∧ d.y1 < d.y2 ∧ d.y2 ≤ H ∧ d.cls = r 5 ∧ d.conf = r 4 := by
  unfold candidate at h
  simp only [] at h
  split at h
  · rename_i hc
    cases h
    obtain ⟨h1, h2, h3⟩ := hc
    have key : ∀ a b w : ℚ, min (max a 0) w < min (max b 0) w → 0 ≤ min (max a 0) w := by
      intro a b w hlt
      have hw : 0 ≤ w := by
        by_contra hw
        push Not at hw
        rw [min_eq_right (le_trans hw.le (le_max_right a 0)), min_eq_right (le_trans hw.le (le_max_right b 0))] at hlt
        exact lt_irrefl _ hlt
      exact le_min (le_max_right a 0) hw
    exact ⟨h1, key _ _ _ h2, h2, min_le_right _ _, key _ _ _ h3, h3, min_le_right _ _, rfl, rfl⟩
  · cases h

/-! ## the overlap -/

theorem iou_range (a b : Det) (ha : a.x1 ≤ a.x2 ∧ a.y1 ≤ a.y2) (hb : b.x1 ≤ b.x2 ∧ b.y1 ≤ b.y2) : 0 ≤ boxIou a b ∧ boxIou a b ≤ 1 := by
  unfold boxIou
  simp only []
  set w := max 0 (min a.x2 b.x2 - max a.x1 b.x1) with hw
  set h := max 0 (min a.y2 b.y2 - max a.y1 b.y1) with hh
  have w0 : 0 ≤ w := le_max_left _ _
  have h0 : 0 ≤ h := le_max_left _ _
  have wa : w ≤ a.x2 - a.x1 := max_le (by linarith [ha.1]) (by linarith [min_le_left a.x2 b.x2, le_max_left a.x1 b.x1])
  have ha' : h ≤ a.y2 - a.y1 := max_le (by linarith [ha.2]) (by linarith [min_le_left a.y2 b.y2, le_max_left a.y1 b.y1])
  have wb : w ≤ b.x2 - b.x1 := max_le (by linarith [hb.1]) (by linarith [min_le_right a.x2 b.x2, le_max_right a.x1 b.x1])
  have hb' : h ≤ b.y2 - b.y1 := max_le (by linarith [hb.2]) (by linarith [min_le_right a.y2 b.y2, le_max_right a.y1 b.y1])
  have i0 : 0 ≤ w * h := mul_nonneg w0 h0
  have ia : w * h ≤ (a.x2 - a.x1) * (a.y2 - a.y1) := mul_le_mul wa ha' h0 (by linarith [ha.1])
  have ib : w * h ≤ (b.x2 - b.x1) * (b.y2 - b.y1) := mul_le_mul wb hb' h0 (by linarith [hb.1])
  set u := (a.x2 - a.x1) * (a.y2 - a.y1) + (b.x2 - b.x1) * (b.y2 - b.y1) - w * h with hu
  have hm : 0 < max u (1 / 10000000) := lt_of_lt_of_le (by norm_num) (le_max_right _ _)
  refine ⟨div_nonneg i0 hm.le, ?_⟩
  rw [div_le_one hm]
  exact le_trans (by linarith) (le_max_left u _)

/-! ## greedy choice -/

theorem greedy_unique (dets : List Det) (thr : ℚ) (K K' : Nat → Prop) (h : Greedy dets thr K) (h' : Greedy dets thr K') :
    ∀ (i : Nat) (d : Det), dets[i]? = some d → (K i ↔ K' i) := by
  have main : ∀ n : Nat, ∀ (i : Nat) (d : Det), dets[i]? = some d → (dets.countP fun e => d.conf < e.conf) ≤ n → (K i ↔ K' i) := by
    intro n
    induction n with
    | zero =>
      intro i d hd hn
      have hz : ∀ e ∈ dets, ¬ d.conf < e.conf := by
        have := List.countP_eq_zero.1 (Nat.le_zero.1 hn)
        simpa using this
      rw [h i d hd, h' i d hd]
      constructor <;> intro _ j e he _ _ hlt <;> exact absurd hlt (hz e (List.mem_of_getElem? he))
    | succ n ih =>
      intro i d hd hn
      rw [h i d hd, h' i d hd]
      have step : ∀ (j : Nat) (e : Det), dets[j]? = some e → d.conf < e.conf → (K j ↔ K' j) := by
        intro j e he hlt
        refine ih j e he ?_
        have : (dets.countP fun x => e.conf < x.conf) < dets.countP fun x => d.conf < x.conf := by
          have hmem := List.mem_of_getElem? he
          obtain ⟨s, t, rfl⟩ := List.append_of_mem hmem
          have hmono : ∀ l : List Det, (l.countP fun x => e.conf < x.conf) ≤ l.countP fun x => d.conf < x.conf := by
            intro l
            refine List.countP_mono_left fun x _ hx => ?_
            simp only [decide_eq_true_eq] at hx ⊢
            exact lt_trans hlt hx
          rw [List.countP_append, List.countP_append, List.countP_cons, List.countP_cons]
          simp only [lt_irrefl, hlt, decide_false, decide_true, if_true]
          have := hmono s
          have := hmono t
          simp only [Bool.false_eq_true, if_false]
          omega
        omega
      constructor
      · intro hk j e he hk' hc hlt
        exact hk j e he ((step j e he hlt).2 hk') hc hlt
      · intro hk j e he hk' hc hlt
        exact hk j e he ((step j e he hlt).1 hk') hc hlt
  exact fun i d hd => main _ i d hd (Nat.le_refl _)

theorem nms_greedy {order : List (Nat × Det) → List (Nat × Det)} (ho : SortsDown order) (dets : List Det) (thr : ℚ) (hd : Distinct dets) :
    Greedy dets thr (fun i => i ∈ nmsPerClass order dets thr) := by
  intro i d hi
  constructor
  · intro hk j e he hj hc hlt
    exact nms_sep ho dets thr j i e d he hi (by rintro rfl; rw [hi] at he; cases he; exact lt_irrefl _ hlt) hc hj hk
  · intro hall
    by_contra hk
    obtain ⟨j, e, he, hj, hc, hle, hov⟩ := nms_cover ho dets thr i d hi hk
    have hne : e.conf ≠ d.conf := by
      have hij : i ≠ j := by rintro rfl; exact hk hj
      have hp := List.pairwise_iff_getElem.1 hd
      obtain ⟨hi', ei⟩ := List.getElem?_eq_some_iff.1 hi
      obtain ⟨hj', ej⟩ := List.getElem?_eq_some_iff.1 he
      rcases Nat.lt_or_gt_of_ne hij with h | h
      · have := hp i j hi' hj' h
        rw [ei, ej] at this
        exact fun h => this hc.symm h.symm
      · have := hp j i hj' hi' h
        rw [ei, ej] at this
        exact this hc
    exact absurd (hall j e he hj hc (lt_of_le_of_ne hle (Ne.symm hne))) (not_le.2 hov)

end OnnxTool.Yolo
