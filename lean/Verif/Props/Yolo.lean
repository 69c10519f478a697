import Verif.Proofs.Yolo
/-!
# C99 — detections of an image: what `yolo_postprocess` returns
-/
namespace OnnxTool.Props
open OnnxTool OnnxTool.Yolo

/-- the rows of the only image that is looked at -/
def imageRows : Output → List (Nat → ℚ)
  | .matrix _ rows => rows
  | .stack _ [] => []
  | .stack _ (rows :: _) => rows

def outWidth : Output → Nat
  | .matrix w _ => w
  | .stack w _ => w

/-- the array has an image to look at -/
def HasImage : Output → Prop
  | .matrix _ _ => True
  | .stack _ images => images ≠ []

theorem postprocess_eq (order : List (Nat × Det) → List (Nat × Det)) (o : Output) (H W c t : ℚ) (m : Int) (ho : HasImage o) :
    postprocess order o H W c t m = .ok (ofRows order (outWidth o) (imageRows o) H W c t m) := by
  cases o with
  | matrix w rows => rfl
  | stack w images =>
    cases images with
    | nil => exact absurd rfl ho
    | cons rows rest => rfl

theorem nms_nil (order : List (Nat × Det) → List (Nat × Det)) (t : ℚ) : nmsPerClass order [] t = [] := rfl

theorem finish_nil {order : List (Nat × Det) → List (Nat × Det)} (ho : SortsDown order) (t : ℚ) (m : Int) : finish order [] t m = [] := by
  have h : order (indexed []) = [] := by simpa [indexed] using (ho (indexed [])).1
  unfold finish
  simp only [nms_nil, List.filterMap_nil]
  rw [h]
  have : sliceTo ([] : List (Nat × Det)) m = [] := by unfold sliceTo; simp
  rw [this]
  simp

theorem ofRows_eq {order : List (Nat × Det) → List (Nat × Det)} (hs : SortsDown order) (w : Nat) (rows : List (Nat → ℚ)) (H W c t : ℚ) (m : Int) (hw : 6 ≤ w) :
    ofRows order w rows H W c t m = finish order (rows.filterMap (candidate H W c)) t m := by
  unfold ofRows
  rw [if_neg (by omega)]
  simp only [candidates_eq]
  split
  · rename_i h
    rw [List.eq_nil_of_length_eq_zero h, finish_nil hs]
  · rfl

/-- the rows left by the suppression -/
def leftBy (order : List (Nat × Det) → List (Nat × Det)) (dets : List Det) (t : ℚ) : List Det :=
  (nmsPerClass order dets t).filterMap fun i => dets[i]?

theorem leftBy_sub {order : List (Nat × Det) → List (Nat × Det)} (hs : SortsDown order) (dets : List Det) (t : ℚ) : (leftBy order dets t).Sublist dets := by
  unfold leftBy
  rw [kept_eq hs]
  have := (List.filter_sublist (l := indexed dets) (p := fun p => decide (p.1 ∈ nmsPerClass order dets t))).map (fun p : Nat × Det => p.2)
  rwa [indexed_snd] at this

theorem leftBy_sep {order : List (Nat × Det) → List (Nat × Det)} (hs : SortsDown order) (dets : List Det) (t : ℚ) :
    (leftBy order dets t).Pairwise fun a b => a.cls = b.cls → boxIou a b ≤ t := by
  unfold leftBy
  rw [kept_eq hs, List.pairwise_map]
  have h1 : ((indexed dets).filter fun p => p.1 ∈ nmsPerClass order dets t).Pairwise fun p q => p.1 ≠ q.1 := by
    have := indexed_nodup dets
    rw [List.Nodup, List.pairwise_map] at this
    exact this.sublist List.filter_sublist
  refine List.Pairwise.imp_of_mem ?_ h1
  intro p q hp hq hne hc
  rw [List.mem_filter] at hp hq
  exact nms_sep hs dets t p.1 q.1 p.2 q.2 ((mem_indexed _ _ _).1 hp.1) ((mem_indexed _ _ _).1 hq.1) hne hc
    (by simpa using hp.2) (by simpa using hq.2)

theorem mem_leftBy (order : List (Nat × Det) → List (Nat × Det)) (dets : List Det) (t : ℚ) (d : Det) :
    d ∈ leftBy order dets t ↔ ∃ i, dets[i]? = some d ∧ i ∈ nmsPerClass order dets t := by
  unfold leftBy
  rw [List.mem_filterMap]
  exact ⟨fun ⟨i, h1, h2⟩ => ⟨i, h2, h1⟩, fun ⟨i, h1, h2⟩ => ⟨i, h2, h1⟩⟩

theorem leftBy_cover {order : List (Nat × Det) → List (Nat × Det)} (hs : SortsDown order) (dets : List Det) (t : ℚ) (d : Det) (hd : d ∈ dets) :
    d ∈ leftBy order dets t ∨ ∃ e ∈ leftBy order dets t, e.cls = d.cls ∧ d.conf ≤ e.conf ∧ t < boxIou e d := by
  obtain ⟨i, hi⟩ := List.getElem?_of_mem hd
  by_cases h : i ∈ nmsPerClass order dets t
  · exact .inl ((mem_leftBy _ _ _ _).2 ⟨i, hi, h⟩)
  · obtain ⟨j, e, he, hj, h1, h2, h3⟩ := nms_cover hs dets t i d hi h
    exact .inr ⟨e, (mem_leftBy _ _ _ _).2 ⟨j, he, hj⟩, h1, h2, h3⟩

theorem order_perm {order : List (Nat × Det) → List (Nat × Det)} (hs : SortsDown order) (l : List Det) :
    ((order (indexed l)).map (·.2)).Perm l := by
  have := (hs (indexed l)).1.map (fun p : Nat × Det => p.2)
  rwa [indexed_snd] at this

theorem sliceTo_sub {α : Type} (l : List α) (n : Int) : (sliceTo l n).Sublist l := by
  unfold sliceTo
  split <;> exact List.take_sublist _ _

theorem finish_cases (order : List (Nat × Det) → List (Nat × Det)) (dets : List Det) (t : ℚ) (m : Int) :
    ((leftBy order dets t).length ≤ m ∧ finish order dets t m = leftBy order dets t) ∨
    (m < (leftBy order dets t).length ∧ finish order dets t m = (sliceTo (order (indexed (leftBy order dets t))) m).map (·.2)) := by
  unfold finish
  simp only []
  by_cases h : m < (leftBy order dets t).length
  · right
    refine ⟨h, ?_⟩
    unfold leftBy at h ⊢
    rw [if_pos h]
  · left
    refine ⟨by omega, ?_⟩
    unfold leftBy at h ⊢
    rw [if_neg h]

theorem finish_subperm {order : List (Nat × Det) → List (Nat × Det)} (hs : SortsDown order) (dets : List Det) (t : ℚ) (m : Int) :
    (finish order dets t m).Subperm (leftBy order dets t) := by
  rcases finish_cases order dets t m with ⟨_, h⟩ | ⟨_, h⟩
  · rw [h]
  · rw [h]
    exact ((sliceTo_sub _ _).map _).subperm.trans (order_perm hs _).subperm

/-! ## What the detections are -/

/-- C99: every detection is the part inside the image of a row of the first image; it is surer than the threshold, lies inside the image and is not empty -/
theorem C99_valid (order : List (Nat × Det) → List (Nat × Det)) (hs : SortsDown order) (o : Output) (H W c t : ℚ) (m : Int) (ds : List Det)
    (h : postprocess order o H W c t m = .ok ds) (d : Det) (hd : d ∈ ds) :
    (∃ r ∈ imageRows o, candidate H W c r = some d) ∧ c < d.conf ∧ 0 ≤ d.x1 ∧ d.x1 < d.x2 ∧ d.x2 ≤ W ∧ 0 ≤ d.y1 ∧ d.y1 < d.y2 ∧ d.y2 ≤ H := by
  have ho : HasImage o := by
    cases o with
    | matrix w rows => trivial
    | stack w images =>
      cases images with
      | nil => cases h
      | cons a b => exact List.cons_ne_nil _ _
  rw [postprocess_eq _ _ _ _ _ _ _ ho] at h
  have h := Except.ok.inj h
  subst h
  by_cases hw : outWidth o < 6
  · unfold ofRows at hd; rw [if_pos hw] at hd; simp at hd
  · rw [ofRows_eq hs _ _ _ _ _ _ _ (by omega)] at hd
    have h1 := (leftBy_sub hs _ t).subset ((finish_subperm hs _ t m).subset hd)
    obtain ⟨r, hr, e⟩ := List.mem_filterMap.1 h1
    obtain ⟨a1, a2, a3, a4, a5, a6, a7, _⟩ := candidate_some H W c r d e
    exact ⟨⟨r, hr, e⟩, a1, a2, a3, a4, a5, a6, a7⟩

/-- C99: no row gives two detections -/
theorem C99_each_row_once (order : List (Nat × Det) → List (Nat × Det)) (hs : SortsDown order) (w : Nat) (rows : List (Nat → ℚ)) (H W c t : ℚ) (m : Int) :
    (ofRows order w rows H W c t m).Subperm (rows.filterMap (candidate H W c)) := by
  by_cases hw : w < 6
  · unfold ofRows; rw [if_pos hw]; exact List.nil_subperm
  · rw [ofRows_eq hs _ _ _ _ _ _ _ (by omega)]
    exact (finish_subperm hs _ t m).trans (leftBy_sub hs _ t).subperm

/-- C99: two detections of one class never overlap more than the threshold -/
theorem C99_separated (order : List (Nat × Det) → List (Nat × Det)) (hs : SortsDown order) (w : Nat) (rows : List (Nat → ℚ)) (H W c t : ℚ) (m : Int) :
    (ofRows order w rows H W c t m).Pairwise fun a b => a.cls = b.cls → boxIou a b ≤ t := by
  by_cases hw : w < 6
  · unfold ofRows; rw [if_pos hw]; exact List.Pairwise.nil
  · rw [ofRows_eq hs _ _ _ _ _ _ _ (by omega)]
    obtain ⟨l, hp, hl⟩ := finish_subperm hs (rows.filterMap (candidate H W c)) t m
    have := (leftBy_sep hs (rows.filterMap (candidate H W c)) t).sublist hl
    exact this.perm hp (fun hab hc => by rw [boxIou_comm]; exact hab hc.symm)

/-- C99: there are at most `max_det` detections -/
theorem C99_at_most (order : List (Nat × Det) → List (Nat × Det)) (w : Nat) (rows : List (Nat → ℚ)) (H W c t : ℚ) (m : Int)
    (hm : 0 ≤ m) : ((ofRows order w rows H W c t m).length : Int) ≤ m := by
  unfold ofRows
  split
  · simpa using hm
  · simp only []
    split
    · simpa using hm
    · rcases finish_cases order (candidates rows H W c) t m with ⟨h1, h2⟩ | ⟨_, h2⟩
      · rw [h2]; exact h1
      · rw [h2, List.length_map]
        unfold sliceTo
        rw [if_pos hm, List.length_take]
        omega

/-- C99: nothing is lost without a reason: a row that could be a detection is one, or a detection of its class at least as sure overlaps it more than the threshold, or the number of detections is
at its limit and all of them are at least as sure -/
theorem C99_nothing_lost (order : List (Nat × Det) → List (Nat × Det)) (hs : SortsDown order) (w : Nat) (rows : List (Nat → ℚ)) (H W c t : ℚ) (m : Int) (hw : 6 ≤ w)
    (hm : 0 ≤ m) (r : Nat → ℚ) (hr : r ∈ rows) (d : Det) (hd : candidate H W c r = some d) :
    d ∈ ofRows order w rows H W c t m ∨
    (∃ e ∈ ofRows order w rows H W c t m, e.cls = d.cls ∧ d.conf ≤ e.conf ∧ t < boxIou e d) ∨
    ((ofRows order w rows H W c t m).length = m.toNat ∧ ∀ e ∈ ofRows order w rows H W c t m, d.conf ≤ e.conf) := by
  rw [ofRows_eq hs _ _ _ _ _ _ _ hw]
  have hmem : d ∈ rows.filterMap (candidate H W c) := List.mem_filterMap.2 ⟨r, hr, hd⟩
  generalize hD : rows.filterMap (candidate H W c) = dets at hmem ⊢
  rcases finish_cases order dets t m with ⟨h1, h2⟩ | ⟨h1, h2⟩
  · rw [h2]
    rcases leftBy_cover hs dets t d hmem with h | h
    · exact .inl h
    · exact .inr (.inl h)
  · -- the limit is reached
    have hlen : (finish order dets t m).length = m.toNat := by
      rw [h2, List.length_map]
      unfold sliceTo
      rw [if_pos hm, List.length_take, (hs _).1.length_eq]
      have : (indexed (leftBy order dets t)).length = (leftBy order dets t).length := by
        have := congrArg List.length (indexed_snd (leftBy order dets t))
        rwa [List.length_map] at this
      rw [this]
      omega
    -- whatever was left and is not returned is less sure than everything returned
    have key : ∀ x ∈ leftBy order dets t, x ∈ finish order dets t m ∨ ∀ e ∈ finish order dets t m, x.conf ≤ e.conf := by
      intro x hx
      have hx' := (order_perm hs (leftBy order dets t)).mem_iff.2 hx
      rw [List.mem_map] at hx'
      obtain ⟨p, hp, rfl⟩ := hx'
      rw [h2]
      unfold sliceTo
      rw [if_pos hm]
      rw [← List.take_append_drop m.toNat (order (indexed (leftBy order dets t)))] at hp
      rcases List.mem_append.1 hp with hp | hp
      · exact .inl (List.mem_map.2 ⟨p, hp, rfl⟩)
      · right
        intro e he
        obtain ⟨q, hq, rfl⟩ := List.mem_map.1 he
        have hsort := (hs (indexed (leftBy order dets t))).2
        rw [← List.take_append_drop m.toNat (order (indexed (leftBy order dets t)))] at hsort
        exact (List.pairwise_append.1 hsort).2.2 q hq p hp
    rcases leftBy_cover hs dets t d hmem with h | ⟨e, he, hc, hle, hov⟩
    · rcases key d h with h | h
      · exact .inl h
      · exact .inr (.inr ⟨hlen, h⟩)
    · rcases key e he with h | h
      · exact .inr (.inl ⟨e, h, hc, hle, hov⟩)
      · exact .inr (.inr ⟨hlen, fun x hx => le_trans hle (h x hx)⟩)

/-! ## The order of the detections -/

/-- C99: under the limit the detections stand in the order of the rows -/
theorem C99_row_order (order : List (Nat × Det) → List (Nat × Det)) (hs : SortsDown order) (w : Nat) (rows : List (Nat → ℚ)) (H W c t : ℚ) (m : Int)
    (h : ((ofRows order w rows H W c t m).length : Int) < m) : (ofRows order w rows H W c t m).Sublist (rows.filterMap (candidate H W c)) := by
  by_cases hw : w < 6
  · unfold ofRows; rw [if_pos hw]; exact List.nil_sublist _
  · rw [ofRows_eq hs _ _ _ _ _ _ _ (by omega)] at h ⊢
    rcases finish_cases order (rows.filterMap (candidate H W c)) t m with ⟨_, h2⟩ | ⟨h1, h2⟩
    · rw [h2]; exact leftBy_sub hs _ t
    · exfalso
      rw [h2, List.length_map] at h
      unfold sliceTo at h
      have hl := (hs (indexed (leftBy order (rows.filterMap (candidate H W c)) t))).1.length_eq
      have : (indexed (leftBy order (rows.filterMap (candidate H W c)) t)).length = (leftBy order (rows.filterMap (candidate H W c)) t).length := by
        have := congrArg List.length (indexed_snd (leftBy order (rows.filterMap (candidate H W c)) t))
        rwa [List.length_map] at this
      split at h
      · rw [List.length_take] at h; omega
      · have := Int.natCast_nonneg (List.take ((order (indexed (leftBy order (rows.filterMap (candidate H W c)) t))).length - (-m).toNat) (order (indexed (leftBy order (rows.filterMap (candidate H W c)) t)))).length
        omega

/-- C99: when rows are cut off for the limit the detections are sorted by falling confidence -/
theorem C99_cut_sorted (order : List (Nat × Det) → List (Nat × Det)) (hs : SortsDown order) (dets : List Det) (t : ℚ) (m : Int)
    (h : m < (leftBy order dets t).length) : (finish order dets t m).Pairwise fun a b => b.conf ≤ a.conf := by
  rcases finish_cases order dets t m with ⟨h1, _⟩ | ⟨_, h2⟩
  · omega
  · rw [h2, List.pairwise_map]
    exact (hs _).2.sublist (sliceTo_sub _ _)

/-! ## The choice is determined -/

theorem leftBy_free {o1 o2 : List (Nat × Det) → List (Nat × Det)} (h1 : SortsDown o1) (h2 : SortsDown o2) (dets : List Det) (t : ℚ) (hd : Distinct dets) :
    leftBy o1 dets t = leftBy o2 dets t := by
  have hk := greedy_unique dets t _ _ (nms_greedy h1 dets t hd) (nms_greedy h2 dets t hd)
  unfold leftBy
  rw [kept_eq h1, kept_eq h2]
  congr 1
  refine List.filter_congr fun p hp => ?_
  have := hk p.1 p.2 ((mem_indexed _ _ _).1 hp)
  by_cases h : p.1 ∈ nmsPerClass o1 dets t
  · rw [decide_eq_true h, decide_eq_true (this.1 h)]
  · rw [decide_eq_false h, decide_eq_false fun h' => h (this.2 h')]

/-- C99: with different confidences in every class, and no more boxes than `max_det`, the detections are the greedy choice: row number `i` of the candidates is among them
iff no surer detection of its class overlaps it more than the threshold -/
theorem C99_greedy (order : List (Nat × Det) → List (Nat × Det)) (hs : SortsDown order) (w : Nat) (rows : List (Nat → ℚ)) (H W c t : ℚ) (m : Int) (hw : 6 ≤ w)
    (hd : Distinct (rows.filterMap (candidate H W c))) (hm : ((rows.filterMap (candidate H W c)).length : Int) ≤ m) :
    ∃ K : List Nat, Greedy (rows.filterMap (candidate H W c)) t (· ∈ K) ∧ K.Pairwise (· < ·) ∧
      ofRows order w rows H W c t m = K.filterMap fun i => (rows.filterMap (candidate H W c))[i]? := by
  refine ⟨nmsPerClass order (rows.filterMap (candidate H W c)) t, nms_greedy hs _ t hd, nms_sorted hs _ t, ?_⟩
  rw [ofRows_eq hs _ _ _ _ _ _ _ hw]
  rcases finish_cases order (rows.filterMap (candidate H W c)) t m with ⟨_, h2⟩ | ⟨h1, _⟩
  · exact h2
  · have := (leftBy_sub hs (rows.filterMap (candidate H W c)) t).length_le
    omega

/-- C99: there is one greedy choice -/
theorem C99_greedy_unique (dets : List Det) (t : ℚ) (K K' : Nat → Prop) (h : Greedy dets t K) (h' : Greedy dets t K') (i : Nat) (hi : i < dets.length) : K i ↔ K' i :=
  greedy_unique dets t K K' h h' i dets[i] (List.getElem?_eq_getElem hi)

/-- C99: with different confidences the detections do not depend on how the sort treats equal keys -/
theorem C99_sort_irrelevant (o1 o2 : List (Nat × Det) → List (Nat × Det)) (h1 : SortsDown o1) (h2 : SortsDown o2) (o : Output) (H W c t : ℚ) (m : Int)
    (hd : ((imageRows o).filterMap (candidate H W c)).Pairwise fun a b => a.conf ≠ b.conf) : postprocess o1 o H W c t m = postprocess o2 o H W c t m := by
  by_cases ho : HasImage o
  · rw [postprocess_eq _ _ _ _ _ _ _ ho, postprocess_eq _ _ _ _ _ _ _ ho]
    congr 1
    by_cases hw : outWidth o < 6
    · unfold ofRows; rw [if_pos hw, if_pos hw]
    · rw [ofRows_eq h1 _ _ _ _ _ _ _ (by omega), ofRows_eq h2 _ _ _ _ _ _ _ (by omega)]
      generalize (imageRows o).filterMap (candidate H W c) = dets at hd ⊢
      have hl := leftBy_free h1 h2 dets t (by unfold Distinct; refine List.Pairwise.imp ?_ hd; intro a b h _; exact h)
      have hdl : (leftBy o2 dets t).Pairwise fun a b => a.conf ≠ b.conf := hd.sublist (leftBy_sub h2 dets t)
      rcases finish_cases o1 dets t m with ⟨a1, a2⟩ | ⟨a1, a2⟩ <;> rcases finish_cases o2 dets t m with ⟨b1, b2⟩ | ⟨b1, b2⟩
      · rw [a2, b2, hl]
      · rw [hl] at a1; omega
      · rw [hl] at a1; omega
      · rw [a2, b2, hl]
        congr 2
        refine List.Perm.eq_of_pairwise ?_ (h1 _).2 (h2 _).2 (((h1 _).1).trans (h2 _).1.symm)
        intro p q hp hq hpq hqp
        have hp' := (mem_indexed _ _ _).1 ((h1 _).1.subset hp)
        have hq' := (mem_indexed _ _ _).1 ((h2 _).1.subset hq)
        have he : p.2.conf = q.2.conf := le_antisymm hqp hpq
        have hi : p.1 = q.1 := by
          by_contra hne
          obtain ⟨x1, x2⟩ := List.getElem?_eq_some_iff.1 hp'
          obtain ⟨y1, y2⟩ := List.getElem?_eq_some_iff.1 hq'
          have hpw := List.pairwise_iff_getElem.1 hdl
          rcases Nat.lt_or_gt_of_ne hne with h | h
          · have := hpw _ _ x1 y1 h
            rw [x2, y2] at this
            exact this he
          · have := hpw _ _ y1 x1 h
            rw [x2, y2] at this
            exact this he.symm
        rw [hi, hq'] at hp'
        exact Prod.ext hi (Option.some.inj hp').symm
  · cases o with
    | matrix w rows => exact absurd trivial ho
    | stack w images =>
      cases images with
      | nil => rfl
      | cons a b => exact absurd (List.cons_ne_nil _ _) ho

/-- boxes that do not overlap too much are all kept -/
theorem leftBy_all {order : List (Nat × Det) → List (Nat × Det)} (hs : SortsDown order) (dets : List Det) (t : ℚ)
    (h : dets.Pairwise fun a b => a.cls = b.cls → boxIou a b ≤ t) : leftBy order dets t = dets := by
  unfold leftBy
  rw [kept_eq hs]
  have : (indexed dets).filter (fun p => decide (p.1 ∈ nmsPerClass order dets t)) = indexed dets := by
    refine List.filter_eq_self.2 fun p hp => ?_
    rw [decide_eq_true_eq]
    have hp' := (mem_indexed _ _ _).1 hp
    by_contra hn
    obtain ⟨j, e, he, hj, hc, _, hov⟩ := nms_cover hs dets t p.1 p.2 hp' hn
    have hne : p.1 ≠ j := by rintro rfl; exact hn hj
    obtain ⟨x1, x2⟩ := List.getElem?_eq_some_iff.1 hp'
    obtain ⟨y1, y2⟩ := List.getElem?_eq_some_iff.1 he
    have hpw := List.pairwise_iff_getElem.1 h
    rcases Nat.lt_or_gt_of_ne hne with hlt | hlt
    · have := hpw _ _ x1 y1 hlt
      rw [x2, y2] at this
      exact absurd (this hc.symm) (not_le.2 (by rwa [boxIou_comm] at hov))
    · have := hpw _ _ y1 x1 hlt
      rw [x2, y2] at this
      exact absurd (this hc) (not_le.2 hov)
  rw [this, indexed_snd]

theorem candidate_again (H W c : ℚ) (r : Nat → ℚ) (d : Det) (h : candidate H W c r = some d) : candidate H W c (rowOf d) = some d := by
  obtain ⟨a1, a2, a3, a4, a5, a6, a7, _⟩ := candidate_some H W c r d h
  unfold candidate rowOf
  have e1 : min (max d.x1 0) W = d.x1 := by rw [max_eq_left a2, min_eq_left (by linarith)]
  have e2 : min (max d.x2 0) W = d.x2 := by rw [max_eq_left (by linarith), min_eq_left a4]
  have e3 : min (max d.y1 0) H = d.y1 := by rw [max_eq_left a5, min_eq_left (by linarith)]
  have e4 : min (max d.y2 0) H = d.y2 := by rw [max_eq_left (by linarith), min_eq_left a7]
  simp only [e1, e2, e3, e4]
  rw [if_pos ⟨a1, a3, a6⟩]

/-- C99: detections given back as the output of a model are returned unchanged, in the same order -/
theorem C99_again (order : List (Nat × Det) → List (Nat × Det)) (hs : SortsDown order) (w w' : Nat) (rows : List (Nat → ℚ)) (H W c t : ℚ) (m : Int) (hm : 0 ≤ m) (hw : 6 ≤ w') :
    ofRows order w' ((ofRows order w rows H W c t m).map rowOf) H W c t m = ofRows order w rows H W c t m := by
  have hsep := C99_separated order hs w rows H W c t m
  have hlen := C99_at_most order w rows H W c t m hm
  have hval : ∀ d ∈ ofRows order w rows H W c t m, ∃ r, candidate H W c r = some d := by
    intro d hd
    obtain ⟨⟨r, _, h⟩, _⟩ := C99_valid order hs (.matrix w rows) H W c t m _ rfl d hd
    exact ⟨r, h⟩
  generalize ofRows order w rows H W c t m = ds at hsep hlen hval
  rw [ofRows_eq hs _ _ _ _ _ _ _ hw]
  have : (ds.map rowOf).filterMap (candidate H W c) = ds := by
    rw [List.filterMap_map]
    clear hsep hlen
    induction ds with
    | nil => rfl
    | cons d ds ih =>
      obtain ⟨r, hr⟩ := hval d (by simp)
      rw [List.filterMap_cons, Function.comp, candidate_again H W c r d hr]
      simp only []
      rw [ih fun x hx => hval x (by simp [hx])]
  rw [this]
  rcases finish_cases order ds t m with ⟨_, h2⟩ | ⟨h1, _⟩
  · rw [h2, leftBy_all hs ds t hsep]
  · rw [leftBy_all hs ds t hsep] at h1
    omega

/-- C99: with a threshold of one or more nothing is suppressed -/
theorem C99_no_suppression (order : List (Nat × Det) → List (Nat × Det)) (hs : SortsDown order) (w : Nat) (rows : List (Nat → ℚ)) (H W c t : ℚ) (m : Int) (hw : 6 ≤ w) (ht : 1 ≤ t)
    (hm : ((rows.filterMap (candidate H W c)).length : Int) ≤ m) : ofRows order w rows H W c t m = rows.filterMap (candidate H W c) := by
  rw [ofRows_eq hs _ _ _ _ _ _ _ hw]
  have hall : leftBy order (rows.filterMap (candidate H W c)) t = rows.filterMap (candidate H W c) := by
    refine leftBy_all hs _ t ?_
    refine List.Pairwise.imp_of_mem (R := fun _ _ => True) ?_ (List.pairwise_of_forall fun _ _ => trivial)
    intro a b ha hb _ _
    obtain ⟨ra, _, ea⟩ := List.mem_filterMap.1 ha
    obtain ⟨rb, _, eb⟩ := List.mem_filterMap.1 hb
    obtain ⟨_, _, a3, _, _, a6, _⟩ := candidate_some H W c ra a ea
    obtain ⟨_, _, b3, _, _, b6, _⟩ := candidate_some H W c rb b eb
    exact le_trans (iou_range a b ⟨a3.le, a6.le⟩ ⟨b3.le, b6.le⟩).2 ht
  rcases finish_cases order (rows.filterMap (candidate H W c)) t m with ⟨_, h2⟩ | ⟨h1, _⟩
  · rw [h2, hall]
  · rw [hall] at h1; omega

/-! ## The overlap -/

/-- C99: for boxes with whole corners the overlap is the number of common cells over the number of cells of either -/
theorem C99_iou_cells (a b c d a' b' c' d' : Int) (p q p' q' : ℚ) (h1 : a < c) (h2 : b < d) (h3 : a' < c') (h4 : b' < d') :
    boxIou ⟨a, b, c, d, p, q⟩ ⟨a', b', c', d', p', q'⟩
      = ((cells a b c d ∩ cells a' b' c' d').card : ℚ) / ((cells a b c d ∪ cells a' b' c' d').card : ℚ) := by
  have hI : cells a b c d ∩ cells a' b' c' d' = cells (max a a') (max b b') (min c c') (min d d') := by
    unfold cells
    rw [Finset.product_inter_product, Finset.Ico_inter_Ico, Finset.Ico_inter_Ico]
  have hcard : ∀ x y z w : Int, ((cells x y z w).card : ℚ) = max 0 ((z : ℚ) - x) * max 0 ((w : ℚ) - y) := by
    intro x y z w
    have one : ∀ u v : Int, (((v - u).toNat : Nat) : ℚ) = max 0 ((v : ℚ) - u) := by
      intro u v
      have : (((v - u).toNat : Nat) : Int) = max 0 (v - u) := by omega
      have h := congrArg (fun z : Int => (z : ℚ)) this
      push_cast at h
      exact h
    unfold cells
    rw [Finset.card_product, Int.card_Ico, Int.card_Ico]
    push_cast
    rw [one, one]
  have hU : ((cells a b c d ∪ cells a' b' c' d').card : ℚ) = (cells a b c d).card + (cells a' b' c' d').card - (cells a b c d ∩ cells a' b' c' d').card := by
    have := Finset.card_union_add_card_inter (cells a b c d) (cells a' b' c' d')
    have := congrArg (fun n : Nat => (n : ℚ)) this
    push_cast at this
    linarith
  have pos : ∀ u v : Int, u < v → max 0 ((v : ℚ) - u) = v - u := by
    intro u v h
    have : (u : ℚ) < v := by exact_mod_cast h
    exact max_eq_right (by linarith)
  have hone : (1 : ℚ) ≤ ((cells a b c d ∪ cells a' b' c' d').card : ℚ) := by
    have : 0 < (cells a b c d ∪ cells a' b' c' d').card := by
      refine Finset.card_pos.2 ⟨(a, b), ?_⟩
      simp [cells, h1, h2]
    exact_mod_cast this
  rw [hU, hI, hcard, hcard, hcard, pos a c h1, pos b d h2, pos a' c' h3, pos b' d' h4] at hone
  rw [hU, hI, hcard, hcard, hcard, pos a c h1, pos b d h2, pos a' c' h3, pos b' d' h4]
  unfold boxIou
  push_cast at hone ⊢
  rw [max_eq_left (a := _ + _ - _) (by linarith)]

/-- the area covered by two boxes -/
def unionArea (a b : Det) : ℚ :=
  (a.x2 - a.x1) * (a.y2 - a.y1) + (b.x2 - b.x1) * (b.y2 - b.y1)
    - max 0 (min a.x2 b.x2 - max a.x1 b.x1) * max 0 (min a.y2 b.y2 - max a.y1 b.y1)

/-- the same boxes in other units -/
def inUnits (k : ℚ) (a : Det) : Det := { a with x1 := k * a.x1, y1 := k * a.y1, x2 := k * a.x2, y2 := k * a.y2 }

/-- C99: the overlap does not depend on the units, unless the boxes get smaller than a ten-millionth -/
theorem C99_iou_scale (k : ℚ) (hk : 0 < k) (a b : Det) (h1 : 1 / 10000000 ≤ unionArea a b) (h2 : 1 / 10000000 ≤ unionArea (inUnits k a) (inUnits k b)) :
    boxIou (inUnits k a) (inUnits k b) = boxIou a b := by
  unfold unionArea at h1 h2
  unfold boxIou
  simp only []
  rw [max_eq_left h1, max_eq_left h2]
  have e : ∀ x y z w : ℚ, max 0 (min (k * x) (k * y) - max (k * z) (k * w)) = k * max 0 (min x y - max z w) := by
    intro x y z w
    rw [← mul_min_of_nonneg _ _ hk.le, ← mul_max_of_nonneg _ _ hk.le, ← mul_sub, mul_max_of_nonneg _ _ hk.le, mul_zero]
  unfold inUnits at h2 ⊢
  simp only [e] at h2 ⊢
  have hu : 0 < (a.x2 - a.x1) * (a.y2 - a.y1) + (b.x2 - b.x1) * (b.y2 - b.y1)
      - max 0 (min a.x2 b.x2 - max a.x1 b.x1) * max 0 (min a.y2 b.y2 - max a.y1 b.y1) := lt_of_lt_of_le (by norm_num) h1
  have hu2 := lt_of_lt_of_le (by norm_num : (0 : ℚ) < 1 / 10000000) h2
  rw [div_eq_div_iff hu2.ne' hu.ne']
  ring

/-- C99: the overlap of boxes is the same in both directions and lies between 0 and 1 -/
theorem C99_iou_range (a b : Det) (ha : a.x1 ≤ a.x2 ∧ a.y1 ≤ a.y2) (hb : b.x1 ≤ b.x2 ∧ b.y1 ≤ b.y2) :
    boxIou a b = boxIou b a ∧ 0 ≤ boxIou a b ∧ boxIou a b ≤ 1 := ⟨boxIou_comm a b, iou_range a b ha hb⟩

/-- C99: the overlap is zero iff no point lies inside both boxes -/
theorem C99_iou_zero (a b : Det) :
    boxIou a b = 0 ↔ ¬ ∃ x y : ℚ, a.x1 < x ∧ x < a.x2 ∧ b.x1 < x ∧ x < b.x2 ∧ a.y1 < y ∧ y < a.y2 ∧ b.y1 < y ∧ y < b.y2 := by
  have hm : ∀ u : ℚ, max u (1 / 10000000) ≠ 0 := fun u => (lt_of_lt_of_le (by norm_num : (0 : ℚ) < 1 / 10000000) (le_max_right _ _)).ne'
  unfold boxIou
  simp only [div_eq_zero_iff, hm, or_false, mul_eq_zero]
  have hz : ∀ u : ℚ, max 0 u = 0 ↔ u ≤ 0 := fun u => max_eq_left_iff
  rw [hz, hz]
  constructor
  · rintro (h | h) ⟨x, y, p1, p2, p3, p4, p5, p6, p7, p8⟩
    · have h1 : x < min a.x2 b.x2 := lt_min p2 p4
      have h2 : max a.x1 b.x1 < x := max_lt p1 p3
      linarith
    · have h1 : y < min a.y2 b.y2 := lt_min p6 p8
      have h2 : max a.y1 b.y1 < y := max_lt p5 p7
      linarith
  · intro h
    by_contra hn
    push Not at hn
    obtain ⟨n1, n2⟩ := hn
    refine h ⟨(min a.x2 b.x2 + max a.x1 b.x1) / 2, (min a.y2 b.y2 + max a.y1 b.y1) / 2, ?_, ?_, ?_, ?_, ?_, ?_, ?_, ?_⟩
    · linarith [le_max_left a.x1 b.x1]
    · linarith [min_le_left a.x2 b.x2]
    · linarith [le_max_right a.x1 b.x1]
    · linarith [min_le_right a.x2 b.x2]
    · linarith [le_max_left a.y1 b.y1]
    · linarith [min_le_left a.y2 b.y2]
    · linarith [le_max_right a.y1 b.y1]
    · linarith [min_le_right a.y2 b.y2]

/-- C99: the overlap is one iff the boxes are the same (boxes not smaller than a ten-millionth) -/
theorem C99_iou_one (a b : Det) (ha : a.x1 < a.x2 ∧ a.y1 < a.y2) (hb : b.x1 < b.x2 ∧ b.y1 < b.y2) (hu : 1 / 10000000 ≤ unionArea a b) :
    boxIou a b = 1 ↔ a.x1 = b.x1 ∧ a.y1 = b.y1 ∧ a.x2 = b.x2 ∧ a.y2 = b.y2 := by
  unfold unionArea at hu
  unfold boxIou
  simp only []
  rw [max_eq_left hu]
  have hu0 := lt_of_lt_of_le (by norm_num : (0 : ℚ) < 1 / 10000000) hu
  rw [div_eq_one_iff_eq hu0.ne']
  set w := max 0 (min a.x2 b.x2 - max a.x1 b.x1) with hw
  set h := max 0 (min a.y2 b.y2 - max a.y1 b.y1) with hh
  have w0 : 0 ≤ w := le_max_left _ _
  have h0 : 0 ≤ h := le_max_left _ _
  have wa : w ≤ a.x2 - a.x1 := max_le (by linarith [ha.1]) (by linarith [min_le_left a.x2 b.x2, le_max_left a.x1 b.x1])
  have ha' : h ≤ a.y2 - a.y1 := max_le (by linarith [ha.2]) (by linarith [min_le_left a.y2 b.y2, le_max_left a.y1 b.y1])
  have wb : w ≤ b.x2 - b.x1 := max_le (by linarith [hb.1]) (by linarith [min_le_right a.x2 b.x2, le_max_right a.x1 b.x1])
  have hb' : h ≤ b.y2 - b.y1 := max_le (by linarith [hb.2]) (by linarith [min_le_right a.y2 b.y2, le_max_right a.y1 b.y1])
  constructor
  · intro e
    have ia : w * h ≤ (a.x2 - a.x1) * (a.y2 - a.y1) := mul_le_mul wa ha' h0 (by linarith [ha.1])
    have ib : w * h ≤ (b.x2 - b.x1) * (b.y2 - b.y1) := mul_le_mul wb hb' h0 (by linarith [hb.1])
    have ea : w * h = (a.x2 - a.x1) * (a.y2 - a.y1) := by linarith
    have eb : w * h = (b.x2 - b.x1) * (b.y2 - b.y1) := by linarith
    have pa : 0 < (a.x2 - a.x1) * (a.y2 - a.y1) := mul_pos (by linarith [ha.1]) (by linarith [ha.2])
    have tight : ∀ X Y : ℚ, 0 < X → 0 < Y → w ≤ X → h ≤ Y → w * h = X * Y → w = X ∧ h = Y := by
      intro X Y hX hY h1 h2 h3
      have c1 : w = X := by
        by_contra hne
        have : w < X := lt_of_le_of_ne h1 hne
        have : w * h < X * Y := by
          calc w * h ≤ w * Y := mul_le_mul_of_nonneg_left h2 w0
            _ < X * Y := mul_lt_mul_of_pos_right this hY
        linarith
      refine ⟨c1, ?_⟩
      rw [c1] at h3
      exact mul_left_cancel₀ hX.ne' h3
    obtain ⟨t1, t2⟩ := tight _ _ (by linarith [ha.1]) (by linarith [ha.2]) wa ha' ea
    obtain ⟨t3, t4⟩ := tight _ _ (by linarith [hb.1]) (by linarith [hb.2]) wb hb' eb
    have wv : w = min a.x2 b.x2 - max a.x1 b.x1 := by
      rcases max_choice 0 (min a.x2 b.x2 - max a.x1 b.x1) with hc | hc
      · rw [← hw] at hc; linarith [ha.1]
      · exact hc
    have hv : h = min a.y2 b.y2 - max a.y1 b.y1 := by
      rcases max_choice 0 (min a.y2 b.y2 - max a.y1 b.y1) with hc | hc
      · rw [← hh] at hc; linarith [ha.2]
      · exact hc
    have m1 := min_le_left a.x2 b.x2
    have m2 := min_le_right a.x2 b.x2
    have m3 := le_max_left a.x1 b.x1
    have m4 := le_max_right a.x1 b.x1
    have m5 := min_le_left a.y2 b.y2
    have m6 := min_le_right a.y2 b.y2
    have m7 := le_max_left a.y1 b.y1
    have m8 := le_max_right a.y1 b.y1
    refine ⟨?_, ?_, ?_, ?_⟩ <;> linarith
  · rintro ⟨e1, e2, e3, e4⟩
    have ew : w = b.x2 - b.x1 := by rw [hw, e1, e3, min_self, max_self]; exact max_eq_right (by linarith [hb.1])
    have eh : h = b.y2 - b.y1 := by rw [hh, e2, e4, min_self, max_self]; exact max_eq_right (by linarith [hb.2])
    rw [ew, eh, e1, e2, e3, e4]
    ring

/-! ## Arrays of several images, and other arrays -/

/-- C99 (finding): of an array with several images only the first gives detections -/
theorem C99_first_image_only (order : List (Nat × Det) → List (Nat × Det)) (w : Nat) (rows : List (Nat → ℚ)) (rest : List (List (Nat → ℚ))) (H W c t : ℚ) (m : Int) :
    postprocess order (.stack w (rows :: rest)) H W c t m = postprocess order (.matrix w rows) H W c t m := rfl

/-- C99: an array without image raises `IndexError`; a matrix with less than six columns gives no detection -/
theorem C99_odd_arrays (order : List (Nat × Det) → List (Nat × Det)) (w : Nat) (rows : List (Nat → ℚ)) (H W c t : ℚ) (m : Int) :
    postprocess order (.stack w []) H W c t m = .error .indexError ∧ (w < 6 → postprocess order (.matrix w rows) H W c t m = .ok []) := by
  refine ⟨rfl, fun h => ?_⟩
  show Except.ok (ofRows order w rows H W c t m) = _
  unfold ofRows
  rw [if_pos h]

/-- C99 (finding): a negative limit `-k` is not "no limit": the `k` least sure boxes are dropped -/
theorem C99_negative_limit (order : List (Nat × Det) → List (Nat × Det)) (hs : SortsDown order) (dets : List Det) (t : ℚ) (k : Nat) (hk : 0 < k) :
    (finish order dets t (-(k : Int))).length = (leftBy order dets t).length - k ∧ (finish order dets t (-(k : Int))).Pairwise fun a b => b.conf ≤ a.conf := by
  have hlt : (-(k : Int)) < (leftBy order dets t).length := by omega
  refine ⟨?_, C99_cut_sorted order hs dets t _ hlt⟩
  rcases finish_cases order dets t (-(k : Int)) with ⟨h1, _⟩ | ⟨_, h2⟩
  · omega
  · rw [h2, List.length_map]
    unfold sliceTo
    rw [if_neg (by omega), List.length_take, (hs _).1.length_eq]
    have : (indexed (leftBy order dets t)).length = (leftBy order dets t).length := by
      have := congrArg List.length (indexed_snd (leftBy order dets t))
      rwa [List.length_map] at this
    rw [this]
    omega

/-! ## A sort, and examples -/

/-- a stable sort -/
def stableSort (l : List (Nat × Det)) : List (Nat × Det) := l.insertionSort fun p q => q.2.conf ≤ p.2.conf

/-- a sort that turns equal keys round -/
def otherSort (l : List (Nat × Det)) : List (Nat × Det) := stableSort l.reverse

theorem stableSort_ok : SortsDown stableSort := by
  intro l
  refine ⟨List.perm_insertionSort _ _, ?_⟩
  have : Std.Total (fun p q : Nat × Det => q.2.conf ≤ p.2.conf) := ⟨fun a b => le_total _ _⟩
  have : IsTrans (Nat × Det) (fun p q => q.2.conf ≤ p.2.conf) := ⟨fun a b c h1 h2 => le_trans h2 h1⟩
  exact List.pairwise_insertionSort _ _

theorem otherSort_ok : SortsDown otherSort := by
  intro l
  obtain ⟨h1, h2⟩ := stableSort_ok l.reverse
  exact ⟨h1.trans l.reverse_perm, h2⟩

/-- four boxes: two of class 0 that overlap, the second surer; one of class 1 at the same place; one of class 0 far away -/
def fourRows : List (Nat → ℚ) :=
  [rowOf ⟨10, 10, 50, 50, 0, 1/2⟩, rowOf ⟨12, 10, 52, 50, 0, 9/10⟩, rowOf ⟨10, 10, 50, 50, 1, 3/5⟩, rowOf ⟨600, 600, 700, 700, 0, 4/5⟩, rowOf ⟨10, 10, 50, 50, 0, 1/10⟩]

example : ofRows stableSort 6 fourRows 640 640 (1/4) (9/20) 300 = [⟨12, 10, 52, 50, 0, 9/10⟩, ⟨10, 10, 50, 50, 1, 3/5⟩, ⟨600, 600, 640, 640, 0, 4/5⟩] := by
  decide +kernel

/-- C99 (finding): under the limit the detections are not sorted by confidence -/
theorem C99_not_sorted : ∃ rows : List (Nat → ℚ), ¬ (ofRows stableSort 6 rows 640 640 (1/4) (9/20) 300).Pairwise fun a b => b.conf ≤ a.conf :=
  ⟨fourRows, by decide +kernel⟩

example : (ofRows stableSort 6 fourRows 640 640 (1/4) (9/20) 2).map (·.conf) = [9/10, 4/5] := by decide +kernel
example : Distinct (fourRows.filterMap (candidate 640 640 (1/4))) := by unfold Distinct; decide +kernel
example : (fourRows.filterMap (candidate 640 640 (1/4))).Pairwise fun a b => a.conf ≠ b.conf := by decide +kernel
example : (finish stableSort (fourRows.filterMap (candidate 640 640 (1/4))) (9/20) (-1)).map (·.conf) = [9/10, 4/5] := by decide +kernel
example : cells 0 0 4 4 ∩ cells 2 2 6 6 ≠ ∅ := by decide +kernel
example : boxIou ⟨0, 0, 4, 4, 0, 1⟩ ⟨2, 2, 6, 6, 0, 1⟩ = 4 / 28 := by decide +kernel
example : 1 / 10000000 ≤ unionArea (inUnits (1/640) ⟨0, 0, 4, 4, 0, 1⟩) (inUnits (1/640) ⟨2, 2, 6, 6, 0, 1⟩) := by decide +kernel

/-- C99 (finding): of two overlapping boxes with the same confidence the one kept depends on the sort -/
theorem C99_ties : ∃ (o : Output), postprocess stableSort o 640 640 (1/4) (9/20) 300 ≠ postprocess otherSort o 640 640 (1/4) (9/20) 300 := by
  refine ⟨.matrix 6 [rowOf ⟨10, 10, 50, 50, 0, 1/2⟩, rowOf ⟨12, 10, 52, 50, 0, 1/2⟩], fun h => ?_⟩
  have h := Except.ok.inj h
  revert h
  decide +kernel

/-- C99 (finding): very small boxes (as with coordinates from 0 to 1) are never suppressed: the same box is returned twice -/
theorem C99_tiny : ∃ rows : List (Nat → ℚ), ¬ (ofRows stableSort 6 rows 1 1 (1/4) (9/20) 300).Nodup :=
  ⟨[rowOf ⟨0, 0, 1/10000, 1/10000, 0, 1/2⟩, rowOf ⟨0, 0, 1/10000, 1/10000, 0, 1/2⟩], by decide +kernel⟩

end OnnxTool.Props
