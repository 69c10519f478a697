import Verif.Proofs.YoloMetrics
/-!
# C100 — average precision: what `compute_coco_metrics` returns
-/
namespace OnnxTool.Props
open OnnxTool OnnxTool.Yolo

/-! ## The predictions of a class -/

/-- C100: the predictions of a class are its detections in all images, the surer first -/
theorem C100_predictions (all : List ImageDets) (c : Int) :
    (predsOf all c).Pairwise (fun p q => q.det.conf ≤ p.det.conf) ∧
    (predsOf all c).Perm (all.flatMap fun im => (im.dets.filter fun d => toInt d.cls = c).map fun d => ⟨im.imageId, d⟩) := by
  unfold predsOf
  have : Std.Total (fun p q : Pred => q.det.conf ≤ p.det.conf) := ⟨fun a b => le_total _ _⟩
  have : IsTrans Pred (fun p q => q.det.conf ≤ p.det.conf) := ⟨fun a b c h1 h2 => le_trans h2 h1⟩
  exact ⟨List.pairwise_insertionSort _ _, List.perm_insertionSort _ _⟩

theorem preds_unique (l l' : List Pred) (h : l.Perm l') (hd : l.Pairwise fun p q => p.det.conf ≠ q.det.conf) :
    (l.insertionSort fun p q => q.det.conf ≤ p.det.conf) = l'.insertionSort fun p q => q.det.conf ≤ p.det.conf := by
  have : Std.Total (fun p q : Pred => q.det.conf ≤ p.det.conf) := ⟨fun a b => le_total _ _⟩
  have : IsTrans Pred (fun p q => q.det.conf ≤ p.det.conf) := ⟨fun a b c h1 h2 => le_trans h2 h1⟩
  have p1 := List.perm_insertionSort (fun p q : Pred => q.det.conf ≤ p.det.conf) l
  have p2 := List.perm_insertionSort (fun p q : Pred => q.det.conf ≤ p.det.conf) l'
  refine List.Perm.eq_of_pairwise ?_ (List.pairwise_insertionSort _ _) (List.pairwise_insertionSort _ _) ((p1.trans h).trans p2.symm)
  intro a b ha hb hab hba
  have ha' := p1.subset ha
  have hb' := h.symm.subset (p2.subset hb)
  by_contra hne
  obtain ⟨i, hi, ei⟩ := List.getElem_of_mem ha'
  obtain ⟨j, hj, ej⟩ := List.getElem_of_mem hb'
  have hpw := List.pairwise_iff_getElem.1 hd
  rcases Nat.lt_trichotomy i j with hij | hij | hij
  · have := hpw i j hi hj hij
    rw [ei, ej] at this
    exact this (le_antisymm hba hab)
  · subst hij
    exact hne (ei.symm.trans ej)
  · have := hpw j i hj hi hij
    rw [ei, ej] at this
    exact this (le_antisymm hab hba)

/-! ## The average precision of a class -/

/-- C100: there is one greedy matching -/
theorem C100_matching_unique (anns : List Ann) (c : Int) (thr : ℚ) (preds : List Pred) :
    ∃ f, IsMatching anns c thr preds f ∧ ∀ g, IsMatching anns c thr preds g → ∀ i, i < preds.length → g i = f i :=
  ⟨gets anns c thr preds, gets_matching anns c thr preds, fun g hg => matching_unique anns c thr preds g _ hg (gets_matching anns c thr preds)⟩

/-- C100: the value of a class is the average precision of the greedy matching of its predictions; a class without annotation has none -/
theorem C100_class (all : List ImageDets) (anns : List Ann) (thr : ℚ) (c : Int) (f : Nat → Option Nat) (hf : IsMatching anns c thr (predsOf all c) f) :
    apOfClass all anns thr c = if (anns.countP fun a => a.category = c) = 0 then none
      else some (averagePrecision f (predsOf all c).length (anns.countP fun a => a.category = c)) := by
  rw [apOfClass_eq]
  unfold totalGt
  split
  · rfl
  · congr 1
    exact averagePrecision_congr _ _ _ _ fun i hi =>
      matching_unique anns c thr (predsOf all c) _ _ (gets_matching anns c thr (predsOf all c)) hf i hi

/-- C100: there are never more matches than annotations of the class: the recall is at most one -/
theorem C100_recall (anns : List Ann) (c : Int) (thr : ℚ) (preds : List Pred) (f : Nat → Option Nat) (hf : IsMatching anns c thr preds f) (n : Nat) (hn : n ≤ preds.length) :
    hits f n ≤ anns.countP fun a => a.category = c := by
  rw [hits_congr f (gets anns c thr preds) n fun i hi => matching_unique anns c thr preds _ _ hf (gets_matching anns c thr preds) i (by omega)]
  exact hits_le_total anns c thr preds n hn

theorem precision_le (f : Nat → Option Nat) (i : Nat) : (hits f (i + 1) : ℚ) / (i + 1) ≤ 1 := by
  have h := hits_le_self f (i + 1)
  have h' : (hits f (i + 1) : ℚ) ≤ (i : ℚ) + 1 := by exact_mod_cast h
  have : (0 : ℚ) ≤ i := Nat.cast_nonneg i
  rw [div_le_one (by linarith)]
  exact h'

theorem sum_const (l : List Nat) (v : ℚ) : (l.map fun _ => v).sum = l.length * v := by
  induction l with
  | nil => simp
  | cons a l ih => rw [List.map_cons, List.sum_cons, ih, List.length_cons]; push_cast; ring

/-- C100: the value of a class lies between 0 and 100/101 -/
theorem C100_class_range (all : List ImageDets) (anns : List Ann) (thr : ℚ) (c : Int) (v : ℚ) (h : apOfClass all anns thr c = some v) : 0 ≤ v ∧ v ≤ 100 / 101 := by
  rw [apOfClass_eq] at h
  split at h
  · cases h
  · rename_i h0
    cases h
    unfold averagePrecision
    generalize hn : (predsOf all c).length = n
    constructor
    · refine div_nonneg ?_ (by norm_num)
      refine List.sum_nonneg fun x hx => ?_
      obtain ⟨k, _, rfl⟩ := List.mem_map.1 hx
      exact largest_nonneg _
    · rw [div_le_div_iff_of_pos_right (by norm_num)]
      rw [List.range_succ, List.map_append, List.sum_append]
      have hlast : ((List.range n).filter fun i => (((100 : Nat) : ℚ)) / 100 < (hits (gets anns c thr (predsOf all c)) (i + 1) : ℚ) / (totalGt anns c : ℚ)) = [] := by
        refine List.filter_eq_nil_iff.2 fun i hi => ?_
        rw [decide_eq_true_eq, not_lt]
        have hi' := List.mem_range.1 hi
        have hle := hits_le_total anns c thr (predsOf all c) (i + 1) (by omega)
        have ht : (0 : ℚ) < totalGt anns c := by exact_mod_cast Nat.pos_of_ne_zero h0
        rw [show (((100 : Nat) : ℚ)) / 100 = 1 by norm_num, div_le_one ht]
        exact_mod_cast hle
      simp only [List.map_cons, List.map_nil, hlast, largest, List.foldr_nil, List.sum_cons, List.sum_nil, add_zero]
      refine le_trans (sum_le_of (List.range 100) _ (fun _ => 1) fun k _ => ?_) (by rw [sum_const, List.length_range]; norm_num)
      refine largest_le _ 1 (by norm_num) fun x hx => ?_
      obtain ⟨i, _, rfl⟩ := List.mem_map.1 hx
      exact precision_le _ i

/-- C100 (finding): a detector without any error gets 100/101, not 1, because the recall has to exceed the last point -/
theorem C100_perfect (all : List ImageDets) (anns : List Ann) (thr : ℚ) (c : Int) (f : Nat → Option Nat) (hf : IsMatching anns c thr (predsOf all c) f)
    (hall : ∀ i, i < (predsOf all c).length → (f i).isSome) (hn : (predsOf all c).length = anns.countP fun a => a.category = c) (h0 : 0 < (predsOf all c).length) :
    apOfClass all anns thr c = some (100 / 101) ∧ cocoPrecision f (predsOf all c).length (anns.countP fun a => a.category = c) = 1 := by
  have hh : ∀ i, i < (predsOf all c).length → hits f (i + 1) = i + 1 := by
    intro i hi
    unfold hits
    have : (List.range (i + 1)).countP (fun i => (f i).isSome) = (List.range (i + 1)).length := by
      rw [List.countP_eq_length]
      intro j hj
      exact hall j (by have := List.mem_range.1 hj; omega)
    rw [this, List.length_range]
  have hval : ∀ (l : List Nat), (∀ i ∈ l, i < (predsOf all c).length) → l ≠ [] → largest (l.map fun i => (hits f (i + 1) : ℚ) / ((i : ℚ) + 1)) = 1 := by
    intro l hl hne
    apply le_antisymm
    · refine largest_le _ 1 (by norm_num) fun x hx => ?_
      obtain ⟨i, _, rfl⟩ := List.mem_map.1 hx
      exact precision_le f i
    · obtain ⟨i, l', rfl⟩ := List.exists_cons_of_ne_nil hne
      refine le_largest _ 1 (List.mem_map.2 ⟨i, by simp, ?_⟩)
      rw [hh i (hl i (by simp))]
      push_cast
      exact div_self (by positivity)
  have hrec : ∀ i, i < (predsOf all c).length → (hits f (i + 1) : ℚ) / ((anns.countP fun a => a.category = c : Nat) : ℚ) = ((i + 1 : Nat) : ℚ) / ((predsOf all c).length : ℚ) := by
    intro i hi
    rw [hh i hi, hn]
  have hpos : (0 : ℚ) < (predsOf all c).length := by exact_mod_cast h0
  constructor
  · rw [C100_class all anns thr c f hf, if_neg (by omega)]
    congr 1
    unfold averagePrecision
    congr 1
    rw [List.range_succ, List.map_append, List.sum_append]
    have hlast : ((List.range (predsOf all c).length).filter fun i => (((100 : Nat) : ℚ)) / 100 < (hits f (i + 1) : ℚ) / ((anns.countP fun a => a.category = c : Nat) : ℚ)) = [] := by
      refine List.filter_eq_nil_iff.2 fun i hi => ?_
      have hi' := List.mem_range.1 hi
      rw [decide_eq_true_eq, not_lt, hrec i hi', show (((100 : Nat) : ℚ)) / 100 = 1 by norm_num, div_le_one hpos]
      exact_mod_cast hi'
    have hfirst : ∀ k ∈ List.range 100, largest (((List.range (predsOf all c).length).filter fun i => ((k : Nat) : ℚ) / 100 < (hits f (i + 1) : ℚ) / ((anns.countP fun a => a.category = c : Nat) : ℚ)).map
        fun i => (hits f (i + 1) : ℚ) / ((i : ℚ) + 1)) = 1 := by
      intro k hk
      refine hval _ (fun i hi => List.mem_range.1 (List.mem_filter.1 hi).1) ?_
      refine List.ne_nil_of_mem (a := (predsOf all c).length - 1) (List.mem_filter.2 ⟨List.mem_range.2 (by omega), ?_⟩)
      rw [decide_eq_true_eq, hrec _ (by omega)]
      rw [Nat.sub_add_cancel h0, div_self hpos.ne', div_lt_one (by norm_num)]
      exact_mod_cast List.mem_range.1 hk
    rw [List.map_congr_left hfirst]
    simp only [List.map_cons, List.map_nil, hlast, largest, List.foldr_nil, List.sum_cons, List.sum_nil, add_zero]
    rw [sum_const, List.length_range]
    norm_num
  · unfold cocoPrecision
    have hevery : ∀ k ∈ List.range 101, largest (((List.range (predsOf all c).length).filter fun i => ((k : Nat) : ℚ) / 100 ≤ (hits f (i + 1) : ℚ) / ((anns.countP fun a => a.category = c : Nat) : ℚ)).map
        fun i => (hits f (i + 1) : ℚ) / ((i : ℚ) + 1)) = 1 := by
      intro k hk
      refine hval _ (fun i hi => List.mem_range.1 (List.mem_filter.1 hi).1) ?_
      refine List.ne_nil_of_mem (a := (predsOf all c).length - 1) (List.mem_filter.2 ⟨List.mem_range.2 (by omega), ?_⟩)
      rw [decide_eq_true_eq, hrec _ (by omega)]
      rw [Nat.sub_add_cancel h0, div_self hpos.ne', div_le_one (by norm_num)]
      exact_mod_cast Nat.le_of_lt_succ (List.mem_range.1 hk)
    rw [List.map_congr_left hevery, sum_const, List.length_range]
    norm_num

/-- C100: the value is never above the one COCO defines -/
theorem C100_below_coco (f : Nat → Option Nat) (n total : Nat) : averagePrecision f n total ≤ cocoPrecision f n total := by
  unfold averagePrecision cocoPrecision
  rw [div_le_div_iff_of_pos_right (by norm_num)]
  refine sum_le_of _ _ _ fun k _ => ?_
  refine largest_le _ _ (largest_nonneg _) fun x hx => ?_
  obtain ⟨i, hi, rfl⟩ := List.mem_map.1 hx
  rw [List.mem_filter, decide_eq_true_eq] at hi
  exact le_largest _ _ (List.mem_map.2 ⟨i, List.mem_filter.2 ⟨hi.1, by rw [decide_eq_true_eq]; exact hi.2.le⟩, rfl⟩)

/-- C100: without a match the value is zero -/
theorem C100_no_match (f : Nat → Option Nat) (n total : Nat) (h : ∀ i, i < n → f i = none) : averagePrecision f n total = 0 := by
  have h0 : ∀ i ∈ List.range n, hits f (i + 1) = 0 := by
    intro i hi
    unfold hits
    rw [List.countP_eq_zero]
    intro j hj
    have := List.mem_range.1 hi
    have := List.mem_range.1 hj
    rw [h j (by omega)]
    simp
  unfold averagePrecision
  have : ∀ k ∈ List.range 101, largest (((List.range n).filter fun i => ((k : Nat) : ℚ) / 100 < (hits f (i + 1) : ℚ) / total).map fun i => (hits f (i + 1) : ℚ) / ((i : ℚ) + 1)) = 0 := by
    intro k _
    apply le_antisymm
    · refine largest_le _ 0 (le_refl _) fun x hx => ?_
      obtain ⟨i, hi, rfl⟩ := List.mem_map.1 hx
      rw [h0 i (List.mem_filter.1 hi).1]
      simp
    · exact largest_nonneg _
  rw [List.map_congr_left this, sum_const]
  simp

/-! ## The means -/

theorem filterMap_ite (l : List Nat) (p : Nat → Prop) [DecidablePred p] (g : Nat → ℚ) :
    (l.filterMap fun c => if p c then none else some (g c)) = (l.filter fun c => ¬ p c).map g := by
  induction l with
  | nil => rfl
  | cons a l ih =>
    rw [List.filterMap_cons, List.filter_cons]
    by_cases h : p a <;> simp [h, ih]

/-- C100: the value at a threshold is the mean over the classes below `num_classes` that have an annotation (a class without prediction counts as 0); without such a class it is 0 -/
theorem C100_mean (all : List ImageDets) (anns : List Ann) (n : Nat) (thr : ℚ) (f : Int → Nat → Option Nat) (hf : ∀ c, IsMatching anns c thr (predsOf all c) (f c)) :
    mapAt all anns n thr =
      (((List.range n).filter fun c : Nat => ∃ a ∈ anns, a.category = c).map fun c : Nat => averagePrecision (f c) (predsOf all c).length (anns.countP fun a => a.category = (c : Int))).sum
        / ((List.range n).filter fun c : Nat => ∃ a ∈ anns, a.category = c).length := by
  unfold mapAt
  have hfun : (fun c : Nat => apOfClass all anns thr (c : Int)) = fun c : Nat => if (anns.countP fun a => a.category = (c : Int)) = 0 then none
      else some (averagePrecision (f c) (predsOf all c).length (anns.countP fun a => a.category = (c : Int))) := by
    funext c
    exact C100_class all anns thr c (f c) (hf c)
  rw [hfun, filterMap_ite]
  have hflt : (List.range n).filter (fun c : Nat => ¬ (anns.countP fun a => a.category = (c : Int)) = 0) = (List.range n).filter fun c : Nat => ∃ a ∈ anns, a.category = c := by
    refine List.filter_congr fun c _ => ?_
    have : ¬ (anns.countP fun a => a.category = (c : Int)) = 0 ↔ ∃ a ∈ anns, a.category = c := by
      rw [← Ne.eq_def, ← Nat.pos_iff_ne_zero, List.countP_pos_iff]
      simp
    by_cases h : ∃ a ∈ anns, a.category = (c : Int)
    · rw [decide_eq_true h, decide_eq_true (this.2 h)]
    · rw [decide_eq_false h, decide_eq_false fun h' => h (this.1 h')]
  simp only []
  rw [hflt]
  unfold mean
  rw [List.length_map]
  split
  · rename_i h
    rw [List.map_eq_nil_iff] at h
    rw [h]
    simp
  · rfl

/-- C100: the value at a threshold lies between 0 and 100/101 -/
theorem C100_map_range (all : List ImageDets) (anns : List Ann) (n : Nat) (thr : ℚ) : 0 ≤ mapAt all anns n thr ∧ mapAt all anns n thr ≤ 100 / 101 := by
  unfold mapAt
  simp only []
  split
  · norm_num
  · rename_i hne
    have hr : ∀ v ∈ (List.range n).filterMap (fun c : Nat => apOfClass all anns thr (c : Int)), 0 ≤ v ∧ v ≤ 100 / 101 := by
      intro v hv
      obtain ⟨c, _, h⟩ := List.mem_filterMap.1 hv
      exact C100_class_range all anns thr c v h
    generalize (List.range n).filterMap (fun c : Nat => apOfClass all anns thr (c : Int)) = l at hne hr
    unfold mean
    have hlen : (0 : ℚ) < l.length := by exact_mod_cast List.length_pos_of_ne_nil hne
    constructor
    · exact div_nonneg (List.sum_nonneg fun x hx => (hr x hx).1) hlen.le
    · rw [div_le_iff₀ hlen]
      clear hne hlen
      induction l with
      | nil => simp
      | cons a l ih =>
        have h1 := (hr a (by simp)).2
        have h2 := ih fun x hx => hr x (by simp [hx])
        simp only [List.sum_cons, List.length_cons]
        push_cast
        linarith

theorem dict_fold (g : ℚ → ℚ) (label : ℚ → String) (thrs : List ℚ) (d : Dict ℚ) (h : (d.map (·.1) ++ thrs.map label).Nodup) :
    thrs.foldl (fun (d : Dict ℚ) t => d.set (label t) (g t)) d = d ++ thrs.map fun t => (label t, g t) := by
  induction thrs generalizing d with
  | nil => simp
  | cons t ts ih =>
    have hset : ∀ (d : Dict ℚ), label t ∉ d.map (·.1) → d.set (label t) (g t) = d ++ [(label t, g t)] := by
      intro d
      induction d with
      | nil => intro _; rfl
      | cons e d ihd =>
        intro hn
        simp only [List.map_cons, List.mem_cons, not_or] at hn
        obtain ⟨k, v⟩ := e
        rw [Dict.set, if_neg (fun hk => hn.1 hk.symm), ihd hn.2]
        rfl
    have hd : label t ∉ d.map (·.1) := by
      rw [List.nodup_append] at h
      intro hm
      exact h.2.2 _ hm (label t) (by simp) rfl
    rw [List.foldl_cons, hset d hd, ih]
    · simp
    · simpa using h

/-- C100: with different texts for the thresholds the result has one entry per threshold, in their order, and the overall value is their mean -/
theorem C100_metrics (label : ℚ → String) (all : List ImageDets) (anns : List Ann) (n : Nat) (thrs : List ℚ) (h : (thrs.map label).Nodup) (hne : thrs ≠ []) :
    (cocoMetrics label all anns n thrs).perIou = thrs.map (fun t => (label t, mapAt all anns n t)) ∧
    (cocoMetrics label all anns n thrs).map = some ((thrs.map fun t => mapAt all anns n t).sum / thrs.length) ∧
    (∀ t ∈ thrs, label t = "mAP@0.50" → (cocoMetrics label all anns n thrs).map50 = mapAt all anns n t) ∧
    ((∀ t ∈ thrs, label t ≠ "mAP@0.50") → (cocoMetrics label all anns n thrs).map50 = 0) := by
  have hf := dict_fold (fun t => mapAt all anns n t) label thrs [] (by simpa using h)
  rw [List.nil_append] at hf
  unfold cocoMetrics
  simp only [hf]
  refine ⟨trivial, ?_, ?_, ?_⟩
  · rw [if_neg (by simpa using hne)]
    unfold mean
    simp [Function.comp_def]
  · intro t ht hl
    have : ∀ (ts : List ℚ), (ts.map label).Nodup → t ∈ ts → Dict.get? (ts.map fun t => (label t, mapAt all anns n t)) "mAP@0.50" = some (mapAt all anns n t) := by
      intro ts hnd htm
      induction ts with
      | nil => simp at htm
      | cons s ts ih =>
        rw [List.map_cons, Dict.get?]
        rw [List.map_cons, List.nodup_cons] at hnd
        rcases List.mem_cons.1 htm with rfl | htm
        · rw [if_pos hl]
        · rw [if_neg (fun hs => hnd.1 (List.mem_map.2 ⟨t, htm, by rw [hl, hs]⟩))]
          exact ih hnd.2 htm
    rw [this thrs h ht]
    rfl
  · intro hno
    have : ∀ (ts : List ℚ), (∀ t ∈ ts, label t ≠ "mAP@0.50") → Dict.get? (ts.map fun t => (label t, mapAt all anns n t)) "mAP@0.50" = none := by
      intro ts hts
      induction ts with
      | nil => rfl
      | cons s ts ih =>
        rw [List.map_cons, Dict.get?, if_neg (hts s (by simp))]
        exact ih fun t ht => hts t (by simp [ht])
    rw [this thrs hno]
    rfl

/-- C100: with different scores the metrics do not depend on the order of the images, nor of the detections of an image -/
theorem C100_image_order (label : ℚ → String) (all all' : List ImageDets) (anns : List Ann) (n : Nat) (thrs : List ℚ)
    (hp : (all.flatMap fun im => im.dets.map fun d => (⟨im.imageId, d⟩ : Pred)).Perm (all'.flatMap fun im => im.dets.map fun d => ⟨im.imageId, d⟩))
    (hd : (all.flatMap fun im => im.dets.map fun d => (⟨im.imageId, d⟩ : Pred)).Pairwise fun p q => p.det.conf ≠ q.det.conf) :
    cocoMetrics label all anns n thrs = cocoMetrics label all' anns n thrs := by
  have hre : ∀ (l : List ImageDets) (c : Int), (l.flatMap fun im => (im.dets.filter fun d => toInt d.cls = c).map fun d => (⟨im.imageId, d⟩ : Pred))
      = (l.flatMap fun im => im.dets.map fun d => (⟨im.imageId, d⟩ : Pred)).filter fun p => toInt p.det.cls = c := by
    intro l c
    induction l with
    | nil => rfl
    | cons im l ih =>
      rw [List.flatMap_cons, List.flatMap_cons, List.filter_append, ih]
      congr 1
      rw [List.filter_map]
      rfl
  have hpred : ∀ c, predsOf all c = predsOf all' c := by
    intro c
    unfold predsOf
    simp only [hre]
    exact preds_unique _ _ (hp.filter _) (hd.sublist List.filter_sublist)
  have hap : ∀ thr c, apOfClass all anns thr c = apOfClass all' anns thr c := by
    intro thr c
    unfold apOfClass
    rw [hpred c]
  have hmap : ∀ thr, mapAt all anns n thr = mapAt all' anns n thr := by
    intro thr
    unfold mapAt
    simp only [hap]
  unfold cocoMetrics
  simp only [hmap]

/-- C100: detections of a class without annotation, and of a class not below `num_classes`, change nothing (a detector is not charged for them) -/
theorem C100_unseen_classes (label : ℚ → String) (all all' : List ImageDets) (anns : List Ann) (n : Nat) (thrs : List ℚ)
    (h : ∀ c : Nat, c < n → (∃ a ∈ anns, a.category = c) → predsOf all c = predsOf all' c) : cocoMetrics label all anns n thrs = cocoMetrics label all' anns n thrs := by
  have hmap : ∀ thr, mapAt all anns n thr = mapAt all' anns n thr := by
    intro thr
    unfold mapAt
    have : (List.range n).filterMap (fun c : Nat => apOfClass all anns thr (c : Int)) = (List.range n).filterMap fun c : Nat => apOfClass all' anns thr (c : Int) := by
      refine List.filterMap_congr fun c hc => ?_
      rw [apOfClass_eq, apOfClass_eq]
      by_cases h0 : totalGt anns c = 0
      · rw [if_pos h0, if_pos h0]
      · rw [if_neg h0, if_neg h0, h c (List.mem_range.1 hc) ?_]
        unfold totalGt at h0
        rw [← Ne.eq_def, ← Nat.pos_iff_ne_zero, List.countP_pos_iff] at h0
        simpa using h0
    rw [this]
  unfold cocoMetrics
  simp only [hmap]

/-! ## Examples and findings -/

def oneBox : Det := ⟨0, 0, 10, 10, 0, 9/10⟩

/-- two images of class 0, one annotation each; three detections: a right one, one beside the box, and one in the wrong place -/
def twoImages : List ImageDets := [⟨7, [oneBox, ⟨0, 0, 10, 8, 0, 1/2⟩]⟩, ⟨8, [⟨20, 20, 30, 30, 0, 4/5⟩]⟩]
def twoAnns : List Ann := [⟨7, 0, 0, 0, 10, 10⟩, ⟨8, 0, 0, 0, 10, 10⟩]

example : (predsOf twoImages 0).map (·.det.conf) = [9/10, 4/5, 1/2] := by decide +kernel
example : matchLoop twoAnns 0 (1/2) (predsOf twoImages 0) [] = [true, false, false] := by decide +kernel
example : apOfClass twoImages twoAnns (1/2) 0 = some (50 / 101) := by decide +kernel
example : apOfClass [⟨7, [oneBox]⟩] [⟨7, 0, 0, 0, 10, 10⟩] (1/2) 0 = some (100 / 101) := by decide +kernel
example : (twoImages.flatMap fun im => im.dets.map fun d => (⟨im.imageId, d⟩ : Pred)).Pairwise fun p q => p.det.conf ≠ q.det.conf := by decide +kernel

/-- C100 (finding): an annotation whose category is not below the number of categories is ignored: with the 80 categories of COCO, whose ids go to 90, the last ones never count -/
theorem C100_large_ids : mapAt [⟨7, [{ oneBox with cls := 1 }]⟩] [⟨7, 1, 0, 0, 10, 10⟩] 1 (1/2) = 0 ∧ mapAt [⟨7, [{ oneBox with cls := 1 }]⟩] [⟨7, 1, 0, 0, 10, 10⟩] 2 (1/2) = 100 / 101 := by
  decide +kernel

/-- C100 (finding): two thresholds with the same text count once: the overall value is then not the mean over the thresholds -/
theorem C100_same_text : ∃ (label : ℚ → String) (all : List ImageDets) (anns : List Ann) (thrs : List ℚ),
    (cocoMetrics label all anns 1 thrs).map ≠ some ((thrs.map fun t => mapAt all anns 1 t).sum / thrs.length) :=
  ⟨fun _ => "mAP@0.50", [⟨7, [⟨0, 0, 10, 10, 0, 1/2⟩]⟩], [⟨7, 0, 0, 0, 10, 5⟩], [1/2, 501/1000], by decide +kernel⟩

/-- C100 (finding): with an empty list of thresholds the overall value is NaN -/
theorem C100_no_threshold (label : ℚ → String) (all : List ImageDets) (anns : List Ann) (n : Nat) : (cocoMetrics label all anns n []).map = none := rfl

end OnnxTool.Props
