import Verif.Model.PrCurve
import Verif.Proofs.YoloMetrics
/-! # Lemmas about the exported curve -/
namespace OnnxTool.Yolo
open OnnxTool

instance : Std.Total (fun p q : Pred => q.det.conf ≤ p.det.conf) := ⟨fun _ _ => le_total _ _⟩
instance : IsTrans Pred (fun p q : Pred => q.det.conf ≤ p.det.conf) := ⟨fun _ _ _ h1 h2 => le_trans h2 h1⟩

theorem byScore_sorted (l : List Pred) : (byScore l).Pairwise fun p q => q.det.conf ≤ p.det.conf := List.pairwise_insertionSort _ _

theorem byScore_perm (l : List Pred) : (byScore l).Perm l := List.perm_insertionSort _ _

/-- the sort keeps the order of equal scores -/
theorem byScore_stable (l : List Pred) (s : ℚ) : (byScore l).filter (fun p => p.det.conf = s) = l.filter fun p => p.det.conf = s := by
  have h1 : (l.filter fun p => p.det.conf = s).Sublist (byScore l) := by
    refine List.sublist_insertionSort ?_ ?_
    · rw [List.pairwise_iff_getElem]
      intro i j hi hj _
      have a := List.getElem_mem hi
      have b := List.getElem_mem hj
      rw [List.mem_filter, decide_eq_true_eq] at a b
      rw [a.2, b.2]
    · exact List.filter_sublist
  have h2 := h1.filter fun p : Pred => decide (p.det.conf = s)
  rw [List.filter_filter] at h2
  simp only [Bool.and_self] at h2
  exact (h2.eq_of_length (((byScore_perm l).filter _).length_eq.symm)).symm

/-- two falling lists with the same entries for every score, in the same order, are equal -/
theorem sorted_ext (l m : List Pred) (hl : l.Pairwise fun p q => q.det.conf ≤ p.det.conf) (hm : m.Pairwise fun p q => q.det.conf ≤ p.det.conf)
    (h : ∀ s : ℚ, l.filter (fun p => p.det.conf = s) = m.filter fun p => p.det.conf = s) : l = m := by
  induction l generalizing m with
  | nil =>
    cases m with
    | nil => rfl
    | cons b m => have := h b.det.conf; simp at this
  | cons a l ih =>
    cases m with
    | nil => have := h a.det.conf; simp at this
    | cons b m =>
      rw [List.pairwise_cons] at hl hm
      have e : a.det.conf = b.det.conf := by
        have ha : b ∈ a :: l := by
          have : b ∈ (a :: l).filter fun p => p.det.conf = b.det.conf := by rw [h]; simp
          exact (List.mem_filter.1 this).1
        have hb : a ∈ b :: m := by
          have : a ∈ (b :: m).filter fun p => p.det.conf = a.det.conf := by rw [← h]; simp
          exact (List.mem_filter.1 this).1
        refine le_antisymm ?_ ?_
        · rcases List.mem_cons.1 hb with rfl | hb
          · exact le_refl _
          · exact hm.1 a hb
        · rcases List.mem_cons.1 ha with rfl | ha
          · exact le_refl _
          · exact hl.1 b ha
      have hab := h a.det.conf
      rw [List.filter_cons, List.filter_cons, if_pos (by simp), if_pos (by simp [e])] at hab
      obtain ⟨rfl, _⟩ := List.cons.inj hab
      congr 1
      refine ih m hl.2 hm.2 fun s => ?_
      have hs := h s
      rw [List.filter_cons, List.filter_cons] at hs
      split at hs
      · exact (List.cons.inj hs).2
      · exact hs

theorem filter_swap {α : Type} (l : List α) (p q : α → Bool) : (l.filter p).filter q = (l.filter q).filter p := by
  rw [List.filter_filter, List.filter_filter]
  exact List.filter_congr fun _ _ => Bool.and_comm _ _

/-- sorting and choosing can be exchanged -/
theorem byScore_filter (l : List Pred) (c : Pred → Bool) : byScore (l.filter c) = (byScore l).filter c := by
  refine sorted_ext _ _ (byScore_sorted _) ((byScore_sorted l).sublist List.filter_sublist) fun s => ?_
  rw [byScore_stable, filter_swap, filter_swap (byScore l), byScore_stable]

theorem byScore_congr (l m : List Pred) (h : ∀ s : ℚ, l.filter (fun p => p.det.conf = s) = m.filter fun p => p.det.conf = s) : byScore l = byScore m := by
  refine sorted_ext _ _ (byScore_sorted _) (byScore_sorted _) fun s => ?_
  rw [byScore_stable, byScore_stable, h]

/-- the predictions of a class that are judged, before sorting -/
def rawOf (all : List ImageDets) (c : Int) : List Pred := all.flatMap fun im => (im.dets.filter fun d => toInt d.cls = c).map fun d => (⟨im.imageId, d⟩ : Pred)

theorem predsOf_raw (all : List ImageDets) (c : Int) : predsOf all c = byScore (rawOf all c) := rfl

theorem raw_image (ps : List Pred) (id c : Int) :
    (((ps.filter fun p => p.imageId = id).map (·.det)).filter fun d => toInt d.cls = c).map (fun d => (⟨id, d⟩ : Pred)) = ps.filter fun p => p.imageId = id ∧ toInt p.det.cls = c := by
  induction ps with
  | nil => rfl
  | cons p ps ih =>
    by_cases h1 : p.imageId = id
    · by_cases h2 : toInt p.det.cls = c
      · simp only [List.filter_cons, h1, h2, decide_true, if_true, List.map_cons, and_self]
        rw [ih]
        congr 1
        subst h1
        rfl
      · simp only [List.filter_cons, h1, h2, decide_true, if_true, List.map_cons, and_false, decide_false, Bool.false_eq_true, if_false]
        exact ih
    · simp only [List.filter_cons, h1, false_and, decide_false, Bool.false_eq_true, if_false]
      exact ih

theorem rawOf_byImage (images : List ImageInfo) (ps : List Pred) (c : Int) :
    rawOf (byImage images ps) c = images.flatMap fun im => ps.filter fun p => p.imageId = im.id ∧ toInt p.det.cls = c := by
  unfold rawOf byImage
  rw [List.flatMap_map]
  congr 1
  funext im
  exact raw_image ps im.id c

theorem filter_flatMap' {α β : Type} (l : List α) (g : α → List β) (q : β → Bool) : (l.flatMap g).filter q = l.flatMap fun a => (g a).filter q := by
  induction l with
  | nil => rfl
  | cons a l ih => rw [List.flatMap_cons, List.flatMap_cons, List.filter_append, ih]

/-- what is judged at a higher threshold is what is judged at the lower one without the lower scores -/
theorem predsOf_threshold (images : List ImageInfo) (ps : List Pred) (c : Int) (t u : ℚ) (h : t ≤ u) :
    predsOf (byImage images (atLeast u ps)) c = (predsOf (byImage images (atLeast t ps)) c).filter fun p => u ≤ p.det.conf := by
  rw [predsOf_raw, predsOf_raw, ← byScore_filter, rawOf_byImage, rawOf_byImage, filter_flatMap']
  congr 2
  funext im
  unfold atLeast
  rw [List.filter_filter, List.filter_filter, List.filter_filter]
  refine List.filter_congr fun p _ => ?_
  by_cases hu : u ≤ p.det.conf
  · simp [hu, le_trans h hu]
  · simp [hu]

/-- the entries from a score on are a front part of a falling list -/
theorem filter_prefix (l : List Pred) (hl : l.Pairwise fun p q => q.det.conf ≤ p.det.conf) (u : ℚ) : (l.filter fun p => u ≤ p.det.conf) <+: l := by
  induction l with
  | nil => exact List.nil_prefix
  | cons a l ih =>
    rw [List.pairwise_cons] at hl
    rw [List.filter_cons]
    split
    · exact List.cons_prefix_cons.2 ⟨rfl, ih hl.2⟩
    · rename_i hn
      rw [decide_eq_true_eq, not_le] at hn
      have : l.filter (fun p => u ≤ p.det.conf) = [] := by
        rw [List.filter_eq_nil_iff]
        intro b hb
        rw [decide_eq_true_eq, not_le]
        exact lt_of_le_of_lt (hl.1 b hb) hn
      rw [this]
      exact List.nil_prefix

theorem prefix_get (l m : List Pred) (h : l <+: m) (i : Nat) (p : Pred) (hp : l[i]? = some p) : m[i]? = some p := by
  obtain ⟨r, rfl⟩ := h
  obtain ⟨hi, _⟩ := List.getElem?_eq_some_iff.1 hp
  rw [List.getElem?_append_left hi, hp]

/-- the matching of a list is a matching of every front part of it -/
theorem matching_prefix (anns : List Ann) (c : Int) (thr : ℚ) (l m : List Pred) (h : l <+: m) (f : Nat → Option Nat) (hf : IsMatching anns c thr m f) : IsMatching anns c thr l f := by
  intro i p hp
  have hi : i < l.length := (List.getElem?_eq_some_iff.1 hp).1
  have hfree : ∀ j a, Free anns c l f i p j a ↔ Free anns c m f i p j a := by
    intro j a
    unfold Free
    refine and_congr_right fun _ => and_congr_right fun _ => ?_
    constructor
    · intro hh k q hk hq
      refine hh k q hk ?_
      have hk' : k < l.length := by omega
      have := prefix_get l m h k l[k] (List.getElem?_eq_getElem hk')
      rw [hq] at this
      rw [List.getElem?_eq_getElem hk']
      exact this.symm
    · intro hh k q hk hq
      exact hh k q hk (prefix_get l m h k q hq)
  obtain ⟨h1, h2⟩ := hf i p (prefix_get l m h i p hp)
  refine ⟨fun j hj => ?_, fun hn j a ha => h2 hn j a ((hfree j a).1 ha)⟩
  obtain ⟨a, ha, ht, hall⟩ := h1 j hj
  exact ⟨a, (hfree j a).2 ha, ht, fun j' a' hf' => hall j' a' ((hfree j' a').1 hf')⟩

/-- judging fewer predictions never raises the average precision -/
theorem averagePrecision_mono (f : Nat → Option Nat) (n n' total : Nat) (h : n ≤ n') : averagePrecision f n total ≤ averagePrecision f n' total := by
  unfold averagePrecision
  rw [div_le_div_iff_of_pos_right (by norm_num)]
  refine sum_le_of _ _ _ fun k _ => ?_
  refine largest_le _ _ (largest_nonneg _) fun x hx => ?_
  obtain ⟨i, hi, rfl⟩ := List.mem_map.1 hx
  rw [List.mem_filter] at hi
  have := List.mem_range.1 hi.1
  exact le_largest _ _ (List.mem_map.2 ⟨i, List.mem_filter.2 ⟨List.mem_range.2 (by omega), hi.2⟩, rfl⟩)

theorem own_image (images : List ImageInfo) (g : ImageInfo → List Pred) (hg : ∀ im ∈ images, ∀ p ∈ g im, p.imageId = im.id) (hn : (images.map (·.id)).Nodup) (b : Pred → Bool)
    (im : ImageInfo) (him : im ∈ images) : ((images.flatMap g).filter fun p => p.imageId = im.id ∧ b p = true) = (g im).filter b := by
  induction images with
  | nil => simp at him
  | cons a l ih =>
    rw [List.map_cons, List.nodup_cons] at hn
    rw [List.flatMap_cons, List.filter_append]
    rcases List.mem_cons.1 him with rfl | him'
    · have h1 : ((g im).filter fun p => p.imageId = im.id ∧ b p = true) = (g im).filter b :=
        List.filter_congr fun p hp => by simp [hg im (by simp) p hp]
      have h2 : ((l.flatMap g).filter fun p => p.imageId = im.id ∧ b p = true) = [] := by
        rw [List.filter_eq_nil_iff]
        intro p hp hc
        rw [decide_eq_true_eq] at hc
        obtain ⟨x, hx, hpx⟩ := List.mem_flatMap.1 hp
        exact hn.1 (List.mem_map.2 ⟨x, hx, by rw [← hg x (by simp [hx]) p hpx, hc.1]⟩)
      rw [h1, h2, List.append_nil]
    · have h1 : ((g a).filter fun p => p.imageId = im.id ∧ b p = true) = [] := by
        rw [List.filter_eq_nil_iff]
        intro p hp hc
        rw [decide_eq_true_eq] at hc
        exact hn.1 (List.mem_map.2 ⟨im, him', by rw [← hg a (by simp) p hp, hc.1]⟩)
      rw [h1, List.nil_append]
      exact ih (fun x hx => hg x (by simp [hx])) hn.2 him'

theorem regroup (images : List ImageInfo) (g : ImageInfo → List Pred) (hg : ∀ im ∈ images, ∀ p ∈ g im, p.imageId = im.id) (hn : (images.map (·.id)).Nodup) (b : Pred → Bool) :
    (images.flatMap fun im => (images.flatMap g).filter fun p => p.imageId = im.id ∧ b p = true) = (images.flatMap g).filter b := by
  rw [filter_flatMap' images g b]
  exact List.flatMap_congr fun im him => own_image images g hg hn b im him

end OnnxTool.Yolo
