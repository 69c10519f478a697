import Verif.Spec.PrCurve
import Verif.Proofs.PrCurve
import Verif.Props.YoloEval
/-!
# C117 — the exported curve over the confidence thresholds
-/
namespace OnnxTool.Props
open OnnxTool OnnxTool.Yolo

theorem predsOfOutput_ok (output : String → Option Output) (im : ImageInfo) (o : Output) (h : output im.file = some o) :
    (Readable o → predsOfOutput im.id o = .ok ((rowsSeen output im).map (predOfRow im.id))) ∧ (¬ Readable o → predsOfOutput im.id o = .error .indexError) := by
  unfold rowsSeen
  rw [h]
  have hrows : ∀ (w : Nat) (rows : List (Nat → ℚ)), ((6 ≤ w ∨ rows = []) → predsOfRows im.id w rows = .ok (rows.map (predOfRow im.id))) ∧
      (¬ (6 ≤ w ∨ rows = []) → predsOfRows im.id w rows = .error .indexError) := by
    intro w rows
    unfold predsOfRows
    constructor
    · intro hr
      rw [if_neg]
      rintro ⟨h1, h2⟩
      rcases hr with hr | hr
      · omega
      · exact h2 hr
    · intro hr
      push Not at hr
      rw [if_pos ⟨hr.1, hr.2⟩]
  cases o with
  | matrix w rows => exact hrows w rows
  | stack w images =>
    cases images with
    | nil => exact ⟨fun hr => absurd hr (by simp [Readable]), fun _ => rfl⟩
    | cons rows _ => exact hrows w rows

theorem collect_ok (output : String → Option Output) (images : List ImageInfo) (h : ∀ im ∈ images, ∀ o, output im.file = some o → Readable o) :
    collectPreds output images = .ok (seen output images) := by
  induction images with
  | nil => rfl
  | cons im rest ih =>
    have ih' := ih fun x hx => h x (by simp [hx])
    have hs : seen output (im :: rest) = (rowsSeen output im).map (predOfRow im.id) ++ seen output rest := by
      unfold seen
      rw [List.flatMap_cons]
      rfl
    rw [collectPreds, hs]
    cases ho : output im.file with
    | none =>
      have : rowsSeen output im = [] := by unfold rowsSeen; rw [ho]
      simp only [ih', this, List.map_nil, List.nil_append]
    | some o =>
      simp only [(predsOfOutput_ok output im o ho).1 (h im (by simp) o ho), ih']

theorem collect_error (output : String → Option Output) (images : List ImageInfo) (h : ¬ ∀ im ∈ images, ∀ o, output im.file = some o → Readable o) :
    collectPreds output images = .error .indexError := by
  induction images with
  | nil => exact absurd (fun im hi => absurd hi (by simp)) h
  | cons im rest ih =>
    rw [collectPreds]
    cases ho : output im.file with
    | none =>
      refine ih fun hall => h fun x hx o hxo => ?_
      rcases List.mem_cons.1 hx with rfl | hx
      · rw [ho] at hxo; cases hxo
      · exact hall x hx o hxo
    | some o =>
      by_cases hr : Readable o
      · simp only [(predsOfOutput_ok output im o ho).1 hr]
        rw [ih fun hall => h fun x hx o' hxo => ?_]
        rcases List.mem_cons.1 hx with rfl | hx
        · rw [ho] at hxo; cases hxo; exact hr
        · exact hall x hx o' hxo
      · simp only [(predsOfOutput_ok output im o ho).2 hr]

/-- C117: the export succeeds exactly when every output it looks at has rows of six columns (or no rows) and the number of thresholds is not negative -/
theorem C117_succeeds (label : ℚ → String) (output : String → Option Output) (images : List ImageInfo) (anns : List Ann) (maxImages n : Int) :
    ((exportPrCurve label output images anns maxImages n).toOption.isSome ↔ (∀ im ∈ sliceTo images maxImages, ∀ o, output im.file = some o → Readable o) ∧ 0 ≤ n) ∧
    ((∃ im ∈ sliceTo images maxImages, ∃ o, output im.file = some o ∧ ¬ Readable o) → exportPrCurve label output images anns maxImages n = .error .indexError) := by
  unfold exportPrCurve
  simp only []
  by_cases h : ∀ im ∈ sliceTo images maxImages, ∀ o, output im.file = some o → Readable o
  · rw [collect_ok _ _ h]
    simp only []
    constructor
    · by_cases hn : n < 0
      · rw [if_pos hn]
        constructor
        · intro hh; cases hh
        · rintro ⟨_, h0⟩; omega
      · rw [if_neg hn]
        exact ⟨fun _ => ⟨h, by omega⟩, fun _ => rfl⟩
    · rintro ⟨im, him, o, ho, hr⟩
      exact absurd (h im him o ho) hr
  · rw [collect_error _ _ h]
    constructor
    · constructor
      · intro hh; cases hh
      · rintro ⟨hh, _⟩; exact absurd hh h
    · intro _; rfl

theorem export_eq (label : ℚ → String) (output : String → Option Output) (images : List ImageInfo) (anns : List Ann) (maxImages n : Int) (pts : List PrPoint)
    (h : exportPrCurve label output images anns maxImages n = .ok pts) :
    pts = (linspace (1 / 100) (99 / 100) n.toNat).map (prPoint label (sliceTo images maxImages) anns (byScore (seen output (sliceTo images maxImages)))) := by
  obtain ⟨hr, hn⟩ := (C117_succeeds label output images anns maxImages n).1.1 (by rw [h]; rfl)
  unfold exportPrCurve at h
  simp only [collect_ok _ _ hr] at h
  rw [if_neg (by omega)] at h
  exact (Except.ok.inj h).symm

/-- C117: there is one point for each of `num_thresholds` thresholds, equally spaced from 0.01 to 0.99 -/
theorem C117_thresholds (label : ℚ → String) (output : String → Option Output) (images : List ImageInfo) (anns : List Ann) (maxImages n : Int) (pts : List PrPoint)
    (h : exportPrCurve label output images anns maxImages n = .ok pts) :
    (pts.length : Int) = n ∧
    (∀ (i : Nat) (p : PrPoint), pts[i]? = some p → p.threshold = 1 / 100 + (i : ℚ) * (49 / 50 / ((n : ℚ) - 1))) ∧
    (pts.map (·.threshold)).Pairwise (· < ·) := by
  obtain ⟨_, hn⟩ := (C117_succeeds label output images anns maxImages n).1.1 (by rw [h]; rfl)
  have he := export_eq label output images anns maxImages n pts h
  have hlen : (pts.length : Int) = n := by
    rw [he]
    unfold linspace
    simp only [List.length_map, List.length_range]
    omega
  have hat : ∀ (i : Nat) (p : PrPoint), pts[i]? = some p → p.threshold = 1 / 100 + (i : ℚ) * (49 / 50 / ((n : ℚ) - 1)) := by
    intro i p hp
    have hi : i < pts.length := (List.getElem?_eq_some_iff.1 hp).1
    rw [he] at hp
    unfold linspace at hp
    rw [List.map_map, List.getElem?_map, List.getElem?_range (by omega)] at hp
    simp only [Option.map_some, Option.some.injEq] at hp
    rw [← hp]
    have hc : ((n.toNat : Nat) : ℚ) = (n : ℚ) := by
      have : ((n.toNat : Nat) : Int) = n := Int.toNat_of_nonneg hn
      exact_mod_cast congrArg (fun z : Int => (z : ℚ)) this
    simp only [Function.comp_apply, prPoint]
    split
    · rename_i h1
      have : i = 0 := by omega
      subst this
      simp
    · rw [hc]
      norm_num
  refine ⟨hlen, hat, ?_⟩
  rw [List.pairwise_map, List.pairwise_iff_getElem]
  intro i j hi hj hij
  rw [hat i _ (List.getElem?_eq_getElem hi), hat j _ (List.getElem?_eq_getElem hj)]
  have hn1 : (1 : ℚ) < n := by
    have : (1 : Int) < n := by omega
    exact_mod_cast this
  have hpos : (0 : ℚ) < 49 / 50 / ((n : ℚ) - 1) := by
    have : (0 : ℚ) < (n : ℚ) - 1 := by linarith
    positivity
  have hij' : (i : ℚ) < j := by exact_mod_cast hij
  have := mul_lt_mul_of_pos_right hij' hpos
  linarith

/-- C117: the number of detections of a point is the number of rows, of all images that are there, whose score is at least its threshold -/
theorem C117_count (label : ℚ → String) (output : String → Option Output) (images : List ImageInfo) (anns : List Ann) (maxImages n : Int) (pts : List PrPoint)
    (h : exportPrCurve label output images anns maxImages n = .ok pts) (p : PrPoint) (hp : p ∈ pts) :
    p.numDetections = ((sliceTo images maxImages).map fun im => (rowsSeen output im).countP fun r => p.threshold ≤ r 4).sum := by
  rw [export_eq label output images anns maxImages n pts h] at hp
  obtain ⟨t, _, rfl⟩ := List.mem_map.1 hp
  have : ∀ l : List ImageInfo, ((seen output l).filter fun p => t ≤ p.det.conf).length = (l.map fun im => (rowsSeen output im).countP fun r => t ≤ r 4).sum := by
    intro l
    induction l with
    | nil => rfl
    | cons im l ih =>
      have hs : seen output (im :: l) = (rowsSeen output im).map (predOfRow im.id) ++ seen output l := by unfold seen; rw [List.flatMap_cons]; rfl
      rw [hs, List.filter_append, List.length_append, ih, List.map_cons, List.sum_cons, ← List.countP_eq_length_filter, List.countP_map]
      rfl
  refine Eq.trans ?_ (this _)
  unfold prPoint atLeast
  exact (((byScore_perm _).filter _).length_eq)

theorem point_map (label : ℚ → String) (hl : label (1 / 2) = "mAP@0.50") (images : List ImageInfo) (anns : List Ann) (preds : List Pred) (t : ℚ) :
    (prPoint label images anns preds t).map50 = mapAt (byImage images (atLeast t preds)) anns 80 (1 / 2) :=
  (C100_metrics label (byImage images (atLeast t preds)) anns 80 [1 / 2] (by simp) (by simp)).2.2.1 (1 / 2) (by simp) hl

theorem mean_mono (images : List ImageInfo) (anns : List Ann) (preds : List Pred) (thr t u : ℚ) (n : Nat) (h : t ≤ u) :
    mapAt (byImage images (atLeast u preds)) anns n thr ≤ mapAt (byImage images (atLeast t preds)) anns n thr := by
  let f := fun c : Int => gets anns c thr (predsOf (byImage images (atLeast t preds)) c)
  have hf : ∀ c, IsMatching anns c thr (predsOf (byImage images (atLeast t preds)) c) (f c) := fun c => gets_matching anns c thr _
  have hpre : ∀ c, predsOf (byImage images (atLeast u preds)) c <+: predsOf (byImage images (atLeast t preds)) c := by
    intro c
    rw [predsOf_threshold images preds c t u h]
    exact filter_prefix _ (byScore_sorted _) u
  have hg : ∀ c, IsMatching anns c thr (predsOf (byImage images (atLeast u preds)) c) (f c) := fun c => matching_prefix anns c thr _ _ (hpre c) _ (hf c)
  rw [C100_mean _ anns n thr f hf, C100_mean _ anns n thr f hg]
  refine div_le_div_of_nonneg_right ?_ (Nat.cast_nonneg _)
  exact sum_le_of _ _ _ fun c _ => averagePrecision_mono _ _ _ _ (hpre c).length_le

/-- C117: along the curve, with rising threshold, neither the number of detections nor the mean average precision ever rises: the first point always has the best value -/
theorem C117_falling (label : ℚ → String) (hl : label (1 / 2) = "mAP@0.50") (output : String → Option Output) (images : List ImageInfo) (anns : List Ann) (maxImages n : Int) (pts : List PrPoint)
    (h : exportPrCurve label output images anns maxImages n = .ok pts) :
    pts.Pairwise fun p q => p.threshold < q.threshold ∧ q.numDetections ≤ p.numDetections ∧ q.map50 ≤ p.map50 := by
  have ht := (C117_thresholds label output images anns maxImages n pts h).2.2
  rw [List.pairwise_map] at ht
  refine List.Pairwise.imp_of_mem ?_ ht
  intro p q hp hq hlt
  rw [export_eq label output images anns maxImages n pts h] at hp hq
  obtain ⟨t, _, rfl⟩ := List.mem_map.1 hp
  obtain ⟨u, _, rfl⟩ := List.mem_map.1 hq
  have hlt' : t < u := hlt
  refine ⟨hlt, ?_, ?_⟩
  · show (atLeast u _).length ≤ (atLeast t _).length
    unfold atLeast
    rw [← List.countP_eq_length_filter, ← List.countP_eq_length_filter]
    refine List.countP_mono_left fun x _ hx => ?_
    rw [decide_eq_true_eq] at hx ⊢
    exact le_trans hlt'.le hx
  · rw [point_map label hl, point_map label hl]
    exact mean_mono _ _ _ _ _ _ _ hlt'.le

theorem ranked_eq (a b l : List Pred) (ha : Ranked a l) (hb : Ranked b l) : a = b := sorted_ext a b ha.1 hb.1 fun s => by rw [ha.2, hb.2]

/-- C117: the value of a point: the rows whose score is at least the threshold, of each class, ranked by score, are matched greedily with the annotations, and the average precision is averaged
over the classes below 80 that have an annotation (in any image). The rows are taken as they are: nothing is cut or suppressed. -/
theorem C117_value (label : ℚ → String) (hl : label (1 / 2) = "mAP@0.50") (output : String → Option Output) (images : List ImageInfo) (anns : List Ann) (maxImages n : Int) (pts : List PrPoint)
    (h : exportPrCurve label output images anns maxImages n = .ok pts) (hid : ((sliceTo images maxImages).map (·.id)).Nodup) (p : PrPoint) (hp : p ∈ pts)
    (J : Int → List Pred) (f : Int → Nat → Option Nat)
    (hJ : ∀ c, Ranked (J c) ((seen output (sliceTo images maxImages)).filter fun q => p.threshold ≤ q.det.conf ∧ q.det.cls = (c : ℚ)))
    (hf : ∀ c, IsMatching anns c (1 / 2) (J c) (f c)) :
    p.map50 = (((List.range 80).filter fun c : Nat => ∃ a ∈ anns, a.category = c).map fun c : Nat => averagePrecision (f c) (J c).length (anns.countP fun a => a.category = (c : Int))).sum
      / ((List.range 80).filter fun c : Nat => ∃ a ∈ anns, a.category = c).length := by
  rw [export_eq label output images anns maxImages n pts h] at hp
  obtain ⟨t, _, rfl⟩ := List.mem_map.1 hp
  generalize hu : sliceTo images maxImages = used at *
  have hcls : ∀ q ∈ seen output used, ∀ c : Int, toInt q.det.cls = c ↔ q.det.cls = (c : ℚ) := by
    intro q hq c
    unfold seen at hq
    obtain ⟨im, _, hq⟩ := List.mem_flatMap.1 hq
    obtain ⟨r, _, rfl⟩ := List.mem_map.1 hq
    have : ∀ z : Int, toInt (z : ℚ) = z := by
      intro z
      unfold toInt
      split
      · exact Rat.floor_intCast z
      · exact Rat.ceil_intCast z
    simp only [this]
    exact ⟨fun e => by rw [e], fun e => by exact_mod_cast e⟩
  have hpreds : ∀ c, predsOf (byImage used (atLeast t (byScore (seen output used)))) c = J c := by
    intro c
    refine ranked_eq _ _ _ ⟨byScore_sorted _, fun s => ?_⟩ (hJ c)
    rw [predsOf_raw, byScore_stable, rawOf_byImage, filter_flatMap']
    have hswap : ∀ im : ImageInfo, (List.filter (fun p : Pred => decide (p.det.conf = s)) ((atLeast t (byScore (seen output used))).filter fun q => q.imageId = im.id ∧ toInt q.det.cls = c))
        = (seen output used).filter fun q => q.imageId = im.id ∧ (decide (t ≤ q.det.conf ∧ q.det.cls = (c : ℚ) ∧ q.det.conf = s)) = true := by
      intro im
      unfold atLeast
      rw [filter_swap, filter_swap (byScore (seen output used)), byScore_stable, List.filter_filter, List.filter_filter]
      refine List.filter_congr fun q hq => ?_
      have := hcls q hq c
      simp only [this, Bool.and_eq_decide, decide_eq_true_eq, decide_eq_decide]
      tauto
    simp only [hswap]
    have := regroup used (fun im => (rowsSeen output im).map fun r => (⟨im.id, ⟨r 0, r 1, r 2, r 3, (toInt (r 5) : ℚ), r 4⟩⟩ : Pred))
      (by intro im _ q hq; obtain ⟨r, _, rfl⟩ := List.mem_map.1 hq; rfl) hid (fun q => decide (t ≤ q.det.conf ∧ q.det.cls = (c : ℚ) ∧ q.det.conf = s))
    refine Eq.trans this ?_
    show List.filter _ (seen output used) = List.filter _ (List.filter _ (seen output used))
    rw [List.filter_filter]
    refine List.filter_congr fun q _ => ?_
    show _ = (decide (q.det.conf = s) && decide (t ≤ q.det.conf ∧ q.det.cls = (c : ℚ)))
    simp only [Bool.and_eq_decide, decide_eq_true_eq, decide_eq_decide]
    tauto
  rw [point_map label hl, C100_mean _ anns 80 (1 / 2) f (fun c => by rw [hpreds c]; exact hf c)]
  simp only [hpreds]

/-- C117: every value lies between 0 and 100/101 -/
theorem C117_range (label : ℚ → String) (hl : label (1 / 2) = "mAP@0.50") (output : String → Option Output) (images : List ImageInfo) (anns : List Ann) (maxImages n : Int) (pts : List PrPoint)
    (h : exportPrCurve label output images anns maxImages n = .ok pts) (p : PrPoint) (hp : p ∈ pts) : 0 ≤ p.map50 ∧ p.map50 ≤ 100 / 101 := by
  rw [export_eq label output images anns maxImages n pts h] at hp
  obtain ⟨t, _, rfl⟩ := List.mem_map.1 hp
  rw [point_map label hl]
  exact C100_map_range _ _ _ _

theorem mean_le (l : List ℚ) (b : ℚ) (hne : l ≠ []) (h : ∀ x ∈ l, x ≤ b) : mean l ≤ b := by
  have hs : l.sum ≤ l.length * b := by
    clear hne
    induction l with
    | nil => simp
    | cons a l ih =>
      rw [List.sum_cons, List.length_cons]
      push_cast
      have := ih fun x hx => h x (by simp [hx])
      have := h a (by simp)
      linarith
  have hlen : (0 : ℚ) < l.length := by exact_mod_cast List.length_pos_of_ne_nil hne
  unfold mean
  rw [div_le_iff₀ hlen]
  linarith

/-- C117 (finding): the annotations of images beyond `max_images` count as missed: if of every class at most the share `s` of the annotations lies in the images that are run, no point of the curve
exceeds about `s`, however good the network is -/
theorem C117_share (label : ℚ → String) (hl : label (1 / 2) = "mAP@0.50") (output : String → Option Output) (images : List ImageInfo) (anns : List Ann) (maxImages n : Int) (pts : List PrPoint)
    (h : exportPrCurve label output images anns maxImages n = .ok pts) (s : ℚ) (h0 : 0 ≤ s)
    (hs : ∀ c : Int, ((anns.countP fun a => a.category = c ∧ a.imageId ∈ (sliceTo images maxImages).map (·.id) : Nat) : ℚ) ≤ s * (anns.countP fun a => a.category = c : Nat))
    (p : PrPoint) (hp : p ∈ pts) : p.map50 ≤ (100 * s + 1) / 101 := by
  rw [export_eq label output images anns maxImages n pts h] at hp
  obtain ⟨t, _, rfl⟩ := List.mem_map.1 hp
  rw [point_map label hl]
  unfold mapAt
  simp only []
  split
  · positivity
  · rename_i hne
    refine mean_le _ _ hne fun v hv => ?_
    obtain ⟨c, _, hc⟩ := List.mem_filterMap.1 hv
    have h1 := C101_share _ _ _ _ _ hc
    have hids : (byImage (sliceTo images maxImages) (atLeast t (byScore (seen output (sliceTo images maxImages))))).map (·.imageId) = (sliceTo images maxImages).map (·.id) := by
      unfold byImage
      rw [List.map_map]
      rfl
    rw [hids] at h1
    refine le_trans h1 ?_
    have h2 := hs c
    have hpos : (0 : ℚ) < (anns.countP fun a => a.category = (c : Int) : Nat) := by
      rw [apOfClass_eq] at hc
      split at hc
      · cases hc
      · rename_i hz
        have : 0 < totalGt anns c := Nat.pos_of_ne_zero hz
        unfold totalGt at this
        exact_mod_cast this
    have h3 := (div_le_iff₀ hpos).2 h2
    rw [div_le_div_iff_of_pos_right (by norm_num), mul_div_assoc]
    linarith

/-! ## Examples and findings -/

/-- two images; the network finds the object of the first twice (at 0.9 and, almost the same box, at 0.8) and something else at 0.3 -/
def curveOutput : String → Option Output := fun f =>
  if f = "a.jpg" then some (.stack 6 [[rowOf ⟨0, 0, 100, 100, 0, 3/10⟩, rowOf ⟨10, 0, 110, 100, 0, 8/10⟩, rowOf ⟨0, 0, 100, 99, 0, 9/10⟩]]) else none

def curveImages : List ImageInfo := [⟨139, "a.jpg"⟩, ⟨140, "b.jpg"⟩]

/-- the curve of five points: a missing file is skipped; the one object found gives half the annotations -/
theorem C117_example : (exportPrCurve shownLabel curveOutput curveImages [largeAnn 0, { largeAnn 0 with imageId := 140 }] 500 5).toOption
    = some [⟨1/100, 50/101, 3⟩, ⟨51/200, 50/101, 3⟩, ⟨1/2, 50/101, 2⟩, ⟨149/200, 50/101, 2⟩, ⟨99/100, 0, 0⟩] := by
  decide +kernel

example : shownLabel (1/2) = "mAP@0.50" ∧ ((sliceTo curveImages 500).map (·.id)).Nodup ∧ (sliceTo curveImages 1).map (·.id) = [139] ∧ (sliceTo curveImages (-1)).map (·.id) = [139] := by decide +kernel

/-- two objects, the first found twice with high scores, the second with a lower one -/
def repeatOutput : String → Option Output := fun f =>
  if f = "a.jpg" then some (.matrix 6 [rowOf ⟨0, 0, 100, 100, 0, 9/10⟩, rowOf ⟨1, 0, 100, 100, 0, 8/10⟩, rowOf ⟨300, 300, 400, 400, 0, 7/10⟩]) else none

def cornerAnns : List Ann := [largeAnn 0, ⟨139, 0, 300, 300, 100, 100⟩]

/-- C117 (finding): the rows of the network are judged as they are, without the suppression that `evaluate_coco` applies: a repeated box counts as a mistake here and not there -/
theorem C117_not_suppressed :
    (exportPrCurve shownLabel repeatOutput [⟨139, "a.jpg"⟩] cornerAnns 500 1).toOption.map (·.map (·.map50)) = some [250 / 303] ∧
    (evaluateCoco shownLabel ⟨stableSort, repeatOutput, 640, 640, 1/100, 9/20⟩ [⟨139, "a.jpg"⟩] cornerAnns 80 500).toOption.map (fun r => r.1.map50) = some (100 / 101) := by
  decide +kernel

/-- C117 (finding): boxes in the coordinates of the letterbox are compared with annotations in those of the original image: the curve of an errorless network is zero everywhere -/
theorem C117_coordinates_mixed :
    (exportPrCurve shownLabel errorless.output [⟨139, "a.jpg"⟩] [largeAnn 0] 500 3).toOption.map (·.map (·.map50)) = some [0, 0, 0] ∧
    (exportPrCurve shownLabel errorlessSmall.output [⟨139, "a.jpg"⟩] [largeAnn 0] 500 3).toOption.map (·.map (·.map50)) = some [100 / 101, 100 / 101, 0] := by
  decide +kernel

/-- C117 (finding): an output of five columns, which `evaluate_coco` takes as an image without detections, ends the export with an IndexError -/
theorem C117_narrow :
    (exportPrCurve shownLabel (fun _ => some (.matrix 5 [fun _ => 0])) [⟨139, "a.jpg"⟩] [largeAnn 0] 500 3) = .error .indexError ∧
    (evaluateCoco shownLabel ⟨stableSort, fun _ => some (.matrix 5 [fun _ => 0]), 640, 640, 1/100, 9/20⟩ [⟨139, "a.jpg"⟩] [largeAnn 0] 80 500).toOption.map (fun r => r.1.map50) = some 0 := by
  refine ⟨rfl, ?_⟩
  decide +kernel

end OnnxTool.Props
