import Verif.Model.Yolo
/-!
# Average precision of the detections of many images

Models `compute_coco_metrics` (`/repo/inference/yolo_eval.py` 190-314) and `_compute_ap` (317-329).

Simplified: numbers are exact rationals, so `np.linspace(0, 1, 101)` is exactly the hundredths; the detections of an image are a list of `Det` of `Model/Yolo`
(the callers pass three columns of that array); the text `f'mAP@{iou_thr:.2f}'` is a parameter `label`; ids are integers. `np.searchsorted` is only called on a
rising array, where its binary search finds the number of entries at the front that are not greater.
-/
namespace OnnxTool.Yolo
open OnnxTool

/-- the part of an annotation that is read; other fields (`iscrowd`, `area`) never are -/
structure Ann where
  imageId : Int
  category : Int
  x : ℚ
  y : ℚ
  w : ℚ
  h : ℚ
  deriving DecidableEq

/-- an entry of `all_dets` -/
structure ImageDets where
  imageId : Int
  dets : List Det

/-- an entry of `preds_by_class[c]` (220-228); the box, its score and label are those of the detection -/
structure Pred where
  imageId : Int
  det : Det
  deriving DecidableEq

/-- Python's `int` of a number (224) -/
def toInt (q : ℚ) : Int := if 0 ≤ q then q.floor else q.ceil

/-- `preds_by_class.get(c, [])` (218-232): in the order of `all_dets`, then sorted by falling score with Python's stable sort -/
def predsOf (all : List ImageDets) (c : Int) : List Pred :=
  let unsorted := all.flatMap fun im => (im.dets.filter fun d => toInt d.cls = c).map fun d => (⟨im.imageId, d⟩ : Pred)
  unsorted.insertionSort fun p q => q.det.conf ≤ p.det.conf

/-- `gt_by_image.get(image_id, [])` (212-214, 256) -/
def annsOf (anns : List Ann) (imageId : Int) : List Ann := anns.filter fun a => a.imageId = imageId

/-- lines 268-271: the box of an annotation with its far corner -/
def annBox (a : Ann) : Det := { x1 := a.x, y1 := a.y, x2 := a.x + a.w, y2 := a.y + a.h, cls := 0, conf := 0 }

/-- lines 259-262: the annotations of the class in the image that no prediction has taken, each with its number in the image; `taken` is `gt_matched` as pairs -/
def freeAnns (anns : List Ann) (c imageId : Int) (taken : List (Int × Nat)) : List (Nat × Ann) :=
  ((annsOf anns imageId).zipIdx.map fun p => (p.2, p.1)).filter fun p => p.2.category = c ∧ (imageId, p.1) ∉ taken

/-- `np.argmax(ious)` and `ious[best_iou_idx]` (274-275) over the free annotations: the first of the largest -/
def bestOf (box : Det) : List (Nat × Ann) → Option (Nat × ℚ)
  | [] => none
  | p :: rest =>
    match bestOf box rest with
    | none => some (p.1, boxIou box (annBox p.2))
    | some b => if b.2 ≤ boxIou box (annBox p.2) then some (p.1, boxIou box (annBox p.2)) else some b

/-- the loop over the predictions (254-281): the entries of `tp` (those of `fp` are the others) and the annotations taken so far -/
def matchLoop (anns : List Ann) (c : Int) (thr : ℚ) : List Pred → List (Int × Nat) → List Bool
  | [], _ => []
  | p :: rest, taken =>
    match bestOf p.det (freeAnns anns c p.imageId taken) with
    | none => false :: matchLoop anns c thr rest taken
    | some b =>
      if thr ≤ b.2 then true :: matchLoop anns c thr rest ((p.imageId, b.1) :: taken)
      else false :: matchLoop anns c thr rest taken

/-- `np.cumsum` -/
def cumsum : ℚ → List ℚ → List ℚ
  | _, [] => []
  | s, a :: l => (s + a) :: cumsum (s + a) l

/-- lines 319-320: the running maximum from the back -/
def fromBack : List ℚ → List ℚ
  | [] => []
  | [a] => [a]
  | a :: b :: l =>
    match fromBack (b :: l) with
    | [] => [a]
    | m :: r => max a m :: m :: r

/-- `np.searchsorted(recalls, t, side='right')` for a rising array (325) -/
def searchRight (recalls : List ℚ) (t : ℚ) : Nat := (recalls.takeWhile fun r => r ≤ t).length

/-- `_compute_ap(recalls, precisions)` (317-329) -/
def computeAp (recalls precisions : List ℚ) : ℚ :=
  let p := fromBack precisions
  let ap := (List.range 101).foldl (fun (ap : ℚ) (k : Nat) =>
    let idx := searchRight recalls ((k : ℚ) / 100)
    if h : idx < p.length then ap + p[idx] else ap) 0
  ap / 101

/-- `total_gt` (288-291) -/
def totalGt (anns : List Ann) (c : Int) : Nat := anns.countP fun a => a.category = c

/-- lines 244-300 for one class: `none` when the class is skipped -/
def apOfClass (all : List ImageDets) (anns : List Ann) (thr : ℚ) (c : Int) : Option ℚ :=
  let preds := predsOf all c
  if preds = [] ∧ ¬ anns.any (fun a => a.category = c) then none
  else
    let tp := matchLoop anns c thr preds []
    let tpc := cumsum 0 (tp.map fun b => if b then 1 else 0)
    let fpc := cumsum 0 (tp.map fun b => if b then 0 else 1)
    if totalGt anns c = 0 then none
    else
      let recalls := tpc.map fun t => t / (totalGt anns c : ℚ)
      let precisions := List.zipWith (fun t f => t / max (t + f) (1 / 10000000)) tpc fpc
      some (computeAp recalls precisions)

/-- `np.mean` of a list that is not empty -/
def mean (l : List ℚ) : ℚ := l.sum / l.length

/-- the value for one threshold (236-302) -/
def mapAt (all : List ImageDets) (anns : List Ann) (numClasses : Nat) (thr : ℚ) : ℚ :=
  let aps := (List.range numClasses).filterMap fun c : Nat => apOfClass all anns thr (c : Int)
  if aps = [] then 0 else mean aps

/-- the dictionary returned -/
structure Metrics where
  map50 : ℚ
  /-- `none` for the NaN of `np.mean([])` -/
  map : Option ℚ
  perIou : Dict ℚ

/-- `compute_coco_metrics(all_dets, gt, num_classes, iou_thresholds)` (190-314) -/
def cocoMetrics (label : ℚ → String) (all : List ImageDets) (anns : List Ann) (numClasses : Nat) (thrs : List ℚ) : Metrics :=
  let perIou := thrs.foldl (fun (d : Dict ℚ) t => d.set (label t) (mapAt all anns numClasses t)) []
  let values := perIou.map (·.2)
  { map50 := (perIou.get? "mAP@0.50").getD 0
    map := if values = [] then none else some (mean values)
    perIou := perIou }

end OnnxTool.Yolo
