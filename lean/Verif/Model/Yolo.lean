import Verif.Model.Py
import Mathlib.Data.Rat.Defs
import Mathlib.Algebra.Order.Field.Rat
import Mathlib.Data.List.Sort
/-!
# Turning the output of a YOLO model into detections

Models `yolo_postprocess` (`/repo/inference/yolo_eval.py` 59-139), `_nms_per_class` (142-168) and `_box_iou` (171-183).

Simplified: numbers are exact rationals (no rounding, no NaN or infinity). `np.argsort` is not stable, so the place of equal confidences is not fixed by the code:
the order it gives is the parameter `order`, of which the theorems assume only that it permutes its list and puts the higher confidence first.
-/
namespace OnnxTool.Yolo
open OnnxTool

/-- a row of `dets` (line 117); the batch number, always 0, is left out -/
structure Det where
  x1 : ℚ
  y1 : ℚ
  x2 : ℚ
  y2 : ℚ
  cls : ℚ
  conf : ℚ
  deriving DecidableEq

/-- the array given to `yolo_postprocess`: a matrix or a stack of matrices, with `width` columns; a row is a function of the column -/
inductive Output where
  | matrix (width : Nat) (rows : List (Nat → ℚ))
  | stack (width : Nat) (images : List (List (Nat → ℚ)))

/-- the entry of `_box_iou(boxes1, boxes2)` for one box of each (171-183) -/
def boxIou (a b : Det) : ℚ :=
  let x1 := max a.x1 b.x1
  let y1 := max a.y1 b.y1
  let x2 := min a.x2 b.x2
  let y2 := min a.y2 b.y2
  let inter := max 0 (x2 - x1) * max 0 (y2 - y1)
  let area1 := (a.x2 - a.x1) * (a.y2 - a.y1)
  let area2 := (b.x2 - b.x1) * (b.y2 - b.y1)
  let union := area1 + area2 - inter
  inter / max union (1 / 10000000)

/-- lines 162-165: the boxes after the first that do not overlap it too much -/
def survivors (thr : ℚ) (d : Det) (rest : List (Nat × Det)) : List (Nat × Det) := rest.filter fun q => boxIou d q.2 ≤ thr

/-- the `while` loop of `_nms_per_class` (158-166): `cls_dets` and `cls_indices` together, best first -/
def nmsLoop (thr : ℚ) : List (Nat × Det) → List Nat
  | [] => []
  | p :: rest => p.1 :: nmsLoop thr (survivors thr p.2 rest)
termination_by l => l.length
decreasing_by exact Nat.lt_succ_of_le (List.length_filter_le _ _)

/-- `np.unique(dets[:, 5])` (148) -/
def classesOf (dets : List Det) : List ℚ := ((dets.map (·.cls)).dedup).insertionSort (· ≤ ·)

/-- `dets` with the index of each row -/
def indexed (dets : List Det) : List (Nat × Det) := dets.zipIdx.map fun p => (p.2, p.1)

/-- `_nms_per_class(dets, iou_thres)` (142-168) -/
def nmsPerClass (order : List (Nat × Det) → List (Nat × Det)) (dets : List Det) (thr : ℚ) : List Nat :=
  if dets.length = 0 then []
  else
    let keep := (classesOf dets).flatMap fun c => nmsLoop thr (order ((indexed dets).filter fun p => p.2.cls = c))
    keep.insertionSort (· ≤ ·)

/-- `np.clip(v, 0, hi)` (100-103) -/
def clip (v hi : ℚ) : ℚ := min (max v 0) hi

/-- lines 81-123: the rows above the threshold, cut to the image, without the empty ones -/
def candidates (rows : List (Nat → ℚ)) (H W confThres : ℚ) : List Det :=
  let kept := rows.filter fun r => r 4 > confThres
  let clipped := kept.map fun r => ({ x1 := clip (r 0) W, y1 := clip (r 1) H, x2 := clip (r 2) W, y2 := clip (r 3) H, cls := r 5, conf := r 4 } : Det)
  clipped.filter fun d => d.x2 > d.x1 ∧ d.y2 > d.y1

/-- `l[:n]` of numpy for an integer `n` -/
def sliceTo {α : Type} (l : List α) (n : Int) : List α :=
  if 0 ≤ n then l.take n.toNat else l.take (l.length - (-n).toNat)

/-- lines 126-137: suppression, then the cut to `max_det` -/
def finish (order : List (Nat × Det) → List (Nat × Det)) (dets : List Det) (iouThres : ℚ) (maxDet : Int) : List Det :=
  let kept := (nmsPerClass order dets iouThres).filterMap fun i => dets[i]?
  if (kept.length : Int) > maxDet then (sliceTo (order (indexed kept)) maxDet).map (·.2) else kept

/-- lines 81-139 for the matrix of one image -/
def ofRows (order : List (Nat × Det) → List (Nat × Det)) (width : Nat) (rows : List (Nat → ℚ)) (H W confThres iouThres : ℚ) (maxDet : Int) : List Det :=
  if width < 6 then []
  else
    let dets := candidates rows H W confThres
    if dets.length = 0 then [] else finish order dets iouThres maxDet

/-- `yolo_postprocess(output, (H, W), conf_thres, iou_thres, max_det)[0]` (59-139): the list the function returns always has this one element -/
def postprocess (order : List (Nat × Det) → List (Nat × Det)) (o : Output) (H W confThres iouThres : ℚ) (maxDet : Int) : Except PyErr (List Det) :=
  match o with
  | .matrix width rows => .ok (ofRows order width rows H W confThres iouThres maxDet)
  | .stack _ [] => .error .indexError
  | .stack width (rows :: _) => .ok (ofRows order width rows H W confThres iouThres maxDet)

end OnnxTool.Yolo
